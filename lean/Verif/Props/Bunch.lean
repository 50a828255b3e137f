import Verif.Model.Bunch
import Verif.Lemmas.RankInterval
import Verif.Props.NewSpecies

/-! # C57, C62, C63: particle bunches -/

namespace Fbpic

open Bunch

/-! ### C57: electron bunch helper -/

/-- The call of the general function with the electron charge and mass and the same arguments. -/
def sameElectronArgs {K : Type} [Neg K] (e mE : K) (a : ElecArgs K) : Args K :=
  { q := -e, m := mE, gamma0 := a.gamma0, n := a.nE, pZmin := a.pZmin, pZmax := a.pZmax, pRmin := a.pRmin, pRmax := a.pRmax,
    pNr := a.pNr, pNz := a.pNz, pNt := a.pNt, dens := a.dens, boost := a.boost, direction := a.direction, plane := a.plane }

/-- **C57** holds if the number of macroparticles along theta is the one along z. Missing: the other cases, see `C57_violated`. -/
theorem C57_partial {K : Type} [Neg K] (e mE : K) (a : ElecArgs K) (h : a.pNt = a.pNz) :
    addElecBunch e mE a = addParticleBunch (sameElectronArgs e mE a) := by
  simp [addElecBunch, sameElectronArgs, h]

/-- **C57 is violated**: whenever `p_nt` is not `p_nz` (also for the default values 4 and 2) the helper asks for other macroparticles than
the general function: `p_nz` along theta; nothing else differs. -/
theorem C57_violated {K : Type} [Neg K] (e mE : K) (a : ElecArgs K) :
    (addElecBunch e mE a).species.pNt = some a.pNz ∧
    (addParticleBunch (sameElectronArgs e mE a)).species.pNt = some a.pNt ∧
    addElecBunch e mE a = { addParticleBunch (sameElectronArgs e mE a) with
      species := { (addParticleBunch (sameElectronArgs e mE a)).species with pNt := some a.pNz } } := ⟨rfl, rfl, rfl⟩

private def exBunch : ElecArgs ℚ := { gamma0 := 10, nE := 1, pZmin := 1, pZmax := 3, pRmin := 0, pRmax := 1, dens := fun _ _ _ => 1 }

/-- With the default numbers the helper creates 16 macroparticles where the general function creates 32. -/
theorem C57_violated_count :
    (newSpeciesParticles ⟨8, 1, 0, 0, 0, .periodic, .reflective, 1⟩ 0 1 6 ⟨8, 0, 8, 1⟩ ⟨1, 4, 0⟩ 0
      (addElecBunch 1 1 exBunch).species).map List.length = .ok 16 ∧
    (newSpeciesParticles ⟨8, 1, 0, 0, 0, .periodic, .reflective, 1⟩ 0 1 6 ⟨8, 0, 8, 1⟩ ⟨1, 4, 0⟩ 0
      (addParticleBunch (sameElectronArgs 1 1 exBunch)).species).map List.length = .ok 32 := by
  decide +kernel

/-- **C57** (fields of the bunch): the fields of the bunch are computed exactly if the user asked for them, for the direction in which the
bunch moves. -/
theorem C57_self_field {K : Type} [Neg K] (a : Args K) (e mE : K) (b : ElecArgs K) :
    ((addParticleBunch a).selfField = none ↔ a.initSelfField = false) ∧
    (∀ d, (addParticleBunch a).selfField = some d → d = a.direction) ∧
    (addElecBunch e mE b).selfField = some b.direction := by
  refine ⟨?_, ?_, rfl⟩
  · cases h : a.initSelfField <;> simp [addParticleBunch, h]
  · intro d hd
    cases h : a.initSelfField <;> simp [addParticleBunch, h] at hd
    exact hd.symm

/-! ### C63: bunch from arrays -/

private theorem filter_or_perm {α : Type} (p q : α → Bool) (l : List α) (h : ∀ x ∈ l, ¬ (p x = true ∧ q x = true)) :
    (l.filter p ++ l.filter q).Perm (l.filter fun x => p x || q x) := by
  induction l with
  | nil => simp
  | cons x l ih =>
    have ih := ih fun y hy => h y (by simp [hy])
    have hx := h x (by simp)
    cases hp : p x <;> cases hq : q x
    · simpa [hp, hq] using ih
    · simp only [List.filter_cons, hp, hq, Bool.false_eq_true, if_false, if_true, Bool.or_true]
      exact List.perm_middle.trans (ih.cons x)
    · simp only [List.filter_cons, hp, hq, Bool.false_eq_true, if_false, if_true, Bool.or_false]
      exact ih.cons x
    · exact absurd ⟨hp, hq⟩ hx

private theorem filter_ranks_perm {α : Type} (Q : ℕ → α → Bool) (l : List α) (n : ℕ)
    (h : ∀ x ∈ l, ∀ r r', r < n → r' < n → Q r x = true → Q r' x = true → r = r') :
    ((List.range n).flatMap fun r => l.filter (Q r)).Perm (l.filter fun x => (List.range n).any fun r => Q r x) := by
  induction n with
  | zero => simp
  | succ n ih =>
    have ih := ih fun x hx r r' hr hr' => h x hx r r' (by omega) (by omega)
    rw [List.range_succ, List.flatMap_append]
    simp only [List.flatMap_cons, List.flatMap_nil, List.append_nil, List.any_append, List.any_cons, List.any_nil, Bool.or_false]
    refine (ih.append_right _).trans (filter_or_perm _ _ _ ?_)
    rintro x hx ⟨h1, h2⟩
    obtain ⟨r, hr, h3⟩ := List.any_eq_true.mp h1
    have hr := List.mem_range.mp hr
    have := h x hx r n (by omega) (by omega) h3 h2
    omega

/-- **C63**: on every rank the particles created are a part of the arrays (same order, all attributes kept together); the particles of all
ranks together are, each exactly once, those inside the global physical domain (of the frame of the simulation). -/
theorem C63_distribution (c : Comm) (hsize : 0 < c.size) (zminG dz : ℝ) (hdz : 0 < dz) (boost : Option BoostConv.Conv) (ps : List In) :
    ∃ zmin zmax, c.getZminZmax zminG dz false false false none = .ok (zmin, zmax) ∧
    ∃ parts : ℕ → List Out, (∀ r, r < c.size → fromArrays c zminG dz r boost ps = .ok (parts r)) ∧
      (∀ r, r < c.size → (parts r).Sublist (ps.map (convert boost))) ∧
      ((List.range c.size).flatMap parts).Perm ((ps.map (convert boost)).filter fun p => zmin ≤ p.z ∧ p.z < zmax) := by
  obtain ⟨zmin, zmax, hg, lo, hi, hl, _, _⟩ := Comm.partition c hsize zminG dz hdz false 0
  refine ⟨zmin, zmax, hg, fun r => (ps.map (convert boost)).filter fun p => lo r ≤ p.z ∧ p.z < hi r, ?_, ?_, ?_⟩
  · intro r _
    simp [fromArrays, hl r, bind, Except.bind, pure, Except.pure]
  · intro r _
    exact List.filter_sublist
  · have hpart : ∀ z : ℝ, (zmin ≤ z ∧ z < zmax ↔ ∃ r, r < c.size ∧ lo r ≤ z ∧ z < hi r) ∧
        ∀ r r', r < c.size → r' < c.size → lo r ≤ z ∧ z < hi r → lo r' ≤ z ∧ z < hi r' → r = r' := by
      intro z
      obtain ⟨zmin', zmax', hg', lo', hi', hl', h1, h2⟩ := Comm.partition c hsize zminG dz hdz false z
      rw [hg] at hg'
      injection hg' with hg'
      obtain ⟨rfl, rfl⟩ := Prod.mk.inj hg'
      have : ∀ r, lo' r = lo r ∧ hi' r = hi r := by
        intro r
        have := (hl' r).symm.trans (hl r)
        injection this with this
        exact Prod.mk.inj this
      simp only [fun r => (this r).1, fun r => (this r).2] at h1 h2
      exact ⟨h1, h2⟩
    refine (filter_ranks_perm (fun r (p : Out) => decide (lo r ≤ p.z ∧ p.z < hi r)) _ c.size ?_).trans (List.Perm.of_eq ?_)
    · intro x _ r r' hr hr' h h'
      exact (hpart x.z).2 r r' hr hr' (by simpa using h) (by simpa using h')
    · refine List.filter_congr fun p _ => ?_
      rw [Bool.eq_iff_iff, List.any_eq_true]
      simp only [decide_eq_true_eq, List.mem_range]
      exact (hpart p.z).1.symm

/-- **C63** (attributes): in the lab frame a particle created has the position, the momentum and the weight of the arrays and its Lorentz
factor; in a boosted frame the same weight, and position and momentum are those of the same world line at the boosted time 0. -/
theorem C63_attributes (p : In) :
    (convert none p = ⟨p.x, p.y, p.z, p.ux, p.uy, p.uz, 1 / Real.sqrt (1 + p.ux ^ 2 + p.uy ^ 2 + p.uz ^ 2), p.w⟩) ∧
    ∀ b : BoostConv.Conv, 0 < b.c → 1 ≤ b.gamma0 →
      ∃ t, Spec.LorentzEvent b.gamma0 b.beta0 b.c t (p.z + b.c * p.uz / Real.sqrt (1 + p.ux ^ 2 + p.uy ^ 2 + p.uz ^ 2) * t) 0
          (convert (some b) p).z ∧
        (convert (some b) p).x = p.x + b.c * p.ux / Real.sqrt (1 + p.ux ^ 2 + p.uy ^ 2 + p.uz ^ 2) * t ∧
        (convert (some b) p).y = p.y + b.c * p.uy / Real.sqrt (1 + p.ux ^ 2 + p.uy ^ 2 + p.uz ^ 2) * t ∧
        Spec.LorentzMomentum b.gamma0 b.beta0 (Real.sqrt (1 + p.ux ^ 2 + p.uy ^ 2 + p.uz ^ 2)) p.uz
          (1 / (convert (some b) p).invGamma) (convert (some b) p).uz ∧
        (convert (some b) p).ux = p.ux ∧ (convert (some b) p).uy = p.uy ∧ (convert (some b) p).w = p.w := by
  refine ⟨rfl, fun b hc hg => ?_⟩
  obtain ⟨⟨t, h1, h2, h3⟩, h4, h5, h6, _⟩ := C49_arrays b hc hg
    ⟨p.x, p.y, p.z, p.ux, p.uy, p.uz, 1 / Real.sqrt (1 + p.ux ^ 2 + p.uy ^ 2 + p.uz ^ 2)⟩ rfl
  simp only [one_div_one_div] at h4
  refine ⟨t, ?_, ?_, ?_, h4, h5, h6, rfl⟩
  · have e : b.c * p.uz / Real.sqrt (1 + p.ux ^ 2 + p.uy ^ 2 + p.uz ^ 2) =
        b.c * p.uz * (1 / Real.sqrt (1 + p.ux ^ 2 + p.uy ^ 2 + p.uz ^ 2)) := by ring
    rw [e]; exact h1
  · rw [show (convert (some b) p).x = _ from h2]; ring
  · rw [show (convert (some b) p).y = _ from h3]; ring

/-- Three particles on two ranks: one on the edge between the ranks, one on the upper edge of the domain (not created). -/
example : fromArrays ⟨4, 2, 1, 1, 1, .opened, .opened, 1⟩ 0 1 0 none [⟨0, 0, 1, 0, 0, 0, 5⟩, ⟨0, 0, 2, 0, 0, 0, 6⟩, ⟨0, 0, 4, 0, 0, 0, 7⟩]
      = .ok [⟨0, 0, 1, 0, 0, 0, 1, 5⟩] ∧
    fromArrays ⟨4, 2, 1, 1, 1, .opened, .opened, 1⟩ 0 1 1 none [⟨0, 0, 1, 0, 0, 0, 5⟩, ⟨0, 0, 2, 0, 0, 0, 6⟩, ⟨0, 0, 4, 0, 0, 0, 7⟩]
      = .ok [⟨0, 0, 2, 0, 0, 0, 1, 6⟩] := by
  constructor <;> norm_num [fromArrays, Comm.getZminZmax, Comm.getNzIz, bind, Except.bind, pure, Except.pure, convert]

/-! ### C62: charge of a Gaussian bunch -/

private theorem sum_replicate_map {α : Type} (l : List α) (f : α → ℝ) (w : ℝ) (h : ∀ x ∈ l, f x = w) : (l.map f).sum = l.length * w := by
  rw [List.map_congr_left h]
  simp

private theorem gaussian_ok {c : ℝ} {a : GaussArgs} {draw : ℕ → Draw} {ps : List In} (h : gaussian c a draw = .ok ps) :
    0 < (kept a draw).length ∧ ps = (if a.symmetrize then
      fourfold ((kept a draw).map (propagate c a (a.nPhys / ((kept a draw).length : ℝ))))
      else (kept a draw).map (propagate c a (a.nPhys / ((kept a draw).length : ℝ)))) := by
  unfold gaussian at h
  by_cases h1 : a.symmetrize = true ∧ a.N % 4 ≠ 0
  · rw [if_pos h1] at h; cases h
  · rw [if_neg h1] at h
    by_cases h2 : (kept a draw).length = 0
    · rw [if_pos h2] at h; cases h
    · rw [if_neg h2] at h
      refine ⟨Nat.pos_of_ne_zero h2, ?_⟩
      cases hs : a.symmetrize
      · simp only [hs, Bool.false_eq_true, if_false, Except.ok.injEq] at h ⊢
        exact h.symm
      · simp only [hs, if_true, Except.ok.injEq] at h ⊢
        exact h.symm

private theorem propagate_w (c : ℝ) (a : GaussArgs) (w : ℝ) (p : Pre) : (propagate c a w p).w = w ∧ 0 ≤ (propagate c a w p).uz := by
  unfold propagate
  by_cases h : a.tf ≠ 0
  · simp [h, Real.sqrt_nonneg]
  · simp [h, Real.sqrt_nonneg]

/-- **C62** (general function): for every draw for which the bunch is created, all weights are equal and sum to the number of physical
particles, also if particles were removed and with symmetrization; the longitudinal momentum is not negative. -/
theorem C62_charge (c : ℝ) (a : GaussArgs) (draw : ℕ → Draw) (ps : List In) (h : gaussian c a draw = .ok ps) :
    (ps.map fun p => p.w).sum = a.nPhys ∧ (∀ p ∈ ps, p.w = a.nPhys / ps.length) ∧ (0 < a.nPhys → ∀ p ∈ ps, 0 < p.w) ∧ ps ≠ [] ∧
    (∀ p ∈ ps, 0 ≤ p.uz) := by
  obtain ⟨hlen, hps⟩ := gaussian_ok h
  have hlK : (0 : ℝ) < ((kept a draw).length : ℝ) := by exact_mod_cast hlen
  have hw : (∀ p ∈ ps, p.w = a.nPhys / ps.length) ∧ 0 < ps.length ∧ ∀ p ∈ ps, 0 ≤ p.uz := by
    generalize kept a draw = k at *
    generalize hp : propagate c a (a.nPhys / (k.length : ℝ)) = f at hps
    have hf : ∀ p, (f p).w = a.nPhys / (k.length : ℝ) ∧ 0 ≤ (f p).uz := by
      intro p; rw [← hp]; exact propagate_w _ _ _ _
    cases hs : a.symmetrize <;> simp only [hs, Bool.false_eq_true, if_false, if_true] at hps <;> subst hps
    · refine ⟨?_, by simpa using hlen, ?_⟩ <;> intro p hp <;> obtain ⟨q, _, rfl⟩ := List.mem_map.mp hp <;> simp [hf]
    · have hl : (fourfold (k.map f)).length = k.length * 4 := by simp [fourfold]; ring
      rw [hl]
      refine ⟨?_, by omega, ?_⟩
      · intro p hp
        push_cast
        simp only [fourfold, List.mem_append, List.mem_map, List.map_map] at hp
        rcases hp with ((⟨q, _, rfl⟩ | ⟨q, _, rfl⟩) | ⟨q, _, rfl⟩) | ⟨q, _, rfl⟩ <;> simp only [Function.comp, (hf q).1] <;>
          field_simp <;> ring
      · intro p hp
        simp only [fourfold, List.mem_append, List.mem_map, List.map_map] at hp
        rcases hp with ((⟨q, _, rfl⟩ | ⟨q, _, rfl⟩) | ⟨q, _, rfl⟩) | ⟨q, _, rfl⟩ <;> exact (hf q).2
  obtain ⟨hw, hpl, huz⟩ := hw
  have hplK : (0 : ℝ) < (ps.length : ℝ) := by exact_mod_cast hpl
  refine ⟨?_, hw, ?_, List.length_pos_iff.mp hpl, huz⟩
  · rw [sum_replicate_map _ _ _ hw]; field_simp
  · intro hn p hp
    rw [hw p hp]; positivity

/-- Rotation of a particle by a quarter turn around the axis. -/
def quarterTurn (p : In) : In := ⟨-p.y, p.x, p.z, -p.uy, p.ux, p.uz, p.w⟩

/-- **C62** (symmetrization): the bunch is invariant under a quarter turn, and the weighted means of the transverse positions and momenta
are zero. -/
theorem C62_symmetric (c : ℝ) (a : GaussArgs) (draw : ℕ → Draw) (ps : List In) (h : gaussian c a draw = .ok ps) (hs : a.symmetrize = true) :
    (ps.map quarterTurn).Perm ps ∧ (ps.map fun p => p.w * p.x).sum = 0 ∧ (ps.map fun p => p.w * p.y).sum = 0 ∧
    (ps.map fun p => p.w * p.ux).sum = 0 ∧ (ps.map fun p => p.w * p.uy).sum = 0 := by
  obtain ⟨_, hps⟩ := gaussian_ok h
  rw [hs, if_pos rfl] at hps
  generalize (kept a draw).map (propagate c a (a.nPhys / ((kept a draw).length : ℝ))) = l at hps
  subst hps
  refine ⟨?_, ?_, ?_, ?_, ?_⟩
  · simp only [fourfold, List.map_append, List.map_map]
    generalize hA : l.map (fun p => { p with w := p.w * 0.25 }) = A
    have e0 : l.map (quarterTurn ∘ fun p => { p with w := p.w * 0.25 }) = A.map fun p => ⟨-p.y, p.x, p.z, -p.uy, p.ux, p.uz, p.w⟩ := by
      rw [← hA, List.map_map]; rfl
    have e : ∀ f g : In → In, (∀ p, quarterTurn (f p) = g p) →
        l.map (quarterTurn ∘ f ∘ fun p => { p with w := p.w * 0.25 }) = A.map g := by
      intro f g hfg
      rw [← hA, List.map_map]
      refine List.map_congr_left fun p _ => ?_
      simp only [Function.comp, hfg]
    have e' : ∀ f : In → In, l.map (f ∘ fun p => { p with w := p.w * 0.25 }) = A.map f := by
      intro f
      rw [← hA, List.map_map]
    rw [e0, e _ (fun p => ⟨-p.x, -p.y, p.z, -p.ux, -p.uy, p.uz, p.w⟩) (fun p => rfl),
      e _ (fun p => ⟨p.y, -p.x, p.z, p.uy, -p.ux, p.uz, p.w⟩) (fun p => by simp [quarterTurn]),
      e _ id (fun p => by simp [quarterTurn]), e', e', e', List.map_id]
    exact List.perm_append_comm.trans (by simp)
  all_goals
    clear h
    simp only [fourfold, List.map_append, List.map_map, List.sum_append, Function.comp_def]
    induction l with
    | nil => simp
    | cons p l ih =>
      simp only [List.map_cons, List.sum_cons]
      linarith

/-- Rotation by `n` quarter turns in the transverse plane. -/
def quarterTurns (n : ℕ) (v : ℝ × ℝ) : ℝ × ℝ := (fun v : ℝ × ℝ => (-v.2, v.1))^[n] v

private theorem mem_fourfold {l : List In} {p : In} (h : p ∈ fourfold l) : ∃ q ∈ l, ∃ n < 4,
    (p.x, p.y) = quarterTurns n (q.x, q.y) ∧ (p.ux, p.uy) = quarterTurns n (q.ux, q.uy) ∧ p.z = q.z ∧ p.uz = q.uz := by
  simp only [fourfold, List.mem_append, List.mem_map] at h
  rcases h with ((⟨q, hq, rfl⟩ | ⟨q', ⟨q, hq, rfl⟩, rfl⟩) | ⟨q', ⟨q, hq, rfl⟩, rfl⟩) | ⟨q', ⟨q, hq, rfl⟩, rfl⟩
  · exact ⟨q, hq, 0, by omega, by simp [quarterTurns]⟩
  · exact ⟨q, hq, 1, by omega, by simp [quarterTurns]⟩
  · exact ⟨q, hq, 2, by omega, by simp [quarterTurns]⟩
  · exact ⟨q, hq, 3, by omega, by simp [quarterTurns]⟩

/-- **C62** (focus): every macroparticle created is one of the random draws (rotated by quarter turns if the bunch is symmetrized): it has
the drawn transverse momentum and Lorentz factor, it moves forward, and the straight line along which it moves takes it at the time `tf` to
the drawn position, which is centred on the axis and on `zf` with the requested widths. -/
theorem C62_focus (c : ℝ) (a : GaussArgs) (draw : ℕ → Draw) (ps : List In) (h : gaussian c a draw = .ok ps) (p : In) (hp : p ∈ ps) :
    ∃ (i n : ℕ) (γ : ℝ), i < a.N ∧ (a.symmetrize = false → n = 0) ∧
      γ = (if a.sigGamma > 0 then a.gamma0 + a.sigGamma * (draw i).g else a.gamma0) ∧
      γ ^ 2 = 1 + p.ux ^ 2 + p.uy ^ 2 + p.uz ^ 2 ∧ 0 ≤ p.uz ∧
      (p.ux, p.uy) = quarterTurns n (a.nEmit / a.sigR * (draw i).ux, a.nEmit / a.sigR * (draw i).uy) ∧
      (p.x + c * p.ux / γ * a.tf, p.y + c * p.uy / γ * a.tf) = quarterTurns n (a.sigR * (draw i).x, a.sigR * (draw i).y) ∧
      p.z + c * p.uz / γ * a.tf = a.zf + a.sigZ * (draw i).z := by
  obtain ⟨-, hps⟩ := gaussian_ok h
  obtain ⟨q, hq, n, hn, h1, h2, h3, h4⟩ : ∃ q ∈ (kept a draw).map (propagate c a (a.nPhys / ((kept a draw).length : ℝ))),
      ∃ n, (a.symmetrize = false → n = 0) ∧ (p.x, p.y) = quarterTurns n (q.x, q.y) ∧
        (p.ux, p.uy) = quarterTurns n (q.ux, q.uy) ∧ p.z = q.z ∧ p.uz = q.uz := by
    cases hs : a.symmetrize
    · rw [hps, hs] at hp
      exact ⟨p, by simpa using hp, 0, by simp [quarterTurns]⟩
    · rw [hps, hs, if_pos rfl] at hp
      obtain ⟨q, hq, n, -, h⟩ := mem_fourfold hp
      exact ⟨q, hq, n, by simp, h⟩
  obtain ⟨r, hr, rfl⟩ := List.mem_map.mp hq
  obtain ⟨hr, hpos⟩ := List.mem_filter.mp hr
  obtain ⟨i, hi, rfl⟩ := List.mem_map.mp hr
  have hpos : 0 ≤ uzSqr (drawOne a (draw i)) := by simpa using hpos
  have hsq := Real.sq_sqrt hpos
  have hlin : ∀ (m : ℕ) (u v : ℝ × ℝ) (s : ℝ), quarterTurns m (u.1 + s * v.1, u.2 + s * v.2) =
      ((quarterTurns m u).1 + s * (quarterTurns m v).1, (quarterTurns m u).2 + s * (quarterTurns m v).2) := by
    intro m
    induction m with
    | zero => intros; rfl
    | succ m ih =>
      intro u v s
      simp only [quarterTurns, Function.iterate_succ, Function.comp] at ih ⊢
      have := ih (-u.2, u.1) (-v.2, v.1) s
      simp only at this
      rw [← this]
      congr 2
      ring
  have hnorm : ∀ (m : ℕ) (u : ℝ × ℝ), (quarterTurns m u).1 ^ 2 + (quarterTurns m u).2 ^ 2 = u.1 ^ 2 + u.2 ^ 2 := by
    intro m
    induction m with
    | zero => intros; rfl
    | succ m ih =>
      intro u
      have := ih (-u.2, u.1)
      simp only [quarterTurns, Function.iterate_succ, Function.comp] at this ⊢
      rw [this]; ring
  refine ⟨i, n, (drawOne a (draw i)).gamma, ?_, hn, rfl, ?_, ?_, ?_, ?_, ?_⟩
  · have := List.mem_range.mp hi
    split_ifs at this <;> omega
  · have e1 : p.ux ^ 2 + p.uy ^ 2 = (drawOne a (draw i)).ux ^ 2 + (drawOne a (draw i)).uy ^ 2 := by
      have := hnorm n ((propagate c a (a.nPhys / ((kept a draw).length : ℝ)) (drawOne a (draw i))).ux,
        (propagate c a (a.nPhys / ((kept a draw).length : ℝ)) (drawOne a (draw i))).uy)
      rw [← h2] at this
      simp only at this
      rw [this]
      unfold propagate
      simp only
      split_ifs <;> rfl
    have e2 : p.uz = Real.sqrt (uzSqr (drawOne a (draw i))) := by
      rw [h4]; unfold propagate; simp only; split_ifs <;> rfl
    rw [e2, hsq]
    unfold uzSqr
    linarith
  · rw [h4]
    exact (propagate_w _ _ _ _).2
  · rw [h2]
    congr 1
    unfold propagate
    simp only
    split_ifs <;> rfl
  · have e : (p.x + c * p.ux / (drawOne a (draw i)).gamma * a.tf, p.y + c * p.uy / (drawOne a (draw i)).gamma * a.tf) =
        ((p.x, p.y).1 + (c / (drawOne a (draw i)).gamma * a.tf) * (p.ux, p.uy).1,
          (p.x, p.y).2 + (c / (drawOne a (draw i)).gamma * a.tf) * (p.ux, p.uy).2) := by
      ext <;> simp only <;> ring
    rw [e, h1, h2, ← hlin]
    congr 1
    unfold propagate
    simp only
    split_ifs with ht
    · ext <;> simp only [drawOne] <;> ring
    · have : a.tf = 0 := by simpa using ht
      simp [this, drawOne]
  · rw [h3, h4]
    unfold propagate
    simp only
    split_ifs with ht
    · simp only [drawOne]; ring
    · have : a.tf = 0 := by simpa using ht
      simp [this, drawOne]

/-- **C62** (refusals): no bunch is created exactly if the number of macroparticles cannot be symmetrized, or no macroparticle is left. -/
theorem C62_refused (c : ℝ) (a : GaussArgs) (draw : ℕ → Draw) :
    (∃ err, gaussian c a draw = .error err) ↔ (a.symmetrize = true ∧ a.N % 4 ≠ 0) ∨ kept a draw = [] := by
  unfold gaussian
  by_cases h1 : a.symmetrize = true ∧ a.N % 4 ≠ 0
  · rw [if_pos h1]; simp [h1]
  · rw [if_neg h1]
    by_cases h2 : (kept a draw).length = 0
    · rw [if_pos h2]
      simp [List.length_eq_zero_iff.mp h2]
    · rw [if_neg h2]
      have : kept a draw ≠ [] := fun h => h2 (by simp [h])
      cases hs : a.symmetrize
      · simp [this]
      · have : ¬ a.N % 4 ≠ 0 := fun h => h1 ⟨hs, h⟩
        simp_all

/-- **C62** (file): the weights sum to the number of physical particles. -/
theorem C62_file (nPhys zOff : ℝ) (rows : List Row) (ps : List In) (h : fromFile nPhys zOff rows = .ok ps) :
    (ps.map fun p => p.w).sum = nPhys ∧ ps.length = rows.length ∧ (0 < nPhys → ∀ p ∈ ps, 0 < p.w) := by
  unfold fromFile at h
  split_ifs at h with h0
  injection h with h
  subst h
  have : (0 : ℝ) < (rows.length : ℝ) := by exact_mod_cast Nat.pos_of_ne_zero h0
  refine ⟨?_, by simp, ?_⟩
  · rw [List.map_map]
    rw [sum_replicate_map rows _ (nPhys / rows.length) (by intro _ _; rfl)]
    field_simp
  · intro hn p hp
    obtain ⟨r, _, rfl⟩ := List.mem_map.mp hp
    simp only
    positivity

/-- **C62** for the electron helpers and a positive charge. Missing: negative charges (`C62_violated`), of which the documentation says
that the absolute value is taken. -/
theorem C62_elec_partial (c e Q zOff : ℝ) (he : 0 < e) (hQ : 0 < Q) (a : GaussArgs) (draw : ℕ → Draw) (rows : List Row) (ps : List In)
    (h : elecGaussian c e Q a draw = .ok ps ∨ elecFile e Q zOff rows = .ok ps) :
    (ps.map fun p => p.w).sum = |Q| / e ∧ ∀ p ∈ ps, 0 < p.w := by
  rw [abs_of_pos hQ]
  rcases h with h | h
  · obtain ⟨h1, _, h3, _⟩ := C62_charge _ _ _ _ h
    exact ⟨h1, h3 (by positivity)⟩
  · obtain ⟨h1, _, h3⟩ := C62_file _ _ _ _ h
    exact ⟨h1, h3 (by positivity)⟩

/-- **C62 is violated** for every negative charge: the weights sum to `-|Q|/e`, and all macroparticles have a negative weight, so that the
"electrons" (charge `-e`) carry a positive charge. -/
theorem C62_violated (c e Q zOff : ℝ) (he : 0 < e) (hQ : Q < 0) (a : GaussArgs) (draw : ℕ → Draw) (rows : List Row) (ps : List In)
    (h : elecGaussian c e Q a draw = .ok ps ∨ elecFile e Q zOff rows = .ok ps) :
    (ps.map fun p => p.w).sum = -(|Q| / e) ∧ (ps.map fun p => p.w).sum ≠ |Q| / e ∧ ∀ p ∈ ps, p.w < 0 := by
  have hneg : Q / e < 0 := div_neg_of_neg_of_pos hQ he
  have key : (ps.map fun p => p.w).sum = Q / e ∧ ∀ p ∈ ps, p.w < 0 := by
    rcases h with h | h
    · obtain ⟨h1, h2, _, h4, _⟩ := C62_charge _ _ _ _ h
      refine ⟨h1, fun p hp => ?_⟩
      rw [h2 p hp]
      exact div_neg_of_neg_of_pos hneg (by exact_mod_cast List.length_pos_iff.mpr h4)
    · refine ⟨(C62_file _ _ _ _ h).1, ?_⟩
      unfold elecFile fromFile at h
      split_ifs at h with h0
      injection h with h
      subst h
      intro p hp
      obtain ⟨r, _, rfl⟩ := List.mem_map.mp hp
      exact div_neg_of_neg_of_pos hneg (by exact_mod_cast Nat.pos_of_ne_zero h0)
  have e1 : -(|Q| / e) = Q / e := by rw [abs_of_neg hQ]; ring
  refine ⟨by rw [key.1, e1], ?_, key.2⟩
  rw [key.1]
  have : 0 < |Q| / e := by have := abs_pos.mpr hQ.ne; positivity
  linarith

/-- **C62** on several ranks, if all ranks have the same draws and the bunch is inside the global physical domain: the ranks together
create the whole charge. Missing: ranks with different draws, see `C62_violated_ranks` (the code does not synchronize the generators). -/
theorem C62_ranks_partial (cm : Comm) (hsize : 0 < cm.size) (zminG dz c : ℝ) (hdz : 0 < dz) (boost : Option BoostConv.Conv) (a : GaussArgs)
    (draw : ℕ → Draw) (ps : List In) (h : gaussian c a draw = .ok ps) (zmin zmax : ℝ)
    (hg : cm.getZminZmax zminG dz false false false none = .ok (zmin, zmax)) (hin : ∀ p ∈ ps, zmin ≤ (convert boost p).z ∧ (convert boost p).z < zmax) :
    ∃ parts : ℕ → List Out, (∀ r, r < cm.size → fromArrays cm zminG dz r boost ps = .ok (parts r)) ∧
      (((List.range cm.size).flatMap parts).map fun p => p.w).sum = a.nPhys := by
  obtain ⟨zmin', zmax', hg', parts, h1, _, h3⟩ := C63_distribution cm hsize zminG dz hdz boost ps
  rw [hg] at hg'
  injection hg' with hg'
  obtain ⟨rfl, rfl⟩ := Prod.mk.inj hg'
  refine ⟨parts, h1, ?_⟩
  rw [(h3.map _).sum_eq, List.filter_eq_self.mpr, List.map_map, ← (C62_charge c a draw ps h).1]
  · congr 1
    refine List.map_congr_left fun p _ => ?_
    cases boost <;> rfl
  · intro p hp
    obtain ⟨q, hq, rfl⟩ := List.mem_map.mp hp
    simpa using hin q hq

private def exGauss : GaussArgs := ⟨1, 1, 1, 2, 0, 5, 1, 0, 1, false⟩

private theorem exGauss_eq (z : ℝ) : gaussian 1 exGauss (fun _ => ⟨0, 0, 0, z, 0, 0⟩) = .ok [⟨0, 0, 1 + z, 0, 0, Real.sqrt 3, 5⟩] := by
  have hk : kept exGauss (fun _ => ⟨0, 0, 0, z, 0, 0⟩) = [⟨2, 0, 0, 1 + z, 0, 0⟩] := by
    norm_num [kept, exGauss, drawOne, uzSqr]
  unfold gaussian
  rw [hk]
  norm_num [exGauss, propagate, uzSqr]

/-- **C62 is violated on several ranks**: every rank draws its own bunch and keeps the particles in its own sub-domain. Here both bunches
are inside the global domain and carry 5 physical particles, but none is created. -/
theorem C62_violated_ranks : ∃ (cm : Comm) (draw : ℕ → ℕ → Draw) (ps : ℕ → List In), cm.size = 2 ∧
    cm.getZminZmax (0 : ℝ) 1 false false false none = .ok (0, 2) ∧
    (∀ r, r < 2 → gaussian 1 exGauss (draw r) = .ok (ps r)) ∧ (∀ r, r < 2 → ∀ p ∈ ps r, 0 ≤ p.z ∧ p.z < 2) ∧
    (∀ r, r < 2 → ((ps r).map fun p => p.w).sum = 5) ∧ ∀ r, r < 2 → fromArrays cm 0 1 r none (ps r) = .ok [] := by
  refine ⟨⟨2, 2, 1, 0, 0, .opened, .reflective, 1⟩, fun r _ => ⟨0, 0, 0, if r = 0 then 1 / 2 else -(1 / 2), 0, 0⟩,
    fun r => [⟨0, 0, 1 + (if r = 0 then 1 / 2 else -(1 / 2)), 0, 0, Real.sqrt 3, 5⟩], rfl, ?_, ?_, ?_, ?_, ?_⟩
  · norm_num [Comm.getZminZmax, Comm.getNzIz, bind, Except.bind, pure, Except.pure]
  · intro r _
    exact exGauss_eq _
  · intro r _ p hp
    rw [List.mem_singleton] at hp
    subst hp
    split_ifs <;> norm_num
  · intro r _
    simp
  · intro r hr
    have : r = 0 ∨ r = 1 := by omega
    rcases this with rfl | rfl <;>
      norm_num [fromArrays, Comm.getZminZmax, Comm.getNzIz, bind, Except.bind, pure, Except.pure, convert]

/-- A symmetrized bunch of four macroparticles, and one with a removed particle. -/
example : (∃ ps, gaussian 1 ⟨1, 1, 1, 2, 0, 8, 4, 0, 0, true⟩ (fun _ => ⟨0, 1, 2, 3, 1 / 2, 0⟩) = .ok ps ∧ ps.length = 4) ∧
    (∃ ps, gaussian 1 ⟨1, 1, 1, 2, 0, 8, 2, 1, 0, false⟩ (fun i => ⟨0, 1, 2, 3, if i = 0 then 5 else 0, 0⟩) = .ok ps ∧ ps.length = 1) := by
  constructor
  · have hk : kept ⟨1, 1, 1, 2, 0, 8, 4, 0, 0, true⟩ (fun _ => ⟨0, 1, 2, 3, 1 / 2, 0⟩) = [⟨2, 1, 2, 3, 1 / 2, 0⟩] := by
      norm_num [kept, drawOne, uzSqr]
    refine ⟨fourfold [propagate 1 ⟨1, 1, 1, 2, 0, 8, 4, 0, 0, true⟩ 8 ⟨2, 1, 2, 3, 1 / 2, 0⟩], ?_, by simp [fourfold]⟩
    unfold gaussian; rw [hk]; norm_num
  · have hk : kept ⟨1, 1, 1, 2, 0, 8, 2, 1, 0, false⟩ (fun i => ⟨0, 1, 2, 3, if i = 0 then 5 else 0, 0⟩) = [⟨2, 1, 2, 3, 0, 0⟩] := by
      norm_num [kept, drawOne, uzSqr, List.range_succ, List.filter_cons]
    refine ⟨[propagate 1 ⟨1, 1, 1, 2, 0, 8, 2, 1, 0, false⟩ 8 ⟨2, 1, 2, 3, 0, 0⟩], ?_, by simp⟩
    unfold gaussian; rw [hk]; norm_num

end Fbpic
