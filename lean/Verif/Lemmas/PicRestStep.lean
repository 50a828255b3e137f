import Verif.Lemmas.PicRest
import Verif.Props.PicOpen

/-!
# Lemmas: one iteration of a plasma at rest
-/

namespace Fbpic.Pic

open Transform ExternalField Step
open Spec (noField NoFields Motionless AllAtRest Stands Paired LeapFrom ChargeOf CurrentOf Density
  scalHat vecHat vecBack scalBack charges earlier back velocity smoothing MovedScal MovedHat rowAfter movedVec movedArr OnGrid V3 EM
  Sources PlusGradient PlusGradients grad div IsMaxwell hankel Entered OneProcess Healthy Started)

/-! ### Sources -/

section
variable {c : Cfg} [NeZero c.Nz]

theorem charge_unique {s : Sim} {rho rho' : ℕ → ℕ → ℕ → ℂ} (h : ChargeOf c s rho) (h' : ChargeOf c s rho') :
    ∀ m < c.Nm, ∀ iz < c.Nz, ∀ ir < c.Nr, rho' m iz ir = rho m iz ir := by
  intro m hm iz hz ir hr
  obtain ⟨a, ⟨A, hA, ha⟩, e⟩ := h m hm
  obtain ⟨a', ⟨A', hA', ha'⟩, e'⟩ := h' m hm
  have : A' = A := Except.ok.inj (hA'.symm.trans hA)
  have : a' = a := by funext iz ir; rw [ha, ha', this]
  rw [e iz hz ir hr, e' iz hz ir hr, this]

theorem charge_strip (hn : 0 < c.nthreads) {s s' : Sim} (hz : s'.zmin = s.zmin)
    (h : s'.depositing.map stripS = s.depositing.map stripS) {rho : ℕ → ℕ → ℕ → ℂ} (hc : ChargeOf c s rho) : ChargeOf c s' rho := by
  intro m hm
  obtain ⟨a, ⟨A, hA, ha⟩, e⟩ := hc m hm
  obtain ⟨h1, h2⟩ := (depositAll_ok _ _ _ _ _ _ hn _ _).1 hA
  refine ⟨a, ⟨A, (depositAll_ok _ _ _ _ _ _ hn _ _).2 ⟨?_, ?_⟩, ha⟩, e⟩
  · intro sp' hsp'
    have : stripS sp' ∈ s.depositing.map stripS := by rw [← h]; exact List.mem_map_of_mem hsp'
    obtain ⟨sp, hsp, e⟩ := List.mem_map.1 this
    rw [hz, ← speciesOk_strip, ← e, speciesOk_strip]
    exact h1 sp hsp
  · have e : ∀ l : List DepSpecies, l.map (speciesBuf .rho c.k.c (c.grid s.zmin) c.beta m)
        = (l.map stripS).map (speciesBuf .rho c.k.c (c.grid s.zmin) c.beta m) := by
      intro l
      rw [List.map_map]
      exact List.map_congr_left fun sp _ => (speciesBuf_strip _ _ _ _ sp).symm
    rw [h2, hz, e, ← h, ← e]

theorem fft_rest {N : ℕ} [NeZero N] (inv : Bool) (iz ir : ℕ) : fftAxis0 N inv (fun _ _ => 0) iz ir = 0 := by
  unfold fftAxis0 fftZ ifftZ
  split_ifs <;> simp

theorem current_rest (hn : 0 < c.nthreads) {s : Sim} (hs : AllAtRest s) {J : ℕ → ℕ → ℕ → V3} (h : CurrentOf c s J) :
    ∀ m < c.Nm, ∀ iz < c.Nz, ∀ ir < c.Nr, J m iz ir = ⟨0, 0, 0⟩ := by
  intro m hm iz hz ir hr
  have dep : ∀ sp ∈ s.depositing, ∀ p ∈ sp.ptcls, p.ux = 0 ∧ p.uy = 0 ∧ p.uz = 0 := by
    intro d hd p hp
    unfold Sim.depositing at hd
    obtain ⟨sp, hsp, rfl⟩ := List.mem_map.1 hd
    obtain ⟨q, hq, rfl⟩ := List.mem_map.1 hp
    have := hs sp (List.mem_of_mem_filter hsp) q hq
    exact ⟨this.x, this.y, this.z⟩
  have nil : ∀ {f : DepField}, f ≠ .rho → ∀ {a : Buf}, Density c f s m a → a = fun _ _ => 0 := by
    intro f hf a ha
    obtain ⟨A, hA, e⟩ := ha
    funext i j
    rw [e, depositAll_rest hf hn dep hA]
    simp
  obtain ⟨a, h1, h2, h3, e⟩ := h m hm
  obtain ⟨e1, e2, e3⟩ := e iz hz ir hr
  have z : ∀ M : ℕ → ℕ → ℝ, hankel c.Nr M (fftAxis0 c.Nz false fun _ _ => 0) iz ir = 0 := by
    intro M
    have : fftAxis0 c.Nz false (fun _ _ => (0 : ℂ)) = fun _ _ => 0 := by funext i j; exact fft_rest _ _ _
    rw [this, hankel_nil]
  have v : vecHat c m a iz ir = ⟨0, 0, 0⟩ := by
    unfold vecHat scalHat
    rw [nil (by decide) h1, nil (by decide) h2, nil (by decide) h3]
    simp only [mul_zero, sub_zero, add_zero, zero_div, z]
  rw [v] at e1 e2 e3
  refine V3.ext ?_ ?_ ?_
  · rw [e1]; simp
  · rw [e2]; simp
  · rw [e3]; simp

theorem div_grad (kz kr : ℝ) (f : ℂ) : div kz kr (grad kz kr f) = -((kz : ℂ) ^ 2 + (kr : ℂ) ^ 2) * f := by
  unfold div grad
  linear_combination ((kz : ℂ) ^ 2 * f) * Complex.I_sq

theorem sources_rest (hn : 0 < c.nthreads) (hV : c.V = none) {o : Opts} {kz kr : ℕ → ℕ → ℝ} {P : ℝ → ℝ → Sim} {s : Sim}
    (hP : ∀ a b, P a b = s) (hs : AllAtRest s) {rho₀ rho : ℕ → ℕ → ℕ → ℂ} {J : ℕ → ℕ → ℕ → V3} (h : Sources c o kz kr P rho₀ rho J)
    (hr : ∀ m < c.Nm, ∀ iz < c.Nz, ∀ ir < c.Nr, rho₀ m iz ir = rho m iz ir) :
    ∀ m < c.Nm, ∀ iz < c.Nz, ∀ ir < c.Nr, J m iz ir = ⟨0, 0, 0⟩ := by
  have sch : schemeOf c.V c.galilean = .standard := by rw [hV]; rfl
  cases hcc : o.correctCurrents
  · have := h.plain hcc
    rw [hP] at this
    exact current_rest hn hs this
  cases hcor : c.correction
  · obtain ⟨J₀, h1, h2⟩ := h.curlFree hcc hcor
    rw [hP] at h1
    intro m hm iz hz ir hir
    obtain ⟨⟨f, f1, f2, f3⟩, h4⟩ := h2 m hm iz hz ir hir
    rw [current_rest hn hs h1 m hm iz hz ir hir] at f1 f2 f3
    rw [hr m hm iz hz ir hir, sch] at h4
    simp only [zero_add] at f1 f2 f3
    have hJ : J m iz ir = grad (kz m iz) (kr m ir) f := V3.ext f1 f2 f3
    by_cases h0 : kz m iz ≠ 0 ∨ kr m ir ≠ 0
    · have h5 := h4 h0
      unfold Spec.Scheme.Continuity at h5
      rw [hJ, div_grad, sub_self, zero_div, zero_add] at h5
      have h6 : ((kz m iz : ℂ) ^ 2 + (kr m ir : ℂ) ^ 2) ≠ 0 := by
        have : (kz m iz ^ 2 + kr m ir ^ 2 : ℝ) ≠ 0 := by
          rcases h0 with h0 | h0
          · have := sq_nonneg (kr m ir); have := sq_pos_of_ne_zero h0; linarith
          · have := sq_nonneg (kz m iz); have := sq_pos_of_ne_zero h0; linarith
        exact_mod_cast this
      have hf : f = 0 := by
        rcases mul_eq_zero.1 h5 with h | h
        · exact absurd (neg_eq_zero.1 h) h6
        · exact h
      rw [hJ, hf]
      unfold grad
      simp
    · push Not at h0
      rw [hJ]
      unfold grad
      simp [h0.1, h0.2]
  · obtain ⟨J₀, rXY, rZ, h1, hXY, hZ, h2⟩ := h.cross hcc hcor
    have ha := h.after
    rw [hP] at h1 hXY hZ ha
    intro m hm iz hz ir hir
    obtain ⟨⟨f, g, f1, f2, f3⟩, h4, h5⟩ := h2 m hm iz hz ir hir
    rw [current_rest hn hs h1 m hm iz hz ir hir] at f1 f2 f3
    rw [hr m hm iz hz ir hir, sch, charge_unique ha hXY m hm iz hz ir hir, charge_unique ha hZ m hm iz hz ir hir] at h4 h5
    simp only [zero_add] at f1 f2 f3
    have hp : (J m iz ir).p = 0 ∧ (J m iz ir).m = 0 := by
      by_cases h0 : kr m ir = 0
      · rw [f1, f2]; unfold grad; simp [h0]
      · have := h5 h0
        unfold Spec.Scheme.Continuity at this
        rw [sub_self, zero_div, sub_self, zero_div, zero_add, f1, f2] at this
        unfold div grad at this
        simp only [mul_zero, add_zero] at this
        have e : -((kr m ir : ℂ) ^ 2) * f = 0 := by linear_combination this
        have hf : f = 0 := by
          rcases mul_eq_zero.1 e with h | h
          · exact absurd (pow_eq_zero_iff (two_ne_zero) |>.1 (neg_eq_zero.1 h)) (by exact_mod_cast h0)
          · exact h
        rw [f1, f2, hf]; unfold grad; simp
    have hzz : (J m iz ir).z = 0 := by
      by_cases h0 : kz m iz = 0
      · rw [f3]; unfold grad; simp [h0]
      · have := h4 h0
        unfold Spec.Scheme.Continuity at this
        rw [sub_self, zero_div, zero_add] at this
        unfold div at this
        simp only [mul_zero, sub_self, zero_add] at this
        rcases mul_eq_zero.1 this with h | h
        · exact absurd h (mul_ne_zero Complex.I_ne_zero (by exact_mod_cast h0))
        · exact h
    exact V3.ext hp.1 hp.2 hzz

theorem maxwell_rest (k mu kz kr V : ℝ) : IsMaxwell k mu kz kr V (fun _ => ⟨0, 0, 0⟩) fun _ => ⟨⟨0, 0, 0⟩, ⟨0, 0, 0⟩⟩ := by
  have key : ∀ (t : ℝ) (d : ℂ), d = 0 → HasDerivAt (fun _ : ℝ => (0 : ℂ)) d t := by
    rintro t d rfl; exact hasDerivAt_const t 0
  refine ⟨?_, ?_, ?_, ?_, ?_, ?_⟩ <;> intro t <;> refine key t _ ?_ <;> simp [Spec.curl]

/-- The field of a transform that vanishes. -/
theorem vecBack_rest (m : ℕ) {F : ℕ → ℕ → V3} (h : ∀ iz < c.Nz, ∀ ir < c.Nr, F iz ir = ⟨0, 0, 0⟩) (iz ir : ℕ) :
    (vecBack c m F).r iz ir = 0 ∧ (vecBack c m F).t iz ir = 0 ∧ (vecBack c m F).z iz ir = 0 := by
  have z : ∀ (M : ℕ → ℕ → ℝ) (a : Buf), (∀ iz < c.Nz, ∀ ir < c.Nr, a iz ir = 0) → ∀ i < c.Nz, ∀ j, hankel c.Nr M a i j = 0 := by
    intro M a ha i hi j
    unfold hankel
    refine Finset.sum_eq_zero fun l hl => ?_
    rw [ha i hi l (Finset.mem_range.1 hl)]
    simp
  have hp : ∀ iz < c.Nz, ∀ ir < c.Nr, (F iz ir).p = 0 := fun iz hz ir hr => by rw [h iz hz ir hr]
  have hm : ∀ iz < c.Nz, ∀ ir < c.Nr, (F iz ir).m = 0 := fun iz hz ir hr => by rw [h iz hz ir hr]
  have hz : ∀ iz < c.Nz, ∀ ir < c.Nr, (F iz ir).z = 0 := fun iz hz ir hr => by rw [h iz hz ir hr]
  have f : ∀ a : Buf, (∀ iz < c.Nz, a iz ir = 0) → fftAxis0 c.Nz true a iz ir = 0 := by
    intro a ha
    rw [fft_col true (a := fun _ _ => 0) ha, fft_rest]
  unfold vecBack scalBack
  dsimp only
  refine ⟨f _ fun i hi => ?_, f _ fun i hi => ?_, f _ fun i hi => ?_⟩
  · show hankel _ _ _ _ _ + hankel _ _ _ _ _ = 0
    rw [z _ _ hp i hi, z _ _ hm i hi, add_zero]
  · show _ * (hankel _ _ _ _ _ - hankel _ _ _ _ _) = 0
    rw [z _ _ hp i hi, z _ _ hm i hi, sub_zero, mul_zero]
  · exact z _ _ hz i hi ir

end

variable {c : OCfg} [NeZero c.base.Nz]

/-! ### The particles -/

theorem exchange_rest (hf : ∀ id t n x, Motionless (c.fill id t n x).2.1) {S U : OSim} (hs : AllAtRest S.sim)
    (h : c.exchange S = .ok U) : AllAtRest U.sim := by
  unfold OCfg.exchange at h
  obtain ⟨r, hr, h⟩ := (except_bind_ok _ _ _).1 h
  obtain ⟨as, ha, h⟩ := (except_bind_ok _ _ _).1 h
  have hU := Except.ok.inj h
  have hr := (mapM_ok _ _ _).1 hr
  rw [← hU]
  intro sp' hsp' p' hp'
  obtain ⟨x, hx, rfl⟩ := List.mem_map.1 hsp'
  obtain ⟨j, hj, e⟩ := List.getElem_of_mem hx
  have hj' : j < S.sim.species.zipIdx.length := by rw [hr.length_eq]; exact hj
  have hj2 : j < S.sim.species.length := by simpa using hj'
  have h1 := (List.forall₂_iff_get.1 hr).2 j hj' hj
  simp only [List.get_eq_getElem, List.getElem_zipIdx, zero_add, e] at h1
  have hsp := hs _ (List.getElem_mem hj2)
  generalize S.sim.species[j] = sp at h1 hsp
  unfold OCfg.exchangeSpecies at h1
  dsimp only at h1
  by_cases hg : c.comm.nGuard = 0
  · rw [if_pos hg] at h1
    obtain ⟨l, hl, h1⟩ := (except_bind_ok _ _ _).1 h1
    have e1 := Except.ok.inj h1
    have hl := (mapM_ok _ _ _).1 hl
    rw [← e1] at hp'
    obtain ⟨k, hk, e2⟩ := List.getElem_of_mem hp'
    have hk' : k < sp.ptcl.length := by rw [hl.length_eq]; exact hk
    have h2 := (List.forall₂_iff_get.1 hl).2 k hk' hk
    simp only [List.get_eq_getElem] at h2
    obtain ⟨z, -, e3⟩ := wrap_spec c.base h2
    rw [← e2, e3]
    exact hsp sp.ptcl[k] (List.getElem_mem hk')
  · rw [if_neg hg] at h1
    have stay : ∀ {q : Ptcl → Bool} {p : Ptcl}, p ∈ sp.ptcl.filter q → Motionless p.push.mom :=
      fun hp => hsp _ (List.mem_of_mem_filter hp)
    split at h1
    · split at h1
      · have e1 := Except.ok.inj h1
        rw [← e1] at hp'
        rcases List.mem_append.1 hp' with hp' | hp'
        · exact stay hp'
        · obtain ⟨y, -, rfl⟩ := List.mem_map.1 hp'
          exact hf _ _ _ _
      · cases h1
    · have e1 := Except.ok.inj h1
      rw [← e1] at hp'
      exact stay hp'

theorem earlier_rest (hV : c.base.V = none) {T : OSim} (ha : T.ants = []) (hs : AllAtRest T.sim) (o : Opts) (n : ℤ) (a b : ℝ) :
    charges c (earlier c o n a b T) = { T.sim with zmin := T.sim.zmin - n * c.dz } := by
  have e : T.sim.species.map (fun sp => { sp with ptcl := sp.ptcl.map fun p =>
      if o.movePositions then { p with push := { p.push with
        x := p.push.x - a * (velocity c.base p.push.mom).x
        y := p.push.y - a * (velocity c.base p.push.mom).y
        z := p.push.z - b * (velocity c.base p.push.mom).z } } else p }) = T.sim.species := by
    conv_rhs => rw [← List.map_id T.sim.species]
    refine List.map_congr_left fun sp hsp => ?_
    have : (sp.ptcl.map fun p : Ptcl => if o.movePositions then { p with push := { p.push with
        x := p.push.x - a * (velocity c.base p.push.mom).x
        y := p.push.y - a * (velocity c.base p.push.mom).y
        z := p.push.z - b * (velocity c.base p.push.mom).z } } else p) = sp.ptcl := by
      conv_rhs => rw [← List.map_id sp.ptcl]
      refine List.map_congr_left fun p hp => ?_
      rw [motionless_velocity c.base (hs sp hsp p hp)]
      split_ifs
      · simp
      · rfl
    rw [this]
    rfl
  unfold charges earlier back
  dsimp only
  rw [ha, e, hV]
  simp

/-! ### One iteration -/

/-- No antennas, no fields, all particles at rest. -/
structure OCfg.Resting (c : OCfg) (S : OSim) : Prop where
  ants : S.ants = []
  ptcl : AllAtRest S.sim
  em : ∀ m < c.base.Nm, ∀ iz < c.base.Nz, ∀ ir < c.base.Nr, ((S.sim.spect m).cell iz ir).em = ⟨⟨0, 0, 0⟩, ⟨0, 0, 0⟩⟩
  fields : NoFields c S

/-- The charge density that is kept for the next step is the one of the particles. -/
def OCfg.RhoKept (c : OCfg) [NeZero c.base.Nz] (S : OSim) : Prop := ∀ rho, ChargeOf c.base S.sim rho →
  ∀ m < c.base.Nm, ∀ iz < c.base.Nz, ∀ ir < c.base.Nr, ((S.sim.spect m).cell iz ir).rhoPrev = rho m iz ir

theorem moved_rest {N Nr : ℕ} [NeZero N] {n : ℤ} {g : ℕ → ℝ} {a b : Buf} (h : MovedScal N Nr n g a b)
    (e : ∀ iz < N, ∀ ir < Nr, a iz ir = 0) : ∀ iz < N, ∀ ir < Nr, b iz ir = 0 := by
  intro iz hz ir hr
  have h0 : MovedScal N Nr n g (fun _ _ => 0) (fun _ _ => 0) := by
    intro iz _ ir _
    rw [fft_rest, fft_rest, mul_zero]
  exact moved_unique h0 h hr (fun iz hz => e iz hz ir hr) iz hz

theorem movedHat_rest {N Nr : ℕ} [NeZero N] {n : ℤ} {g : ℕ → ℝ} {F G : ℕ → ℕ → V3} (h : MovedHat N Nr n g F G)
    (e : ∀ iz < N, ∀ ir < Nr, F iz ir = ⟨0, 0, 0⟩) : ∀ iz < N, ∀ ir < Nr, G iz ir = ⟨0, 0, 0⟩ := by
  intro iz hz ir hr
  obtain ⟨h1, h2, h3⟩ := h
  exact V3.ext (moved_rest h1 (fun iz hz ir hr => by rw [e iz hz ir hr]) iz hz ir hr)
    (moved_rest h2 (fun iz hz ir hr => by rw [e iz hz ir hr]) iz hz ir hr)
    (moved_rest h3 (fun iz hz ir hr => by rw [e iz hz ir hr]) iz hz ir hr)

theorem rest_iter (hc : OneProcess c) (hV : c.base.V = none) (hext : c.base.ext = [])
    (hfill : ∀ id t n x, Motionless (c.fill id t n x).2.1) (o : Opts) (h1 : o.useTrueRho = false) (h2 : o.correctDivE = false)
    (i : ℕ) {S T : OSim} (hS : Healthy c S) (h : c.iter o i S = .ok T) (r : c.Resting S) (hk : ¬ c.exchanges i S → c.RhoKept S) :
    c.Resting T ∧ (∃ u, Entered c i S u ∧ Paired (fun _ _ p p' => Stands p p') u T.sim) ∧
    ∃ (n : ℤ) (rho : ℕ → ℕ → ℕ → ℂ), T.zminG = S.zminG + n * c.dz ∧ (S.win = none → n = 0) ∧
      ChargeOf c.base { T.sim with zmin := T.sim.zmin - n * c.dz } rho ∧
      ∀ m < c.base.Nm, MovedScal c.base.Nz c.base.Nr n (fun _ => 1) (rho m) (fun iz ir => ((T.sim.spect m).cell iz ir).rhoPrev) := by
  obtain ⟨U, A, B, D, w⟩ := iter_way c hc.threads o i h
  have restU : AllAtRest U.sim := by
    by_cases hx : c.exchanges i S
    · exact exchange_rest hfill r.ptcl (w.exch hx)
    · rw [w.noexch hx]; exact r.ptcl
  have leap := (w.ptcl hc.size (nziz hc) hc.dz (hS.placed hc)).1
  have sound := w.soundU hc.fill hS.mom
  have stands : Paired (fun _ _ p p' => Stands p p') U.sim T.sim := by
    refine ⟨leap.count, leap.same, fun id sp sp' g1 g2 j p p' k1 k2 => ?_⟩
    have m1 := List.mem_of_getElem? g1
    have m2 := List.mem_of_getElem? k1
    exact leap_rest hext (fun m hm => (r.fields m hm).1) (fun m hm => (r.fields m hm).2) (restU sp m1 p m2)
      (leap.ptcl id sp sp' g1 g2 j p p' k1 k2 (sound sp m1 p m2))
  have restT : AllAtRest T.sim := by
    intro sp' hsp' p' hp'
    obtain ⟨id, hid, g2⟩ := List.getElem_of_mem hsp'
    obtain ⟨j, hj, k2⟩ := List.getElem_of_mem hp'
    have hid' : id < U.sim.species.length := by rw [← stands.count]; exact hid
    have g1' := List.getElem?_eq_getElem hid'
    have g2' : T.sim.species[id]? = some sp' := by rw [List.getElem?_eq_getElem hid, g2]
    have hl := (stands.same id _ _ g1' g2').2
    have hj' : j < U.sim.species[id].ptcl.length := by rw [← hl]; exact hj
    exact (stands.ptcl id _ _ g1' g2' j _ _ (List.getElem?_eq_getElem hj') (by rw [List.getElem?_eq_getElem hj, k2])).mom
  have antsT : T.ants = [] := by
    have := C94_antennas hc o i S T hS h
    rw [r.ants] at this
    exact List.forall₂_nil_left_iff.1 this
  have hT := C94_healthy hc o i S T hS h
  obtain ⟨-, -, n', hz', hw', -⟩ := C94_window hc o i S T hS h
  obtain ⟨n, rho₀, rho, J, E, B, hz, hx, hnx, hsrc, hF, hM⟩ := C94_fields hc o i S T hS h (Or.inr r.ants)
  have drift0 : (if c.base.galilean then c.base.V.getD 0 * c.base.dt else 0) = 0 := by rw [hV]; simp
  rw [drift0, add_zero] at hz hz'
  have hP := fun a b => earlier_rest hV antsT restT o n a b
  have zm : T.sim.zmin - n * c.dz = S.sim.zmin := by rw [hT.zmin, hS.zmin, hz]; ring
  have after := hsrc.after
  rw [hP] at after
  have hrho : ∀ m < c.base.Nm, ∀ iz < c.base.Nz, ∀ ir < c.base.Nr, rho₀ m iz ir = rho m iz ir := by
    by_cases hxx : c.exchanges i S
    · have := hx hxx
      rw [hP] at this
      exact charge_unique after this
    · intro m hm iz hiz ir hir
      rw [hnx hxx m hm iz hiz ir hir]
      have hU := w.noexch hxx
      refine hk hxx rho (charge_strip hc.threads (s := { T.sim with zmin := T.sim.zmin - n * c.dz }) zm.symm ?_ after) m hm iz hiz ir hir
      have := strip_of_paired (s := U.sim) (s' := T.sim) ⟨stands.count, stands.same, fun id sp sp' g1 g2 j p p' k1 k2 =>
        have q := stands.ptcl id sp sp' g1 g2 j p p' k1 k2
        ⟨q.w, q.level, q.x, q.y, q.z⟩⟩
      rw [hU] at this
      exact this.symm
  have hJ := sources_rest (s := { T.sim with zmin := T.sim.zmin - n * c.dz }) hc.threads hV hP restT hsrc hrho
  have hEB : ∀ m < c.base.Nm, ∀ iz < c.base.Nz, ∀ ir < c.base.Nr, E m iz ir = ⟨0, 0, 0⟩ ∧ B m iz ir = ⟨0, 0, 0⟩ := by
    intro m hm iz hiz ir hir
    have sch : schemeOf c.base.V c.base.galilean = .standard := by rw [hV]; rfl
    have := hF m hm iz hiz ir hir (fun _ => ⟨⟨0, 0, 0⟩, ⟨0, 0, 0⟩⟩) (by
      rw [sch, hJ m hm iz hiz ir hir]
      exact maxwell_rest _ _ _ _ _) (r.em m hm iz hiz ir hir).symm (by unfold div; simp) (by rw [h1]; simp)
    exact ⟨this.2.1 h2, this.1⟩
  have grid : ∀ m < c.base.Nm, ∀ (g : ℕ → ℝ) (F : ℕ → ℕ → V3) (G : GridVec), (∀ iz < c.base.Nz, ∀ ir < c.base.Nr, F iz ir = ⟨0, 0, 0⟩) →
      OnGrid c.base G (movedVec c.base.Nz n g (vecBack c.base m F)) → OnGrid c.base G noField := by
    intro m hm g F G hF hG
    refine ⟨fun iz hz ir hr => ?_, fun iz hz ir hr => ?_, fun iz hz ir hr => ?_⟩
    · rw [hG.r iz hz ir hr]
      show (g iz : ℂ) * (vecBack c.base m F).r _ _ = 0
      rw [(vecBack_rest m hF _ _).1, mul_zero]
    · rw [hG.t iz hz ir hr]
      show (g iz : ℂ) * (vecBack c.base m F).t _ _ = 0
      rw [(vecBack_rest m hF _ _).2.1, mul_zero]
    · rw [hG.z iz hz ir hr]
      show (g iz : ℂ) * (vecBack c.base m F).z _ _ = 0
      rw [(vecBack_rest m hF _ _).2.2, mul_zero]
  refine ⟨⟨antsT, restT, fun m hm iz hiz ir hir => ?_, fun m hm => ?_⟩, ⟨U.sim, entered_of c w.exch w.noexch, stands⟩,
    n, rho, hz, fun hw => ?_, after, fun m hm => (hM m hm).2.2.2.1⟩
  · obtain ⟨k1, k2, -⟩ := hM m hm
    exact EM.ext (movedHat_rest k1 (fun iz hz ir hr => (hEB m hm iz hz ir hr).1) iz hiz ir hir)
      (movedHat_rest k2 (fun iz hz ir hr => (hEB m hm iz hz ir hr).2) iz hiz ir hir)
  · obtain ⟨-, -, -, -, k5, k6⟩ := hM m hm
    exact ⟨grid m hm _ _ _ (fun iz hz ir hr => (hEB m hm iz hz ir hr).1) k5, grid m hm _ _ _ (fun iz hz ir hr => (hEB m hm iz hz ir hr).2) k6⟩
  · have e0 := (hw' hw).1
    rw [e0, hz] at hz'
    have : (n : ℝ) * c.dz = 0 := by linarith [hz', show (((0 : ℤ) : ℝ)) * c.dz = 0 by simp]
    rcases mul_eq_zero.1 this with h | h
    · exact_mod_cast h
    · exact absurd h hc.dz.ne'

/-- Without motion of the grid the charge density is kept. -/
theorem kept_still {T : OSim} {rho : ℕ → ℕ → ℕ → ℂ} (h1 : ChargeOf c.base { T.sim with zmin := T.sim.zmin - ((0 : ℤ) : ℝ) * c.dz } rho)
    (h2 : ∀ m < c.base.Nm, MovedScal c.base.Nz c.base.Nr 0 (fun _ => 1) (rho m) (fun iz ir => ((T.sim.spect m).cell iz ir).rhoPrev)) :
    c.RhoKept T := by
  have e : { T.sim with zmin := T.sim.zmin - ((0 : ℤ) : ℝ) * c.dz } = T.sim := by simp
  rw [e] at h1
  intro rho' h' m hm iz hz ir hr
  rw [charge_unique h1 h' m hm iz hz ir hr]
  exact moved_unique (moved_one c (a := rho m) (b := rho m) fun _ _ _ _ => rfl) (h2 m hm) hr (fun _ _ => rfl) iz hz

end Fbpic.Pic
