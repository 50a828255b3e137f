import Verif.Lemmas.Push
import Verif.Spec.Push

/-!
# C27: momentum push; C28: ionization levels in the push; C29: cross-deposition pushes;
# C59: time reversal; C61: ballistic plane
-/

namespace Fbpic

open Spec

/-! ### C27 -/

/-- **C27.** For every particle with consistent `inv_gamma`, every field and all coefficients, the
result of the push is the one and only solution of the relativistic equation of motion over the
step, with the inverse Lorentz factor that belongs to the new momentum. -/
theorem C27_push_iff (e : ElecMom) (he : e.ok) (E B : Vec3) (kE kB : ℝ) (f : ElecMom) :
    pushVay e E B kE kB = f ↔ NewtonLorentz kE kB E B e f := by
  unfold ElecMom.ok at he
  obtain ⟨g, hg, h1, h2, h3⟩ := pushVay_eq e E B kE kB
  have hgam := vaySolve_gamma _ _ _ _ g hg h3
  constructor
  · rintro rfl
    obtain ⟨ex, ey, ez⟩ := vaySolve_eq (uPrime e E B kE kB) (kB * B.x) (kB * B.y) (kB * B.z) g hg
    rw [← h1] at ex ey ez hgam
    refine ⟨?_, ?_, ?_, ?_⟩
    · show _ = 1 / ElecMom.gamma _
      rw [hgam, h1]; rfl
    · rw [hgam]; simp only [uPrime, he] at ex; linear_combination ex
    · rw [hgam]; simp only [uPrime, he] at ey; linear_combination ey
    · rw [hgam]; simp only [uPrime, he] at ez; linear_combination ez
  · intro hf
    have hok : f.ok := hf.onShell
    have hfg := f.gamma_pos
    have hx : f.ux - (f.uy * (kB * B.z) - f.uz * (kB * B.y)) / f.gamma = (uPrime e E B kE kB).x := by
      simp only [uPrime, he]; linear_combination hf.x
    have hy : f.uy - (f.uz * (kB * B.x) - f.ux * (kB * B.z)) / f.gamma = (uPrime e E B kE kB).y := by
      simp only [uPrime, he]; linear_combination hf.y
    have hz : f.uz - (f.ux * (kB * B.y) - f.uy * (kB * B.x)) / f.gamma = (uPrime e E B kE kB).z := by
      simp only [uPrime, he]; linear_combination hf.z
    have hu := vaySolve_unique (uPrime e E B kE kB) (kB * B.x) (kB * B.y) (kB * B.z) f hok hx hy hz
    -- `f` satisfies the same quadratic equation for gamma²
    have hroot : (f.gamma ^ 2) ^ 2 - (1 + (uPrime e E B kE kB).x ^ 2 + (uPrime e E B kE kB).y ^ 2
        + (uPrime e E B kE kB).z ^ 2 - ((kB * B.x) ^ 2 + (kB * B.y) ^ 2 + (kB * B.z) ^ 2)) * f.gamma ^ 2
      - ((kB * B.x) ^ 2 + (kB * B.y) ^ 2 + (kB * B.z) ^ 2
        + ((uPrime e E B kE kB).x * (kB * B.x) + (uPrime e E B kE kB).y * (kB * B.y)
          + (uPrime e E B kE kB).z * (kB * B.z)) ^ 2) = 0 := by
      rw [← hx, ← hy, ← hz]
      set tx := kB * B.x
      set ty := kB * B.y
      set tz := kB * B.z
      have hG2 := f.gamma_sq
      set G := f.gamma
      have e1 : (f.ux - (f.uy * tz - f.uz * ty) / G) * tx + (f.uy - (f.uz * tx - f.ux * tz) / G) * ty
          + (f.uz - (f.ux * ty - f.uy * tx) / G) * tz = f.ux * tx + f.uy * ty + f.uz * tz := by ring
      have e2 : ((f.ux - (f.uy * tz - f.uz * ty) / G) ^ 2 + (f.uy - (f.uz * tx - f.ux * tz) / G) ^ 2
          + (f.uz - (f.ux * ty - f.uy * tx) / G) ^ 2) * G ^ 2
          = (f.ux ^ 2 + f.uy ^ 2 + f.uz ^ 2) * G ^ 2 + ((f.uy * tz - f.uz * ty) ^ 2
            + (f.uz * tx - f.ux * tz) ^ 2 + (f.ux * ty - f.uy * tx) ^ 2) := by
        field_simp; ring
      rw [e1]
      linear_combination (G ^ 2 + tx ^ 2 + ty ^ 2 + tz ^ 2) * hG2 - e2
    have huniq := vay_root_unique _ _ (f.gamma ^ 2) (by positivity) (by positivity) hroot
    have hgg : g ^ 2 = f.gamma ^ 2 := h2.trans huniq
    have : g = f.gamma := by
      have := abs_eq_abs.mpr (sq_eq_sq_iff_eq_or_eq_neg.mp hgg)
      rwa [abs_of_pos hg, abs_of_pos hfg] at this
    rw [h1, this, hu]

/-- **C27 (consistency).** The new inverse Lorentz factor belongs to the new momentum, whatever
was stored before. -/
theorem C27_consistent (e : ElecMom) (E B : Vec3) (kE kB : ℝ) : (pushVay e E B kE kB).ok := by
  obtain ⟨g, hg, h1, _, h3⟩ := pushVay_eq e E B kE kB
  have hgam := vaySolve_gamma _ _ _ _ g hg h3
  rw [← h1] at hgam
  show _ = 1 / ElecMom.gamma _
  rw [hgam, h1]; rfl

/-- **C27 (no field).** Without fields the state is unchanged. -/
theorem C27_no_field (e : ElecMom) (he : e.ok) (kE kB : ℝ) :
    pushVay e ⟨0, 0, 0⟩ ⟨0, 0, 0⟩ kE kB = e :=
  (C27_push_iff e he _ _ kE kB e).mpr ⟨he, by simp, by simp, by simp⟩

/-- **C27 (magnetic field).** With a magnetic field only, the modulus of the momentum, the Lorentz
factor and the momentum along the field are unchanged, for every strength and time step. -/
theorem C27_magnetic (e : ElecMom) (he : e.ok) (B : Vec3) (kE kB : ℝ) :
    let f := pushVay e ⟨0, 0, 0⟩ B kE kB
    f.ux ^ 2 + f.uy ^ 2 + f.uz ^ 2 = e.ux ^ 2 + e.uy ^ 2 + e.uz ^ 2 ∧ f.invGamma = e.invGamma ∧
      f.ux * B.x + f.uy * B.y + f.uz * B.z = e.ux * B.x + e.uy * B.y + e.uz * B.z := by
  intro f
  have hG2 := e.gamma_sq
  have hGp := e.gamma_pos
  -- the candidate: rotation with the initial gamma
  set w := vaySolve (uPrime e ⟨0, 0, 0⟩ B kE kB) (kB * B.x) (kB * B.y) (kB * B.z) (1 / e.gamma) with hw
  have hu : uPrime e ⟨0, 0, 0⟩ B kE kB = ⟨e.ux + (e.uy * (kB * B.z) - e.uz * (kB * B.y)) / e.gamma,
      e.uy + (e.uz * (kB * B.x) - e.ux * (kB * B.z)) / e.gamma,
      e.uz + (e.ux * (kB * B.y) - e.uy * (kB * B.x)) / e.gamma⟩ := by
    unfold ElecMom.ok at he
    simp only [uPrime, he]
    ext <;> simp only <;> ring
  have hwg : w.gamma = e.gamma := by
    refine vaySolve_gamma _ _ _ _ _ hGp ?_
    rw [hu]
    simp only
    set tx := kB * B.x
    set ty := kB * B.y
    set tz := kB * B.z
    set G := e.gamma
    have e1 : (e.ux + (e.uy * tz - e.uz * ty) / G) * tx + (e.uy + (e.uz * tx - e.ux * tz) / G) * ty
        + (e.uz + (e.ux * ty - e.uy * tx) / G) * tz = e.ux * tx + e.uy * ty + e.uz * tz := by ring
    have e2 : ((e.ux + (e.uy * tz - e.uz * ty) / G) ^ 2 + (e.uy + (e.uz * tx - e.ux * tz) / G) ^ 2
        + (e.uz + (e.ux * ty - e.uy * tx) / G) ^ 2) * G ^ 2
        = (e.ux ^ 2 + e.uy ^ 2 + e.uz ^ 2) * G ^ 2 + ((e.uy * tz - e.uz * ty) ^ 2
          + (e.uz * tx - e.ux * tz) ^ 2 + (e.ux * ty - e.uy * tx) ^ 2) := by
      field_simp; ring
    rw [e1]
    linear_combination (G ^ 2 + tx ^ 2 + ty ^ 2 + tz ^ 2) * hG2 - e2
  obtain ⟨ex, ey, ez⟩ := vaySolve_eq (uPrime e ⟨0, 0, 0⟩ B kE kB) (kB * B.x) (kB * B.y) (kB * B.z)
    e.gamma hGp
  rw [← hw, hu] at ex ey ez
  simp only at ex ey ez
  have hfw : f = w := (C27_push_iff e he ⟨0, 0, 0⟩ B kE kB w).mpr
    ⟨by show w.invGamma = 1 / w.gamma; rw [hwg, hw]; rfl,
      by rw [hwg]; linear_combination ex, by rw [hwg]; linear_combination ey,
      by rw [hwg]; linear_combination ez⟩
  rw [hfw]
  refine ⟨?_, ?_, ?_⟩
  · have := w.gamma_sq
    rw [hwg] at this; linarith
  · rw [hw]; exact he.symm
  · by_cases hk : kB = 0
    · subst hk
      simp only [zero_mul, mul_zero, sub_zero, zero_div, add_zero] at ex ey ez
      rw [ex, ey, ez]
    · have : kB * (w.ux * B.x + w.uy * B.y + w.uz * B.z)
          = kB * (e.ux * B.x + e.uy * B.y + e.uz * B.z) := by
        linear_combination (kB * B.x) * ex + (kB * B.y) * ey + (kB * B.z) * ez
      exact mul_left_cancel₀ hk this

/-- **C27 (time reversal).** Reversing the velocity after the push and pushing again in the same
electric and the reversed magnetic field brings the particle back to its reversed initial state. -/
theorem C27_reversible (e : ElecMom) (he : e.ok) (E B : Vec3) (kE kB : ℝ) :
    pushVay (flipU (pushVay e E B kE kB)) E (neg B) kE kB = flipU e := by
  have hf := (C27_push_iff e he E B kE kB _).mp rfl
  set f := pushVay e E B kE kB with hfd
  have hgf : (flipU f).gamma = f.gamma := by simp [flipU, ElecMom.gamma]
  have hge : (flipU e).gamma = e.gamma := by simp [flipU, ElecMom.gamma]
  have hok : (flipU f).ok := by
    show f.invGamma = 1 / (flipU f).gamma
    rw [hgf]; exact hf.onShell
  rw [C27_push_iff _ hok]
  refine ⟨?_, ?_, ?_, ?_⟩
  · show e.invGamma = 1 / (flipU e).gamma
    rw [hge]; exact he
  · rw [hgf, hge]; simp only [flipU, neg]; linear_combination hf.x
  · rw [hgf, hge]; simp only [flipU, neg]; linear_combination hf.y
  · rw [hgf, hge]; simp only [flipU, neg]; linear_combination hf.z

/-- The hypothesis `ok` is met, e.g. by `u = (0, 3/4, 0)`, `gamma = 5/4`. -/
example : ElecMom.ok ⟨0, 3 / 4, 0, 4 / 5⟩ := by
  unfold ElecMom.ok ElecMom.gamma
  rw [show (1 : ℝ) + 0 ^ 2 + (3 / 4) ^ 2 + 0 ^ 2 = (5 / 4) ^ 2 by norm_num,
    Real.sqrt_sq (by norm_num)]
  norm_num

/-- **C27 (positions).** A position push over `dt` moves a particle by `c dt u / γ` along each of
the pushed directions and not at all along the others, in the direction of the sign given; momenta
and level are kept; and it moves less than light does in that time. -/
theorem C27_position (c dt px py pz : ℝ) (p : PushPtcl) (he : p.mom.ok) :
    let f := pushX c dt px py pz p
    let g := Real.sqrt (1 + p.mom.ux ^ 2 + p.mom.uy ^ 2 + p.mom.uz ^ 2)
    f.x - p.x = px * (c * dt * p.mom.ux / g) ∧ f.y - p.y = py * (c * dt * p.mom.uy / g) ∧
      f.z - p.z = pz * (c * dt * p.mom.uz / g) ∧ f.mom = p.mom ∧ f.level = p.level ∧
      (|px| ≤ 1 → |py| ≤ 1 → |pz| ≤ 1 → c * dt ≠ 0 →
        (f.x - p.x) ^ 2 + (f.y - p.y) ^ 2 + (f.z - p.z) ^ 2 < (c * dt) ^ 2) := by
  intro f g
  have hg2 : g ^ 2 = 1 + p.mom.ux ^ 2 + p.mom.uy ^ 2 + p.mom.uz ^ 2 :=
    Real.sq_sqrt (by positivity)
  have hg : 0 < g := Real.sqrt_pos.mpr (by positivity)
  have hi : p.mom.invGamma = 1 / g := he
  have hx : f.x - p.x = px * (c * dt * p.mom.ux / g) := by
    simp only [f, pushX, hi]; ring
  have hy : f.y - p.y = py * (c * dt * p.mom.uy / g) := by
    simp only [f, pushX, hi]; ring
  have hz : f.z - p.z = pz * (c * dt * p.mom.uz / g) := by
    simp only [f, pushX, hi]; ring
  refine ⟨hx, hy, hz, rfl, rfl, fun h1 h2 h3 hcd => ?_⟩
  rw [hx, hy, hz]
  have b1 : px ^ 2 ≤ 1 := by rw [← sq_abs]; exact pow_le_one₀ (abs_nonneg _) h1
  have b2 : py ^ 2 ≤ 1 := by rw [← sq_abs]; exact pow_le_one₀ (abs_nonneg _) h2
  have b3 : pz ^ 2 ≤ 1 := by rw [← sq_abs]; exact pow_le_one₀ (abs_nonneg _) h3
  have e : (px * (c * dt * p.mom.ux / g)) ^ 2 + (py * (c * dt * p.mom.uy / g)) ^ 2
      + (pz * (c * dt * p.mom.uz / g)) ^ 2
      = (c * dt) ^ 2 * ((px ^ 2 * p.mom.ux ^ 2 + py ^ 2 * p.mom.uy ^ 2 + pz ^ 2 * p.mom.uz ^ 2) / g ^ 2) := by
    field_simp
  rw [e]
  have hpos : 0 < (c * dt) ^ 2 := by positivity
  have hlt : (px ^ 2 * p.mom.ux ^ 2 + py ^ 2 * p.mom.uy ^ 2 + pz ^ 2 * p.mom.uz ^ 2) / g ^ 2 < 1 := by
    rw [div_lt_one (by positivity), hg2]
    have := mul_le_mul_of_nonneg_right b1 (sq_nonneg p.mom.ux)
    have := mul_le_mul_of_nonneg_right b2 (sq_nonneg p.mom.uy)
    have := mul_le_mul_of_nonneg_right b3 (sq_nonneg p.mom.uz)
    linarith
  calc _ < (c * dt) ^ 2 * 1 := mul_lt_mul_of_pos_left hlt hpos
    _ = _ := mul_one _

/-! ### C28 -/

/-- **C28.** In an ionizable species, a particle of level `n` is pushed exactly as a particle of
charge `n*e` of a normal species would be; in particular neutral atoms are left untouched, and level-one
ions behave as a species of charge `e`. -/
theorem C28_levels (c eCharge : ℝ) (s : PushSpecies) (hion : s.ionizable = true)
    (hpl : s.plane = none) (hq : s.q = eCharge) (he : eCharge ≠ 0)
    (hok : ∀ p ∈ s.ptcl, p.mom.ok) (F : ℕ → PtclFields) (t : ℝ) :
    ∃ s', s.pushP c eCharge F t = .ok s' ∧ s'.ptcl.length = s.ptcl.length ∧
      ∀ i (h : i < s.ptcl.length) (h' : i < s'.ptcl.length),
        s'.ptcl[i] = pushP c ((s.ptcl[i].level : ℝ) * eCharge) s.m s.dt (F i) s.ptcl[i] ∧
        (s.ptcl[i].level = 0 → s'.ptcl[i] = s.ptcl[i]) ∧
        (s.ptcl[i].level = 1 → s'.ptcl[i] = pushP c eCharge s.m s.dt (F i) s.ptcl[i]) := by
  have h0 : s.q ≠ 0 := by rw [hq]; exact he
  refine ⟨_, by simp only [PushSpecies.pushP, h0, if_false, hpl, hion, if_true]; rfl, by simp, ?_⟩
  intro i h h'
  simp only [List.getElem_mapIdx]
  have hp := hok _ (List.getElem_mem h)
  set p := s.ptcl[i] with hpd
  have main : pushPIoniz c eCharge s.m s.dt (F i) p
      = pushP c ((p.level : ℝ) * eCharge) s.m s.dt (F i) p := by
    unfold pushPIoniz pushP
    by_cases hl : p.level = 0
    · rw [if_pos hl, hl]
      have : pushVay p.mom (F i).E (F i).B (((0 : ℕ) : ℝ) * eCharge * s.dt / (s.m * c))
          (0.5 * (((0 : ℕ) : ℝ) * eCharge) * s.dt / s.m) = p.mom :=
        (C27_push_iff _ hp _ _ _ _ _).mpr ⟨hp, by simp, by simp, by simp⟩
      rw [this, ← hl]
    · rw [if_neg hl]
      have e1 : eCharge * s.dt / (s.m * c) * (p.level : ℝ) = (p.level : ℝ) * eCharge * s.dt / (s.m * c) := by
        ring
      have e2 : 0.5 * eCharge * s.dt / s.m * (p.level : ℝ)
          = 0.5 * ((p.level : ℝ) * eCharge) * s.dt / s.m := by ring
      rw [e1, e2]
  refine ⟨main, ?_, ?_⟩
  · intro hl; simp [pushPIoniz, hl]
  · intro hl; rw [main, hl]; simp

/-- A species with a neutral atom and a doubly charged ion, in a field. -/
example : ∃ s : PushSpecies, s.ionizable = true ∧ s.plane = none ∧ s.q ≠ 0 ∧ s.ptcl.length = 2 ∧
    ∀ p ∈ s.ptcl, p.mom.ok :=
  ⟨⟨1, 1, 1, true, none, [⟨0, 0, 0, ⟨0, 0, 0, 1⟩, 0⟩, ⟨0, 0, 0, ⟨0, 0, 0, 1⟩, 2⟩]⟩, rfl, rfl,
    by norm_num, rfl, by intro p hp; simp at hp; rcases hp with rfl | rfl <;> simp [ElecMom.ok, ElecMom.gamma]⟩

/-! ### C29 -/

private theorem map_id' {α : Type} (f : α → α) (h : ∀ a, f a = a) (l : List α) : l.map f = l := by
  rw [show f = id from funext h, List.map_id]

/-- **C29.** The three pushes of the cross-deposition leave all particles, all antennas and all
grid bounds where they were, whether or not particles are moved and the frame is Galilean. -/
theorem C29_restores (c : ℝ) (movePositions galilean : Bool) (vComoving dt : ℝ) (s : Movables) :
    (s.crossDeposit c movePositions galilean vComoving dt).2.2 = s := by
  have hp : ∀ p : PushPtcl, pushX c (0.5 * dt) 1 1 (-1) (pushX c dt (-1) (-1) 1
      (pushX c (0.5 * dt) 1 1 (-1) p)) = p := by
    intro p; ext <;> simp only [pushX] <;> ring
  have ha : ∀ a : AntennaPtcl, AntennaPtcl.pushX (0.5 * dt) 1 1 (-1) (AntennaPtcl.pushX dt (-1) (-1) 1
      (AntennaPtcl.pushX (0.5 * dt) 1 1 (-1) a)) = a := by
    intro a; ext <;> simp only [AntennaPtcl.pushX] <;> ring
  have hb : ∀ z : ℝ, z + vComoving * (-0.5 * dt) + vComoving * dt + vComoving * (-0.5 * dt) = z := by
    intro z; ring
  unfold Movables.crossDeposit Movables.crossPush Movables.shiftGalilean
  cases movePositions <;> cases galilean <;>
  · ext : 1
    all_goals simp only [if_true, if_false, Bool.false_eq_true, List.map_map]
    all_goals first
      | rfl
      | (refine map_id' _ (fun l => ?_) _
         first
         | (simp only [Function.comp_apply, List.map_map]
            exact map_id' _ (fun p => by first | exact hp p | exact ha p) _)
         | (simp only [Function.comp_apply]; exact hb l))

/-- **C29 (intermediate states).** In the deposition of `rho_next_xy` the particles are at `x` of the end
of the step and `z` of its beginning, in that of `rho_next_z` the opposite. -/
theorem C29_intermediate (c dt : ℝ) (galilean : Bool) (vComoving : ℝ) (s : Movables) :
    let r := s.crossDeposit c true galilean vComoving dt
    r.1.species = s.species.map (·.map fun p =>
      { p with x := (pushX c (dt / 2) 1 1 1 p).x, y := (pushX c (dt / 2) 1 1 1 p).y,
               z := (pushX c (-(dt / 2)) 1 1 1 p).z }) ∧
    r.2.1.species = s.species.map (·.map fun p =>
      { p with x := (pushX c (-(dt / 2)) 1 1 1 p).x, y := (pushX c (-(dt / 2)) 1 1 1 p).y,
               z := (pushX c (dt / 2) 1 1 1 p).z }) := by
  intro r
  have h1 : r.1.species = s.species.map (·.map (pushX c (0.5 * dt) 1 1 (-1))) := by
    cases galilean <;> rfl
  have h2 : r.2.1.species = r.1.species.map (·.map (pushX c dt (-1) (-1) 1)) := by
    cases galilean <;> rfl
  rw [h2, h1]
  constructor
  · refine List.map_congr_left fun l _ => List.map_congr_left fun p _ => ?_
    ext <;> simp only [pushX] <;> ring
  · rw [List.map_map]
    refine List.map_congr_left fun l _ => ?_
    simp only [Function.comp_apply, List.map_map]
    refine List.map_congr_left fun p _ => ?_
    simp only [Function.comp_apply]
    ext <;> simp only [pushX] <;> ring

/-! ### C59 -/

/-- **C59.** Reversing twice restores everything; one reversal negates exactly the magnetic fields of
the simulated modes and the momenta, and keeps positions, electric fields, `inv_gamma` (so that
consistent particles stay consistent). -/
theorem C59_reverse_time {I : Type} (Nm : ℕ) (s : RevState I) :
    (s.reverseTime Nm).reverseTime Nm = s ∧
    (s.reverseTime Nm).spectE = s.spectE ∧ (s.reverseTime Nm).interpE = s.interpE ∧
    (∀ m < Nm, ∀ i, (s.reverseTime Nm).spectB m i = -(s.spectB m i) ∧
      (s.reverseTime Nm).interpB m i = -(s.interpB m i)) ∧
    (s.reverseTime Nm).species = s.species.map (·.map fun p => { p with mom := flipU p.mom }) ∧
    (∀ e : ElecMom, e.ok → (flipU e).ok) := by
  have hneg : ∀ v : ℂ × ℂ × ℂ, neg3 v = -v := by
    intro v; simp [neg3, Prod.ext_iff]
  have hmom : ∀ e : ElecMom,
      ({ e with ux := e.ux * -1, uy := e.uy * -1, uz := e.uz * -1 } : ElecMom) = flipU e := by
    intro e; ext <;> simp [flipU]
  refine ⟨?_, rfl, rfl, ?_, ?_, ?_⟩
  · unfold RevState.reverseTime
    obtain ⟨sE, sB, iE, iB, sp⟩ := s
    simp only [List.map_map, RevState.mk.injEq, true_and]
    refine ⟨?_, ?_, ?_⟩
    · funext m i; by_cases h : m < Nm <;> simp [h, hneg]
    · funext m i; by_cases h : m < Nm <;> simp [h, hneg]
    · refine map_id' _ (fun l => ?_) _
      simp only [Function.comp_apply, List.map_map]
      refine map_id' _ (fun p => ?_) _
      ext <;> simp
  · intro m hm i; simp [RevState.reverseTime, hm, hneg]
  · simp only [RevState.reverseTime, hmom]
  · intro e he
    show e.invGamma = 1 / (flipU e).gamma
    rw [he]; simp [flipU, ElecMom.gamma]

/-! ### C61 -/

/-- **C61.** For a species that is ballistic before a plane, at every time: a particle that is not beyond
the current position of the plane keeps its momentum exactly (and its position, in the
momentum push), one that is beyond gets the normal push. The plane is at the position, in the
simulation frame, of the points that are at `z_plane_lab` in the lab, at all times. -/
theorem C61_ballistic (c eCharge : ℝ) (s : PushSpecies) (hion : s.ionizable = false) (hq : s.q ≠ 0)
    (zLab gamma0 beta0 : ℝ) (hg : 0 < gamma0)
    (hpl : s.plane = some (mkBallisticPlane zLab (some (gamma0, beta0))))
    (F : ℕ → PtclFields) (t : ℝ) :
    ∃ s', s.pushP c eCharge F t = .ok s' ∧ s'.ptcl.length = s.ptcl.length ∧
      ∀ i (h : i < s.ptcl.length) (h' : i < s'.ptcl.length),
        -- lab position of the particle: gamma0 (z + beta0 c t)
        (gamma0 * (s.ptcl[i].z + beta0 * c * t) ≤ zLab → s'.ptcl[i] = s.ptcl[i]) ∧
        (zLab < gamma0 * (s.ptcl[i].z + beta0 * c * t) →
          s'.ptcl[i] = pushP c s.q s.m s.dt (F i) s.ptcl[i]) := by
  refine ⟨_, by simp only [PushSpecies.pushP, hq, if_false, hpl, hion, Bool.false_eq_true]; rfl,
    by simp, ?_⟩
  intro i h h'
  simp only [List.getElem_mapIdx]
  set p := s.ptcl[i]
  have hpos : (mkBallisticPlane zLab (some (gamma0, beta0))).position c t
      = zLab / gamma0 - beta0 * c * t := by
    simp only [mkBallisticPlane, BallisticPlane.position]; ring
  have hiff : p.z > (mkBallisticPlane zLab (some (gamma0, beta0))).position c t
      ↔ zLab < gamma0 * (p.z + beta0 * c * t) := by
    rw [hpos, gt_iff_lt, sub_lt_iff_lt_add, div_lt_iff₀ hg, mul_comm]
  constructor
  · intro hle
    unfold pushPAfterPlane
    rw [if_neg (by rw [hiff]; exact not_lt.mpr hle)]
  · intro hlt
    unfold pushPAfterPlane
    rw [if_pos (hiff.mpr hlt)]
    rfl

/-- **C61 (no boost).** Without boost the plane stands still at its lab position. -/
theorem C61_lab_frame (zLab c t : ℝ) : (mkBallisticPlane zLab none).position c t = zLab := by
  simp [mkBallisticPlane, BallisticPlane.position]

/-- **C61 (free motion).** A particle that is kept ballistic by the plane moves on a straight line:
after any number of steps during which it is not beyond the plane, its momentum is the initial one
and its position has advanced by its constant velocity. -/
theorem C61_straight_line (c dt q m : ℝ) (zPlane : ℕ → ℝ) (F : ℕ → PtclFields) (p : ℕ → PushPtcl)
    (hstep : ∀ n, p (n + 1) = pushX c dt 1 1 1 (pushPAfterPlane c (zPlane n) q m dt (F n) (p n)))
    (N : ℕ) (hbefore : ∀ n < N, (p n).z ≤ zPlane n) :
    ∀ n ≤ N, (p n).mom = (p 0).mom ∧
      (p n).x = (p 0).x + n * dt * (c * (p 0).mom.ux * (p 0).mom.invGamma) ∧
      (p n).y = (p 0).y + n * dt * (c * (p 0).mom.uy * (p 0).mom.invGamma) ∧
      (p n).z = (p 0).z + n * dt * (c * (p 0).mom.uz * (p 0).mom.invGamma) := by
  intro n
  induction n with
  | zero => intro _; simp
  | succ n ih =>
    intro hn
    obtain ⟨h1, h2, h3, h4⟩ := ih (by omega)
    have hb := hbefore n (by omega)
    have e : pushPAfterPlane c (zPlane n) q m dt (F n) (p n) = p n := by
      unfold pushPAfterPlane; rw [if_neg (not_lt.mpr hb)]
    rw [hstep, e]
    refine ⟨h1, ?_, ?_, ?_⟩
    · simp only [pushX, h1, h2]; push_cast; ring
    · simp only [pushX, h1, h3]; push_cast; ring
    · simp only [pushX, h1, h4]; push_cast; ring

/-- A species with a plane, one particle before it and one beyond it at `t = 0`. -/
example : ∃ s : PushSpecies, s.ionizable = false ∧ s.q ≠ 0 ∧
    s.plane = some (mkBallisticPlane 2 (some (2, 0.5))) ∧
    ∃ p1 ∈ s.ptcl, ∃ p2 ∈ s.ptcl, 2 * (p1.z + 0.5 * 1 * 0) ≤ 2 ∧ 2 < 2 * (p2.z + 0.5 * 1 * 0) :=
  ⟨⟨-1, 1, 1, false, some (mkBallisticPlane 2 (some (2, 0.5))),
    [⟨0, 0, 0, ⟨0, 0, 0, 1⟩, 0⟩, ⟨0, 0, 3, ⟨0, 0, 0, 1⟩, 0⟩]⟩, rfl, by norm_num, rfl,
    _, List.mem_cons_self, _, List.mem_cons_of_mem _ List.mem_cons_self, by norm_num, by norm_num⟩

end Fbpic
