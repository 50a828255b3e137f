import Verif.Model.SpaceCharge
import Verif.Props.DirectLaser
import Verif.Lemmas.DepositLinear

/-! # C53: initial space-charge fields -/

namespace Fbpic

open Complex Spec SpaceCharge

/-- The fields that are added: difference of the cell after and before the call. -/
noncomputable def addedEM (a b : SpecCell) : EM :=
  ⟨⟨b.Ep - a.Ep, b.Em - a.Em, b.Ez - a.Ez⟩, ⟨b.Bp - a.Bp, b.Bm - a.Bm, b.Bz - a.Bz⟩⟩

/-- The velocity of the bunch along z, in units of c. -/
noncomputable def bunchBeta (gamma : ℝ) (direction : String) : ℝ :=
  (if direction = "backward" then -1 else 1) * Real.sqrt (1 - 1 / gamma ^ 2)

/-- The charge and the current of the cell are those of a distribution that moves rigidly with the velocity `β c` along z: the time
derivative of `rho` is `-iβc kz rho`, and the current satisfies the continuity equation; if the transverse current is neglected, it is
taken to be zero. -/
def Rigid (k : Consts) (β : ℝ) (neglect : Bool) (kz kr : ℝ) (s : SpecCell) : Prop :=
  if neglect then s.Jz = β * k.c * s.rhoPrev else div kz kr s.J = I * kz * (β * k.c) * s.rhoPrev

/-- The current that the calculation takes into account. -/
noncomputable def usedJ (neglect : Bool) (s : SpecCell) : V3 := if neglect then ⟨0, 0, s.Jz⟩ else s.J

private theorem gamma_facts {gamma : ℝ} (hg : 1 ≤ gamma) (direction : String) :
    (bunchBeta gamma direction) ^ 2 = 1 - 1 / gamma ^ 2 := by
  unfold bunchBeta
  have h0 : (0 : ℝ) ≤ 1 - 1 / gamma ^ 2 := by
    have : (1 : ℝ) ≤ gamma ^ 2 := one_le_pow₀ hg
    have : 1 / gamma ^ 2 ≤ 1 := by rw [div_le_one (by positivity)]; exact this
    linarith
  rw [mul_pow, Real.sq_sqrt h0]
  split_ifs <;> norm_num

/-- The added fields in terms of the potential. -/
private theorem added_eq (k : Consts) (gamma : ℝ) (direction : String) (neglect : Bool) (kz kr : ℝ) (s : SpecCell)
    (hK : kr ^ 2 + kz ^ 2 * 1 / gamma ^ 2 ≠ 0) :
    addedEM s (spaceChargeCell k gamma direction neglect kz kr s) =
      let K2 : ℂ := ((kr ^ 2 + kz ^ 2 * 1 / gamma ^ 2 : ℝ) : ℂ)
      let phi : ℂ := s.rhoPrev * (1 / K2) / k.eps0
      let A : V3 := ⟨(usedJ neglect s).p * (1 / K2) * k.mu0, (usedJ neglect s).m * (1 / K2) * k.mu0, (usedJ neglect s).z * (1 / K2) * k.mu0⟩
      let b : ℂ := bunchBeta gamma direction
      ⟨⟨0.5 * kr * phi + I * b * k.c * kz * A.p, -0.5 * kr * phi + I * b * k.c * kz * A.m, -I * kz * phi + I * b * k.c * kz * A.z⟩,
        ⟨-(0.5 * I) * kr * A.z + kz * A.p, -(0.5 * I) * kr * A.z - kz * A.m, I * kr * A.p + I * kr * A.m⟩⟩ := by
  have hb : (if direction = "backward" then Real.sqrt (1 - 1 / gamma ^ 2) * -1 else Real.sqrt (1 - 1 / gamma ^ 2))
      = bunchBeta gamma direction := by
    unfold bunchBeta; split_ifs <;> ring
  have hi : (((if kr ^ 2 + kz ^ 2 * 1 / gamma ^ 2 ≠ 0 then 1 / (kr ^ 2 + kz ^ 2 * 1 / gamma ^ 2) else 0 : ℝ)) : ℂ)
      = 1 / ((kr ^ 2 + kz ^ 2 * 1 / gamma ^ 2 : ℝ) : ℂ) := by
    rw [if_pos hK, ofReal_div, ofReal_one]
  unfold spaceChargeCell addedEM usedJ
  simp only [hb, hi]
  generalize ((kr ^ 2 + kz ^ 2 * 1 / gamma ^ 2 : ℝ) : ℂ) = K2
  cases neglect <;> simp [SpecCell.J] <;> ring_nf <;> simp

/-- What is used of the hypotheses. -/
private theorem rigid_facts (k : Consts) (hk : k.Ok) (gamma : ℝ) (hg : 1 ≤ gamma) (direction : String) (neglect : Bool) (kz kr : ℝ)
    (hne : ¬ (kz = 0 ∧ kr = 0)) (s : SpecCell) (hs : Rigid k (bunchBeta gamma direction) neglect kz kr s) :
    kr ^ 2 + kz ^ 2 * 1 / gamma ^ 2 ≠ 0 ∧
    ((kr ^ 2 + kz ^ 2 * 1 / gamma ^ 2 : ℝ) : ℂ) = kr ^ 2 + kz ^ 2 * (1 - (bunchBeta gamma direction : ℂ) ^ 2) ∧
    div kz kr (usedJ neglect s) = I * kz * (bunchBeta gamma direction * k.c) * s.rhoPrev ∧
    (k.eps0 : ℂ) ≠ 0 ∧ (k.mu0 : ℂ) * k.eps0 * k.c ^ 2 = 1 := by
  have hb := gamma_facts hg direction
  have hg0 : 0 < gamma := by linarith
  refine ⟨?_, ?_, ?_, ?_, ?_⟩
  · rcases not_and_or.mp hne with h | h
    · positivity
    · positivity
  · rw [show kr ^ 2 + kz ^ 2 * 1 / gamma ^ 2 = kr ^ 2 + kz ^ 2 * (1 - (bunchBeta gamma direction) ^ 2) by rw [hb]; ring]
    push_cast
    ring
  · cases neglect
    · simpa [Rigid, usedJ] using hs
    · have h : s.Jz = bunchBeta gamma direction * k.c * s.rhoPrev := by simpa [Rigid] using hs
      simp only [usedJ, if_true, div, h]
      ring
  · exact_mod_cast hk.eps0_pos.ne'
  · exact_mod_cast hk.rel

/-- **C53** (Gauss' law and div B): the fields added for a bunch that moves rigidly along z have, at every wavenumber except (0, 0), the
divergence `rho / eps0` and no magnetic divergence, for every Lorentz factor and both directions. -/
theorem C53_gauss (k : Consts) (hk : k.Ok) (gamma : ℝ) (hg : 1 ≤ gamma) (direction : String) (neglect : Bool) (kz kr : ℝ)
    (hne : ¬ (kz = 0 ∧ kr = 0)) (s : SpecCell) (hs : Rigid k (bunchBeta gamma direction) neglect kz kr s) :
    div kz kr (addedEM s (spaceChargeCell k gamma direction neglect kz kr s)).E = s.rhoPrev / k.eps0 ∧
    div kz kr (addedEM s (spaceChargeCell k gamma direction neglect kz kr s)).B = 0 := by
  obtain ⟨hK, hK2, hD, he, hrel⟩ := rigid_facts k hk gamma hg direction neglect kz kr hne s hs
  rw [added_eq k gamma direction neglect kz kr s hK]
  have hKc : ((kr ^ 2 + kz ^ 2 * 1 / gamma ^ 2 : ℝ) : ℂ) ≠ 0 := by exact_mod_cast hK
  generalize ((kr ^ 2 + kz ^ 2 * 1 / gamma ^ 2 : ℝ) : ℂ) = K2 at *
  generalize usedJ neglect s = J at *
  generalize (bunchBeta gamma direction : ℂ) = b at *
  simp only [div] at hD ⊢
  constructor
  · have e : (kr : ℂ) * (0.5 * kr * (s.rhoPrev * (1 / K2) / k.eps0) + I * b * k.c * kz * (J.p * (1 / K2) * k.mu0)
        - (-0.5 * kr * (s.rhoPrev * (1 / K2) / k.eps0) + I * b * k.c * kz * (J.m * (1 / K2) * k.mu0)))
        + I * kz * (-I * kz * (s.rhoPrev * (1 / K2) / k.eps0) + I * b * k.c * kz * (J.z * (1 / K2) * k.mu0))
        = (kr ^ 2 + kz ^ 2) * (s.rhoPrev * (1 / K2) / k.eps0)
          + I * b * k.c * kz * k.mu0 * (1 / K2) * (kr * (J.p - J.m) + I * kz * J.z) := by
      linear_combination -(kz ^ 2 * (s.rhoPrev * (1 / K2) / k.eps0)) * I_sq
    rw [e, hD]
    field_simp
    rw [hK2]
    linear_combination (b ^ 2 * k.c ^ 2 * kz ^ 2 * k.mu0 * k.eps0 * s.rhoPrev) * I_sq - kz ^ 2 * b ^ 2 * s.rhoPrev * hrel
  · linear_combination (kr * (1 / K2) * k.mu0 * kz * (J.p + J.m)) * I_sq

/-- **C53** (rigid propagation): with the current that is taken into account, these fields are the initial value of a solution of Maxwell's
equations that moves with the bunch: every field at time `t` is the initial one times `exp(-iβc kz t)`. -/
theorem C53_maxwell (k : Consts) (hk : k.Ok) (gamma : ℝ) (hg : 1 ≤ gamma) (direction : String) (neglect : Bool) (kz kr : ℝ)
    (s : SpecCell) (hne : ¬ (kz = 0 ∧ kr = 0)) (hs : Rigid k (bunchBeta gamma direction) neglect kz kr s) :
    IsMaxwell k.c k.mu0 kz kr 0
      (fun t => ⟨exp (-(I * kz * (bunchBeta gamma direction * k.c)) * t) * (usedJ neglect s).p,
        exp (-(I * kz * (bunchBeta gamma direction * k.c)) * t) * (usedJ neglect s).m,
        exp (-(I * kz * (bunchBeta gamma direction * k.c)) * t) * (usedJ neglect s).z⟩)
      (fun t => EM.times (exp (-(I * kz * (bunchBeta gamma direction * k.c)) * t))
        (addedEM s (spaceChargeCell k gamma direction neglect kz kr s))) := by
  obtain ⟨hK, hK2, hD, he, hrel⟩ := rigid_facts k hk gamma hg direction neglect kz kr hne s hs
  rw [added_eq k gamma direction neglect kz kr s hK]
  have hKc : ((kr ^ 2 + kz ^ 2 * 1 / gamma ^ 2 : ℝ) : ℂ) ≠ 0 := by exact_mod_cast hK
  generalize ((kr ^ 2 + kz ^ 2 * 1 / gamma ^ 2 : ℝ) : ℂ) = K2 at *
  generalize usedJ neglect s = J at *
  generalize (bunchBeta gamma direction : ℂ) = b at *
  simp only [div] at hD
  obtain ⟨a, ha⟩ : ∃ a, a = 1 / K2 * (k.mu0 : ℂ) := ⟨_, rfl⟩
  have hmu : (k.mu0 : ℂ) = a * (kr ^ 2 + kz ^ 2 * (1 - b ^ 2)) := by rw [ha, ← hK2]; field_simp
  have hP : s.rhoPrev * (1 / K2) / k.eps0 = k.c ^ 2 * a * s.rhoPrev := by
    rw [ha]; field_simp; linear_combination -s.rhoPrev * hrel
  simp only [mul_assoc _ (1 / K2) (k.mu0 : ℂ), ← ha, hP]
  constructor <;> intro t <;> simp only [EM.times, curl, ofReal_zero] <;> refine (hasDerivAt_times _ _ t).congr_deriv ?_ <;>
    generalize exp (-(I * kz * (b * k.c)) * (t : ℂ)) = e
  · rw [hmu]
    linear_combination (e * k.c ^ 2 * a * kr / 2) * hD
      + e * (-(kz ^ 2 * b ^ 2 * k.c ^ 2 * a * J.p) + k.c ^ 2 * a * kr ^ 2 / 2 * (J.p + J.m)) * I_sq
  · rw [hmu]
    linear_combination -(e * k.c ^ 2 * a * kr / 2) * hD
      + e * (-(kz ^ 2 * b ^ 2 * k.c ^ 2 * a * J.m) + k.c ^ 2 * a * kr ^ 2 / 2 * (J.p + J.m)) * I_sq
  · rw [hmu]
    linear_combination -(I * e * k.c ^ 2 * a * kz) * hD
      + e * (k.c ^ 2 * a * J.z * (kz ^ 2 * (1 - b ^ 2) + kr ^ 2)) * I_sq
  · linear_combination (kz * k.c ^ 2 * e * kr * a * s.rhoPrev / 2) * I_sq
  · linear_combination (kz * k.c ^ 2 * e * kr * a * s.rhoPrev / 2) * I_sq
  · ring

/-- **C53** (source): if all the particles have the same velocity `β c` along z (on one rank, any species, any shape), the deposited Jz is
`β c` times the deposited charge density, in every cell and mode: the hypothesis of `C53_gauss`, which the linear transforms and filters
keep. -/
theorem C53_source (c β : ℝ) (g : CylGrid) (beta : Shape → ℕ → List ℝ) (m n : ℕ) (hn : 0 < n) (sps : List DepSpecies)
    (hv : ∀ sp ∈ sps, ∀ p ∈ sp.ptcls, p.invGamma * p.uz = β) (J R : Buf) (hz : 2 ≤ g.Nz) (hr : 2 ≤ g.Nr)
    (hJ : depositAll .Jz c g beta m n sps = .ok J) (hR : depositAll .rho c g beta m n sps = .ok R) :
    ∀ iz ir, iz < g.Nz → ir < g.Nr → J iz ir = β * c * R iz ir := by
  intro iz ir hiz hir
  have e := pair_depositAll .Jz c g beta m n hn _ J (fun i j => if i = iz ∧ j = ir then 1 else 0) hz hr hJ
  have e0 := pair_depositAll .rho c g beta m n hn _ R (fun i j => if i = iz ∧ j = ir then 1 else 0) hz hr hR
  rw [pair_indicator _ _ _ _ _ hiz hir] at e e0
  rw [e, e0, ← List.sum_map_mul_left]
  congr 1
  refine List.map_congr_left fun sp hsp => ?_
  by_cases hq : sp.q = 0
  · simp [hq]
  · simp only [hq, if_false]
    rw [← List.sum_map_mul_left]
    congr 1
    refine List.map_congr_left fun p hp => ?_
    unfold addsOf
    rw [← ptclAdds_smul]
    congr 3
    unfold scalOf
    rw [← modeScal_smul]
    congr 1
    simp only [DepField.scal0]
    rw [show sp.q * p.w * c * p.invGamma * p.uz = β * c * (sp.q * p.w) by rw [← hv sp hsp p hp]; ring]
    push_cast
    ring

/-- **C53** (Lorentz factor): if all the particles have the Lorentz factor `gamma`, this is the mean that is used, for any distribution on
the ranks; if their momentum is along z (in the direction given), the velocity of the calculation is theirs. -/
theorem C53_gamma (ranks : List (List WG)) (gamma : ℝ) (h : ∀ l ∈ ranks, ∀ p ∈ l, p.invGamma = 1 / gamma) :
    (∀ g, meanGamma ranks = some g → g = gamma) ∧
    ((∃ l ∈ ranks, l ≠ []) → (∀ l ∈ ranks, ∀ p ∈ l, 0 < p.w) → meanGamma ranks ≠ none) ∧
    (∀ uz, gamma = Real.sqrt (1 + uz ^ 2) →
      bunchBeta gamma (if uz < 0 then "backward" else "forward") = 1 / gamma * uz) := by
  have e : (ranks.map fun l => (l.map fun p => p.w * 1 / p.invGamma).sum).sum
      = gamma * (ranks.map fun l => (l.map fun p => p.w).sum).sum := by
    rw [← List.sum_map_mul_left]
    congr 1
    refine List.map_congr_left fun l hl => ?_
    rw [← List.sum_map_mul_left]
    congr 1
    refine List.map_congr_left fun p hp => ?_
    rw [h l hl p hp]
    simp [mul_comm]
  refine ⟨?_, ?_, ?_⟩
  · intro g hg
    unfold meanGamma at hg
    simp only [e] at hg
    split_ifs at hg with h0
    cases hg
    field_simp
  · rintro ⟨l, hl, hne⟩ hw
    have : 0 < (ranks.map fun l => (l.map fun p => p.w).sum).sum := by
      have hnn : ∀ x ∈ ranks.map fun l => (l.map fun p => p.w).sum, 0 ≤ x := by
        intro x hx
        obtain ⟨l', hl', rfl⟩ := List.mem_map.mp hx
        refine List.sum_nonneg fun y hy => ?_
        obtain ⟨p, hp, rfl⟩ := List.mem_map.mp hy
        exact (hw l' hl' p hp).le
      have h1 : (l.map fun p => p.w).sum ≤ (ranks.map fun l => (l.map fun p => p.w).sum).sum :=
        List.single_le_sum hnn _ (List.mem_map.mpr ⟨l, hl, rfl⟩)
      have h2 : 0 < (l.map fun p => p.w).sum := by
        obtain ⟨p, l', rfl⟩ := List.exists_cons_of_ne_nil hne
        rw [List.map_cons, List.sum_cons]
        have h3 : 0 ≤ (l'.map fun p => p.w).sum := List.sum_nonneg fun y hy => by
          obtain ⟨q, hq, rfl⟩ := List.mem_map.mp hy
          exact (hw _ hl q (by simp [hq])).le
        have := hw _ hl p (by simp)
        linarith
      linarith
    unfold meanGamma
    simp [this.ne']
  · intro uz hg
    have hpos : (0 : ℝ) < 1 + uz ^ 2 := by positivity
    have hg0 : 0 < gamma := by rw [hg]; exact Real.sqrt_pos.mpr hpos
    have hg2 : gamma ^ 2 = 1 + uz ^ 2 := by rw [hg, Real.sq_sqrt hpos.le]
    have hs : Real.sqrt (1 - 1 / gamma ^ 2) = |uz| / gamma := by
      rw [show 1 - 1 / gamma ^ 2 = (|uz| / gamma) ^ 2 by rw [div_pow, sq_abs]; field_simp; linarith]
      exact Real.sqrt_sq (by positivity)
    unfold bunchBeta
    rw [hs]
    by_cases hu : uz < 0
    · rw [if_pos hu, if_pos rfl, abs_of_neg hu]; ring
    · rw [if_neg hu, if_neg (by decide), abs_of_nonneg (not_lt.mp hu)]; ring

/-- **C53** (ranks): as for the laser, the fields are those of one calculation on the global grid, whatever the decomposition; without
particles nothing is changed. -/
theorem C53_ranks (cm : Comm) (Nr : ℕ) (ranks : List (List WG)) (src : ℕ → DirectLaser.Arrays)
    (solve : ℝ → DirectLaser.Arrays → DirectLaser.Arrays) (fld : ℕ → DirectLaser.Arrays)
    (L : String → ℕ → ℤ → ℕ → ℂ) (Nglob : ℕ) (lo : ℤ) (hglob : cm.getNzIz false true false none = .ok (Nglob, lo))
    (hL : ∀ k, k < cm.size → ∀ N iz, cm.getNzIz true true false (some k) = .ok (N, iz) →
      ∀ f m i j, cm.nGuard ≤ i → i < cm.nGuard + N → src k f m i j = L f m (iz - cm.nGuard + i) j)
    (hsolve : ∀ g, ∀ A B : DirectLaser.Arrays, (∀ f m i j, i < Nglob → j < Nr → A f m i j = B f m i j) → solve g A = solve g B)
    (k : ℕ) (hk : k < cm.size) (N Narr : ℕ) (iz first : ℤ) (hloc : cm.getNzIz true true false (some k) = .ok (N, iz))
    (harr : cm.getNzIz true true true (some k) = .ok (Narr, first)) (f : String) (m i j : ℕ) (hj : j < Nr) :
    addSpaceCharge cm Nr ranks src solve fld k f m i j =
      match meanGamma ranks with
      | none => fld k f m i j
      | some g => if iz ≤ first + i ∧ first + i < iz + N then
          fld k f m i j + solve g (fun f m i j => L f m (lo + i) j) f m (first + i - lo).toNat j
        else fld k f m i j := by
  unfold addSpaceCharge
  cases meanGamma ranks with
  | none => rfl
  | some g =>
    simp only
    have := C65_ranks cm Nr src (solve g) fld L Nglob lo hglob hL (hsolve g) k hk N Narr iz first hloc harr f m i j hj
    split_ifs with h
    · exact (this.1 h).1
    · exact this.2 h

/-- A bunch with one particle on each of two ranks, at 3/5 c (Lorentz factor 5/4), none on the third. -/
example : meanGamma [[⟨2, 4 / 5⟩], [⟨1, 4 / 5⟩], []] = some (5 / 4) ∧ bunchBeta (5 / 4) "backward" = -(3 / 5) ∧ (1 : ℝ) ≤ 5 / 4 := by
  refine ⟨by norm_num [meanGamma], ?_, by norm_num⟩
  have : Real.sqrt (1 - 1 / (5 / 4) ^ 2) = 3 / 5 := by
    rw [show (1 : ℝ) - 1 / (5 / 4) ^ 2 = (3 / 5) ^ 2 by norm_num]
    exact Real.sqrt_sq (by norm_num)
  rw [bunchBeta, this]
  norm_num

/-- A cell that meets the hypotheses with a transverse current as well, and gets a field that is not zero. -/
example : ∃ s : SpecCell, Rigid ⟨1, 1, 1⟩ 0 false 1 1 s ∧ s.J ≠ ⟨0, 0, 0⟩ ∧ s.rhoPrev ≠ 0 ∧
    (spaceChargeCell ⟨1, 1, 1⟩ 1 "forward" false 1 1 s).Ep ≠ 0 := by
  refine ⟨⟨0, 0, 0, 0, 0, 0, 1, 1, 0, 1, 1, 0, 0, 0, 0, 0, 0⟩, ?_, ?_, ?_, ?_⟩
  · simp [Rigid, SpecCell.J, div]
  · simp [SpecCell.J]
  · simp
  · norm_num [spaceChargeCell]

end Fbpic
