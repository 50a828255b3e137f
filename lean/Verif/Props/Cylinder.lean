import Verif.Model.Hankel
import Verif.Lemmas.Cylinder
import Verif.Lemmas.BesselZero
import Verif.Lemmas.BesselIndep
import Verif.Props.Transform
import Verif.Props.Smoothing

/-!
# C79: the spectral arrays are fields in the cylinder

The arrays of the spectral grid stand for fields, functions of z, r and theta (`Spec/Cylinder.lean`).
Their values at the centres of the cells are what the transforms put on the interpolation grid, and the
multiplications by wavenumbers that the solver uses for divergence, curl and gradient are the
divergence, curl and gradient in cylindrical coordinates of these fields, at every point. This is
where the Bessel functions are the true ones.
-/

namespace Fbpic

open Complex Spec Transform

variable {g : Cyl}

/-! ### Divergence, curl, gradient -/

/-- **C79** (smooth): the fields have all their partial derivatives away from the axis. -/
theorem C79_diff (hg : g.Ok) (f : ℕ → ℕ → ℂ) (F : ℕ → ℕ → V3) :
    Diff (g.scal f) ∧ Diff (g.vec F).r ∧ Diff (g.vec F).t ∧ Diff (g.vec F).z := by
  have h0 : ∀ f, Diff (g.wave g.m f) := fun f z r θ hr =>
    ⟨wave_diff_z _ _ _ _ _, (wave_dr hg f z θ hr).differentiableAt, (wave_dtheta _ f z r θ).differentiableAt⟩
  have hp : ∀ f, Diff (g.wave (g.m + 1) f) := fun f z r θ hr =>
    ⟨wave_diff_z _ _ _ _ _, (wave_dr_succ hg f z θ hr).differentiableAt, (wave_dtheta _ f z r θ).differentiableAt⟩
  have hm : ∀ f, Diff (g.wave (g.m - 1) f) := fun f z r θ hr =>
    ⟨wave_diff_z _ _ _ _ _, (wave_dr_pred hg f z θ hr).differentiableAt, (wave_dtheta _ f z r θ).differentiableAt⟩
  refine ⟨h0 f, fun z r θ hr => ?_, fun z r θ hr => ?_, h0 _⟩
  · obtain ⟨a1, a2, a3⟩ := hp (fun iz ir => (F iz ir).p) z r θ hr
    obtain ⟨b1, b2, b3⟩ := hm (fun iz ir => (F iz ir).m) z r θ hr
    exact ⟨a1.add b1, a2.add b2, a3.add b3⟩
  · obtain ⟨a1, a2, a3⟩ := hp (fun iz ir => (F iz ir).p) z r θ hr
    obtain ⟨b1, b2, b3⟩ := hm (fun iz ir => (F iz ir).m) z r θ hr
    exact ⟨(a1.sub b1).const_mul I, (a2.sub b2).const_mul I, (a3.sub b3).const_mul I⟩

/-- **C79** (divergence): the divergence of the vector field is the scalar field of `Spec.div`. -/
theorem C79_div (hg : g.Ok) {D : ZDeriv} {K : ℕ → ℝ} (hD : g.Symbol D K) (F : ℕ → ℕ → V3) :
    SameScal (cylDiv D (g.vec F)) (g.scal fun iz ir => Spec.div (K iz) (g.kr ir) (F iz ir)) := by
  intro z r θ hr
  have hrc : (r : ℂ) ≠ 0 := by exact_mod_cast hr.ne'
  have h1 := mul_r ((wave_dr_succ hg (fun iz ir => (F iz ir).p) z θ hr).add
    (wave_dr_pred hg (fun iz ir => (F iz ir).m) z θ hr))
  have h2 := (((wave_dtheta (g := g) (g.m + 1) (fun iz ir => (F iz ir).p) z r θ).sub
    (wave_dtheta (g := g) (g.m - 1) (fun iz ir => (F iz ir).m) z r θ)).const_mul I)
  have e1 : deriv (fun r' : ℝ => (r' : ℂ) * (g.vec F).r z r' θ) r = _ := h1.deriv
  have e2 : deriv (fun θ' => (g.vec F).t z r θ') θ = _ := h2.deriv
  have e3 : D.apply (fun z' => (g.vec F).z z' r θ) z = _ := wave_dz hD g.m (fun iz ir => (F iz ir).z) z r θ
  have e4 : g.scal (fun iz ir => Spec.div (K iz) (g.kr ir) (F iz ir)) z r θ
      = g.wave g.m (fun iz ir => g.kr ir * (F iz ir).p) z r θ + (-1) * g.wave g.m (fun iz ir => g.kr ir * (F iz ir).m) z r θ
        + I * g.wave g.m (fun iz ir => K iz * (F iz ir).z) z r θ := by
    rw [← wave_mul, ← wave_mul, ← wave_add, ← wave_add]
    exact waveOf_congr fun iz ir _ _ => by simp only [Spec.div]; ring
  rw [cylDiv, e1, e2, e3, e4]
  simp only [Pi.add_apply, Pi.sub_apply]
  field_simp
  linear_combination (-(g.m : ℂ) * (g.wave (g.m + 1) (fun iz ir => (F iz ir).p) z r θ
    - g.wave (g.m - 1) (fun iz ir => (F iz ir).m) z r θ)) * I_sq

/-- **C79** (curl): the curl of the vector field is the vector field of `Spec.curl`. -/
theorem C79_curl (hg : g.Ok) {D : ZDeriv} {K : ℕ → ℝ} (hD : g.Symbol D K) (F : ℕ → ℕ → V3) :
    SameVec (cylCurl D (g.vec F)) (g.vec fun iz ir => Spec.curl (K iz) (g.kr ir) (F iz ir)) := by
  have ep : ∀ z r θ, g.wave (g.m + 1) (fun iz ir => (Spec.curl (K iz) (g.kr ir) (F iz ir)).p) z r θ
      = -(I / 2) * g.wave (g.m + 1) (fun iz ir => g.kr ir * (F iz ir).z) z r θ
        + g.wave (g.m + 1) (fun iz ir => K iz * (F iz ir).p) z r θ := fun z r θ => by
    rw [← wave_mul, ← wave_add]
    exact waveOf_congr fun iz ir _ _ => by simp only [Spec.curl]; ring
  have em : ∀ z r θ, g.wave (g.m - 1) (fun iz ir => (Spec.curl (K iz) (g.kr ir) (F iz ir)).m) z r θ
      = -(I / 2) * g.wave (g.m - 1) (fun iz ir => g.kr ir * (F iz ir).z) z r θ
        + (-1) * g.wave (g.m - 1) (fun iz ir => K iz * (F iz ir).m) z r θ := fun z r θ => by
    rw [← wave_mul, ← wave_mul, ← wave_add]
    exact waveOf_congr fun iz ir _ _ => by simp only [Spec.curl]; ring
  refine ⟨fun z r θ hr => ?_, fun z r θ hr => ?_, fun z r θ hr => ?_⟩
  · have hrc : (r : ℂ) ≠ 0 := by exact_mod_cast hr.ne'
    have e1 : deriv (fun θ' => (g.vec F).z z r θ') θ = _ :=
      (wave_dtheta (g := g) g.m (fun iz ir => (F iz ir).z) z r θ).deriv
    have e2 := wave_rec hg (fun iz ir => (F iz ir).z) z θ hr
    show 1 / (r : ℂ) * deriv (fun θ' => (g.vec F).z z r θ') θ - D.apply (fun z' => (g.vec F).t z' r θ) z
      = g.wave _ _ z r θ + g.wave _ _ z r θ
    rw [ep, em, e1, vec_dz_t hD]
    have e3 : 1 / (r : ℂ) * (-(I * g.m) * g.wave g.m (fun iz ir => (F iz ir).z) z r θ)
        = -(I / 2) * (2 * g.m / r * g.wave g.m (fun iz ir => (F iz ir).z) z r θ) := by
      field_simp
    rw [e3, ← e2]
    ring
  · have e1 : deriv (fun r' => (g.vec F).z z r' θ) r = _ := (wave_dr hg (fun iz ir => (F iz ir).z) z θ hr).deriv
    show D.apply (fun z' => (g.vec F).r z' r θ) z - deriv (fun r' => (g.vec F).z z r' θ) r
      = I * (g.wave _ _ z r θ - g.wave _ _ z r θ)
    rw [ep, em, e1, vec_dz_r hD]
    linear_combination (1 / 2 * (g.wave (g.m + 1) (fun iz ir => g.kr ir * (F iz ir).z) z r θ
      - g.wave (g.m - 1) (fun iz ir => g.kr ir * (F iz ir).z) z r θ)) * I_mul_I
  · have hrc : (r : ℂ) ≠ 0 := by exact_mod_cast hr.ne'
    have h1 := mul_r (((wave_dr_succ hg (fun iz ir => (F iz ir).p) z θ hr).sub
      (wave_dr_pred hg (fun iz ir => (F iz ir).m) z θ hr)).const_mul I)
    have h2 := ((wave_dtheta (g := g) (g.m + 1) (fun iz ir => (F iz ir).p) z r θ).add
      (wave_dtheta (g := g) (g.m - 1) (fun iz ir => (F iz ir).m) z r θ))
    have e1 : deriv (fun r' : ℝ => (r' : ℂ) * (g.vec F).t z r' θ) r = _ := h1.deriv
    have e2 : deriv (fun θ' => (g.vec F).r z r θ') θ = _ := h2.deriv
    have e4 : (g.vec fun iz ir => Spec.curl (K iz) (g.kr ir) (F iz ir)).z z r θ
        = I * g.wave g.m (fun iz ir => g.kr ir * (F iz ir).p) z r θ
          + I * g.wave g.m (fun iz ir => g.kr ir * (F iz ir).m) z r θ := by
      rw [← wave_mul, ← wave_mul, ← wave_add]
      exact waveOf_congr fun iz ir _ _ => by simp only [Spec.curl]; ring
    show 1 / (r : ℂ) * deriv (fun r' : ℝ => (r' : ℂ) * (g.vec F).t z r' θ) r
      - 1 / r * deriv (fun θ' => (g.vec F).r z r θ') θ = _
    rw [e1, e2, e4]
    simp only [Pi.add_apply, Pi.sub_apply]
    field_simp
    ring

/-- **C79** (gradient): the gradient of the scalar field is the vector field of `Spec.grad`. -/
theorem C79_grad (hg : g.Ok) {D : ZDeriv} {K : ℕ → ℝ} (hD : g.Symbol D K) (f : ℕ → ℕ → ℂ) :
    SameVec (cylGrad D (g.scal f)) (g.vec fun iz ir => Spec.grad (K iz) (g.kr ir) (f iz ir)) := by
  have ep : ∀ z r θ, g.wave (g.m + 1) (fun iz ir => (Spec.grad (K iz) (g.kr ir) (f iz ir)).p) z r θ
      = -(1 / 2) * g.wave (g.m + 1) (fun iz ir => g.kr ir * f iz ir) z r θ := fun z r θ => by
    rw [← wave_mul]
    exact waveOf_congr fun iz ir _ _ => by simp only [Spec.grad]; ring
  have em : ∀ z r θ, g.wave (g.m - 1) (fun iz ir => (Spec.grad (K iz) (g.kr ir) (f iz ir)).m) z r θ
      = 1 / 2 * g.wave (g.m - 1) (fun iz ir => g.kr ir * f iz ir) z r θ := fun z r θ => by
    rw [← wave_mul]
    exact waveOf_congr fun iz ir _ _ => by simp only [Spec.grad]; ring
  refine ⟨fun z r θ hr => ?_, fun z r θ hr => ?_, fun z r θ hr => ?_⟩
  · have e1 : deriv (fun r' => g.scal f z r' θ) r = _ := (wave_dr hg f z θ hr).deriv
    show deriv (fun r' => g.scal f z r' θ) r = g.wave _ _ z r θ + g.wave _ _ z r θ
    rw [ep, em, e1]
    ring
  · have hrc : (r : ℂ) ≠ 0 := by exact_mod_cast hr.ne'
    have e1 : deriv (fun θ' => g.scal f z r θ') θ = _ := (wave_dtheta (g := g) g.m f z r θ).deriv
    have e2 := wave_rec hg f z θ hr
    show 1 / (r : ℂ) * deriv (fun θ' => g.scal f z r θ') θ = I * (g.wave _ _ z r θ - g.wave _ _ z r θ)
    rw [ep, em, e1]
    have e3 : 1 / (r : ℂ) * (-(I * g.m) * g.wave g.m f z r θ) = -(I / 2) * (2 * g.m / r * g.wave g.m f z r θ) := by
      field_simp
    rw [e3, ← e2]
    ring
  · show D.apply (fun z' => g.wave g.m f z' r θ) z = g.wave g.m _ z r θ
    rw [wave_dz hD, ← wave_mul]
    exact waveOf_congr fun iz ir _ _ => by simp only [Spec.grad]; ring

/-- **C79** (wall): scalar fields and the longitudinal components vanish on the wall of the cylinder. -/
theorem C79_wall (hg : g.Ok) (f : ℕ → ℕ → ℂ) (F : ℕ → ℕ → V3) (z θ : ℝ) :
    g.scal f z g.rmax θ = 0 ∧ (g.vec F).z z g.rmax θ = 0 := by
  have h : ∀ f, g.wave g.m f z g.rmax θ = 0 := fun f => by
    unfold Cyl.wave
    rw [Finset.sum_eq_zero fun iz _ => Finset.sum_eq_zero fun ir hi => ?_, mul_zero]
    rw [radial_wall hg (Finset.mem_range.1 hi)]
    simp
  exact ⟨h f, h _⟩

/-- **C79** (nothing is hidden): two arrays that stand for the same scalar field are equal, except in the first column
of the modes other than 0, whose radial function is zero for scalars. -/
theorem C79_scal_faithful (hg : g.Ok) (hd : g.Distinct) (f f' : ℕ → ℕ → ℂ) (h : SameScal (g.scal f) (g.scal f'))
    (iz ir : ℕ) (hz : iz < g.Nz) (hr : ir < g.Nr) (hl : ¬ g.Low ir) : f iz ir = f' iz ir := by
  have h0 : ∀ z r, 0 < r → g.wave g.m (fun a b => f a b + (-1) * f' a b) z r 0 = 0 := fun z r hr => by
    rw [wave_add, wave_mul]
    have := h z r 0 hr
    unfold Cyl.scal at this
    rw [this]; ring
  have := radial_indep hg hd (p := g.m) (by omega) (fun r hr => wave_zero_z hg _ h0 hr hz) hr hl
  linear_combination this

/-- **C79** (nothing is hidden): the same for vector fields; in the first column of the modes other than 0 only the
`-` component has a radial function. -/
theorem C79_vec_faithful (hg : g.Ok) (hd : g.Distinct) (F F' : ℕ → ℕ → V3) (h : SameVec (g.vec F) (g.vec F'))
    (iz ir : ℕ) (hz : iz < g.Nz) (hr : ir < g.Nr) :
    (F iz ir).m = (F' iz ir).m ∧ (¬ g.Low ir → F iz ir = F' iz ir) := by
  obtain ⟨hR, hT, hZ⟩ := h
  have hpm : ∀ z r, 0 < r →
      g.wave (g.m + 1) (fun a b => (F a b).p) z r 0 = g.wave (g.m + 1) (fun a b => (F' a b).p) z r 0 ∧
      g.wave (g.m - 1) (fun a b => (F a b).m) z r 0 = g.wave (g.m - 1) (fun a b => (F' a b).m) z r 0 := fun z r hr => by
    have h1 := hR z r 0 hr
    have h2 := hT z r 0 hr
    simp only [Cyl.vec] at h1 h2
    have h3 := mul_left_cancel₀ I_ne_zero h2
    constructor
    · linear_combination h1 / 2 + h3 / 2
    · linear_combination h1 / 2 - h3 / 2
  have hp0 : ∀ z r, 0 < r → g.wave (g.m + 1) (fun a b => (F a b).p + (-1) * (F' a b).p) z r 0 = 0 := fun z r hr => by
    rw [wave_add, wave_mul, (hpm z r hr).1]; ring
  have hm0 : ∀ z r, 0 < r → g.wave (g.m - 1) (fun a b => (F a b).m + (-1) * (F' a b).m) z r 0 = 0 := fun z r hr => by
    rw [wave_add, wave_mul, (hpm z r hr).2]; ring
  have em : (F iz ir).m = (F' iz ir).m := by
    have := radial_indep_pred hg hd (fun r hr => wave_zero_z hg _ hm0 hr hz) hr
    linear_combination this
  refine ⟨em, fun hl => ?_⟩
  have ep : (F iz ir).p = (F' iz ir).p := by
    have := radial_indep hg hd (p := g.m + 1) (by omega) (fun r hr => wave_zero_z hg _ hp0 hr hz) hr hl
    linear_combination this
  have ez := C79_scal_faithful hg hd (fun a b => (F a b).z) (fun a b => (F' a b).z) hZ iz ir hz hr hl
  ext
  · exact ep
  · exact em
  · exact ez

/-! ### The arrays and wavenumbers of the code -/

/-- What `jn_zeros(m, n)` returns: positive zeros of `J_m` in increasing order. -/
def Spec.IsZeros (m n : ℕ) (zeros : ℕ → ℝ) : Prop :=
  (∀ i, i < n → 0 < zeros i ∧ besselJ m (zeros i) = 0) ∧ ∀ i j, i < j → j < n → zeros i < zeros j

/-- The cylinder of a simulation: box from `zmin` with `Nz` cells of length `dz`, first cell centre at
`zmin + dz/2`. -/
noncomputable def cylOf (m Nz Nr : ℕ) (dz zmin rmax : ℝ) (zeros : ℕ → ℝ) : Cyl :=
  { m := m, Nz := Nz, Nr := Nr, dz := dz, z0 := zmin + dz / 2, rmax := rmax, alpha := Hankel.alphas m zeros }

/-- `jn_zeros` is called with `Nr` for the mode 0 and with `Nr-1` for the others. -/
theorem cylOf_ok {m Nz Nr : ℕ} {dz zmin rmax : ℝ} {zeros : ℕ → ℝ} (hz : 0 < Nz) (hdz : 0 < dz) (hr : 0 < rmax)
    (h : IsZeros m (if m = 0 then Nr else Nr - 1) zeros) : (cylOf m Nz Nr dz zmin rmax zeros).Ok where
  rmax_pos := hr
  dz_ne := hdz.ne'
  Nz_pos := hz
  zero := by
    intro i hi hl
    have hi : i < Nr := hi
    have hl : ¬ (m ≠ 0 ∧ i = 0) := hl
    show Hankel.alphas m zeros i ≠ 0 ∧ besselJ m (Hankel.alphas m zeros i) = 0
    unfold Hankel.alphas
    by_cases hm : m = 0
    · subst hm
      simp only [Nat.cast_zero, ne_eq, not_true_eq_false, if_false]
      obtain ⟨a, b⟩ := h.1 i (by rw [if_pos rfl]; exact hi)
      exact ⟨a.ne', by simpa using b⟩
    · have hm' : (m : ℤ) ≠ 0 := by exact_mod_cast hm
      have hi0 : i ≠ 0 := fun e => hl ⟨hm, e⟩
      simp only [if_pos hm', if_neg hi0]
      obtain ⟨a, b⟩ := h.1 (i - 1) (by rw [if_neg hm]; omega)
      exact ⟨a.ne', b⟩
  low := by
    rintro i ⟨hm, rfl⟩
    have hm : m ≠ 0 := hm
    have hm' : (m : ℤ) ≠ 0 := by exact_mod_cast hm
    show Hankel.alphas m zeros 0 = 0
    simp [Hankel.alphas, hm]

theorem cylOf_distinct {m Nz Nr : ℕ} {dz zmin rmax : ℝ} {zeros : ℕ → ℝ}
    (h : IsZeros m (if m = 0 then Nr else Nr - 1) zeros) : (cylOf m Nz Nr dz zmin rmax zeros).Distinct := by
  have hinj : ∀ i j, i < (if m = 0 then Nr else Nr - 1) → j < (if m = 0 then Nr else Nr - 1) → zeros i = zeros j → i = j := by
    intro i j hi hj e
    rcases lt_trichotomy i j with hij | hij | hij
    · exact absurd e (h.2 i j hij hj).ne
    · exact hij
    · exact absurd e.symm (h.2 j i hij hi).ne
  by_cases hm : m = 0
  · subst hm
    rw [if_pos rfl] at hinj
    have e : ∀ i, (cylOf 0 Nz Nr dz zmin rmax zeros).alpha i = zeros i := fun i => by simp [cylOf, Hankel.alphas]
    refine ⟨fun i hi _ => ?_, fun i j hi hj _ _ hij => ?_⟩
    · rw [e]; exact (h.1 i (by rw [if_pos rfl]; exact hi)).1
    · rw [e, e] at hij; exact hinj i j hi hj hij
  · rw [if_neg hm] at hinj
    have e : ∀ i, i ≠ 0 → (cylOf m Nz Nr dz zmin rmax zeros).alpha i = zeros (i - 1) := fun i hi => by
      simp [cylOf, Hankel.alphas, hm, hi]
    have hl : ∀ i, ¬ (cylOf m Nz Nr dz zmin rmax zeros).Low i → i ≠ 0 := fun i hi h0 => hi ⟨hm, h0⟩
    refine ⟨fun i hi h1 => ?_, fun i j hi hj h1 h2 hij => ?_⟩
    · have hi : i < Nr := hi
      have := hl i h1
      rw [e i this]; exact (h.1 (i - 1) (by rw [if_neg hm]; omega)).1
    · have hi : i < Nr := hi
      have hj : j < Nr := hj
      have := hl i h1
      have := hl j h2
      rw [e i (hl i h1), e j (hl j h2)] at hij
      have := hinj (i - 1) (j - 1) (by omega) (by omega) hij
      omega

/-- The matrix `invM` holds the values of the radial functions at the centres of the cells; the three transforms
have the same normalisation although they divide by Bessel functions of different order. -/
theorem invM_eq {m Nz Nr : ℕ} {dz zmin rmax : ℝ} {zeros : ℕ → ℝ}
    (hg : (cylOf m Nz Nr dz zmin rmax zeros).Ok) {p : ℤ} (hp : p = m ∨ p = m + 1 ∨ p = m - 1) {i : ℕ} (hi : i < Nr)
    (j : ℕ) : Hankel.invM p m Nr rmax zeros i j
      = (cylOf m Nz Nr dz zmin rmax zeros).radial p i ((j + 1 / 2) * (rmax / Nr)) := by
  have hR : rmax ≠ 0 := hg.rmax_pos.ne'
  have hr : Hankel.rGrid Nr rmax j = (j + 1 / 2) * (rmax / Nr) := by unfold Hankel.rGrid; ring
  unfold Hankel.invM hankelInvM Cyl.radial
  by_cases hl : (cylOf m Nz Nr dz zmin rmax zeros).Low i
  · obtain ⟨hm, rfl⟩ := hl
    have hm : m ≠ 0 := hm
    have hm' : (m : ℤ) ≠ 0 := by exact_mod_cast hm
    have hl : (cylOf m Nz Nr dz zmin rmax zeros).Low 0 := ⟨hm, rfl⟩
    rw [if_pos hm', if_pos (rfl : (0 : ℕ) = 0), if_pos hl, hr]
    simp only [cylOf]
    refine if_congr Iff.rfl ?_ rfl
    rw [show (m : ℤ) - 1 = ((m - 1 : ℕ) : ℤ) by omega, show (m : ℤ) + 1 = ((m + 1 : ℕ) : ℤ) by omega, zpow_natCast,
      zpow_natCast, mul_one_div]
  · have e1 : (if (m : ℤ) ≠ 0 then if i = 0 then (if p = (m : ℤ) - 1 then Hankel.rGrid Nr rmax j ^ ((m : ℤ) - 1) *
          (1 / (Real.pi * rmax ^ ((m : ℤ) + 1))) else 0)
        else Hankel.num p m Nr rmax zeros i j / Hankel.denom p m rmax zeros i
        else Hankel.num p m Nr rmax zeros i j / Hankel.denom p m rmax zeros i)
        = Hankel.num p m Nr rmax zeros i j / Hankel.denom p m rmax zeros i := by
      by_cases hm : m = 0
      · rw [if_neg (by simp [hm])]
      · have hi0 : i ≠ 0 := fun e => hl ⟨hm, e⟩
        rw [if_pos (by exact_mod_cast hm), if_neg hi0]
    rw [e1, if_neg hl]
    obtain ⟨ha, hz⟩ := hg.zero i hi hl
    have ha : Hankel.alphas m zeros i ≠ 0 := ha
    have hz : besselJ m (Hankel.alphas m zeros i) = 0 := hz
    have e2 : besselJ (Hankel.pDenom p m) (Hankel.alphas m zeros i) ^ 2
        = besselJ (m + 1) (Hankel.alphas m zeros i) ^ 2 := by
      unfold Hankel.pDenom
      rcases hp with rfl | rfl | rfl
      · rw [if_pos rfl]
      · rw [if_neg (by omega)]
      · rw [if_neg (by omega), besselJ_at_zero m ha hz, neg_sq]
    have e3 : 2 * Real.pi * Hankel.rGrid Nr rmax j * Hankel.nu m rmax zeros i
        = Hankel.alphas m zeros i / rmax * ((j + 1 / 2) * (rmax / Nr)) := by
      rw [hr]; unfold Hankel.nu
      have := Real.pi_pos.ne'
      field_simp
    unfold Hankel.num Hankel.denom
    rw [e2, e3]
    rfl

/-- **C79** (wavenumbers): the arrays `kz_true` and `kr` of the code are the wavenumbers of the waves. -/
theorem C79_wavenumbers (m Nz Nr : ℕ) (dz zmin rmax : ℝ) (zeros : ℕ → ℝ) (i : ℕ) :
    kzTrue Nz dz i = (cylOf m Nz Nr dz zmin rmax zeros).kz i ∧
    Hankel.kr m rmax zeros i = (cylOf m Nz Nr dz zmin rmax zeros).kr i := by
  constructor
  · show kzTrue Nz dz i = 2 * Real.pi * (if i ≤ (Nz - 1) / 2 then (i : ℝ) else (i : ℝ) - Nz) / (Nz * dz)
    rw [kzTrue, fftfreq, mul_div_assoc]
  · simp only [Hankel.kr, Hankel.nu, Cyl.kr, cylOf]
    have := Real.pi_pos.ne'
    by_cases hR : rmax = 0
    · simp [hR]
    · field_simp

/-- The derivative that belongs to the argument `n_order`. -/
noncomputable def Spec.ZDeriv.ofOrder (nOrder : ℤ) (dz : ℝ) : ZDeriv :=
  if nOrder = -1 then .exact else .stencil (stencilCoef (nOrder / 2).toNat) (nOrder / 2).toNat dz

/-- **C79** (derivative along z): the array `kz` of the solver is, for `n_order = -1`, the symbol of the exact
derivative, and for an even positive `n_order` that of the finite-difference formula (of that order of accuracy,
by C39). -/
theorem C79_symbol (g : Cyl) (nOrder : ℤ) (dz : ℝ) (K : ℕ → ℝ)
    (hK : ∀ iz, iz < g.Nz → modifiedK (g.kz iz) nOrder dz = .ok (K iz)) :
    g.Symbol (ZDeriv.ofOrder nOrder dz) K := by
  intro iz hz z
  have h := hK iz hz
  unfold ZDeriv.ofOrder
  by_cases h1 : nOrder = -1
  · rw [if_pos h1]
    rw [modifiedK, if_pos h1] at h
    have h2 := exp_hasDerivAt (g.kz iz) 0 z
    simp only [sub_zero] at h2
    have h3 : ZDeriv.apply .exact (fun x : ℝ => exp (I * (g.kz iz : ℂ) * (x : ℂ))) z = _ := h2.deriv
    rw [h3, ← (Except.ok.inj h)]
  · rw [if_neg h1]
    have h2 : ¬ (nOrder % 2 = 1 ∨ nOrder ≤ 0) := by
      intro hc
      rw [modifiedK, if_neg h1, if_pos hc] at h
      cases h
    obtain ⟨K', e1, e2⟩ := C39_symbol nOrder (by omega) (by omega) dz (g.kz iz)
    rw [e1] at h
    rw [← Except.ok.inj h]
    exact e2 z

private theorem fftAxis0_sum (Nz : ℕ) [NeZero Nz] (a : ℕ → ℕ → ℂ) (n j : ℕ) (hn : n < Nz) :
    fftAxis0 Nz true a n j = 1 / (Nz : ℂ) * ∑ k ∈ Finset.range Nz, a k j *
      exp (2 * Real.pi * I * ((n * k : ℕ) : ℂ) / (Nz : ℂ)) := by
  unfold fftAxis0 ifftZ
  rw [if_pos rfl, ZMod.val_natCast, Nat.mod_eq_of_lt hn]
  congr 1
  obtain ⟨N, rfl⟩ : ∃ N, Nz = N + 1 := ⟨Nz - 1, by have := NeZero.ne Nz; omega⟩
  exact Fin.sum_univ_eq_sum_range (fun k => a k j * exp (2 * Real.pi * I * ((n * k : ℕ) : ℂ) / ((N + 1 : ℕ) : ℂ))) (N + 1)

/-- Phase of the wave at a cell centre. -/
private theorem phase_node (g : Cyl) (hg : g.Ok) (n k : ℕ) :
    exp (I * (g.kz k : ℂ) * ((g.z0 + n * g.dz - g.z0 : ℝ) : ℂ)) = exp (2 * Real.pi * I * ((n * k : ℕ) : ℂ) / (g.Nz : ℂ)) := by
  have hN : (g.Nz : ℂ) ≠ 0 := by exact_mod_cast hg.Nz_pos.ne'
  have hd : (g.dz : ℂ) ≠ 0 := by exact_mod_cast hg.dz_ne
  unfold Cyl.kz
  split_ifs with h
  · congr 1
    push_cast
    field_simp
    ring
  · rw [Complex.exp_eq_exp_iff_exists_int]
    refine ⟨-n, ?_⟩
    push_cast
    field_simp
    ring

private theorem samples {g : Cyl} (hg : g.Ok) [NeZero g.Nz] (p : ℤ) (M : ℕ → ℕ → ℝ) (ρ : ℕ → ℝ)
    (hM : ∀ i j, i < g.Nr → M i j = g.radial p i (ρ j)) (F : ℕ → ℕ → ℂ) {n : ℕ} (hn : n < g.Nz) (j : ℕ) (θ : ℝ) :
    g.wave p F (g.z0 + n * g.dz) (ρ j) θ = fftAxis0 g.Nz true (hankel g.Nr M F) n j * exp (-(I * g.m * θ)) := by
  rw [fftAxis0_sum _ _ _ _ hn]
  unfold Cyl.wave hankel
  rw [mul_assoc (1 / (g.Nz : ℂ)), Finset.sum_mul]
  congr 1
  refine Finset.sum_congr rfl fun k _ => ?_
  rw [Finset.sum_mul, Finset.sum_mul]
  refine Finset.sum_congr rfl fun i hi => ?_
  rw [phase_node g hg, hM i j (Finset.mem_range.1 hi)]

/-- A transformer as the constructor makes it: the three matrices are those of orders `m`, `m+1`, `m-1`. -/
structure Spec.TransOf (m Nr : ℕ) (rmax : ℝ) (zeros : ℕ → ℝ) (T : Trans) : Prop where
  ok : TransOk m T
  nr : T.Nr = Nr
  inv0 : T.invM0 = Hankel.invM m m Nr rmax zeros
  invp : T.invMp = Hankel.invM (m + 1) m Nr rmax zeros
  invm : T.invMm = Hankel.invM (m - 1) m Nr rmax zeros

/-- **C79** (scalar field on the interpolation grid): after `spect2interp_scal`, the array holds the values of the
field at the centres of the cells, at every angle. -/
theorem C79_scal_samples {m Nr : ℕ} {dz zmin rmax : ℝ} {zeros : ℕ → ℝ} {T : Trans} [NeZero T.Nz]
    (hT : TransOf m Nr rmax zeros T) (hg : (cylOf m T.Nz Nr dz zmin rmax zeros).Ok) (spect interp : ℕ) (mem : Mem)
    (iz ir : ℕ) (hz : iz < T.Nz) (hr : ir < Nr) (θ : ℝ) :
    (cylOf m T.Nz Nr dz zmin rmax zeros).scal (mem spect) (zmin + (iz + 1 / 2) * dz) ((ir + 1 / 2) * (rmax / Nr)) θ
      = T.spect2interpScal spect interp mem interp iz ir * exp (-(I * m * θ)) := by
  rw [(C66_scal_interp hT.ok spect interp mem).1 iz ir hz (by rw [hT.nr]; exact hr), hT.inv0, hT.nr]
  haveI : NeZero (cylOf m T.Nz Nr dz zmin rmax zeros).Nz := ‹NeZero T.Nz›
  have := samples hg m _ (fun j => (j + 1 / 2) * (rmax / Nr))
    (fun i j hi => invM_eq hg (Or.inl rfl) hi j) (mem spect) hz ir θ
  refine Eq.trans ?_ this
  rw [Cyl.scal]
  congr 1
  show zmin + (iz + 1 / 2) * dz = zmin + dz / 2 + iz * dz
  ring

/-- **C79** (vector field on the interpolation grid): after `spect2interp_vect` (and `spect2interp_scal` for the
z component), the arrays hold the components of the vector field at the centres of the cells. -/
theorem C79_vect_samples {m Nr : ℕ} {dz zmin rmax : ℝ} {zeros : ℕ → ℝ} {T : Trans} [NeZero T.Nz]
    (hT : TransOf m Nr rmax zeros T) (hg : (cylOf m T.Nz Nr dz zmin rmax zeros).Ok) (sp sm sz ir it iZ : ℕ)
    (hbuf : T.bufR ≠ T.bufT) (h1 : sm ≠ T.bufR) (h2 : ir ≠ T.bufT) (h3 : ir ≠ it) (mem : Mem)
    (iz j : ℕ) (hz : iz < T.Nz) (hj : j < Nr) (θ : ℝ) :
    let F := (cylOf m T.Nz Nr dz zmin rmax zeros).vec fun a b => ⟨mem sp a b, mem sm a b, mem sz a b⟩
    F.r (zmin + (iz + 1 / 2) * dz) ((j + 1 / 2) * (rmax / Nr)) θ
        = T.spect2interpVect sp sm ir it mem ir iz j * exp (-(I * m * θ)) ∧
    F.t (zmin + (iz + 1 / 2) * dz) ((j + 1 / 2) * (rmax / Nr)) θ
        = T.spect2interpVect sp sm ir it mem it iz j * exp (-(I * m * θ)) ∧
    F.z (zmin + (iz + 1 / 2) * dz) ((j + 1 / 2) * (rmax / Nr)) θ
        = T.spect2interpScal sz iZ mem iZ iz j * exp (-(I * m * θ)) := by
  obtain ⟨a1, a2, -⟩ := C66_vect_interp hT.ok sp sm ir it hbuf h1 h2 h3 mem
  have hj' : j < T.Nr := by rw [hT.nr]; exact hj
  have ez : zmin + (iz + 1 / 2) * dz = zmin + dz / 2 + iz * dz := by ring
  haveI : NeZero (cylOf m T.Nz Nr dz zmin rmax zeros).Nz := ‹NeZero T.Nz›
  have wp := samples hg (m + 1) _ (fun j => (j + 1 / 2) * (rmax / Nr))
    (fun i j hi => invM_eq hg (Or.inr (Or.inl rfl)) hi j) (mem sp) hz j θ
  have wm := samples hg (m - 1) _ (fun j => (j + 1 / 2) * (rmax / Nr))
    (fun i j hi => invM_eq hg (Or.inr (Or.inr rfl)) hi j) (mem sm) hz j θ
  have lin : ∀ (c : ℂ) (A B : ℕ → ℕ → ℂ), fftAxis0 T.Nz true (fun a b => c * (A a b) + B a b) iz j
      = c * fftAxis0 T.Nz true A iz j + fftAxis0 T.Nz true B iz j := fun c A B => by
    rw [fftAxis0_sum _ _ _ _ hz, fftAxis0_sum _ _ _ _ hz, fftAxis0_sum _ _ _ _ hz, mul_left_comm, ← mul_add]
    congr 1
    rw [Finset.mul_sum, ← Finset.sum_add_distrib]
    exact Finset.sum_congr rfl fun k _ => by ring
  refine ⟨?_, ?_, ?_⟩
  · rw [a1 iz j hz hj', hT.invp, hT.invm, hT.nr]
    have e := lin 1 (hankel Nr (Hankel.invM (m + 1) m Nr rmax zeros) (mem sp))
      (hankel Nr (Hankel.invM (m - 1) m Nr rmax zeros) (mem sm))
    simp only [one_mul] at e
    rw [e, ez]
    refine Eq.trans (congrArg₂ (fun x y => x + y) wp wm) ?_
    exact (add_mul _ _ _).symm
  · rw [a2 iz j hz hj', hT.invp, hT.invm, hT.nr]
    have e := lin I (hankel Nr (Hankel.invM (m + 1) m Nr rmax zeros) (mem sp))
      (fun a b => -I * hankel Nr (Hankel.invM (m - 1) m Nr rmax zeros) (mem sm) a b + 0)
    have e' := lin (-I) (hankel Nr (Hankel.invM (m - 1) m Nr rmax zeros) (mem sm)) (fun _ _ => 0)
    have e0 : fftAxis0 T.Nz true (fun _ _ => 0) iz j = 0 := by rw [fftAxis0_sum _ _ _ _ hz]; simp
    rw [e', e0] at e
    have e2 : (fun a b => I * (hankel Nr (Hankel.invM (m + 1) m Nr rmax zeros) (mem sp) a b
        - hankel Nr (Hankel.invM (m - 1) m Nr rmax zeros) (mem sm) a b))
        = fun a b => I * (hankel Nr (Hankel.invM (m + 1) m Nr rmax zeros) (mem sp) a b)
        + (-I * hankel Nr (Hankel.invM (m - 1) m Nr rmax zeros) (mem sm) a b + 0) := by
      funext a b; ring
    rw [e2, e, ez]
    have key : ∀ a b c : ℂ, I * (a * c - b * c) = (I * a + (-I * b + 0)) * c := fun a b c => by ring
    exact (congrArg₂ (fun x y => I * (x - y)) wp wm).trans (key _ _ _)
  · exact C79_scal_samples hT hg sz iZ mem iz j hz hj θ

/-- The hypotheses are met by the mode 0 in a cylinder with one radial cell, with a true zero of `J_0`. -/
theorem exists_trans : ∃ (zeros : ℕ → ℝ) (T : Trans), T.Nz = 4 ∧ IsZeros 0 1 zeros ∧ (cylOf 0 T.Nz 1 (1 / 2) 0 1 zeros).Ok ∧
    TransOf 0 1 1 zeros T ∧ T.M0 0 0 ≠ 0 ∧ besselJ 1 (zeros 0) ≠ 0 := by
  obtain ⟨α, hα, h0, h1, h2, h3⟩ := exists_zero_J0
  have hpi := Real.pi_pos
  have hz : IsZeros 0 1 (fun _ => α) := ⟨fun i _ => ⟨hα, by simpa using h0⟩, fun i j h1 h2 => by omega⟩
  have hneg : ∀ x, besselJ (-1) x = -besselJ 1 x := fun x => by
    have := besselJ_neg_natCast 1 x
    have := besselJ_natCast 1 x
    simp_all
  let N : ℤ → ℕ → ℕ → ℝ := fun p => Hankel.invM p 0 1 1 fun _ => α
  have e : ∀ p, N p 0 0 = besselJ p (α / 2) / (Real.pi * besselJ (Hankel.pDenom p 0) α ^ 2) := fun p => by
    simp only [N, Hankel.invM, hankelInvM, Hankel.num, Hankel.denom, Hankel.nu, Hankel.rGrid, Hankel.alphas]
    simp only [ne_eq, not_true_eq_false, if_false, Nat.cast_zero, Nat.cast_one, one_pow, mul_one]
    congr 2
    field_simp
    ring
  have ne : ∀ p, p = 0 ∨ p = 1 ∨ p = -1 → N p 0 0 ≠ 0 := by
    intro p hp
    rw [e]
    have hp2 : besselJ (Hankel.pDenom p 0) α ≠ 0 := by
      rcases hp with rfl | rfl | rfl <;> simp [Hankel.pDenom, hneg, h3]
    have hp1 : besselJ p (α / 2) ≠ 0 := by
      rcases hp with rfl | rfl | rfl
      · exact h1.ne'
      · exact h2.ne'
      · rw [hneg]; exact neg_ne_zero.2 h2.ne'
    positivity
  have ok : ∀ p, p = 0 ∨ p = 1 ∨ p = -1 → DhtOk 0 p 1 (hankelM 0 p (fun _ _ => 1 / N p 0 0) fun _ _ => 0) (N p) := by
    intro p hp
    have hn := ne p hp
    refine ⟨_, _, _, fun _ _ => 1 / N p 0 0, fun _ _ => 0, rfl, rfl, fun _ => ⟨?_, ?_⟩, fun h => absurd rfl h.1⟩ <;>
    · intro i j hi hj
      obtain rfl : i = 0 := by omega
      obtain rfl : j = 0 := by omega
      simp [hn]
  refine ⟨fun _ => α, ⟨4, 1, false, hankelM 0 0 (fun _ _ => 1 / N 0 0 0) fun _ _ => 0, N 0,
    hankelM 0 1 (fun _ _ => 1 / N 1 0 0) fun _ _ => 0, N 1,
    hankelM 0 (-1) (fun _ _ => 1 / N (-1) 0 0) fun _ _ => 0, N (-1), 0, 1, loop2d 4 1, fun _ _ => 0, fun _ _ => 0,
    fun _ => 0⟩, rfl, hz, cylOf_ok (by norm_num) (by norm_num) one_pos (by simpa using hz),
    ⟨⟨(C55_threads 4 1 1 1 (by decide) (by decide)).1, ok 0 (by simp), ok 1 (by simp), ok (-1) (by simp)⟩, rfl, rfl, rfl, rfl⟩,
    by simpa [hankelM] using ne 0 (by simp), h3⟩

end Fbpic
