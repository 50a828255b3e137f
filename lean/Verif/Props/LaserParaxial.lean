import Verif.Props.LaserProfile
import Verif.Lemmas.LaserFar

/-! # C73: the transverse profiles are diffracted as they should -/

namespace Fbpic.LaserProf

open Complex (I)
open Spec Topology
open Filter (Tendsto atTop atBot tendsto_id tendsto_abs_atTop_atTop tendsto_abs_atBot_atTop tendsto_atTop_add_const_right tendsto_atBot_add_const_right)

/-- `T` is a transverse profile created by one of the classes of `transverse_laser_profiles.py`, for the wavelength `lambda0` and the
direction `dir`. -/
inductive Created (lambda0 dir : ℝ) (T : Trans) : Prop
  | gaussian (waist zf : ℝ) (hw : 0 < waist) (h : gaussTrans waist zf lambda0 dir = .ok T)
  | laguerreGauss (p : ℕ) (m : ℤ) (waist zf theta0 : ℝ) (hw : 0 < waist) (h : lgTrans p m waist zf lambda0 theta0 dir = .ok T)
  | donut (p : ℕ) (m : ℤ) (waist zf : ℝ) (hw : 0 < waist) (h : donutTrans p m waist zf lambda0 dir = .ok T)
  | flattened (w0 : ℝ) (N : ℕ) (zf : ℝ) (hw : 0 < w0) (h : flatTrans w0 N zf lambda0 dir = .ok T)

theorem lgTrans_inv {p : ℕ} {m : ℤ} {waist zf lambda0 theta0 dir : ℝ} {T : Trans} (h : lgTrans p m waist zf lambda0 theta0 dir = .ok T) :
    (dir = 1 ∨ dir = -1) ∧ ∃ n : ℕ, m = n := by
  by_cases hd : dir = 1 ∨ dir = -1
  · refine ⟨hd, ?_⟩
    rcases lt_or_ge m 0 with hm | hm
    · rw [lgTrans_neg _ _ _ _ _ _ _ hd hm] at h; simp at h
    · exact Int.eq_ofNat_of_zero_le hm
  · unfold lgTrans at h
    simp [checkDir_refused hd, bind, Except.bind] at h

theorem Created.dir_ok {lambda0 dir : ℝ} {T : Trans} (h : Created lambda0 dir T) : dir = 1 ∨ dir = -1 := by
  by_contra hd
  cases h with
  | gaussian w zf hw h => unfold gaussTrans at h; simp [checkDir_refused hd, bind, Except.bind] at h
  | laguerreGauss p m w zf th hw h => exact hd (lgTrans_inv h).1
  | donut p m w zf hw h => unfold donutTrans at h; simp [checkDir_refused hd, bind, Except.bind] at h
  | flattened w N zf hw h => unfold flatTrans at h; simp [checkDir_refused hd, bind, Except.bind] at h

theorem Created.props {lambda0 dir : ℝ} {T : Trans} (h : Created lambda0 dir T) : T.dir = dir ∧ T.k0 = 2 * Real.pi / lambda0 := by
  have hd := h.dir_ok
  cases h with
  | gaussian w zf hw h => rw [gaussTrans_ok _ _ _ _ hd] at h; injection h with h; subst h; exact ⟨rfl, rfl⟩
  | laguerreGauss p m w zf th hw h =>
    obtain ⟨n, rfl⟩ := (lgTrans_inv h).2
    rw [lgTrans_ok _ _ _ _ _ _ _ hd] at h; injection h with h; subst h; exact ⟨rfl, rfl⟩
  | donut p m w zf hw h => rw [donutTrans_ok _ _ _ _ _ _ hd] at h; injection h with h; subst h; exact ⟨rfl, rfl⟩
  | flattened w N zf hw h => rw [flatTrans_ok _ _ _ _ _ hd] at h; injection h with h; subst h; exact ⟨rfl, rfl⟩

/-- **C73** The transverse profile of a Gaussian, a Laguerre-Gauss, a donut-like or a flattened pulse, with any parameters, is at every
distance from the focal plane a solution of the paraxial wave equation: the pulse that is created out of focus is the one that will
have, in the focal plane, the documented profile (`C72_gaussian`, ...). -/
theorem C73_paraxial (lambda0 dir : ℝ) (hl : lambda0 ≠ 0) (T : Trans) (hT : Created lambda0 dir T) :
    ParaxialWave (2 * Real.pi / lambda0) dir T.evaluate := by
  have hk : 2 * Real.pi / lambda0 ≠ 0 := div_ne_zero (by positivity) hl
  have hd := hT.dir_ok
  have hd2 : dir ^ 2 = 1 := by rcases hd with h | h <;> rw [h] <;> norm_num
  cases hT with
  | gaussian w zf hw h =>
    rw [gaussTrans_ok _ _ _ _ hd] at h; injection h with h; subst h
    exact gaussTrans_paraxial w _ zf dir hw hk hd2
  | laguerreGauss p m w zf th hw h =>
    obtain ⟨n, rfl⟩ := (lgTrans_inv h).2
    rw [lgTrans_ok _ _ _ _ _ _ _ hd] at h; injection h with h; subst h
    exact lg_paraxial p n _ th w _ zf dir hw hk hd2
  | donut p m w zf hw h =>
    rw [donutTrans_ok _ _ _ _ _ _ hd] at h; injection h with h; subst h
    exact donut_paraxial p m _ w _ zf dir hw hk hd2
  | flattened w N zf hw h =>
    rw [flatTrans_ok _ _ _ _ _ hd] at h; injection h with h; subst h
    exact flat_paraxial N _ _ _ zf dir (mul_pos hw (Real.sqrt_pos.mpr (by positivity))) hk hd2

/-- **C73** Far from the focal plane, on both sides of it, the flattened profile along the direction `(a, b)` has the documented shape
`exp(-(N+1)r²/w(z)²) Σ ((N+1)r²/w(z)²)^n/n!` with `w(z) = λ0 |z-zf|/(π w0)`. -/
theorem C73_far_field (w0 lambda0 : ℝ) (N : ℕ) (zf dir a b : ℝ) (hw : 0 < w0) (hl : 0 < lambda0) (T : Trans)
    (hT : flatTrans w0 N zf lambda0 dir = .ok T) (l : Filter ℝ) (hinf : l = atTop ∨ l = atBot) :
    let s := (N + 1) * (a ^ 2 + b ^ 2) / (lambda0 / (Real.pi * w0)) ^ 2
    Tendsto (fun z => |z - zf| * ‖T.evaluate (a * (z - zf)) (b * (z - zf)) z‖) l
      (𝓝 (Real.pi * w0 ^ 2 / lambda0 * (Real.exp (-s) * ∑ n ∈ Finset.range (N + 1), s ^ n / n.factorial))) := by
  intro s
  have hd := (Created.flattened (T := T) w0 N zf hw hT).dir_ok
  have hd2 : dir ^ 2 = 1 := by rcases hd with h | h <;> rw [h] <;> norm_num
  rw [flatTrans_ok _ _ _ _ _ hd] at hT
  injection hT with hT
  subst hT
  have hN : (0 : ℝ) < (N : ℝ) + 1 := by positivity
  have hwf : 0 < w0 * Real.sqrt (N + 1) := mul_pos hw (Real.sqrt_pos.mpr hN)
  have hsq : (w0 * Real.sqrt (N + 1)) ^ 2 = w0 ^ 2 * (N + 1) := by rw [mul_pow, Real.sq_sqrt hN.le]
  have hpi := Real.pi_pos
  have hl' : Tendsto (fun z => |z - zf|) l atTop := by
    rcases hinf with rfl | rfl
    · exact tendsto_abs_atTop_atTop.comp (tendsto_atTop_add_const_right _ (-zf) tendsto_id)
    · exact tendsto_abs_atBot_atTop.comp (tendsto_atBot_add_const_right _ (-zf) tendsto_id)
  have h := flat_far N (w0 * Real.sqrt (N + 1)) (1 / 2 * (2 * Real.pi / lambda0) * (w0 * Real.sqrt (N + 1)) ^ 2) zf dir a b hwf
    (by positivity) hd2 l hl'
  have e1 : (a ^ 2 + b ^ 2) * ((1 / 2 * (2 * Real.pi / lambda0) * (w0 * Real.sqrt (N + 1)) ^ 2) / (w0 * Real.sqrt (N + 1))) ^ 2 = s := by
    simp only [s]
    rw [div_pow, mul_pow, hsq]
    field_simp
  have e2 : 1 / 2 * (2 * Real.pi / lambda0) * (w0 * Real.sqrt (N + 1)) ^ 2 / (N + 1) = Real.pi * w0 ^ 2 / lambda0 := by
    rw [hsq]; field_simp
  rw [e1, e2] at h
  exact h

/-- All four kinds are created, for both directions. -/
example (dir : ℝ) (hd : dir = 1 ∨ dir = -1) : (∃ T, gaussTrans 1 2 3 dir = .ok T ∧ Created 3 dir T) ∧
    (∃ T, lgTrans 2 1 1 2 3 0 dir = .ok T ∧ Created 3 dir T) ∧ (∃ T, donutTrans 2 (-1) 1 2 3 dir = .ok T ∧ Created 3 dir T) ∧
    ∃ T, flatTrans 1 6 2 3 dir = .ok T ∧ Created 3 dir T :=
  ⟨⟨_, gaussTrans_ok _ _ _ _ hd, .gaussian 1 2 one_pos (gaussTrans_ok _ _ _ _ hd)⟩,
   ⟨_, lgTrans_ok 2 1 _ _ _ _ _ hd, .laguerreGauss 2 1 1 2 0 one_pos (lgTrans_ok 2 1 _ _ _ _ _ hd)⟩,
   ⟨_, donutTrans_ok _ _ _ _ _ _ hd, .donut 2 (-1) 1 2 one_pos (donutTrans_ok _ _ _ _ _ _ hd)⟩,
   ⟨_, flatTrans_ok _ _ _ _ _ hd, .flattened 1 6 2 one_pos (flatTrans_ok _ _ _ _ _ hd)⟩⟩

end Fbpic.LaserProf
