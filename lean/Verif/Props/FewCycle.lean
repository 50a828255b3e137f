import Verif.Lemmas.FewCycle
import Verif.Props.LaserProfile

/-! # C75: the few-cycle pulse -/

namespace Fbpic.LaserProf

open Complex (I)
open Spec

theorem fewCycle_ok (k : Phys) (solve : (ℝ → ℝ) → ℝ) (a0 waist tauFwhm z0 : ℝ) (zf : Option ℝ) (thetaPol lambda0 cep dir : ℝ)
    (hd : dir = 1 ∨ dir = -1) : fewCycleLaser k solve a0 waist tauFwhm z0 zf thetaPol lambda0 cep dir = .ok ⟨fun x y z t =>
      let profile := fewCycleEval k.c (2 * Real.pi / lambda0) (1 / 2 * (2 * Real.pi / lambda0) * waist ^ 2) z0 (zf.getD z0) cep
        (solve (fewCycleEq k.c (2 * Real.pi / lambda0) tauFwhm)) dir x y z t
      (((amplitude k a0 lambda0 * Real.cos thetaPol : ℝ) * profile).re, ((amplitude k a0 lambda0 * Real.sin thetaPol : ℝ) * profile).re), dir⟩ := by
  unfold fewCycleLaser
  rw [checkDir_ok hd]
  rfl

/-- The assumption on `fsolve`: it returns the positive root of the equation of the documentation. -/
def Solved (k : Phys) (solve : (ℝ → ℝ) → ℝ) (lambda0 tauFwhm : ℝ) : Prop :=
  0 < solve (fewCycleEq k.c (2 * Real.pi / lambda0) tauFwhm) ∧
    fewCycleEq k.c (2 * Real.pi / lambda0) tauFwhm (solve (fewCycleEq k.c (2 * Real.pi / lambda0) tauFwhm)) = 0

/-- **C75** The equation that fixes the parameter `s` of the pulse has a positive root, for every duration: `fsolve` may succeed. -/
theorem C75_solvable (k : Phys) (lambda0 tauFwhm : ℝ) (hc : 0 < k.c) (hl : 0 < lambda0) (ht : 0 < tauFwhm) :
    ∃ s, 0 < s ∧ k.c * (2 * Real.pi / lambda0) * tauFwhm = s * Real.sqrt (2 * (4 ^ (1 / (s + 1)) - 1)) := by
  have := Real.pi_pos
  obtain ⟨s, hs, he⟩ := fewCycle_exists k.c (2 * Real.pi / lambda0) tauFwhm (by positivity)
  refine ⟨s, hs, ?_⟩
  unfold fewCycleEq at he
  simp only at he
  linarith

/-- **C75** The field never exceeds `a0 * E0`, at any place and time. -/
theorem C75_peak (k : Phys) (solve : (ℝ → ℝ) → ℝ) (a0 waist tauFwhm z0 : ℝ) (zf : Option ℝ) (thetaPol lambda0 cep dir : ℝ) (L : Laser)
    (hL : fewCycleLaser k solve a0 waist tauFwhm z0 zf thetaPol lambda0 cep dir = .ok L)
    (hs : 0 < solve (fewCycleEq k.c (2 * Real.pi / lambda0) tauFwhm)) (hl : 0 < lambda0) (hw : 0 < waist) (x y z t : ℝ) :
    (L.field x y z t).1 ^ 2 + (L.field x y z t).2 ^ 2 ≤ (a0 * (k.me * k.c ^ 2 * (2 * Real.pi / lambda0) / k.e)) ^ 2 := by
  by_cases hd : dir = 1 ∨ dir = -1
  swap
  · unfold fewCycleLaser at hL
    simp [checkDir_refused hd, bind, Except.bind] at hL
  rw [fewCycle_ok _ _ _ _ _ _ _ _ _ _ _ hd] at hL
  injection hL with hL
  subst hL
  have hpi := Real.pi_pos
  simp only [Complex.re_ofReal_mul]
  set P := fewCycleEval k.c (2 * Real.pi / lambda0) (1 / 2 * (2 * Real.pi / lambda0) * waist ^ 2) z0 (zf.getD z0) cep
        (solve (fewCycleEq k.c (2 * Real.pi / lambda0) tauFwhm)) dir x y z t with hP
  have h1 : ‖P‖ ≤ 1 := fewCycle_le_one _ _ _ _ _ _ _ _ _ _ _ _ (by positivity) hs (by positivity)
  have h2 : P.re ^ 2 ≤ 1 := by
    have := Complex.abs_re_le_norm P
    rw [← sq_abs]
    nlinarith [abs_nonneg P.re, norm_nonneg P]
  have ha : amplitude k a0 lambda0 = a0 * (k.me * k.c ^ 2 * (2 * Real.pi / lambda0) / k.e) := by
    unfold amplitude; ring
  rw [← ha]
  have hcs := Real.sin_sq_add_cos_sq thetaPol
  calc _ = amplitude k a0 lambda0 ^ 2 * P.re ^ 2 * (Real.sin thetaPol ^ 2 + Real.cos thetaPol ^ 2) := by ring
    _ = amplitude k a0 lambda0 ^ 2 * P.re ^ 2 := by rw [hcs, mul_one]
    _ ≤ amplitude k a0 lambda0 ^ 2 * 1 := mul_le_mul_of_nonneg_left h2 (sq_nonneg _)
    _ = _ := mul_one _

/-- **C75** "Different frequencies focus in different ways": the field is the real part of a solution of the wave equation where only the
second derivative along `z` in the frame of the pulse is neglected, for every duration, focal plane and direction. -/
theorem C75_wave (k : Phys) (solve : (ℝ → ℝ) → ℝ) (a0 waist tauFwhm z0 : ℝ) (zf : Option ℝ) (thetaPol lambda0 cep dir : ℝ) (L : Laser)
    (hL : fewCycleLaser k solve a0 waist tauFwhm z0 zf thetaPol lambda0 cep dir = .ok L)
    (hs : 0 < solve (fewCycleEq k.c (2 * Real.pi / lambda0) tauFwhm)) (hl : 0 < lambda0) (hw : 0 < waist) (hc : 0 < k.c) :
    ∃ E : ℝ → ℝ → ℝ → ℝ → ℂ, ShortPulseWave k.c dir E ∧ ∀ x y z t,
      L.field x y z t = (a0 * (k.me * k.c ^ 2 * (2 * Real.pi / lambda0) / k.e) * Real.cos thetaPol * (E x y z t).re,
        a0 * (k.me * k.c ^ 2 * (2 * Real.pi / lambda0) / k.e) * Real.sin thetaPol * (E x y z t).re) := by
  by_cases hd : dir = 1 ∨ dir = -1
  swap
  · unfold fewCycleLaser at hL
    simp [checkDir_refused hd, bind, Except.bind] at hL
  rw [fewCycle_ok _ _ _ _ _ _ _ _ _ _ _ hd] at hL
  injection hL with hL
  subst hL
  have hpi := Real.pi_pos
  refine ⟨_, fewCycle_wave k.c (2 * Real.pi / lambda0) (1 / 2 * (2 * Real.pi / lambda0) * waist ^ 2) z0 (zf.getD z0) cep
        (solve (fewCycleEq k.c (2 * Real.pi / lambda0) tauFwhm)) dir hc.ne' (by positivity) hs (by positivity)
        (by rcases hd with h | h <;> rw [h] <;> norm_num), fun x y z t => ?_⟩
  simp only [Complex.re_ofReal_mul]
  have ha : amplitude k a0 lambda0 = a0 * (k.me * k.c ^ 2 * (2 * Real.pi / lambda0) / k.e) := by
    unfold amplitude; ring
  rw [ha]

/-- Squared envelope on the axis at the focal plane, of a pulse initially at focus: sum of the squared fields of two pulses whose carrier
phases differ by a quarter of an oscillation. -/
noncomputable def envelopeSq (L L' : Laser) (zf t : ℝ) : ℝ :=
  (L.field 0 0 zf t).1 ^ 2 + (L.field 0 0 zf t).2 ^ 2 + ((L'.field 0 0 zf t).1 ^ 2 + (L'.field 0 0 zf t).2 ^ 2)

theorem fewCycle_cep (c k0 zr z0 zf cep s dir x y z t : ℝ) :
    fewCycleEval c k0 zr z0 zf (cep + Real.pi / 2) s dir x y z t = I * fewCycleEval c k0 zr z0 zf cep s dir x y z t := by
  unfold fewCycleEval
  have : Complex.exp (I * ((cep + Real.pi / 2 : ℝ) : ℂ)) = I * Complex.exp (I * cep) := by
    push_cast
    rw [mul_add, Complex.exp_add, show I * ((Real.pi : ℂ) / 2) = Real.pi / 2 * I by ring, Complex.exp_pi_div_two_mul_I, mul_comm]
  simp only [this]
  ring

theorem fewCycle_envelope (k : Phys) (solve : (ℝ → ℝ) → ℝ) (a0 waist tauFwhm zf thetaPol lambda0 cep dir : ℝ) (L L' : Laser)
    (hL : fewCycleLaser k solve a0 waist tauFwhm zf none thetaPol lambda0 cep dir = .ok L)
    (hL' : fewCycleLaser k solve a0 waist tauFwhm zf none thetaPol lambda0 (cep + Real.pi / 2) dir = .ok L')
    (hl : 0 < lambda0) (hw : 0 < waist) (t : ℝ) :
    envelopeSq L L' zf t = amplitude k a0 lambda0 ^ 2 *
      (1 + (k.c * (2 * Real.pi / lambda0) * t / solve (fewCycleEq k.c (2 * Real.pi / lambda0) tauFwhm)) ^ 2) ^
        (-(solve (fewCycleEq k.c (2 * Real.pi / lambda0) tauFwhm) + 1)) := by
  by_cases hd : dir = 1 ∨ dir = -1
  swap
  · unfold fewCycleLaser at hL
    simp [checkDir_refused hd, bind, Except.bind] at hL
  rw [fewCycle_ok _ _ _ _ _ _ _ _ _ _ _ hd] at hL hL'
  injection hL with hL
  injection hL' with hL'
  subst hL hL'
  have hpi := Real.pi_pos
  simp only [envelopeSq, Complex.re_ofReal_mul, fewCycle_cep, Option.getD_none, Complex.I_mul_re]
  set s := solve (fewCycleEq k.c (2 * Real.pi / lambda0) tauFwhm)
  have hf := fewCycle_focus k.c (2 * Real.pi / lambda0) (1 / 2 * (2 * Real.pi / lambda0) * waist ^ 2) zf cep s dir t (by positivity)
  rw [show k.c * (2 * Real.pi / lambda0) * t = 2 * Real.pi / lambda0 * k.c * t by ring, ← hf,
    ← Complex.normSq_eq_norm_sq, Complex.normSq_apply]
  have hcs := Real.sin_sq_add_cos_sq thetaPol
  linear_combination (amplitude k a0 lambda0 ^ 2 * ((fewCycleEval k.c (2 * Real.pi / lambda0)
    (1 / 2 * (2 * Real.pi / lambda0) * waist ^ 2) zf zf cep s dir 0 0 zf t).re ^ 2 + (fewCycleEval k.c (2 * Real.pi / lambda0)
    (1 / 2 * (2 * Real.pi / lambda0) * waist ^ 2) zf zf cep s dir 0 0 zf t).im ^ 2)) * hcs

theorem isFwhm_scale (a T : ℝ) (f : ℝ → ℝ) (ha : 0 < a) : IsFwhm (fun t => a * f t) T ↔ IsFwhm f T := by
  unfold IsFwhm
  refine forall_congr' fun t => ?_
  rw [mul_div_assoc, mul_le_mul_iff_right₀ ha]

/-- The difference between the two durations. -/
theorem fwhm_gap (s w tau T : ℝ) (hs : 0 < s) (hw : 0 < w) (ht : 0 < tau)
    (h1 : (w * tau) ^ 2 = 2 * s ^ 2 * (4 ^ (1 / (s + 1)) - 1)) (h2 : (w * T) ^ 2 = 4 * s ^ 2 * (2 ^ (1 / (s + 1)) - 1)) :
    T ^ 2 < tau ^ 2 ∧ 2 / 3 * tau ^ 2 < T ^ 2 ∧ (1 - 3 / (w * tau) ^ 2) * tau ^ 2 ≤ T ^ 2 := by
  set g : ℝ := (2 : ℝ) ^ (1 / (s + 1)) with hg
  have hpos : (0 : ℝ) < 1 / (s + 1) := by positivity
  have hg1 : 1 < g := Real.one_lt_rpow (by norm_num) hpos
  have hg2 : g < 2 := by
    have := Real.rpow_lt_rpow_of_exponent_lt (show (1 : ℝ) < 2 by norm_num) (show 1 / (s + 1) < 1 by rw [div_lt_one (by linarith)]; linarith)
    rwa [Real.rpow_one] at this
  have h4 : (4 : ℝ) ^ (1 / (s + 1)) = g ^ 2 := by
    rw [show (4 : ℝ) = 2 ^ (2 : ℕ) by norm_num, hg, ← Real.rpow_natCast, ← Real.rpow_natCast, ← Real.rpow_mul (by norm_num),
      ← Real.rpow_mul (by norm_num), mul_comm]
  rw [h4] at h1
  have hrel : T ^ 2 * (g + 1) = 2 * tau ^ 2 := by
    have h3 : (w * T) ^ 2 * (g + 1) = 2 * (w * tau) ^ 2 := by rw [h1, h2]; ring
    have hw2 : 0 < w ^ 2 := by positivity
    rw [mul_pow, mul_pow] at h3
    have : w ^ 2 * (T ^ 2 * (g + 1)) = w ^ 2 * (2 * tau ^ 2) := by linarith
    exact mul_left_cancel₀ hw2.ne' this
  have hT2 : 0 < T ^ 2 := by
    have : 0 < tau ^ 2 := by positivity
    nlinarith [sq_nonneg T]
  refine ⟨by nlinarith, by nlinarith, ?_⟩
  -- bounds of the root by `1/s`
  have hb4 : (4 : ℝ) ^ (1 / (s + 1)) ≤ 1 + 1 / (s + 1) * 3 := by
    have := rpow_one_add_le_one_add_mul_self (s := 3) (by norm_num) hpos.le (p := 1 / (s + 1)) (by rw [div_le_one (by linarith)]; linarith)
    norm_num at this ⊢
    exact this
  have hb2 : g ≤ 1 + 1 / (s + 1) := by
    have := rpow_one_add_le_one_add_mul_self (s := 1) (by norm_num) hpos.le (p := 1 / (s + 1)) (by rw [div_le_one (by linarith)]; linarith)
    rw [mul_one] at this
    rw [hg]
    norm_num at this ⊢
    exact this
  have hW : (w * tau) ^ 2 ≤ 6 * (s + 1) := by
    rw [h1, ← h4]
    have h5 : (4 : ℝ) ^ (1 / (s + 1)) - 1 ≤ 1 / (s + 1) * 3 := by linarith
    have h6 : 2 * s ^ 2 * ((4 : ℝ) ^ (1 / (s + 1)) - 1) ≤ 2 * s ^ 2 * (1 / (s + 1) * 3) :=
      mul_le_mul_of_nonneg_left h5 (by positivity)
    have h7 : 2 * s ^ 2 * (1 / (s + 1) * 3) ≤ 6 * (s + 1) := by
      rw [show 2 * s ^ 2 * (1 / (s + 1) * 3) = 6 * s ^ 2 / (s + 1) by ring, div_le_iff₀ (by linarith)]
      nlinarith
    linarith
  have hwt : 0 < (w * tau) ^ 2 := by positivity
  have h8 : 1 / (s + 1) ≤ 6 / (w * tau) ^ 2 := by
    rw [div_le_div_iff₀ (by linarith) hwt]; linarith
  have h9 : g - 1 ≤ 6 / (w * tau) ^ 2 := by linarith
  -- `T² = τ² · 2/(g+1) ≥ τ² (1 - (g-1)/2)`
  have h10 : (1 - (g - 1) / 2) * tau ^ 2 ≤ T ^ 2 := by
    have : (1 - (g - 1) / 2) * tau ^ 2 = (1 - (g - 1) / 2) * (T ^ 2 * (g + 1) / 2) := by rw [hrel]; ring
    rw [this]
    nlinarith [mul_pos hT2 (show 0 < (g - 1) ^ 2 by nlinarith)]
  have h11 : (1 - 3 / (w * tau) ^ 2) * tau ^ 2 ≤ (1 - (g - 1) / 2) * tau ^ 2 := by
    apply mul_le_mul_of_nonneg_right _ (sq_nonneg _)
    have : 3 / (w * tau) ^ 2 = 6 / (w * tau) ^ 2 / 2 := by ring
    rw [this]; linarith
  linarith

/-- **C75** (refuted claim) `tau_fwhm` is documented as the full width at half maximum of the intensity of the envelope. It never is: for
every pulse, the width at half maximum is different. -/
theorem C75_fwhm_violated (k : Phys) (solve : (ℝ → ℝ) → ℝ) (a0 waist tauFwhm zf thetaPol lambda0 cep dir : ℝ) (L L' : Laser)
    (hL : fewCycleLaser k solve a0 waist tauFwhm zf none thetaPol lambda0 cep dir = .ok L)
    (hL' : fewCycleLaser k solve a0 waist tauFwhm zf none thetaPol lambda0 (cep + Real.pi / 2) dir = .ok L')
    (hs : Solved k solve lambda0 tauFwhm) (hl : 0 < lambda0) (hw : 0 < waist) (hc : 0 < k.c) (ht : 0 < tauFwhm)
    (ha : amplitude k a0 lambda0 ≠ 0) : ¬IsFwhm (envelopeSq L L' zf) tauFwhm := by
  have hpi := Real.pi_pos
  have e : envelopeSq L L' zf = fun t => amplitude k a0 lambda0 ^ 2 * _ :=
    funext (fewCycle_envelope k solve a0 waist tauFwhm zf thetaPol lambda0 cep dir L L' hL hL' hl hw)
  rw [e, isFwhm_scale _ _ _ (by positivity), fewCycle_fwhm _ _ _ hs.1 (by positivity) ht.le]
  intro h
  have := (fwhm_gap _ _ _ _ hs.1 (by positivity) ht (fewCycle_solved _ _ _ _ hs.1 hs.2) h).1
  exact lt_irrefl _ this

/-- **C75** (the part which holds) The intensity has a width at half maximum `T`; it is shorter than `tau_fwhm`, by less than `1 - √(2/3)`
(18 %), and it tends to `tau_fwhm` for pulses of many cycles: `(1 - 3/(ω0 τ)²) τ² ≤ T² < τ²`. Besides `√2 tau_fwhm` is exactly the width
at half maximum of the envelope of the field. Missing: `T = tau_fwhm`, which is wrong (`C75_fwhm_violated`). -/
theorem C75_fwhm_partial (k : Phys) (solve : (ℝ → ℝ) → ℝ) (a0 waist tauFwhm zf thetaPol lambda0 cep dir : ℝ) (L L' : Laser)
    (hL : fewCycleLaser k solve a0 waist tauFwhm zf none thetaPol lambda0 cep dir = .ok L)
    (hL' : fewCycleLaser k solve a0 waist tauFwhm zf none thetaPol lambda0 (cep + Real.pi / 2) dir = .ok L')
    (hs : Solved k solve lambda0 tauFwhm) (hl : 0 < lambda0) (hw : 0 < waist) (hc : 0 < k.c) (ht : 0 < tauFwhm)
    (ha : amplitude k a0 lambda0 ≠ 0) :
    (∃ T, 0 < T ∧ IsFwhm (envelopeSq L L' zf) T ∧ T < tauFwhm ∧ Real.sqrt (2 / 3) * tauFwhm < T ∧
      (1 - 3 / (2 * Real.pi * k.c / lambda0 * tauFwhm) ^ 2) * tauFwhm ^ 2 ≤ T ^ 2) ∧
    IsFwhm (fun t => Real.sqrt (envelopeSq L L' zf t)) (Real.sqrt 2 * tauFwhm) := by
  have hpi := Real.pi_pos
  have e : envelopeSq L L' zf = fun t => amplitude k a0 lambda0 ^ 2 * _ :=
    funext (fewCycle_envelope k solve a0 waist tauFwhm zf thetaPol lambda0 cep dir L L' hL hL' hl hw)
  have hsol := fewCycle_solved _ _ _ _ hs.1 hs.2
  have hs1 := hs.1
  set s := solve (fewCycleEq k.c (2 * Real.pi / lambda0) tauFwhm) with hsdef
  set w := k.c * (2 * Real.pi / lambda0) with hwdef
  have hwp : 0 < w := by positivity
  have hg1 : (1 : ℝ) < 2 ^ (1 / (s + 1)) := Real.one_lt_rpow (by norm_num) (by positivity)
  constructor
  · refine ⟨2 * s / w * Real.sqrt (2 ^ (1 / (s + 1)) - 1), ?_, ?_⟩
    · have := Real.sqrt_pos.mpr (show (0 : ℝ) < 2 ^ (1 / (s + 1)) - 1 by linarith)
      positivity
    set T := 2 * s / w * Real.sqrt (2 ^ (1 / (s + 1)) - 1) with hT
    have hTp : 0 ≤ T := by positivity
    have hT2 : (w * T) ^ 2 = 4 * s ^ 2 * (2 ^ (1 / (s + 1)) - 1) := by
      rw [hT, show w * (2 * s / w * Real.sqrt (2 ^ (1 / (s + 1)) - 1)) = 2 * s * Real.sqrt (2 ^ (1 / (s + 1)) - 1) by field_simp,
        mul_pow, Real.sq_sqrt (by linarith)]
      ring
    obtain ⟨g1, g2, g3⟩ := fwhm_gap _ _ _ _ hs1 hwp ht hsol hT2
    refine ⟨?_, ?_, ?_, ?_⟩
    · rw [e, isFwhm_scale _ _ _ (by positivity)]
      exact (fewCycle_fwhm _ _ _ hs1 hwp hTp).mpr hT2
    · exact lt_of_pow_lt_pow_left₀ 2 ht.le g1
    · refine lt_of_pow_lt_pow_left₀ 2 hTp ?_
      rw [mul_pow, Real.sq_sqrt (by norm_num)]
      exact g2
    · rw [show 2 * Real.pi * k.c / lambda0 = w by rw [hwdef]; ring]
      exact g3
  · -- the field
    have hsp : (0 : ℝ) < s + 1 := by linarith
    have e2 : (fun t => Real.sqrt (envelopeSq L L' zf t)) = fun t => |amplitude k a0 lambda0| * (1 + (w * t / s) ^ 2) ^ (-((s + 1) / 2)) := by
      funext t
      rw [e]
      have hb : 0 ≤ 1 + (w * t / s) ^ 2 := by positivity
      simp only
      rw [Real.sqrt_mul (sq_nonneg _), Real.sqrt_sq_eq_abs, Real.sqrt_eq_rpow, ← Real.rpow_mul hb]
      congr 2
      ring
    rw [e2, isFwhm_scale _ _ _ (abs_pos.mpr ha)]
    intro t
    have hb : 0 < 1 + (w * t / s) ^ 2 := by positivity
    have h4p : (0 : ℝ) < 4 ^ (1 / (s + 1)) := by positivity
    have h42 : ((4 : ℝ) ^ (1 / (s + 1))) ^ ((s + 1) / 2) = 2 := by
      rw [← Real.rpow_mul (by norm_num), show 1 / (s + 1) * ((s + 1) / 2) = 1 / 2 by field_simp, ← Real.sqrt_eq_rpow,
        show (4 : ℝ) = 2 ^ 2 by norm_num, Real.sqrt_sq (by norm_num)]
    simp only
    rw [mul_zero, zero_div, zero_pow two_ne_zero, add_zero, Real.one_rpow, Real.rpow_neg hb.le, one_div,
      inv_le_inv₀ (by norm_num) (Real.rpow_pos_of_pos hb _)]
    have h43 : (1 + (w * t / s) ^ 2) ^ ((s + 1) / 2) ≤ 2 ↔ 1 + (w * t / s) ^ 2 ≤ (4 : ℝ) ^ (1 / (s + 1)) := by
      have := Real.rpow_le_rpow_iff hb.le h4p.le (show 0 < (s + 1) / 2 by positivity)
      rwa [h42] at this
    rw [h43, ← abs_of_nonneg (show 0 ≤ Real.sqrt 2 * tauFwhm / 2 by positivity),
      ← sq_le_sq, show (Real.sqrt 2 * tauFwhm / 2) ^ 2 = tauFwhm ^ 2 / 2 by
        rw [div_pow, mul_pow, Real.sq_sqrt (by norm_num)]; ring]
    have h5 : (4 : ℝ) ^ (1 / (s + 1)) = 1 + w ^ 2 * tauFwhm ^ 2 / (2 * s ^ 2) := by
      rw [mul_pow] at hsol
      rw [hsol]; field_simp; ring
    rw [h5, div_pow, mul_pow]
    have hw2 : 0 < w ^ 2 := by positivity
    have hs2 : 0 < s ^ 2 := by positivity
    rw [add_le_add_iff_left, div_le_div_iff₀ hs2 (by positivity)]
    constructor
    · intro h
      have h6 : (w ^ 2 * s ^ 2) * (2 * t ^ 2) ≤ (w ^ 2 * s ^ 2) * tauFwhm ^ 2 := by linarith
      have := le_of_mul_le_mul_left h6 (by positivity)
      linarith
    · intro h
      have h6 : 2 * t ^ 2 ≤ tauFwhm ^ 2 := by linarith
      have := mul_le_mul_of_nonneg_left h6 (show 0 ≤ w ^ 2 * s ^ 2 by positivity)
      linarith

/-- **C75** The pulse of the opposite direction, position and focal plane is the mirror image; a direction other than 1 and -1 is refused,
and nothing else is. -/
theorem C75_mirror (k : Phys) (solve : (ℝ → ℝ) → ℝ) (a0 waist tauFwhm z0 : ℝ) (zf : Option ℝ) (thetaPol lambda0 cep dir : ℝ) :
    (¬(dir = 1 ∨ dir = -1) → ∃ e, fewCycleLaser k solve a0 waist tauFwhm z0 zf thetaPol lambda0 cep dir = .error (.assertionError e)) ∧
    (dir = 1 ∨ dir = -1 → ∃ L L', fewCycleLaser k solve a0 waist tauFwhm z0 zf thetaPol lambda0 cep dir = .ok L ∧
      fewCycleLaser k solve a0 waist tauFwhm (-z0) (zf.map (- ·)) thetaPol lambda0 cep (-dir) = .ok L' ∧ L'.dir = -L.dir ∧
      ∀ x y z t, L'.field x y (-z) t = L.field x y z t) := by
  refine ⟨fun hd => ⟨"", ?_⟩, fun hd => ?_⟩
  · unfold fewCycleLaser; simp only [checkDir_refused hd, bind, Except.bind]
  · have hd' : -dir = 1 ∨ -dir = -1 := by rcases hd with h | h <;> rw [h] <;> norm_num
    refine ⟨_, _, fewCycle_ok _ _ _ _ _ _ _ _ _ _ _ hd, fewCycle_ok _ _ _ _ _ _ _ _ _ _ _ hd', rfl, fun x y z t => ?_⟩
    have hz : (zf.map (- ·)).getD (-z0) = -(zf.getD z0) := by cases zf <;> rfl
    have : ∀ s zr, fewCycleEval k.c (2 * Real.pi / lambda0) zr (-z0) (-(zf.getD z0)) cep s (-dir) x y (-z) t =
        fewCycleEval k.c (2 * Real.pi / lambda0) zr z0 (zf.getD z0) cep s dir x y z t := by
      intro s zr
      unfold fewCycleEval
      have e1 : (((-dir : ℝ) : ℂ) * (((-z : ℝ) : ℂ) - ((-(zf.getD z0) : ℝ) : ℂ))) = dir * (z - (zf.getD z0 : ℝ)) := by push_cast; ring
      have e2 : (((-dir : ℝ) : ℂ) * (((-z : ℝ) : ℂ) - ((-z0 : ℝ) : ℂ))) = dir * (z - z0) := by push_cast; ring
      simp only [e1, e2]
    simp only [hz, this]

-- A pulse whose duration is the one of `s = 1`: `ω0 τ = √2`.
example : ∃ (solve : (ℝ → ℝ) → ℝ) (L L' : Laser), Solved ⟨1, 1, 1, 1⟩ solve (2 * Real.pi) (Real.sqrt 2) ∧
    fewCycleLaser ⟨1, 1, 1, 1⟩ solve 3 2 (Real.sqrt 2) 0 none 0 (2 * Real.pi) 0 1 = .ok L ∧
    fewCycleLaser ⟨1, 1, 1, 1⟩ solve 3 2 (Real.sqrt 2) 0 none 0 (2 * Real.pi) (0 + Real.pi / 2) 1 = .ok L' ∧
    ¬IsFwhm (envelopeSq L L' 0) (Real.sqrt 2) := by
  have hpi := Real.pi_pos
  have h1 : 2 * Real.pi / (2 * Real.pi) = 1 := div_self (by positivity)
  have hS : Solved ⟨1, 1, 1, 1⟩ (fun _ => 1) (2 * Real.pi) (Real.sqrt 2) := by
    refine ⟨one_pos, ?_⟩
    unfold fewCycleEq
    simp only [h1]
    rw [show (1 : ℝ) / (1 + 1) = 1 / 2 by norm_num, ← Real.sqrt_eq_rpow, show (4 : ℝ) = 2 ^ 2 by norm_num, Real.sqrt_sq (by norm_num)]
    norm_num
  refine ⟨fun _ => 1, _, _, hS, fewCycle_ok _ _ _ _ _ _ _ _ _ _ _ (Or.inl rfl), fewCycle_ok _ _ _ _ _ _ _ _ _ _ _ (Or.inl rfl), ?_⟩
  refine C75_fwhm_violated ⟨1, 1, 1, 1⟩ (fun _ => 1) 3 2 (Real.sqrt 2) 0 0 (2 * Real.pi) 0 1 _ _
    (fewCycle_ok _ _ _ _ _ _ _ _ _ _ _ (Or.inl rfl)) (fewCycle_ok _ _ _ _ _ _ _ _ _ _ _ (Or.inl rfl)) hS (by positivity)
    (by norm_num) one_pos (Real.sqrt_pos.mpr (by norm_num)) ?_
  unfold amplitude
  rw [h1]
  norm_num

end Fbpic.LaserProf
