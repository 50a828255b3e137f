import Verif.Lemmas.KleinNishina
import Verif.Spec.ComptonLaw
import Verif.Lemmas.Tactics
import Mathlib.Analysis.SpecialFunctions.Pow.Deriv
import Mathlib.Analysis.SpecialFunctions.Gaussian.GaussianIntegral
import Mathlib.MeasureTheory.Integral.IntervalIntegral.IntegrationByParts
import Mathlib.MeasureTheory.Integral.IntervalIntegral.FundThmCalculus
import Mathlib.MeasureTheory.Measure.Prod
import Mathlib.Analysis.SpecificLimits.Basic

namespace Fbpic

open MeasureTheory Set Spec
open scoped ENNReal

/-! ### The differential cross section -/

theorem factor_pos {k x : ℝ} (hk : 0 < k) (hx : x ≤ 1) : 0 < 1 + k * (1 - x) := by nlinarith

/-- The function `f` of the code is the Klein-Nishina cross section. -/
theorem kn_code {k x : ℝ} (hF : 1 + k * (1 - x) ≠ 0) :
    ((1 + x ^ 2) * (1 + k * (1 - x)) + k ^ 2 * (1 - x) ^ 2) / (1 + k * (1 - x)) ^ 3 = kleinNishina k x := by
  unfold kleinNishina
  have : k ^ 2 * (1 - x) ^ 2 = (1 + k * (1 - x) - 1) ^ 2 := by ring
  rw [this]
  generalize 1 + k * (1 - x) = F at hF
  field_simp
  ring

theorem kn_pos {k x : ℝ} (hk : 0 < k) (hx : x ≤ 1) : 0 < kleinNishina k x := by
  have hF := factor_pos hk hx
  rw [← kn_code hF.ne']
  positivity

/-- An antiderivative. -/
noncomputable def knPrim (k x : ℝ) : ℝ :=
  -(1 / k) * (-1 / 2 * (1 + k * (1 - x))⁻¹ ^ 2 + Real.log (1 + k * (1 - x)) - 2 / k * (Real.log (1 + k * (1 - x)) + (1 + k * (1 - x))⁻¹)
    + 1 / k ^ 2 * (1 + k * (1 - x) - 2 * Real.log (1 + k * (1 - x)) - (1 + k * (1 - x))⁻¹))

theorem knPrim_deriv {k x : ℝ} (hk : 0 < k) (hx : x ≤ 1) : HasDerivAt (knPrim k) (kleinNishina k x) x := by
  have hF := factor_pos hk hx
  have d1 : HasDerivAt (fun x : ℝ => 1 + k * (1 - x)) (-k) x := by
    simpa using (((hasDerivAt_id x).const_sub 1).const_mul k).const_add 1
  have d2 := d1.log hF.ne'
  have d3 := d1.inv hF.ne'
  have d4 := d3.pow 2
  have := ((((d4.const_mul (-1 / 2)).add d2).sub ((d2.add d3).const_mul (2 / k))).add
    ((((d1.sub (d2.const_mul 2)).sub d3)).const_mul (1 / k ^ 2))).const_mul (-(1 / k))
  refine this.congr_deriv ?_
  rw [← kn_code hF.ne', show (1 + x ^ 2) = 2 - 2 * (1 - x) + (1 - x) ^ 2 by ring]
  simp only [Pi.inv_apply, Nat.reduceSub, pow_one]
  have h1 : 1 - x = (1 + k * (1 - x) - 1) / k := by field_simp; ring
  generalize 1 + k * (1 - x) = F at hF h1
  rw [h1]
  field_simp
  ring

theorem kn_continuousOn {k : ℝ} (hk : 0 < k) : ContinuousOn (kleinNishina k) (Iic 1) := by
  have hF : ∀ x ∈ Iic (1 : ℝ), (1 + k * (1 - x)) ≠ 0 := fun x hx => (factor_pos hk hx).ne'
  have : ContinuousOn (fun x => ((1 + x ^ 2) * (1 + k * (1 - x)) + k ^ 2 * (1 - x) ^ 2) / (1 + k * (1 - x)) ^ 3) (Iic 1) := by
    refine ContinuousOn.div (by fun_prop) (by fun_prop) fun x hx => pow_ne_zero _ (hF x hx)
  exact this.congr fun x hx => (kn_code (hF x hx)).symm

theorem kn_integrable {k y : ℝ} (hk : 0 < k) (hy : y ≤ 1) : IntervalIntegrable (kleinNishina k) volume (-1) y := by
  refine ContinuousOn.intervalIntegrable ((kn_continuousOn hk).mono fun x hx => ?_)
  rw [mem_uIcc] at hx
  show x ≤ 1
  rcases hx with h | h
  · linarith [h.2]
  · linarith [h.2]

/-- The total cross section. -/
theorem kn_total {k : ℝ} (hk : 0 < k) : ∫ x in (-1 : ℝ)..1, kleinNishina k x =
    2 * (2 + k * (1 + k) * (8 + k)) / (k ^ 2 * (1 + 2 * k) ^ 2) - (2 + k * (2 - k)) * Real.log (1 + 2 * k) / k ^ 3 := by
  rw [intervalIntegral.integral_eq_sub_of_hasDerivAt (f := knPrim k) (fun x hx => knPrim_deriv hk ?_) (kn_integrable hk le_rfl)]
  · unfold knPrim
    rw [show 1 + k * (1 - (1 : ℝ)) = 1 by ring, show 1 + k * (1 - (-1 : ℝ)) = 1 + 2 * k by ring, Real.log_one]
    have : 0 < 1 + 2 * k := by linarith
    generalize Real.log (1 + 2 * k) = l
    field_simp
    ring
  · rw [uIcc_of_le (by norm_num)] at hx
    exact hx.2

/-! ### The rejection method -/

/-- The quantities of the loop. -/
noncomputable def knC0 (k : ℝ) : ℝ := 2 * (2 * k ^ 2 + 2 * k + 1) / (2 * k + 1) ^ 3
noncomputable def knB (k : ℝ) : ℝ := (2 + knC0 k) / (2 - knC0 k)

theorem knC0_mem {k : ℝ} (hk : 0 < k) : 0 < knC0 k ∧ knC0 k < 2 := by
  unfold knC0
  constructor
  · positivity
  · rw [div_lt_iff₀ (by positivity)]
    have : 0 < k ^ 2 ∧ 0 < k ^ 3 := ⟨by positivity, by positivity⟩
    nlinarith

theorem knB_gt {k : ℝ} (hk : 0 < k) : 1 < knB k := by
  obtain ⟨h0, h2⟩ := knC0_mem hk
  unfold knB
  rw [lt_div_iff₀ (by linarith)]
  linarith

/-- The rejection method is legitimate: the approximate distribution is above the exact one. -/
theorem kn_le {k x : ℝ} (hk : 0 < k) (h1 : -1 ≤ x) (h2 : x ≤ 1) : kleinNishina k x * (knB k - x) ≤ 2 * (knB k - 1) := by
  have hF := factor_pos hk h2
  obtain ⟨c0, c2⟩ := knC0_mem hk
  rw [← kn_code hF.ne']
  have hb : knB k = 1 + 2 * knC0 k / (2 - knC0 k) := by
    unfold knB
    have : 2 - knC0 k ≠ 0 := by linarith
    field_simp
    ring
  have hN2 : 0 < 2 * k ^ 2 + 2 * k + 1 := by positivity
  have hD2 : 0 < k * (2 + 5 * k + 4 * k ^ 2) := by positivity
  have hc : 2 * knC0 k / (2 - knC0 k) = (2 * k ^ 2 + 2 * k + 1) / (k * (2 + 5 * k + 4 * k ^ 2)) := by
    rw [div_eq_div_iff (by linarith) hD2.ne']
    unfold knC0
    have : 2 * k + 1 ≠ 0 := by positivity
    field_simp
    ring
  rw [hb, hc]
  set s := 1 - x with hs
  have hs0 : 0 ≤ s := by rw [hs]; linarith
  have hs2 : s ≤ 2 := by rw [hs]; linarith
  have hx : x = 1 - s := by rw [hs]; ring
  rw [hx, show 1 + (2 * k ^ 2 + 2 * k + 1) / (k * (2 + 5 * k + 4 * k ^ 2)) - (1 - s)
    = (2 * k ^ 2 + 2 * k + 1) / (k * (2 + 5 * k + 4 * k ^ 2)) + s by ring,
    show 2 * (1 + (2 * k ^ 2 + 2 * k + 1) / (k * (2 + 5 * k + 4 * k ^ 2)) - 1)
    = 2 * (2 * k ^ 2 + 2 * k + 1) / (k * (2 + 5 * k + 4 * k ^ 2)) by ring]
  rw [← sub_nonneg]
  have hQ : 0 ≤ (2 - s) * (2 * (1 + k) ^ 2 + (6 * k + 14 * k ^ 2 + 12 * k ^ 3 + 2 * k ^ 4) * s
      + (4 * k ^ 2 + 10 * k ^ 3 + 8 * k ^ 4) * s ^ 2) * s := by
    have : 0 ≤ 2 - s := by linarith
    positivity
  have e : 2 * (2 * k ^ 2 + 2 * k + 1) / (k * (2 + 5 * k + 4 * k ^ 2)) -
      ((1 + (1 - s) ^ 2) * (1 + k * s) + k ^ 2 * s ^ 2) / (1 + k * s) ^ 3 *
        ((2 * k ^ 2 + 2 * k + 1) / (k * (2 + 5 * k + 4 * k ^ 2)) + s)
      = (2 - s) * (2 * (1 + k) ^ 2 + (6 * k + 14 * k ^ 2 + 12 * k ^ 3 + 2 * k ^ 4) * s
      + (4 * k ^ 2 + 10 * k ^ 3 + 8 * k ^ 4) * s ^ 2) * s / (k * (2 + 5 * k + 4 * k ^ 2) * (1 + k * s) ^ 3) / 2 := by
    have : 1 + k * s ≠ 0 := hF.ne'
    field_simp
    ring
  rw [e]
  positivity

/-- The base of the power. -/
theorem knQ_mem {k : ℝ} (hk : 0 < k) : 0 < 0.5 * knC0 k ∧ 0.5 * knC0 k < 1 := by
  obtain ⟨h0, h2⟩ := knC0_mem hk
  constructor <;> linarith

theorem knLog_pos {k : ℝ} (hk : 0 < k) : 0 < -Real.log (0.5 * knC0 k) := by
  obtain ⟨h0, h1⟩ := knQ_mem hk
  have := Real.log_neg h0 h1
  linarith

theorem drawX_eq (invMC p r : ℝ) :
    drawX invMC p r = knB (p * invMC) - (knB (p * invMC) + 1) * (0.5 * knC0 (p * invMC)) ^ r := rfl

theorem drawX_zero (invMC p : ℝ) : drawX invMC p 0 = -1 := by
  rw [drawX_eq, Real.rpow_zero]; ring

theorem drawX_one (invMC p : ℝ) (hk : 0 < p * invMC) : drawX invMC p 1 = 1 := by
  rw [drawX_eq, Real.rpow_one]
  obtain ⟨h0, h2⟩ := knC0_mem hk
  unfold knB
  have : 2 - knC0 (p * invMC) ≠ 0 := by linarith
  field_simp
  ring

theorem drawX_deriv (invMC p r : ℝ) (hk : 0 < p * invMC) : HasDerivAt (drawX invMC p)
    ((knB (p * invMC) - drawX invMC p r) * -Real.log (0.5 * knC0 (p * invMC))) r := by
  have h := (((hasDerivAt_id r).const_rpow (knQ_mem hk).1).const_mul (knB (p * invMC) + 1)).const_sub (knB (p * invMC))
  refine h.congr_deriv ?_
  rw [drawX_eq]
  simp only [id]
  ring

theorem drawX_continuous (invMC p : ℝ) (hk : 0 < p * invMC) : Continuous (drawX invMC p) :=
  continuous_iff_continuousAt.2 fun r => (drawX_deriv invMC p r hk).continuousAt

theorem drawX_strictMono (invMC p : ℝ) (hk : 0 < p * invMC) : StrictMono (drawX invMC p) := by
  intro r r' h
  rw [drawX_eq, drawX_eq]
  obtain ⟨h0, h1⟩ := knQ_mem hk
  have hb := knB_gt hk
  have := Real.rpow_lt_rpow_of_exponent_gt h0 h1 h
  nlinarith

/-- The probability that a turn with the first draw `r` is accepted. -/
noncomputable def knAcc (invMC p r : ℝ) : ℝ :=
  ((1 + drawX invMC p r ^ 2) * (1 + p * invMC * (1 - drawX invMC p r)) + (p * invMC) ^ 2 * (1 - drawX invMC p r) ^ 2)
    / (1 + p * invMC * (1 - drawX invMC p r)) ^ 3 * (knB (p * invMC) - drawX invMC p r) / (2 * knB (p * invMC) - 1)

theorem acceptX_iff (invMC p r1 r2 : ℝ) : acceptX invMC p r1 r2 ↔ r2 < knAcc invMC p r1 := by
  unfold acceptX knAcc
  rw [← div_div_eq_mul_div]
  rfl

theorem knAcc_eq {invMC p r : ℝ} (hk : 0 < p * invMC) (hr : 0 ≤ r ∧ r ≤ 1) : knAcc invMC p r =
    kleinNishina (p * invMC) (drawX invMC p r) * (knB (p * invMC) - drawX invMC p r) / (2 * knB (p * invMC) - 1) := by
  unfold knAcc
  rw [kn_code (factor_pos hk (drawX_mem invMC p r hk hr).2).ne']

theorem knAcc_mem {invMC p r : ℝ} (hk : 0 < p * invMC) (hr : 0 ≤ r ∧ r ≤ 1) : 0 ≤ knAcc invMC p r ∧ knAcc invMC p r ≤ 1 := by
  obtain ⟨x1, x2⟩ := drawX_mem invMC p r hk hr
  have hb := knB_gt hk
  have h1 := kn_le hk x1 x2
  have h2 := (kn_pos hk x2).le
  rw [knAcc_eq hk hr]
  have : 0 < 2 * knB (p * invMC) - 1 := by linarith
  constructor
  · have : 0 ≤ knB (p * invMC) - drawX invMC p r := by linarith
    positivity
  · rw [div_le_one this]; linarith

theorem knAcc_measurable (invMC p : ℝ) (hk : 0 < p * invMC) : Measurable (knAcc invMC p) := by
  have hX := (drawX_continuous invMC p hk).measurable
  unfold knAcc
  exact ((((measurable_const.add (hX.pow_const 2)).mul (measurable_const.add ((measurable_const.sub hX).const_mul _))).add
    (((measurable_const.sub hX).pow_const 2).const_mul _)).div
    ((measurable_const.add ((measurable_const.sub hX).const_mul _)).pow_const 3)).mul (measurable_const.sub hX) |>.div_const _

theorem accept_measurable (invMC p y : ℝ) (hk : 0 < p * invMC) :
    MeasurableSet {w : ℝ × ℝ | acceptX invMC p w.1 w.2 ∧ drawX invMC p w.1 ≤ y} := by
  simp only [acceptX_iff]
  exact (measurableSet_lt measurable_snd ((knAcc_measurable invMC p hk).comp measurable_fst)).inter
    (measurableSet_le ((drawX_continuous invMC p hk).measurable.comp measurable_fst) measurable_const)

/-- The law of one turn. -/
theorem turn_law (invMC p y : ℝ) (hk : 0 < p * invMC) (h1 : -1 ≤ y) (h2 : y ≤ 1) :
    (uniform.prod uniform) {w | acceptX invMC p w.1 w.2 ∧ drawX invMC p w.1 ≤ y} =
      ENNReal.ofReal ((∫ x in (-1 : ℝ)..y, kleinNishina (p * invMC) x) /
        ((2 * knB (p * invMC) - 1) * -Real.log (0.5 * knC0 (p * invMC)))) := by
  have hX := drawX_continuous invMC p hk
  have hmono := drawX_strictMono invMC p hk
  have hb := knB_gt hk
  have hL := knLog_pos hk
  obtain ⟨R, hR, hRy⟩ := intermediate_value_Icc (zero_le_one (α := ℝ)) hX.continuousOn
    (show y ∈ Icc (drawX invMC p 0) (drawX invMC p 1) by rw [drawX_zero, drawX_one _ _ hk]; exact ⟨h1, h2⟩)
  have hle : ∀ r, drawX invMC p r ≤ y ↔ r ≤ R := fun r => by rw [← hRy]; exact hmono.le_iff_le
  rw [Measure.prod_apply (accept_measurable invMC p y hk)]
  have e1 : ∫⁻ r, uniform (Prod.mk r ⁻¹' {w : ℝ × ℝ | acceptX invMC p w.1 w.2 ∧ drawX invMC p w.1 ≤ y}) ∂uniform
      = ∫⁻ r in Ico 0 1, (Iic R).indicator (fun r => ENNReal.ofReal (knAcc invMC p r)) r := by
    unfold uniform
    refine setLIntegral_congr_fun measurableSet_Ico fun r hr => ?_
    have hr' : 0 ≤ r ∧ r ≤ 1 := ⟨hr.1, hr.2.le⟩
    by_cases hrR : r ≤ R
    · have es : Prod.mk r ⁻¹' {w : ℝ × ℝ | acceptX invMC p w.1 w.2 ∧ drawX invMC p w.1 ≤ y} = Iio (knAcc invMC p r) := by
        ext r2
        simp only [mem_preimage, mem_setOf_eq, acceptX_iff, hle, hrR, and_true, mem_Iio]
      have ei : Iio (knAcc invMC p r) ∩ Ico 0 1 = Ico 0 (knAcc invMC p r) := by
        ext r2
        have := (knAcc_mem hk hr').2
        simp only [mem_inter_iff, mem_Iio, mem_Ico]
        constructor
        · rintro ⟨h, h', -⟩; exact ⟨h', h⟩
        · rintro ⟨h, h'⟩; exact ⟨h', h, by linarith⟩
      show volume.restrict (Ico 0 1) _ = _
      rw [es, Measure.restrict_apply measurableSet_Iio, ei, Real.volume_Ico, sub_zero,
        indicator_of_mem (show r ∈ Iic R from hrR)]
    · have es : Prod.mk r ⁻¹' {w : ℝ × ℝ | acceptX invMC p w.1 w.2 ∧ drawX invMC p w.1 ≤ y} = ∅ := by
        ext r2
        simp only [mem_preimage, mem_setOf_eq, hle, hrR, and_false, mem_empty_iff_false]
      show volume.restrict (Ico 0 1) _ = _
      rw [es, measure_empty, indicator_of_notMem (show r ∉ Iic R from hrR)]
  rw [e1, setLIntegral_indicator measurableSet_Iic]
  have e2 : (Iic R ∩ Ico 0 1 : Set ℝ) =ᵐ[volume] Ioc 0 R := by
    rcases hR.2.lt_or_eq with h | h
    · have : (Iic R ∩ Ico 0 1 : Set ℝ) = Icc 0 R := by
        ext r
        simp only [mem_inter_iff, mem_Iic, mem_Ico, mem_Icc]
        constructor
        · rintro ⟨a, b, -⟩; exact ⟨b, a⟩
        · rintro ⟨a, b⟩; exact ⟨b, a, by linarith⟩
      rw [this]
      exact Ioc_ae_eq_Icc.symm
    · have : (Iic R ∩ Ico 0 1 : Set ℝ) = Ico 0 R := by
        rw [h]
        ext r
        simp only [mem_inter_iff, mem_Iic, mem_Ico]
        constructor
        · rintro ⟨-, b⟩; exact b
        · rintro ⟨a, b⟩; exact ⟨b.le, a, b⟩
      rw [this]
      exact Ico_ae_eq_Ioc
  rw [setLIntegral_congr e2]
  have hI : ∀ r ∈ Ioc 0 R, 0 ≤ r ∧ r ≤ 1 := fun r hr => ⟨hr.1.le, hr.2.trans hR.2⟩
  set D := (2 * knB (p * invMC) - 1) * -Real.log (0.5 * knC0 (p * invMC)) with hD
  have hDpos : 0 < D := mul_pos (by linarith) hL
  have hconv : ∀ r, 0 ≤ r ∧ r ≤ 1 → knAcc invMC p r = (kleinNishina (p * invMC) (drawX invMC p r) *
      ((knB (p * invMC) - drawX invMC p r) * -Real.log (0.5 * knC0 (p * invMC)))) / D := by
    intro r hr
    rw [knAcc_eq hk hr, hD, ← mul_assoc, mul_div_mul_right _ _ hL.ne']
  have hcont : ContinuousOn (fun r => kleinNishina (p * invMC) (drawX invMC p r) *
      ((knB (p * invMC) - drawX invMC p r) * -Real.log (0.5 * knC0 (p * invMC)))) (Icc 0 R) := by
    refine ContinuousOn.mul ((kn_continuousOn hk).comp hX.continuousOn fun r hr => ?_)
      (((continuous_const.sub hX).mul continuous_const).continuousOn)
    exact (drawX_mem invMC p r hk ⟨hr.1, hr.2.trans hR.2⟩).2
  have hsub : ∫ r in (0 : ℝ)..R, kleinNishina (p * invMC) (drawX invMC p r) *
      ((knB (p * invMC) - drawX invMC p r) * -Real.log (0.5 * knC0 (p * invMC)))
      = ∫ x in (-1 : ℝ)..y, kleinNishina (p * invMC) x := by
    rw [← drawX_zero invMC p, ← hRy]
    refine intervalIntegral.integral_comp_mul_deriv'' (f := drawX invMC p) (g := kleinNishina (p * invMC)) hX.continuousOn
      (fun r _ => (drawX_deriv invMC p r hk).hasDerivWithinAt) ((continuous_const.sub hX).mul continuous_const).continuousOn
      ((kn_continuousOn hk).mono ?_)
    rintro _ ⟨r, hr, rfl⟩
    rw [uIcc_of_le hR.1] at hr
    exact (drawX_mem invMC p r hk ⟨hr.1, hr.2.trans hR.2⟩).2
  rw [← hsub, ← intervalIntegral.integral_div, intervalIntegral.integral_of_le hR.1,
    ofReal_integral_eq_lintegral_ofReal]
  · exact setLIntegral_congr_fun measurableSet_Ioc fun r hr => by rw [hconv r (hI r hr)]
  · exact ((hcont.div_const D).integrableOn_Icc).mono_set Ioc_subset_Icc_self
  · refine (ae_restrict_mem measurableSet_Ioc).mono fun r hr => ?_
    exact (knAcc_mem hk (hI r hr)).1.trans_eq (hconv r (hI r hr))

theorem accept_all (invMC p : ℝ) (hk : 0 < p * invMC) : (uniform.prod uniform) {w | acceptX invMC p w.1 w.2} =
    (uniform.prod uniform) {w | acceptX invMC p w.1 w.2 ∧ drawX invMC p w.1 ≤ 1} := by
  refine measure_congr ?_
  have : ∀ᵐ w ∂(uniform.prod uniform), w ∈ (Ico 0 1 ×ˢ Ico 0 1 : Set (ℝ × ℝ)) := by
    unfold uniform
    rw [Measure.prod_restrict]
    exact ae_restrict_mem (measurableSet_Ico.prod measurableSet_Ico)
  refine this.mono fun w hw => ?_
  have := (drawX_mem invMC p w.1 hk ⟨hw.1.1, hw.1.2.le⟩).2
  exact propext ⟨fun h => ⟨h, this⟩, fun h => h.1⟩

open Classical in
theorem loop_law (invMC p y : ℝ) (hk : 0 < p * invMC) (h1 : -1 ≤ y) (h2 : y ≤ 1) :
    MeasurableSet {w : ℕ → ℝ × ℝ | ∃ x, rejectionLoop invMC p w = some x ∧ x ≤ y} ∧ supply {w | ∃ x, rejectionLoop invMC p w = some x ∧ x ≤ y} = ENNReal.ofReal
      ((∫ x in (-1 : ℝ)..y, kleinNishina (p * invMC) x) / ∫ x in (-1 : ℝ)..1, kleinNishina (p * invMC) x) := by
  have hb := knB_gt hk
  have hL := knLog_pos hk
  set k := p * invMC with hkd
  set A : Set (ℝ × ℝ) := {w | acceptX invMC p w.1 w.2} with hA
  set Ay : Set (ℝ × ℝ) := {w | acceptX invMC p w.1 w.2 ∧ drawX invMC p w.1 ≤ y} with hAy
  have mA : MeasurableSet A := by
    simp only [hA, acceptX_iff]
    exact measurableSet_lt measurable_snd ((knAcc_measurable invMC p hk).comp measurable_fst)
  have mAy : MeasurableSet Ay := accept_measurable invMC p y hk
  -- the event as a disjoint union over the turns
  let B : ℕ → ℕ → Set (ℝ × ℝ) := fun t i => if i < t then Aᶜ else Ay
  have hset : {w : ℕ → ℝ × ℝ | ∃ x, rejectionLoop invMC p w = some x ∧ x ≤ y}
      = ⋃ t, Set.pi (Finset.range (t + 1)) (B t) := by
    ext w
    simp only [mem_setOf_eq, mem_iUnion, Set.mem_pi, Finset.coe_range, mem_Iio]
    constructor
    · rintro ⟨x, hx, hxy⟩
      unfold rejectionLoop at hx
      split_ifs at hx with h
      refine ⟨Nat.find h, fun i hi => ?_⟩
      show w i ∈ if i < Nat.find h then Aᶜ else Ay
      split_ifs with hlt
      · exact Nat.find_min h hlt
      · have : i = Nat.find h := by omega
        subst this
        exact ⟨Nat.find_spec h, by rw [Option.some.inj hx]; exact hxy⟩
    · rintro ⟨t, ht⟩
      have hlast := ht t (by omega)
      simp only [B, lt_irrefl, if_false] at hlast
      have hex : ∃ t, acceptX invMC p (w t).1 (w t).2 := ⟨t, hlast.1⟩
      have hf : Nat.find hex = t := by
        rw [Nat.find_eq_iff]
        refine ⟨hlast.1, fun n hn => ?_⟩
        have := ht n (by omega)
        simp only [B, hn, if_true] at this
        exact this
      refine ⟨drawX invMC p (w t).1, ?_, hlast.2⟩
      unfold rejectionLoop
      rw [dif_pos hex, hf]
  have hdisj : Pairwise (Function.onFun Disjoint fun t => Set.pi (Finset.range (t + 1) : Set ℕ) (B t)) := by
    have key : ∀ t t', t < t' → Disjoint (Set.pi (Finset.range (t + 1) : Set ℕ) (B t)) (Set.pi (Finset.range (t' + 1) : Set ℕ) (B t')) := by
      intro t t' h
      rw [Set.disjoint_left]
      intro w hw hw'
      have a1 := hw t (by simp)
      have a2 := hw' t (by simp; omega)
      simp only [B, lt_irrefl, if_false, h, if_true] at a1 a2
      exact a2 a1.1
    intro t t' h
    rcases lt_or_gt_of_ne h with h | h
    · exact key _ _ h
    · exact (key _ _ h).symm
  have mB : ∀ t i, MeasurableSet (B t i) := by
    intro t i
    show MeasurableSet (if i < t then Aᶜ else Ay)
    split_ifs
    · exact mA.compl
    · exact mAy
  have hpi : ∀ t, supply (Set.pi (Finset.range (t + 1)) (B t)) = (1 - (uniform.prod uniform) A) ^ t * (uniform.prod uniform) Ay := by
    intro t
    unfold supply
    rw [Measure.infinitePi_pi _ fun i _ => mB t i, Finset.prod_range_succ]
    congr 1
    · rw [Finset.prod_congr rfl (g := fun _ => 1 - (uniform.prod uniform) A), Finset.prod_const, Finset.card_range]
      intro i hi
      rw [Finset.mem_range] at hi
      simp only [B, hi, if_true]
      exact prob_compl_eq_one_sub mA
    · simp only [B, lt_irrefl, if_false]
  rw [hset]
  refine ⟨MeasurableSet.iUnion fun t => MeasurableSet.pi (Finset.countable_toSet _) fun i _ => mB t i, ?_⟩
  rw [measure_iUnion hdisj fun t => MeasurableSet.pi (Finset.countable_toSet _) fun i _ => mB t i]
  simp only [hpi]
  rw [ENNReal.tsum_mul_right, ENNReal.tsum_geometric, ENNReal.sub_sub_cancel ENNReal.one_ne_top prob_le_one]
  rw [hA, accept_all invMC p hk, turn_law invMC p 1 hk (by norm_num) le_rfl, hAy, turn_law invMC p y hk h1 h2, ← hkd]
  set D := (2 * knB k - 1) * -Real.log (0.5 * knC0 k) with hD
  have hDpos : 0 < D := mul_pos (by linarith) hL
  have hI : 0 < ∫ x in (-1 : ℝ)..1, kleinNishina k x :=
    intervalIntegral.intervalIntegral_pos_of_pos_on (kn_integrable hk le_rfl) (fun x hx => kn_pos hk hx.2.le) (by norm_num)
  rw [← ENNReal.ofReal_inv_of_pos (div_pos hI hDpos), ← ENNReal.ofReal_mul (by positivity)]
  congr 1
  field_simp

end Fbpic
