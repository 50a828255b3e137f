import Verif.Lemmas.Bessel
import Mathlib.Analysis.SpecificLimits.Basic
import Mathlib.Topology.Order.IntermediateValue
import Mathlib.Analysis.Complex.ExponentialBounds
import Mathlib.Analysis.Calculus.Deriv.MeanValue

/-!
# A zero of `J_0`
-/

namespace Fbpic

open Spec

theorem besselG_ge (n : ℕ) (hn : n ≤ 1) {y : ℝ} (hy : 0 ≤ y) : 2 - Real.exp y ≤ besselG n y := by
  have hs := besselG_summable n y
  have he := Real.summable_pow_div_factorial y
  have h1 : besselG n y = 1 + ∑' k : ℕ, (-y) ^ (k + 1) / (((k + 1).factorial : ℝ) * (k + 1 + n).factorial) := by
    unfold besselG
    rw [hs.tsum_eq_zero_add]
    have : n = 0 ∨ n = 1 := by omega
    rcases this with rfl | rfl <;> simp
  have h2 : Real.exp y = 1 + ∑' k : ℕ, y ^ (k + 1) / ((k + 1).factorial : ℝ) := by
    rw [Real.exp_eq_exp_ℝ, NormedSpace.exp_eq_tsum_div]
    show ∑' k : ℕ, y ^ k / (k.factorial : ℝ) = _
    rw [he.tsum_eq_zero_add]
    simp
  have hs' := (summable_nat_add_iff 1).2 hs
  have he' := (summable_nat_add_iff 1).2 he
  have h3 : -(∑' k : ℕ, y ^ (k + 1) / ((k + 1).factorial : ℝ))
      ≤ ∑' k : ℕ, (-y) ^ (k + 1) / (((k + 1).factorial : ℝ) * (k + 1 + n).factorial) := by
    rw [← tsum_neg]
    refine Summable.tsum_le_tsum (fun k => ?_) he'.neg hs'
    have := besselG_bound n (k + 1) y y (by rw [abs_of_nonneg hy])
    rw [Real.norm_eq_abs] at this
    exact (abs_le.1 this).1
  linarith

theorem besselG_zero_two : besselG 0 2 < 0 := by
  have hs := besselG_summable 0 2
  have h1 : besselG 0 2 = -(2 / 9) + ∑' k : ℕ, (-2 : ℝ) ^ (k + 4) / (((k + 4).factorial : ℝ) * (k + 4 + 0).factorial) := by
    unfold besselG
    rw [← hs.sum_add_tsum_nat_add 4]
    congr 1
    norm_num [Finset.sum_range_succ, Nat.factorial]
  have hf : ∀ k : ℕ, (576 : ℝ) * 4 ^ k ≤ ((k + 4).factorial : ℝ) * (k + 4).factorial := by
    intro k
    induction k with
    | zero => norm_num [Nat.factorial]
    | succ k ih =>
      rw [show k + 1 + 4 = (k + 4) + 1 by ring, Nat.factorial_succ]
      push_cast
      have h0 : (0 : ℝ) ≤ k := Nat.cast_nonneg k
      calc (576 : ℝ) * 4 ^ (k + 1) = 4 * (576 * 4 ^ k) := by ring
        _ ≤ ((k + 4 + 1) * (k + 4 + 1)) * (((k + 4).factorial : ℝ) * (k + 4).factorial) := by
          apply mul_le_mul _ ih (by positivity) (by positivity)
          nlinarith
        _ = _ := by ring
  have hg : Summable fun k : ℕ => (1 / 36 : ℝ) * (1 / 2) ^ k := (summable_geometric_two).mul_left _
  have h2 : ∑' k : ℕ, (-2 : ℝ) ^ (k + 4) / (((k + 4).factorial : ℝ) * (k + 4 + 0).factorial)
      ≤ ∑' k : ℕ, (1 / 36 : ℝ) * (1 / 2) ^ k := by
    refine Summable.tsum_le_tsum (fun k => ?_) ((summable_nat_add_iff 4).2 hs) hg
    rw [add_zero]
    calc (-2 : ℝ) ^ (k + 4) / (((k + 4).factorial : ℝ) * (k + 4).factorial)
        ≤ 2 ^ (k + 4) / (((k + 4).factorial : ℝ) * (k + 4).factorial) := by
          apply div_le_div_of_nonneg_right _ (by positivity)
          calc (-2 : ℝ) ^ (k + 4) ≤ |(-2 : ℝ) ^ (k + 4)| := le_abs_self _
            _ = 2 ^ (k + 4) := by rw [abs_pow]; norm_num
      _ ≤ 2 ^ (k + 4) / (576 * 4 ^ k) := by
          apply div_le_div_of_nonneg_left (by positivity) (by positivity) (hf k)
      _ = 1 / 36 * (1 / 2) ^ k := by
          rw [pow_add, show (4 : ℝ) = 2 * 2 by norm_num, mul_pow, div_pow, one_pow]
          field_simp
          norm_num
  rw [tsum_mul_left, tsum_geometric_two] at h2
  rw [h1]
  linarith

/-- `u G_0(u)^2 + u^2 G_1(u)^2` increases, so that `J_0` and `J_1` have no common positive zero. -/
theorem besselG_energy_mono : Monotone fun u : ℝ => u * besselG 0 u ^ 2 + u ^ 2 * besselG 1 u ^ 2 := by
  have hd : ∀ u : ℝ, HasDerivAt (fun u : ℝ => u * besselG 0 u ^ 2 + u ^ 2 * besselG 1 u ^ 2) (besselG 0 u ^ 2) u := by
    intro u
    have h0 := besselG_deriv 0 u
    have h1 := besselG_deriv 1 u
    have h := ((hasDerivAt_id u).fun_mul (h0.fun_pow 2)).fun_add (((hasDerivAt_id u).fun_pow 2).fun_mul (h1.fun_pow 2))
    refine h.congr_deriv ?_
    have hr := besselG_rec 0 u
    simp only [id, Nat.cast_ofNat, Nat.cast_zero, zero_add, Nat.reduceAdd, Nat.reduceSub, pow_one, one_mul, mul_one] at hr ⊢
    linear_combination (-2 * u * besselG 1 u) * hr
  exact monotone_of_deriv_nonneg (fun u => (hd u).differentiableAt) fun u => by rw [(hd u).deriv]; positivity

/-- `J_0` has a zero `α` with `1 < α < 3` such that neither `J_0` nor `J_1` is zero at `α/2`. -/
theorem exists_zero_J0 : ∃ α : ℝ, 0 < α ∧ besselJ 0 α = 0 ∧ 0 < besselJ 0 (α / 2) ∧ 0 < besselJ 1 (α / 2) ∧
    besselJ 1 α ≠ 0 := by
  have hexp : Real.exp (1 / 2) < 2 := by
    have h := Real.exp_one_lt_d9
    have : Real.exp (1 / 2) * Real.exp (1 / 2) = Real.exp 1 := by rw [← Real.exp_add]; norm_num
    nlinarith [Real.exp_pos (1 / 2)]
  have hpos : ∀ n, n ≤ 1 → ∀ y : ℝ, 0 ≤ y → y ≤ 1 / 2 → 0 < besselG n y := fun n hn y h0 h1 => by
    have := besselG_ge n hn h0
    have := Real.exp_le_exp.2 h1
    linarith
  have hc : ContinuousOn (besselG 0) (Set.Icc (1 / 2) 2) := fun y _ =>
    (besselG_deriv 0 y).continuousAt.continuousWithinAt
  have hIVT := intermediate_value_Icc' (by norm_num : (1 / 2 : ℝ) ≤ 2) hc
  obtain ⟨y, ⟨hy1, hy2⟩, hy⟩ := hIVT ⟨besselG_zero_two.le, (hpos 0 (by norm_num) (1 / 2) (by norm_num) le_rfl).le⟩
  have hy0 : 0 < y := by linarith
  have hsq : 0 < Real.sqrt y := Real.sqrt_pos.2 hy0
  refine ⟨2 * Real.sqrt y, by positivity, ?_, ?_, ?_, ?_⟩
  · have := besselJ_natCast 0 (2 * Real.sqrt y)
    rw [Nat.cast_zero] at this
    rw [this, besselNat_eq, mul_div_cancel_left₀ _ (by norm_num : (2 : ℝ) ≠ 0), Real.sq_sqrt hy0.le, hy, mul_zero]
  · have := besselJ_natCast 0 (2 * Real.sqrt y / 2)
    rw [Nat.cast_zero] at this
    rw [this, besselNat_eq, pow_zero, one_mul]
    apply hpos 0 (by norm_num) _ (by positivity)
    rw [mul_div_cancel_left₀ _ (by norm_num : (2 : ℝ) ≠ 0), div_pow, Real.sq_sqrt hy0.le]
    linarith
  · have := besselJ_natCast 1 (2 * Real.sqrt y / 2)
    rw [Nat.cast_one] at this
    rw [this, besselNat_eq]
    refine mul_pos (by positivity) (hpos 1 le_rfl _ (by positivity) ?_)
    rw [mul_div_cancel_left₀ _ (by norm_num : (2 : ℝ) ≠ 0), div_pow, Real.sq_sqrt hy0.le]
    linarith
  · have := besselJ_natCast 1 (2 * Real.sqrt y)
    rw [Nat.cast_one] at this
    rw [this, besselNat_eq, mul_div_cancel_left₀ _ (by norm_num : (2 : ℝ) ≠ 0), Real.sq_sqrt hy0.le]
    refine mul_ne_zero (by positivity) fun h1 => ?_
    have hm := besselG_energy_mono hy1
    simp only [hy, h1] at hm
    have := hpos 0 (by norm_num) (1 / 2) (by norm_num) le_rfl
    have h2 : 0 < besselG 0 (1 / 2) ^ 2 := by positivity
    nlinarith [sq_nonneg (besselG 1 (1 / 2))]

end Fbpic
