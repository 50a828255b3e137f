import Verif.Spec.Bessel
import Verif.Lemmas.Tactics
import Mathlib.Analysis.Calculus.SmoothSeries
import Mathlib.Analysis.SpecialFunctions.Exponential
import Mathlib.Analysis.Calculus.Deriv.Pow

/-!
# Derivatives and recurrences of the Bessel functions
-/

namespace Fbpic

open Spec

/-- The even entire function with `J_n(x) = (x/2)^n G_n((x/2)^2)`. -/
noncomputable def besselG (n : ℕ) (y : ℝ) : ℝ :=
  ∑' k : ℕ, (-y) ^ k / (k.factorial * (k + n).factorial)

theorem besselG_bound (n k : ℕ) (y R : ℝ) (h : |y| ≤ R) :
    ‖(-y) ^ k / ((k.factorial : ℝ) * (k + n).factorial)‖ ≤ R ^ k / k.factorial := by
  rw [norm_div, norm_pow, norm_neg, Real.norm_eq_abs, Real.norm_eq_abs,
    abs_of_pos (by positivity : (0 : ℝ) < (k.factorial : ℝ) * (k + n).factorial)]
  have h1 : (1 : ℝ) ≤ (k + n).factorial := by exact_mod_cast Nat.one_le_iff_ne_zero.2 (Nat.factorial_ne_zero _)
  have h2 : (0 : ℝ) < k.factorial := by positivity
  have hR : 0 ≤ R := (abs_nonneg y).trans h
  apply div_le_div₀ (by positivity) (pow_le_pow_left₀ (abs_nonneg _) h k) h2
  nlinarith

theorem besselG_summable (n : ℕ) (y : ℝ) :
    Summable fun k : ℕ => (-y) ^ k / ((k.factorial : ℝ) * (k + n).factorial) :=
  Summable.of_norm_bounded (Real.summable_pow_div_factorial |y|) fun k => besselG_bound n k y |y| le_rfl

theorem besselNat_eq (n : ℕ) (x : ℝ) : besselNat n x = (x / 2) ^ n * besselG n ((x / 2) ^ 2) := by
  unfold besselNat besselG
  rw [← tsum_mul_left]
  congr 1
  funext k
  rw [pow_add, pow_mul, neg_pow ((x / 2) ^ 2) k]
  generalize ((x / 2) ^ 2) ^ k = a
  ring

theorem besselG_deriv (n : ℕ) (y : ℝ) : HasDerivAt (besselG n) (-besselG (n + 1) y) y := by
  have key : HasDerivAt (fun z : ℝ => ∑' k : ℕ, (-z) ^ k / ((k.factorial : ℝ) * (k + n).factorial))
      (∑' k : ℕ, (k * (-y) ^ (k - 1) * -1) / ((k.factorial : ℝ) * (k + n).factorial)) y := by
    have hu : Summable fun k : ℕ => (|y| + 1) ^ (k - 1) / ((k - 1).factorial : ℝ) := by
      rw [← summable_nat_add_iff 1]
      simpa using Real.summable_pow_div_factorial (|y| + 1)
    refine hasDerivAt_tsum_of_isPreconnected hu (t := Metric.ball 0 (|y| + 1)) Metric.isOpen_ball
      (convex_ball 0 _).isPreconnected (g' := fun k z => (k * (-z) ^ (k - 1) * -1) / ((k.factorial : ℝ) * (k + n).factorial))
      ?_ ?_ (y₀ := 0) ?_ ?_ ?_
    · intro k z _
      exact (((hasDerivAt_id z).neg).fun_pow k).div_const _
    · intro k z hz
      rw [mem_ball_zero_iff, Real.norm_eq_abs] at hz
      cases k with
      | zero => simp
      | succ k =>
        have e : ((k + 1 : ℕ) : ℝ) * (-z) ^ (k + 1 - 1) * -1 / (((k + 1).factorial : ℝ) * (k + 1 + n).factorial)
            = -((-z) ^ k / ((k.factorial : ℝ) * (k + (n + 1)).factorial)) := by
          rw [Nat.factorial_succ, show k + 1 + n = k + (n + 1) by omega]
          have : ((k + 1 : ℕ) : ℝ) ≠ 0 := by positivity
          rw [Nat.add_sub_cancel]
          push_cast at this ⊢
          field_simp
        rw [e, norm_neg]
        simpa using besselG_bound (n + 1) k z (|y| + 1) hz.le
    · rw [mem_ball_zero_iff, norm_zero]; positivity
    · exact besselG_summable n 0
    · rw [mem_ball_zero_iff, Real.norm_eq_abs]; linarith
  have e : (∑' k : ℕ, (k * (-y) ^ (k - 1) * -1) / ((k.factorial : ℝ) * (k + n).factorial))
      = -besselG (n + 1) y := by
    have hs : Summable fun k : ℕ => (k * (-y) ^ (k - 1) * -1) / ((k.factorial : ℝ) * (k + n).factorial) := by
      rw [← summable_nat_add_iff 1]
      refine (besselG_summable (n + 1) y).neg.congr fun k => ?_
      rw [Nat.factorial_succ, show k + 1 + n = k + (n + 1) by omega]
      have : ((k + 1 : ℕ) : ℝ) ≠ 0 := by positivity
      rw [Nat.add_sub_cancel]
      push_cast at this ⊢
      field_simp
    rw [hs.tsum_eq_zero_add]
    simp only [Nat.cast_zero, zero_mul, zero_div, zero_add]
    unfold besselG
    rw [← tsum_neg]
    congr 1
    funext k
    rw [Nat.factorial_succ, show k + 1 + n = k + (n + 1) by omega]
    have : ((k + 1 : ℕ) : ℝ) ≠ 0 := by positivity
    rw [Nat.add_sub_cancel]
    push_cast at this ⊢
    field_simp
  rw [e] at key
  exact key

theorem besselG_rec (n : ℕ) (y : ℝ) :
    besselG n y = (n + 1) * besselG (n + 1) y - y * besselG (n + 2) y := by
  have h1 := (besselG_summable (n + 1) y).mul_left ((n : ℝ) + 1)
  have h2 := (besselG_summable (n + 2) y).mul_left y
  have h3 : Summable fun k : ℕ => (k : ℝ) * ((-y) ^ k / ((k.factorial : ℝ) * (k + (n + 1)).factorial)) := by
    rw [← summable_nat_add_iff 1]
    refine h2.neg.congr fun k => ?_
    rw [Nat.factorial_succ, show k + 1 + (n + 1) = k + (n + 2) by omega]
    have : ((k + 1 : ℕ) : ℝ) ≠ 0 := by positivity
    push_cast at this ⊢
    rw [pow_succ]
    field_simp
  have e3 : ∑' k : ℕ, (k : ℝ) * ((-y) ^ k / ((k.factorial : ℝ) * (k + (n + 1)).factorial))
      = -(y * besselG (n + 2) y) := by
    rw [h3.tsum_eq_zero_add]
    simp only [Nat.cast_zero, zero_mul, zero_add]
    unfold besselG
    rw [← tsum_mul_left, ← tsum_neg]
    congr 1
    funext k
    rw [Nat.factorial_succ, show k + 1 + (n + 1) = k + (n + 2) by omega]
    have : ((k + 1 : ℕ) : ℝ) ≠ 0 := by positivity
    push_cast at this ⊢
    rw [pow_succ]
    field_simp
  have e1 : besselG n y = ∑' k : ℕ, (((n : ℝ) + 1) * ((-y) ^ k / ((k.factorial : ℝ) * (k + (n + 1)).factorial))
      + (k : ℝ) * ((-y) ^ k / ((k.factorial : ℝ) * (k + (n + 1)).factorial))) := by
    unfold besselG
    congr 1
    funext k
    rw [show k + (n + 1) = (k + n) + 1 by omega, Nat.factorial_succ (k + n)]
    have : ((k + n + 1 : ℕ) : ℝ) ≠ 0 := by positivity
    push_cast at this ⊢
    field_simp
    ring
  rw [e1, h1.tsum_add h3, e3, tsum_mul_left]
  unfold besselG
  ring

/-! ### Integer orders -/

theorem besselJ_natCast (n : ℕ) (x : ℝ) : besselJ n x = besselNat n x := by
  simp [besselJ]

theorem besselJ_neg_natCast (n : ℕ) (x : ℝ) : besselJ (-n) x = (-1) ^ n * besselNat n x := by
  unfold besselJ
  split_ifs with h
  · have : n = 0 := by omega
    subst this; simp
  · simp

theorem besselNat_rec (n : ℕ) {x : ℝ} (hx : x ≠ 0) :
    besselNat n x + besselNat (n + 2) x = 2 * (n + 1) / x * besselNat (n + 1) x := by
  simp only [besselNat_eq]
  rw [besselG_rec n ((x / 2) ^ 2)]
  field_simp
  ring

theorem besselNat_deriv (n : ℕ) {x : ℝ} (hx : x ≠ 0) :
    HasDerivAt (besselNat n) (n / x * besselNat n x - besselNat (n + 1) x) x := by
  have h1 : HasDerivAt (fun x : ℝ => (x / 2) ^ n * besselG n ((x / 2) ^ 2))
      ((n * (x / 2) ^ (n - 1) * (1 / 2)) * besselG n ((x / 2) ^ 2)
        + (x / 2) ^ n * (-besselG (n + 1) ((x / 2) ^ 2) * ((2 : ℕ) * (x / 2) ^ (2 - 1) * (1 / 2)))) x := by
    have hd : HasDerivAt (fun x : ℝ => x / 2) (1 / 2) x := (hasDerivAt_id x).div_const 2
    exact (hd.fun_pow n).mul (HasDerivAt.comp (h₂ := besselG n) x (besselG_deriv n ((x / 2) ^ 2)) (hd.fun_pow 2))
  have e : besselNat n = fun x : ℝ => (x / 2) ^ n * besselG n ((x / 2) ^ 2) := by
    funext x; exact besselNat_eq n x
  rw [e]
  convert h1 using 1
  rw [besselNat_eq]
  cases n with
  | zero => simp; ring
  | succ n =>
    simp only [Nat.add_sub_cancel, pow_succ]
    push_cast
    field_simp
    ring

/-- `J_(n-1)(x) + J_(n+1)(x) = (2 n / x) J_n(x)`. -/
theorem besselJ_rec (n : ℤ) {x : ℝ} (hx : x ≠ 0) :
    besselJ (n - 1) x + besselJ (n + 1) x = 2 * n / x * besselJ n x := by
  obtain ⟨k, rfl | rfl⟩ := n.eq_nat_or_neg
  · cases k with
    | zero =>
      have := besselJ_neg_natCast 1 x
      have h2 := besselJ_natCast 1 x
      simp only [Nat.cast_zero, zero_sub, zero_add, Int.cast_zero, mul_zero, zero_div, zero_mul]
      simp only [Nat.cast_one] at this h2
      rw [this, h2]; simp
    | succ k =>
      rw [show ((k + 1 : ℕ) : ℤ) - 1 = (k : ℕ) by push_cast; ring,
        show ((k + 1 : ℕ) : ℤ) + 1 = ((k + 2 : ℕ) : ℤ) by push_cast; ring,
        besselJ_natCast, besselJ_natCast, besselJ_natCast, besselNat_rec k hx]
      push_cast; ring
  · cases k with
    | zero =>
      have := besselJ_neg_natCast 1 x
      have h2 := besselJ_natCast 1 x
      simp only [Nat.cast_zero, neg_zero, zero_sub, zero_add, Int.cast_zero, mul_zero, zero_div, zero_mul]
      simp only [Nat.cast_one] at this h2
      rw [this, h2]; simp
    | succ k =>
      rw [show -((k + 1 : ℕ) : ℤ) - 1 = -((k + 2 : ℕ) : ℤ) by push_cast; ring,
        show -((k + 1 : ℕ) : ℤ) + 1 = -(k : ℕ) by push_cast; ring,
        besselJ_neg_natCast, besselJ_neg_natCast, besselJ_neg_natCast]
      have := besselNat_rec k hx
      push_cast
      rw [pow_succ, pow_succ]
      linear_combination (-1 : ℝ) ^ k * this

/-- `J_n'(x) = (n/x) J_n(x) - J_(n+1)(x)`. -/
theorem besselJ_deriv_succ (n : ℤ) {x : ℝ} (hx : x ≠ 0) :
    HasDerivAt (besselJ n) (n / x * besselJ n x - besselJ (n + 1) x) x := by
  obtain ⟨k, rfl | rfl⟩ := n.eq_nat_or_neg
  · have e : besselJ (k : ℤ) = besselNat k := by funext x; exact besselJ_natCast k x
    rw [e, show (k : ℤ) + 1 = ((k + 1 : ℕ) : ℤ) by push_cast; ring, besselJ_natCast]
    simpa using besselNat_deriv k hx
  · have e : besselJ (-(k : ℤ)) = fun x => (-1) ^ k * besselNat k x := by
      funext x; exact besselJ_neg_natCast k x
    have h := (besselNat_deriv k hx).const_mul ((-1 : ℝ) ^ k)
    have hr := besselJ_rec (-(k : ℤ)) hx
    have e1 : besselJ (-(k : ℤ) - 1) x = (-1) ^ (k + 1) * besselNat (k + 1) x := by
      rw [← besselJ_neg_natCast]; congr 1; push_cast; ring
    rw [e1, besselJ_neg_natCast] at hr
    have e2 : besselJ (-(k : ℤ) + 1) x
        = 2 * ((-(k : ℤ) : ℤ) : ℝ) / x * ((-1) ^ k * besselNat k x) - (-1) ^ (k + 1) * besselNat (k + 1) x := by
      linarith
    rw [e2, e]
    refine h.congr_deriv ?_
    push_cast
    rw [pow_succ]
    ring

/-- `J_n'(x) = J_(n-1)(x) - (n/x) J_n(x)`. -/
theorem besselJ_deriv_pred (n : ℤ) {x : ℝ} (hx : x ≠ 0) :
    HasDerivAt (besselJ n) (besselJ (n - 1) x - n / x * besselJ n x) x := by
  convert besselJ_deriv_succ n hx using 1
  have := besselJ_rec n hx
  linear_combination this

/-- Values at a zero of `J_m`. -/
theorem besselJ_at_zero (m : ℤ) {x : ℝ} (hx : x ≠ 0) (h : besselJ m x = 0) :
    besselJ (m - 1) x = -besselJ (m + 1) x := by
  have := besselJ_rec m hx
  rw [h, mul_zero] at this
  linarith

theorem besselJ_continuous (n : ℤ) : Continuous (besselJ n) := by
  have h : ∀ k : ℕ, Continuous (besselNat k) := fun k => by
    have e : besselNat k = fun x : ℝ => (x / 2) ^ k * besselG k ((x / 2) ^ 2) := by
      funext x; exact besselNat_eq k x
    have hg : Continuous (besselG k) :=
      continuous_iff_continuousAt.2 fun y => (besselG_deriv k y).continuousAt
    rw [e]
    fun_prop
  unfold besselJ
  by_cases hn : 0 ≤ n
  · simp only [hn, if_true]; exact h _
  · simp only [hn, if_false]; exact continuous_const.mul (h _)

end Fbpic
