import Verif.Model.LaserProfile
import Verif.Lemmas.Tactics
import Mathlib.Algebra.Group.ForwardDiff
import Mathlib.RingTheory.Polynomial.Pochhammer
import Mathlib.Algebra.Polynomial.Derivative

/-! # Generalized Laguerre polynomials: differential equation, recurrence, orthogonality -/

namespace Fbpic.LaserProf

open Polynomial

/-- Coefficients of the generalized Laguerre polynomial. -/
noncomputable def lagCoeff (p m k : ℕ) : ℝ := if k ≤ p then (-1) ^ k * ((p + m).choose (p - k) : ℝ) / k.factorial else 0

/-- The polynomial. -/
noncomputable def lagPoly (p m : ℕ) : ℝ[X] := ∑ k ∈ Finset.range (p + 1), monomial k (lagCoeff p m k)

theorem lagPoly_coeff (p m k : ℕ) : (lagPoly p m).coeff k = lagCoeff p m k := by
  simp only [lagPoly, finsetSum_coeff, coeff_monomial]
  by_cases h : k ≤ p
  · rw [Finset.sum_eq_single k]
    · simp
    · intro b _ hb; simp [hb]
    · intro hk; simp at hk; omega
  · rw [Finset.sum_eq_zero]
    · simp [lagCoeff, h]
    · intro b hb
      have : b ≠ k := by have := Finset.mem_range.mp hb; omega
      simp [this]

theorem lagPoly_eval (p m : ℕ) (x : ℝ) : (lagPoly p m).eval x = laguerre p m x := by
  simp only [lagPoly, eval_finsetSum, eval_monomial, laguerre]
  refine Finset.sum_congr rfl fun k hk => ?_
  have : k ≤ p := by have := Finset.mem_range.mp hk; omega
  simp [lagCoeff, this]

theorem lagCoeff_succ (p m k : ℕ) : ((k : ℝ) + 1) * (k + m + 1) * lagCoeff p m (k + 1) = (k - p) * lagCoeff p m k := by
  unfold lagCoeff
  rcases lt_trichotomy k p with h | h | h
  · rw [if_pos (by omega), if_pos (by omega)]
    have h1 := Nat.choose_succ_right_eq (p + m) (p - (k + 1))
    rw [show p - (k + 1) + 1 = p - k by omega, show p + m - (p - (k + 1)) = m + k + 1 by omega] at h1
    have h2 : ((p + m).choose (p - k) : ℝ) * (p - k) = ((p + m).choose (p - (k + 1)) : ℝ) * (m + k + 1) := by
      have : ((p - k : ℕ) : ℝ) = p - k := by rw [Nat.cast_sub h.le]
      rw [← this]; exact_mod_cast h1
    rw [Nat.factorial_succ]
    have h3 : (k.factorial : ℝ) ≠ 0 := by positivity
    push_cast
    field_simp
    rw [pow_succ]
    linear_combination (-1) ^ k * h2
  · subst h
    simp
  · rw [if_neg (by omega), if_neg (by omega)]; simp

/-- Laguerre's differential equation. -/
theorem lagPoly_ode (p m : ℕ) :
    X * derivative (derivative (lagPoly p m)) + (C ((m : ℝ) + 1) - X) * derivative (lagPoly p m) + C (p : ℝ) * lagPoly p m = 0 := by
  ext k
  rw [sub_mul, coeff_add, coeff_add, coeff_sub, coeff_C_mul, coeff_C_mul, coeff_zero, lagPoly_coeff]
  have h := lagCoeff_succ p m k
  cases k with
  | zero =>
    simp only [coeff_X_mul_zero, coeff_derivative, lagPoly_coeff]
    push_cast at h ⊢
    linear_combination h
  | succ k =>
    simp only [coeff_X_mul, coeff_derivative, lagPoly_coeff]
    push_cast at h ⊢
    linear_combination h

theorem lagCoeff_zero (n k : ℕ) : lagCoeff n 0 k = (-1) ^ k * (n.choose k : ℝ) / k.factorial := by
  unfold lagCoeff
  by_cases h : k ≤ n
  · rw [if_pos h, Nat.add_zero, Nat.choose_symm h]
  · rw [if_neg h, Nat.choose_eq_zero_of_lt (by omega)]; simp

/-- Recurrence of the Laguerre polynomials. -/
theorem lagPoly_rec (n : ℕ) :
    C ((n : ℝ) + 2) * lagPoly (n + 2) 0 = (C (2 * (n : ℝ) + 3) - X) * lagPoly (n + 1) 0 - C ((n : ℝ) + 1) * lagPoly n 0 := by
  ext k
  rw [sub_mul, coeff_sub, coeff_sub, coeff_C_mul, coeff_C_mul, coeff_C_mul]
  cases k with
  | zero =>
    simp only [coeff_X_mul_zero, lagPoly_coeff, lagCoeff_zero]
    simp
    ring
  | succ k =>
    simp only [coeff_X_mul, lagPoly_coeff, lagCoeff_zero]
    have h1 := Nat.choose_mul_succ_eq n k
    have h2 : (n + 1).choose (k + 1) = n.choose k + n.choose (k + 1) := Nat.choose_succ_succ' n k
    have h3 : (n + 2).choose (k + 1) = (n + 1).choose k + (n + 1).choose (k + 1) := Nat.choose_succ_succ' (n + 1) k
    have h1' : (n.choose k : ℝ) * (n + 1) = ((n + 1).choose k : ℝ) * (n + 1 - k) := by
      by_cases hk : k ≤ n + 1
      · have : ((n + 1 - k : ℕ) : ℝ) = n + 1 - k := by rw [Nat.cast_sub hk]; push_cast; ring
        rw [← this]; exact_mod_cast h1
      · rw [Nat.choose_eq_zero_of_lt (by omega : n < k), Nat.choose_eq_zero_of_lt (by omega : n + 1 < k)]; simp
    rw [h3]
    rw [Nat.factorial_succ]
    have hf : (k.factorial : ℝ) ≠ 0 := by positivity
    rw [h2]
    push_cast
    field_simp
    rw [pow_succ]
    linear_combination (-1) ^ k * h1'

theorem laguerre_zero (m : ℕ) (x : ℝ) : laguerre 0 m x = 1 := by simp [laguerre]

theorem laguerre_one (x : ℝ) : laguerre 1 0 x = 1 - x := by
  simp [laguerre, Finset.sum_range_succ]; ring

theorem laguerre_rec (n : ℕ) (x : ℝ) :
    laguerre (n + 2) 0 x = ((2 * ((n + 2 : ℕ) : ℝ) - 1 - x) * laguerre (n + 1) 0 x - (((n + 2 : ℕ) : ℝ) - 1) * laguerre n 0 x) / ((n + 2 : ℕ) : ℝ) := by
  have h := congrArg (eval x) (lagPoly_rec n)
  simp only [eval_mul, eval_sub, eval_C, eval_X, lagPoly_eval] at h
  have : ((n + 2 : ℕ) : ℝ) ≠ 0 := by positivity
  rw [eq_div_iff this]
  push_cast
  linear_combination h

theorem laguerre_at_zero (n : ℕ) : laguerre n 0 0 = 1 := by
  rw [← lagPoly_eval, ← coeff_zero_eq_eval_zero, lagPoly_coeff, lagCoeff_zero]; simp

/-! ### Orthogonality -/

/-- The linear functional `P ↦ ∫_0^∞ P(x) exp(-x) dx`, on the monomials `x^n ↦ n!`. -/
noncomputable def lam (P : ℝ[X]) : ℝ := P.sum fun n a => a * n.factorial

theorem lam_add (P Q : ℝ[X]) : lam (P + Q) = lam P + lam Q := by
  unfold lam
  exact Polynomial.sum_add_index P Q _ (by simp) (by intros; ring)

theorem lam_monomial (n : ℕ) (a : ℝ) : lam (monomial n a) = a * n.factorial := by
  unfold lam
  exact Polynomial.sum_monomial_index a _ (by simp)

theorem lam_smul (a : ℝ) (P : ℝ[X]) : lam (C a * P) = a * lam P := by
  induction P using Polynomial.induction_on' with
  | add p q hp hq => rw [mul_add, lam_add, hp, hq, lam_add]; ring
  | monomial n b => rw [C_mul_monomial, lam_monomial, lam_monomial]; ring

theorem lam_sum {ι : Type*} (s : Finset ι) (f : ι → ℝ[X]) : lam (∑ i ∈ s, f i) = ∑ i ∈ s, lam (f i) := by
  classical
  induction s using Finset.induction_on with
  | empty => simp [lam]
  | insert a s ha ih => rw [Finset.sum_insert ha, Finset.sum_insert ha, lam_add, ih]

theorem lam_pow_lag (p m j : ℕ) : lam (X ^ (m + j) * lagPoly p m) =
    ((p + m).factorial / p.factorial : ℝ) * ∑ k ∈ Finset.range (p + 1), (-1) ^ k * (p.choose k : ℝ) *
      ((ascPochhammer ℝ j).comp (X + C ((m : ℝ) + 1))).eval (k : ℝ) := by
  rw [lagPoly, Finset.mul_sum, lam_sum, Finset.mul_sum]
  refine Finset.sum_congr rfl fun k hk => ?_
  have hk : k ≤ p := by have := Finset.mem_range.mp hk; omega
  rw [X_pow_mul_monomial, lam_monomial]
  have e : ((ascPochhammer ℝ j).comp (X + C ((m : ℝ) + 1))).eval (k : ℝ) * (m + k).factorial = ((m + j + k).factorial : ℝ) := by
    rw [eval_comp]
    simp only [eval_add, eval_X, eval_C]
    rw [show (k : ℝ) + (m + 1) = ((m + k + 1 : ℕ) : ℝ) by push_cast; ring, ← ascPochhammer_eval_cast, ascPochhammer_nat_eq_ascFactorial]
    have := Nat.factorial_mul_ascFactorial (m + k) j
    rw [show m + k + j = m + j + k by omega] at this
    rw [← this]; push_cast; ring
  have hc : ((p + m).choose (p - k) : ℝ) * ((p - k).factorial * (m + k).factorial) = (p + m).factorial := by
    have := Nat.choose_mul_factorial_mul_factorial (show p - k ≤ p + m by omega)
    rw [show p + m - (p - k) = m + k by omega] at this
    rw [← this]; push_cast; ring
  have hc2 : (p.choose k : ℝ) * (k.factorial * (p - k).factorial) = p.factorial := by
    have := Nat.choose_mul_factorial_mul_factorial hk
    rw [← this]; push_cast; ring
  have h1 : (p.factorial : ℝ) ≠ 0 := by positivity
  have h2 : (k.factorial : ℝ) ≠ 0 := by positivity
  have h3 : ((p - k).factorial : ℝ) ≠ 0 := by positivity
  have h4 : ((m + k).factorial : ℝ) ≠ 0 := by positivity
  rw [lagCoeff, if_pos hk, show k + (m + j) = m + j + k by omega]
  rw [← e, ← hc, ← hc2]
  have h5 : (p.choose k : ℝ) ≠ 0 := by
    have := Nat.choose_pos hk
    positivity
  field_simp

theorem alternating_sum (p : ℕ) (f : ℝ → ℝ) : ∑ k ∈ Finset.range (p + 1), (-1 : ℝ) ^ k * (p.choose k : ℝ) * f k =
    (-1) ^ p * (fwdDiff 1)^[p] f 0 := by
  rw [fwdDiff_iter_eq_sum_shift, Finset.mul_sum]
  refine Finset.sum_congr rfl fun k hk => ?_
  have hk : k ≤ p := by have := Finset.mem_range.mp hk; omega
  simp only [zsmul_eq_mul, nsmul_eq_mul, mul_one, zero_add]
  push_cast
  have : (-1 : ℝ) ^ p * (-1) ^ (p - k) = (-1) ^ k := by
    obtain ⟨d, rfl⟩ := Nat.exists_eq_add_of_le hk
    rw [show k + d - k = d by omega, pow_add, mul_assoc, ← mul_pow]; simp
  rw [← this]; ring

theorem poch_degree (m j : ℕ) : ((ascPochhammer ℝ j).comp (X + C ((m : ℝ) + 1))).natDegree = j := by
  rw [natDegree_comp, natDegree_X_add_C, ascPochhammer_natDegree]; simp

theorem lam_pow_lag_lt (p m j : ℕ) (h : j < p) : lam (X ^ (m + j) * lagPoly p m) = 0 := by
  rw [lam_pow_lag, alternating_sum p fun x => ((ascPochhammer ℝ j).comp (X + C ((m : ℝ) + 1))).eval x]
  have := Polynomial.fwdDiff_iter_eq_zero_of_degree_lt (P := (ascPochhammer ℝ j).comp (X + C ((m : ℝ) + 1))) (n := p)
    (by rw [poch_degree]; exact h)
  rw [this]; simp

theorem lam_pow_lag_eq (p m : ℕ) : lam (X ^ (m + p) * lagPoly p m) = (-1) ^ p * (p + m).factorial := by
  rw [lam_pow_lag, alternating_sum p fun x => ((ascPochhammer ℝ p).comp (X + C ((m : ℝ) + 1))).eval x]
  have := Polynomial.fwdDiff_iter_degree_eq_factorial ((ascPochhammer ℝ p).comp (X + C ((m : ℝ) + 1)))
  rw [poch_degree] at this
  rw [this]
  have hl : ((ascPochhammer ℝ p).comp (X + C ((m : ℝ) + 1))).leadingCoeff = 1 := by
    have := (monic_ascPochhammer ℝ p).comp (monic_X_add_C ((m : ℝ) + 1)) (by rw [natDegree_X_add_C]; simp)
    exact this
  rw [hl]
  have : (p.factorial : ℝ) ≠ 0 := by positivity
  simp
  field_simp

/-- Orthogonality of the generalized Laguerre polynomials with the weight `x^m exp(-x)`. -/
theorem lam_orthogonal (p q m : ℕ) :
    lam (X ^ m * (lagPoly q m * lagPoly p m)) = if p = q then ((p + m).factorial / p.factorial : ℝ) else 0 := by
  wlog hqp : q ≤ p generalizing p q with H
  · rw [mul_comm (lagPoly q m), H q p (by omega), if_neg (by omega), if_neg (by omega)]
  have e : X ^ m * (lagPoly q m * lagPoly p m) = ∑ k ∈ Finset.range (q + 1), C (lagCoeff q m k) * (X ^ (m + k) * lagPoly p m) := by
    conv_lhs => rw [lagPoly, Finset.sum_mul, Finset.mul_sum]
    refine Finset.sum_congr rfl fun k _ => ?_
    rw [← C_mul_X_pow_eq_monomial, pow_add]; ring
  rw [e, lam_sum, Finset.sum_range_succ, Finset.sum_eq_zero, zero_add, lam_smul]
  · by_cases h : p = q
    · subst h
      rw [if_pos rfl, lam_pow_lag_eq, lagCoeff, if_pos le_rfl]
      simp
      have : (p.factorial : ℝ) ≠ 0 := by positivity
      field_simp
      rw [← pow_mul, mul_comm, pow_mul]; simp
    · rw [if_neg h, lam_pow_lag_lt p m q (by omega)]; simp
  · intro k hk
    have := Finset.mem_range.mp hk
    rw [lam_smul, lam_pow_lag_lt p m k (by omega)]; simp

end Fbpic.LaserProf
