import Verif.Props.Smoothing
import Mathlib.Analysis.Convex.Deriv

/-!
# C39: sign and size of the modified wavenumber
-/

namespace Fbpic

open Complex Spec

/-- `sum a_n cos(n t) = 1 - 4^m / binomial(2m, m) sin(t/2)^(2m)`. -/
theorem stencil_cos (m : ℕ) (t : ℝ) : ∑ n ∈ Finset.Icc 1 m, stencilCoef m n * Real.cos (n * t)
    = 1 - 4 ^ m / (2 * m).choose m * Real.sin (t / 2) ^ (2 * m) := by
  have hc : ((2 * m).choose m : ℝ) ≠ 0 := by exact_mod_cast (Nat.choose_pos (by omega)).ne'
  -- binomial expansion of `(exp(i t/2) - exp(-i t/2))^(2m)`
  have h1 : ((-1) ^ m * (4 : ℂ) ^ m * (Complex.sin (t / 2)) ^ (2 * m))
      = ∑ k ∈ Finset.range (2 * m + 1), ((-1 : ℂ) ^ k * (2 * m).choose k) * Complex.cos (((k : ℂ) - m) * t) := by
    have hs : (2 * I * Complex.sin (t / 2)) = exp (I * (t / 2)) + -exp (-(I * (t / 2))) := by
      rw [Complex.sin]
      have e1 : exp (t / 2 * I) = exp (I * (t / 2)) := by rw [mul_comm]
      have e2 : exp (-(t / 2) * I) = exp (-(I * (t / 2))) := by congr 1; ring
      rw [e1, e2]
      linear_combination (exp (-(I * (t / 2))) - exp (I * (t / 2))) * I_mul_I
    have hp : (2 * I * Complex.sin (t / 2)) ^ (2 * m) = (-1) ^ m * (4 : ℂ) ^ m * (Complex.sin (t / 2)) ^ (2 * m) := by
      rw [mul_pow, pow_mul, mul_pow, I_sq, ← mul_pow]; norm_num
    have hb : ∀ ε : ℂ, (exp (ε * (t / 2)) + -exp (-(ε * (t / 2)))) ^ (2 * m)
        = ∑ k ∈ Finset.range (2 * m + 1), ((-1 : ℂ) ^ k * (2 * m).choose k) * exp (ε * (((k : ℂ) - m) * t)) := by
      intro ε
      rw [add_pow]
      refine Finset.sum_congr rfl fun k hk => ?_
      have hk := Finset.mem_range.1 hk
      have hsg : (-exp (-(ε * (t / 2)))) ^ (2 * m - k) = (-1) ^ k * exp (-(ε * (t / 2))) ^ (2 * m - k) := by
        rw [neg_pow]
        congr 1
        obtain ⟨j, hj⟩ := Nat.exists_eq_add_of_le (show k ≤ 2 * m by omega)
        have : (-1 : ℂ) ^ (2 * m) = 1 := by rw [pow_mul]; norm_num
        rw [show 2 * m - k = j by omega]
        have h2 : (-1 : ℂ) ^ k * (-1) ^ j = 1 := by rw [← pow_add, ← hj, this]
        have h3 : (-1 : ℂ) ^ k * (-1) ^ k = 1 := by rw [← pow_add, ← two_mul, pow_mul]; norm_num
        linear_combination (-1 : ℂ) ^ k * h2 - (-1) ^ j * h3
      rw [hsg, ← exp_nat_mul, ← exp_nat_mul, Nat.cast_sub (by omega)]
      have : exp (((k : ℕ) : ℂ) * (ε * (t / 2))) * exp ((((2 * m : ℕ) : ℂ) - k) * -(ε * (t / 2)))
          = exp (ε * (((k : ℂ) - m) * t)) := by
        rw [← exp_add]; congr 1; push_cast; ring
      rw [← this]
      ring
    have h2 := hb (-I)
    have h3 : (exp (-I * (t / 2)) + -exp (-(-I * (t / 2)))) ^ (2 * m) = (exp (I * (t / 2)) + -exp (-(I * (t / 2)))) ^ (2 * m) := by
      rw [show -(-I * ((t : ℂ) / 2)) = I * (t / 2) by ring, show -I * ((t : ℂ) / 2) = -(I * (t / 2)) by ring,
        show exp (-(I * (t / 2))) + -exp (I * (t / 2)) = -(exp (I * (t / 2)) + -exp (-(I * (t / 2)))) by ring,
        Even.neg_pow (even_two_mul m)]
    rw [h3] at h2
    rw [← hp, hs]
    have h4 := hb I
    have h5 : (exp (I * (t / 2)) + -exp (-(I * (t / 2)))) ^ (2 * m) = ((exp (I * (t / 2)) + -exp (-(I * (t / 2)))) ^ (2 * m)
        + (exp (I * (t / 2)) + -exp (-(I * (t / 2)))) ^ (2 * m)) / 2 := by ring
    rw [h5]
    nth_rewrite 2 [h2]
    rw [h4, ← Finset.sum_add_distrib, Finset.sum_div]
    refine Finset.sum_congr rfl fun k _ => ?_
    rw [Complex.cos, show ((k : ℂ) - m) * t * I = I * (((k : ℂ) - m) * t) by ring,
      show -(((k : ℂ) - m) * t) * I = -I * (((k : ℂ) - m) * t) by ring]
    ring
  have h2 : (-1) ^ m * (4 : ℝ) ^ m * Real.sin (t / 2) ^ (2 * m)
      = ∑ k ∈ Finset.range (2 * m + 1), ((-1 : ℝ) ^ k * (2 * m).choose k) * Real.cos (((k : ℝ) - m) * t) := by
    exact_mod_cast h1
  rw [sum_fold] at h2
  · have e : ∀ n ∈ Finset.Icc 1 m, (-1 : ℝ) ^ (m + n) * ((2 * m).choose (m + n)) * Real.cos ((((m + n : ℕ) : ℝ) - m) * t)
        = -(1 / 2) * (-1) ^ m * (2 * m).choose m * (stencilCoef m n * Real.cos (n * t)) := fun n hn => by
      have h3 := coef_closed m n (Finset.mem_Icc.1 hn).2
      rw [show (((m + n : ℕ) : ℝ) - m) * t = n * t by push_cast; ring, pow_add]
      linear_combination (1 / 2 * (-1) ^ m * Real.cos (n * t)) * h3
    rw [Finset.sum_congr rfl e, ← Finset.mul_sum, sub_self, zero_mul, Real.cos_zero] at h2
    generalize ∑ n ∈ Finset.Icc 1 m, stencilCoef m n * Real.cos (n * t) = S at h2 ⊢
    have hm : ((-1 : ℝ) ^ m) * (-1) ^ m = 1 := by rw [← pow_add, ← two_mul, pow_mul]; norm_num
    field_simp
    linear_combination (-1) ^ m * h2 - (4 ^ m * Real.sin (t / 2) ^ (2 * m) - ((2 * m).choose m) + ((2 * m).choose m) * S) * hm
  · intro j hj
    have e1 : ((-1 : ℝ)) ^ (m - j) = (-1) ^ (m + j) := by
      rw [show m + j = m - j + 2 * j by omega, pow_add, pow_mul]; norm_num
    rw [e1, show (2 * m).choose (m - j) = (2 * m).choose (m + j) by
        rw [← Nat.choose_symm (show m + j ≤ 2 * m by omega)]; congr 1; omega,
      Nat.cast_sub hj, show ((m : ℝ) - j - m) * t = -((((m + j : ℕ) : ℝ) - m) * t) by push_cast; ring, Real.cos_neg]

/-- The modified wavenumber as a function of the phase `k dz`. -/
noncomputable def stencilPhase (m : ℕ) (t : ℝ) : ℝ := ∑ n ∈ Finset.Icc 1 m, stencilCoef m n * (Real.sin (n * t) / n)

theorem stencilPhase_deriv (m : ℕ) (t : ℝ) :
    HasDerivAt (stencilPhase m) (1 - 4 ^ m / (2 * m).choose m * Real.sin (t / 2) ^ (2 * m)) t := by
  rw [← stencil_cos]
  unfold stencilPhase
  refine HasDerivAt.fun_sum fun n hn => ?_
  have hn : (n : ℝ) ≠ 0 := by exact_mod_cast (by have := (Finset.mem_Icc.1 hn).1; omega)
  have h := (((hasDerivAt_id t).const_mul (n : ℝ)).sin.div_const (n : ℝ)).const_mul (stencilCoef m n)
  refine h.congr_deriv ?_
  simp only [id, mul_one]
  field_simp

theorem stencilPhase_pos {m : ℕ} (hm : 1 ≤ m) {t : ℝ} (h0 : 0 < t) (h1 : t < Real.pi) : 0 < stencilPhase m t := by
  have hpi := Real.pi_pos
  have hd : deriv (stencilPhase m) = fun t => 1 - 4 ^ m / (2 * m).choose m * Real.sin (t / 2) ^ (2 * m) :=
    funext fun t => (stencilPhase_deriv m t).deriv
  have hc : (0 : ℝ) < (2 * m).choose m := by exact_mod_cast Nat.choose_pos (by omega)
  have hconc : StrictConcaveOn ℝ (Set.Icc 0 Real.pi) (stencilPhase m) := by
    refine StrictAntiOn.strictConcaveOn_of_deriv (convex_Icc _ _)
      (fun x _ => (stencilPhase_deriv m x).continuousAt.continuousWithinAt) ?_
    rw [interior_Icc, hd]
    intro a ha b hb hab
    have hs : Real.sin (a / 2) < Real.sin (b / 2) :=
      Real.sin_lt_sin_of_lt_of_le_pi_div_two (by linarith [ha.1]) (by linarith [hb.2]) (by linarith)
    have hs0 : 0 ≤ Real.sin (a / 2) := Real.sin_nonneg_of_nonneg_of_le_pi (by linarith [ha.1]) (by linarith [ha.2])
    have := pow_lt_pow_left₀ hs hs0 (show 2 * m ≠ 0 by omega)
    have hp : (0 : ℝ) < 4 ^ m / (2 * m).choose m := by positivity
    simp only
    nlinarith [mul_lt_mul_of_pos_left this hp]
  have e0 : stencilPhase m 0 = 0 := by simp [stencilPhase]
  have e1 : stencilPhase m Real.pi = 0 := by simp [stencilPhase, Real.sin_nat_mul_pi]
  have := hconc.2 (Set.left_mem_Icc.2 hpi.le) (Set.right_mem_Icc.2 hpi.le) hpi.ne
    (show 0 < 1 - t / Real.pi by rw [sub_pos, div_lt_one hpi]; exact h1) (show 0 < t / Real.pi by positivity) (by ring)
  simpa [e0, e1, hpi.ne'] using this

theorem stencilPhase_le {m : ℕ} {t : ℝ} (h0 : 0 ≤ t) : stencilPhase m t ≤ t := by
  have hd : ∀ x, HasDerivAt (fun t => t - stencilPhase m t) (4 ^ m / (2 * m).choose m * Real.sin (x / 2) ^ (2 * m)) x := fun x =>
    ((hasDerivAt_id x).fun_sub (stencilPhase_deriv m x)).congr_deriv (by ring)
  have hmono : Monotone (fun t => t - stencilPhase m t) := monotone_of_deriv_nonneg (fun x => (hd x).differentiableAt)
    fun x => by
      rw [(hd x).deriv, pow_mul]; positivity
  have := hmono h0
  simpa [stencilPhase] using this

theorem modifiedK_eq (nOrder : ℤ) (h : 0 < nOrder) (h2 : nOrder % 2 = 0) (dz : ℝ) (hdz : dz ≠ 0) (k : ℝ) :
    modifiedK k nOrder dz = .ok (stencilPhase (nOrder / 2).toNat (k * dz) / dz) := by
  unfold modifiedK
  rw [if_neg (by omega), if_neg (by omega)]
  refine congrArg _ ?_
  unfold stencilPhase
  rw [Finset.sum_div]
  refine Finset.sum_congr rfl fun (n : ℕ) hn => ?_
  have hn : (n : ℝ) ≠ 0 := by exact_mod_cast (by have := (Finset.mem_Icc.1 hn).1; omega)
  rw [show (n : ℝ) * (k * dz) = k * n * dz by ring]
  field_simp

/-- **C39** (sign and size): for every wavenumber that the grid can hold, up to the Nyquist wavenumber excluded, the
modified wavenumber has the sign of the true one and is not larger, so that no wave changes its direction; it vanishes
only at zero and at the Nyquist wavenumber. -/
theorem C39_sign (nOrder : ℤ) (h : 0 < nOrder) (h2 : nOrder % 2 = 0) (dz : ℝ) (hdz : 0 < dz) :
    ∃ K : ℝ → ℝ, (∀ k, modifiedK k nOrder dz = .ok (K k)) ∧
      (∀ k, 0 < k → k < Real.pi / dz → 0 < K k ∧ K k ≤ k) ∧
      (∀ k, k < 0 → -(Real.pi / dz) < k → K k < 0 ∧ k ≤ K k) ∧
      (∀ k, |k| ≤ Real.pi / dz → (K k = 0 ↔ k = 0 ∨ |k| = Real.pi / dz)) := by
  have hm : 1 ≤ (nOrder / 2).toNat := by omega
  have hpos : ∀ k, 0 < k → k < Real.pi / dz → 0 < stencilPhase (nOrder / 2).toNat (k * dz) / dz ∧
      stencilPhase (nOrder / 2).toNat (k * dz) / dz ≤ k := fun k hk hk' => by
    rw [lt_div_iff₀ hdz] at hk'
    refine ⟨div_pos (stencilPhase_pos hm (by positivity) hk') hdz, ?_⟩
    rw [div_le_iff₀ hdz]
    exact stencilPhase_le (by positivity)
  have hodd : ∀ t, stencilPhase (nOrder / 2).toNat (-t) = -stencilPhase (nOrder / 2).toNat t := fun t => by
    unfold stencilPhase
    rw [← Finset.sum_neg_distrib]
    exact Finset.sum_congr rfl fun n _ => by rw [mul_neg, Real.sin_neg]; ring
  have hneg : ∀ k, k < 0 → -(Real.pi / dz) < k → stencilPhase (nOrder / 2).toNat (k * dz) / dz < 0 ∧
      k ≤ stencilPhase (nOrder / 2).toNat (k * dz) / dz := fun k hk hk' => by
    have := hpos (-k) (by linarith) (by linarith)
    rw [neg_mul, hodd, neg_div] at this
    constructor <;> linarith [this.1, this.2]
  refine ⟨_, fun k => modifiedK_eq nOrder h h2 dz hdz.ne' k, hpos, hneg, fun k hk => ⟨fun h0 => ?_, fun h0 => ?_⟩⟩
  · by_contra hc
    push Not at hc
    have hlt := abs_lt.1 (lt_of_le_of_ne hk hc.2)
    rcases lt_or_gt_of_ne hc.1 with h3 | h3
    · exact (hneg k h3 hlt.1).1.ne h0
    · exact (hpos k h3 hlt.2).1.ne' h0
  · rcases h0 with rfl | h0
    · simp [stencilPhase]
    · have hk2 : k = Real.pi / dz ∨ k = -(Real.pi / dz) := eq_or_eq_neg_of_abs_eq h0
      have e1 : stencilPhase (nOrder / 2).toNat Real.pi = 0 := by simp [stencilPhase, Real.sin_nat_mul_pi]
      rcases hk2 with rfl | rfl
      · rw [div_mul_cancel₀ _ hdz.ne', e1, zero_div]
      · rw [neg_mul, div_mul_cancel₀ _ hdz.ne', hodd, e1, neg_zero, zero_div]

example : ∃ K, modifiedK 1 32 (1 / 2) = .ok K ∧ 0 < K ∧ K ≤ 1 := by
  obtain ⟨K, h1, h2, _⟩ := C39_sign 32 (by norm_num) (by norm_num) (1 / 2) (by norm_num)
  refine ⟨K 1, h1 1, h2 1 one_pos ?_⟩
  have := Real.one_le_pi_div_two
  linarith

/-- **C38** (Nyquist): one pass or more of the filter removes the shortest wavelength of the grid, with or without
compensation. -/
theorem C38_nyquist (n : ℕ) (hn : 1 ≤ n) (comp : Bool) (k d : ℝ) (h : |k * d| = Real.pi) : filterFactor n comp k d = 0 := by
  have hs : Real.sin (0.5 * k * d) ^ 2 = 1 := by
    rcases eq_or_eq_neg_of_abs_eq h with h | h
    · rw [show 0.5 * k * d = Real.pi / 2 by linarith, Real.sin_pi_div_two]; norm_num
    · rw [show 0.5 * k * d = -(Real.pi / 2) by linarith, Real.sin_neg, Real.sin_pi_div_two]; norm_num
  unfold filterFactor
  simp [hs, show n ≠ 0 by omega]

example : filterFactor 1 true (Real.pi / 2) 2 = 0 :=
  C38_nyquist 1 le_rfl true _ _ (by rw [div_mul_cancel₀ _ (by norm_num), abs_of_pos Real.pi_pos])

end Fbpic
