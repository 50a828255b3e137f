import Verif.Lemmas.LaserParaxial
import Mathlib.Topology.Algebra.Polynomial

/-! # The flattened profile far from the focus -/

namespace Fbpic.LaserProf

open Complex (I)
open Filter Topology

/-- Binomial inversion: `Σ_n (-1)^n C(m, n) L_n(x) = x^m / m!`. -/
theorem laguerre_inversion (m : ℕ) (x : ℝ) :
    ∑ n ∈ Finset.range (m + 1), (-1) ^ n * (m.choose n : ℝ) * laguerre n 0 x = x ^ m / m.factorial := by
  have h : ∀ n ∈ Finset.range (m + 1), (-1 : ℝ) ^ n * (m.choose n : ℝ) * laguerre n 0 x =
      ∑ k ∈ Finset.range (m + 1), ((-1) ^ n * (m.choose n : ℝ) * (n.choose k : ℝ)) * ((-1) ^ k / k.factorial * x ^ k) := by
    intro n hn
    rw [Finset.mem_range] at hn
    unfold laguerre
    rw [Finset.mul_sum, ← Finset.sum_subset (Finset.range_mono (show n + 1 ≤ m + 1 by omega))]
    · refine Finset.sum_congr rfl fun k hk => ?_
      rw [Finset.mem_range] at hk
      rw [add_zero, Nat.choose_symm (show k ≤ n by omega)]
      ring
    · intro k _ hk
      rw [Finset.mem_range] at hk
      rw [Nat.choose_eq_zero_of_lt (show n < k by omega)]; simp
  rw [Finset.sum_congr rfl h, Finset.sum_comm]
  simp only [← Finset.sum_mul]
  have hinv : ∀ k ∈ Finset.range (m + 1), ∑ n ∈ Finset.range (m + 1), (-1 : ℝ) ^ n * (m.choose n : ℝ) * (n.choose k : ℝ) =
      if k = m then (-1) ^ m else 0 := by
    intro k hk
    rw [Finset.mem_range] at hk
    have e : ∑ n ∈ Finset.range (m + 1), (-1 : ℝ) ^ n * (m.choose n : ℝ) * (n.choose k : ℝ) =
        (m.choose k : ℝ) * (-1) ^ k * ∑ j ∈ Finset.range (m - k + 1), (-1 : ℝ) ^ j * ((m - k).choose j : ℝ) := by
      rw [show m + 1 = k + (m - k + 1) by omega, Finset.sum_range_add, Finset.sum_eq_zero, zero_add, Finset.mul_sum]
      · refine Finset.sum_congr rfl fun j hj => ?_
        have := Nat.choose_mul (n := m) (k := k + j) (s := k) (by omega)
        rw [Nat.add_sub_cancel_left] at this
        have h' : (m.choose (k + j) : ℝ) * ((k + j).choose k : ℝ) = (m.choose k : ℝ) * ((m - k).choose j : ℝ) := by exact_mod_cast this
        rw [pow_add]
        linear_combination ((-1 : ℝ) ^ k * (-1) ^ j) * h'
      · intro n hn
        rw [Finset.mem_range] at hn
        rw [Nat.choose_eq_zero_of_lt hn]; simp
    rw [e]
    have ha := Int.alternating_sum_range_choose (n := m - k)
    have ha' : ∑ j ∈ Finset.range (m - k + 1), (-1 : ℝ) ^ j * ((m - k).choose j : ℝ) = if m - k = 0 then 1 else 0 := by
      exact_mod_cast congrArg (Int.cast : ℤ → ℝ) ha
    rw [ha']
    by_cases hkm : k = m
    · subst hkm; simp
    · rw [if_neg hkm, if_neg (by omega), mul_zero]
  rw [Finset.sum_congr rfl fun k hk => by rw [hinv k hk]]
  simp only [ite_mul, zero_mul, Finset.sum_ite_eq', Finset.mem_range, Nat.lt_succ_self, if_true]
  rw [show (-1 : ℝ) ^ m * ((-1) ^ m / m.factorial * x ^ m) = ((-1) ^ m * (-1) ^ m) * (x ^ m / m.factorial) by ring, ← mul_pow]
  norm_num

/-- The coefficients of the flattened profile, with alternating signs: the truncated exponential series. -/
theorem flat_far_sum (N : ℕ) (s : ℝ) :
    ∑ n ∈ Finset.range (N + 1), flatCn N n * (-1) ^ n * laguerre n 0 (2 * s) = (∑ m ∈ Finset.range (N + 1), s ^ m / m.factorial) / (N + 1) := by
  have hN : (0 : ℝ) < (N : ℝ) + 1 := by positivity
  have h : ∀ n ∈ Finset.range (N + 1), flatCn N n * (-1) ^ n * laguerre n 0 (2 * s) =
      (∑ m ∈ Finset.range (N + 1), (1 / 2) ^ m * ((-1) ^ n * (m.choose n : ℝ) * laguerre n 0 (2 * s))) / (N + 1) := by
    intro n _
    unfold flatCn
    have h1 : ∑ m ∈ Finset.Icc n N, ((1 : ℝ) / 2) ^ m * (m.choose n : ℝ) = ∑ m ∈ Finset.range (N + 1), ((1 : ℝ) / 2) ^ m * (m.choose n : ℝ) := by
      refine Finset.sum_subset (fun m hm => ?_) fun m hm hn => ?_
      · rw [Finset.mem_Icc] at hm; rw [Finset.mem_range]; omega
      · rw [Finset.mem_range] at hm
        rw [Finset.mem_Icc] at hn
        rw [Nat.choose_eq_zero_of_lt (by omega)]; simp
    rw [h1, div_mul_eq_mul_div, div_mul_eq_mul_div, mul_assoc, Finset.sum_mul]
    congr 1
    exact Finset.sum_congr rfl fun m _ => by ring
  rw [Finset.sum_congr rfl h, ← Finset.sum_div, Finset.sum_comm]
  congr 1
  refine Finset.sum_congr rfl fun m hm => ?_
  rw [Finset.mem_range] at hm
  rw [← Finset.mul_sum, ← Finset.sum_subset (Finset.range_mono (show m + 1 ≤ N + 1 by omega))]
  · rw [laguerre_inversion, mul_pow, mul_div_assoc', ← mul_assoc, ← mul_pow]
    norm_num
  · intro n _ hn
    rw [Finset.mem_range] at hn
    rw [Nat.choose_eq_zero_of_lt (by omega)]; simp

theorem gouy (invZr zf dir z : ℝ) (n : ℕ) :
    Complex.exp (-(2 * I * n) * Complex.arg (diffract invZr zf dir z)) = ((2 - diffract invZr zf dir z) / diffract invZr zf dir z) ^ n := by
  have hd := diffract_ne invZr zf dir z
  have hn := norm_mul_exp_neg_arg (diffract invZr zf dir z)
  have hp := Complex.norm_mul_exp_arg_mul_I (diffract invZr zf dir z)
  rw [← diffract_conj] at hn
  set d := diffract invZr zf dir z
  have hnd : (‖d‖ : ℂ) ≠ 0 := by exact_mod_cast norm_ne_zero_iff.mpr hd
  rw [show -(2 * I * (n : ℂ)) * Complex.arg d = (n : ℂ) * (-(I * Complex.arg d) - Complex.arg d * I) by ring, Complex.exp_nat_mul,
    Complex.exp_sub]
  congr 1
  rw [div_eq_div_iff (Complex.exp_ne_zero _) hd]
  linear_combination (-Complex.exp (-(I * Complex.arg d))) * hp + Complex.exp (Complex.arg d * I) * hn

theorem diffract_normSq (invZr zf dir z : ℝ) (hd : dir ^ 2 = 1) : ‖diffract invZr zf dir z‖ ^ 2 = 1 + ((z - zf) * invZr) ^ 2 := by
  rw [← Complex.normSq_eq_norm_sq, Complex.normSq_apply]
  simp [diffract]
  linear_combination ((z - zf) * invZr) ^ 2 * hd

theorem exp_norm' (w0 s invZr zf dir z : ℝ) (hw : 0 < w0) :
    ‖Complex.exp (-(s : ℂ) / (w0 ^ 2 * diffract invZr zf dir z))‖ = Real.exp (-(2 * s / (w0 * ‖diffract invZr zf dir z‖) ^ 2) / 2) := by
  have hd := diffract_ne invZr zf dir z
  have hr := diffract_re invZr zf dir z
  set d := diffract invZr zf dir z
  rw [Complex.norm_exp]
  congr 1
  have e : (-(s : ℂ) / (w0 ^ 2 * d)) = ((-s / w0 ^ 2 : ℝ) : ℂ) * d⁻¹ := by
    push_cast
    have : (w0 : ℂ) ≠ 0 := by exact_mod_cast hw.ne'
    field_simp
  rw [e, Complex.re_ofReal_mul, Complex.inv_re, hr, Complex.normSq_eq_norm_sq]
  have : ‖d‖ ≠ 0 := norm_ne_zero_iff.mpr hd
  field_simp

theorem flat_far (N : ℕ) (w zr zf dir a b : ℝ) (hw : 0 < w) (hz : 0 < zr) (hd : dir ^ 2 = 1) (l : Filter ℝ)
    (hl : Tendsto (fun z => |z - zf|) l atTop) :
    Tendsto (fun z => |z - zf| * ‖flatEval N (flatCn N) w (1 / zr) zf dir (a * (z - zf)) (b * (z - zf)) z‖) l
      (𝓝 (zr / (N + 1) * (Real.exp (-((a ^ 2 + b ^ 2) * (zr / w) ^ 2)) *
        ∑ m ∈ Finset.range (N + 1), ((a ^ 2 + b ^ 2) * (zr / w) ^ 2) ^ m / m.factorial))) := by
  set s := (a ^ 2 + b ^ 2) * (zr / w) ^ 2 with hs
  let d : ℝ → ℂ := diffract (1 / zr) zf dir
  have hdn : ∀ z, 0 < ‖d z‖ := fun z => norm_pos_iff.mpr (diffract_ne _ _ _ _)
  have hsq : ∀ z, ‖d z‖ ^ 2 = 1 + ((z - zf) * (1 / zr)) ^ 2 := fun z => diffract_normSq _ _ _ _ hd
  have hge : ∀ z, |z - zf| * (1 / zr) ≤ ‖d z‖ := by
    intro z
    refine abs_le_of_sq_le_sq' ?_ (hdn z).le |>.2
    rw [hsq, mul_pow, mul_pow, sq_abs]; linarith
  have hdinf : Tendsto (fun z => ‖d z‖) l atTop :=
    tendsto_atTop_mono hge (Tendsto.atTop_mul_const (by positivity) hl)
  have hinv : Tendsto (fun z => ‖d z‖⁻¹) l (𝓝 0) := hdinf.inv_tendsto_atTop
  have hu2 : ∀ z, (z - zf) ^ 2 / ‖d z‖ ^ 2 = zr ^ 2 * (1 - (‖d z‖⁻¹) ^ 2) := by
    intro z
    have h0 := hsq z
    have h1 : ‖d z‖ ≠ 0 := (hdn z).ne'
    rw [mul_pow, div_pow, one_pow] at h0
    field_simp at h0 ⊢
    linarith
  have hu2t : Tendsto (fun z => (z - zf) ^ 2 / ‖d z‖ ^ 2) l (𝓝 (zr ^ 2)) := by
    simp only [hu2]
    have := (((hinv.pow 2).const_sub 1).const_mul (zr ^ 2))
    simpa using this
  have hut : Tendsto (fun z => |z - zf| / ‖d z‖) l (𝓝 zr) := by
    have h1 := (Real.continuous_sqrt.tendsto _).comp hu2t
    rw [Real.sqrt_sq hz.le] at h1
    refine h1.congr fun z => ?_
    simp only [Function.comp]
    rw [Real.sqrt_div (sq_nonneg _), Real.sqrt_sq (hdn z).le, Real.sqrt_sq_eq_abs]
  let ρ : ℝ → ℝ := fun z => 2 * ((a * (z - zf)) ^ 2 + (b * (z - zf)) ^ 2) / (w * ‖d z‖) ^ 2
  have hρ : Tendsto ρ l (𝓝 (2 * s)) := by
    have h1 := hu2t.const_mul (2 * (a ^ 2 + b ^ 2) / w ^ 2)
    have e : 2 * (a ^ 2 + b ^ 2) / w ^ 2 * zr ^ 2 = 2 * s := by rw [hs, div_pow]; ring
    rw [e] at h1
    refine h1.congr fun z => ?_
    simp only [ρ]
    have := (hdn z).ne'
    field_simp
    try ring
  have hg : Tendsto (fun z => (2 - d z) / d z) l (𝓝 (-1)) := by
    have h1 : Tendsto (fun z => (d z)⁻¹) l (𝓝 0) := by
      rw [tendsto_zero_iff_norm_tendsto_zero]
      exact hinv.congr fun z => by rw [norm_inv]
    have h2 := (h1.const_mul 2).sub_const 1
    simp only [mul_zero, zero_sub] at h2
    refine h2.congr fun z => ?_
    have : d z ≠ 0 := norm_pos_iff.mp (hdn z)
    field_simp
  have hlag : ∀ n, Continuous fun x : ℝ => laguerre n 0 x := by
    intro n; simp only [← lagPoly_eval]; exact (lagPoly n 0).continuous
  have hsum : Tendsto (fun z => ∑ n ∈ Finset.range (N + 1), (flatCn N n : ℂ) * ((2 - d z) / d z) ^ n * ((laguerre n 0 (ρ z) : ℝ) : ℂ)) l
      (𝓝 (∑ n ∈ Finset.range (N + 1), (flatCn N n : ℂ) * (-1) ^ n * ((laguerre n 0 (2 * s) : ℝ) : ℂ))) := by
    refine tendsto_finset_sum _ fun n _ => ?_
    exact ((hg.pow n).const_mul _).mul ((Complex.continuous_ofReal.tendsto _).comp (((hlag n).tendsto _).comp hρ))
  have hexp : Tendsto (fun z => Real.exp (-(ρ z) / 2)) l (𝓝 (Real.exp (-s))) := by
    have h1 := (Real.continuous_exp.tendsto _).comp ((hρ.neg).div_const 2)
    rw [show -(2 * s) / 2 = -s by ring] at h1
    exact h1
  have hlim := (hut.mul hsum.norm).mul hexp
  have hval : ‖∑ n ∈ Finset.range (N + 1), (flatCn N n : ℂ) * (-1) ^ n * ((laguerre n 0 (2 * s) : ℝ) : ℂ)‖ =
      (∑ m ∈ Finset.range (N + 1), s ^ m / m.factorial) / (N + 1) := by
    have e : (∑ n ∈ Finset.range (N + 1), (flatCn N n : ℂ) * (-1) ^ n * ((laguerre n 0 (2 * s) : ℝ) : ℂ)) =
        ((∑ n ∈ Finset.range (N + 1), flatCn N n * (-1) ^ n * laguerre n 0 (2 * s) : ℝ) : ℂ) := by push_cast; rfl
    have hs0 : 0 ≤ s := by rw [hs]; positivity
    rw [e, flat_far_sum, Complex.norm_real, Real.norm_of_nonneg]
    exact div_nonneg (Finset.sum_nonneg fun m _ => by positivity) (by positivity)
  rw [hval] at hlim
  rw [show zr / (N + 1) * (Real.exp (-s) * ∑ m ∈ Finset.range (N + 1), s ^ m / m.factorial) =
    zr * ((∑ m ∈ Finset.range (N + 1), s ^ m / m.factorial) / (N + 1)) * Real.exp (-s) by ring]
  refine hlim.congr fun z => ?_
  have he := exp_norm' w ((a * (z - zf)) ^ 2 + (b * (z - zf)) ^ 2) (1 / zr) zf dir z hw
  unfold flatEval
  simp only [flat_fold, gouy]
  rw [norm_div, norm_mul]
  push_cast at he ⊢
  rw [he]
  simp only [ρ, d]
  ring_nf

end Fbpic.LaserProf
