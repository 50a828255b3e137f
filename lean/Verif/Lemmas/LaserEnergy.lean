import Verif.Lemmas.LaserParaxial
import Mathlib.Analysis.SpecialFunctions.PolarCoord
import Mathlib.Analysis.SpecialFunctions.Gamma.Basic
import Mathlib.Analysis.SpecialFunctions.Integrals.Basic

/-! # Integrals of the squared transverse profiles -/

namespace Fbpic.LaserProf

open Complex (I)
open Spec Polynomial MeasureTheory Set

theorem lam_integral (P : ℝ[X]) :
    IntegrableOn (fun x : ℝ => Real.exp (-x) * P.eval x) (Ioi 0) ∧ ∫ x in Ioi (0 : ℝ), Real.exp (-x) * P.eval x = lam P := by
  induction P using Polynomial.induction_on' with
  | add p q hp hq =>
    have e : (fun x : ℝ => Real.exp (-x) * (p + q).eval x) = fun x => Real.exp (-x) * p.eval x + Real.exp (-x) * q.eval x := by
      funext x; rw [eval_add]; ring
    rw [e]
    refine ⟨hp.1.add hq.1, ?_⟩
    rw [integral_add hp.1 hq.1, hp.2, hq.2, lam_add]
  | monomial n a =>
    have e : (fun x : ℝ => Real.exp (-x) * (monomial n a).eval x) = fun x : ℝ => (Real.exp (-x) * x ^ ((n : ℝ) + 1 - 1)) * a := by
      funext x
      rw [eval_monomial, add_sub_cancel_right, Real.rpow_natCast]; ring
    rw [e]
    have hn : (0 : ℝ) < (n : ℝ) + 1 := by positivity
    refine ⟨(Real.GammaIntegral_convergent hn).mul_const a, ?_⟩
    rw [integral_mul_const, ← Real.Gamma_eq_integral hn, Real.Gamma_nat_eq_factorial, lam_monomial]
    ring

theorem radial_integral (P : ℝ[X]) (w : ℝ) (hw : 0 < w) :
    ∫ r in Ioi (0 : ℝ), r * (Real.exp (-(2 * r ^ 2 / w ^ 2)) * P.eval (2 * r ^ 2 / w ^ 2)) = w ^ 2 / 4 * lam P := by
  have h1 := integral_comp_rpow_Ioi_of_pos (g := fun s => Real.exp (-(2 / w ^ 2 * s)) * P.eval (2 / w ^ 2 * s)) (p := 2) (by norm_num)
  have h2 := integral_comp_mul_left_Ioi (fun s => Real.exp (-s) * P.eval s) 0 (b := 2 / w ^ 2) (by positivity)
  rw [mul_zero, (lam_integral P).2] at h2
  simp only [h2, smul_eq_mul] at h1
  have e : ∀ x ∈ Ioi (0 : ℝ), x * (Real.exp (-(2 * x ^ 2 / w ^ 2)) * P.eval (2 * x ^ 2 / w ^ 2)) =
      (1 / 2) * (2 * x ^ ((2 : ℝ) - 1) * (Real.exp (-(2 / w ^ 2 * x ^ (2 : ℝ))) * P.eval (2 / w ^ 2 * x ^ (2 : ℝ)))) := by
    intro x _
    rw [show (2 : ℝ) - 1 = 1 by norm_num, Real.rpow_one, Real.rpow_two, show 2 / w ^ 2 * x ^ 2 = 2 * x ^ 2 / w ^ 2 by ring]
    ring
  rw [setIntegral_congr_fun measurableSet_Ioi e, integral_const_mul, h1]
  field_simp
  ring

/-- The integral over the plane of a function that is, in polar coordinates, an angular factor times `exp(-ρ) P(ρ)`, `ρ = 2 r²/w²`. -/
theorem plane_polar (u : ℝ → ℝ → ℂ) (A : ℝ → ℝ) (P : ℝ[X]) (w : ℝ) (hw : 0 < w)
    (h : ∀ r t, 0 < r → -Real.pi < t → t < Real.pi → ‖u (r * Real.cos t) (r * Real.sin t)‖ ^ 2 =
      A t * (Real.exp (-(2 * r ^ 2 / w ^ 2)) * P.eval (2 * r ^ 2 / w ^ 2))) :
    planeIntegral u = (∫ t in Ioo (-Real.pi) Real.pi, A t) * (w ^ 2 / 4 * lam P) := by
  unfold planeIntegral
  rw [← integral_comp_polarCoord_symm]
  have ht : polarCoord.target = Ioi (0 : ℝ) ×ˢ Ioo (-Real.pi) Real.pi := rfl
  rw [ht]
  have e : ∀ p ∈ Ioi (0 : ℝ) ×ˢ Ioo (-Real.pi) Real.pi, p.1 • ‖u (polarCoord.symm p).1 (polarCoord.symm p).2‖ ^ 2 =
      (p.1 * (Real.exp (-(2 * p.1 ^ 2 / w ^ 2)) * P.eval (2 * p.1 ^ 2 / w ^ 2))) * A p.2 := by
    rintro ⟨r, t⟩ ⟨hr, ht1, ht2⟩
    have := h r t hr ht1 ht2
    simp only [polarCoord_symm_apply, smul_eq_mul] at *
    rw [this]; ring
  rw [setIntegral_congr_fun (measurableSet_Ioi.prod measurableSet_Ioo) e, Measure.volume_eq_prod]
  have hp := setIntegral_prod_mul (μ := volume) (ν := volume)
    (fun r : ℝ => r * (Real.exp (-(2 * r ^ 2 / w ^ 2)) * P.eval (2 * r ^ 2 / w ^ 2))) A (Ioi (0 : ℝ)) (Ioo (-Real.pi) Real.pi)
  rw [radial_integral P w hw] at hp
  refine hp.trans (by ring)

theorem arg_polar (r t : ℝ) (hr : 0 < r) (h1 : -Real.pi < t) (h2 : t < Real.pi) :
    Complex.arg (((r * Real.cos t : ℝ) : ℂ) + I * ((r * Real.sin t : ℝ) : ℂ)) = t := by
  refine Eq.trans ?_ (Complex.arg_mul_cos_add_sin_mul_I hr (θ := t) ⟨h1, h2.le⟩)
  congr 1; push_cast; ring

theorem exp_norm (w0 s a invZr zf dir z : ℝ) (hw : 0 < w0) :
    ‖Complex.exp (-(s : ℂ) / (w0 ^ 2 * diffract invZr zf dir z) - I * a * Complex.arg (diffract invZr zf dir z))‖ ^ 2 =
      Real.exp (-(2 * s / (w0 * ‖diffract invZr zf dir z‖) ^ 2)) := by
  have hd := diffract_ne invZr zf dir z
  have hr := diffract_re invZr zf dir z
  set d := diffract invZr zf dir z
  rw [Complex.norm_exp, ← Real.exp_nat_mul]
  congr 1
  have e : (-(s : ℂ) / (w0 ^ 2 * d) - I * a * Complex.arg d) = ((-s / w0 ^ 2 : ℝ) : ℂ) * d⁻¹ - ((a * Complex.arg d : ℝ) : ℂ) * I := by
    push_cast
    have : (w0 : ℂ) ≠ 0 := by exact_mod_cast hw.ne'
    field_simp
  rw [e, Complex.sub_re, Complex.re_ofReal_mul, Complex.re_ofReal_mul, Complex.inv_re, hr, Complex.I_re, Complex.normSq_eq_norm_sq]
  have : ‖d‖ ≠ 0 := norm_ne_zero_iff.mpr hd
  push_cast
  field_simp
  ring

theorem lg_norm (p m : ℕ) (amp theta0 w0 invZr zf dir r t z : ℝ) (hw : 0 < w0) (hr : 0 < r) (h1 : -Real.pi < t) (h2 : t < Real.pi) :
    ‖lgEval p m amp theta0 w0 invZr zf dir (r * Real.cos t) (r * Real.sin t) z‖ ^ 2 =
      amp ^ 2 / ‖diffract invZr zf dir z‖ ^ 2 * Real.cos (m * (t - theta0)) ^ 2 *
        (Real.exp (-(2 * r ^ 2 / (w0 * ‖diffract invZr zf dir z‖) ^ 2)) *
          (X ^ m * (lagPoly p m * lagPoly p m)).eval (2 * r ^ 2 / (w0 * ‖diffract invZr zf dir z‖) ^ 2)) := by
  unfold lgEval
  simp only
  rw [arg_polar r t hr h1 h2]
  have hs : (r * Real.cos t) ^ 2 + (r * Real.sin t) ^ 2 = r ^ 2 := by
    linear_combination r ^ 2 * Real.cos_sq_add_sin_sq t
  have hs' : ((r * Real.cos t : ℝ) : ℂ) ^ 2 + ((r * Real.sin t : ℝ) : ℂ) ^ 2 = ((r ^ 2 : ℝ) : ℂ) := by exact_mod_cast hs
  rw [hs, hs', norm_mul, norm_mul, norm_mul, norm_mul, norm_div, mul_pow, mul_pow, mul_pow, mul_pow, div_pow]
  have he := exp_norm w0 (r ^ 2) (2 * p + m) invZr zf dir z hw
  push_cast at he ⊢
  rw [he]
  simp only [norm_pow, ← Complex.ofReal_pow, Complex.norm_real, Real.norm_eq_abs, sq_abs, ← Complex.ofReal_natCast, ← Complex.ofReal_sub, ← Complex.ofReal_mul,
    ← Complex.ofReal_cos]
  rw [← pow_mul, mul_comm m 2, pow_mul, sq_abs, Real.sq_sqrt (by positivity)]
  simp only [eval_mul, eval_pow, eval_X, lagPoly_eval]
  ring

theorem donut_norm (p : ℕ) (m : ℤ) (amp w0 invZr zf dir x y z : ℝ) :
    ‖donutEval p m amp w0 invZr zf dir x y z‖ =
      ‖Complex.exp (-((x ^ 2 + y ^ 2 : ℝ) : ℂ) / (w0 ^ 2 * diffract invZr zf dir z) -
        I * ((2 * p + m.natAbs : ℝ) : ℂ) * Complex.arg (diffract invZr zf dir z))‖ / ‖diffract invZr zf dir z‖ *
      Real.sqrt (2 * (x ^ 2 + y ^ 2) / (w0 * ‖diffract invZr zf dir z‖) ^ 2) ^ m.natAbs *
      |laguerre p m.natAbs (2 * (x ^ 2 + y ^ 2) / (w0 * ‖diffract invZr zf dir z‖) ^ 2)| * |amp| := by
  unfold donutEval
  simp only
  have e : (-I * m * Complex.arg ((x : ℂ) + I * y) - ((x : ℂ) ^ 2 + y ^ 2) / (w0 ^ 2 * diffract invZr zf dir z) -
      I * (2 * p + (m.natAbs : ℂ)) * Complex.arg (diffract invZr zf dir z)) =
      ((-(m * Complex.arg ((x : ℂ) + I * y)) : ℝ) : ℂ) * I +
      (-((x ^ 2 + y ^ 2 : ℝ) : ℂ) / (w0 ^ 2 * diffract invZr zf dir z) -
        I * ((2 * p + m.natAbs : ℝ) : ℂ) * Complex.arg (diffract invZr zf dir z)) := by push_cast; ring
  rw [e, Complex.exp_add, norm_mul, norm_mul, norm_mul, norm_div, norm_mul, Complex.norm_exp_ofReal_mul_I, one_mul]
  simp only [Complex.norm_real, Real.norm_eq_abs, abs_pow, abs_of_nonneg (Real.sqrt_nonneg _)]

theorem donut_plane (p : ℕ) (m : ℤ) (amp w0 invZr zf dir z : ℝ) (hw : 0 < w0) :
    planeIntegral (fun x y => donutEval p m amp w0 invZr zf dir x y z) =
      1 / 2 * Real.pi * w0 ^ 2 * (amp ^ 2 * ((p + m.natAbs).factorial / p.factorial)) := by
  have hd : 0 < ‖diffract invZr zf dir z‖ := norm_pos_iff.mpr (diffract_ne _ _ _ _)
  rw [plane_polar _ (fun _ => amp ^ 2 / ‖diffract invZr zf dir z‖ ^ 2) (X ^ m.natAbs * (lagPoly p m.natAbs * lagPoly p m.natAbs))
    (w0 * ‖diffract invZr zf dir z‖) (by positivity)]
  · rw [lam_orthogonal, if_pos rfl, setIntegral_const, measureReal_def, Real.volume_Ioo, smul_eq_mul,
      ENNReal.toReal_ofReal (by linarith [Real.pi_pos])]
    field_simp
    ring
  · intro r t hr h1 h2
    have hs : (r * Real.cos t) ^ 2 + (r * Real.sin t) ^ 2 = r ^ 2 := by
      linear_combination r ^ 2 * Real.cos_sq_add_sin_sq t
    rw [donut_norm, hs, mul_pow, mul_pow, mul_pow, div_pow, exp_norm _ _ _ _ _ _ _ hw, ← pow_mul, mul_comm m.natAbs 2, pow_mul,
      Real.sq_sqrt (by positivity), sq_abs, sq_abs]
    simp only [eval_mul, eval_pow, eval_X, lagPoly_eval]
    ring

theorem cos_sq_integral (m : ℕ) (hm : m ≠ 0) (theta0 : ℝ) :
    ∫ t in Ioo (-Real.pi) Real.pi, Real.cos (m * (t - theta0)) ^ 2 = Real.pi := by
  rw [← integral_Ioc_eq_integral_Ioo, ← intervalIntegral.integral_of_le (by linarith [Real.pi_pos])]
  have hm' : (m : ℝ) ≠ 0 := by exact_mod_cast hm
  have h := intervalIntegral.integral_comp_mul_sub (a := -Real.pi) (b := Real.pi) (fun s => Real.cos s ^ 2) hm' (m * theta0)
  simp only [mul_sub]
  rw [h, integral_cos_sq]
  have hs : Real.cos (m * Real.pi - m * theta0) * Real.sin (m * Real.pi - m * theta0) =
      Real.cos (m * -Real.pi - m * theta0) * Real.sin (m * -Real.pi - m * theta0) := by
    have e : m * Real.pi - m * theta0 = (m * -Real.pi - m * theta0) + m * (2 * Real.pi) := by ring
    rw [e, Real.cos_add_nat_mul_two_pi, Real.sin_add_nat_mul_two_pi]
  rw [hs, smul_eq_mul]
  field_simp
  ring

theorem lg_plane (p m : ℕ) (amp theta0 w0 invZr zf dir z : ℝ) (hw : 0 < w0) :
    planeIntegral (fun x y => lgEval p m amp theta0 w0 invZr zf dir x y z) =
      1 / 2 * Real.pi * w0 ^ 2 * (amp ^ 2 * ((p + m).factorial / p.factorial)) * (if m = 0 then 1 else 1 / 2) := by
  have hd : 0 < ‖diffract invZr zf dir z‖ := norm_pos_iff.mpr (diffract_ne _ _ _ _)
  rw [plane_polar _ (fun t => amp ^ 2 / ‖diffract invZr zf dir z‖ ^ 2 * Real.cos (m * (t - theta0)) ^ 2)
    (X ^ m * (lagPoly p m * lagPoly p m)) (w0 * ‖diffract invZr zf dir z‖) (by positivity)
    fun r t hr h1 h2 => lg_norm p m amp theta0 w0 invZr zf dir r t z hw hr h1 h2]
  rw [lam_orthogonal, if_pos rfl, integral_const_mul]
  by_cases hm : m = 0
  · subst hm
    rw [if_pos rfl]
    simp only [Nat.cast_zero, zero_mul, Real.cos_zero, one_pow]
    rw [setIntegral_const, measureReal_def, Real.volume_Ioo, smul_eq_mul, ENNReal.toReal_ofReal (by linarith [Real.pi_pos])]
    field_simp
    ring
  · rw [if_neg hm, cos_sq_integral m hm]
    field_simp
    ring

theorem lam_comb (a : ℕ → ℝ) (s : Finset ℕ) :
    lam ((∑ n ∈ s, C (a n) * lagPoly n 0) * ∑ n ∈ s, C (a n) * lagPoly n 0) = ∑ n ∈ s, a n ^ 2 := by
  rw [Finset.sum_mul_sum, lam_sum]
  refine Finset.sum_congr rfl fun i hi => ?_
  rw [lam_sum, Finset.sum_eq_single i]
  · rw [show C (a i) * lagPoly i 0 * (C (a i) * lagPoly i 0) = C (a i * a i) * (X ^ 0 * (lagPoly i 0 * lagPoly i 0)) by
      rw [C_mul]; ring, lam_smul, lam_orthogonal, if_pos rfl, add_zero, div_self (by positivity)]
    ring
  · intro j _ hj
    rw [show C (a i) * lagPoly i 0 * (C (a j) * lagPoly j 0) = C (a i * a j) * (X ^ 0 * (lagPoly i 0 * lagPoly j 0)) by
      rw [C_mul]; ring, lam_smul, lam_orthogonal, if_neg hj, mul_zero]
  · intro h; exact absurd hi h

theorem flat_plane (N : ℕ) (cn : ℕ → ℝ) (w0 invZr zf dir z : ℝ) (hw : 0 < w0) :
    planeIntegral (fun x y => flatEval N cn w0 invZr zf dir x y z) =
      1 / 2 * Real.pi * w0 ^ 2 * ∑ n ∈ Finset.range (N + 1), cn n ^ 2 := by
  have hd : 0 < ‖diffract invZr zf dir z‖ := norm_pos_iff.mpr (diffract_ne _ _ _ _)
  set psi := Complex.arg (diffract invZr zf dir z) with hpsi
  let Pc : ℝ[X] := ∑ n ∈ Finset.range (N + 1), C (cn n * Real.cos (2 * n * psi)) * lagPoly n 0
  let Ps : ℝ[X] := ∑ n ∈ Finset.range (N + 1), C (cn n * Real.sin (2 * n * psi)) * lagPoly n 0
  have hP : lam (Pc * Pc + Ps * Ps) = ∑ n ∈ Finset.range (N + 1), cn n ^ 2 := by
    rw [lam_add, lam_comb, lam_comb, ← Finset.sum_add_distrib]
    refine Finset.sum_congr rfl fun n _ => ?_
    linear_combination cn n ^ 2 * Real.cos_sq_add_sin_sq (2 * n * psi)
  have hS : ∀ r2 : ℝ, ‖∑ i ∈ Finset.range (N + 1), (cn i : ℂ) * Complex.exp (-(2 * I * i) * psi) * (laguerre i 0 r2 : ℝ)‖ ^ 2 =
      (Pc * Pc + Ps * Ps).eval r2 := by
    intro r2
    have e : (∑ i ∈ Finset.range (N + 1), (cn i : ℂ) * Complex.exp (-(2 * I * i) * psi) * (laguerre i 0 r2 : ℝ)) =
        ((Pc.eval r2 : ℝ) : ℂ) - ((Ps.eval r2 : ℝ) : ℂ) * I := by
      simp only [Pc, Ps, eval_finset_sum, eval_mul, eval_C, lagPoly_eval]
      push_cast
      rw [Finset.sum_mul, ← Finset.sum_sub_distrib]
      refine Finset.sum_congr rfl fun i _ => ?_
      rw [show -(2 * I * (i : ℂ)) * psi = (-(2 * i * psi) : ℂ) * I by ring, Complex.exp_mul_I, Complex.cos_neg, Complex.sin_neg]
      ring
    rw [e, ← Complex.normSq_eq_norm_sq, Complex.normSq_apply]
    simp
  rw [plane_polar _ (fun _ => 1 / ‖diffract invZr zf dir z‖ ^ 2) (Pc * Pc + Ps * Ps) (w0 * ‖diffract invZr zf dir z‖) (by positivity)]
  · rw [hP, setIntegral_const, measureReal_def, Real.volume_Ioo, smul_eq_mul, ENNReal.toReal_ofReal (by linarith [Real.pi_pos])]
    field_simp
    ring
  · intro r t hr h1 h2
    have hs : (r * Real.cos t) ^ 2 + (r * Real.sin t) ^ 2 = r ^ 2 := by
      linear_combination r ^ 2 * Real.cos_sq_add_sin_sq t
    have hs' : ((r * Real.cos t : ℝ) : ℂ) ^ 2 + ((r * Real.sin t : ℝ) : ℂ) ^ 2 = ((r ^ 2 : ℝ) : ℂ) := by exact_mod_cast hs
    unfold flatEval
    simp only [flat_fold, hs, hs']
    have he := exp_norm w0 (r ^ 2) 0 invZr zf dir z hw
    rw [Complex.ofReal_zero, mul_zero, zero_mul, sub_zero] at he
    rw [norm_div, norm_mul, div_pow, mul_pow, he, ← hpsi, hS]
    ring

end Fbpic.LaserProf
