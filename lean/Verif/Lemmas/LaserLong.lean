import Verif.Spec.LaserProfile
import Verif.Lemmas.Tactics
import Mathlib.Analysis.SpecialFunctions.Gaussian.FourierTransform

/-! # The longitudinal laser profile -/

namespace Fbpic.LaserProf

open Complex (I)
open Spec MeasureTheory

/-- The stretch factor of the chirped pulse. -/
noncomputable def stretchOf (b : ℝ) : ℂ := 1 - I * b

theorem stretchOf_re (b : ℝ) : (stretchOf b).re = 1 := by simp [stretchOf]

theorem stretchOf_ne (b : ℝ) : stretchOf b ≠ 0 := by
  intro h
  have := stretchOf_re b
  rw [h] at this; simp at this

theorem stretchOf_normSq (b : ℝ) : Complex.normSq (stretchOf b) = 1 + b ^ 2 := by
  simp [stretchOf, Complex.normSq_apply]; ring

theorem gaussLongEval_eq (c k0 z0 cep phi2 invCtau2 dir z t : ℝ) :
    gaussLongEval c k0 z0 cep phi2 invCtau2 dir z t =
      Complex.exp (((k0 * (dir * (z - z0) - c * t) - cep : ℝ) : ℂ) * I) *
      (Complex.exp (-((invCtau2 * (dir * (z - z0) - c * t) ^ 2 : ℝ) : ℂ) / stretchOf (2 * phi2 * c ^ 2 * invCtau2)) /
        stretchOf (2 * phi2 * c ^ 2 * invCtau2) ^ (1 / 2 : ℂ)) := by
  unfold gaussLongEval
  have e : (1 - 2 * I * phi2 * c ^ 2 * invCtau2 : ℂ) = stretchOf (2 * phi2 * c ^ 2 * invCtau2) := by
    unfold stretchOf; push_cast; ring
  simp only [e]
  rw [mul_div_assoc', ← Complex.exp_add]
  congr 2
  push_cast
  ring

theorem cpow_half_sq (s : ℂ) : (s ^ (1 / 2 : ℂ)) ^ 2 = s := by
  rw [one_div]
  exact Complex.cpow_ofNat_inv_pow s 2

/-- The squared modulus. -/
theorem gaussLong_norm (c k0 z0 cep phi2 invCtau2 dir z t : ℝ) :
    ‖gaussLongEval c k0 z0 cep phi2 invCtau2 dir z t‖ ^ 2 =
      Real.exp (-(2 * invCtau2 / (1 + (2 * phi2 * c ^ 2 * invCtau2) ^ 2)) * (dir * (z - z0) - c * t) ^ 2) /
        Real.sqrt (1 + (2 * phi2 * c ^ 2 * invCtau2) ^ 2) := by
  rw [gaussLongEval_eq, norm_mul, Complex.norm_exp_ofReal_mul_I, one_mul, norm_div, div_pow, ← norm_pow (_ ^ (1 / 2 : ℂ)), cpow_half_sq]
  generalize 2 * phi2 * c ^ 2 * invCtau2 = b
  have hn : ‖stretchOf b‖ = Real.sqrt (1 + b ^ 2) := by
    rw [← stretchOf_normSq, Complex.normSq_eq_norm_sq, Real.sqrt_sq (norm_nonneg _)]
  rw [hn, Complex.norm_exp, ← Real.exp_nat_mul]
  congr 2
  rw [div_eq_mul_inv, ← Complex.ofReal_neg, Complex.re_ofReal_mul, Complex.inv_re, stretchOf_re, stretchOf_normSq]
  push_cast
  ring

theorem gaussLong_le_one (c k0 z0 cep phi2 invCtau2 dir z t : ℝ) (h : 0 ≤ invCtau2) :
    ‖gaussLongEval c k0 z0 cep phi2 invCtau2 dir z t‖ ^ 2 ≤ 1 := by
  rw [gaussLong_norm]
  have h1 : 1 ≤ Real.sqrt (1 + (2 * phi2 * c ^ 2 * invCtau2) ^ 2) := by
    rw [Real.one_le_sqrt]; nlinarith [sq_nonneg (2 * phi2 * c ^ 2 * invCtau2)]
  have h2 : Real.exp (-(2 * invCtau2 / (1 + (2 * phi2 * c ^ 2 * invCtau2) ^ 2)) * (dir * (z - z0) - c * t) ^ 2) ≤ 1 := by
    rw [Real.exp_le_one_iff, neg_mul, neg_nonpos]
    positivity
  rw [div_le_one (by linarith)]
  linarith

theorem gaussLong_axis (c k0 z0 cep phi2 invCtau2 dir t : ℝ) (h : 0 < invCtau2) (hd : dir ^ 2 = 1) :
    axisIntegral (fun z => gaussLongEval c k0 z0 cep phi2 invCtau2 dir z t) = Real.sqrt (1 / 2 * Real.pi * 1 / invCtau2) := by
  unfold axisIntegral
  simp only [gaussLong_norm]
  set b := 2 * phi2 * c ^ 2 * invCtau2
  have e : ∀ z : ℝ, (dir * (z - z0) - c * t) ^ 2 = (z - (z0 + dir * (c * t))) ^ 2 := by
    intro z
    linear_combination ((z - z0) ^ 2 - (c * t) ^ 2) * hd
  simp only [e]
  rw [integral_div, integral_sub_right_eq_self (fun u => Real.exp (-(2 * invCtau2 / (1 + b ^ 2)) * u ^ 2)), integral_gaussian,
    ← Real.sqrt_div' _ (by positivity)]
  congr 1
  field_simp

theorem cpow_scale (a : ℝ) (ha : 0 < a) (s : ℂ) (hs : 0 < s.re) :
    ((Real.pi : ℂ) / ((a : ℂ) * s)) ^ (1 / 2 : ℂ) = ((Real.sqrt (Real.pi / a) : ℝ) : ℂ) / s ^ (1 / 2 : ℂ) := by
  have hs0 : s ≠ 0 := by intro h; rw [h] at hs; simp at hs
  have harg : s.arg ≠ Real.pi := by
    have := Complex.abs_arg_lt_pi_div_two_iff.mpr (Or.inl hs)
    intro h
    rw [h, abs_of_pos Real.pi_pos] at this
    linarith [Real.pi_pos]
  have hpa : 0 < Real.pi / a := by positivity
  have e : (Real.pi : ℂ) / ((a : ℂ) * s) = ((Real.pi / a : ℝ) : ℂ) * s⁻¹ := by
    push_cast
    have : (a : ℂ) ≠ 0 := by exact_mod_cast ha.ne'
    field_simp
  rw [e, Complex.cpow_def_of_ne_zero (mul_ne_zero (by exact_mod_cast hpa.ne') (inv_ne_zero hs0)),
    Complex.log_ofReal_mul hpa (inv_ne_zero hs0), Complex.log_inv _ harg, Complex.cpow_def_of_ne_zero hs0, add_mul, Complex.exp_add,
    neg_mul, Complex.exp_neg, ← div_eq_mul_inv]
  congr 1
  rw [Real.sqrt_eq_rpow, Real.rpow_def_of_pos hpa]
  push_cast
  ring_nf

/-- The pulse is a superposition of waves of the frequencies `c*k0 + δ`, of Gaussian amplitude and spectral phase `phi2*δ²/2`. -/
theorem gaussLong_spectrum (c k0 z0 cep phi2 tau dir z t : ℝ) (hc : 0 < c) (ht : 0 < tau) :
    gaussLongEval c k0 z0 cep phi2 (1 / (c * tau) ^ 2) dir z t =
      ∫ δ : ℝ, ((tau / (2 * Real.sqrt Real.pi) * Real.exp (-(δ * tau / 2) ^ 2) : ℝ) : ℂ) *
        Complex.exp (I * ((phi2 * δ ^ 2 / 2 - cep : ℝ) : ℂ)) *
        Complex.exp (I * (((c * k0 + δ) / c * (dir * (z - z0) - c * t) : ℝ) : ℂ)) := by
  rw [gaussLongEval_eq]
  set ζ := dir * (z - z0) - c * t
  have hb : (2 * phi2 * c ^ 2 * (1 / (c * tau) ^ 2)) = 2 * phi2 / tau ^ 2 := by field_simp
  rw [hb]
  set b := 2 * phi2 / tau ^ 2 with hbdef
  set B : ℂ := -((tau ^ 2 / 4 : ℝ) : ℂ) * stretchOf b with hB
  have hBre : B.re < 0 := by
    rw [hB, ← Complex.ofReal_neg, Complex.re_ofReal_mul, stretchOf_re]
    have : 0 < tau ^ 2 := by positivity
    linarith
  have key := integral_cexp_quadratic hBre (I * (ζ / c : ℝ)) (((k0 * ζ - cep : ℝ) : ℂ) * I)
  have e : ∀ δ : ℝ, ((tau / (2 * Real.sqrt Real.pi) * Real.exp (-(δ * tau / 2) ^ 2) : ℝ) : ℂ) *
        Complex.exp (I * ((phi2 * δ ^ 2 / 2 - cep : ℝ) : ℂ)) *
        Complex.exp (I * (((c * k0 + δ) / c * ζ : ℝ) : ℂ)) =
      ((tau / (2 * Real.sqrt Real.pi) : ℝ) : ℂ) * Complex.exp (B * δ ^ 2 + I * (ζ / c : ℝ) * δ + ((k0 * ζ - cep : ℝ) : ℂ) * I) := by
    intro δ
    have h1 : B * δ ^ 2 + I * (ζ / c : ℝ) * δ + ((k0 * ζ - cep : ℝ) : ℂ) * I =
        ((-(δ * tau / 2) ^ 2 : ℝ) : ℂ) + I * ((phi2 * δ ^ 2 / 2 - cep : ℝ) : ℂ) + I * (((c * k0 + δ) / c * ζ : ℝ) : ℂ) := by
      rw [hB, hbdef]
      unfold stretchOf
      have hc' : (c : ℂ) ≠ 0 := by exact_mod_cast hc.ne'
      have ht' : (tau : ℂ) ≠ 0 := by exact_mod_cast ht.ne'
      push_cast
      field_simp
      ring
    rw [h1, Complex.exp_add, Complex.exp_add, Complex.ofReal_mul, Complex.ofReal_exp]
    ring
  simp only [e]
  rw [integral_const_mul, key]
  have hsc := cpow_scale (tau ^ 2 / 4) (by positivity) (stretchOf b) (by rw [stretchOf_re]; norm_num)
  have hneg : -B = ((tau ^ 2 / 4 : ℝ) : ℂ) * stretchOf b := by rw [hB]; ring
  rw [hneg, hsc, Complex.exp_sub]
  have hsq : tau / (2 * Real.sqrt Real.pi) * Real.sqrt (Real.pi / (tau ^ 2 / 4)) = 1 := by
    rw [Real.sqrt_div Real.pi_pos.le, show tau ^ 2 / 4 = (tau / 2) ^ 2 by ring, Real.sqrt_sq (by positivity)]
    have := Real.sqrt_pos.mpr Real.pi_pos
    field_simp
  have hsq' : ((tau / (2 * Real.sqrt Real.pi) : ℝ) : ℂ) * ((Real.sqrt (Real.pi / (tau ^ 2 / 4)) : ℝ) : ℂ) = 1 := by
    rw [← Complex.ofReal_mul, hsq, Complex.ofReal_one]
  have hexp : Complex.exp (-((1 / (c * tau) ^ 2 * ζ ^ 2 : ℝ) : ℂ) / stretchOf b) =
      (Complex.exp ((I * (ζ / c : ℝ)) ^ 2 / (4 * B)))⁻¹ := by
    rw [← Complex.exp_neg]
    congr 1
    rw [hB]
    have hs0 := stretchOf_ne b
    have hc' : (c : ℂ) ≠ 0 := by exact_mod_cast hc.ne'
    have ht' : (tau : ℂ) ≠ 0 := by exact_mod_cast ht.ne'
    rw [mul_pow I, Complex.I_sq]
    push_cast
    field_simp
  rw [hexp]
  generalize Complex.exp _ = E1
  generalize Complex.exp _ = E2
  linear_combination (-(E1 * E2⁻¹ / stretchOf b ^ (1 / 2 : ℂ))) * hsq'

/-- A wave packet: the frequencies near `δ1` (Gaussian window of any width). -/
theorem packet_norm (phi2 α δ1 q : ℝ) (hα : 0 < α) :
    ‖∫ δ : ℝ, ((Real.exp (-α * (δ - δ1) ^ 2) : ℝ) : ℂ) * Complex.exp (I * ((phi2 * δ ^ 2 / 2 + δ * q : ℝ) : ℂ))‖ ^ 2 =
      Real.pi / Real.sqrt (α ^ 2 + phi2 ^ 2 / 4) * Real.exp (-(α / (2 * (α ^ 2 + phi2 ^ 2 / 4))) * (q + phi2 * δ1) ^ 2) := by
  set B : ℂ := -(α : ℂ) + I * (phi2 / 2 : ℝ) with hB
  have hBre : B.re = -α := by simp [hB]
  have hBn : Complex.normSq B = α ^ 2 + phi2 ^ 2 / 4 := by
    rw [Complex.normSq_apply]; simp [hB]; ring
  have hB0 : B ≠ 0 := by intro h; rw [h] at hBre; simp at hBre; linarith
  have hBn' : ‖B‖ = Real.sqrt (α ^ 2 + phi2 ^ 2 / 4) := by
    rw [← hBn, Complex.normSq_eq_norm_sq, Real.sqrt_sq (norm_nonneg _)]
  have key := integral_cexp_quadratic (b := B) (by rw [hBre]; linarith) (I * (q + phi2 * δ1 : ℝ)) (I * (phi2 * δ1 ^ 2 / 2 + δ1 * q : ℝ))
  have e : ∀ δ : ℝ, ((Real.exp (-α * (δ - δ1) ^ 2) : ℝ) : ℂ) * Complex.exp (I * ((phi2 * δ ^ 2 / 2 + δ * q : ℝ) : ℂ)) =
      Complex.exp (B * ((δ - δ1 : ℝ) : ℂ) ^ 2 + I * (q + phi2 * δ1 : ℝ) * ((δ - δ1 : ℝ) : ℂ) + I * (phi2 * δ1 ^ 2 / 2 + δ1 * q : ℝ)) := by
    intro δ
    rw [Complex.ofReal_exp, ← Complex.exp_add]
    congr 1
    rw [hB]; push_cast; ring
  simp only [e]
  rw [integral_sub_right_eq_self (fun u : ℝ => Complex.exp (B * (u : ℂ) ^ 2 + I * (q + phi2 * δ1 : ℝ) * (u : ℂ) +
    I * (phi2 * δ1 ^ 2 / 2 + δ1 * q : ℝ))), key, norm_mul, mul_pow, ← norm_pow, cpow_half_sq, norm_div, norm_neg, hBn', Complex.norm_real,
    Real.norm_of_nonneg Real.pi_pos.le]
  congr 1
  rw [Complex.norm_exp, ← Real.exp_nat_mul]
  congr 1
  have h1 : (I * ((q + phi2 * δ1 : ℝ) : ℂ)) ^ 2 / (4 * B) = ((-(q + phi2 * δ1) ^ 2 / 4 : ℝ) : ℂ) * B⁻¹ := by
    rw [mul_pow, Complex.I_sq]; push_cast; field_simp
  rw [h1, Complex.sub_re, Complex.re_ofReal_mul, Complex.inv_re, hBre, hBn, mul_comm I, Complex.re_ofReal_mul, Complex.I_re]
  push_cast
  field_simp
  ring

end Fbpic.LaserProf
