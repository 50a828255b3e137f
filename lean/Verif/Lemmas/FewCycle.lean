import Verif.Spec.LaserProfile
import Verif.Lemmas.Tactics
import Mathlib.Analysis.SpecialFunctions.Pow.Deriv
import Mathlib.Analysis.SpecialFunctions.Pow.NNReal
import Mathlib.Analysis.SpecialFunctions.Complex.LogDeriv
import Mathlib.Analysis.Convex.SpecificFunctions.Basic
import Mathlib.Analysis.Complex.RealDeriv
import Mathlib.Analysis.SpecialFunctions.Pow.Continuity
import Mathlib.Analysis.Complex.ExponentialBounds
import Mathlib.Topology.Order.IntermediateValue

/-! # The few-cycle pulse -/

namespace Fbpic.LaserProf

open Complex (I)
open Spec

/-- `1/q(z)`. -/
noncomputable def fcV (zr zf dir z : ℝ) : ℂ := 1 / (dir * (z - zf) + I * zr)

/-- The argument of the power. -/
noncomputable def fcA (K v : ℂ) (x y q : ℂ) : ℂ := 1 + K * (q + 1 / 2 * (x ^ 2 + y ^ 2) * v)

theorem fewCycleEval_eq (c k0 zr z0 zf cep s dir x y z t : ℝ) : fewCycleEval c k0 zr z0 zf cep s dir x y z t =
    Complex.exp (I * cep) * I * zr * fcV zr zf dir z *
      fcA (I * k0 / s) (fcV zr zf dir z) x y ((dir * (z - z0) - c * t : ℝ) : ℂ) ^ (-s - 1 : ℂ) := by
  unfold fewCycleEval fcV fcA; push_cast; rfl

theorem fcq_ne (zr zf dir z : ℝ) (h : 0 < zr) : (dir * (z - zf) + I * zr : ℂ) ≠ 0 := by
  intro h0
  have := congrArg Complex.im h0
  simp at this
  exact h.ne' this

theorem fcV_im (zr zf dir z : ℝ) : (fcV zr zf dir z).im = -zr / Complex.normSq (dir * (z - zf) + I * zr) := by
  unfold fcV
  rw [one_div, Complex.inv_im]
  simp

theorem fcA_re (k0 s zr zf dir x y z q : ℝ) (hk : 0 ≤ k0) (hs : 0 < s) (h : 0 < zr) :
    1 ≤ (fcA (I * k0 / s) (fcV zr zf dir z) x y q).re := by
  have e : fcA (I * k0 / s) (fcV zr zf dir z) x y q =
      1 + ((k0 / s * q : ℝ) : ℂ) * I + ((k0 / s * (1 / 2 * (x ^ 2 + y ^ 2)) : ℝ) : ℂ) * (I * fcV zr zf dir z) := by
    unfold fcA
    have : (s : ℂ) ≠ 0 := by exact_mod_cast hs.ne'
    push_cast
    field_simp
    ring
  rw [e, Complex.add_re, Complex.add_re, Complex.re_ofReal_mul, Complex.re_ofReal_mul, Complex.I_re, Complex.I_mul_re, fcV_im, Complex.one_re]
  have : 0 ≤ k0 / s * (1 / 2 * (x ^ 2 + y ^ 2)) * (zr / Complex.normSq (dir * (z - zf) + I * zr)) := by
    have := Complex.normSq_nonneg ((dir : ℂ) * (z - zf) + I * zr)
    positivity
  have e2 : k0 / s * (1 / 2 * (x ^ 2 + y ^ 2)) * -(-zr / Complex.normSq (dir * (z - zf) + I * zr)) =
    k0 / s * (1 / 2 * (x ^ 2 + y ^ 2)) * (zr / Complex.normSq (dir * (z - zf) + I * zr)) := by ring
  rw [e2]
  linarith

theorem fcA_norm (k0 s zr zf dir x y z q : ℝ) (hk : 0 ≤ k0) (hs : 0 < s) (h : 0 < zr) :
    1 ≤ ‖fcA (I * k0 / s) (fcV zr zf dir z) x y q‖ :=
  (fcA_re k0 s zr zf dir x y z q hk hs h).trans ((le_abs_self _).trans (Complex.abs_re_le_norm _))

theorem cpow_norm (A : ℂ) (s : ℝ) (hA : A ≠ 0) : ‖A ^ (-s - 1 : ℂ)‖ = ‖A‖ ^ (-s - 1) := by
  rw [show (-s - 1 : ℂ) = ((-s - 1 : ℝ) : ℂ) by push_cast; ring, Complex.norm_cpow_of_ne_zero hA]
  simp only [Complex.ofReal_re, Complex.ofReal_im, mul_zero, Real.exp_zero, div_one]

theorem fewCycle_le_one (c k0 zr z0 zf cep s dir x y z t : ℝ) (hk : 0 ≤ k0) (hs : 0 < s) (h : 0 < zr) :
    ‖fewCycleEval c k0 zr z0 zf cep s dir x y z t‖ ≤ 1 := by
  have hA := fcA_norm k0 s zr zf dir x y z (dir * (z - z0) - c * t) hk hs h
  have hA0 : fcA (I * k0 / s) (fcV zr zf dir z) x y ((dir * (z - z0) - c * t : ℝ) : ℂ) ≠ 0 := by
    intro h0; rw [h0, norm_zero] at hA; linarith
  have hV : zr * ‖fcV zr zf dir z‖ ≤ 1 := by
    unfold fcV
    rw [norm_div, norm_one, mul_one_div]
    refine div_le_one_of_le₀ ?_ (norm_nonneg _)
    refine le_trans ?_ (Complex.abs_im_le_norm _)
    simp [le_abs_self]
  rw [fewCycleEval_eq, norm_mul, norm_mul, norm_mul, norm_mul, cpow_norm _ _ hA0, Complex.norm_I, Complex.norm_real,
    Real.norm_of_nonneg h.le, mul_comm I (cep : ℂ), Complex.norm_exp_ofReal_mul_I, one_mul, one_mul]
  have h2 := Real.rpow_le_one_of_one_le_of_nonpos hA (show -s - 1 ≤ 0 by linarith)
  have h3 := Real.rpow_nonneg (norm_nonneg (fcA (I * k0 / s) (fcV zr zf dir z) x y ((dir * (z - z0) - c * t : ℝ) : ℂ))) (-s - 1)
  have h4 : 0 ≤ zr * ‖fcV zr zf dir z‖ := by positivity
  nlinarith

/-- On the axis, in the focal plane, when the pulse is initially at focus. -/
theorem fewCycle_focus (c k0 zr zf cep s dir t : ℝ) (h : 0 < zr) :
    ‖fewCycleEval c k0 zr zf zf cep s dir 0 0 zf t‖ ^ 2 = (1 + (k0 * c * t / s) ^ 2) ^ (-(s + 1)) := by
  rw [fewCycleEval_eq]
  have hz : (zr : ℂ) ≠ 0 := by exact_mod_cast h.ne'
  have e1 : Complex.exp (I * cep) * I * zr * fcV zr zf dir zf = Complex.exp (cep * I) := by
    unfold fcV
    rw [sub_self, mul_zero, zero_add, mul_comm I (cep : ℂ)]
    have := Complex.I_ne_zero
    field_simp
  have e2 : fcA (I * k0 / s) (fcV zr zf dir zf) (0 : ℝ) (0 : ℝ) ((dir * (zf - zf) - c * t : ℝ) : ℂ) = 1 - ((k0 * c * t / s : ℝ) : ℂ) * I := by
    unfold fcA; push_cast; ring
  rw [e1, e2, norm_mul, Complex.norm_exp_ofReal_mul_I, one_mul]
  set b := k0 * c * t / s
  have hA : (1 - (b : ℂ) * I) ≠ 0 := by
    intro h0
    have := congrArg Complex.re h0
    simp at this
  have hn : ‖(1 - (b : ℂ) * I)‖ ^ 2 = 1 + b ^ 2 := by
    rw [← Complex.normSq_eq_norm_sq, Complex.normSq_apply]; simp; ring
  rw [cpow_norm _ _ hA, ← hn, ← Real.rpow_natCast, ← Real.rpow_mul (norm_nonneg _), ← Real.rpow_natCast, ← Real.rpow_mul (norm_nonneg _)]
  congr 1
  push_cast
  ring

theorem fewCycle_wave (c k0 zr z0 zf cep s dir : ℝ) (hc : c ≠ 0) (hk : 0 ≤ k0) (hs : 0 < s) (h : 0 < zr) (hd : dir ^ 2 = 1) :
    ShortPulseWave c dir (fewCycleEval c k0 zr z0 zf cep s dir) := by
  set K : ℂ := I * k0 / s with hK
  set n : ℂ := -s - 1 with hn
  set C : ℂ := Complex.exp (I * cep) * I * zr with hC
  let V : ℝ → ℂ := fcV zr zf dir
  let Q : ℝ → ℂ := fun q => ((q - dir * z0 : ℝ) : ℂ)
  let A : ℝ → ℝ → ℝ → ℝ → ℂ := fun x y z q => fcA K (V z) x y (Q q)
  have hslit : ∀ x y z q, A x y z q ∈ Complex.slitPlane := by
    intro x y z q
    rw [Complex.mem_slitPlane_iff]
    left
    exact lt_of_lt_of_le one_pos (fcA_re k0 s zr zf dir x y z _ hk hs h)
  have hV : ∀ z, HasDerivAt V (-dir * V z ^ 2) z := by
    intro z
    have h1 : HasDerivAt (fun z : ℝ => (dir * (z - zf) + I * zr : ℂ)) (dir : ℂ) z := by
      have := (((hasDerivAt_id (z : ℂ)).sub_const (zf : ℂ)).const_mul (dir : ℂ)).add_const (I * zr) |>.comp_ofReal
      simpa using this
    have h2 := h1.inv (fcq_ne zr zf dir z h)
    have e : V = fun z : ℝ => (dir * (z - zf) + I * zr : ℂ)⁻¹ := by funext z; simp [V, fcV]
    rw [e]
    refine h2.congr_deriv ?_
    rw [inv_pow]
    field_simp
  have hAx : ∀ x y z q : ℝ, HasDerivAt (fun x : ℝ => A x y z q) (K * (x * V z)) x := by
    intro x y z q
    have h1 : HasDerivAt (fun x : ℂ => fcA K (V z) x y (Q q)) (K * (x * V z)) (x : ℂ) := by
      unfold fcA
      have h2 := (((((((hasDerivAt_id (x : ℂ)).pow 2).add_const ((y : ℂ) ^ 2)).const_mul (1 / 2 : ℂ)).mul_const (V z)).const_add
        (Q q)).const_mul K).const_add 1
      refine (h2.congr_deriv ?_).congr_of_eventuallyEq (Filter.Eventually.of_forall fun t => ?_)
      · simp; try ring
      · simp
    exact h1.comp_ofReal
  have hAy : ∀ x y z q : ℝ, HasDerivAt (fun y : ℝ => A x y z q) (K * (y * V z)) y := by
    intro x y z q
    have h1 : HasDerivAt (fun y : ℂ => fcA K (V z) x y (Q q)) (K * (y * V z)) (y : ℂ) := by
      unfold fcA
      have h2 := (((((((hasDerivAt_id (y : ℂ)).pow 2).const_add ((x : ℂ) ^ 2)).const_mul (1 / 2 : ℂ)).mul_const (V z)).const_add
        (Q q)).const_mul K).const_add 1
      refine (h2.congr_deriv ?_).congr_of_eventuallyEq (Filter.Eventually.of_forall fun t => ?_)
      · simp; try ring
      · simp
    exact h1.comp_ofReal
  have hAq : ∀ x y z q, HasDerivAt (fun q : ℝ => A x y z q) K q := by
    intro x y z q
    have h0 : HasDerivAt Q 1 q := by
      have := ((hasDerivAt_id q).sub_const (dir * z0)).ofReal_comp
      simpa [Q] using this
    have h2 := ((h0.add_const (1 / 2 * ((x : ℂ) ^ 2 + (y : ℂ) ^ 2) * V z)).const_mul K).const_add 1
    exact h2.congr_deriv (by ring)
  have hAz : ∀ x y z q, HasDerivAt (fun z : ℝ => A x y z q) (K * (1 / 2 * ((x : ℂ) ^ 2 + (y : ℂ) ^ 2) * (-dir * V z ^ 2))) z := by
    intro x y z q
    exact (((((hV z).const_mul (1 / 2 * ((x : ℂ) ^ 2 + (y : ℂ) ^ 2))).const_add (Q q)).const_mul K).const_add 1)
  have hpow : ∀ (m : ℂ) (f : ℝ → ℂ) (f' : ℂ) (w : ℝ), HasDerivAt f f' w → f w ∈ Complex.slitPlane →
      HasDerivAt (fun w => f w ^ m) (m * f w ^ (m - 1) * f') w := by
    intro m f f' w hf hw
    have h1 : HasDerivAt (fun v : ℂ => v ^ m) (m * f w ^ (m - 1)) (f w) := by
      simpa using (hasDerivAt_id (f w)).cpow_const (c := m) hw
    exact h1.comp w hf
  refine ⟨fun x y z q => C * V z * A x y z q ^ n,
    fun x y z q => C * V z * (n * A x y z q ^ (n - 1) * (K * (x * V z))),
    fun x y z q => C * V z * (n * ((n - 1) * A x y z q ^ (n - 1 - 1) * (K * (x * V z)) * (K * (x * V z)) + A x y z q ^ (n - 1) * (K * V z))),
    fun x y z q => C * V z * (n * A x y z q ^ (n - 1) * (K * (y * V z))),
    fun x y z q => C * V z * (n * ((n - 1) * A x y z q ^ (n - 1 - 1) * (K * (y * V z)) * (K * (y * V z)) + A x y z q ^ (n - 1) * (K * V z))),
    fun x y z q => C * V z * (n * A x y z q ^ (n - 1) * K),
    fun x y z q => C * (n * K) * ((-dir * V z ^ 2) * A x y z q ^ (n - 1) +
      V z * ((n - 1) * A x y z q ^ (n - 1 - 1) * (K * (1 / 2 * ((x : ℂ) ^ 2 + (y : ℂ) ^ 2) * (-dir * V z ^ 2))))),
    fun x y z q => ⟨?_, ?_, ?_, ?_, ?_, ?_, ?_, ?_⟩⟩
  · rw [fewCycleEval_eq]
    have : dir * (z - z0) - c * ((dir * z - q) / c) = q - dir * z0 := by field_simp; ring
    rw [this]
  · exact (hpow n _ _ x (hAx x y z q) (hslit x y z q)).const_mul _
  · have h1 := hpow (n - 1) _ _ x (hAx x y z q) (hslit x y z q)
    have h2 : HasDerivAt (fun x : ℝ => K * ((x : ℂ) * V z)) (K * V z) x := by
      have := (((hasDerivAt_id x).ofReal_comp).mul_const (V z)).const_mul K
      simpa using this
    have h3 := ((h1.mul h2).const_mul n).const_mul (C * V z)
    refine (h3.congr_deriv ?_).congr_of_eventuallyEq (Filter.Eventually.of_forall fun t => ?_)
    · ring
    · simp only [Pi.mul_apply]; ring
  · exact (hpow n _ _ y (hAy x y z q) (hslit x y z q)).const_mul _
  · have h1 := hpow (n - 1) _ _ y (hAy x y z q) (hslit x y z q)
    have h2 : HasDerivAt (fun y : ℝ => K * ((y : ℂ) * V z)) (K * V z) y := by
      have := (((hasDerivAt_id y).ofReal_comp).mul_const (V z)).const_mul K
      simpa using this
    have h3 := ((h1.mul h2).const_mul n).const_mul (C * V z)
    refine (h3.congr_deriv ?_).congr_of_eventuallyEq (Filter.Eventually.of_forall fun t => ?_)
    · ring
    · simp only [Pi.mul_apply]; ring
  · exact (hpow n _ _ q (hAq x y z q) (hslit x y z q)).const_mul _
  · have h1 := hpow (n - 1) _ _ z (hAz x y z q) (hslit x y z q)
    have h3 := ((hV z).mul h1).const_mul (C * (n * K))
    refine h3.congr_of_eventuallyEq (Filter.Eventually.of_forall fun t => ?_)
    simp only [Pi.mul_apply]; ring
  · have hd' : (dir : ℂ) ^ 2 = 1 := by exact_mod_cast hd
    simp only
    linear_combination (-(C * n * K * V z ^ 2 * (2 * A x y z q ^ (n - 1) + (n - 1) * A x y z q ^ (n - 1 - 1) * K * ((x : ℂ) ^ 2 + (y : ℂ) ^ 2) * V z))) * hd'

/-- The true full width at half maximum of the intensity. -/
theorem fewCycle_fwhm (w s T : ℝ) (hs : 0 < s) (hw : 0 < w) (hT : 0 ≤ T) :
    IsFwhm (fun t => (1 + (w * t / s) ^ 2) ^ (-(s + 1))) T ↔ (w * T) ^ 2 = 4 * s ^ 2 * (2 ^ (1 / (s + 1)) - 1) := by
  have hs1 : (0 : ℝ) < s + 1 := by linarith
  set g : ℝ := (2 : ℝ) ^ (1 / (s + 1)) with hg
  have hg1 : 1 < g := Real.one_lt_rpow (by norm_num) (by positivity)
  have hgp : g ^ (s + 1) = 2 := by
    rw [hg, ← Real.rpow_mul (by norm_num), one_div, inv_mul_cancel₀ hs1.ne', Real.rpow_one]
  -- half maximum at `|t| ≤ t0`
  set t0 : ℝ := s / w * Real.sqrt (g - 1) with ht0
  have ht0p : 0 ≤ t0 := by positivity
  have hsq : (w * t0 / s) ^ 2 = g - 1 := by
    rw [ht0]
    have : w * (s / w * Real.sqrt (g - 1)) / s = Real.sqrt (g - 1) := by field_simp
    rw [this, Real.sq_sqrt (by linarith)]
  have hiff : ∀ t : ℝ, (1 + (w * 0 / s) ^ 2) ^ (-(s + 1)) / 2 ≤ (1 + (w * t / s) ^ 2) ^ (-(s + 1)) ↔ |t| ≤ t0 := by
    intro t
    have hb : 0 < 1 + (w * t / s) ^ 2 := by positivity
    have hg0 : 0 < g := by linarith
    rw [mul_zero, zero_div, zero_pow two_ne_zero, add_zero, Real.one_rpow, Real.rpow_neg hb.le]
    rw [one_div, inv_le_inv₀ (by norm_num) (Real.rpow_pos_of_pos hb _), ← hgp, Real.rpow_le_rpow_iff hb.le hg0.le hs1]
    rw [← abs_of_nonneg ht0p, ← sq_le_sq]
    have e : ∀ u : ℝ, (w * u / s) ^ 2 = (w / s) ^ 2 * u ^ 2 := by intro u; rw [div_pow, mul_pow, div_pow]; ring
    have hws : 0 < (w / s) ^ 2 := by positivity
    constructor
    · intro h1
      have : (w / s) ^ 2 * t ^ 2 ≤ (w / s) ^ 2 * t0 ^ 2 := by rw [← e, ← e, hsq]; linarith
      exact le_of_mul_le_mul_left this hws
    · intro h1
      have := mul_le_mul_of_nonneg_left h1 hws.le
      rw [← e, ← e, hsq] at this
      linarith
  have hT0 : IsFwhm (fun t => (1 + (w * t / s) ^ 2) ^ (-(s + 1))) T ↔ T / 2 = t0 := by
    unfold IsFwhm
    simp only [hiff]
    constructor
    · intro h1
      apply le_antisymm
      · have := (h1 (T / 2)).mpr (by rw [abs_of_nonneg (by linarith)])
        rwa [abs_of_nonneg (by linarith)] at this
      · have := (h1 t0).mp (by rw [abs_of_nonneg ht0p])
        rwa [abs_of_nonneg ht0p] at this
    · intro h1 t; rw [h1]
  rw [hT0]
  have hsq2 : (w * t0) ^ 2 = s ^ 2 * (g - 1) := by
    have := hsq
    rw [div_pow, div_eq_iff (by positivity)] at this
    linarith
  constructor
  · intro h1
    rw [show T = 2 * t0 by linarith, show w * (2 * t0) = 2 * (w * t0) by ring, mul_pow, hsq2]; ring
  · intro h1
    have h2 : (w * T) ^ 2 = (w * (2 * t0)) ^ 2 := by
      rw [h1, show w * (2 * t0) = 2 * (w * t0) by ring, mul_pow, hsq2]; ring
    have h3 := (pow_left_inj₀ (by positivity) (by positivity) two_ne_zero).mp h2
    have := mul_left_cancel₀ hw.ne' h3
    linarith

/-- What the code solves. -/
theorem fewCycle_solved (c k0 tau s : ℝ) (hs : 0 < s) (h : fewCycleEq c k0 tau s = 0) :
    (c * k0 * tau) ^ 2 = 2 * s ^ 2 * (4 ^ (1 / (s + 1)) - 1) := by
  unfold fewCycleEq at h
  have h4 : (1 : ℝ) ≤ 4 ^ (1 / (s + 1)) := Real.one_le_rpow (by norm_num) (by positivity)
  have h1 : c * k0 * tau = s * Real.sqrt (2 * (4 ^ (1 / (s + 1)) - 1)) := by linarith
  rw [h1, mul_pow, Real.sq_sqrt (by linarith)]
  ring

theorem fewCycle_exists (c k0 tau : ℝ) (h : 0 < c * k0 * tau) : ∃ s, 0 < s ∧ fewCycleEq c k0 tau s = 0 := by
  set w := c * k0 * tau with hw
  set B := max 1 (w ^ 2) with hB
  have hB1 : 1 ≤ B := le_max_left _ _
  have hcont : ContinuousOn (fewCycleEq c k0 tau) (Set.Icc 0 B) := by
    unfold fewCycleEq
    simp only
    refine ContinuousOn.sub (continuousOn_id.mul (Real.continuous_sqrt.comp_continuousOn ?_)) continuousOn_const
    have hdiv : ContinuousOn (fun s : ℝ => 1 / (s + 1)) (Set.Icc 0 B) := by
      refine ContinuousOn.div (by fun_prop) (by fun_prop) fun x hx => ?_
      have := hx.1
      linarith
    have hpow : ContinuousOn (fun s : ℝ => (4 : ℝ) ^ (1 / (s + 1))) (Set.Icc 0 B) :=
      ContinuousOn.rpow continuousOn_const hdiv fun _ _ => Or.inl (by norm_num)
    exact continuousOn_const.mul (hpow.sub continuousOn_const)
  have h0 : fewCycleEq c k0 tau 0 ≤ 0 := by unfold fewCycleEq; simp only; rw [zero_mul]; linarith
  have hBv : 0 ≤ fewCycleEq c k0 tau B := by
    unfold fewCycleEq
    simp only
    rw [← hw]
    have h1 : 1 + 1 / (B + 1) ≤ (4 : ℝ) ^ (1 / (B + 1)) := by
      rw [Real.rpow_def_of_pos (by norm_num)]
      have h2 : (1 : ℝ) ≤ Real.log 4 := by
        rw [Real.le_log_iff_exp_le (by norm_num)]
        exact (le_of_lt Real.exp_one_lt_d9).trans (by norm_num)
      have h3 := Real.add_one_le_exp (Real.log 4 * (1 / (B + 1)))
      have h4 : 1 * (1 / (B + 1)) ≤ Real.log 4 * (1 / (B + 1)) := mul_le_mul_of_nonneg_right h2 (by positivity)
      linarith
    have h2 : 1 / B ≤ 2 * ((4 : ℝ) ^ (1 / (B + 1)) - 1) := by
      have : 1 / B ≤ 2 * (1 / (B + 1)) := by
        rw [mul_one_div, div_le_div_iff₀ (by linarith) (by linarith)]; linarith
      linarith
    have h3 := Real.sqrt_le_sqrt h2
    have h4 : w ≤ B * Real.sqrt (1 / B) := by
      rw [Real.sqrt_div zero_le_one, Real.sqrt_one]
      have hsq : B * (1 / Real.sqrt B) = Real.sqrt B := by
        rw [mul_one_div, Real.div_sqrt]
      rw [hsq]
      exact Real.le_sqrt_of_sq_le (le_max_right _ _)
    have := mul_le_mul_of_nonneg_left h3 (show 0 ≤ B by linarith)
    linarith
  obtain ⟨s, hs, hv⟩ := intermediate_value_Icc (by linarith) hcont ⟨h0, hBv⟩
  refine ⟨s, lt_of_le_of_ne hs.1 ?_, hv⟩
  rintro rfl
  unfold fewCycleEq at hv
  simp only [zero_mul] at hv
  linarith

end Fbpic.LaserProf
