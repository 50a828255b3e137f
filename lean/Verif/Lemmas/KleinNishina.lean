import Verif.Lemmas.Compton
import Mathlib.Analysis.SpecialFunctions.Log.Deriv
import Mathlib.Analysis.Calculus.Deriv.MeanValue
import Mathlib.Analysis.Calculus.Deriv.Inv

namespace Fbpic

theorem log_pade (x : ℝ) (hx : 0 ≤ x) : Real.log (1 + x) ≤ x * (6 + x) / (6 + 4 * x) := by
  let f : ℝ → ℝ := fun x => x * (6 + x) / (6 + 4 * x) - Real.log (1 + x)
  have hd : ∀ y : ℝ, 0 ≤ y → HasDerivAt f
      (((1 * (6 + y) + y * 1) * (6 + 4 * y) - y * (6 + y) * 4) / (6 + 4 * y) ^ 2
        - 1 / (1 + y)) y := by
    intro y hy
    have h1 : HasDerivAt (fun x : ℝ => x * (6 + x)) (1 * (6 + y) + y * 1) y :=
      (hasDerivAt_id y).mul ((hasDerivAt_id y).const_add 6)
    have h2 : HasDerivAt (fun x : ℝ => 6 + 4 * x) 4 y := by
      simpa using ((hasDerivAt_id y).const_mul (4 : ℝ)).const_add 6
    have h3 : HasDerivAt (fun x : ℝ => Real.log (1 + x)) (1 / (1 + y)) y :=
      ((hasDerivAt_id y).const_add 1).log (by simp only [id]; linarith)
    exact (h1.div h2 (by linarith)).sub h3
  have hm : MonotoneOn f (Set.Ici 0) := by
    refine monotoneOn_of_deriv_nonneg (convex_Ici 0)
      (fun y hy => (hd y hy).continuousAt.continuousWithinAt)
      (fun y hy => (hd y (interior_subset hy)).differentiableAt.differentiableWithinAt) ?_
    intro y hy
    have hy0 : 0 ≤ y := interior_subset hy
    rw [(hd y hy0).deriv]
    have : ((1 * (6 + y) + y * 1) * (6 + 4 * y) - y * (6 + y) * 4) / (6 + 4 * y) ^ 2
        - 1 / (1 + y) = 4 * y ^ 3 / ((6 + 4 * y) ^ 2 * (1 + y)) := by
      have a1 : (6 + 4 * y) ≠ 0 := by positivity
      have a2 : (1 + y) ≠ 0 := by positivity
      field_simp; ring
    rw [this]; positivity
  have := hm (Set.mem_Ici.mpr le_rfl) (Set.mem_Ici.mpr hx) hx
  simp only [f] at this
  simp at this
  linarith

/-- The total Klein-Nishina cross section of the code is positive. -/
theorem kleinNishina_nonneg (k : ℝ) (hk : 0 < k) :
    0 ≤ 2 * (2 + k * (1 + k) * (8 + k)) / (k ^ 2 * (1 + 2 * k) ^ 2)
      - (2 + k * (2 - k)) * Real.log (1 + 2 * k) / k ^ 3 := by
  have hlog : Real.log (1 + 2 * k) ≤ 2 * k * (3 + k) / (3 + 4 * k) := by
    have h := log_pade (2 * k) (by linarith)
    have e : 2 * k * (6 + 2 * k) / (6 + 4 * (2 * k)) = 2 * k * (3 + k) / (3 + 4 * k) := by
      field_simp; ring
    rwa [e] at h
  have hlog0 : 0 ≤ Real.log (1 + 2 * k) := Real.log_nonneg (by linarith)
  have key : (2 + k * (2 - k)) * Real.log (1 + 2 * k) * (1 + 2 * k) ^ 2
      ≤ 2 * k * (2 + k * (1 + k) * (8 + k)) := by
    by_cases hA : 2 + k * (2 - k) ≤ 0
    · have : (2 + k * (2 - k)) * Real.log (1 + 2 * k) ≤ 0 :=
        mul_nonpos_of_nonpos_of_nonneg hA hlog0
      have h2 : (2 + k * (2 - k)) * Real.log (1 + 2 * k) * (1 + 2 * k) ^ 2 ≤ 0 :=
        mul_nonpos_of_nonpos_of_nonneg this (by positivity)
      have : 0 ≤ 2 * k * (2 + k * (1 + k) * (8 + k)) := by positivity
      linarith
    · have hA := not_le.mp hA
      have h1 : (2 + k * (2 - k)) * Real.log (1 + 2 * k) * (1 + 2 * k) ^ 2
          ≤ (2 + k * (2 - k)) * (2 * k * (3 + k) / (3 + 4 * k)) * (1 + 2 * k) ^ 2 := by gcongr
      refine h1.trans ?_
      rw [mul_div_assoc', div_mul_eq_mul_div, div_le_iff₀ (by positivity)]
      have : 0 ≤ 2 * k * (4 * k ^ 2 + 12 * k ^ 3 + 12 * k ^ 4 + 4 * k ^ 5) := by positivity
      nlinarith
  rw [sub_nonneg, div_le_div_iff₀ (by positivity) (by positivity)]
  have h := mul_le_mul_of_nonneg_right key (show (0:ℝ) ≤ k ^ 2 by positivity)
  nlinarith [h]

/-- `drawX` only proposes cosines. -/
theorem drawX_mem (invMC p r : ℝ) (hk : 0 < p * invMC) (hr : 0 ≤ r ∧ r ≤ 1) :
    -1 ≤ drawX invMC p r ∧ drawX invMC p r ≤ 1 := by
  unfold drawX
  set k := p * invMC
  set c0 := 2 * (2 * k ^ 2 + 2 * k + 1) / (2 * k + 1) ^ 3 with hc0
  have hc0pos : 0 < c0 := by positivity
  have hc02 : c0 < 2 := by
    rw [hc0, div_lt_iff₀ (by positivity)]
    have : 0 < k ^ 2 ∧ 0 < k ^ 3 := ⟨by positivity, by positivity⟩
    nlinarith
  have hd : (0:ℝ) < 2 - c0 := by linarith
  have hb1 : (2 + c0) / (2 - c0) + 1 = 4 / (2 - c0) := by field_simp; ring
  have hpow1 : (0.5 * c0) ^ r ≤ 1 :=
    Real.rpow_le_one (by positivity) (by linarith) hr.1
  have hpow2 : 0.5 * c0 ≤ (0.5 * c0) ^ r := by
    have := Real.rpow_le_rpow_of_exponent_ge (x := 0.5 * c0) (by positivity) (by linarith) hr.2
    simpa using this
  have hq : 0 < 4 / (2 - c0) := by positivity
  have e1 : (2 + c0) / (2 - c0) = 4 / (2 - c0) - 1 := by linarith
  have e2 : 4 / (2 - c0) * (0.5 * c0) = 4 / (2 - c0) - 2 := by field_simp; ring
  constructor
  · show -1 ≤ (2 + c0) / (2 - c0) - ((2 + c0) / (2 - c0) + 1) * (0.5 * c0) ^ r
    rw [hb1, e1]; nlinarith
  · show (2 + c0) / (2 - c0) - ((2 + c0) / (2 - c0) + 1) * (0.5 * c0) ^ r ≤ 1
    rw [hb1, e1]; nlinarith

end Fbpic
