import Verif.Lemmas.Tactics
import Mathlib.MeasureTheory.Integral.IntervalIntegral.FundThmCalculus
import Mathlib.Analysis.Calculus.Deriv.Pow
import Mathlib.Analysis.Calculus.Deriv.Inv
import Mathlib.Topology.Algebra.Order.LiminfLimsup

/-! # Truncated powers: first moments -/

namespace Fbpic

/-- Truncated power `(x - b)_+^n`. -/
noncomputable def tpow (n : ℕ) (b x : ℝ) : ℝ := max (x - b) 0 ^ n

/-- An antiderivative of `x (x - b)_+^n`. -/
noncomputable def tmom (n : ℕ) (b x : ℝ) : ℝ :=
  max (x - b) 0 ^ (n + 2) / (n + 2) + b * (max (x - b) 0 ^ (n + 1) / (n + 1))

@[fun_prop]
theorem tpow_continuous (n : ℕ) (b : ℝ) : Continuous (tpow n b) := by
  unfold tpow; fun_prop

theorem tmom_continuous (n : ℕ) (b : ℝ) : Continuous (tmom n b) := by
  unfold tmom; fun_prop

theorem tmom_deriv (n : ℕ) (hn : 0 < n) (b x : ℝ) :
    HasDerivWithinAt (tmom n b) (x * tpow n b x) (Set.Ioi x) x := by
  rcases le_or_gt b x with h | h
  · have hd : HasDerivAt (fun y : ℝ => (y - b) ^ (n + 2) / (n + 2) + b * ((y - b) ^ (n + 1) / (n + 1)))
        (x * (x - b) ^ n) x := by
      have e1 : HasDerivAt (fun y : ℝ => y - b) 1 x := (hasDerivAt_id x).sub_const b
      have e2 := (e1.fun_pow (n + 2)).div_const ((n : ℝ) + 2)
      have e3 := ((e1.fun_pow (n + 1)).div_const ((n : ℝ) + 1)).const_mul b
      have e4 := e2.add e3
      refine HasDerivAt.congr_deriv e4 ?_
      have : (n : ℝ) + 2 ≠ 0 := by positivity
      have : (n : ℝ) + 1 ≠ 0 := by positivity
      push_cast
      field_simp
      ring
    have : x * tpow n b x = x * (x - b) ^ n := by unfold tpow; rw [max_eq_left (by linarith)]
    rw [this]
    refine hd.hasDerivWithinAt.congr (fun y hy => ?_) ?_
    · unfold tmom; rw [max_eq_left (by have := Set.mem_Ioi.1 hy; linarith)]
    · unfold tmom; rw [max_eq_left (by linarith)]
  · have : x * tpow n b x = 0 := by
      unfold tpow; rw [max_eq_right (by linarith), zero_pow hn.ne', mul_zero]
    rw [this]
    apply HasDerivAt.hasDerivWithinAt
    have : tmom n b =ᶠ[nhds x] fun _ => 0 := by
      filter_upwards [gt_mem_nhds h] with y hy
      unfold tmom; rw [max_eq_right (by linarith)]; simp
    exact (hasDerivAt_const x (0 : ℝ)).congr_of_eventuallyEq this

theorem tpow_moment (n : ℕ) (hn : 0 < n) (b P : ℝ) (hP : 0 ≤ P) :
    ∫ x in (0 : ℝ)..P, x * tpow n b x = tmom n b P - tmom n b 0 := by
  apply intervalIntegral.integral_eq_sub_of_hasDeriv_right
  · exact (tmom_continuous n b).continuousOn
  · intro x _; exact tmom_deriv n hn b x
  · exact (continuous_id.mul (tpow_continuous n b)).intervalIntegrable _ _

end Fbpic
