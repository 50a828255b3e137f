import Mathlib.Algebra.BigOperators.Group.Finset.Basic
import Mathlib.Algebra.Module.Basic
import Mathlib.Data.Real.Basic
import Mathlib.Order.Interval.Finset.Nat

/-!
# Specification for C39: centred finite differences
-/

namespace Fbpic.Spec

/-- The finite-difference approximation of `f'(z)` that uses the points `z ± n dz`, `n = 1 … m`,
with the centred difference over `2 n dz` weighted by `a n`. -/
noncomputable def fdDeriv {E : Type} [AddCommGroup E] [Module ℝ E] (a : ℕ → ℝ) (m : ℕ) (dz : ℝ)
    (f : ℝ → E) (z : ℝ) : E :=
  ∑ n ∈ Finset.Icc 1 m, (a n / (2 * n * dz)) • (f (z + n * dz) - f (z - n * dz))

end Fbpic.Spec
