import Mathlib.Analysis.SpecialFunctions.Pow.Real
import Mathlib.Topology.Algebra.InfiniteSum.Basic

/-!
# Bessel functions of the first kind, of integer order

Power series (Abramowitz & Stegun, 9.1.10 and 9.1.5).
-/

namespace Fbpic.Spec

/-- `J_n(x)` for `n ≥ 0`. -/
noncomputable def besselNat (n : ℕ) (x : ℝ) : ℝ :=
  ∑' k : ℕ, (-1) ^ k / (k.factorial * (k + n).factorial) * (x / 2) ^ (2 * k + n)

/-- `J_n(x)` for any integer order: `J_(-n) = (-1)^n J_n`. -/
noncomputable def besselJ (n : ℤ) (x : ℝ) : ℝ :=
  if 0 ≤ n then besselNat n.toNat x else (-1) ^ n.natAbs * besselNat n.natAbs x

end Fbpic.Spec
