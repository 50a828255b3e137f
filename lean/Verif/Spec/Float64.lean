import Mathlib.Algebra.Order.Field.Basic
import Mathlib.Data.Rat.Floor

/-!
# Specification: value of a normal positive binary64
-/

namespace Fbpic.Spec

/-- The number represented by the bits `b` (sign bit 0, biased exponent neither 0 nor 2047), IEEE-754
3.4: `(1 + fraction/2^52) * 2^(exponent - 1023)`. -/
def f64Value (b : ℕ) : ℚ := (1 + (b % 2 ^ 52 : ℕ) / 2 ^ 52) * 2 ^ (((b / 2 ^ 52 : ℕ) : ℤ) - 1023)

end Fbpic.Spec
