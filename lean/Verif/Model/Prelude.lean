import Mathlib.Algebra.Order.Floor.Ring
import Mathlib.Algebra.Field.Basic

/-!
# Shared primitives of the model

Python's `int(x)` on a float truncates toward zero. It is used all over fbpic
(e.g. `fbpic/boundaries/moving_window.py:92`,
`fbpic/particles/injection/continuous_injection.py:150`,
`fbpic/boundaries/boundary_communicator.py:441`).
-/

namespace Fbpic

variable {K : Type} [Field K] [LinearOrder K] [FloorRing K]

/-- Python `int(x)` for a (finite) float `x`: truncation toward zero.
Simplification: exact arithmetic instead of IEEE double. -/
def pyInt (x : K) : ℤ := if 0 ≤ x then ⌊x⌋ else ⌈x⌉

end Fbpic
