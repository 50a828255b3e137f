import Verif.Model.Shapes
import Mathlib.Algebra.Order.Group.Abs

/-!
# Specification: B-spline particle shapes

The textbook definition of the linear ("hat") and cubic assignment functions, as a
function of the signed distance between a grid point and the particle, in cells.
-/

namespace Fbpic.Spec

variable {K : Type} [Field K] [LinearOrder K]

/-- First-order B-spline. -/
def hat (d : K) : K := if |d| ≤ 1 then 1 - |d| else 0

/-- Third-order B-spline. -/
def bspline3 (d : K) : K :=
  if |d| ≤ 1 then (4 - 6 * |d|^2 + 3 * |d|^3) / 6
  else if |d| ≤ 2 then (2 - |d|)^3 / 6
  else 0

/-- The assignment function of a macroparticle shape. -/
def spline (s : Shape) (d : K) : K :=
  match s with
  | .linear => hat d
  | .cubic => bspline3 d

/-- The total weight that a list of (cell, weight) pairs gives to cell `k`. -/
def weightAt (cells : List (ℤ × K)) (k : ℤ) : K :=
  ((cells.filter (fun a => a.1 = k)).map (·.2)).sum

end Fbpic.Spec
