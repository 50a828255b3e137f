import Mathlib.Analysis.SpecialFunctions.Complex.Circle
import Mathlib.Algebra.BigOperators.Fin

/-! # What a lasy file means -/

namespace Fbpic.Spec

open Complex (I)

/-- Position of the sample number `i` of an axis, in SI units: the openPMD standard multiplies both the spacing and the offset by `gridUnitSI`. -/
def axisNode (unitSI offset spacing i : ℝ) : ℝ := (offset + i * spacing) * unitSI

/-- The value at the fraction `a` of the way from `u` to `v`. -/
noncomputable def between (a : ℝ) (u v : ℂ) : ℂ := (1 - a) * u + a * v

/-- Interpolation between the nodes of a cell of a two-dimensional array. -/
noncomputable def between2 (a b : ℝ) (d : ℤ → ℤ → ℂ) (i j : ℤ) : ℂ :=
  between a (between b (d i j) (d i (j + 1))) (between b (d (i + 1) j) (d (i + 1) (j + 1)))

/-- Interpolation between the nodes of a cell of a three-dimensional array. -/
noncomputable def between3 (a b c : ℝ) (d : ℤ → ℤ → ℤ → ℂ) (i j k : ℤ) : ℂ :=
  between a (between2 b c (d i) j k) (between2 b c (d (i + 1)) j k)

/-- Envelope at the angle `θ`: `mode 0`, then the pairs `mode (2m-1)`, `mode (2m)` multiply `cos(mθ)` and `sin(mθ)`. -/
noncomputable def azimuthal (n : ℕ) (theta : ℝ) (mode : ℤ → ℂ) : ℂ :=
  mode 0 + ∑ m ∈ Finset.range n, (mode (2 * (m + 1) - 1) * Real.cos ((m + 1) * theta) + mode (2 * (m + 1)) * Real.sin ((m + 1) * theta))

/-- Real field, of polarization `pol`, whose envelope is `env`, at the time `t` of the file. -/
noncomputable def realField (omega : ℝ) (pol : ℂ × ℂ) (env : ℂ) (t : ℝ) : ℝ × ℝ :=
  ((env * Complex.exp (-I * omega * t) * pol.1).re, (env * Complex.exp (-I * omega * t) * pol.2).re)

/-- Versions of a program are ordered number by number: the first one that differs decides, and a version that continues another one is
later. -/
def NotOlder (v w : List ℤ) : Prop :=
  w <+: v ∨ ∃ p a b v' w', v = p ++ a :: v' ∧ w = p ++ b :: w' ∧ b < a

end Fbpic.Spec
