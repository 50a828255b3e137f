import Verif.Spec.Cylinder
import Mathlib.MeasureTheory.Integral.IntervalIntegral.Basic

/-!
# Volume integrals in the cylinder
-/

namespace Fbpic.Spec

/-- The integral of a scalar field over the part of the cylinder of radius `R` with `z1 ≤ z ≤ z2`. -/
noncomputable def cylIntegral (z1 z2 R : ℝ) (f : ScalField) : ℂ :=
  ∫ z in z1..z2, ∫ r in (0 : ℝ)..R, ∫ θ in (0 : ℝ)..(2 * Real.pi), f z r θ * (r : ℂ)

/-- The volume of the ring `r1 ≤ r ≤ r2` of length `dz`. -/
noncomputable def ringVolume (r1 r2 dz : ℝ) : ℝ :=
  ∫ _z in (0 : ℝ)..dz, ∫ r in r1..r2, ∫ _θ in (0 : ℝ)..(2 * Real.pi), r

end Fbpic.Spec
