import Mathlib.Analysis.SpecialFunctions.Trigonometric.Basic
import Mathlib.Data.Fin.VecNotation

/-!
# Specification: reading a `thetaMode` mesh of an openPMD file; physical dimensions

Written from the openPMD standard (version 1.0.0, "geometry", "position", "unitSI",
"unitDimension"), without reference to the code that writes the file.
-/

namespace Fbpic.Spec

open Complex

/-- What a reader finds for one component of a mesh with `geometry = "thetaMode"`,
`geometryParameters = "m=<modes>;imag=+"` and axes `r`, `z`: the attributes of the mesh and the
dataset, of shape `(2 modes - 1, nr, nz)`. -/
structure ThetaMesh where
  modes : ℕ
  nr : ℕ
  nz : ℕ
  spacing : ℝ × ℝ
  offset : ℝ × ℝ
  gridUnitSI : ℝ
  position : ℝ × ℝ
  unitSI : ℝ
  data : ℕ → ℕ → ℕ → ℝ

/-- Radius (m) at which the value of column `ir` is given. -/
def ThetaMesh.r (f : ThetaMesh) (ir : ℕ) : ℝ :=
  (f.offset.1 + (ir + f.position.1) * f.spacing.1) * f.gridUnitSI

/-- Longitudinal position (m) at which the value of row `iz` is given. -/
def ThetaMesh.z (f : ThetaMesh) (iz : ℕ) : ℝ :=
  (f.offset.2 + (iz + f.position.2) * f.spacing.2) * f.gridUnitSI

/-- The field (SI) at the angle `θ`: entry 0 is the axisymmetric part, the entries `2m-1` and `2m`
multiply `cos(mθ)` and `sin(mθ)`. -/
noncomputable def ThetaMesh.value (f : ThetaMesh) (θ : ℝ) (ir iz : ℕ) : ℝ :=
  (f.data 0 ir iz + ∑ m ∈ Finset.Ico 1 f.modes,
    (f.data (2 * m - 1) ir iz * Real.cos (m * θ) + f.data (2 * m) ir iz * Real.sin (m * θ)))
    * f.unitSI

/-- A real field that is stored by its modes `F_m`, `0 ≤ m < Nm`: `F = sum over all integers m of
F_m exp(-i m θ)`, where the modes of negative `m` are the complex conjugates. -/
noncomputable def fourierField (Nm : ℕ) (F : ℕ → ℂ) (θ : ℝ) : ℝ :=
  (F 0).re + ∑ m ∈ Finset.Ico 1 Nm, (F m * exp (-(I * m * θ)) + (starRingEnd ℂ) (F m) * exp (I * m * θ)).re

/-! ### Physical dimensions -/

/-- Powers of the seven base quantities: length, mass, time, current, temperature, amount of
substance, luminous intensity. -/
abbrev Dim := Fin 7 → ℤ

namespace Dim
/-- The base quantities. -/
def length : Dim := ![1, 0, 0, 0, 0, 0, 0]
def mass : Dim := ![0, 1, 0, 0, 0, 0, 0]
def time : Dim := ![0, 0, 1, 0, 0, 0, 0]
def current : Dim := ![0, 0, 0, 1, 0, 0, 0]
/-- Derived quantities (products are sums of exponents). -/
def velocity : Dim := length - time
def momentum : Dim := mass + velocity
def force : Dim := momentum - time
def charge : Dim := current + time
def chargeDensity : Dim := charge - (3 : ℤ) • length
def currentDensity : Dim := chargeDensity + velocity
def electricField : Dim := force - charge
def magneticField : Dim := electricField - velocity
end Dim

end Fbpic.Spec
