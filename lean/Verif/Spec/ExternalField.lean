import Verif.Model.ExternalField
import Verif.Spec.BoostConv

/-! # Specification for C50: lab fields seen in the boosted frame -/

namespace Fbpic.Spec

open ExternalField

/-- Fields in the frame that moves with the velocity `βc` along z with respect to the lab: `E' = γ(E + v × B)`,
`B' = γ(B - v × E/c²)` for the transverse components. -/
noncomputable def boostFields (γ β c : ℝ) (F : Comp → ℝ) : Comp → ℝ
  | .Ex => γ * (F .Ex - β * c * F .By)
  | .Ey => γ * (F .Ey + β * c * F .Bx)
  | .Ez => F .Ez
  | .Bx => γ * (F .Bx + β * c / c ^ 2 * F .Ey)
  | .By => γ * (F .By - β * c / c ^ 2 * F .Ex)
  | .Bz => F .Bz

/-- The lab field with the only component `k`. -/
def only (k : Comp) (a : ℝ) : Comp → ℝ := fun k' => if k' = k then a else 0

/-- A field given in the lab: component, amplitude, spatial and temporal profile, species on which it acts. -/
structure LabField where
  comp : Comp
  amplitude : ℝ
  lengthScale : ℝ
  profile : ℝ → ℝ → ℝ → ℝ → ℝ → ℝ
  species : Option ℕ

/-- Value at a lab event, as seen by species `s`. -/
def LabField.value (d : LabField) (s : ℕ) (x y z t : ℝ) : Comp → ℝ :=
  if d.species = none ∨ d.species = some s then only d.comp (d.amplitude * d.profile x y z t d.lengthScale) else 0

/-- The names of the components. -/
def nameOf : Comp → String
  | .Ex => "Ex"
  | .Ey => "Ey"
  | .Ez => "Ez"
  | .Bx => "Bx"
  | .By => "By"
  | .Bz => "Bz"

/-- The function a user writes for such a field: add the value to what was gathered. -/
def LabField.func (d : LabField) : FieldFunc := fun F x y z t a ls => F + a * d.profile x y z t ls

end Fbpic.Spec
