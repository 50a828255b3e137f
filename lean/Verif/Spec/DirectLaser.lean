import Verif.Spec.Antenna
import Verif.Spec.Maxwell

/-! # Specification for C65 -/

namespace Fbpic.Spec

open Complex

/-- The field at the angle `θ` that the modes `F 0, …, F (Nm - 1)` stand for: the convention of the gathering,
`F₀ + 2 Re Σ F_m exp(-i m θ)` (C26). -/
noncomputable def ofModes (Nm : ℕ) (F : ℕ → ℂ) (θ : ℝ) : ℝ :=
  ∑ m ∈ Finset.range Nm, (if m = 0 then 1 else 2) * (F m * ((Real.cos θ : ℂ) - I * Real.sin θ) ^ m).re

/-- Plane wave with both polarizations that propagates forward (`dir = 1`) or backward (`dir = -1`). -/
noncomputable def planeWaveXY (c dir Ex Ey : ℝ) : ExternalField.Comp → ℝ
  | .Ex => Ex
  | .Ey => Ey
  | .Bx => -dir * Ey / c
  | .By => dir * Ex / c
  | _ => 0

/-- Multiplication of a field by a number. -/
noncomputable def EM.times (a : ℂ) (f : EM) : EM := ⟨⟨a * f.E.p, a * f.E.m, a * f.E.z⟩, ⟨a * f.B.p, a * f.B.m, a * f.B.z⟩⟩

/-- At the wavenumber `(kz, kr)` the field oscillates as `exp(-iωt)` with the phase velocity `ω/kz` in the direction of `dir`: with the
factor `exp(i kz z)` of the transform, the crests move towards growing z iff `dir > 0`. -/
def Travels (c dir kz kr ω : ℝ) : Prop := ω ^ 2 = c ^ 2 * (kz ^ 2 + kr ^ 2) ∧ 0 < dir * (ω / kz)

end Fbpic.Spec
