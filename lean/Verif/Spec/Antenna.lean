import Verif.Model.Antenna
import Verif.Spec.ExternalField

/-! # Specification for C52 and C64 -/

namespace Fbpic.Spec

open Antenna

/-- Time elapsed for the longitudinal motion in a list of calls. -/
noncomputable def elapsed : List Op → ℝ
  | [] => 0
  | .push dt _ _ zp :: l => dt * zp + elapsed l
  | .update _ _ :: l => elapsed l

/-- A plane sheet perpendicular to z, moving at the speed `v`, carries the current `K` per unit length along x. `Ef`, `Eb` are the
fields `Ex` of the plane waves it emits forward (`By = Ex/c`) and backward (`By = -Ex/c`). Faraday and Ampère's laws across the
moving sheet: `[Ex] = v [By]` and `[By] - v/c² [Ex] = -μ₀ K`, with `μ₀ = 1/(ε₀c²)`. -/
def SheetEmits (c eps0 v K Ef Eb : ℝ) : Prop :=
  Ef - Eb = v * (Ef / c - -Eb / c) ∧
  (Ef / c - -Eb / c) - v / c ^ 2 * (Ef - Eb) = -(1 / (eps0 * c ^ 2)) * K

/-- Fields of a plane wave polarized along x that propagates forward (`dir = 1`) or backward (`dir = -1`). -/
noncomputable def planeWave (c dir E : ℝ) : ExternalField.Comp → ℝ
  | .Ex => E
  | .By => dir * E / c
  | _ => 0

end Fbpic.Spec
