import Verif.Spec.PicVacuum
import Verif.Spec.DirectLaser
import Verif.Model.SpectShift

/-!
# Specification: a laser pulse on the grid of an assembled simulation
-/

namespace Fbpic.Spec

open Pic

/-- Sum of two fields at one wavenumber. -/
noncomputable def EM.plus (f g : EM) : EM :=
  ⟨⟨f.E.p + g.E.p, f.E.m + g.E.m, f.E.z + g.E.z⟩, ⟨f.B.p + g.B.p, f.B.m + g.B.m, f.B.z + g.B.z⟩⟩

/-- The smoother and its compensator along z: near 1 at long wavelengths, 0 at the shortest one. -/
noncomputable def laserFilter (dz k : ℝ) : ℝ := Real.cos (k * dz / 2) ^ 2 * (2 - Real.cos (k * dz / 2) ^ 2)

/-- The state `s` whose fields are replaced by the electric field `(Er, Et)` of each mode. -/
def withErEt (E : ℕ → (ℕ → ℕ → ℂ) × (ℕ → ℕ → ℂ)) (s : Pic.Sim) : Pic.Sim :=
  { s with interp := fun m => ⟨⟨(E m).1, (E m).2, 0⟩, ⟨0, 0, 0⟩, ⟨0, 0, 0⟩, 0⟩ }

end Fbpic.Spec
