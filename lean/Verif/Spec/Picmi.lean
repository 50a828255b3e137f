import Verif.Model.Picmi
import Mathlib.Algebra.Module.LinearMap.Defs
import Mathlib.Algebra.Module.Pi

/-! # Specification for C83: what a PICMI description stands for -/

namespace Fbpic.Spec

open Picmi

/-- Courant condition on a grid with cells `dz`, `dr`: light crosses the fraction `cfl` of the smallest cell in
one step. -/
def CourantStep (c cfl dz dr dt : ℝ) : Prop := c * dt = cfl * min dz dr

/-- The laser pulse that is described: of that wavelength, phase and direction. -/
noncomputable def describedLaser (k : LaserProf.Phys) (l : LaserDesc) : Except PyErr LaserProf.Laser :=
  LaserProf.gaussianLaser k l.a0 l.waist l.duration l.centroidZ (some l.focalZ)
    (arctan2 l.polar.2 l.polar.1) l.wavelength (l.phi0.getD 0) (l.phi2.getD 0) (if 0 < l.direction.2.2 then 1 else -1)

/-- The density that is described: the `density_scale` multiplies the distribution. -/
def describedDensity (s : SpeciesDesc) (d : PlasmaDesc) (x y z : ℝ) : ℝ :=
  s.densityScale.getD 1 * match d.dist with
    | .uniform n => n
    | .analytic f => f x y z

/-- A mean value `E` over the random draws for a macroparticle, for which the draws for the transverse position
and momentum are centered, of variance 1 and not correlated. -/
structure StandardDraws (E : (Bunch.Draw → ℝ) →ₗ[ℝ] ℝ) : Prop where
  mean_x : E (fun d => d.x) = 0
  mean_ux : E (fun d => d.ux) = 0
  var_x : E (fun d => d.x ^ 2) = 1
  var_ux : E (fun d => d.ux ^ 2) = 1
  cov : E (fun d => d.x * d.ux) = 0

/-- The velocity of a particle along `x`. -/
noncomputable def velocityX (c : ℝ) (p : Bunch.In) : ℝ := c * p.ux / √(1 + p.ux ^ 2 + p.uy ^ 2 + p.uz ^ 2)

/-- The field requested by one entry of `data_list`. -/
def requested : String → String → Prop
  | "E", d => d = "E" ∨ d = "Ex" ∨ d = "Ey" ∨ d = "Ez"
  | "B", d => d = "B" ∨ d = "Bx" ∨ d = "By" ∨ d = "Bz"
  | "J", d => d = "J" ∨ d = "Jx" ∨ d = "Jy" ∨ d = "Jz"
  | "rho", d => d = "rho"
  | _, _ => False

/-- The field applied to the particles by a list of external fields, at a time, at a position: what is added to each
component. -/
def addedField (es : List ExternalField.Ext) (x y z t : ℝ) (k : ExternalField.Comp) : ℝ :=
  ((ExternalField.applyAll es [⟨0, [⟨x, y, z, fun _ => 0⟩]⟩] t).map fun s => (s.ptcls.map fun p => p.F k).sum).sum

end Fbpic.Spec
