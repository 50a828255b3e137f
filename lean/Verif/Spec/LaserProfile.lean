import Verif.Model.LaserProfile
import Mathlib.Analysis.Calculus.Deriv.Basic
import Mathlib.MeasureTheory.Integral.Bochner.Basic
import Mathlib.MeasureTheory.Constructions.BorelSpace.Complex
import Mathlib.MeasureTheory.Measure.Lebesgue.Complex

/-! # Specification for C72 to C75: laser profiles -/

namespace Fbpic.Spec

open Complex (I)

/-- The complex field `u(x, y, z)`, that multiplies `exp(i k0 (dir*z - c t))`, obeys the paraxial wave equation
`∂²u/∂x² + ∂²u/∂y² + 2 i k0 dir ∂u/∂z = 0` at every point. -/
def ParaxialWave (k0 dir : ℝ) (u : ℝ → ℝ → ℝ → ℂ) : Prop :=
  ∃ ux uxx uy uyy uz : ℝ → ℝ → ℝ → ℂ, ∀ x y z : ℝ,
    HasDerivAt (fun x => u x y z) (ux x y z) x ∧ HasDerivAt (fun x => ux x y z) (uxx x y z) x ∧
    HasDerivAt (fun y => u x y z) (uy x y z) y ∧ HasDerivAt (fun y => uy x y z) (uyy x y z) y ∧
    HasDerivAt (fun z => u x y z) (uz x y z) z ∧
    uxx x y z + uyy x y z + 2 * I * k0 * dir * uz x y z = 0

/-- `∫∫ |u(x, y)|² dx dy`. -/
noncomputable def planeIntegral (u : ℝ → ℝ → ℂ) : ℝ := ∫ p : ℝ × ℝ, ‖u p.1 p.2‖ ^ 2

/-- `∫ |f(z)|² dz`. -/
noncomputable def axisIntegral (f : ℝ → ℂ) : ℝ := ∫ z, ‖f z‖ ^ 2

/-- Energy at one time of a pulse, with electric field `F(x, y, z) = (Ex, Ey)`; the energy density of a wave is `ε0 |E|²`, one half electric
and one half magnetic. It is averaged over two pulses `F`, `G` which differ by a quarter of an oscillation, so that the oscillations at
the frequency of the laser cancel. -/
noncomputable def pulseEnergy (eps0 : ℝ) (F G : ℝ → ℝ → ℝ → ℝ × ℝ) : ℝ :=
  ∫ z, ∫ p : ℝ × ℝ, eps0 * (((F p.1 p.2 z).1 ^ 2 + (F p.1 p.2 z).2 ^ 2) + ((G p.1 p.2 z).1 ^ 2 + (G p.1 p.2 z).2 ^ 2)) / 2

/-- The field `E(x, y, z, t)` of a short pulse, seen as a function `u(x, y, z, ζ)` of `ζ = dir*z - c*t`, obeys the wave equation
`∂²u/∂x² + ∂²u/∂y² + 2 dir ∂²u/∂z∂ζ = 0`, where only `∂²u/∂z²` is neglected: every frequency is diffracted as it should. -/
def ShortPulseWave (c dir : ℝ) (E : ℝ → ℝ → ℝ → ℝ → ℂ) : Prop :=
  ∃ u ux uxx uy uyy uq uqz : ℝ → ℝ → ℝ → ℝ → ℂ, ∀ x y z q : ℝ,
    u x y z q = E x y z ((dir * z - q) / c) ∧
    HasDerivAt (fun x => u x y z q) (ux x y z q) x ∧ HasDerivAt (fun x => ux x y z q) (uxx x y z q) x ∧
    HasDerivAt (fun y => u x y z q) (uy x y z q) y ∧ HasDerivAt (fun y => uy x y z q) (uyy x y z q) y ∧
    HasDerivAt (fun q => u x y z q) (uq x y z q) q ∧ HasDerivAt (fun z => uq x y z q) (uqz x y z q) z ∧
    uxx x y z q + uyy x y z q + 2 * dir * uqz x y z q = 0

/-- `T` is the full width at half maximum of the even function `f`: `f` is above half of its maximum `f 0` exactly between `-T/2`
and `T/2`. -/
def IsFwhm (f : ℝ → ℝ) (T : ℝ) : Prop := ∀ t, f 0 / 2 ≤ f t ↔ |t| ≤ T / 2

end Fbpic.Spec
