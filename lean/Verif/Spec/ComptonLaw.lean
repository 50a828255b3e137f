import Verif.Spec.Compton
import Verif.Model.ComptonLaw
import Mathlib.Probability.ProductMeasure
import Mathlib.MeasureTheory.Measure.Lebesgue.Basic
import Mathlib.MeasureTheory.Integral.IntervalIntegral.Basic

/-!
# The Klein-Nishina law, uniform random numbers, the photons of a pulse in two frames (C104)
-/

namespace Fbpic.Spec

open MeasureTheory Set

/-- The Klein-Nishina cross section per unit of `x = cos θ`, in units of `π r_e²`, for a photon of momentum `k m c` in
the rest frame of the electron: `P² (P + 1/P - sin²θ)`, where `P` is the ratio of the momenta after and before. -/
noncomputable def kleinNishina (k x : ℝ) : ℝ :=
  let P := 1 / (1 + k * (1 - x))
  P ^ 2 * (P + 1 / P - (1 - x ^ 2))

/-- A random number, uniform between 0 and 1. -/
noncomputable def uniform : Measure ℝ := volume.restrict (Ico 0 1)

instance : IsProbabilityMeasure uniform := ⟨by simp [uniform]⟩

/-- An unlimited supply of independent pairs of random numbers. -/
noncomputable def supply : Measure (ℕ → ℝ × ℝ) := Measure.infinitePi fun _ => uniform.prod uniform

/-- The Lorentz boost along z of a four-momentum. -/
noncomputable def boostZ (gamma beta : ℝ) (q : FourMom) : FourMom :=
  ⟨gamma * (q.p - beta * q.pz), q.px, q.py, gamma * (q.pz - beta * q.p)⟩

/-- The four-momentum of an electron, in units of `m c`. -/
noncomputable def elecFour (e : ElecMom) : FourMom := ⟨e.gamma, e.ux, e.uy, e.uz⟩

end Fbpic.Spec
