import Verif.Spec.Cylinder

/-!
# Maxwell's equations and the continuity equation in the cylinder
-/

namespace Fbpic.Spec

open Complex

/-- One of the three components. -/
def IsComp (comp : VecField → ScalField) : Prop :=
  comp = VecField.r ∨ comp = VecField.t ∨ comp = VecField.z

/-- Maxwell's equations `dE/dt = c^2 (curl B - mu0 J)`, `dB/dt = - curl E` at every point off the axis,
in coordinates that move along z with the velocity `Vgrid`. -/
structure CylMaxwell (c mu0 Vgrid : ℝ) (D : ZDeriv) (J E B : ℝ → VecField) : Prop where
  ampere : ∀ comp, IsComp comp → ∀ t z r θ, 0 < r → HasDerivAt (fun t => comp (E t) z r θ)
    (Vgrid * D.apply (fun z => comp (E t) z r θ) z
      + c ^ 2 * (comp (cylCurl D (B t)) z r θ - mu0 * comp (J t) z r θ)) t
  faraday : ∀ comp, IsComp comp → ∀ t z r θ, 0 < r → HasDerivAt (fun t => comp (B t) z r θ)
    (Vgrid * D.apply (fun z => comp (B t) z r θ) z - comp (cylCurl D (E t)) z r θ) t

/-- The continuity equation `drho/dt + div J = 0`, in coordinates that move along z with the velocity
`Vgrid`. -/
def CylContinuity (Vgrid : ℝ) (D : ZDeriv) (J : ℝ → VecField) (rho : ℝ → ScalField) : Prop :=
  ∀ t z r θ, 0 < r → HasDerivAt (fun t => rho t z r θ)
    (Vgrid * D.apply (fun z => rho t z r θ) z - cylDiv D (J t) z r θ) t

end Fbpic.Spec
