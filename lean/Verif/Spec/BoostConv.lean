import Verif.Model.BoostConv

/-! # Specification for C49: Lorentz transform along z -/

namespace Fbpic.Spec

/-- The event `(t, z)` of the lab frame has the coordinates `(t', z')` in the frame moving at the speed `βc` with Lorentz
factor `γ`. -/
def LorentzEvent (γ β c t z t' z' : ℝ) : Prop := t' = γ * (t - β * z / c) ∧ z' = γ * (z - β * c * t)

/-- The energy-momentum `(g, uz)` (in units of mc², mc) of the lab frame is `(g', uz')` in the moving frame. -/
def LorentzMomentum (γ β g uz g' uz' : ℝ) : Prop := g' = γ * (g - β * uz) ∧ uz' = γ * (uz - β * g)

end Fbpic.Spec
