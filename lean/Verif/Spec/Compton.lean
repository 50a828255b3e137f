import Verif.Model.Compton

/-!
# Specification of Compton scattering (C18, C19)
-/

namespace Fbpic

/-- Invariant `p² - |p⃗|²` of a four-momentum: zero for a photon. -/
noncomputable def FourMom.inv (q : FourMom) : ℝ := q.p ^ 2 - (q.px ^ 2 + q.py ^ 2 + q.pz ^ 2)

/-- The Lorentz factor that belongs to the stored momentum. -/
noncomputable def ElecMom.gamma (e : ElecMom) : ℝ :=
  Real.sqrt (1 + e.ux ^ 2 + e.uy ^ 2 + e.uz ^ 2)

/-- The stored `inv_gamma` matches the stored momentum. -/
def ElecMom.ok (e : ElecMom) : Prop := e.invGamma = 1 / e.gamma

namespace Spec
variable {Pos : Type}

/-- The photons of electron `i`: as many as were drawn, each at the position of the electron, with
its weight divided by the ratio. -/
noncomputable def photonsOf (invMC invRatio : ℝ) (q : FourMom) (el : ComptonElec Pos) (n : ℕ → ℕ)
    (D : ComptonDraws) (i : ℕ) : List (PhotonRec Pos) :=
  (List.range (n i)).map fun j =>
    mkPhoton (el.pos i) (el.w i) invRatio (scatterPhoton invMC (el.mom i) q (D.scat i j))

open Classical in
/-- The momentum of electron `i` after the step. -/
noncomputable def newMom (invMC invRatio : ℝ) (q : FourMom) (el : ComptonElec Pos) (n : ℕ → ℕ)
    (D : ComptonDraws) (i : ℕ) : ElecMom :=
  if 0 < n i ∧ D.recoilDraw i < invRatio then
    recoil invMC (el.mom i) q (scatterPhoton invMC (el.mom i) q (D.scat i (n i - 1)))
  else el.mom i

end Spec

end Fbpic
