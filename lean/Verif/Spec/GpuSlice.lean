import Verif.Model.GpuSlice
import Verif.Spec.GpuExchange

/-!
# Specification: particles near the output plane
-/

namespace Fbpic.GpuSlice
open _root_.Spec

variable {K : Type}

/-- The dictionary that lists the particles `ps`, with weight `wgt p` for particle `p`. -/
def PData.ofList (tracked ionizable : Bool) (wgt : Ptcl K → K) (ps : List (Ptcl K)) : PData K :=
  { x := ps.map Ptcl.x, y := ps.map Ptcl.y, z := ps.map Ptcl.z, ux := ps.map Ptcl.ux
    uy := ps.map Ptcl.uy, uz := ps.map Ptcl.uz, w := ps.map wgt, invGamma := ps.map Ptcl.invGamma
    charge := if ionizable then some (ps.map Ptcl.level) else none
    id := if tracked then some (ps.map Ptcl.id) else none }

/-- A macroparticle crossed the plane, which moved from `prev` to `cur` during the last time step
`dt`, at velocity `uz/gamma*c`: it was on one side (or on the plane) before and is on the other (or
on the plane) now. -/
def Crossed [Field K] [LinearOrder K] (c dt cur prev : K) (p : Ptcl K) : Prop :=
  let before := p.z - p.uz * p.invGamma * c * dt
  (before ≤ prev ∧ cur ≤ p.z) ∨ (prev ≤ before ∧ p.z ≤ cur)

instance [Field K] [LinearOrder K] (c dt cur prev : K) (p : Ptcl K) :
    Decidable (Crossed c dt cur prev p) := by unfold Crossed; infer_instance

end Fbpic.GpuSlice
