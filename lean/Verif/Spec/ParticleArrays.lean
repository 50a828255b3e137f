import Verif.Spec.Particle
import Verif.Model.ParticleExchange

/-!
# Reading of the particle arrays of the code as lists of macroparticles

`Species.ofList tracked ionizable ps`: the arrays (one entry per particle in each) that hold the
particles `ps`. Every set of arrays of equal lengths is of this form.
-/

namespace Fbpic
open Spec

variable {K : Type}

/-- Arrays holding the particles `ps`. -/
def Species.ofList (tracked ionizable : Bool) (ps : List (Ptcl K)) : Species K :=
  { x := ps.map Ptcl.x, y := ps.map Ptcl.y, z := ps.map Ptcl.z, ux := ps.map Ptcl.ux
    uy := ps.map Ptcl.uy, uz := ps.map Ptcl.uz, invGamma := ps.map Ptcl.invGamma
    w := ps.map Ptcl.w
    id := if tracked then some (ps.map Ptcl.id) else none
    ion := if ionizable then some (ps.map Ptcl.level, ps.map Ptcl.wl) else none }

/-- Buffers (in the dtypes float64, uint64) holding the particles `ps`. -/
def PBuf.ofList (tracked ionizable : Bool) (ps : List (Ptcl K)) : PBuf K :=
  { floats := [ps.map Ptcl.x, ps.map Ptcl.y, ps.map Ptcl.z, ps.map Ptcl.ux, ps.map Ptcl.uy,
               ps.map Ptcl.uz, ps.map Ptcl.invGamma, ps.map Ptcl.w] ++
      (if ionizable then [ps.map Ptcl.wl] else [])
    words := (if tracked then [ps.map Ptcl.id] else []) ++
      (if ionizable then [ps.map Ptcl.level] else []) }

end Fbpic
