import Verif.Model.Push
import Verif.Spec.Compton

/-!
# Specification of the momentum push (C27, C28, C61)
-/

namespace Fbpic.Spec

/-- The equation of motion over one time step: the momentum change is the electric kick plus the
magnetic force with the mean of the initial and the final velocity; `(v × B)` is written out.
`kE = q dt/(m c)`, `kB = q dt/(2 m)`, `v/c = u/gamma`. The final inverse Lorentz factor belongs to
the final momentum. -/
structure NewtonLorentz (kE kB : ℝ) (E B : Vec3) (i f : ElecMom) : Prop where
  onShell : f.invGamma = 1 / Real.sqrt (1 + f.ux ^ 2 + f.uy ^ 2 + f.uz ^ 2)
  x : f.ux - i.ux = kE * E.x
    + kB * ((i.uy / i.gamma + f.uy / f.gamma) * B.z - (i.uz / i.gamma + f.uz / f.gamma) * B.y)
  y : f.uy - i.uy = kE * E.y
    + kB * ((i.uz / i.gamma + f.uz / f.gamma) * B.x - (i.ux / i.gamma + f.ux / f.gamma) * B.z)
  z : f.uz - i.uz = kE * E.z
    + kB * ((i.ux / i.gamma + f.ux / f.gamma) * B.y - (i.uy / i.gamma + f.uy / f.gamma) * B.x)

/-- Reversal of the direction of motion. -/
def flipU (e : ElecMom) : ElecMom := { e with ux := -e.ux, uy := -e.uy, uz := -e.uz }

/-- Reversal of a field. -/
def neg (v : Vec3) : Vec3 := ⟨-v.x, -v.y, -v.z⟩

end Fbpic.Spec
