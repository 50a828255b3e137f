import Verif.Model.ParticleExchange

/-!
# Model of the displacements between two particle exchanges (`main.py`, method `step`)

Only what moves: the grids (`World`) and, abstractly, the particles.
-/

namespace Fbpic

variable {K : Type} [Field K] [LinearOrder K] [FloorRing K]

/-- Displacements of the grids in one iteration at the time `t`, in the order of the code: two Galilean shifts
by `dt/2` (main.py:495-497, 523-525; `vGal` is `none` if not `use_galilean`) and the moving window
(main.py:545-549; `World.step` does nothing if there is none). -/
def iterOps (vGal : Option K) (dt t : K) : List (PosOp K) :=
  (match vGal with
    | some v => [.galilean v (dt / 2), .galilean v (dt / 2)]
    | none => []) ++ [.move t]

/-- Displacements of the grids in `k` iterations from the time `t` on; `self.time += dt` at main.py:560. -/
def stretchOps (vGal : Option K) (dt t : K) (k : ℕ) : List (PosOp K) :=
  (List.range k).flatMap fun (i : ℕ) => iterOps vGal dt (t + (i : K) * dt)

end Fbpic
