import Verif.Model.Comm

/-!
# Model of the grid positions: `fields/interpolation_grid.py`, `boundaries/moving_window.py`,
`Simulation.shift_galilean_boundaries`, `Simulation.set_moving_window`

The state of *all* ranks is modelled: each rank has its own copy of the communicator attribute
`_zmin_global_domain` and of the edges of its interpolation grids (one per azimuthal mode).
-/

namespace Fbpic

variable {K : Type} [Field K] [LinearOrder K] [FloorRing K]

/-- Position attributes of an `InterpolationGrid`. interpolation_grid.py:65-80 -/
structure InterpGrid (K : Type) where
  Nz : ℕ
  zmin : K
  zmax : K
  dz : K
  deriving DecidableEq

/-- `InterpolationGrid.__init__`, position part: `dz = (zmax-zmin)/Nz` is computed once.
interpolation_grid.py:65-80. Division by zero raises in Python. -/
def InterpGrid.mk' (Nz : ℕ) (zmin zmax : K) : Except PyErr (InterpGrid K) :=
  if Nz = 0 then .error (.runtimeError "ZeroDivisionError")
  else .ok { Nz := Nz, zmin := zmin, zmax := zmax, dz := (zmax - zmin) / (Nz : K) }

/-- Property `z` of `InterpolationGrid`: position of the centre of cell `j`.
interpolation_grid.py:168-171 -/
def InterpGrid.z (g : InterpGrid K) (j : ℕ) : K := g.zmin + (1 / 2 + (j : K)) * g.dz

/-- Grid of one rank as created in `Simulation.__init__` (main.py:291-296) from
`divide_into_domain`. -/
def initGrid (c : Comm) (z0 dz : K) (rank : ℕ) : Except PyErr (InterpGrid K) := do
  let (zmin, zmax, nz) ← c.divideIntoDomain z0 dz rank
  InterpGrid.mk' nz zmin zmax

/-- State of a `MovingWindow` (moving_window.py:45-57). `zmin` is only stored on rank 0. -/
structure MovWin (K : Type) where
  v : K
  tLast : K
  zmin : K

/-- Grid positions on all ranks. `zminG r` is `_zmin_global_domain` of rank `r`,
`interp r m` the grid of mode `m` on rank `r`. `win` is `None` until `set_moving_window`. -/
structure World (K : Type) where
  zminG : ℕ → K
  interp : ℕ → ℕ → InterpGrid K
  win : Option (MovWin K)

/-- `MovingWindow.__init__` raises on this rank. moving_window.py:38-43 -/
def movWinRaises (c : Comm) (rank : ℕ) : Bool :=
  (rank + 1 = c.size ∧ (c.rightProc rank).isSome) ∨ (rank = 0 ∧ (c.leftProc rank).isSome)

/-- `MovingWindow.__init__` (on all ranks). moving_window.py:38-57.
`get_zmin_zmax(local=False, with_damp=False, with_guard=False)` on rank 0. -/
def mkMovWin (c : Comm) (dz : K) (w : World K) (v time dt : K) : Except PyErr (MovWin K) := do
  if (List.range c.size).any (movWinRaises c) then
    throw (.valueError "The simulation is using a moving window, but the boundaries are periodic.")
  let (zmin, _) ← c.getZminZmax (w.zminG 0) dz false false false none
  return { v := v, tLast := time - dt, zmin := zmin }

/-- Number of cells decided by rank 0 and broadcast, with the updated continuous position.
moving_window.py:85-97 -/
def decideMove (c : Comm) (dz : K) (w : World K) (win : MovWin K) (time : K) :
    Except PyErr (ℤ × MovWin K) := do
  let zmin := win.zmin + win.v * (time - win.tLast)
  let (zminGlobal, _) ← c.getZminZmax (w.zminG 0) dz false false false none
  let nMove := pyInt ((zmin - zminGlobal) / dz)
  return (nMove, { win with zmin := zmin })

/-- `MovingWindow.move_grids`, position part, on all ranks. moving_window.py:60-131 -/
def moveGrids (c : Comm) (dz : K) (w : World K) (time : K) : Except PyErr (World K × ℤ) :=
  match w.win with
  | none => .error (.attributeError "moving_win is None")
  | some win => do
    let (nMove, win) ← decideMove c dz w win time
    let win := { win with tLast := time }
    if nMove ≠ 0 then
      return ({ zminG := fun r => Comm.shiftGlobalDomainPositions (w.zminG r) ((nMove : K) * dz)
                interp := fun r m => { w.interp r m with
                  zmin := (w.interp r m).zmin + (nMove : K) * (w.interp r m).dz
                  zmax := (w.interp r m).zmax + (nMove : K) * (w.interp r m).dz }
                win := some win }, nMove)
    else
      return ({ w with win := some win }, nMove)

/-- `Simulation.shift_galilean_boundaries(dt)`, on all ranks. main.py:772-789 -/
def shiftGalilean (w : World K) (vComoving dt : K) : World K :=
  { w with
    zminG := fun r => Comm.shiftGlobalDomainPositions (w.zminG r) (vComoving * dt)
    interp := fun r m => { w.interp r m with
      zmin := (w.interp r m).zmin + vComoving * dt
      zmax := (w.interp r m).zmax + vComoving * dt } }

/-- Operations on the grid positions during a run. -/
inductive PosOp (K : Type)
  /-- `set_moving_window(v)` at simulation time `time` with time step `dt`; main.py:1031-1032 -/
  | setWindow (v time dt : K)
  /-- `comm.move_grids(fld, ptcl, dt, time)`; main.py:545-548, boundary_communicator.py:527-553 -/
  | move (time : K)
  /-- `shift_galilean_boundaries(dt)`; main.py:497,525,692,704,716 -/
  | galilean (v dt : K)

/-- One operation. -/
def World.step (c : Comm) (dz : K) (w : World K) : PosOp K → Except PyErr (World K)
  | .setWindow v time dt => do
    let win ← mkMovWin c dz w v time dt
    return { w with win := some win }
  | .move time => do
    -- main.py:545 calls `move_grids` only if `self.moving_win is not None`
    if w.win.isNone then return w
    else
      let (w', _) ← moveGrids c dz w time
      return w'
  | .galilean v dt => return shiftGalilean w v dt

/-- A history of operations. -/
def World.run (c : Comm) (dz : K) : World K → List (PosOp K) → Except PyErr (World K)
  | w, [] => .ok w
  | w, o :: os => do
    let w' ← w.step c dz o
    World.run c dz w' os

/-- Initial world after `Simulation.__init__`. `g r` is the grid built on rank `r`. -/
def World.start (z0 : K) (g : ℕ → InterpGrid K) : World K :=
  { zminG := fun _ => z0, interp := fun r _ => g r, win := none }

end Fbpic
