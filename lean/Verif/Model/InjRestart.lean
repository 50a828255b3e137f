import Verif.Model.Injection
import Verif.Model.Window

/-!
# Continuous injection along the PIC loop, with restarts

The part of `Simulation.step` (main.py) that concerns continuous injection, for one species: position of
the global domain and of the moving window (all ranks), injector of the last rank, and particles created
by it. `restart_from_checkpoint` (checkpoint_restart.py) followed by `set_moving_window` in a new process.
-/

namespace Fbpic

variable {K : Type} [Field K] [LinearOrder K] [FloorRing K]

/-- The simulation as seen by the injector of a species: `inj` is the injector on the last rank, `created` the
particles it has created, with the time at which it did (this list is not in the code: it is kept to be able
to speak about them; the particles themselves are in the arrays of the species). -/
structure InjSim (K : Type) where
  iteration : ℕ
  time : K
  w : World K
  inj : Injector K
  created : List (K × List (NewPtcl K))

/-- `comm.exchange_particles(species, fld, self.time)`, creation of particles on the last rank.
main.py:436-442, boundary_communicator.py:803-810, continuous_injection.py:159-197 -/
def InjSim.exchange (pl : InjPlasma K) (s : InjSim K) : Except PyErr (InjSim K) :=
  if s.w.win.isNone then .ok s
  else
    match s.inj.pos, s.inj.dzp with
    | some p, some d =>
      let (ps, p') := generateParticles d s.inj.vEnd pl s.time p
      .ok { s with inj := { s.inj with pos := some p' }, created := s.created ++ [(s.time, ps)] }
    | _, _ => .error (.typeError "unsupported operand type(s) for *: 'NoneType' and 'NoneType'")

/-- The rest of an iteration: shifts of the Galilean frame (`vGal` is 0 for a standard solver), motion of the
window and of the injection positions, time and iteration. main.py:495-497, 523-525, 544-562,
moving_window.py:119-131 -/
def InjSim.advance (c : Comm) (dz dt vGal : K) (s : InjSim K) : Except PyErr (InjSim K) :=
  let w := shiftGalilean (shiftGalilean s.w vGal (1 / 2 * dt)) vGal (1 / 2 * dt)
  match w.win with
  | none => .ok { s with w := w, time := s.time + dt, iteration := s.iteration + 1 }
  | some win => do
    let (w', _) ← moveGrids c dz w s.time
    match s.inj.pos, s.inj.dzp with
    | some p, some d =>
      .ok { s with
        w := w'
        inj := { s.inj with pos := some (incrementPos d s.inj.vEnd win.v (s.time - win.tLast) p) }
        time := s.time + dt
        iteration := s.iteration + 1 }
    | _, _ => .error (.typeError "unsupported operand type(s) for +=: 'NoneType' and 'float'")

/-- One iteration of `Simulation.step`; `first` is `i_step == 0`. main.py:421-562.
(A period of 0 raises in the code.) -/
def InjSim.iter (c : Comm) (dz dt vGal : K) (pl : InjPlasma K) (first : Bool) (s : InjSim K) :
    Except PyErr (InjSim K) := do
  let s ← if (s.iteration : ℤ) % c.exchangePeriod = 0 ∨ first = true then s.exchange pl else .ok s
  s.advance c dz dt vGal

/-- The loop of `Simulation.step`. main.py:421-568 -/
def InjSim.loop (c : Comm) (dz dt vGal : K) (pl : InjPlasma K) : ℕ → Bool → InjSim K → Except PyErr (InjSim K)
  | 0, _, s => .ok s
  | n + 1, first, s => do
    let s ← s.iter c dz dt vGal pl first
    InjSim.loop c dz dt vGal pl n false s

/-- `Simulation.step(N)`, where `zs` are the positions of the particles of the species on the last rank.
main.py:390-395, 421-568 -/
def InjSim.stepN [IsStrictOrderedRing K] (c : Comm) (dz dt vGal : K) (pl : InjPlasma K) (zs : List K) (N : ℕ)
    (s : InjSim K) : Except PyErr (InjSim K) := do
  let inj ← match s.w.win with
    | none => .ok s.inj
    | some win => s.inj.initialize c (s.w.zminG (c.size - 1)) dz (c.size - 1) win.v zs dt
  InjSim.loop c dz dt vGal pl N true { s with inj := inj }

/-- `set_moving_window(v)` (main.py:1031-1032). -/
def InjSim.setWindow (c : Comm) (dz dt v : K) (s : InjSim K) : Except PyErr (InjSim K) := do
  let win ← mkMovWin c dz s.w v s.time dt
  return { s with w := { s.w with win := some win } }

/-- A new process that restarts from the state `s`: the position of the grid, the time and the iteration are
those of the checkpoint (C43), the injection positions are reset, there is no window yet.
checkpoint_restart.py:77-189, 345-347 -/
def InjSim.restarted (s : InjSim K) : InjSim K :=
  { s with w := { s.w with win := none }, inj := s.inj.reset }

end Fbpic
