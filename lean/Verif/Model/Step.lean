import Verif.Model.Comm
import Mathlib.Data.Rat.Floor

/-!
# The PIC cycle

`Simulation.step`, `deposit`, `cross_deposit`, `shift_galilean_boundaries` of `main.py` and the
bookkeeping of `Fields.push`, `Fields.correct_currents`, `push_rho` (`fields/fields.py`).

The model follows one (arbitrary) macroparticle and one (arbitrary) antenna particle, and every
source array remembers from which positions, velocity and grid offset it was deposited. What the
momentum push, the elementary processes, the particle exchange and the antenna do is an arbitrary
function (`Dynamics`): the statements hold for all of them. All calls are recorded in a log.

Not modelled here: the field arrays themselves (`Model/Spectral.lean`, `Model/Damping.lean`),
the progress bar, the transfers to and from the GPU.
-/

namespace Fbpic.Step

variable {K : Type} [Field K]

/-- A vector in the Cartesian coordinates of the particles. -/
@[ext] structure Vec (K : Type) where
  x : K
  y : K
  z : K

/-- Arguments of `step` (main.py:346-349) without `N` and `show_progress`. -/
structure Opts where
  correctCurrents : Bool := true
  correctDivE : Bool := false
  useTrueRho : Bool := false
  movePositions : Bool := true
  moveMomenta : Bool := true

/-- The attributes of the simulation that `step` reads. `crossDep` is
`fld.current_correction == 'cross-deposition'`, `movingWin` is `comm.moving_win is not None`. -/
structure Cfg (K : Type) where
  dt : K
  size : ℕ
  exchangePeriod : ℕ
  crossDep : Bool
  useGalilean : Bool
  vComoving : K
  movingWin : Bool

/-- The parts of the simulation that are arbitrary here: the velocity after the momentum push at a
given time, after the elementary processes, the position after the particle exchange, and the
velocity of the antenna. -/
structure Dynamics (K : Type) where
  pushP : K → Vec K → Vec K → Vec K
  elementary : K → Vec K → Vec K → Vec K
  exchange : K → Vec K → Vec K
  antenna : K → Vec K

/-- What a charge density was deposited from, and whether its guard cells were exchanged. -/
@[ext] structure RhoSrc (K : Type) where
  pos : Vec K
  antenna : Vec K
  grid : K
  exchanged : Bool

/-- What a current was deposited from, and whether its guard cells were exchanged. -/
@[ext] structure JSrc (K : Type) where
  pos : Vec K
  vel : Vec K
  antenna : Vec K
  antennaVel : Vec K
  grid : K
  exchanged : Bool

/-- The sources in spectral space (`none` before the first deposition). -/
structure Sources (K : Type) where
  rhoPrev : Option (RhoSrc K) := none
  rhoNext : Option (RhoSrc K) := none
  rhoNextXY : Option (RhoSrc K) := none
  rhoNextZ : Option (RhoSrc K) := none
  J : Option (JSrc K) := none

/-- `fld.exchanged_source` (fields.py:201-203): note that there is no key 'rho_next' initially. -/
structure Flags where
  J : Bool := false
  rhoPrev : Bool := false
  rhoNext : Option Bool := none
  rhoNextXY : Bool := false
  rhoNextZ : Bool := false

/-- Names of the deposited fields. -/
inductive Src where
  | J | rhoPrev | rhoNext | rhoNextXY | rhoNextZ
deriving DecidableEq

/-- The calls made by `step`. -/
inductive Ev (K : Type) where
  | startFields
  | exchangeParticles (t : K)
  | deposit (f : Src) (exchange : Bool)
  | gather
  | externalFields (t : K)
  | diagWrite (iteration : ℕ) (s : Sources K) (f : Flags)
  | pushP (t : K)
  | pushX (dt x y z : K)
  | antennaV (t : K)
  | antennaX (dt x y z : K)
  | shiftGalilean (dt : K)
  | elementary (t : K)
  | correctCurrents (s : Sources K)
  | exchangeJ
  | push (s : Sources K)
  | correctDivE
  | moveGrids (t : K)
  | exchangeAndDampEB
  | checkpointWrite (iteration : ℕ)
  | endFields (exchangeJ exchangeRho : Bool)

/-- The state. -/
structure World (K : Type) where
  iteration : ℕ
  time : K
  pos : Vec K
  vel : Vec K
  apos : Vec K
  avel : Vec K
  grid : K
  src : Sources K
  flags : Flags
  log : List (Ev K)

namespace World

/-- Append to the log. -/
def emit (e : Ev K) (w : World K) : World K := { w with log := w.log ++ [e] }

/-- `x += v * dt` with the push factors (particles.py `push_x`). -/
def pushX (dt px py pz : K) (w : World K) : World K :=
  { w with pos := ⟨w.pos.x + dt * px * w.vel.x, w.pos.y + dt * py * w.vel.y, w.pos.z + dt * pz * w.vel.z⟩ }.emit
    (.pushX dt px py pz)

/-- `LaserAntenna.push_x` (lpa_utils/laser/antenna_injection.py:223-247). -/
def antennaX (dt px py pz : K) (w : World K) : World K :=
  { w with apos := ⟨w.apos.x + dt * px * w.avel.x, w.apos.y + dt * py * w.avel.y, w.apos.z + dt * pz * w.avel.z⟩ }.emit
    (.antennaX dt px py pz)

/-- `shift_galilean_boundaries` (main.py:772-789). -/
def shiftGalilean (c : Cfg K) (dt : K) (w : World K) : World K :=
  { w with grid := w.grid + c.vComoving * dt }.emit (.shiftGalilean dt)

/-- `if self.use_galilean: self.shift_galilean_boundaries(dt)`. -/
def shiftIf (c : Cfg K) (dt : K) (w : World K) : World K :=
  if c.useGalilean then w.shiftGalilean c dt else w

/-- The charge density deposited now. -/
def rhoNow (ex : Bool) (w : World K) : RhoSrc K := ⟨w.pos, w.apos, w.grid, ex⟩

/-- The current deposited now. -/
def JNow (ex : Bool) (w : World K) : JSrc K := ⟨w.pos, w.vel, w.apos, w.avel, w.grid, ex⟩

/-- `deposit(fieldtype, exchange)` with `update_spectral=True` (main.py:588-670). -/
def deposit (f : Src) (exchange : Bool) (w : World K) : World K :=
  let w := w.emit (.deposit f exchange)
  match f with
  | .J => { w with src := { w.src with J := some (w.JNow exchange) }, flags := { w.flags with J := exchange } }
  | .rhoPrev => { w with src := { w.src with rhoPrev := some (w.rhoNow exchange) }, flags := { w.flags with rhoPrev := exchange } }
  | .rhoNext => { w with src := { w.src with rhoNext := some (w.rhoNow exchange) }, flags := { w.flags with rhoNext := some exchange } }
  | .rhoNextXY => { w with src := { w.src with rhoNextXY := some (w.rhoNow exchange) }, flags := { w.flags with rhoNextXY := exchange } }
  | .rhoNextZ => { w with src := { w.src with rhoNextZ := some (w.rhoNow exchange) }, flags := { w.flags with rhoNextZ := exchange } }

/-- `cross_deposit(move_positions)` (main.py:672-717). -/
def crossDeposit (c : Cfg K) (move : Bool) (w : World K) : World K :=
  let w := if move then w.pushX (1 / 2 * c.dt) 1 1 (-1) else w
  let w := w.antennaX (1 / 2 * c.dt) 1 1 (-1)
  let w := w.shiftIf c (-(1 / 2) * c.dt)
  let w := w.deposit .rhoNextXY false
  let w := if move then w.pushX c.dt (-1) (-1) 1 else w
  let w := w.antennaX c.dt (-1) (-1) 1
  let w := w.shiftIf c c.dt
  let w := w.deposit .rhoNextZ false
  let w := if move then w.pushX (1 / 2 * c.dt) 1 1 (-1) else w
  let w := w.antennaX (1 / 2 * c.dt) 1 1 (-1)
  w.shiftIf c (-(1 / 2) * c.dt)

/-- `assert b`. -/
def assert (b : Bool) : Except PyErr Unit :=
  if b then .ok () else .error (.assertionError "")

/-- `exchanged_source['rho_next']`: the key may be missing. -/
def rhoNextFlag (w : World K) : Except PyErr Bool :=
  match w.flags.rhoNext with
  | some b => .ok b
  | none => .error (.indexError "KeyError: 'rho_next'")

/-- `fld.correct_currents(check_exchanges)` (fields.py:278-302). -/
def correctCurrents (c : Cfg K) (check : Bool) (w : World K) : Except PyErr (World K) := do
  if check then
    assert (w.flags.rhoPrev == false)
    let b ← w.rhoNextFlag
    assert (b == false)
    assert (w.flags.J == false)
    if c.crossDep then
      assert (w.flags.rhoNextXY == false)
      assert (w.flags.rhoNextZ == false)
  .ok (w.emit (.correctCurrents w.src))

/-- `fld.push(use_true_rho, check_exchanges)`, followed for the sources by `push_rho`
(fields.py:247-276, spectral_grid.py `push_rho`). -/
def push (useTrueRho check : Bool) (w : World K) : Except PyErr (World K) := do
  if check then
    assert (w.flags.J == true)
    if useTrueRho then
      assert (w.flags.rhoPrev == true)
      let b ← w.rhoNextFlag
      assert (b == true)
  .ok { w.emit (.push w.src) with src := { w.src with rhoPrev := w.src.rhoNext } }

/-- First part of the loop of `step`: particle exchange, depositions of the first iteration,
gathering, diagnostics (main.py:435-482). -/
def iterStart (c : Cfg K) (o : Opts) (d : Dynamics K) (iStep : ℕ) (w : World K) : World K :=
  let w := if w.iteration % c.exchangePeriod = 0 ∨ iStep = 0 then
      ({ w with pos := d.exchange w.time w.pos }.emit (.exchangeParticles w.time)).deposit .rhoPrev
        o.useTrueRho
    else w
  let w := if iStep = 0 then w.deposit .J true else w
  let w := w.emit .gather
  let w := w.emit (.externalFields w.time)
  w.emit (.diagWrite w.iteration w.src w.flags)

/-- Second part: momentum push and first half of the position push, elementary processes
(main.py:484-507). -/
def iterHalf (c : Cfg K) (o : Opts) (d : Dynamics K) (w : World K) : World K :=
  let tHalf := w.time + 1 / 2 * c.dt
  let w := if o.moveMomenta then
      { w with vel := d.pushP tHalf w.pos w.vel }.emit (.pushP tHalf) else w
  let w := if o.movePositions then w.pushX (1 / 2 * c.dt) 1 1 1 else w
  let w := { w with avel := d.antenna tHalf }.emit (.antennaV tHalf)
  let w := w.antennaX (1 / 2 * c.dt) 1 1 1
  let w := w.shiftIf c (1 / 2 * c.dt)
  { w with vel := d.elementary tHalf w.pos w.vel }.emit (.elementary tHalf)

/-- Third part: deposition of the current, cross-deposition, second half of the position push,
deposition of the charge (main.py:509-528). -/
def iterDeposit (c : Cfg K) (o : Opts) (w : World K) : World K :=
  let w := w.deposit .J (!o.correctCurrents)
  let w := if o.correctCurrents && c.crossDep then w.crossDeposit c o.movePositions else w
  let w := if o.movePositions then w.pushX (1 / 2 * c.dt) 1 1 1 else w
  let w := w.antennaX (1 / 2 * c.dt) 1 1 1
  let w := w.shiftIf c (1 / 2 * c.dt)
  w.deposit .rhoNext o.useTrueRho

/-- The same current, with exchanged guard cells. -/
def markExchanged (j : JSrc K) : JSrc K := { j with exchanged := true }

/-- Exchange of the guard cells of the corrected current (main.py:532-538). -/
def exchangeJ (w : World K) : World K :=
  { w with src := { w.src with J := w.src.J.map markExchanged } }.emit .exchangeJ

/-- Last part: current correction, field push, window, counters, checkpoints
(main.py:529-565). -/
def iterEnd (c : Cfg K) (o : Opts) (w : World K) : Except PyErr (World K) := do
  let w ← (if o.correctCurrents then do
      let w ← w.correctCurrents c (decide (c.size > 1))
      let w := if c.size > 1 then w.exchangeJ else w
      .ok { w with flags := { w.flags with J := true } }
    else .ok w)
  let w ← w.push o.useTrueRho (decide (c.size > 1))
  let w := if o.correctDivE then w.emit .correctDivE else w
  let w := if c.movingWin then w.emit (.moveGrids w.time) else w
  let w := w.emit .exchangeAndDampEB
  let w := { w with time := w.time + c.dt, iteration := w.iteration + 1 }
  .ok (w.emit (.checkpointWrite w.iteration))

/-- One round of the loop of `step` (main.py:421-565). -/
def iter (c : Cfg K) (o : Opts) (d : Dynamics K) (iStep : ℕ) (w : World K) :
    Except PyErr (World K) :=
  if c.exchangePeriod = 0 then .error (.valueError "ZeroDivisionError")
  else (((w.iterStart c o d iStep).iterHalf c o d).iterDeposit c o).iterEnd c o

/-- The loop `for i_step in range(N)`, from `i_step = i`. -/
def loop (c : Cfg K) (o : Opts) (d : Dynamics K) (i : ℕ) : ℕ → World K → Except PyErr (World K)
  | 0, w => .ok w
  | n + 1, w => do
    let w ← w.iter c o d i
    loop c o d (i + 1) n w

/-- `step(N, …)` (main.py:346-585). -/
def step (c : Cfg K) (d : Dynamics K) (N : ℕ) (o : Opts) (w : World K) : Except PyErr (World K) := do
  if c.size > 1 ∧ o.correctDivE then
    .error (.valueError "correct_divE cannot be used in multi-proc mode.")
  else if c.size > 1 ∧ o.useTrueRho ∧ o.correctCurrents then
    .error (.valueError "`use_true_rho` cannot be used together with `correct_currents` in multi-proc mode.")
  else do
    let w := w.emit .startFields
    let w ← loop c o d 0 N w
    .ok (w.emit (.endFields (!w.flags.J && decide (c.size > 1))
      (!w.flags.rhoPrev && decide (c.size > 1))))

/-- Several calls to `step`. -/
def calls (c : Cfg K) (d : Dynamics K) : List (ℕ × Opts) → World K → Except PyErr (World K)
  | [], w => .ok w
  | (n, o) :: L, w => do
    let w ← step c d n o w
    calls c d L w

end World

/-! ### Schedule of the diagnostics -/

/-- Python's `round` of a rational number to an integer, half to even. -/
def roundHalfEven (x : ℚ) : ℤ :=
  let f := x - ⌊x⌋
  if f < 1 / 2 then ⌊x⌋
  else if f > 1 / 2 then ⌊x⌋ + 1
  else if ⌊x⌋ % 2 = 0 then ⌊x⌋ else ⌊x⌋ + 1

/-- An `OpenPMDDiagnostic` (generic_diag.py:26-94). `iterationMax = none` is `np.inf`. -/
structure Diag where
  period : ℕ
  iterationMin : ℤ
  iterationMax : Option ℤ

/-- `OpenPMDDiagnostic.__init__` (generic_diag.py:66-84). `dt_sim` is the time step of the
simulation. -/
def mkDiag (period : Option ℚ) (dtPeriod : Option ℚ) (dtSim : ℚ) (iterationMin : ℤ)
    (iterationMax : Option ℤ) : Except PyErr Diag :=
  match period, dtPeriod with
  | none, none => .error (.valueError "You need to pass either `period` or `dt_period`")
  | some _, some _ => .error (.valueError "do not pass both.")
  | some p, none => .ok ⟨(max 1 (roundHalfEven p)).toNat, iterationMin, iterationMax⟩
  | none, some dp => .ok ⟨(max 1 (roundHalfEven (dp / dtSim))).toNat, iterationMin, iterationMax⟩

/-- `OpenPMDDiagnostic.write`: whether `write_hdf5` is called (generic_diag.py:124-140). -/
def Diag.writes (d : Diag) (iteration : ℕ) : Bool :=
  iteration % d.period == 0 && decide (d.iterationMin ≤ iteration) &&
    (match d.iterationMax with | none => true | some m => decide ((iteration : ℤ) < m))

end Fbpic.Step
