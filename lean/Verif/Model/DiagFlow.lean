import Verif.Model.Step

/-!
# Which arrays are read and written in the PIC cycle, diagnostics included

The data flow of `Simulation.step`, `deposit`, `cross_deposit`, `exchange_and_damp_EB` (`main.py`) and
of the `write` methods of the diagnostics (`openpmd_diag/`): every operation is an arbitrary function
(`Ops`) of exactly the arrays that the code passes to it, so that the statements hold whatever it
computes. The arrays of all azimuthal modes and all ranks are one value of the type `A` (interpolation
grid) or `S` (spectral grid), the particles and antennas (with the state of the injectors and of the
moving window) one value of `P`, the positions of the grids one value of `G`. `R` is the state of numpy's
random number generator. What a diagnostic keeps in memory and on disk is one value of `O` per
diagnostic.

Simplifications: CPU (on the GPU the deposition also sorts the particles); the exchanges between ranks
do not raise (C04_ok_iff); the files of different diagnostics are different values although they may
share a file on disk.
-/

namespace Fbpic.Flow

/-- The arguments of `step` (main.py:346-349) and the attributes of the simulation that it reads. -/
structure Cfg (K : Type) where
  dt : K
  size : ℕ
  exchangePeriod : ℕ
  crossDep : Bool
  useGalilean : Bool
  usePml : Bool
  movingWin : Bool
  filterCurrents : Bool
  correctCurrents : Bool
  correctDivE : Bool
  useTrueRho : Bool
  movePositions : Bool
  moveMomenta : Bool

/-- The electromagnetic fields (with their PML parts), as arrays of one kind. -/
@[ext] structure EM (X : Type) where
  E : X
  B : X
  Epml : X
  Bpml : X

/-- The operations. The arguments are the arrays read, the result the arrays written. -/
structure Ops (K A S P G R : Type) where
  /-- `initialize_injection_positions` (main.py:399-404) -/
  initInjection : G → P → P
  /-- `exchange_particles`, `update_current_rank` (main.py:447-450); injected particles have random
  momenta (particle_injection.py) -/
  exchangeParticles : G → K → P → R → P × R
  /-- `gather` (main.py:473-474) -/
  gather : G → A → A → P → P
  /-- `apply_expression` of the external fields (main.py:476-477) -/
  external : K → P → P
  /-- `push_p` (main.py:489-491) -/
  pushP : K → P → P
  /-- `push_x` of the species with the push factors (main.py:492-494) -/
  pushX : K → K → K → K → P → P
  /-- `update_v` of the antennas (main.py:497) -/
  antennaV : K → P → P
  /-- `push_x` of the antennas (main.py:498) -/
  antennaX : K → K → K → K → P → P
  /-- `shift_galilean_boundaries` (main.py:772-789) -/
  shiftGalilean : K → G → G
  /-- `handle_elementary_processes`: ionization and scattering draw random numbers
  (main.py:506-507, ionizer.py:247) -/
  elementary : K → P → R → P × R
  /-- `erase`, `deposit` of the species and antennas, `sum_reduce_deposition_array`,
  `divide_by_volume` for rho (main.py:627-640); `none`: all species and antennas -/
  depositRho : G → P → Option ℕ → A
  /-- the same for J (main.py:646-660) -/
  depositJ : G → P → Option ℕ → A
  /-- `exchange_fields(…, 'add')` for rho, for J -/
  addRho : A → A
  addJ : A → A
  /-- `exchange_fields(…, 'replace')` of E and B, `damp_EB_open_boundary` (main.py:415-417) -/
  startEB : EM A → EM A
  /-- exchange, damping and mirrors (main.py:742-752) -/
  boundaryEB : G → K → EM A → EM A
  /-- `interp2spect`, `spect2interp` for vector fields and for rho -/
  toSpect : A → S
  toInterp : S → A
  toSpectRho : A → S
  toInterpRho : S → A
  /-- `spect2partial_interp`, `partial_interp2spect` -/
  toPartial : S → A
  fromPartial : A → S
  /-- `filter_spect` -/
  filter : S → S
  /-- `correct_currents` of a spectral grid (spectral_grid.py:198-300): new J from J, rho_prev,
  rho_next, rho_next_xy, rho_next_z -/
  correctCurrents : S → S → S → S → S → S
  /-- `push_eb_with` (spectral_grid.py:302-405): from J, rho_prev, rho_next -/
  pushEB : EM S → S → S → S → EM S
  /-- the array of zeros that `push_rho` leaves in rho_next (spectral_grid.py:421) -/
  zero : S
  /-- `correct_divE` (spectral_grid.py): from rho_prev -/
  correctDivE : EM S → S → EM S
  /-- `move_grids` (moving_window.py:60-131): window and injectors (in `P`), grids, spectral fields
  E, B, rho_prev, J -/
  moveGrids : K → G → P → EM S → S → S → P × G × EM S × S × S

/-- The state of the simulation. `iRho`, `iJ`: the arrays of the interpolation grid; `sPrev`, `sNext`,
`sXY`, `sZ`, `sJ`: the arrays of the spectral grid; `x…`: `fld.exchanged_source`. -/
structure State (K A S P G R O : Type) where
  iteration : ℕ
  time : K
  ptcl : P
  grid : G
  rng : R
  interp : EM A
  iRho : A
  iJ : A
  spect : EM S
  sPrev : S
  sNext : S
  sXY : S
  sZ : S
  sJ : S
  xPrev : Bool
  xNext : Bool
  xXY : Bool
  xZ : Bool
  xJ : Bool
  out : ℕ → O

/-- What a diagnostic does when it is called. The functions are what it does to its own memory and
files, from what it has read. -/
inductive Kind (K A P G R O : Type)
  /-- `FieldDiagnostic` (field_diag.py:74-159), with the presence of 'rho' and 'J' in `fieldtypes` and of
  a communicator; E, B and the PML fields are read from the interpolation grid. -/
  | field (rho J comm : Bool) (write : ℕ → G → EM A → Option A → Option A → O → O)
  /-- `ParticleChargeDensityDiagnostic` for a list of species (particle_density_diag.py:70-141) -/
  | density (species : List ℕ) (write : ℕ → G → ℕ → A → O → O)
  /-- `ParticleDiagnostic` (particle_diag.py:212-280); with `subsampling_fraction` random numbers are
  drawn (particle_diag.py:384-388) -/
  | particle (subsampling : Option (P → R → R)) (write : ℕ → P → Option R → O → O)
  /-- `BackTransformedFieldDiagnostic` (boosted_field_diag.py:129-199): `rhoJ` is the test whether 'rho' or
  'J' is in `fieldtypes` -/
  | labField (rhoJ comm : Bool) (write : ℕ → G → EM A → Option A → Option A → O → O)
  /-- `BackTransformedParticleDiagnostic` (boosted_particle_diag.py:140-220) -/
  | labParticle (subsampling : Option (P → R → R)) (write : ℕ → G → P → Option R → O → O)

/-- A diagnostic: where its memory and files are, when it writes, and what. -/
structure Diag (K A P G R O : Type) where
  id : ℕ
  schedule : Step.Diag
  kind : Kind K A P G R O

variable {K A S P G R O : Type}

/-- `deposit(fieldtype, exchange, species_list)` for the charge densities (main.py:588-670): the arrays
of the interpolation grid and the spectral array. -/
def rhoOnGrid (c : Cfg K) (o : Ops K A S P G R) (exchange : Bool) (sp : Option ℕ)
    (s : State K A S P G R O) : A :=
  let a := o.depositRho s.grid s.ptcl sp
  if exchange ∧ c.size > 1 then o.addRho a else a

/-- `interp2spect` and the optional filter (main.py:664-667). -/
def rhoOnSpect (c : Cfg K) (o : Ops K A S P G R) (a : A) : S :=
  if c.filterCurrents then o.filter (o.toSpectRho a) else o.toSpectRho a

/-- `deposit('rho_prev', exchange)`. -/
def depositPrev (c : Cfg K) (o : Ops K A S P G R) (exchange : Bool) (s : State K A S P G R O) :
    State K A S P G R O :=
  let a := rhoOnGrid c o exchange none s
  { s with iRho := a, sPrev := rhoOnSpect c o a, xPrev := exchange }

/-- `deposit('rho_next', exchange, species_list=…)`. -/
def depositNext (c : Cfg K) (o : Ops K A S P G R) (exchange : Bool) (sp : Option ℕ)
    (s : State K A S P G R O) : State K A S P G R O :=
  let a := rhoOnGrid c o exchange sp s
  { s with iRho := a, sNext := rhoOnSpect c o a, xNext := exchange }

/-- `deposit('rho_next_xy')`. -/
def depositXY (c : Cfg K) (o : Ops K A S P G R) (s : State K A S P G R O) : State K A S P G R O :=
  let a := rhoOnGrid c o false none s
  { s with iRho := a, sXY := rhoOnSpect c o a, xXY := false }

/-- `deposit('rho_next_z')`. -/
def depositZ (c : Cfg K) (o : Ops K A S P G R) (s : State K A S P G R O) : State K A S P G R O :=
  let a := rhoOnGrid c o false none s
  { s with iRho := a, sZ := rhoOnSpect c o a, xZ := false }

/-- `deposit('J', exchange)` (main.py:643-670). -/
def depositJ (c : Cfg K) (o : Ops K A S P G R) (exchange : Bool) (s : State K A S P G R O) :
    State K A S P G R O :=
  let a := o.depositJ s.grid s.ptcl none
  let a := if exchange ∧ c.size > 1 then o.addJ a else a
  let j := o.toSpect a
  { s with iJ := a, sJ := if c.filterCurrents then o.filter j else j, xJ := exchange }

/-! ### The diagnostics -/

/-- `spect2interp('rho_prev')` and the exchange if needed (field_diag.py:84-91). -/
def bringRho (c : Cfg K) (o : Ops K A S P G R) (comm : Bool) (s : State K A S P G R O) :
    State K A S P G R O :=
  let a := o.toInterpRho s.sPrev
  { s with iRho := if comm ∧ c.size > 1 ∧ s.xPrev = false then o.addRho a else a }

/-- `spect2interp('J')` and the exchange if needed (field_diag.py:92-97). -/
def bringJ (c : Cfg K) (o : Ops K A S P G R) (comm : Bool) (s : State K A S P G R O) :
    State K A S P G R O :=
  let a := o.toInterp s.sJ
  { s with iJ := if comm ∧ c.size > 1 ∧ s.xJ = false then o.addJ a else a }

/-- One species of the density diagnostic (particle_density_diag.py:98-141). -/
def densityOf (c : Cfg K) (o : Ops K A S P G R) (id : ℕ) (write : ℕ → G → ℕ → A → O → O)
    (s : State K A S P G R O) (sp : ℕ) : State K A S P G R O :=
  let s := depositNext c o false (some sp) s
  let a := o.toInterpRho s.sNext
  let s := { s with iRho := if c.size > 1 then o.addRho a else a }
  { s with out := Function.update s.out id (write s.iteration s.grid sp s.iRho (s.out id)) }

/-- `apply_selection` of the particle diagnostics: random numbers for the subsampling, and the
generator after it. -/
def subsample (sub : Option (P → R → R)) (s : State K A S P G R O) : Option R × State K A S P G R O :=
  match sub with
  | none => (none, s)
  | some draw => (some s.rng, { s with rng := draw s.ptcl s.rng })

/-- `diag.write(iteration)` (generic_diag.py:124-140; boosted_field_diag.py:129-138;
boosted_particle_diag.py:128-137). The back-transformed diagnostics work at every iteration. -/
def writeDiag (c : Cfg K) (o : Ops K A S P G R) (s : State K A S P G R O)
    (d : Diag K A P G R O) : State K A S P G R O :=
  match d.kind with
  | .field rho J comm write =>
    if d.schedule.writes s.iteration then
      let s := if rho then bringRho c o comm s else s
      let s := if J then bringJ c o comm s else s
      { s with out := Function.update s.out d.id (write s.iteration s.grid s.interp
          (if rho then some s.iRho else none) (if J then some s.iJ else none) (s.out d.id)) }
    else s
  | .density species write =>
    if d.schedule.writes s.iteration then species.foldl (densityOf c o d.id write) s else s
  | .particle sub write =>
    if d.schedule.writes s.iteration then
      let (r, s) := subsample sub s
      { s with out := Function.update s.out d.id (write s.iteration s.ptcl r (s.out d.id)) }
    else s
  | .labField rhoJ comm write =>
    let s := if rhoJ then bringRho c o comm (bringJ c o comm s) else s
    { s with out := Function.update s.out d.id (write s.iteration s.grid s.interp
        (if rhoJ then some s.iRho else none) (if rhoJ then some s.iJ else none) (s.out d.id)) }
  | .labParticle sub write =>
    let (r, s) := subsample sub s
    { s with out := Function.update s.out d.id (write s.iteration s.grid s.ptcl r (s.out d.id)) }

/-- `for diag in self.diags: diag.write(self.iteration)` (main.py:482-486). -/
def writeDiags (c : Cfg K) (o : Ops K A S P G R) (L : List (Diag K A P G R O))
    (s : State K A S P G R O) : State K A S P G R O :=
  L.foldl (writeDiag c o) s

/-! ### The cycle -/

variable [Field K]

/-- `if self.use_galilean: self.shift_galilean_boundaries(dt)`. -/
def shiftIf (c : Cfg K) (o : Ops K A S P G R) (dt : K) (s : State K A S P G R O) :
    State K A S P G R O :=
  if c.useGalilean then { s with grid := o.shiftGalilean dt s.grid } else s

/-- `push_x` of species (if they move) and antennas with the push factors. -/
def moveBy (c : Cfg K) (o : Ops K A S P G R) (dt x y z : K) (s : State K A S P G R O) :
    State K A S P G R O :=
  let s := if c.movePositions then { s with ptcl := o.pushX dt x y z s.ptcl } else s
  { s with ptcl := o.antennaX dt x y z s.ptcl }

/-- `cross_deposit` (main.py:672-717). -/
def crossDeposit (c : Cfg K) (o : Ops K A S P G R) (s : State K A S P G R O) : State K A S P G R O :=
  let s := shiftIf c o (-(1 / 2) * c.dt) (moveBy c o (1 / 2 * c.dt) 1 1 (-1) s)
  let s := depositXY c o s
  let s := shiftIf c o c.dt (moveBy c o c.dt (-1) (-1) 1 s)
  let s := depositZ c o s
  shiftIf c o (-(1 / 2) * c.dt) (moveBy c o (1 / 2 * c.dt) 1 1 (-1) s)

/-- `exchange_and_damp_EB` (main.py:720-769). -/
def exchangeAndDampEB (c : Cfg K) (o : Ops K A S P G R) (s : State K A S P G R O) :
    State K A S P G R O :=
  if c.usePml then
    let i := o.boundaryEB s.grid s.time ⟨o.toInterp s.spect.E, o.toInterp s.spect.B,
      o.toInterp s.spect.Epml, o.toInterp s.spect.Bpml⟩
    { s with interp := i, spect := ⟨o.toSpect i.E, o.toSpect i.B, o.toSpect i.Epml, o.toSpect i.Bpml⟩ }
  else
    let i := o.boundaryEB s.grid s.time ⟨o.toPartial s.spect.E, o.toPartial s.spect.B,
      s.interp.Epml, s.interp.Bpml⟩
    let e := o.fromPartial i.E
    let b := o.fromPartial i.B
    { s with interp := ⟨o.toInterp e, o.toInterp b, i.Epml, i.Bpml⟩,
             spect := ⟨e, b, s.spect.Epml, s.spect.Bpml⟩ }

/-- First part of the loop (main.py:435-486). -/
def iterStart (c : Cfg K) (o : Ops K A S P G R) (L : List (Diag K A P G R O)) (iStep : ℕ)
    (s : State K A S P G R O) : State K A S P G R O :=
  let s := if s.iteration % c.exchangePeriod = 0 ∨ iStep = 0 then
      let x := o.exchangeParticles s.grid s.time s.ptcl s.rng
      depositPrev c o c.useTrueRho { s with ptcl := x.1, rng := x.2 }
    else s
  let s := if iStep = 0 then depositJ c o true s else s
  let s := { s with ptcl := o.gather s.grid s.interp.E s.interp.B s.ptcl }
  let s := { s with ptcl := o.external s.time s.ptcl }
  writeDiags c o L s

/-- An operation on the particles, if the flag is set. -/
def onPtcl (b : Bool) (f : P → P) (s : State K A S P G R O) : State K A S P G R O :=
  if b then { s with ptcl := f s.ptcl } else s

/-- An operation on the particles that uses the random number generator. -/
def drawPtcl (f : P → R → P × R) (s : State K A S P G R O) : State K A S P G R O :=
  { s with ptcl := (f s.ptcl s.rng).1, rng := (f s.ptcl s.rng).2 }

/-- Second part (main.py:488-507). -/
def iterHalf (c : Cfg K) (o : Ops K A S P G R) (s : State K A S P G R O) : State K A S P G R O :=
  drawPtcl (o.elementary (s.time + 1 / 2 * c.dt))
    (shiftIf c o (1 / 2 * c.dt)
      (onPtcl true (fun p => o.antennaX (1 / 2 * c.dt) 1 1 1 (o.antennaV (s.time + 1 / 2 * c.dt) p))
        (onPtcl c.movePositions (o.pushX (1 / 2 * c.dt) 1 1 1)
          (onPtcl c.moveMomenta (o.pushP (s.time + 1 / 2 * c.dt)) s))))

/-- Third part (main.py:513-532). -/
def iterDeposit (c : Cfg K) (o : Ops K A S P G R) (s : State K A S P G R O) : State K A S P G R O :=
  let s := depositJ c o (!c.correctCurrents) s
  let s := if c.correctCurrents ∧ c.crossDep then crossDeposit c o s else s
  let s := shiftIf c o (1 / 2 * c.dt) (moveBy c o (1 / 2 * c.dt) 1 1 1 s)
  depositNext c o c.useTrueRho none s

/-- `fld.correct_currents` with its assertions, and the exchange of J (main.py:533-543,
fields.py:278-302). -/
def correctJ (c : Cfg K) (o : Ops K A S P G R) (s : State K A S P G R O) :
    Except PyErr (State K A S P G R O) :=
  if c.size > 1 ∧ (s.xPrev ∨ s.xNext ∨ s.xJ ∨ (c.crossDep ∧ (s.xXY ∨ s.xZ))) then
    .error (.assertionError "")
  else
    let j := o.correctCurrents s.sJ s.sPrev s.sNext s.sXY s.sZ
    if c.size > 1 then
      let a := o.addJ (o.toPartial j)
      .ok { s with iJ := a, sJ := o.fromPartial a, xJ := true }
    else .ok { s with sJ := j, xJ := true }

/-- `fld.push` with its assertions and `push_rho` (fields.py:247-276). -/
def push (c : Cfg K) (o : Ops K A S P G R) (s : State K A S P G R O) :
    Except PyErr (State K A S P G R O) :=
  if c.size > 1 ∧ (s.xJ = false ∨ (c.useTrueRho ∧ (s.xPrev = false ∨ s.xNext = false))) then
    .error (.assertionError "")
  else .ok { s with spect := o.pushEB s.spect s.sJ s.sPrev s.sNext, sPrev := s.sNext, sNext := o.zero }

/-- What follows the push of the fields (main.py:547-566), with the checkpoints `C`. -/
def iterFinish (c : Cfg K) (o : Ops K A S P G R) (C : List (Diag K A P G R O))
    (s : State K A S P G R O) : State K A S P G R O :=
  let s := if c.correctDivE then { s with spect := o.correctDivE s.spect s.sPrev } else s
  let s := if c.movingWin then
      let x := o.moveGrids s.time s.grid s.ptcl s.spect s.sPrev s.sJ
      { s with ptcl := x.1, grid := x.2.1, spect := x.2.2.1, sPrev := x.2.2.2.1, sJ := x.2.2.2.2 }
    else s
  let s := exchangeAndDampEB c o s
  let s := { s with time := s.time + c.dt, iteration := s.iteration + 1 }
  writeDiags c o C s

/-- Last part of the loop. -/
def iterEnd (c : Cfg K) (o : Ops K A S P G R) (C : List (Diag K A P G R O))
    (s : State K A S P G R O) : Except PyErr (State K A S P G R O) :=
  (if c.correctCurrents then correctJ c o s else .ok s).bind fun s =>
    (push c o s).map (iterFinish c o C)

/-- One round of the loop (main.py:424-566). -/
def iter (c : Cfg K) (o : Ops K A S P G R) (L C : List (Diag K A P G R O)) (iStep : ℕ)
    (s : State K A S P G R O) : Except PyErr (State K A S P G R O) :=
  iterEnd c o C (iterDeposit c o (iterHalf c o (iterStart c o L iStep s)))

/-- `for i_step in range(N)`, from `i_step = i`. -/
def loop (c : Cfg K) (o : Ops K A S P G R) (L C : List (Diag K A P G R O)) (i : ℕ) :
    ℕ → State K A S P G R O → Except PyErr (State K A S P G R O)
  | 0, s => .ok s
  | n + 1, s => (iter c o L C i s).bind (loop c o L C (i + 1) n)

/-- Before the loop (main.py:386-419). -/
def stepStart (c : Cfg K) (o : Ops K A S P G R) (s : State K A S P G R O) : State K A S P G R O :=
  let s := if c.movingWin then { s with ptcl := o.initInjection s.grid s.ptcl } else s
  let i := o.startEB s.interp
  { s with interp := i, spect := ⟨o.toSpect i.E, o.toSpect i.B,
      if c.usePml then o.toSpect i.Epml else s.spect.Epml,
      if c.usePml then o.toSpect i.Bpml else s.spect.Bpml⟩ }

/-- After the loop (main.py:571-579). -/
def stepEnd (c : Cfg K) (o : Ops K A S P G R) (s : State K A S P G R O) : State K A S P G R O :=
  bringRho c o true (bringJ c o true s)

/-- `step(N, …)` (main.py:346-585) with the diagnostics `L` and the checkpoints `C`. -/
def step (c : Cfg K) (o : Ops K A S P G R) (L C : List (Diag K A P G R O)) (N : ℕ)
    (s : State K A S P G R O) : Except PyErr (State K A S P G R O) :=
  if c.size > 1 ∧ c.correctDivE then
    .error (.valueError "correct_divE cannot be used in multi-proc mode.")
  else if c.size > 1 ∧ c.useTrueRho ∧ c.correctCurrents then
    .error (.valueError "`use_true_rho` cannot be used together with `correct_currents` in multi-proc mode.")
  else if c.exchangePeriod = 0 ∧ 0 < N then .error (.valueError "ZeroDivisionError")
  else (loop c o L C 0 N (stepStart c o s)).map (stepEnd c o)

/-- A script: calls of `step`, each with its own arguments and the diagnostics and checkpoints that are
registered at that time. -/
def script (o : Ops K A S P G R) :
    List (Cfg K × List (Diag K A P G R O) × List (Diag K A P G R O) × ℕ) → State K A S P G R O →
      Except PyErr (State K A S P G R O)
  | [], s => .ok s
  | (c, L, C, N) :: rest, s => (step c o L C N s).bind (script o rest)

end Fbpic.Flow
