import Verif.Model.Pic
import Verif.Model.Damping
import Verif.Model.Mirror
import Verif.Model.Antenna
import Verif.Model.Injection

/-!
# A whole simulation with open boundaries, moving window, lasers and mirrors

`Simulation.step` as in `Model/Pic.lean`, for one process on the CPU, with the parts that are missing there: open
boundaries in z (particles that leave are removed, the fields are damped), the moving window with continuous
injection of plasma, laser antennas and mirrors. With periodic boundaries (`n_guard = 0`) the particles are wrapped,
and nothing is damped, as in `Model/Pic.lean`.

The pieces are the ones of the other files: `moveGrids`, `shiftSpectArray`, `dampOpenBoundary`,
`Mirror.setFieldsToZero`, `Injector`, `generateParticles`, `Antenna`. Still not part of this model: the PML in r,
elementary processes, diagnostics and checkpoints, several processes, the GPU.

Simplifications: `comm.dz` and the `dz` of the interpolation grids, which is `(zmax-zmin)/Nz` (equal to it in exact
arithmetic), are one number. The angle and the momentum of an injected particle (random numbers, and functions given
by the user) come from an arbitrary function. The new arrays of the fields on the particles, which are not initialised
after an exchange, keep the values of the particles that stay.
-/

namespace Fbpic.Pic

open Transform ExternalField Step

/-- What does not change during the run, in addition to `Cfg`. `plasma id` are the arguments of the continuous
injection of species `id`; `fill id time i p` is the angle, the momentum and the ionization level of the `i`-th
particle `p` that is injected at `time`. -/
structure OCfg where
  base : Cfg
  comm : Comm
  dz : ℝ
  re : ℝ
  mirrors : List Mirror.Mir
  plasma : ℕ → InjPlasma ℝ
  fill : ℕ → ℝ → ℕ → NewPtcl ℝ → ℝ × ElecMom × ℕ

/-- The state: `zminG` is `comm._zmin_global_domain`, `win` is `comm.moving_win`, `inj` are the continuous injectors of
the species (`none` without continuous injection), `ants` is `laser_antennas`. -/
structure OSim where
  sim : Sim
  zminG : ℝ
  win : Option (MovWin ℝ)
  inj : List (Option (Injector ℝ))
  ants : List Antenna.Ant

variable (c : OCfg)

/-- The constants as the antennas use them. -/
def OCfg.ak : Antenna.Consts := ⟨c.base.k.c, c.base.eCharge, c.re, c.base.k.eps0⟩

/-- The positions of the grids of the single rank. -/
def OCfg.world (S : OSim) : World ℝ where
  zminG := fun _ => S.zminG
  interp := fun _ _ => ⟨c.base.Nz, S.sim.zmin, S.sim.zmax, c.dz⟩
  win := S.win

/-! ### Deposition -/

/-- `Cfg.depositModes` with antennas: main.py:632-645 and 648-657. -/
noncomputable def OCfg.depositModes (f : DepField) (S : OSim) : Except PyErr (ℕ → Buf) :=
  (List.range c.base.Nm).foldlM (fun (A : ℕ → Buf) (m : ℕ) => do
    let a ← Antenna.depositAllWith c.ak f (c.base.grid S.sim.zmin) c.base.beta m c.base.nthreads S.sim.depositing S.ants
    pure (Function.update A m (CellVolume.divideByVolume (c.base.vol m) a))) (fun _ _ _ => 0)

/-- `deposit('rho_prev')` etc. (main.py:588-670). -/
noncomputable def OCfg.depositRho [NeZero c.base.Nz] (n : RhoName) (S : OSim) : Except PyErr OSim := do
  let A ← c.depositModes .rho S
  let interp := onModes c.base.Nm (fun m i => { i with rho := A m }) S.sim.interp
  pure { S with sim := { S.sim.record with
    interp := interp
    spect := onModes c.base.Nm (fun m g => c.base.filterSpect n.filterField m (c.base.spectRho n m (interp m) g)) S.sim.spect } }

/-- `deposit('J')` (main.py:588-670). -/
noncomputable def OCfg.depositJ [NeZero c.base.Nz] (S : OSim) : Except PyErr OSim := do
  let Jr ← c.depositModes .Jr S
  let Jt ← c.depositModes .Jt S
  let Jz ← c.depositModes .Jz S
  let interp := onModes c.base.Nm (fun m i => { i with J := ⟨Jr m, Jt m, Jz m⟩ }) S.sim.interp
  pure { S with sim := { S.sim.record with
    interp := interp
    spect := onModes c.base.Nm (fun m g => c.base.filterSpect .J m (c.base.spectJ m (interp m) g)) S.sim.spect } }

/-! ### Particles -/

/-- A macroparticle that is created by the injector: continuous_injection.py:229-262, particles.py:350-373. -/
noncomputable def newPtcl (fill : ℕ → NewPtcl ℝ → ℝ × ElecMom × ℕ) (x : NewPtcl ℝ × ℕ) : Ptcl where
  push := ⟨x.1.r * Real.cos (fill x.2 x.1).1, x.1.r * Real.sin (fill x.2 x.1).1, x.1.z, (fill x.2 x.1).2.1, (fill x.2 x.1).2.2⟩
  w := x.1.w
  F := fun _ => 0

/-- `exchange_particles(species, fld, time)` for the species number `id` (boundary_communicator.py:700-826,
particle_buffer_handling.py:58-175, particles.py:335-374). The new particles are created only if there is a moving
window and the species is continuously injected. -/
noncomputable def OCfg.exchangeSpecies (S : OSim) (id : ℕ) (sp : Species) :
    Except PyErr (Species × Option (Injector ℝ)) :=
  let inj := S.inj.getD id none
  if c.comm.nGuard = 0 then do
    let l ← sp.ptcl.mapM (c.base.wrap S.sim.zmin S.sim.zmax)
    pure ({ sp with ptcl := l }, inj)
  else
    let zboxMin := S.sim.zmin + c.comm.nGuard * c.dz
    let zboxMax := S.sim.zmax - c.comm.nGuard * c.dz
    let stay := sp.ptcl.filter fun p => !decide (p.push.z < zboxMin) && !decide (p.push.z > zboxMax)
    match S.win, inj with
    | some _, some i =>
      match i.dzp, i.pos with
      | some d, some p =>
        let (new, p) := generateParticles d i.vEnd (c.plasma id) S.sim.time p
        pure ({ sp with ptcl := stay ++ new.zipIdx.map (newPtcl (c.fill id S.sim.time)) }, some { i with pos := some p })
      | _, _ => .error (.typeError "unsupported operand type(s): 'NoneType'")
    | _, _ => pure ({ sp with ptcl := stay }, inj)

/-- The exchange for all species and the update of the antennas (main.py:445-448). -/
noncomputable def OCfg.exchange (S : OSim) : Except PyErr OSim := do
  let r ← S.sim.species.zipIdx.mapM fun x => c.exchangeSpecies S x.2 x.1
  let ants ← S.ants.mapM fun a => Antenna.updateCurrentRank a c.comm S.zminG c.dz 0
  pure { S with sim := { S.sim with species := r.map Prod.fst }, inj := r.map Prod.snd, ants := ants }

/-- The pushes of the particles (if `move`) and of the antennas (main.py:486-493, 519-523, 684-689, 696-701, 708-713). -/
noncomputable def OCfg.pushX (move : Bool) (dt px py pz : ℝ) (S : OSim) : OSim :=
  { S with
    sim := if move then c.base.pushX dt px py pz S.sim else S.sim
    ants := S.ants.map fun a => Antenna.pushX a dt px py pz }

/-- `shift_galilean_boundaries(dt)` if the Galilean frame is used (main.py:772-789). -/
noncomputable def OCfg.shiftGalilean (dt : ℝ) (S : OSim) : OSim :=
  if c.base.galilean then
    { S with
      sim := c.base.shiftGalilean dt S.sim
      zminG := Comm.shiftGlobalDomainPositions S.zminG (c.base.V.getD 0 * dt) }
  else S

/-! ### The cycle -/

/-- `cross_deposit(move_positions)`, main.py:672-716. -/
noncomputable def OCfg.crossDeposit [NeZero c.base.Nz] (move : Bool) (S : OSim) : Except PyErr OSim := do
  let S := c.pushX move (0.5 * c.base.dt) 1 1 (-1) S
  let S := c.shiftGalilean (-0.5 * c.base.dt) S
  let S ← c.depositRho .nextXY S
  let S := c.pushX move c.base.dt (-1) (-1) 1 S
  let S := c.shiftGalilean c.base.dt S
  let S ← c.depositRho .nextZ S
  let S := c.pushX move (0.5 * c.base.dt) 1 1 (-1) S
  pure (c.shiftGalilean (-0.5 * c.base.dt) S)

/-- Whether the particles are exchanged in this iteration (main.py:439). -/
def OCfg.exchanges (iStep : ℕ) (S : OSim) : Prop :=
  (S.sim.iteration : ℤ) % c.comm.exchangePeriod = 0 ∨ iStep = 0

instance (iStep : ℕ) (S : OSim) : Decidable (c.exchanges iStep S) := by unfold OCfg.exchanges; infer_instance

/-- First part of the loop of `step` (main.py:435-473). -/
noncomputable def OCfg.iterStart [NeZero c.base.Nz] (iStep : ℕ) (S : OSim) : Except PyErr OSim := do
  let S ← (if c.exchanges iStep S then do
      let S ← c.exchange S
      c.depositRho .prev S
    else pure S)
  let S ← (if iStep = 0 then c.depositJ S else pure S)
  let s ← S.sim.record.mapPtclM (c.base.gatherPtcl S.sim)
  pure { S with sim := c.base.applyExts s }

/-- Second part (main.py:484-497). -/
noncomputable def OCfg.iterHalf (o : Opts) (S : OSim) : Except PyErr OSim := do
  let s ← (if o.moveMomenta then S.sim.mapPtclM (c.base.pushP (S.sim.time + 0.5 * c.base.dt)) else pure S.sim)
  let S := { S with
    sim := if o.movePositions then c.base.pushX (0.5 * c.base.dt) 1 1 1 s else s
    ants := S.ants.map fun a =>
      Antenna.pushX (Antenna.updateV c.ak a (s.time + 0.5 * c.base.dt) c.base.dt) (0.5 * c.base.dt) 1 1 1 }
  pure (c.shiftGalilean (0.5 * c.base.dt) S)

/-- Third part (main.py:509-527). -/
noncomputable def OCfg.iterDeposit [NeZero c.base.Nz] (o : Opts) (S : OSim) : Except PyErr OSim := do
  let S ← c.depositJ S
  let S ← (match o.correctCurrents, c.base.correction with
    | true, .crossDeposition => c.crossDeposit o.movePositions S
    | _, _ => pure S)
  let S := c.pushX o.movePositions (0.5 * c.base.dt) 1 1 1 S
  let S := c.shiftGalilean (0.5 * c.base.dt) S
  c.depositRho .next S

/-- Correction of the current and push of the fields (main.py:528-543). -/
noncomputable def OCfg.pushFields (o : Opts) (S : OSim) : Except PyErr OSim := do
  let spect := if o.correctCurrents then
      onModes c.base.Nm (fun _ g => g.correctCurrents c.base.k c.base.correction c.base.dt c.base.V c.base.galilean) S.sim.spect
    else S.sim.spect
  let spect := onModes c.base.Nm (fun _ g => g.push c.base.k c.base.dt c.base.V c.base.galilean false o.useTrueRho) spect
  let spect ← (if o.correctDivE then c.base.correctDivE spect else pure spect)
  pure { S with sim := { S.sim with spect := spect } }

/-- `shift_spect_array_cpu` on an array (moving_window.py:204-239). -/
noncomputable def OCfg.shiftArr (n : ℤ) (a : Buf) : Buf := fun iz ir =>
  if iz < c.base.Nz ∧ ir < c.base.Nr then
    shiftSpectArray c.base.Nz (fieldShift c.base.Nz c.dz) n (fun j => a j.val ir) (iz : ZMod c.base.Nz)
  else a iz ir

/-- `shift_spect_grid(grid, n_move)` (moving_window.py:134-201). -/
noncomputable def OCfg.shiftGrid (n : ℤ) (g : SpecGrid) : SpecGrid :=
  { g with cell := fun iz ir =>
      { g.cell iz ir with
        Ep := c.shiftArr n (fun i j => (g.cell i j).Ep) iz ir
        Em := c.shiftArr n (fun i j => (g.cell i j).Em) iz ir
        Ez := c.shiftArr n (fun i j => (g.cell i j).Ez) iz ir
        Bp := c.shiftArr n (fun i j => (g.cell i j).Bp) iz ir
        Bm := c.shiftArr n (fun i j => (g.cell i j).Bm) iz ir
        Bz := c.shiftArr n (fun i j => (g.cell i j).Bz) iz ir
        rhoPrev := c.shiftArr n (fun i j => (g.cell i j).rhoPrev) iz ir
        Jp := c.shiftArr n (fun i j => (g.cell i j).Jp) iz ir
        Jm := c.shiftArr n (fun i j => (g.cell i j).Jm) iz ir
        Jz := c.shiftArr n (fun i j => (g.cell i j).Jz) iz ir } }

/-- `increment_injection_positions` of one species (moving_window.py:119-128). -/
noncomputable def advanceInj (v duration : ℝ) : Option (Injector ℝ) → Except PyErr (Option (Injector ℝ))
  | none => .ok none
  | some i =>
    match i.dzp, i.pos with
    | some d, some p => .ok (some { i with pos := some (incrementPos d i.vEnd v duration p) })
    | _, _ => .error (.typeError "unsupported operand type(s): 'NoneType'")

/-- `comm.move_grids(fld, ptcl, dt, time)` if there is a moving window (main.py:545-548, moving_window.py:60-131). -/
noncomputable def OCfg.moveWindow (S : OSim) : Except PyErr OSim :=
  match S.win with
  | none => .ok S
  | some win => do
    let (w, n) ← moveGrids c.comm c.dz (c.world S) S.sim.time
    let inj ← S.inj.mapM (advanceInj win.v (S.sim.time - win.tLast))
    pure { S with
      sim := { S.sim with
        zmin := (w.interp 0 0).zmin
        zmax := (w.interp 0 0).zmax
        spect := if n ≠ 0 then onModes c.base.Nm (fun _ g => c.shiftGrid n g) S.sim.spect else S.sim.spect }
      zminG := w.zminG 0
      win := w.win
      inj := inj }

/-! ### Boundaries -/

/-- The arrays that are damped. -/
def Interp.eb (i : Interp) : EBGrid := ⟨i.E.r, i.E.t, i.E.z, i.B.r, i.B.t, i.B.z, 0, 0, 0, 0⟩

/-- The damped arrays back in the grid. -/
def Interp.setEB (i : Interp) (g : EBGrid) : Interp := { i with E := ⟨g.Er, g.Et, g.Ez⟩, B := ⟨g.Br, g.Bt, g.Bz⟩ }

/-- The arrays as the mirrors see them; they do not use the sources. -/
def ebMirror (g : EBGrid) : Mirror.Grid where
  usePml := false
  arr := fun
    | .Er => g.Er | .Et => g.Et | .Ez => g.Ez | .Br => g.Br | .Bt => g.Bt | .Bz => g.Bz
    | _ => 0

/-- The same arrays. -/
def mirrorEB (g : Mirror.Grid) : EBGrid :=
  ⟨g.arr .Er, g.arr .Et, g.arr .Ez, g.arr .Br, g.arr .Bt, g.arr .Bz, 0, 0, 0, 0⟩

/-- `spect2partial_interp` for E and B of one mode (fields.py:451-468). -/
noncomputable def OCfg.partialInterp [NeZero c.base.Nz] (g : SpecGrid) : EBGrid where
  Er := fftAxis0 c.base.Nz true fun iz ir => (g.cell iz ir).Ep
  Et := fftAxis0 c.base.Nz true fun iz ir => (g.cell iz ir).Em
  Ez := fftAxis0 c.base.Nz true fun iz ir => (g.cell iz ir).Ez
  Br := fftAxis0 c.base.Nz true fun iz ir => (g.cell iz ir).Bp
  Bt := fftAxis0 c.base.Nz true fun iz ir => (g.cell iz ir).Bm
  Bz := fftAxis0 c.base.Nz true fun iz ir => (g.cell iz ir).Bz
  ErPml := 0
  EtPml := 0
  BrPml := 0
  BtPml := 0

/-- `partial_interp2spect` for E and B of one mode (fields.py:503-520). -/
noncomputable def OCfg.partialSpect [NeZero c.base.Nz] (e : EBGrid) (g : SpecGrid) : SpecGrid :=
  { g with cell := fun iz ir =>
      { g.cell iz ir with
        Ep := fftAxis0 c.base.Nz false e.Er iz ir
        Em := fftAxis0 c.base.Nz false e.Et iz ir
        Ez := fftAxis0 c.base.Nz false e.Ez iz ir
        Bp := fftAxis0 c.base.Nz false e.Br iz ir
        Bm := fftAxis0 c.base.Nz false e.Bt iz ir
        Bz := fftAxis0 c.base.Nz false e.Bz iz ir } }

/-- `exchange_and_damp_EB()` without PML (main.py:718-769). -/
noncomputable def OCfg.boundaries [NeZero c.base.Nz] (S : OSim) : Except PyErr OSim := do
  let gs ← (List.range c.base.Nm).mapM fun m => do
    let g ← dampOpenBoundary c.comm 0 c.base.Nz false (c.partialInterp (S.sim.spect m))
    pure (ebMirror g)
  let gs ← c.mirrors.foldlM (fun gs M => Mirror.setFieldsToZero c.base.k.c M c.comm S.zminG c.dz 0 S.sim.time gs) gs
  let spect := onModes c.base.Nm (fun m g => c.partialSpect (mirrorEB (gs.getD m ⟨false, fun _ => 0⟩)) g) S.sim.spect
  pure { S with sim := { S.sim with
    spect := spect
    interp := onModes c.base.Nm (fun m i => c.base.interpEB m (spect m) i) S.sim.interp } }

/-- Last part of the loop: fields, moving window, boundaries, counters (main.py:528-560). -/
noncomputable def OCfg.iterEnd [NeZero c.base.Nz] (o : Opts) (S : OSim) : Except PyErr OSim := do
  let S ← c.pushFields o S
  let S ← c.moveWindow S
  let S ← c.boundaries S
  pure { S with sim := { S.sim with time := S.sim.time + c.base.dt, iteration := S.sim.iteration + 1 } }

/-- One round of the loop of `step` (main.py:421-565). -/
noncomputable def OCfg.iter [NeZero c.base.Nz] (o : Opts) (iStep : ℕ) (S : OSim) : Except PyErr OSim := do
  if c.comm.exchangePeriod = 0 then .error (.valueError "ZeroDivisionError")
  else do
    let S ← c.iterStart iStep S
    let S ← c.iterHalf o S
    let S ← c.iterDeposit o S
    c.iterEnd o S

/-- `for i_step in range(N)`, from `i_step = i`. -/
noncomputable def OCfg.loop [NeZero c.base.Nz] (o : Opts) (i : ℕ) : ℕ → OSim → Except PyErr OSim
  | 0, S => .ok S
  | n + 1, S => do
    let S ← c.iter o i S
    OCfg.loop o (i + 1) n S

/-- The positions for the continuous injection are initialised if there is a moving window (main.py:386-391). -/
noncomputable def OCfg.startInj (S : OSim) : Except PyErr OSim :=
  match S.win with
  | none => .ok S
  | some win => do
    let inj ← S.sim.species.zipIdx.mapM fun x =>
      match S.inj.getD x.2 none with
      | none => pure none
      | some i => do
        let i ← i.initialize c.comm S.zminG c.dz 0 win.v (x.1.ptcl.map fun p => p.push.z) c.base.dt
        pure (some i)
    pure { S with inj := inj }

/-- Before the loop: the fields are damped and brought to spectral space (main.py:404-416). -/
noncomputable def OCfg.startFields [NeZero c.base.Nz] (S : OSim) : Except PyErr OSim := do
  let gs ← (List.range c.base.Nm).mapM fun m => dampOpenBoundary c.comm 0 c.base.Nz false (S.sim.interp m).eb
  let interp := onModes c.base.Nm (fun m i => i.setEB (gs.getD m i.eb)) S.sim.interp
  pure { S with sim := c.base.startFields { S.sim with interp := interp } }

/-- `step(N, …)` (main.py:346-585). -/
noncomputable def OCfg.step [NeZero c.base.Nz] (N : ℕ) (o : Opts) (S : OSim) : Except PyErr OSim := do
  let S ← c.startInj S
  let S ← c.startFields S
  let S ← c.loop o 0 N S
  pure { S with sim := c.base.endFields S.sim }

/-- Several calls to `step`, one after the other. -/
noncomputable def OCfg.calls [NeZero c.base.Nz] : List (ℕ × Opts) → OSim → Except PyErr OSim
  | [], S => .ok S
  | (n, o) :: L, S => do
    let S ← c.step n o S
    OCfg.calls L S

end Fbpic.Pic
