import Verif.Model.Step
import Verif.Model.FieldGather
import Verif.Model.Push
import Verif.Model.Spectral
import Verif.Model.Smoothing
import Verif.Model.Transform
import Verif.Model.CellVolume
import Verif.Model.ExternalField
import Verif.Model.ParticleExchange

/-!
# A whole simulation: particles, fields and the PIC cycle together

`Simulation.step` and `Simulation.deposit` (`main.py`) with the kernels that they call, for the case of one
process on the CPU with periodic boundaries in z and a reflective boundary in r: there are no guard cells
(`n_guard = 0`), no damping, no PML and no exchange between processes. Any number of species (charged, neutral,
tracer, ionizable with a fixed level, ballistic before a plane), any number of azimuthal modes, both particle
shapes, the standard, comoving and Galilean schemes, both current corrections, smoothing, external fields and
all the options of `step`.

The pieces are the ones of the other files: `depositAll`, `gatherField`, `pushVay`, `pushX`, `Trans`,
`SpecGrid.correctCurrents`, `SpecGrid.push`. Not part of this model: moving window, laser antennas, mirrors,
elementary processes (ionization, Compton scattering), diagnostics and checkpoints (which do not change the
state, see C78), the GPU.
-/

namespace Fbpic.Pic

open Transform ExternalField Step

/-- One macroparticle: position, momentum and level, weight, and the fields `Ex … Bz` on it
(particles.py:140-185). -/
structure Ptcl where
  push : PushPtcl
  w : ℝ
  F : Comp → ℝ

/-- The attributes of a `Particles` object that the cycle uses. -/
structure Species where
  q : ℝ
  m : ℝ
  shape : Shape
  isTracer : Bool
  ionizable : Bool
  plane : Option BallisticPlane
  ptcl : List Ptcl

/-- The arrays of an `InterpolationGrid` (interpolation_grid.py:66-84). -/
structure Interp where
  E : GridVec
  B : GridVec
  J : GridVec
  rho : Buf

/-- The matrices of the three Hankel transforms of a mode (spectral_transformer.py:60-67). -/
structure Mats where
  (M0 invM0 Mp invMp Mm invMm : ℕ → ℕ → ℝ)

/-- What does not change during the run. `filter` are the arrays of the smoother along z, and along r for each
mode (`none` if the currents are not filtered); `fuel` bounds the number of tests of the wrapping loops. -/
structure Cfg where
  k : Consts
  eCharge : ℝ
  dt : ℝ
  Nm : ℕ
  Nz : ℕ
  Nr : ℕ
  nthreads : ℕ
  invdz : ℝ
  invdr : ℝ
  rmaxGather : ℝ
  beta : Shape → ℕ → List ℝ
  vol : ℕ → ℕ → ℝ
  mats : ℕ → Mats
  filter : Option ((ℕ → ℝ) × (ℕ → ℕ → ℝ))
  V : Option ℝ
  galilean : Bool
  correction : CurrentCorrection
  exchangePeriod : ℕ
  ext : List Ext
  fuel : ℕ

/-- A position at which a particle was deposited or gathered, and the lower edge of the grid at that time. -/
structure Seen where
  (x y z zmin : ℝ)

/-- The state of the simulation. The grid moves with the Galilean frame. `seen` is not part of the code: it
records the positions of the particles each time they were deposited or gathered. Nothing reads it. -/
structure Sim where
  zmin : ℝ
  zmax : ℝ
  time : ℝ
  iteration : ℕ
  species : List Species
  interp : ℕ → Interp
  spect : ℕ → SpecGrid
  seen : List Seen

variable (c : Cfg)

/-- The grid as it is seen by the particles; `rmin` is 0 (fields.py:196-199). -/
def Cfg.grid (zmin : ℝ) : CylGrid := ⟨c.invdz, zmin, c.Nz, c.invdr, 0, c.Nr⟩

/-- The `SpectralTransformer` of mode `m` on the CPU, whose buffers are the arrays 0 and 1. -/
def Cfg.trans (m : ℕ) : Trans where
  Nz := c.Nz
  Nr := c.Nr
  gpu := false
  M0 := (c.mats m).M0
  invM0 := (c.mats m).invM0
  Mp := (c.mats m).Mp
  invMp := (c.mats m).invMp
  Mm := (c.mats m).Mm
  invMm := (c.mats m).invMm
  bufR := 0
  bufT := 1
  threads := loop2d c.Nz c.Nr
  dhtIn := fun _ _ => 0
  dhtOut := fun _ _ => 0
  fftIn := fun _ => 0

instance [h : NeZero c.Nz] (m : ℕ) : NeZero (c.trans m).Nz := h

/-- `for m in range(self.Nm)` over independent grids. -/
def onModes {α : Type} (Nm : ℕ) (f : ℕ → α → α) (a : ℕ → α) : ℕ → α :=
  fun m => if m < Nm then f m (a m) else a m

/-! ### Transforms -/

/-- `interp2spect_scal(a, out)`: the arrays are number 2 and 3. spectral_transformer.py:157-177 -/
noncomputable def Cfg.toSpectScal [NeZero c.Nz] (m : ℕ) (a out : Buf) : Buf :=
  (c.trans m).interp2spectScal 2 3 (fun b => if b = 2 then a else if b = 3 then out else 0) 3

/-- `spect2interp_scal(a, out)`. spectral_transformer.py:89-109 -/
noncomputable def Cfg.toInterpScal [NeZero c.Nz] (m : ℕ) (a out : Buf) : Buf :=
  (c.trans m).spect2interpScal 2 3 (fun b => if b = 2 then a else if b = 3 then out else 0) 3

/-- The memory for the transform of the vectors: inputs 2 and 3, outputs 4 and 5. -/
def vectMem (a b outA outB : Buf) : Mem := fun n =>
  if n = 2 then a else if n = 3 then b else if n = 4 then outA else if n = 5 then outB else 0

/-- `interp2spect_vect(r, t, outP, outM)`. spectral_transformer.py:179-223 -/
noncomputable def Cfg.toSpectVect [NeZero c.Nz] (m : ℕ) (r t outP outM : Buf) : Buf × Buf :=
  let mem := (c.trans m).interp2spectVect 2 3 4 5 (vectMem r t outP outM)
  (mem 4, mem 5)

/-- `spect2interp_vect(p, m, outR, outT)`. spectral_transformer.py:111-155 -/
noncomputable def Cfg.toInterpVect [NeZero c.Nz] (m : ℕ) (p q outR outT : Buf) : Buf × Buf :=
  let mem := (c.trans m).spect2interpVect 2 3 4 5 (vectMem p q outR outT)
  (mem 4, mem 5)

/-- `interp2spect('E')` for one mode, fields.py:334-341. -/
noncomputable def Cfg.spectE [NeZero c.Nz] (m : ℕ) (i : Interp) (g : SpecGrid) : SpecGrid :=
  let z := c.toSpectScal m i.E.z (fun iz ir => (g.cell iz ir).Ez)
  let pm := c.toSpectVect m i.E.r i.E.t (fun iz ir => (g.cell iz ir).Ep) (fun iz ir => (g.cell iz ir).Em)
  { g with cell := fun iz ir =>
      { g.cell iz ir with Ez := z iz ir, Ep := pm.1 iz ir, Em := pm.2 iz ir } }

/-- `interp2spect('B')` for one mode, fields.py:342-349. -/
noncomputable def Cfg.spectB [NeZero c.Nz] (m : ℕ) (i : Interp) (g : SpecGrid) : SpecGrid :=
  let z := c.toSpectScal m i.B.z (fun iz ir => (g.cell iz ir).Bz)
  let pm := c.toSpectVect m i.B.r i.B.t (fun iz ir => (g.cell iz ir).Bp) (fun iz ir => (g.cell iz ir).Bm)
  { g with cell := fun iz ir =>
      { g.cell iz ir with Bz := z iz ir, Bp := pm.1 iz ir, Bm := pm.2 iz ir } }

/-- `interp2spect('J')` for one mode, fields.py:362-369. -/
noncomputable def Cfg.spectJ [NeZero c.Nz] (m : ℕ) (i : Interp) (g : SpecGrid) : SpecGrid :=
  let z := c.toSpectScal m i.J.z (fun iz ir => (g.cell iz ir).Jz)
  let pm := c.toSpectVect m i.J.r i.J.t (fun iz ir => (g.cell iz ir).Jp) (fun iz ir => (g.cell iz ir).Jm)
  { g with cell := fun iz ir =>
      { g.cell iz ir with Jz := z iz ir, Jp := pm.1 iz ir, Jm := pm.2 iz ir } }

/-- The four charge densities of a spectral grid. -/
inductive RhoName | prev | next | nextZ | nextXY
  deriving DecidableEq

/-- `getattr(self.spect[m], fieldtype)`. fields.py:373 -/
def RhoName.get (n : RhoName) (s : SpecCell) : ℂ :=
  match n with
  | .prev => s.rhoPrev
  | .next => s.rhoNext
  | .nextZ => s.rhoNextZ
  | .nextXY => s.rhoNextXY

/-- Assignment to the same array. -/
def RhoName.set (n : RhoName) (v : ℂ) (s : SpecCell) : SpecCell :=
  match n with
  | .prev => { s with rhoPrev := v }
  | .next => { s with rhoNext := v }
  | .nextZ => { s with rhoNextZ := v }
  | .nextXY => { s with rhoNextXY := v }

/-- The name for `filter_spect`. -/
def RhoName.filterField : RhoName → FilterField
  | .prev => .rhoPrev
  | .next => .rhoNext
  | .nextZ => .rhoNextZ
  | .nextXY => .rhoNextXY

/-- `interp2spect` of a charge density for one mode, fields.py:370-375. -/
noncomputable def Cfg.spectRho [NeZero c.Nz] (n : RhoName) (m : ℕ) (i : Interp) (g : SpecGrid) : SpecGrid :=
  let a := c.toSpectScal m i.rho (fun iz ir => n.get (g.cell iz ir))
  { g with cell := fun iz ir => n.set (a iz ir) (g.cell iz ir) }

/-- `spect2interp('E')` and `spect2interp('B')` for one mode, fields.py:392-407. -/
noncomputable def Cfg.interpEB [NeZero c.Nz] (m : ℕ) (g : SpecGrid) (i : Interp) : Interp :=
  let ez := c.toInterpScal m (fun iz ir => (g.cell iz ir).Ez) i.E.z
  let e := c.toInterpVect m (fun iz ir => (g.cell iz ir).Ep) (fun iz ir => (g.cell iz ir).Em) i.E.r i.E.t
  let bz := c.toInterpScal m (fun iz ir => (g.cell iz ir).Bz) i.B.z
  let b := c.toInterpVect m (fun iz ir => (g.cell iz ir).Bp) (fun iz ir => (g.cell iz ir).Bm) i.B.r i.B.t
  { i with E := ⟨e.1, e.2, ez⟩, B := ⟨b.1, b.2, bz⟩ }

/-- `spect2interp('J')` and `spect2interp('rho_prev')` for one mode, fields.py:420-440. -/
noncomputable def Cfg.interpSources [NeZero c.Nz] (m : ℕ) (g : SpecGrid) (i : Interp) : Interp :=
  let jz := c.toInterpScal m (fun iz ir => (g.cell iz ir).Jz) i.J.z
  let j := c.toInterpVect m (fun iz ir => (g.cell iz ir).Jp) (fun iz ir => (g.cell iz ir).Jm) i.J.r i.J.t
  let rho := c.toInterpScal m (fun iz ir => (g.cell iz ir).rhoPrev) i.rho
  { i with J := ⟨j.1, j.2, jz⟩, rho := rho }

/-- `fld.filter_spect(fieldtype)` for one mode, if `filter_currents`. main.py:665-667, fields.py:556-570 -/
noncomputable def Cfg.filterSpect (f : FilterField) (m : ℕ) (g : SpecGrid) : SpecGrid :=
  match c.filter with
  | some (fz, fr) => g.filter fz (fr m) f
  | none => g

/-! ### Deposition -/

/-- What the kernels read of a particle; the weight is `w` or `w_times_level` (particles.py:879-882,
elementary_process/ionization/ionizer.py `w_times_level = w*ionization_level`). -/
noncomputable def Ptcl.dep (ionizable : Bool) (p : Ptcl) : DepPtcl where
  x := p.push.x
  y := p.push.y
  z := p.push.z
  w := if ionizable then p.w * p.push.level else p.w
  ux := p.push.mom.ux
  uy := p.push.mom.uy
  uz := p.push.mom.uz
  invGamma := p.push.mom.invGamma

/-- A species for the deposition. -/
noncomputable def Species.dep (s : Species) : DepSpecies := ⟨s.q, s.shape, s.ptcl.map (Ptcl.dep s.ionizable)⟩

/-- The species that deposit: `[species for species in self.ptcl if not species.is_tracer]`, main.py:623-624. -/
noncomputable def Sim.depositing (s : Sim) : List DepSpecies :=
  (s.species.filter fun sp => !sp.isTracer).map Species.dep

/-- The ghost record. -/
def Sim.record (s : Sim) : Sim :=
  { s with seen := s.seen ++ s.species.flatMap fun sp => sp.ptcl.map fun p =>
      ⟨p.push.x, p.push.y, p.push.z, s.zmin⟩ }

/-- One quantity on the grids of all modes: erase, deposit, reduce, divide by the volume (main.py:632-645 and
648-657). -/
noncomputable def Cfg.depositModes (f : DepField) (s : Sim) : Except PyErr (ℕ → Buf) :=
  (List.range c.Nm).foldlM (fun (A : ℕ → Buf) (m : ℕ) => do
    let a ← depositAll f c.k.c (c.grid s.zmin) c.beta m c.nthreads s.depositing
    pure (Function.update A m (CellVolume.divideByVolume (c.vol m) a))) (fun _ _ _ => 0)

/-- `deposit('rho_prev')` etc. (main.py:588-670). The exchange of guard cells does nothing in one process. -/
noncomputable def Cfg.depositRho [NeZero c.Nz] (n : RhoName) (s : Sim) : Except PyErr Sim := do
  let A ← c.depositModes .rho s
  let interp := onModes c.Nm (fun m i => { i with rho := A m }) s.interp
  pure { s.record with
    interp := interp
    spect := onModes c.Nm (fun m g => c.filterSpect n.filterField m (c.spectRho n m (interp m) g)) s.spect }

/-- `deposit('J')` (main.py:588-670). -/
noncomputable def Cfg.depositJ [NeZero c.Nz] (s : Sim) : Except PyErr Sim := do
  let Jr ← c.depositModes .Jr s
  let Jt ← c.depositModes .Jt s
  let Jz ← c.depositModes .Jz s
  let interp := onModes c.Nm (fun m i => { i with J := ⟨Jr m, Jt m, Jz m⟩ }) s.interp
  pure { s.record with
    interp := interp
    spect := onModes c.Nm (fun m g => c.filterSpect .J m (c.spectJ m (interp m) g)) s.spect }

/-! ### Particles -/

/-- Change of every particle. -/
def Sim.mapPtcl (f : Species → Ptcl → Ptcl) (s : Sim) : Sim :=
  { s with species := s.species.map fun sp => { sp with ptcl := sp.ptcl.map (f sp) } }

/-- Change of every particle, with an exception. -/
def Sim.mapPtclM (f : Species → Ptcl → Except PyErr Ptcl) (s : Sim) : Except PyErr Sim := do
  let sps ← s.species.mapM fun sp => do
    let l ← sp.ptcl.mapM (f sp)
    pure { sp with ptcl := l }
  pure { s with species := sps }

/-- `shift_particles_periodic_numba` for one particle; particle_buffer_handling.py:514-556. -/
noncomputable def Cfg.wrap (zmin zmax : ℝ) (p : Ptcl) : Except PyErr Ptcl :=
  match wrapZ zmin zmax c.fuel p.push.z with
  | some z => .ok { p with push := { p.push with z := z } }
  | none => .error (.runtimeError "the loop does not end")

/-- `Particles.gather` for one particle (particles.py:674-830, CPU). -/
noncomputable def Cfg.gatherPtcl (s : Sim) (sp : Species) (p : Ptcl) : Except PyErr Ptcl :=
  if sp.q = 0 then .ok p
  else do
    let E ← gatherField sp.shape (c.grid s.zmin) c.rmaxGather
      ((List.range c.Nm).map fun m => (s.interp m).E) p.push.x p.push.y p.push.z
    let B ← gatherField sp.shape (c.grid s.zmin) c.rmaxGather
      ((List.range c.Nm).map fun m => (s.interp m).B) p.push.x p.push.y p.push.z
    pure { p with F := fun
      | .Ex => E.1 | .Ey => E.2.1 | .Ez => E.2.2 | .Bx => B.1 | .By => B.2.1 | .Bz => B.2.2 }

/-- `ext_field.apply_expression(self.ptcl, self.time)` for one particle of the species number `id`,
external_fields.py:174-215. -/
def applyExt (e : Ext) (t : ℝ) (id : ℕ) (p : Ptcl) : Ptcl :=
  if e.species = none ∨ e.species = some id then
    { p with F := (e.terms.foldl (applyTerm e t) ⟨p.push.x, p.push.y, p.push.z, p.F⟩).F }
  else p

/-- The loop over the external fields, main.py:472-473. -/
def Cfg.applyExts (s : Sim) : Sim :=
  { s with species := s.species.mapIdx fun id sp =>
      { sp with ptcl := sp.ptcl.map fun p => c.ext.foldl (fun p e => applyExt e s.time id p) p } }

/-- The fields on the particle as vectors. -/
def Ptcl.fields (p : Ptcl) : PtclFields := ⟨⟨p.F .Ex, p.F .Ey, p.F .Ez⟩, ⟨p.F .Bx, p.F .By, p.F .Bz⟩⟩

/-- `Particles.push_p(t)` for one particle (particles.py:557-636, CPU). -/
noncomputable def Cfg.pushP (t : ℝ) (sp : Species) (p : Ptcl) : Except PyErr Ptcl :=
  if sp.q = 0 then .ok p
  else
    match sp.plane with
    | some b =>
      if sp.ionizable then
        .error (.runtimeError "NotImplementedError: ballistic injection of ionizable particles")
      else .ok { p with push := pushPAfterPlane c.k.c (b.position c.k.c t) sp.q sp.m c.dt p.fields p.push }
    | none =>
      if sp.ionizable then
        .ok { p with push := pushPIoniz c.k.c c.eCharge sp.m c.dt p.fields p.push }
      else .ok { p with push := Fbpic.pushP c.k.c sp.q sp.m c.dt p.fields p.push }

/-- `species.push_x(dt, x_push, y_push, z_push)` for all species (particles.py:639-672). -/
noncomputable def Cfg.pushX (dt px py pz : ℝ) (s : Sim) : Sim :=
  s.mapPtcl fun _ p => { p with push := Fbpic.pushX c.k.c dt px py pz p.push }

/-- `shift_galilean_boundaries(dt)` if the Galilean frame is used; `v_comoving` is 0 without it
(main.py:269-273, 772-789). -/
noncomputable def Cfg.shiftGalilean (dt : ℝ) (s : Sim) : Sim :=
  if c.galilean then
    { s with zmin := s.zmin + c.V.getD 0 * dt, zmax := s.zmax + c.V.getD 0 * dt }
  else s

/-! ### The cycle -/

/-- `cross_deposit(move_positions)`, main.py:672-716. -/
noncomputable def Cfg.crossDeposit [NeZero c.Nz] (move : Bool) (s : Sim) : Except PyErr Sim := do
  let s := if move then c.pushX (0.5 * c.dt) 1 1 (-1) s else s
  let s := c.shiftGalilean (-0.5 * c.dt) s
  let s ← c.depositRho .nextXY s
  let s := if move then c.pushX c.dt (-1) (-1) 1 s else s
  let s := c.shiftGalilean c.dt s
  let s ← c.depositRho .nextZ s
  let s := if move then c.pushX (0.5 * c.dt) 1 1 (-1) s else s
  pure (c.shiftGalilean (-0.5 * c.dt) s)

/-- First part of the loop of `step`: particle exchange, depositions of the first iteration, gathering,
external fields (main.py:435-473). -/
noncomputable def Cfg.iterStart [NeZero c.Nz] (iStep : ℕ) (s : Sim) : Except PyErr Sim := do
  let s ← (if s.iteration % c.exchangePeriod = 0 ∨ iStep = 0 then do
      let s ← s.mapPtclM fun _ p => c.wrap s.zmin s.zmax p
      c.depositRho .prev s
    else pure s)
  let s ← (if iStep = 0 then c.depositJ s else pure s)
  let s ← s.record.mapPtclM (c.gatherPtcl s)
  pure (c.applyExts s)

/-- Second part: momentum push, first half of the position push, Galilean shift (main.py:484-497). -/
noncomputable def Cfg.iterHalf (o : Opts) (s : Sim) : Except PyErr Sim := do
  let s ← (if o.moveMomenta then s.mapPtclM (c.pushP (s.time + 0.5 * c.dt)) else pure s)
  let s := if o.movePositions then c.pushX (0.5 * c.dt) 1 1 1 s else s
  pure (c.shiftGalilean (0.5 * c.dt) s)

/-- Third part: deposition of the current, cross-deposition, second half of the position push, deposition of
the charge (main.py:509-527). -/
noncomputable def Cfg.iterDeposit [NeZero c.Nz] (o : Opts) (s : Sim) : Except PyErr Sim := do
  let s ← c.depositJ s
  let s ← (match o.correctCurrents, c.correction with
    | true, .crossDeposition => c.crossDeposit o.movePositions s
    | _, _ => pure s)
  let s := if o.movePositions then c.pushX (0.5 * c.dt) 1 1 1 s else s
  let s := c.shiftGalilean (0.5 * c.dt) s
  c.depositRho .next s

/-- `fld.correct_divE()` for all modes, fields.py:304-311. -/
noncomputable def Cfg.correctDivE (spect : ℕ → SpecGrid) : Except PyErr (ℕ → SpecGrid) :=
  match c.correction with
  | .crossDeposition => .error (.attributeError "'SpectralGrid' object has no attribute 'inv_k2'")
  | .curlFree => .ok (onModes c.Nm (fun _ g => g.mapCells fun kz kr s =>
      match Fbpic.correctDivE c.k .curlFree kz kr s with
      | .ok s' => s'
      | .error _ => s) spect)

/-- Last part: current correction, field push, fields on the interpolation grid, counters (main.py:528-560).
In `exchange_and_damp_EB` (main.py:718-769) there is nothing between the inverse FFT and the FFT along z, which
cancel (C66). -/
noncomputable def Cfg.iterEnd [NeZero c.Nz] (o : Opts) (s : Sim) : Except PyErr Sim := do
  let spect := if o.correctCurrents then
      onModes c.Nm (fun _ g => g.correctCurrents c.k c.correction c.dt c.V c.galilean) s.spect
    else s.spect
  let spect := onModes c.Nm (fun _ g => g.push c.k c.dt c.V c.galilean false o.useTrueRho) spect
  let spect ← (if o.correctDivE then c.correctDivE spect else pure spect)
  pure { s with
    spect := spect
    interp := onModes c.Nm (fun m i => c.interpEB m (spect m) i) s.interp
    time := s.time + c.dt
    iteration := s.iteration + 1 }

/-- One round of the loop of `step` (main.py:421-565). -/
noncomputable def Cfg.iter [NeZero c.Nz] (o : Opts) (iStep : ℕ) (s : Sim) : Except PyErr Sim := do
  if c.exchangePeriod = 0 then .error (.valueError "ZeroDivisionError")
  else do
    let s ← c.iterStart iStep s
    let s ← c.iterHalf o s
    let s ← c.iterDeposit o s
    c.iterEnd o s

/-- `for i_step in range(N)`, from `i_step = i`. -/
noncomputable def Cfg.loop [NeZero c.Nz] (o : Opts) (i : ℕ) : ℕ → Sim → Except PyErr Sim
  | 0, s => .ok s
  | n + 1, s => do
    let s ← c.iter o i s
    Cfg.loop o (i + 1) n s

/-- Before the loop: the fields E and B are brought to spectral space (main.py:404-416). -/
noncomputable def Cfg.startFields [NeZero c.Nz] (s : Sim) : Sim :=
  { s with spect := onModes c.Nm (fun m g => c.spectB m (s.interp m) (c.spectE m (s.interp m) g)) s.spect }

/-- After the loop: the current and the charge density are brought from spectral space (main.py:570-577). -/
noncomputable def Cfg.endFields [NeZero c.Nz] (s : Sim) : Sim :=
  { s with interp := onModes c.Nm (fun m i => c.interpSources m (s.spect m) i) s.interp }

/-- `step(N, …)` (main.py:346-585). -/
noncomputable def Cfg.step [NeZero c.Nz] (N : ℕ) (o : Opts) (s : Sim) : Except PyErr Sim := do
  let s ← c.loop o 0 N (c.startFields s)
  pure (c.endFields s)

/-- Several calls to `step`, one after the other. -/
noncomputable def Cfg.calls [NeZero c.Nz] : List (ℕ × Opts) → Sim → Except PyErr Sim
  | [], s => .ok s
  | (n, o) :: L, s => do
    let s ← c.step n o s
    Cfg.calls L s

end Fbpic.Pic
