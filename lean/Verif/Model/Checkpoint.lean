import Verif.Model.Comm
import Verif.Model.Tracking
import Mathlib.Analysis.SpecialFunctions.Trigonometric.Basic
import Mathlib.Data.List.MinMax

/-!
# Checkpoints and restarts

Models `openpmd_diag/checkpoint_restart.py`, and the parts of `field_diag.py` and `particle_diag.py`
that write a checkpoint (one file per rank and iteration, no communicator, no selection).

Outside fbpic and taken as given: the HDF5 files keep what is written, and the package openPMD-viewer
reads the closest stored iteration to the one requested, gives a field of mode `m` at angle `θ` as
`data[2m-1] cos mθ + data[2m] sin mθ` in the upper half plane, positions `offset + (position + i) dz`,
and momenta divided by `m c` if the mass is not zero. Numbers are real: rounding is not modelled.
-/

namespace Fbpic.Checkpoint

/-- The field arrays saved in a checkpoint (checkpoint_restart.py:59-63). -/
inductive Comp where
  | Er | Et | Ez | Br | Bt | Bz | ErPml | EtPml | BrPml | BtPml
deriving DecidableEq

def Comp.isPml : Comp → Bool
  | .ErPml | .EtPml | .BrPml | .BtPml => true
  | _ => false

/-- `Ionizer`: the arrays that change. -/
structure Ioniz where
  level : List ℕ
  wTimesLevel : List ℝ

/-- `Particles`: mass, charge and particle arrays. `inject` is `none` without continuous injection,
`some p` with the injection position `p` (`None` before the window is set). -/
structure Species where
  m : ℝ
  q : ℝ
  x : List ℝ
  y : List ℝ
  z : List ℝ
  ux : List ℝ
  uy : List ℝ
  uz : List ℝ
  w : List ℝ
  invGamma : List ℝ
  tracker : Option Tracker
  ionizer : Option Ioniz
  nInt : ℕ
  inject : Option (Option ℝ)

/-- One rank of a simulation. `zmin m`, `zmax m` are the bounds of `fld.interp[m]`, `zminGlobal` is
`comm._zmin_global_domain`, `field c m iz ir` the array `c` of `fld.interp[m]`. -/
structure Sim where
  iteration : ℕ
  time : ℝ
  dt : ℝ
  Nm : ℕ
  Nz : ℕ
  Nr : ℕ
  dz : ℝ
  zmin : ℕ → ℝ
  zmax : ℕ → ℝ
  zminGlobal : ℝ
  usePml : Bool
  field : Comp → ℕ → ℕ → ℕ → ℂ
  ptcl : List Species

/-- A species in a file. `charge` is an array, or a constant. -/
structure SpeciesFile where
  m : ℝ
  x : List ℝ
  y : List ℝ
  z : List ℝ
  px : List ℝ
  py : List ℝ
  pz : List ℝ
  w : List ℝ
  id : Option (List ℕ)
  charge : List ℝ ⊕ ℝ

/-- A checkpoint file of one rank: `dset c k ir iz`. -/
structure File where
  iteration : ℕ
  time : ℝ
  offset : ℝ
  dz : ℝ
  Nm : ℕ
  Nz : ℕ
  Nr : ℕ
  hasPml : Bool
  dset : Comp → ℕ → ℕ → ℕ → ℝ
  species : List SpeciesFile

/-- Physical constants: speed of light, elementary charge. -/
structure Consts where
  c : ℝ
  e : ℝ

/-! ### Writing -/

/-- `FieldDiagnostic.write_dataset` without communicator (field_diag.py:161-196): real part of mode
0, twice the real and imaginary parts of the others, transposed. -/
def writeDataset (s : Sim) (c : Comp) (k ir iz : ℕ) : ℝ :=
  if k = 0 then (s.field c 0 iz ir).re
  else if k % 2 = 1 then 2 * (s.field c ((k + 1) / 2) iz ir).re
  else 2 * (s.field c (k / 2) iz ir).im

/-- `ParticleDiagnostic.get_dataset` for a momentum, without selection (particle_diag.py:500-506). -/
noncomputable def writeMomentum (k : Consts) (m : ℝ) (u : List ℝ) : List ℝ :=
  if m > 0 then u.map (· * (m * k.c)) else u

/-- The datasets of one species (particle_diag.py:99-127, 253-324, 465-514). -/
noncomputable def writeSpecies (k : Consts) (s : Species) : SpeciesFile :=
  { m := s.m, x := s.x, y := s.y, z := s.z
    px := writeMomentum k s.m s.ux, py := writeMomentum k s.m s.uy, pz := writeMomentum k s.m s.uz
    w := s.w
    id := s.tracker.map fun t => t.id
    charge := match s.ionizer with
      | some i => .inl (i.level.map fun (l : ℕ) => k.e * l)
      | none => .inr s.q }

/-- The checkpoint of a rank at the present iteration (field_diag.py:100-122,
checkpoint_restart.py:57-75). The time written is `iteration*dt`. -/
noncomputable def write (k : Consts) (s : Sim) : File :=
  { iteration := s.iteration, time := s.iteration * s.dt, offset := s.zmin 0, dz := s.dz
    Nm := s.Nm, Nz := s.Nz, Nr := s.Nr, hasPml := s.usePml
    dset := writeDataset s
    species := s.ptcl.map (writeSpecies k) }

/-! ### Reading (openPMD-viewer) -/

/-- `ts.get_field(…, m, theta)`: row `Nr + ir` of the array with `2 Nr` rows. -/
noncomputable def File.getField (f : File) (c : Comp) (m : ℕ) (θ : ℝ) (ir iz : ℕ) : ℝ :=
  if m = 0 then f.dset c 0 ir iz
  else f.dset c (2 * m - 1) ir iz * Real.cos (m * θ) + f.dset c (2 * m) ir iz * Real.sin (m * θ)

/-- `info.zmin` of a mesh with `position = 0.5`. -/
noncomputable def File.infoZmin (f : File) : ℝ := f.offset + f.dz / 2

/-- `info.zmax`. -/
noncomputable def File.infoZmax (f : File) : ℝ := f.offset + (f.Nz - 1 / 2) * f.dz

/-- `ts.get_particle(['ux'])`. -/
noncomputable def readMomentum (k : Consts) (m : ℝ) (p : List ℝ) : List ℝ :=
  if m ≠ 0 then p.map (· / (m * k.c)) else p

/-- The stored iteration closest to the one requested (`np.argmin`: the first one if two are equally
close). -/
noncomputable def closest (iteration : ℕ) (l : List File) : Option File :=
  l.argmin fun f => |(f.iteration : ℤ) - iteration|

/-! ### Restart -/

/-- `np.allclose(a, b)`. -/
def allclose (a b : ℝ) : Prop := |a - b| ≤ 1 / 10 ^ 8 + 1 / 10 ^ 5 * |b|

/-- The value read by `load_fields` (checkpoint_restart.py:242-263). -/
noncomputable def loadedField (f : File) (c : Comp) (m iz ir : ℕ) : ℂ :=
  if m = 0 then (f.getField c 0 0 ir iz : ℂ)
  else 1 / 2 * ((f.getField c m 0 ir iz : ℂ) + Complex.I * (f.getField c m (Real.pi / (2 * m)) ir iz : ℂ))

open Classical in
/-- `load_fields(grid, fieldtype, coord, ts, iteration)` for mode `m` (checkpoint_restart.py:217-280).
Assigning an array of another shape raises (except for the broadcast of an axis of length 1, which is
not modelled), as does reading a mode or a record that is not in the file. -/
noncomputable def loadFields (f : File) (c : Comp) (m : ℕ) (s : Sim) : Except PyErr Sim := do
  if c.isPml && !f.hasPml then .error (.valueError "The requested field is not available")
  if ¬ m < f.Nm then .error (.valueError "The requested mode is not available")
  if ¬ (f.Nz = s.Nz ∧ f.Nr = s.Nr) then .error (.valueError "could not broadcast input array")
  let lengthOld := s.zmax m - s.zmin m
  let zmin' := f.infoZmin - f.dz / 2
  let zmax' := f.infoZmax + f.dz / 2
  if ¬ allclose lengthOld (zmax' - zmin') then .error (.assertionError "")
  .ok { s with
    field := fun c' m' iz ir => if c' = c ∧ m' = m ∧ iz < s.Nz ∧ ir < s.Nr then loadedField f c m iz ir
      else s.field c' m' iz ir
    zmin := fun m' => if m' = m then zmin' else s.zmin m'
    zmax := fun m' => if m' = m then zmax' else s.zmax m' }

/-- The arrays loaded for each mode, in order (checkpoint_restart.py:176-184). -/
def comps (usePml : Bool) : List Comp :=
  [.Er, .Et, .Ez, .Br, .Bt, .Bz] ++ if usePml then [.ErPml, .EtPml, .BrPml, .BtPml] else []

/-- `1./np.sqrt( 1 + ux**2 + uy**2 + uz**2 )`, element by element. -/
noncomputable def invGammas : List ℝ → List ℝ → List ℝ → List ℝ
  | x :: xs, y :: ys, z :: zs => 1 / Real.sqrt (1 + x ^ 2 + y ^ 2 + z ^ 2) :: invGammas xs ys zs
  | _, _, _ => []

/-- The `charge` array as given by `ts.get_particle(['charge'])`. -/
def SpeciesFile.charges (f : SpeciesFile) : List ℝ :=
  match f.charge with
  | .inl l => l
  | .inr q => List.replicate f.w.length q

/-- `load_species(species, name, ts, iteration, comm, version)` with version 1 of openPMD-viewer
(checkpoint_restart.py:282-347). `pids r` are the ids of this species read on rank `r` (they meet in
`overwrite_ids`). `np.round` is modelled by `round` (they differ only at half-integers). The arrays of
gathered fields and the sorting buffers, allocated anew, are not modelled. -/
noncomputable def loadSpecies (k : Consts) (size rank : ℕ) (pids : ℕ → List ℕ) (s : Species) (f : SpeciesFile) :
    Species :=
  let ux := readMomentum k f.m f.px
  let uy := readMomentum k f.m f.py
  let uz := readMomentum k f.m f.pz
  let level := f.charges.map fun q => (round (q / k.e)).toNat
  { m := s.m, q := s.q, x := f.x, y := f.y, z := f.z, ux := ux, uy := uy, uz := uz, w := f.w
    invGamma := invGammas ux uy uz
    tracker := match f.id with
      | some _ => some (restartTracker size rank pids)
      | none => s.tracker
    ionizer := s.ionizer.map fun _ => ⟨level, List.zipWith (fun (w : ℝ) (l : ℕ) => w * l) f.w level⟩
    nInt := match f.id with
      | some _ => s.nInt + 1
      | none => s.nInt
    inject := s.inject.map fun _ => none }

/-- `if iteration is None: iteration = ts.iterations[-1]` and the file then read
(checkpoint_restart.py:138-148). -/
noncomputable def select (series : List File) (request : Option ℕ) : Except PyErr (ℕ × File) := do
  let iteration ← (match request, series.getLast? with
    | some i, _ => .ok i
    | none, some f => .ok f.iteration
    | none, none => .error (.indexError "list index out of range"))
  match closest iteration series with
  | none => .error (.valueError "attempt to get argmin of an empty sequence")
  | some f => .ok (iteration, f)

/-- `restart_from_checkpoint(sim, iteration)` on rank `rank`, after `check_restart`
(checkpoint_restart.py:134-189). `series` are the files of this rank in the order of their
iterations, `pids i r` the ids of species `i` read on rank `r`. -/
noncomputable def restartRank (k : Consts) (size rank : ℕ) (pids : ℕ → ℕ → List ℕ) (series : List File)
    (request : Option ℕ) (s : Sim) : Except PyErr Sim := do
  let (iteration, f) ← select series request
  let s := { s with iteration := iteration, time := f.time }
  if f.species.length ≠ s.ptcl.length then
    .error (.runtimeError "Species numbers in checkpoint and simulation should be same")
  else do
    let s := { s with ptcl := (List.zip s.ptcl f.species).mapIdx fun i p => loadSpecies k size rank (pids i) p.1 p.2 }
    let zminOld := s.zmin 0
    let s ← (List.range s.Nm).foldlM (fun s m => (comps s.usePml).foldlM (fun s c => loadFields f c m s) s) s
    .ok { s with zminGlobal := s.zminGlobal + (s.zmin 0 - zminOld) }

/-- The ids of species `i` read on rank `r`. -/
noncomputable def pidsOf (series : ℕ → List File) (request : Option ℕ) (i r : ℕ) : List ℕ :=
  match select (series r) request with
  | .ok (_, f) => ((f.species[i]?.bind fun (x : SpeciesFile) => x.id).getD [])
  | .error _ => []

/-- `re.match('proc\d+', name)` (a match at the beginning of the name is enough). -/
def isProcDir (name : List Char) : Bool :=
  match name with
  | 'p' :: 'r' :: 'o' :: 'c' :: d :: _ => d.isDigit
  | _ => false

/-- `check_restart` (checkpoint_restart.py:191-214). `listing` is the content of the directory, `none`
if it does not exist. -/
def checkRestart (listing : Option (List (List Char))) (size : ℕ) (movingWin : Bool) : Except PyErr Unit :=
  match listing with
  | none => .error (.runtimeError "The directory does not exist.")
  | some l =>
    if (l.filter isProcDir).length ≠ size then
      .error (.runtimeError "the current simulation should use another number of MPI processes.")
    else if movingWin then .error (.runtimeError "The moving window has already been initialized.")
    else .ok ()

/-- `restart_from_checkpoint` on all ranks (checkpoint_restart.py:77-189): rank 0 checks, all ranks
wait for it, then each one reads its files. The first error stops the program. -/
noncomputable def restart (k : Consts) (size : ℕ) (listing : Option (List (List Char))) (movingWin : Bool)
    (series : ℕ → List File) (request : Option ℕ) (s : ℕ → Sim) : Except PyErr (List Sim) := do
  checkRestart listing size movingWin
  (List.range size).mapM fun r => restartRank k size r (pidsOf series request) (series r) request (s r)

end Fbpic.Checkpoint
