import Verif.Model.Pic
import Verif.Model.Checkpoint

/-!
# A whole simulation that writes checkpoints, and restarts

`Simulation.step` of `Model/Pic.lean` with periodic checkpoints (`set_periodic_checkpoint`), and
`restart_from_checkpoint` into a simulation of this kind. One process, no tracked species, no PML, no moving window.
-/

namespace Fbpic.Pic

open Step
open Checkpoint (File)

/-- The arrays of a species, and its ionizer if there is one (particles.py:140-185, ionizer.py `ionization_level`,
`w_times_level`). -/
noncomputable def Species.arrays (sp : Species) : Checkpoint.Species where
  m := sp.m
  q := sp.q
  x := sp.ptcl.map fun p => p.push.x
  y := sp.ptcl.map fun p => p.push.y
  z := sp.ptcl.map fun p => p.push.z
  ux := sp.ptcl.map fun p => p.push.mom.ux
  uy := sp.ptcl.map fun p => p.push.mom.uy
  uz := sp.ptcl.map fun p => p.push.mom.uz
  w := sp.ptcl.map fun p => p.w
  invGamma := sp.ptcl.map fun p => p.push.mom.invGamma
  tracker := none
  ionizer := if sp.ionizable then
      some ⟨sp.ptcl.map fun p => p.push.level, sp.ptcl.map fun p => p.w * p.push.level⟩
    else none
  nInt := if sp.ionizable then 1 else 0
  inject := none

/-- The species after its arrays have been replaced. The arrays of the gathered fields are allocated anew
(checkpoint_restart.py:341-360); the level of a species that is not ionizable has no meaning and is 0. -/
noncomputable def Species.load (sp : Species) (a : Checkpoint.Species) : Species :=
  { sp with ptcl := (List.range a.w.length).map fun i =>
      { push := ⟨a.x.getD i 0, a.y.getD i 0, a.z.getD i 0,
          ⟨a.ux.getD i 0, a.uy.getD i 0, a.uz.getD i 0, a.invGamma.getD i 0⟩,
          match a.ionizer with
          | some ion => ion.level.getD i 0
          | none => 0⟩
        w := a.w.getD i 0
        F := fun _ => 0 } }

variable (c : Cfg)

/-- The simulation as it is seen by the checkpoints: `dz` of the grid, its bounds (the same for all modes), the arrays
of E and B (there is nothing outside of the `Nm` modes and the `Nz x Nr` cells). -/
noncomputable def Cfg.arrays (s : Sim) : Checkpoint.Sim where
  iteration := s.iteration
  time := s.time
  dt := c.dt
  Nm := c.Nm
  Nz := c.Nz
  Nr := c.Nr
  dz := 1 / c.invdz
  zmin := fun _ => s.zmin
  zmax := fun _ => s.zmax
  zminGlobal := s.zmin
  usePml := false
  field := fun a m iz ir => if m < c.Nm ∧ iz < c.Nz ∧ ir < c.Nr then
      match a with
      | .Er => (s.interp m).E.r iz ir
      | .Et => (s.interp m).E.t iz ir
      | .Ez => (s.interp m).E.z iz ir
      | .Br => (s.interp m).B.r iz ir
      | .Bt => (s.interp m).B.t iz ir
      | .Bz => (s.interp m).B.z iz ir
      | _ => 0
    else 0
  ptcl := s.species.map Species.arrays

/-- An array of the grid after its `Nz x Nr` values have been replaced. -/
def Cfg.paste (new old : Buf) : Buf := fun iz ir => if iz < c.Nz ∧ ir < c.Nr then new iz ir else old iz ir

/-- The simulation `b` after `restart_from_checkpoint` has replaced its iteration, its time, the bounds of its grids, the
arrays E and B and the particles (checkpoint_restart.py:134-189). -/
noncomputable def Cfg.load (b : Sim) (a : Checkpoint.Sim) : Sim :=
  { b with
    zmin := a.zmin 0
    zmax := a.zmax 0
    time := a.time
    iteration := a.iteration
    species := List.zipWith Species.load b.species a.ptcl
    interp := onModes c.Nm (fun m i => { i with
      E := ⟨c.paste (a.field .Er m) i.E.r, c.paste (a.field .Et m) i.E.t, c.paste (a.field .Ez m) i.E.z⟩
      B := ⟨c.paste (a.field .Br m) i.B.r, c.paste (a.field .Bt m) i.B.t, c.paste (a.field .Bz m) i.B.z⟩ }) b.interp }

/-- `restart_from_checkpoint(b, request)` with the files `D`, after `check_restart` (checkpoint_restart.py:77-189). -/
noncomputable def Cfg.restartFrom (k : Checkpoint.Consts) (D : List File) (request : Option ℕ) (b : Sim) :
    Except PyErr Sim := do
  let a ← Checkpoint.restartRank k 1 0 (fun _ _ => []) D request (c.arrays b)
  pure (c.load b a)

/-- The checkpoint of the present state: `FieldDiagnostic.write_hdf5` and `ParticleDiagnostic.write_hdf5`
(checkpoint_restart.py:57-75). -/
noncomputable def Cfg.file (k : Checkpoint.Consts) (s : Sim) : File := Checkpoint.write k (c.arrays s)

/-- A file is put in the directory, whose files are in the order of their iterations. If there is one for the same
iteration, its contents are replaced: the file is opened with mode "a", `require_dataset` takes the existing array of a
field, and the datasets of the particles are deleted and created anew (generic_diag.py:117, field_diag.py:259-290,
particle_diag.py:230, 448-455). That the sizes of the grids agree is assumed. -/
def storeFile (f : File) : List File → List File
  | [] => [f]
  | g :: D =>
    if f.iteration < g.iteration then f :: g :: D
    else if f.iteration = g.iteration then f :: D
    else g :: storeFile f D

/-- The moments between which the file is closed while a checkpoint is written: after `create_file_empty_meshes`
(field_diag.py:121-123), after the fields have been written (field_diag.py:126-159). The particles follow. -/
inductive Stage | created | fields

/-- The file as it is on the disk at this moment; `old` is the file of the same iteration that was there before. New
arrays of the fields hold zeros. (A crash while the file is open, which may leave a file that cannot be read, is not
modelled.) -/
def partialFile (f : File) (old : Option File) : Stage → File
  | .created => { f with
      dset := match old with
        | some g => g.dset
        | none => fun _ _ _ _ => 0
      species := match old with
        | some g => g.species
        | none => [] }
  | .fields => { f with
      species := match old with
        | some g => g.species
        | none => [] }

/-- The directory when the program ends while the file `f` is written. -/
def tear (st : Stage) (f : File) (D : List File) : List File :=
  storeFile (partialFile f (D.find? fun g => g.iteration = f.iteration) st) D

section
variable [NeZero c.Nz] (k : Checkpoint.Consts) (period : ℕ)

/-- The loop of `step` with checkpoints, and the directory at its end or when it raises (main.py:421-565,
generic_diag.py:124-140). -/
noncomputable def Cfg.loopSaving (o : Opts) (i : ℕ) : ℕ → Sim → List File → Except PyErr Sim × List File
  | 0, s, D => (.ok s, D)
  | n + 1, s, D =>
    match c.iter o i s with
    | .error e => (.error e, D)
    | .ok s =>
      if period = 0 then (.error (.valueError "ZeroDivisionError"), D)
      else Cfg.loopSaving o (i + 1) n s (if s.iteration % period = 0 then storeFile (c.file k s) D else D)

/-- `step(N, …)` with checkpoints. -/
noncomputable def Cfg.stepSaving (N : ℕ) (o : Opts) (s : Sim) (D : List File) : Except PyErr Sim × List File :=
  match c.loopSaving k period o 0 N (c.startFields s) D with
  | (.ok s, D) => (.ok (c.endFields s), D)
  | (.error e, D) => (.error e, D)

/-- Several calls to `step` with checkpoints. -/
noncomputable def Cfg.callsSaving : List (ℕ × Opts) → Sim → List File → Except PyErr Sim × List File
  | [], s, D => (.ok s, D)
  | (n, o) :: L, s, D =>
    match c.stepSaving k period n o s D with
    | (.ok s, D) => Cfg.callsSaving L s D
    | (.error e, D) => (.error e, D)

end

end Fbpic.Pic
