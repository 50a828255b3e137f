import Verif.Model.FieldDiag

/-!
# Field files that exist already

`FieldDiagnostic` and `ParticleChargeDensityDiagnostic` open the file of an iteration with `mode="a"`
(generic_diag.py:115-141): it may hold what other diagnostics, or an earlier run in the same directory, have written.
`Model/FieldDiag.lean` describes what is written into a new file; here the file is given, and stays as it is at the
moment of an exception.

Simplifications: as in `Model/FieldDiag.lean`; the attributes of the record of a vector are kept with each of its
components, so they are set one after the other when all three datasets exist; only the writing process is modelled.
-/

namespace Fbpic.FFile

open FieldDiag

noncomputable section

/-- A path in the group `fields`: the record, and the component of a vector. -/
abbrev Loc := FieldType × Option Coord

/-- The file of an iteration: its attributes `time` and `dt`, and the datasets with their attributes. -/
@[ext] structure Disk where
  time : Option ℝ
  dt : Option ℝ
  mesh : Loc → Option Dataset

/-- There is no file. -/
def Disk.none : Disk := ⟨.none, .none, fun _ => .none⟩

/-- A change of the file; the file is kept also if there is an exception. -/
abbrev Op := Disk → Disk × Option PyErr

/-- One after the other, up to the first exception. -/
def runOps : List Op → Op
  | [], f => (f, .none)
  | o :: l, f => match o f with
    | (f, some e) => (f, some e)
    | (f, .none) => runOps l f

/-- `raise`. -/
def raise (e : PyErr) : Op := fun f => (f, some e)

/-- Put a dataset. -/
def Disk.set (f : Disk) (p : Loc) (d : Dataset) : Disk := { f with mesh := fun q => if q = p then some d else f.mesh q }

/-- `setup_openpmd_file`: time and time step of the iteration. generic_diag.py:168-197 -/
def setTime (time dt : ℝ) : Op := fun f => ({ f with time := some time, dt := some dt }, .none)

/-- `field_grp.require_dataset(path, data_shape, dtype='f8')`: an existing dataset is kept with its data and
attributes if it has the same shape; otherwise h5py raises `TypeError`. field_diag.py:281-283, 293-296 -/
def require (p : Loc) (shape : ℕ × ℕ × ℕ) : Op := fun f =>
  match f.mesh p with
  | .none => (f.set p ⟨0, shape, (0, 0), (0, 0), 0, (0, 0), 0, 0, 0, fun _ _ _ => 0⟩, .none)
  | some d => if d.shape = shape then (f, .none) else (f, some (.typeError "Shapes do not match"))

/-- `setup_openpmd_mesh_component` and `setup_openpmd_mesh_record`. field_diag.py:337-386, generic_diag.py:199-225 -/
def setup (s : Sim) (zmin : ℝ) (t : FieldType) (p : Loc) : Op := fun f =>
  match f.mesh p, unitDimension t.record with
  | some d, some u => (f.set p
      { modes := s.Nm, shape := d.shape, spacing := (s.dr, s.dz), offset := (s.rmin, zmin), gridUnitSI := 1
        position := (0.5, 0.5), unitSI := 1, unitDimension := u, timeOffset := 0, data := d.data }, .none)
  | _, _ => (f, some (.indexError "KeyError"))

/-- The loop over the modes: what is in the dataset after the assignments to `dset[0,:,:]`, `dset[2*m-1,:,:]` and
`dset[2*m,:,:]`; `A m iz ir` is mode `m` of the field. field_diag.py:183-196 -/
def writeOver (Nm : ℕ) (A : ℕ → ℕ → ℕ → ℂ) (old : ℕ → ℕ → ℕ → ℝ) : ℕ → ℕ → ℕ → ℝ :=
  (List.range' 1 (Nm - 1)).foldl (fun d m i ir iz =>
    if i = 2 * m - 1 then 2 * (A m iz ir).re
    else if i = 2 * m then 2 * (A m iz ir).im
    else d i ir iz) fun i ir iz => if i = 0 then (A 0 iz ir).re else old i ir iz

/-- `write_dataset`. field_diag.py:161-196 -/
def fill (Nm : ℕ) (A : ℕ → ℕ → ℕ → ℂ) (p : Loc) : Op := fun f =>
  match f.mesh p with
  | .none => (f, some (.indexError "KeyError"))
  | some d => (f.set p { d with data := writeOver Nm A d.data }, .none)

/-- The datasets of a field type are created or found. field_diag.py:270-309 -/
def createOps (s : Sim) (zmin : ℝ) (Nz Nr : ℕ) (t : FieldType) : List Op :=
  match t with
  | .rho | .rhoOf _ | .Epml _ | .Bpml _ => [require (t, .none) (2 * s.Nm - 1, Nr, Nz), setup s zmin t (t, .none)]
  | .E | .B | .J =>
    [require (t, some .r) (2 * s.Nm - 1, Nr, Nz), require (t, some .t) (2 * s.Nm - 1, Nr, Nz),
      require (t, some .z) (2 * s.Nm - 1, Nr, Nz), setup s zmin t (t, some .r), setup s zmin t (t, some .t),
      setup s zmin t (t, some .z)]
  | .other _ => [raise (.valueError "Invalid string in fieldtypes")]

/-- The datasets of a field type are filled. field_diag.py:137-155 -/
def writeOps (s : Sim) (gather : Bool) (k : ℕ) (t : FieldType) : List Op :=
  match t with
  | .rho => [fill s.Nm (getDataset s gather k .rho) (t, .none)]
  | .E => [Coord.r, .t, .z].map fun c => fill s.Nm (getDataset s gather k (.E c)) (t, some c)
  | .B => [Coord.r, .t, .z].map fun c => fill s.Nm (getDataset s gather k (.B c)) (t, some c)
  | .J => [Coord.r, .t, .z].map fun c => fill s.Nm (getDataset s gather k (.J c)) (t, some c)
  | .Epml c => [fill s.Nm (getDataset s gather k (.Epml c)) (t, .none)]
  | .Bpml c => [fill s.Nm (getDataset s gather k (.Bpml c)) (t, .none)]
  | .rhoOf _ | .other _ => [raise (.valueError "Invalid string in fieldtypes")]

/-- `FieldDiagnostic.write_hdf5` on the file of the iteration. field_diag.py:74-159 -/
def fieldFile (s : Sim) (gather : Bool) (k : ℕ) (types : List FieldType) (iteration : ℕ) : Op := fun f =>
  match bring s gather types with
  | .error e => (f, some e)
  | .ok s => match extent s gather k with
    | .error e => (f, some e)
    | .ok (zmin, Nz, Nr) => runOps (setTime (iteration * s.dt) s.dt :: types.flatMap (createOps s zmin Nz Nr)
        ++ types.flatMap (writeOps s gather k)) f

/-- `ParticleChargeDensityDiagnostic.write_hdf5`: `R name k m` is the density of the species on rank `k` that the
deposition, the smoothing and the exchange have put into `interp[m].rho` (C69, C78). particle_density_diag.py:70-141 -/
def densityFile (s : Sim) (names : List String) (R : String → ℕ → ℕ → ℕ → ℕ → ℂ) (iteration : ℕ) : Op := fun f =>
  match extent s true 0 with
  | .error e => (f, some e)
  | .ok (zmin, Nz, Nr) => runOps (setTime (iteration * s.dt) s.dt
      :: names.flatMap (fun n => createOps s zmin Nz Nr (.rhoOf n))
      ++ names.map fun n => fill s.Nm (fun m => gatherGridArray s.comm s.NrPhys false fun r => R n r m) (.rhoOf n, .none)) f

end

end Fbpic.FFile
