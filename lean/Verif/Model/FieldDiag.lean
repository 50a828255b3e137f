import Verif.Model.Gather
import Verif.Model.Exchange
import Mathlib.Data.Complex.Basic
import Mathlib.Data.Fin.VecNotation

/-!
# The openPMD field diagnostic

`FieldDiagnostic` (`openpmd_diag/field_diag.py`), the attributes written by
`openpmd_diag/generic_diag.py`, and the dictionary `openpmd_diag/data_dict.py`.

All ranks are modelled together. Simplifications: exact arithmetic; a fresh file (no datasets of an
earlier run); `fieldtypes` strings are parsed into `FieldType` (everything that is not a name used
by the code is `other`); what `spect2interp` puts on the interpolation grid is an argument (see
C66); the transfers from and to the GPU are dropped. The attributes that describe the solver
(`fieldSolver`, `fieldBoundary`, …) are not modelled.
-/

namespace Fbpic.FieldDiag

/-- `self.coords` (field_diag.py:72). -/
inductive Coord | r | t | z
  deriving DecidableEq

/-- The strings of `fieldtypes`. `rhoOf` is `'rho_<species>'`, `pml` one of `'Er_pml'`, `'Et_pml'`,
`'Br_pml'`, `'Bt_pml'` (by field and coordinate). -/
inductive FieldType
  | rho
  | rhoOf (species : String)
  | E
  | B
  | J
  | Epml (c : Coord)
  | Bpml (c : Coord)
  | other (s : String)
  deriving DecidableEq

/-- The attributes of an `InterpolationGrid` that are read (`getattr(self.fld.interp[m], …)`). -/
inductive Attr
  | rho
  | E (c : Coord)
  | B (c : Coord)
  | J (c : Coord)
  | Epml (c : Coord)
  | Bpml (c : Coord)
  deriving DecidableEq

/-- `unit_dimension_dict` (data_dict.py:13-32). `none` is a `KeyError`. The keys are the names of the
records; `'rho_<species>'` is first replaced by `'rho'` (generic_diag.py:210-211). -/
def unitDimension (name : String) : Option (Fin 7 → ℤ) :=
  if name = "rho" then some ![-3, 0, 1, 1, 0, 0, 0]
  else if name = "J" then some ![-2, 0, 0, 1, 0, 0, 0]
  else if name = "E" then some ![1, 1, -3, -1, 0, 0, 0]
  else if name = "Er_pml" then some ![1, 1, -3, -1, 0, 0, 0]
  else if name = "Et_pml" then some ![1, 1, -3, -1, 0, 0, 0]
  else if name = "B" then some ![0, 1, -2, -1, 0, 0, 0]
  else if name = "Br_pml" then some ![0, 1, -2, -1, 0, 0, 0]
  else if name = "Bt_pml" then some ![0, 1, -2, -1, 0, 0, 0]
  else if name = "charge" then some ![0, 0, 1, 1, 0, 0, 0]
  else if name = "mass" then some ![1, 0, 0, 0, 0, 0, 0]
  else if name = "weighting" then some ![0, 0, 0, 0, 0, 0, 0]
  else if name = "position" then some ![1, 0, 0, 0, 0, 0, 0]
  else if name = "positionOffset" then some ![1, 0, 0, 0, 0, 0, 0]
  else if name = "momentum" then some ![1, 1, -1, 0, 0, 0, 0]
  else if name = "id" then some ![0, 0, 0, 0, 0, 0, 0]
  else if name = "gamma" then some ![0, 0, 0, 0, 0, 0, 0]
  else none

/-- The name under which the dimension of a record is looked up (generic_diag.py:210-213). There are
no PML arrays of the longitudinal components (interpolation_grid.py), so that name is not a key. -/
def FieldType.record : FieldType → String
  | .rho => "rho"
  | .rhoOf _ => "rho"
  | .E => "E"
  | .B => "B"
  | .J => "J"
  | .Epml .r => "Er_pml"
  | .Epml .t => "Et_pml"
  | .Epml .z => "Ez_pml"
  | .Bpml .r => "Br_pml"
  | .Bpml .t => "Bt_pml"
  | .Bpml .z => "Bz_pml"
  | .other s => s

/-- The state of the simulation on all ranks. `interp k m a iz ir` is the array of attribute `a` of
`fld.interp[m]` on rank `k`, `Nr` and `Nz` its shape, `NrPhys` is `get_Nr(with_damp=False)`,
`s2iRho`, `s2iJ` are what `spect2interp('rho_prev')`, `spect2interp('J')` write, the flags are
`fld.exchanged_source`. -/
structure Sim where
  comm : Comm
  zminGlobal : ℝ
  dz : ℝ
  NrPhys : ℕ
  Nr : ℕ
  rmin : ℝ
  dr : ℝ
  dt : ℝ
  Nm : ℕ
  Nz : ℕ → ℕ
  zmin : ℕ → ℝ
  interp : ℕ → ℕ → Attr → ℕ → ℕ → ℂ
  s2iRho : ℕ → ℕ → ℕ → ℕ → ℂ
  s2iJ : Coord → ℕ → ℕ → ℕ → ℕ → ℂ
  exRho : Bool
  exJ : Bool

/-- What the file holds for one dataset, with the attributes of its record. -/
structure Dataset where
  modes : ℕ
  shape : ℕ × ℕ × ℕ
  spacing : ℝ × ℝ
  offset : ℝ × ℝ
  gridUnitSI : ℝ
  position : ℝ × ℝ
  unitSI : ℝ
  unitDimension : Fin 7 → ℤ
  timeOffset : ℝ
  data : ℕ → ℕ → ℕ → ℝ

/-- The file of one iteration. -/
structure File where
  time : ℝ
  dt : ℝ
  dsets : List ((FieldType × Option Coord) × Dataset)

/-- The components of a vector field as one exchanged field (`'J'`: `Jr`, `Jt`, `Jz`). -/
def coordOf (k : ℕ) : Coord := if k = 0 then .r else if k = 1 then .t else .z

/-- Inverse of `coordOf`. -/
def Coord.idx : Coord → ℕ
  | .r => 0
  | .t => 1
  | .z => 2

/-- `spect2interp('rho_prev')` and, if its guard cells were not exchanged, `exchange_fields(…,'add')`
(field_diag.py:84-91). `gather = false` is `comm is None`. -/
noncomputable def bringRho (s : Sim) (gather : Bool) : Except PyErr Sim :=
  let s := { s with interp := fun k m a iz ir => if a = .rho then s.s2iRho k m iz ir else s.interp k m a iz ir }
  if gather ∧ s.comm.size > 1 ∧ s.exRho = false then do
    let F ← exchangeFields s.comm .add 1 s.Nm s.Nz fun k m _ iz ir => s.interp k m .rho iz ir
    .ok { s with interp := fun k m a iz ir => if a = .rho then F k m 0 iz ir else s.interp k m a iz ir }
  else .ok s

/-- `spect2interp('J')` and the exchange (field_diag.py:92-97). -/
noncomputable def bringJ (s : Sim) (gather : Bool) : Except PyErr Sim :=
  let s := { s with interp := fun k m a iz ir =>
    match a with | .J c => s.s2iJ c k m iz ir | a => s.interp k m a iz ir }
  if gather ∧ s.comm.size > 1 ∧ s.exJ = false then do
    let F ← exchangeFields s.comm .add 3 s.Nm s.Nz fun k m i iz ir => s.interp k m (.J (coordOf i)) iz ir
    .ok { s with interp := fun k m a iz ir =>
      match a with | .J c => F k m c.idx iz ir | a => s.interp k m a iz ir }
  else .ok s

/-- rho and J are brought to the interpolation grid if they are to be written
(field_diag.py:82-97). -/
noncomputable def bring (s : Sim) (gather : Bool) (types : List FieldType) : Except PyErr Sim :=
  (if FieldType.rho ∈ types then bringRho s gather else .ok s).bind fun s =>
    if FieldType.J ∈ types then bringJ s gather else .ok s

/-- `get_dataset` on the root (field_diag.py:198-223); `k` is the writing rank (rank 0 with a
communicator, every rank for itself without). -/
noncomputable def getDataset (s : Sim) (gather : Bool) (k : ℕ) (a : Attr) (m : ℕ) : ℕ → ℕ → ℂ :=
  if gather then gatherGridArray s.comm s.NrPhys false fun r iz ir => s.interp r m a iz ir
  else s.interp k m a

/-- `write_dataset` (field_diag.py:161-196): the array is transposed; the loop over the modes writes
entry 0, then the entries `2*m-1` and `2*m`. -/
noncomputable def writeDataset (s : Sim) (gather : Bool) (k : ℕ) (a : Attr) : ℕ → ℕ → ℕ → ℝ :=
  let first := fun (i ir iz : ℕ) => if i = 0 then (getDataset s gather k a 0 iz ir).re else 0
  (List.range' 1 (s.Nm - 1)).foldl (fun d m i ir iz =>
    if i = 2 * m - 1 then 2 * (getDataset s gather k a m iz ir).re
    else if i = 2 * m then 2 * (getDataset s gather k a m iz ir).im
    else d i ir iz) first

/-- Shape and position of the written grid: `zmin, Nz, Nr` (field_diag.py:106-122). -/
noncomputable def extent (s : Sim) (gather : Bool) (k : ℕ) : Except PyErr (ℝ × ℕ × ℕ) :=
  if gather then do
    let (zmin, _) ← s.comm.getZminZmax s.zminGlobal s.dz false false false none
    let (Nz, _) ← s.comm.getNzIz false false false none
    .ok (zmin, Nz, s.NrPhys)
  else .ok (s.zmin k, s.Nz k, s.Nr)

/-- The empty dataset with its attributes: `data_shape` (field_diag.py:256), mesh record and
component (field_diag.py:333-386, generic_diag.py:198-230). A missing dimension is a `KeyError`. -/
noncomputable def emptyDataset (s : Sim) (zmin : ℝ) (Nz Nr : ℕ) (t : FieldType) : Except PyErr Dataset :=
  match unitDimension t.record with
  | none => .error (.indexError "KeyError")
  | some u => .ok
    { modes := s.Nm, shape := (2 * s.Nm - 1, Nr, Nz), spacing := (s.dr, s.dz)
      offset := (s.rmin, zmin), gridUnitSI := 1, position := (0.5, 0.5), unitSI := 1
      unitDimension := u, timeOffset := 0, data := fun _ _ _ => 0 }

/-- Paths created for a field type (field_diag.py:275-309). -/
def createPaths (t : FieldType) : Except PyErr (List (FieldType × Option Coord)) :=
  match t with
  | .rho | .rhoOf _ | .Epml _ | .Bpml _ => .ok [(t, none)]
  | .E | .B | .J => .ok [(t, some .r), (t, some .t), (t, some .z)]
  | .other _ => .error (.valueError "Invalid string in fieldtypes")

/-- Paths written for a field type, with the attribute that is read (field_diag.py:138-155). -/
def writePaths (t : FieldType) : Except PyErr (List ((FieldType × Option Coord) × Attr)) :=
  match t with
  | .rho => .ok [((t, none), .rho)]
  | .E => .ok ([Coord.r, .t, .z].map fun c => ((t, some c), Attr.E c))
  | .B => .ok ([Coord.r, .t, .z].map fun c => ((t, some c), Attr.B c))
  | .J => .ok ([Coord.r, .t, .z].map fun c => ((t, some c), Attr.J c))
  | .Epml c => .ok [((t, none), .Epml c)]
  | .Bpml c => .ok [((t, none), .Bpml c)]
  | .rhoOf _ | .other _ => .error (.valueError "Invalid string in fieldtypes")

/-- The datasets created for one field type (field_diag.py:275-309). -/
noncomputable def createBlock (s : Sim) (zmin : ℝ) (Nz Nr : ℕ) (t : FieldType) :
    Except PyErr (List ((FieldType × Option Coord) × Dataset)) := do
  let ps ← createPaths t
  let d ← emptyDataset s zmin Nz Nr t
  .ok (ps.map fun p => (p, d))

/-- `create_file_empty_meshes` (field_diag.py:228-312). -/
noncomputable def createFile (s : Sim) (types : List FieldType) (iteration : ℕ) (zmin : ℝ) (Nz Nr : ℕ) :
    Except PyErr File := do
  let ds ← types.mapM (createBlock s zmin Nz Nr)
  .ok { time := iteration * s.dt, dt := s.dt, dsets := ds.flatten }

/-- `dset[...] = …` for the dataset at a path. -/
def File.fill (f : File) (p : FieldType × Option Coord) (d : ℕ → ℕ → ℕ → ℝ) : File :=
  { f with dsets := f.dsets.map fun e => if e.1 = p then (e.1, { e.2 with data := d }) else e }

/-- One round of the loop over the quantities (field_diag.py:137-155). -/
noncomputable def writeType (s : Sim) (gather : Bool) (k : ℕ) (f : File) (t : FieldType) : Except PyErr File := do
  let ps ← writePaths t
  .ok (ps.foldl (fun f p => f.fill p.1 (writeDataset s gather k p.2)) f)

/-- `write_hdf5` (field_diag.py:74-159): the file written by rank `k` (rank 0 with a communicator). -/
noncomputable def writeHdf5 (s : Sim) (gather : Bool) (k : ℕ) (types : List FieldType) (iteration : ℕ) :
    Except PyErr File := do
  let s ← bring s gather types
  let (zmin, Nz, Nr) ← extent s gather k
  let f ← createFile s types iteration zmin Nz Nr
  types.foldlM (writeType s gather k) f

end Fbpic.FieldDiag
