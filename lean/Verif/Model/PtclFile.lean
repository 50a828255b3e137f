import Verif.Model.FieldDiag

/-!
# The openPMD particle file

`ParticleDiagnostic` (`openpmd_diag/particle_diag.py`) as a writer of an HDF5 file: groups, datasets
and attributes, in a file that may exist already (`mode="a"`).

Which particles a dataset holds is the subject of C60; here the arrays are given. Simplifications:
the names of the links of the file are constructors (the names of species contain no slash); the
dataset is created with its data (the code creates it with the length, then fills it); only what the
first process does with the file is modelled; the transfers from and to the GPU are those of C113.
-/

namespace Fbpic.PFile

/-- The components of the vector quantities. -/
inductive Xyz | x | y | z
  deriving DecidableEq

/-- The vector records (particle_diag.py:112-119, 316-333). -/
inductive Vec | position | momentum | E | B
  deriving DecidableEq

/-- The scalar records that are written as arrays (particle_diag.py:335-344); `weighting` is the quantity `w`. -/
inductive Scal | weighting | id | charge | gamma
  deriving DecidableEq

/-- The strings of `array_quantities_dict[species_name]`: `x`, …, `Bz`; `w`, `id`, `charge`, `gamma`;
anything else (particle_diag.py:316-349). -/
inductive Qty
  | vec (v : Vec) (c : Xyz)
  | scal (s : Scal)
  | other (s : String)
  deriving DecidableEq

/-- The records of a species. -/
inductive Record
  | vec (v : Vec)
  | scal (s : Scal)
  | mass
  | positionOffset
  deriving DecidableEq

/-- The names of the records in the file; these are the keys of the dictionaries of data_dict.py. -/
def Record.str : Record → String
  | .vec .position => "position"
  | .vec .momentum => "momentum"
  | .vec .E => "E"
  | .vec .B => "B"
  | .scal .weighting => "weighting"
  | .scal .id => "id"
  | .scal .charge => "charge"
  | .scal .gamma => "gamma"
  | .mass => "mass"
  | .positionOffset => "positionOffset"

/-- The names of the links of the file: `data`, the number of the iteration, `fields`, `particles`,
the name of a species, the name of a record, the name of a component. -/
inductive Key
  | data
  | iter (n : ℕ)
  | fields
  | particles
  | species (name : String)
  | record (r : Record)
  | comp (c : Xyz)
  deriving DecidableEq

/-- A path of the file. -/
abbrev Path := List Key

/-- The values of attributes. -/
inductive Val (K : Type)
  | str (s : String)
  | num (x : K)
  | u32 (n : ℕ)
  | dims (d : Fin 7 → ℤ)
  | shape (l : List ℕ)

/-- The content of a dataset: `f8` or `uint64` (particle_diag.py:441-444). -/
inductive Data (K : Type)
  | floats (l : List K)
  | ints (l : List ℕ)

/-- Number of entries. -/
def Data.length {K : Type} : Data K → ℕ
  | .floats l => l.length
  | .ints l => l.length

/-- The attributes of a group or dataset. -/
abbrev Attrs (K : Type) := String → Option (Val K)

/-- `x.attrs[k] = v`, for a list of assignments. -/
def Attrs.put {K : Type} (a : Attrs K) (l : List (String × Val K)) : Attrs K :=
  l.foldl (fun a kv => fun k => if k = kv.1 then some kv.2 else a k) a

/-- A group or a dataset. -/
inductive Node (K : Type)
  | group (a : Attrs K)
  | dset (d : Data K) (a : Attrs K)

/-- A group with everything in it: what there is at each path relative to the group. -/
abbrev H5Tree (K : Type) := Path → Option (Node K)

/-- A group without attributes. -/
def Node.empty {K : Type} : Node K := .group fun _ => none

def Node.put {K : Type} (n : Node K) (l : List (String × Val K)) : Node K :=
  match n with
  | .group a => .group (Attrs.put a l)
  | .dset d a => .dset d (Attrs.put a l)

/-- There is a dataset. -/
def isDset {K : Type} : Option (Node K) → Bool
  | some (.dset _ _) => true
  | _ => false

/-- Some group on the way to the path is a dataset. -/
def blocked {K : Type} (t : H5Tree K) (p : Path) : Bool := p.inits.any fun q => decide (q ≠ p) && isDset (t q)

/-- `h5py.Group.require_group`: the groups on the way are created; `TypeError` if there is a dataset. -/
def requireGroup {K : Type} (t : H5Tree K) (p : Path) : Except PyErr (H5Tree K) :=
  if blocked t p then .error (.valueError "Unable to create group")
  else if isDset (t p) then .error (.typeError "Incompatible object (Dataset) already exists")
  else .ok fun q => if q <+: p then some ((t q).getD .empty) else t q

/-- `h5py.Group.create_dataset`: the groups on the way are created. -/
def createDataset {K : Type} (t : H5Tree K) (p : Path) (d : Data K) : Except PyErr (H5Tree K) :=
  if blocked t p then .error (.valueError "Unable to create group")
  else if (t p).isSome then .error (.valueError "Unable to create dataset (name already exists)")
  else .ok fun q => if q = p then some (.dset d fun _ => none)
    else if q <+: p then some ((t q).getD .empty) else t q

/-- `del grp[path]`: with everything below. -/
def delete {K : Type} (t : H5Tree K) (p : Path) : H5Tree K := fun q => if p <+: q then none else t q

/-- `grp[path].attrs[k] = v`, for a list of assignments; the error stands for `KeyError`. -/
def setAttrs {K : Type} (t : H5Tree K) (p : Path) (l : List (String × Val K)) : Except PyErr (H5Tree K) :=
  match t p with
  | none => .error (.indexError "KeyError")
  | some n => .ok fun q => if q = p then some (n.put l) else t q

/-- Work in the group at the path `g`: all paths are relative to it. -/
def inGroup {K : Type} (f : H5Tree K) (g : Path) (op : H5Tree K → Except PyErr (H5Tree K)) : Except PyErr (H5Tree K) := do
  let t ← op fun r => f (g ++ r)
  .ok fun q => if g <+: q then t (q.drop g.length) else f q

/-- `macro_weighted_dict` (data_dict.py:35-45). -/
def macroWeighted (name : String) : Option ℕ :=
  if name = "charge" then some 0
  else if name = "mass" then some 0
  else if name = "weighting" then some 1
  else if name = "position" then some 0
  else if name = "positionOffset" then some 0
  else if name = "momentum" then some 0
  else if name = "E" then some 0
  else if name = "B" then some 0
  else if name = "gamma" then some 0
  else if name = "id" then some 0
  else none

/-- One species as the diagnostic sees it. `content q` is what `get_dataset` returns on the first
process, after selection and gathering (C60). -/
structure Spc (K : Type) where
  name : String
  mass : K
  charge : K
  tracked : Bool
  ionizable : Bool
  content : Qty → Except PyErr (Data K)

/-- The strings of the argument `particle_data`: `position`, `momentum`, `E`, `B`; `weighting`;
anything else is handed on as it is (particle_diag.py:107-121). -/
inductive PData
  | vec (v : Vec)
  | weighting
  | other (q : Qty)
  deriving DecidableEq

/-- particle_diag.py:109-121 for one string. -/
def PData.quantities : PData → List Qty
  | .vec v => [.vec v .x, .vec v .y, .vec v .z]
  | .weighting => [.scal .weighting]
  | .other q => [q]

/-- `array_quantities_dict[species_name]` (particle_diag.py:106-129). -/
def arrayQuantities {K : Type} (pd : List PData) (s : Spc K) : List Qty :=
  pd.flatMap PData.quantities ++ (if s.tracked then [Qty.scal .id] else [])
    ++ (if s.ionizable then [Qty.scal .charge] else [])

/-- `constant_quantities_dict[species_name]` (particle_diag.py:125-131). -/
def constantQuantities {K : Type} (s : Spc K) : List Record :=
  [Record.mass] ++ (if s.ionizable then [] else [Record.scal .charge])

variable {K : Type} [Zero K] [One K]

/-- `weighting_power_dict` (data_dict.py:46-56). -/
def weightingPower (name : String) : Option K :=
  if name = "charge" then some 1
  else if name = "mass" then some 1
  else if name = "weighting" then some 1
  else if name = "position" then some 0
  else if name = "positionOffset" then some 0
  else if name = "momentum" then some 1
  else if name = "E" then some 0
  else if name = "B" then some 0
  else if name = "gamma" then some 0
  else if name = "id" then some 0
  else none

/-- The attributes that `setup_openpmd_species_record` sets (particle_diag.py:178-196,
generic_diag.py:199-215). -/
def recordList (r : Record) : Except PyErr (List (String × Val K)) :=
  match FieldDiag.unitDimension r.str, macroWeighted r.str, weightingPower (K := K) r.str with
  | some u, some m, some w => .ok [("unitDimension", .dims u), ("timeOffset", .num 0),
      ("macroWeighted", .u32 m), ("weightingPower", .num w)]
  | _, _, _ => .error (.indexError "KeyError")

/-- `setup_openpmd_species_record` (particle_diag.py:178-196). -/
def setupRecord (t : H5Tree K) (p : Path) (r : Record) : Except PyErr (H5Tree K) := do
  let l ← recordList r
  setAttrs t p l

/-- `setup_openpmd_species_component` (particle_diag.py:198-209, generic_diag.py:217-225). -/
def setupComponent (t : H5Tree K) (p : Path) : Except PyErr (H5Tree K) := setAttrs t p [("unitSI", .num 1)]

/-- One constant record (particle_diag.py:155-159). -/
def setupConstant (t : H5Tree K) (r : Record) : Except PyErr (H5Tree K) := do
  let t ← requireGroup t [.record r]
  let t ← setupRecord t [.record r] r
  let t ← setupComponent t [.record r]
  setAttrs t [.record r] [("shape", .shape [1])]

/-- The value of the charge (particle_diag.py:162-163). -/
def setupCharge (t : H5Tree K) (s : Spc K) (consts : List Record) : Except PyErr (H5Tree K) :=
  if Record.scal .charge ∈ consts then setAttrs t [.record (.scal .charge)] [("value", .num s.charge)] else .ok t

/-- One component of the offset (particle_diag.py:169-173). -/
def setupOffset (t : H5Tree K) (c : Xyz) : Except PyErr (H5Tree K) := do
  let t ← requireGroup t [.record .positionOffset, .comp c]
  let t ← setupComponent t [.record .positionOffset, .comp c]
  setAttrs t [.record .positionOffset, .comp c] [("shape", .shape [1])]

/-- The generic attributes of a species (particle_diag.py:147-152). -/
def speciesList : List (String × Val K) :=
  [("particleShape", .num 1), ("currentDeposition", .str "directMorseNielson"),
   ("particleSmoothing", .str "none"), ("particlePush", .str "Vay"), ("particleInterpolation", .str "uniform")]

/-- The generic attributes, the constants, and the record of the offset (particle_diag.py:147-168). -/
def setupConstants (t : H5Tree K) (s : Spc K) (consts : List Record) : Except PyErr (H5Tree K) := do
  let t ← setAttrs t [] speciesList
  let t ← consts.foldlM setupConstant t
  let t ← setAttrs t [.record .mass] [("value", .num s.mass)]
  let t ← setupCharge t s consts
  let t ← requireGroup t [.record .positionOffset]
  setupRecord t [.record .positionOffset] .positionOffset

/-- `setup_openpmd_species_group` (particle_diag.py:133-176); the tree is that of the group of the species. -/
def setupSpeciesGroup (t : H5Tree K) (s : Spc K) (consts : List Record) : Except PyErr (H5Tree K) := do
  let t ← setupConstants t s consts
  let t ← [Xyz.x, Xyz.y, Xyz.z].foldlM setupOffset t
  [Xyz.x, Xyz.y, Xyz.z].foldlM
    (fun t c => setAttrs t [.record .positionOffset, .comp c] [("value", .num 0)]) t

/-- `write_dataset` (particle_diag.py:408-458). -/
def writeDataset (t : H5Tree K) (s : Spc K) (p : Path) (q : Qty) : Except PyErr (H5Tree K) := do
  let t := if (t p).isSome then delete t p else t
  let d ← s.content q
  let t ← createDataset t p d
  setupComponent t p

/-- One turn of the loop of `write_particles` (particle_diag.py:313-349). -/
def writeQty (s : Spc K) (t : H5Tree K) (q : Qty) : Except PyErr (H5Tree K) :=
  match q with
  | .vec v c => writeDataset t s [.record (.vec v), .comp c] (.vec v c)
  | .scal r => do
    let t ← writeDataset t s [.record (.scal r)] (.scal r)
    setupRecord t [.record (.scal r)] (.scal r)
  | .other _ => .error (.valueError "Invalid string")

/-- The record of a vector (particle_diag.py:351-364). -/
def setupVector (qs : List Qty) (t : H5Tree K) (v : Vec) : Except PyErr (H5Tree K) :=
  if Qty.vec v .x ∈ qs then setupRecord t [.record (.vec v)] (.vec v) else .ok t

/-- `write_particles` (particle_diag.py:285-364). -/
def writeParticles (t : H5Tree K) (s : Spc K) (qs : List Qty) : Except PyErr (H5Tree K) := do
  let t ← qs.foldlM (writeQty s) t
  [Vec.position, .momentum, .E, .B].foldlM (setupVector qs) t

/-- What is done with the group of a species (particle_diag.py:248-249, 273-274). -/
def fillSpecies (pd : List PData) (s : Spc K) (t : H5Tree K) : Except PyErr (H5Tree K) := do
  let t ← setupSpeciesGroup t s (constantQuantities s)
  writeParticles t s (arrayQuantities pd s)

/-- `species_path` (particle_diag.py:244-245). -/
def speciesPath (it : ℕ) (name : String) : Path := [.data, .iter it, .particles, .species name]

/-- One turn of the loop over the species (particle_diag.py:233-274). -/
def writeSpecies (it : ℕ) (pd : List PData) (f : H5Tree K) (s : Spc K) : Except PyErr (H5Tree K) := do
  let f ← requireGroup f (speciesPath it s.name)
  inGroup f (speciesPath it s.name) (fillSpecies pd s)

/-- A diagnostic. `species` is in the order of `species_names_list`, `now` the date, `version` that of fbpic. -/
structure Diag (K : Type) where
  species : List (Spc K)
  particleData : List PData
  dt : K
  now : String
  version : String

/-- The attributes of the file (generic_diag.py:178-191). -/
def fileList (d : Diag K) : List (String × Val K) :=
  [("openPMD", .str "1.0.0"), ("openPMDextension", .u32 1), ("software", .str ("fbpic " ++ d.version)),
   ("date", .str d.now), ("meshesPath", .str "fields/"), ("particlesPath", .str "particles/"),
   ("iterationEncoding", .str "fileBased"), ("iterationFormat", .str "data%T.h5"), ("basePath", .str "/data/%T/")]

variable [NatCast K] [Mul K]

/-- The attributes of the iteration (generic_diag.py:194-197, particle_diag.py:229). -/
def iterList (d : Diag K) (it : ℕ) : List (String × Val K) :=
  [("time", .num ((it : K) * d.dt)), ("dt", .num d.dt), ("timeUnitSI", .num 1)]

/-- `setup_openpmd_file` (generic_diag.py:157-197). -/
def setupFile (d : Diag K) (it : ℕ) (f : H5Tree K) : Except PyErr (H5Tree K) := do
  let f ← setAttrs f [] (fileList d)
  let f ← requireGroup f [.data, .iter it]
  setAttrs f [.data, .iter it] (iterList d it)

/-- `ParticleDiagnostic.write_hdf5` on the file that `h5py.File(fullpath, mode="a")` has opened
(particle_diag.py:223-279). -/
def writeHdf5 (d : Diag K) (it : ℕ) (f : H5Tree K) : Except PyErr (H5Tree K) := do
  let f ← setupFile d it f
  d.species.foldlM (writeSpecies it d.particleData) f

omit [Zero K] [One K] [NatCast K] [Mul K] in
/-- A file that has just been created (particle_diag.py:226). -/
def newFile : H5Tree K := fun p => if p = [] then some .empty else none

end Fbpic.PFile
