import Verif.Model.Gather
import Mathlib.Algebra.Order.Field.Basic

/-!
# Particle diagnostics (`openpmd_diag/particle_diag.py`, `openpmd_diag/boosted_particle_diag.py`)

Selection of the particles, gathering over the ranks and content of the datasets. The attributes of the
file are not modelled. An array of length `N` is a function of the index; the entries from `N` on are
never read.
-/

namespace Fbpic.PtclDiag

variable {K : Type} [Field K] [LinearOrder K]

/-- What the diagnostic reads of a species on one rank: the float attributes by name (`x`, …, `w`,
`inv_gamma`; `None` if there is no such attribute), the mass, the ids if there is a tracker, the
ionization levels if there is an ionizer. -/
structure Species (K : Type) where
  Ntot : ℕ
  attr : String → Option (ℕ → K)
  m : K
  id : Option (ℕ → ℕ)
  level : Option (ℕ → ℕ)

/-- `getattr( species, quantity )`. -/
def Species.getattr (s : Species K) (q : String) : Except PyErr (ℕ → K) :=
  match s.attr q with
  | some a => .ok a
  | none => .error (.attributeError q)

/-- The array on which a rule applies: `gamma` is `1.0/inv_gamma`, particle_diag.py:394-397. -/
def Species.quantity (s : Species K) (q : String) : Except PyErr (ℕ → K) :=
  if q = "gamma" then do
    let a ← s.getattr "inv_gamma"
    return fun i => 1 / a i
  else s.getattr q

/-- A rule of `select`: the quantity, the lower and the upper bound. -/
structure Rule (K : Type) where
  quantity : String
  lower : Option K
  upper : Option K

/-- The two bounds of one rule, particle_diag.py:398-407. -/
def applyRule (a : ℕ → K) (r : Rule K) (sel : ℕ → Bool) : ℕ → Bool :=
  let sel := match r.lower with
    | some lo => fun i => decide (a i > lo) && sel i
    | none => sel
  match r.upper with
  | some hi => fun i => decide (a i < hi) && sel i
  | none => sel

/-- `ParticleDiagnostic.apply_selection`, particle_diag.py:366-409. `rand` are the numbers drawn by
`np.random.rand(species.Ntot)`. -/
def applySelection (subsampling : Option K) (rand : ℕ → K) (select : Option (List (Rule K)))
    (s : Species K) : Except PyErr (ℕ → Bool) :=
  let sel : ℕ → Bool := fun _ => true
  let sel := match subsampling with
    | some f => fun i => decide (rand i < f) && sel i
    | none => sel
  match select with
  | some rules => rules.foldlM (fun sel r => do
      let a ← s.quantity r.quantity
      return applyRule a r sel) sel
  | none => .ok sel

/-- `a[ select_array ]` for a boolean array of length `N`. -/
def compress {A : Type} (N : ℕ) (sel : ℕ → Bool) (a : ℕ → A) : List A :=
  ((List.range N).filter fun i => sel i).map a

/-- The array of a float quantity, before the selection: `get_dataset`, particle_diag.py:485-494; `e` is the
elementary charge. -/
def rawFloat (e : K) (s : Species K) (q : String) : Except PyErr (ℕ → K) :=
  if q = "charge" then
    match s.level with
    | some l => .ok fun i => e * (l i : K)
    | none => .error (.attributeError "ionization_level")
  else if q = "w" then s.getattr "w"
  else if q = "gamma" then (s.getattr "inv_gamma").map fun a i => 1 / a i
  else s.getattr q

/-- Float datasets: what `get_dataset` extracts on one rank, particle_diag.py:484-504; `e` and `c` are the
constants. (The multiplication in place acts on the copy made by the boolean index.) -/
def getFloat (e c : K) (s : Species K) (q : String) (sel : ℕ → Bool) : Except PyErr (List K) := do
  let a ← rawFloat e s q
  let l := compress s.Ntot sel a
  return if q ∈ ["ux", "uy", "uz"] then
      if s.m > 0 then l.map (· * (s.m * c)) else l
    else l

/-- Integer dataset `id`, particle_diag.py:485-486. -/
def getId (s : Species K) (sel : ℕ → Bool) : Except PyErr (List ℕ) :=
  match s.id with
  | some a => .ok (compress s.Ntot sel a)
  | none => .error (.attributeError "id")

/-- The dataset on the first rank: `write_hdf5` and the end of `get_dataset`, particle_diag.py:265-278,
508-513: the numbers of selected particles are all-gathered (`select_array.sum()`), then the arrays are
gathered with `gather_ptcl_array`. `comm = false` is a diagnostic without communicator (one process). -/
def gather {A : Type} [Zero A] (comm : Bool) (size : ℕ) (n : ℕ → ℕ) (loc : ℕ → List A) : List A :=
  if comm then
    let nTot := ((List.range size).map n).sum
    (List.range nTot).map (gatherPtclArray size n fun k i => (loc k).getD i 0)
  else loc 0

/-- `select_array.sum()`. -/
def count (N : ℕ) (sel : ℕ → Bool) : ℕ := ((List.range N).map fun i => if sel i then 1 else 0).sum

/-- Is this quantity accepted by `write_particles`, particle_diag.py:315-346. -/
def validQuantity (q : String) : Bool :=
  decide (q ∈ ["x", "y", "z", "ux", "uy", "uz", "Ex", "Ey", "Ez", "Bx", "By", "Bz", "w", "id", "charge",
    "gamma"])

/-- One float dataset of the file, all ranks: `write_hdf5`, `write_particles`, `write_dataset`,
particle_diag.py:206-364, 411-460. `sp` and `rand` give the species and the drawn numbers per rank. -/
def writeFloat [Zero K] (e c : K) (comm : Bool) (size : ℕ) (subsampling : Option K) (rand : ℕ → ℕ → K)
    (select : Option (List (Rule K))) (sp : ℕ → Species K) (q : String) : Except PyErr (List K) := do
  if validQuantity q = false then throw (.valueError "Invalid string")
  let sel ← (List.range size).mapM fun k => applySelection subsampling (rand k) select (sp k)
  let loc ← (List.range size).mapM fun k => getFloat e c (sp k) q (sel.getD k fun _ => false)
  return gather comm size (fun k => count (sp k).Ntot (sel.getD k fun _ => false)) fun k => loc.getD k []

/-- The dataset `id` of the file, all ranks. -/
def writeId (comm : Bool) (size : ℕ) (subsampling : Option K) (rand : ℕ → ℕ → K)
    (select : Option (List (Rule K))) (sp : ℕ → Species K) : Except PyErr (List ℕ) := do
  let sel ← (List.range size).mapM fun k => applySelection subsampling (rand k) select (sp k)
  let loc ← (List.range size).mapM fun k => getId (sp k) (sel.getD k fun _ => false)
  return gather comm size (fun k => count (sp k).Ntot (sel.getD k fun _ => false)) fun k => loc.getD k []

/-! ### Names of the datasets -/

/-- Expansion of `particle_data`, particle_diag.py:105-129: the arrays written for a species. -/
def arrayQuantities (particleData : List String) (tracked ionizable : Bool) : List String :=
  (particleData.flatMap fun q =>
    if q = "position" then ["x", "y", "z"]
    else if q = "momentum" then ["ux", "uy", "uz"]
    else if q = "E" then ["Ex", "Ey", "Ez"]
    else if q = "B" then ["Bx", "By", "Bz"]
    else if q = "weighting" then ["w"]
    else [q]) ++ (if tracked then ["id"] else []) ++ (if ionizable then ["charge"] else [])

/-! ### Back-transformed diagnostic -/

/-- A dictionary of arrays of length `N` (`slice_data_dict`). -/
structure Dict (K : Type) where
  N : ℕ
  arr : String → Option (ℕ → K)

/-- `slice_data_dict[quantity]`. -/
def Dict.get (d : Dict K) (q : String) : Except PyErr (ℕ → K) :=
  match d.arr q with
  | some a => .ok a
  | none => .error (.runtimeError "KeyError")

/-- The bounds of one rule, boosted_particle_diag.py:911-919: the dictionary is read only if there is a bound. -/
def slabRule (d : Dict K) (sel : ℕ → Bool) (r : Rule K) : Except PyErr (ℕ → Bool) := do
  let sel ← match r.lower with
    | some lo => do
        let a ← d.get r.quantity
        pure fun i => sel i && decide (a i > lo)
    | none => pure sel
  match r.upper with
    | some hi => do
        let a ← d.get r.quantity
        pure fun i => sel i && decide (a i < hi)
    | none => pure sel

/-- `ParticleCatcher.apply_selection`, boosted_particle_diag.py:880-926. -/
def slabSelection (select : List (Rule K)) (d : Dict K) : Except PyErr (Dict K) := do
  let sel ← select.foldlM (slabRule d) fun _ => true
  let idx := (List.range d.N).filter fun i => sel i
  return ⟨idx.length, fun q => (d.arr q).map fun a i => a (idx.getD i 0)⟩

/-- A buffered slice of one species: the arrays by name. -/
abbrev Slice (A : Type) := String → List A

/-- `LabSnapshot.compact_slices`, boosted_particle_diag.py:503-540. -/
def compactSlices {A : Type} (buf : List (Slice A)) : Slice A :=
  fun q => if buf.length ≠ 0 then buf.flatMap fun s => s q else []

/-- `gather_particle_arrays`, boosted_particle_diag.py:229-259: the number of particles of a rank is the length
of the first array. -/
def gatherSlices {A : Type} [Zero A] (size : ℕ) (quantities : List String) (loc : ℕ → Slice A) :
    Except PyErr (Slice A) :=
  match quantities with
  | [] => .error (.indexError "list index out of range")
  | q0 :: _ =>
    let n := fun k => (loc k q0).length
    let nTot := ((List.range size).map n).sum
    .ok fun q => (List.range nTot).map (gatherPtclArray size n fun k i => (loc k q).getD i 0)

/-- One snapshot and one species: buffers of the ranks, datasets of the file. -/
structure Lab (A : Type) where
  buf : ℕ → List (Slice A)
  file : Slice A

/-- `register_slice` on the ranks that store a slice at this iteration, boosted_particle_diag.py:149-193,
486-501. -/
def Lab.store {A : Type} (l : Lab A) (new : ℕ → Option (Slice A)) : Lab A :=
  { l with buf := fun k => match new k with
    | some s => l.buf k ++ [s]
    | none => l.buf k }

/-- The branch of `flush_to_disk`, boosted_particle_diag.py:213-219: gather if there are several ranks. -/
def collect {A : Type} [Zero A] (comm : Bool) (size : ℕ) (quantities : List String) (loc : ℕ → Slice A) :
    Except PyErr (Slice A) :=
  if comm ∧ size > 1 then gatherSlices size quantities loc else pure (loc 0)

/-- `flush_to_disk`, boosted_particle_diag.py:195-227, with `write_slices` and `write_particle_slices`, 261-319:
every array is appended to its dataset. -/
def Lab.flush {A : Type} [Zero A] (l : Lab A) (comm : Bool) (size : ℕ) (quantities : List String) :
    Except PyErr (Lab A) := do
  let loc := fun k => compactSlices (l.buf k)
  let d ← collect comm size quantities loc
  return ⟨fun _ => [], fun q => if q ∈ quantities then l.file q ++ d q else l.file q⟩

/-- `write`, boosted_particle_diag.py:133-147, at iteration `n`. -/
def Lab.write {A : Type} [Zero A] (l : Lab A) (comm : Bool) (size : ℕ) (quantities : List String)
    (period n : ℕ) (new : ℕ → Option (Slice A)) : Except PyErr (Lab A) :=
  let l := l.store new
  if n % period = 0 then l.flush comm size quantities else .ok l

/-- The calls of `write` at the iterations `n0, …, n0+k-1`; the file starts with empty datasets
(`create_file_empty_slice`). -/
def Lab.run {A : Type} [Zero A] (comm : Bool) (size : ℕ) (quantities : List String) (period n0 : ℕ)
    (new : ℕ → ℕ → Option (Slice A)) : ℕ → Except PyErr (Lab A)
  | 0 => .ok ⟨fun _ => [], fun _ => []⟩
  | k + 1 => do
    let l ← Lab.run comm size quantities period n0 new k
    l.write comm size quantities period (n0 + k) (new (n0 + k))

end Fbpic.PtclDiag
