import Verif.Model.Comm

/-!
# Back-transformed diagnostics (`openpmd_diag/boosted_field_diag.py`, `boosted_particle_diag.py`)

Fields: one snapshot, all ranks. A slice (an array over fields, modes and radial cells) is a value of an
arbitrary type `α`; what is extracted from the grid at an iteration is a parameter of the run
(`extract_slice` itself is modelled separately, C46). Numbers are exact.
-/

namespace Fbpic.BackTransform

variable {K : Type} [Field K] [LinearOrder K] [IsStrictOrderedRing K] [FloorRing K]

/-- Boost quantities and the speed of light, boosted_field_diag.py:87-91 (`beta_boost` is the square root
of `1 - 1/gamma_boost**2`; that is a hypothesis of the theorems that need it). -/
structure Boost (K : Type) where
  gamma : K
  beta : K
  c : K

/-- `inv_gamma_boost`, boosted_field_diag.py:89. -/
def Boost.invGamma (b : Boost K) : K := 1 / b.gamma

/-- `inv_beta_boost`, boosted_field_diag.py:91. -/
def Boost.invBeta (b : Boost K) : K := 1 / b.beta

/-- `dz_lab`, boosted_field_diag.py:95. -/
def Boost.dzLab (b : Boost K) (dt : K) : K := b.c * dt * b.invBeta * b.invGamma

/-- A lab snapshot: constant quantities of `LabSnapshot`, boosted_field_diag.py:413-416. -/
structure Snap (K : Type) where
  tLab : K
  zminLab : K
  zmaxLab : K

/-- Number of cells of the lab dataset, boosted_field_diag.py:96. -/
def Snap.Nz (s : Snap K) (b : Boost K) (dt : K) : ℤ := pyInt ((s.zmaxLab - s.zminLab) / b.dzLab dt) + 1

/-- `LabSnapshot.update_current_output_positions`, boosted_field_diag.py:434-453: `current_z_boost`. -/
def Snap.zBoost (s : Snap K) (b : Boost K) (t : K) : K := (s.tLab * b.invGamma - t) * b.c * b.invBeta

/-- `LabSnapshot.update_current_output_positions`, boosted_field_diag.py:434-453: `current_z_lab`. -/
def Snap.zLab (s : Snap K) (b : Boost K) (t : K) : K := (s.tLab - t * b.invGamma) * b.c * b.invBeta

/-- Memory buffers of a snapshot on one rank, boosted_field_diag.py:423-425. -/
structure Buf (α : Type) where
  idx : List ℤ
  slices : List α

/-- `LabSnapshot.register_slice`, boosted_field_diag.py:455-483. -/
def register {α : Type} (invDz zLab zminLab : K) (a : α) (b : Buf α) : Buf α :=
  let iz := match b.idx.getLast? with
    | none => pyInt ((zLab - zminLab) * invDz)
    | some i => i - 1
  ⟨b.idx ++ [iz], b.slices ++ [a]⟩

/-- Check of `compact_slices` that the indices decrease by one, boosted_field_diag.py:511-518. -/
def contiguous : List ℤ → Bool
  | [] => true
  | [_] => true
  | i :: j :: l => if j ≠ i - 1 then false else contiguous (j :: l)

/-- `LabSnapshot.compact_slices`, boosted_field_diag.py:485-530: the slices in reverse order and the
range of indices (`None` when empty). The `UserWarning` is raised as an exception. -/
def compact {α : Type} (b : Buf α) : Except PyErr (Option (List α × ℤ × ℤ)) :=
  match b.idx with
  | [] => .ok none
  | i :: l =>
    if contiguous (i :: l) = false then .error (.runtimeError "UserWarning: the buffered slices are not contiguous in z.")
    else .ok (some (b.slices.reverse, (i :: l).getLast (by simp), i + 1))

/-- The loop of `gather_slices` that fits the arrays of the ranks into an array of zeros,
boosted_field_diag.py:298-312. The array is given by its values at the (global) indices. -/
def stitch {α : Type} [Zero α] (l : List (Option (List α × ℤ × ℤ))) : ℤ → α :=
  l.foldl (fun g o => match o with
    | none => g
    | some (arr, lo, hi) => fun i => if lo ≤ i ∧ i < hi then arr.getD (i - lo).toNat 0 else g i) fun _ => 0

/-- `gather_slices`, boosted_field_diag.py:242-318: values, `global_iz_min` and `global_iz_max` (the minimum
and maximum over the ranks that have data). -/
def gatherSlices {α : Type} [Zero α] (l : List (Option (List α × ℤ × ℤ))) : Option ((ℤ → α) × ℤ × ℤ) :=
  match ((l.filterMap id).map fun x => x.2.1).min?, ((l.filterMap id).map fun x => x.2.2).max? with
  | some lo, some hi => some (stitch l, lo, hi)
  | _, _ => none

/-- `write_field_slices`, boosted_field_diag.py:364-369: `dset[:, :, iz_min:iz_max] = data` on a dataset of
`Nz` cells. (A range outside the dataset does not fit the data: error.) -/
def writeSlices {α : Type} (Nz : ℤ) (disk : ℤ → α) (o : Option ((ℤ → α) × ℤ × ℤ)) :
    Except PyErr (ℤ → α) :=
  match o with
  | none => .ok disk
  | some (g, lo, hi) =>
    if 0 ≤ lo ∧ hi ≤ Nz then .ok fun i => if lo ≤ i ∧ i < hi then g i else disk i
    else .error (.valueError "slice out of the dataset")

/-- Program state for one snapshot: buffers of the ranks, and the dataset. -/
structure State (α : Type) where
  bufs : List (Buf α)
  disk : ℤ → α

/-- What the diagnostic sees of the simulation: sub-domains without guard and damp cells at every iteration
(`get_zmin_zmax(local=True, with_damp=False, with_guard=False)`) and the slices extracted there. -/
structure World (K α : Type) where
  zmin : ℕ → ℕ → K
  zmax : ℕ → ℕ → K
  slice : ℕ → ℕ → α

/-- The condition in `store_snapshot_slices`, boosted_field_diag.py:186-189, at iteration `n` on rank `r`
(the time is `iteration*dt`, line 175). -/
def crosses {α : Type} (b : Boost K) (dt : K) (s : Snap K) (w : World K α) (n r : ℕ) : Prop :=
  s.zBoost b (n * dt) > w.zmin n r ∧ s.zBoost b (n * dt) < w.zmax n r ∧
    s.zLab b (n * dt) > s.zminLab ∧ s.zLab b (n * dt) < s.zmaxLab

instance {α : Type} (b : Boost K) (dt : K) (s : Snap K) (w : World K α) (n r : ℕ) :
    Decidable (crosses b dt s w n r) := by unfold crosses; infer_instance

/-- `store_snapshot_slices`, boosted_field_diag.py:140-203, on all ranks. -/
def store {α : Type} (b : Boost K) (dt : K) (s : Snap K) (w : World K α) (n : ℕ) (bufs : List (Buf α)) :
    List (Buf α) :=
  bufs.mapIdx fun r buf =>
    if crosses b dt s w n r then
      register (1 / b.dzLab dt) (s.zLab b (n * dt)) s.zminLab (w.slice n r) buf
    else buf

/-- The branch of `flush_to_disk`, boosted_field_diag.py:222-229: gather if there are several ranks. -/
def collect {α : Type} [Zero α] (arrs : List (Option (List α × ℤ × ℤ))) : Option ((ℤ → α) × ℤ × ℤ) :=
  match arrs with
  | [none] => none
  | [some (arr, lo, hi)] => some (fun i => arr.getD (i - lo).toNat 0, lo, hi)
  | arrs => gatherSlices arrs

/-- `flush_to_disk`, boosted_field_diag.py:205-240, on all ranks: compact, transform to the lab frame (`lab`,
see C48), gather if there are several ranks, write, erase. -/
def flush {α : Type} [Zero α] (lab : α → α) (Nz : ℤ) (st : State α) : Except PyErr (State α) := do
  let arrs ← st.bufs.mapM compact
  let arrs := arrs.map (Option.map fun x => (x.1.map lab, x.2))
  let disk ← writeSlices Nz st.disk (collect arrs)
  return ⟨st.bufs.map fun _ => ⟨[], []⟩, disk⟩

/-- `BackTransformedFieldDiagnostic.write`, boosted_field_diag.py:129-138, on all ranks. -/
def write {α : Type} [Zero α] (b : Boost K) (dt : K) (s : Snap K) (w : World K α) (lab : α → α)
    (period n : ℕ) (st : State α) : Except PyErr (State α) :=
  let st := { st with bufs := store b dt s w n st.bufs }
  if n % period = 0 then flush lab (s.Nz b dt) st else .ok st

/-- The file and the buffers after initialisation: empty buffers, dataset of zeros
(`create_file_empty_meshes`, boosted_field_diag.py:118-121). -/
def init {α : Type} [Zero α] (size : ℕ) : State α := ⟨List.replicate size ⟨[], []⟩, fun _ => 0⟩

/-- The calls of `write` at the iterations `n0, ..., n0+k-1`. -/
def run {α : Type} [Zero α] (b : Boost K) (dt : K) (s : Snap K) (w : World K α) (lab : α → α)
    (period size n0 : ℕ) : ℕ → Except PyErr (State α)
  | 0 => .ok (init size)
  | k + 1 => run b dt s w lab period size n0 k >>= write b dt s w lab period (n0 + k)

/-! ### Extraction of a slice -/

/-- `SliceHandler.extract_slice`, boosted_field_diag.py:588-598: index and shape factor. `shift` is the number
of guard, damp and injection cells on the left (0 without communicator). -/
def sliceIndex (dz zBoost zminBoost : K) (shift : ℕ) : ℤ × K :=
  let s := (zBoost - zminBoost - dz / 2) / dz
  let iz := pyInt s
  (iz + shift, iz + 1 - s)

/-- `extract_slice_cpu`, boosted_field_diag.py:624-654, for one entry of the arrays: `Sz*F[iz]+(1-Sz)*F[iz+1]`
on an array of `N` cells; indices from `N` on raise an `IndexError`, negative ones count from the end. -/
def extract (N : ℕ) (F : ℕ → K) (p : ℤ × K) : Except PyErr K :=
  let get (i : ℤ) : Except PyErr K :=
    if 0 ≤ i ∧ i < N then .ok (F i.toNat)
    else if i < 0 ∧ -N ≤ i then .ok (F (i + N).toNat)
    else .error (.indexError "index out of bounds")
  do
    let a ← get p.1
    let b ← get (p.1 + 1)
    return p.2 * a + (1 - p.2) * b

/-- `get_dataset`, boosted_field_diag.py:656-692: real numbers stored for one cell from the complex modes
(given as pairs): real part of mode 0, then twice the real and imaginary parts of the others. -/
def getDataset : List (K × K) → List K
  | [] => []
  | a :: l => a.1 :: l.flatMap fun z => [2 * z.1, 2 * z.2]

/-- The GPU kernel, boosted_field_diag.py:748-819, for mode `m`: the factor 2 is in the shape factors. -/
def extractCuda (m : ℕ) (Sz : K) (a b : K) : K :=
  let Szp := 1 - Sz
  if m > 0 then 2 * Sz * a + 2 * Szp * b else Sz * a + Szp * b

/-! ### Lorentz transform of the fields -/

/-- One entry of the ten arrays of a slice, boosted_field_diag.py:555-557. -/
structure Flds (K : Type) where
  (Er Et Ez Br Bt Bz Jr Jt Jz rho : K)

/-- `transform_fields_to_lab_frame`, boosted_field_diag.py:694-742, statement by statement. -/
def toLab (b : Boost K) (f : Flds K) : Flds K :=
  let gamma := b.gamma
  let cbeta := b.c * b.beta
  let beta_c := b.beta / b.c
  let er := gamma * (f.Er + cbeta * f.Bt)
  let bt := gamma * (f.Bt + beta_c * f.Er)
  let f := { f with Er := er, Bt := bt }
  let et := gamma * (f.Et - cbeta * f.Br)
  let br := gamma * (f.Br - beta_c * f.Et)
  let f := { f with Et := et, Br := br }
  let rho := gamma * (f.rho + beta_c * f.Jz)
  let jz := gamma * (f.Jz + cbeta * f.rho)
  { f with rho := rho, Jz := jz }

/-! ### Particles -/

/-- A macroparticle as seen by the catcher. -/
structure Ptcl (K : Type) where
  (x y z ux uy uz invGamma : K)

/-- `get_particle_slice`, boosted_particle_diag.py:749-766: is the particle selected. -/
def caught (b : Boost K) (dt cur prev : K) (p : Ptcl K) : Prop :=
  let prevZ := p.z - p.uz * p.invGamma * b.c * dt
  (p.z ≥ cur ∧ prevZ ≤ prev) ∨ (p.z ≤ cur ∧ prevZ ≥ prev)

instance (b : Boost K) (dt cur prev : K) (p : Ptcl K) : Decidable (caught b dt cur prev p) := by
  unfold caught; infer_instance

/-- `interpolate_particles_to_lab_frame`, boosted_particle_diag.py:805-841. The last component is the time of
crossing (not stored by the code). -/
def toLabPtcl (b : Boost K) (cur t : K) (p : Ptcl K) : (K × K × K) × (K × K × K) × K :=
  let vz := p.uz * p.invGamma * b.c
  let vPlane := -b.c / b.beta
  let tCross := t - (cur - p.z) / (vPlane - vz)
  let x := p.x + b.c * (tCross - t) * p.invGamma * p.ux
  let y := p.y + b.c * (tCross - t) * p.invGamma * p.uy
  let z := p.z + b.c * (tCross - t) * p.invGamma * p.uz
  let zLab := b.gamma * (z + b.beta * b.c * tCross)
  let g := 1 / p.invGamma
  let uzLab := b.gamma * p.uz + g * (b.beta * b.gamma)
  ((x, y, zLab), (p.ux, p.uy, uzLab), tCross)

/-- Condition on the plane in `store_snapshot_slices`, boosted_particle_diag.py:177-180, for limits of the
local grid (guard and damp cells included). -/
def planeInside (b : Boost K) (s : Snap K) (zmin zmax t : K) : Prop :=
  s.zBoost b t ≥ zmin ∧ s.zBoost b t < zmax ∧ s.zLab b t ≥ s.zminLab ∧ s.zLab b t < s.zmaxLab

/-- Is a particle recorded in snapshot `s` at iteration `n`: `store_snapshot_slices` and `extract_slice`,
boosted_particle_diag.py:150-191, 585-634 (CPU), with the previous position of the plane from
`update_current_output_positions`, 452-478. -/
def recorded (b : Boost K) (dt : K) (s : Snap K) (zmin zmax : ℕ → K) (p : ℕ → Ptcl K) (n : ℕ) : Prop :=
  planeInside b s (zmin n) (zmax n) (n * dt) ∧
    caught b dt (s.zBoost b (n * dt)) (s.zBoost b (n * dt - dt)) (p n)

end Fbpic.BackTransform
