import Verif.Model.BackTransform

/-!
# Lab-frame field snapshots over several runs (`openpmd_diag/boosted_field_diag.py`)

What the dataset of a snapshot of `BackTransformedFieldDiagnostic` holds after several runs in the same directory. A run may
stop between any two calls of `write`, or (`killed`) inside `flush_to_disk`. The attributes of the file are not modelled.
-/

namespace Fbpic.LabFieldRuns

open BackTransform

variable {K : Type} [Field K] [LinearOrder K] [FloorRing K] {α : Type}

/-- A dataset of a file: the number of cells along z and the values. -/
abbrev Dataset (α : Type) := ℤ × (ℤ → α)

/-- `create_file_empty_meshes`, field_diag.py:283-284, 295-296, on a file opened with mode `"a"` (generic_diag.py:117):
`require_dataset` returns the dataset that exists if it has the same shape and raises `TypeError` otherwise (behaviour of
h5py taken as given); a new dataset is filled with zeros. -/
def openMeshes [Zero α] (Nz : ℤ) (old : Option (Dataset α)) : Except PyErr (ℤ → α) :=
  match old with
  | none => .ok fun _ => 0
  | some d => if d.1 = Nz then .ok d.2 else .error (.typeError "Shapes do not match")

/-- One run: the constructor of the diagnostic with empty buffers (boosted_field_diag.py:109-124, 423-425), then `write` at the
iterations `a, …, a+k-1` (main.py:478-482). -/
def one [Zero α] (b : Boost K) (dt : K) (s : Snap K) (w : World K α) (lab : α → α) (period size : ℕ)
    (old : Option (Dataset α)) (a : ℕ) : ℕ → Except PyErr (State α)
  | 0 => do
    let disk ← openMeshes (s.Nz b dt) old
    return ⟨List.replicate size ⟨[], []⟩, disk⟩
  | k + 1 => do
    let st ← one b dt s w lab period size old a k
    write b dt s w lab period (a + k) st

/-- The runs (first iteration and number of iterations until the end or the crash) one after the other in the same directory;
what is in memory is lost at the end of each. All see the same simulation: a restart continues it. -/
def runs [Zero α] (b : Boost K) (dt : K) (s : Snap K) (w : World K α) (lab : α → α) (period size : ℕ) :
    List (ℕ × ℕ) → Option (Dataset α) → Except PyErr (Option (Dataset α))
  | [], d => .ok d
  | r :: l, d => do
    let st ← one b dt s w lab period size d r.1 r.2
    runs b dt s w lab period size l (some (s.Nz b dt, st.disk))

/-- What the datasets of a snapshot hold if the run is killed in `flush_to_disk` (boosted_field_diag.py:205-240) after
`write_field_slices` (364-369) of the first `j` of the quantities `Q` in the loops of `write_slices`, 344-359. A slice has one
value per quantity. (What h5py has in its own buffers then counts as written.) -/
def killed {β : Type} [Zero β] (lab : (String → β) → String → β) (Nz : ℤ) (Q : List String) (j : ℕ)
    (st : State (String → β)) : Except PyErr (ℤ → String → β) := do
  let st' ← flush lab Nz st
  return fun i q => if q ∈ Q.take j then st'.disk i q else st.disk i q

end Fbpic.LabFieldRuns
