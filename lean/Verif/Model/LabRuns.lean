import Verif.Model.PtclDiag

/-!
# Lab-frame particle snapshots over several runs (`openpmd_diag/boosted_particle_diag.py`)

What a directory with the snapshots of `BackTransformedParticleDiagnostic` holds after several runs (a run that
stopped, its restart from a checkpoint, a repetition). One snapshot and one species. A run may stop between any two
calls of `write`, or (`killed`) inside `flush_to_disk`. The attributes of the file are not modelled.
-/

namespace Fbpic.LabRuns

open PtclDiag

variable {A : Type}

/-- The quantities for which `create_file_empty_slice` knows a dataset, boosted_particle_diag.py:363-395. -/
def known : List String := ["x", "y", "z", "ux", "uy", "uz", "w", "id", "charge"]

/-- The body of the loop over the quantities, boosted_particle_diag.py:359-395: `require_dataset` of shape `(0,)` with
`maxshape=(None,)`. If the dataset exists, h5py before version 3 (`strict`) compares the shapes and raises `TypeError`;
later versions compare `maxshape` only (behaviour of h5py taken as given). -/
def requireDataset (strict : Bool) (old : Option (Slice A)) (q : String) : Except PyErr Unit :=
  if q ∈ known then
    match old with
    | none => .ok ()
    | some f =>
      if strict ∧ (f q).length ≠ 0 then .error (.typeError "Shapes do not match") else .ok ()
  else .error (.valueError ("Invalid quantity for particle output: " ++ q))

/-- `create_file_empty_slice`, boosted_particle_diag.py:321-407: the file is opened with mode `"a"` (generic_diag.py:117), so
datasets that exist keep their content. `old`: what the directory holds before. -/
def openFile (strict : Bool) (Q : List String) (old : Option (Slice A)) : Except PyErr (Slice A) := do
  Q.forM (requireDataset strict old)
  return match old with
    | none => fun _ => []
    | some f => f

/-- One run: the constructor of the diagnostic with empty buffers (boosted_particle_diag.py:112-131, 457-459), then `write`
at the iterations `a, …, a+k-1` (main.py:478-482). -/
def one [Zero A] (strict comm : Bool) (size : ℕ) (Q : List String) (period : ℕ) (old : Option (Slice A)) (a : ℕ)
    (new : ℕ → ℕ → Option (Slice A)) : ℕ → Except PyErr (Lab A)
  | 0 => do
    let f ← openFile strict Q old
    return ⟨fun _ => [], f⟩
  | k + 1 => do
    let l ← one strict comm size Q period old a new k
    l.write comm size Q period (a + k) (new (a + k))

/-- A run: its first iteration (`0`, or the iteration of the checkpoint, checkpoint_restart.py:149), the number of
iterations until it ended or was killed, and what the ranks register. -/
structure Part (A : Type) where
  first : ℕ
  count : ℕ
  new : ℕ → ℕ → Option (Slice A)

/-- The runs one after the other in the same directory; what is in memory is lost at the end of each. -/
def runs [Zero A] (strict comm : Bool) (size : ℕ) (Q : List String) (period : ℕ) :
    List (Part A) → Option (Slice A) → Except PyErr (Option (Slice A))
  | [], d => .ok d
  | s :: r, d => do
    let l ← one strict comm size Q period d s.first s.new s.count
    runs strict comm size Q period r (some l.file)

/-- What is in the file if the run is killed in `flush_to_disk` (boosted_particle_diag.py:195-227) after `write_particle_slices`
(307-319) of the first `j` quantities of the loop in `write_slices`, 283-303. (What h5py has in its own buffers then counts as
written.) `l`: the buffers with the slice of this iteration and the file before. -/
def killed [Zero A] (comm : Bool) (size : ℕ) (Q : List String) (j : ℕ) (l : Lab A) : Except PyErr (Slice A) := do
  let d ← collect comm size Q fun k => compactSlices (l.buf k)
  return fun q => if q ∈ Q.take j then l.file q ++ d q else l.file q

end Fbpic.LabRuns
