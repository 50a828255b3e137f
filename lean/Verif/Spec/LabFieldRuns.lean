import Verif.Spec.BackTransform
import Verif.Spec.LabRuns
import Verif.Model.LabFieldRuns

/-!
# Specification of the lab-frame field snapshots over several runs
-/

namespace Fbpic.Spec.LabFieldRuns

open BackTransform Spec.LabRuns

variable {K : Type} [Field K] [LinearOrder K] [IsStrictOrderedRing K] [FloorRing K]

/-- The dataset holds, in the lab frame, the slices of the iterations in `S` in the cells where the plane of the snapshot was
then, and zero in all other cells. -/
def Slices {α : Type} [Zero α] (b : Boost K) (dt : K) (s : Snap K) (w : World K α) (lab : α → α) (size : ℕ) (S : ℕ → Prop)
    (disk : ℤ → α) : Prop :=
  HoldsOn size S (crosses b dt s w) s.zminLab (b.dzLab dt) (fun n => s.zLab b (n * dt)) (fun n r => lab (w.slice n r)) disk

/-- The same for a part `π` of the values, e.g. one of the fields. -/
def SlicesOf {α β : Type} [Zero β] (π : α → β) (b : Boost K) (dt : K) (s : Snap K) (w : World K α) (lab : α → α) (size : ℕ)
    (S : ℕ → Prop) (disk : ℤ → α) : Prop :=
  HoldsOn size S (crosses b dt s w) s.zminLab (b.dzLab dt) (fun n => s.zLab b (n * dt)) (fun n r => π (lab (w.slice n r)))
    fun i => π (disk i)

/-- The iterations of the runs (given by first iteration and number of iterations) that are written: in each run those up to
the last multiple of the period. -/
def Written (period : ℕ) (l : List (ℕ × ℕ)) (n : ℕ) : Prop :=
  ∃ r ∈ l, ∃ m, LastWrite period r.1 (r.1 + r.2) m ∧ r.1 ≤ n ∧ n < m

end Fbpic.Spec.LabFieldRuns
