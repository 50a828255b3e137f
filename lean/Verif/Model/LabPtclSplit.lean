import Verif.Model.LabSplit
import Verif.Model.LabRuns

/-!
# Selection of the lab-frame particle snapshots (`t_min_snapshots_lab`, `t_max_snapshots_lab`)

The directory of the particle snapshots (one species) after several simulations that write different ranges of the snapshots. The
snapshots do not depend on each other; they are treated one after the other here, whereas the program creates all files and then
treats all snapshots at each iteration.
-/

namespace Fbpic.LabPtclSplit

open PtclDiag LabRuns LabSplit

variable {K : Type} [Field K] [LinearOrder K] {A : Type}

/-- One simulation: range of lab times, first iteration and number of iterations, and what the ranks register for each snapshot. -/
structure Simul (K A : Type) extends LabSplit.Simul K where
  new : ℕ → ℕ → ℕ → Option (Slice A)

/-- One simulation in a directory (file `data%08d.h5` of snapshot `i` at index `i`, boosted_particle_diag.py:441): the loop that
creates the snapshots and their files (112-125, the same conditions as boosted_field_diag.py:109-118), then the iterations. -/
def simulate [Zero A] (strict comm : Bool) (size : ℕ) (Q : List String) (period : ℕ) (s : Series K) (m : Simul K A)
    (dir : ℕ → Option (Slice A)) : Except PyErr (ℕ → Option (Slice A)) :=
  (s.list m.toSimul).foldlM (fun dir i => do
    let l ← one strict comm size Q period (dir i) m.first (m.new i) m.count
    return Function.update dir i (some l.file)) dir

/-- Several simulations in the same directory. -/
def simulateAll [Zero A] (strict comm : Bool) (size : ℕ) (Q : List String) (period : ℕ) (s : Series K) (l : List (Simul K A))
    (dir : ℕ → Option (Slice A)) : Except PyErr (ℕ → Option (Slice A)) :=
  l.foldlM (fun dir m => simulate strict comm size Q period s m dir) dir

end Fbpic.LabPtclSplit
