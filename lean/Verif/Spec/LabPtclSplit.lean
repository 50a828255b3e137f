import Verif.Spec.LabSplit
import Verif.Spec.LabRuns
import Verif.Model.LabPtclSplit

/-!
# Specification of the selection of the lab-frame particle snapshots
-/

namespace Fbpic.Spec.LabPtclSplit

open Fbpic.LabSplit

variable {K R A : Type}

/-- A simulation with the snapshots `tMin ≤ t` (`< tMax`) and the iterations `first ≤ n < stop`; `rows i n k`: the particles that
rank `k` finds at iteration `n` on the plane of snapshot `i`. -/
structure Sim (K R : Type) where
  tMin : K
  tMax : Option K
  first : ℕ
  stop : ℕ
  rows : ℕ → ℕ → ℕ → Option (List R)

/-- The lab time of snapshot `i` is in the range of the simulation: the lower bound is included, the upper one is not. -/
def Sim.Selects [Field K] [LinearOrder K] (m : Sim K R) (s : Series K) (i : ℕ) : Prop :=
  i < s.total ∧ m.tMin ≤ i * s.dt ∧ ∀ t, m.tMax = some t → i * s.dt < t

/-- What a simulation finds on the plane of snapshot `i`, for the runs of C124. -/
def Sim.run (i : ℕ) (m : Sim K R) : LabRuns.Run R := ⟨m.first, m.stop, m.rows i⟩

/-- The simulation as the diagnostic sees it. -/
def Sim.simul (col : String → R → A) (m : Sim K R) : Fbpic.LabPtclSplit.Simul K A :=
  ⟨⟨m.tMin, m.tMax, m.first, m.stop - m.first⟩, fun i n k => (m.rows i n k).map fun l q => l.map (col q)⟩

open scoped Classical in
/-- The particles that the simulations which select snapshot `i` find on its plane until iteration `upto`. -/
noncomputable def found [Field K] [LinearOrder K] (s : Series K) (size : ℕ) (upto : Sim K R → ℕ) (l : List (Sim K R)) (i : ℕ) : List R :=
  (l.filter fun m => m.Selects s i).flatMap fun m => LabRuns.crossed size (m.rows i) m.first (upto m)

end Fbpic.Spec.LabPtclSplit
