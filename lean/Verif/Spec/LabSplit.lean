import Verif.Spec.LabFieldRuns
import Verif.Model.LabSplit

/-!
# Specification of the selection of the lab-frame snapshots
-/

namespace Fbpic.Spec.LabSplit

open Fbpic.LabSplit

variable {K : Type} [Field K] [LinearOrder K] [IsStrictOrderedRing K] [FloorRing K]

/-- The lab time of snapshot `i` is in the range of the simulation: the lower bound is included, the upper one is not. -/
def Selects (s : Series K) (m : Simul K) (i : ℕ) : Prop :=
  i < s.total ∧ m.tMin ≤ i * s.dt ∧ ∀ t, m.tMax = some t → i * s.dt < t

/-- Snapshot number `i`: at the lab time `i dt`, with the edges of the window that moves with the speed `v` and is at `zmin`, `zmax` at
the lab time 0. -/
def SnapshotOf (s : Series K) (i : ℕ) (p : BackTransform.Snap K) : Prop :=
  p.tLab = i * s.dt ∧ p.zminLab = s.zmin + s.v * p.tLab ∧ p.zmaxLab = s.zmax + s.v * p.tLab

/-- The iterations written to snapshot `i` by the simulations that select it. -/
def WrittenTo (s : Series K) (period : ℕ) (l : List (Simul K)) (i n : ℕ) : Prop :=
  ∃ m ∈ l, Selects s m i ∧ Spec.LabFieldRuns.Written period [(m.first, m.count)] n

end Fbpic.Spec.LabSplit
