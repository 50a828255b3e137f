import Verif.Model.GpuSelect
import Mathlib.Data.Finset.Filter
import Mathlib.Data.Finset.Range
import Mathlib.Data.Finset.Card

/-!
# Which GPU each MPI process uses (C114)
-/

namespace Fbpic.Spec

open GpuSel

/-- The processes on each node have consecutive ranks: no rank between two ranks of a node is on another
node. -/
def Consecutive {N : Type} (p : ℕ) (node : ℕ → N) : Prop :=
  ∀ i j k, i < j → j < k → k < p → node i = node k → node j = node i

/-- The processes that run on the same node as process `r`. -/
def sameNode (M : Machine) (r : ℕ) : Finset ℕ :=
  (Finset.range M.p).filter fun i => M.node i = M.node r

/-- Those of them that use the GPU `d` of the node. -/
def users (M : Machine) (r d : ℕ) : Finset ℕ :=
  (sameNode M r).filter fun i => device M i = some d

/-- Every process sees `g` GPUs. -/
def Uniform (M : Machine) (g : ℕ) : Prop := 0 < g ∧ ∀ r, r < M.p → M.nGpus r = g

/-- Different nodes have different colours. -/
def ColoursDiffer (M : Machine) : Prop :=
  ∀ i j, i < M.p → j < M.p → color (M.node i) = color (M.node j) → M.node i = M.node j

end Fbpic.Spec
