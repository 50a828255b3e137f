import Mathlib.Data.Int.ModEq
import Mathlib.Algebra.BigOperators.Group.Finset.Basic
import Mathlib.Data.Finset.Sigma

/-!
# Specification: a grid stored redundantly by several ranks

Rank `r` stores `N r` consecutive cells; the first one has global index `first r`. The first and the
last `ng` stored cells are guard cells, the others are owned. With `period = some L` the global
grid is periodic with `L` cells.
-/

namespace Spec

structure Layout where
  n : ℕ
  first : ℕ → ℤ
  N : ℕ → ℕ
  ng : ℕ
  period : Option ℕ

namespace Layout

/-- Two stored cells are the same cell of the global grid. -/
def Same (l : Layout) (r j s k : ℕ) : Prop :=
  match l.period with
  | none => l.first r + j = l.first s + k
  | some L => l.first r + j ≡ l.first s + k [ZMOD L]

instance (l : Layout) (r j s k : ℕ) : Decidable (l.Same r j s k) := by
  unfold Same; cases l.period <;> infer_instance

/-- Rank `r` owns its stored cell `j`. -/
def Owned (l : Layout) (r j : ℕ) : Prop := r < l.n ∧ l.ng ≤ j ∧ j + l.ng < l.N r

instance (l : Layout) (r j : ℕ) : Decidable (l.Owned r j) := by unfold Owned; infer_instance

/-- All stored cells `(r, j)`. -/
def stored (l : Layout) : Finset ((_ : ℕ) × ℕ) :=
  (Finset.range l.n).sigma fun r => Finset.range (l.N r)

/-- Sum of what all ranks hold for the global cell of `(r, j)`. -/
def total {A : Type*} [AddCommMonoid A] (l : Layout) (F : ℕ → ℕ → A) (r j : ℕ) : A :=
  ∑ p ∈ l.stored.filter (fun p => l.Same r j p.1 p.2), F p.1 p.2

/-- Cells owned by some rank. -/
def owned (l : Layout) : Finset ((_ : ℕ) × ℕ) := l.stored.filter fun p => l.Owned p.1 p.2

/-- The stored cell lies in the global domain `[lo, hi)` (always true on a periodic grid). -/
def InDomain (l : Layout) (lo hi : ℤ) (r j : ℕ) : Prop :=
  match l.period with
  | none => lo ≤ l.first r + j ∧ l.first r + j < hi
  | some _ => True

instance (l : Layout) (lo hi : ℤ) (r j : ℕ) : Decidable (l.InDomain lo hi r j) := by
  unfold InDomain; cases l.period <;> infer_instance

end Layout
end Spec
