import Mathlib.Data.Int.Notation
import Mathlib.Data.Nat.Notation
import Mathlib.Logic.ExistsUnique

/-!
# Specification: a family of integer intervals partitions an interval

Independent of any fbpic definition.
-/

namespace Spec

/-- The intervals `[start r, start r + len r)`, `r < n`, are stored in order, are contiguous and
cover every integer of `[lo, hi)` exactly once and nothing else. -/
def IntervalPartition (n : ℕ) (start : ℕ → ℤ) (len : ℕ → ℕ) (lo hi : ℤ) : Prop :=
  (∀ g : ℤ, lo ≤ g → g < hi → ∃! r : ℕ, r < n ∧ start r ≤ g ∧ g < start r + len r) ∧
  (∀ r : ℕ, r < n → lo ≤ start r ∧ start r + len r ≤ hi) ∧
  (∀ r : ℕ, r + 1 < n → start (r + 1) = start r + len r)

end Spec
