import Verif.Spec.Partition
import Mathlib.Tactic.Linarith
import Mathlib.Tactic.Push

namespace Spec

theorem mono_of_contiguous {n : ℕ} {start : ℕ → ℤ} {len : ℕ → ℕ}
    (hc : ∀ r : ℕ, r + 1 < n → start (r + 1) = start r + len r) :
    ∀ a b : ℕ, a < b → b < n → start a + len a ≤ start b := by
  intro a b hab hb
  induction b with
  | zero => omega
  | succ b ih =>
    have h1 := hc b hb
    rcases Nat.lt_succ_iff_lt_or_eq.mp hab with h | h
    · have := ih h (by omega)
      omega
    · subst h; omega

/-- Contiguity plus the two ends give a partition. -/
theorem IntervalPartition.of_contiguous {n : ℕ} {start : ℕ → ℤ} {len : ℕ → ℕ} {lo hi : ℤ}
    (hn : 0 < n) (h0 : start 0 = lo) (hend : start (n - 1) + len (n - 1) = hi)
    (hc : ∀ r : ℕ, r + 1 < n → start (r + 1) = start r + len r) :
    IntervalPartition n start len lo hi := by
  have hm := mono_of_contiguous hc
  refine ⟨?_, ?_, hc⟩
  · intro g hlo hhi
    -- existence: the largest r with start r ≤ g
    have hex : ∀ k : ℕ, k < n → (start k ≤ g) → ∃ r, r < n ∧ start r ≤ g ∧ g < start r + len r := by
      intro k
      induction h : n - 1 - k generalizing k with
      | zero =>
        intro hk hs
        have : k = n - 1 := by omega
        subst this
        exact ⟨n - 1, hk, hs, by omega⟩
      | succ d ih =>
        intro hk hs
        by_cases hlt : g < start k + len k
        · exact ⟨k, hk, hs, hlt⟩
        · have hc' := hc k (by omega)
          exact ih (k + 1) (by omega) (by omega) (by omega)
    obtain ⟨r, hr, h1, h2⟩ := hex 0 hn (by omega)
    refine ⟨r, ⟨hr, h1, h2⟩, ?_⟩
    rintro s ⟨hs, h3, h4⟩
    rcases Nat.lt_trichotomy s r with h | h | h
    · have := hm s r h hr; omega
    · exact h
    · have := hm r s h hs; omega
  · intro r hr
    constructor
    · rcases Nat.eq_zero_or_pos r with h | h
      · subst h; omega
      · have := hm 0 r h hr; omega
    · rcases Nat.lt_or_ge r (n - 1) with h | h
      · have := hm r (n - 1) h (by omega); omega
      · have : r = n - 1 := by omega
        subst this; omega

end Spec
