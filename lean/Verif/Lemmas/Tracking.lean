import Verif.Model.Tracking
import Verif.Lemmas.Prelude
import Verif.Lemmas.Tactics
import Mathlib.Data.List.Nodup

namespace Fbpic

theorem mem_arangeIds {a s N i : ℕ} : i ∈ arangeIds a s N ↔ ∃ k < N, i = a + k * s := by
  simp [arangeIds, eq_comm]

theorem nodup_arangeIds {a s N : ℕ} (hs : 0 < s) : (arangeIds a s N).Nodup := by
  refine List.Nodup.map (fun x y h => ?_) List.nodup_range
  exact Nat.eq_of_mul_eq_mul_right hs (Nat.add_left_cancel h)

/-- All ids attributed by a history on rank `r` are `next + k*step`, and they are pairwise
different, when the counters of different ranks are in different residue classes. -/
theorem runIds_spec (size : ℕ) (hsize : 0 < size) :
    ∀ (os : List IdOp) (ts : ℕ → Tracker), (∀ o ∈ os, o.rank < size) →
      (∀ r < size, (ts r).step = size ∧ (ts r).next % size = r) →
      (runIds ts os).1.Nodup ∧ (∀ i ∈ (runIds ts os).1, (ts (i % size)).next ≤ i) ∧
      (∀ r < size, ((runIds ts os).2 r).step = size ∧ ((runIds ts os).2 r).next % size = r)
  | [], ts, _, hts => ⟨List.nodup_nil, by simp [runIds], hts⟩
  | o :: os, ts, hos, hts => by
    have hr : o.rank < size := hos o (by simp)
    obtain ⟨hst, hnx⟩ := hts o.rank hr
    have hts' : ∀ r < size,
        ((Function.update ts o.rank ((ts o.rank).generate o.N).2) r).step = size ∧
        ((Function.update ts o.rank ((ts o.rank).generate o.N).2) r).next % size = r := by
      intro r hrs
      by_cases e : r = o.rank
      · subst e
        rw [Function.update_self]
        exact ⟨hst, by simp [Tracker.generate, hst, hnx]⟩
      · rw [Function.update_of_ne e]; exact hts r hrs
    obtain ⟨ih1, ih2, ih3⟩ := runIds_spec size hsize os _ (fun o' ho' => hos o' (by simp [ho'])) hts'
    have hmod : ∀ k, ((ts o.rank).next + k * size) % size = o.rank := by
      intro k; rw [Nat.add_mul_mod_self_right, hnx]
    refine ⟨?_, ?_, ih3⟩
    · simp only [runIds, Tracker.generate, hst]
      rw [List.nodup_append]
      refine ⟨nodup_arangeIds hsize, ?_, ?_⟩
      · simpa [Tracker.generate, hst] using ih1
      · rintro a ha b hb rfl
        obtain ⟨k, hk, rfl⟩ := mem_arangeIds.mp ha
        have := ih2 _ (by simpa [Tracker.generate, hst] using hb)
        rw [hmod k, Function.update_self] at this
        simp only [Tracker.generate, hst] at this
        have : o.N * size ≤ k * size := by omega
        exact absurd (Nat.le_of_mul_le_mul_right this hsize) (by omega)
    · intro i hi
      simp only [runIds, List.mem_append] at hi
      rcases hi with hi | hi
      · simp only [Tracker.generate, hst] at hi
        obtain ⟨k, hk, rfl⟩ := mem_arangeIds.mp hi
        rw [hmod k]; omega
      · have := ih2 i hi
        by_cases e : i % size = o.rank
        · rw [e, Function.update_self] at this
          rw [e]; simp only [Tracker.generate] at this; omega
        · rwa [Function.update_of_ne e] at this

theorem globalIdMax_ge {size : ℕ} {pid : ℕ → List ℕ} {r i : ℕ} (hr : r < size) (hi : i ∈ pid r) :
    i ≤ globalIdMax size pid := by
  unfold globalIdMax
  have h1 : i ≤ (pid r).max?.getD 0 := by
    cases hm : (pid r).max? with
    | none => rw [List.max?_eq_none_iff.mp hm] at hi; simp at hi
    | some m => exact (List.max?_eq_some_iff.mp hm).2 i hi
  set l := (List.range size).map fun r => (pid r).max?.getD 0 with hl
  have h2 : (pid r).max?.getD 0 ∈ l := List.mem_map.mpr ⟨r, List.mem_range.mpr hr, rfl⟩
  cases hm : l.max? with
  | none => rw [List.max?_eq_none_iff.mp hm] at h2; simp at h2
  | some m => exact h1.trans ((List.max?_eq_some_iff.mp hm).2 _ h2)

theorem restartId_spec {g r s : ℕ} (hs : 0 < s) (hr : r < s) :
    ∃ m : ℕ, restartId g r s = ((r + m * s : ℕ) : ℤ) ∧ g < r + m * s := by
  have hsQ : (0 : ℚ) < s := by exact_mod_cast hs
  unfold restartId
  set x : ℚ := (((g : ℤ) - (r : ℤ) : ℤ) : ℚ) / (s : ℚ) with hx
  have hx' : x * s = (g : ℚ) - r := by rw [hx]; push_cast; field_simp
  have hgt : -1 < x := by
    rw [hx, lt_div_iff₀ hsQ]
    have : (r : ℚ) < s := by exact_mod_cast hr
    push_cast
    have : (0 : ℚ) ≤ g := by positivity
    linarith
  have hn0 : 0 ≤ pyInt x := by
    by_cases h0 : 0 ≤ x
    · exact pyInt_nonneg h0
    · rw [pyInt_of_neg (not_le.mp h0)]
      have : (-1 : ℤ) < ⌈x⌉ := Int.lt_ceil.mpr (by push_cast; exact hgt)
      omega
  have hlt : x < (pyInt x : ℚ) + 1 := by
    have := (abs_lt.mp (abs_sub_pyInt_lt x)).2
    linarith
  obtain ⟨k, hk⟩ := Int.eq_ofNat_of_zero_le hn0
  refine ⟨k + 1, by rw [hk]; push_cast; ring, ?_⟩
  have h2 : x < (k : ℚ) + 1 := by rw [hk] at hlt; exact_mod_cast hlt
  have h3 : (g : ℚ) - r < ((k : ℚ) + 1) * s := by rw [← hx']; exact mul_lt_mul_of_pos_right h2 hsQ
  have : (g : ℚ) < ((r + (k + 1) * s : ℕ) : ℚ) := by push_cast; linarith
  exact_mod_cast this

end Fbpic
