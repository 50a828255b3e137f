import Verif.Spec.GpuSelect
import Mathlib.Order.Interval.Finset.Nat
import Mathlib.Data.Nat.ModEq
import Mathlib.Data.Finset.Max
import Mathlib.Tactic.Ring
import Mathlib.Tactic.Linarith

namespace Fbpic.GpuSel

open Spec

/-- Equal elements of a list have only equal elements between them. -/
private def Conv {N : Type} (l : List N) : Prop :=
  ∀ (i j k : ℕ) (a : N), i < j → j < k → l[i]? = some a → l[k]? = some a → l[j]? = some a

private theorem conv_cons {N : Type} (a : N) (l : List N) :
    Conv (a :: l) ↔ Conv l ∧ ∀ j k : ℕ, j < k → l[k]? = some a → l[j]? = some a := by
  constructor
  · intro h
    refine ⟨fun i j k b hij hjk hi hk => ?_, fun j k hjk hk => ?_⟩
    · have := h (i + 1) (j + 1) (k + 1) b (by omega) (by omega) (by simpa using hi) (by simpa using hk)
      simpa using this
    · have := h 0 (j + 1) (k + 1) a (by omega) (by omega) (by simp) (by simpa using hk)
      simpa using this
  · rintro ⟨h1, h2⟩ i j k b hij hjk hi hk
    obtain ⟨j, rfl⟩ : ∃ j', j = j' + 1 := ⟨j - 1, by omega⟩
    obtain ⟨k, rfl⟩ : ∃ k', k = k' + 1 := ⟨k - 1, by omega⟩
    cases i with
    | zero =>
      have hab : a = b := by simpa using hi
      subst hab
      simpa using h2 j k (by omega) (by simpa using hk)
    | succ i =>
      simpa using h1 i j k b (by omega) (by omega) (by simpa using hi) (by simpa using hk)

private theorem loop_iff {N : Type} [DecidableEq N] (rest : List N) : ∀ (prev : N) (seen : List N), prev ∈ seen →
    (standardLoop prev seen rest = true ↔ Conv (prev :: rest) ∧ ∀ x ∈ rest, x ∈ seen → x = prev) := by
  induction rest with
  | nil =>
    intro prev seen h
    simp only [standardLoop, true_iff]
    refine ⟨?_, by simp⟩
    intro i j k a hij hjk hi hk
    have : k < 1 := by
      by_contra hh
      have : ([prev] : List N)[k]? = none := by simp; omega
      rw [this] at hk; cases hk
    omega
  | cons n rest ih =>
    intro prev seen h
    by_cases hn : n = prev
    · subst hn
      have e : standardLoop n seen (n :: rest) = standardLoop n seen rest := by simp [standardLoop]
      rw [e, ih n seen h, conv_cons n (n :: rest)]
      constructor
      · rintro ⟨hc, hx⟩
        refine ⟨⟨hc, ?_⟩, ?_⟩
        · intro j k hjk hk
          cases j with
          | zero => simp
          | succ j => exact hc 0 (j + 1) k n (by omega) hjk (by simp) hk
        · intro x hx' hs
          rcases List.mem_cons.1 hx' with rfl | hx'
          · rfl
          · exact hx x hx' hs
      · rintro ⟨⟨hc, -⟩, hx⟩
        exact ⟨hc, fun x hx' hs => hx x (List.mem_cons_of_mem _ hx') hs⟩
    · by_cases hs : n ∈ seen
      · have e : standardLoop prev seen (n :: rest) = false := by simp [standardLoop, hn, hs]
        rw [e]
        simp only [Bool.false_eq_true, false_iff]
        rintro ⟨-, hx⟩
        exact hn (hx n (by simp) hs)
      · have e : standardLoop prev seen (n :: rest) = standardLoop n (seen ++ [n]) rest := by
          simp [standardLoop, hn, hs]
        rw [e, ih n (seen ++ [n]) (by simp), conv_cons prev (n :: rest)]
        constructor
        · rintro ⟨hc, hx⟩
          have hno : ∀ x ∈ rest, x ∉ seen := fun x hx' hs' => by
            have := hx x hx' (by simp [hs'])
            rw [this] at hs'; exact hs hs'
          refine ⟨⟨hc, ?_⟩, ?_⟩
          · intro j k hjk hk
            obtain ⟨k, rfl⟩ : ∃ k', k = k' + 1 := ⟨k - 1, by omega⟩
            have : rest[k]? = some prev := by simpa using hk
            exact absurd h (hno prev (List.mem_of_getElem? this))
          · intro x hx' hs'
            rcases List.mem_cons.1 hx' with rfl | hx'
            · exact absurd hs' hs
            · exact absurd hs' (hno x hx')
        · rintro ⟨⟨hc, hp⟩, hx⟩
          refine ⟨hc, fun x hx' hs' => ?_⟩
          rcases List.mem_append.1 hs' with hs' | hs'
          · have hxp := hx x (List.mem_cons_of_mem _ hx') hs'
            subst hxp
            obtain ⟨k, hk, hk'⟩ := List.getElem_of_mem hx'
            have := hp 0 (k + 1) (by omega) (by simp [hk, hk'])
            simp at this
            exact absurd this hn
          · simpa using hs'

theorem checkConsecutive_iff {N : Type} [DecidableEq N] (p : ℕ) (node : ℕ → N) :
    checkConsecutive ((List.range p).map node) = true ↔ Consecutive p node := by
  have key : Conv ((List.range p).map node) ↔ Consecutive p node := by
    constructor
    · intro h i j k hij hjk hk he
      have := h i j k (node i) hij hjk (by simp [show i < p by omega]) (by simp [hk, he])
      simpa [show j < p by omega] using this
    · intro h i j k a hij hjk hi hk
      have hk' : k < p := by
        by_contra hh
        have : ((List.range p).map node)[k]? = none := by simp; omega
        rw [this] at hk; cases hk
      have e1 : node i = a := by simpa [show i < p by omega] using hi
      have e2 : node k = a := by simpa [hk'] using hk
      have := h i j k hij hjk hk' (e1.trans e2.symm)
      simp [show j < p by omega, this, e1]
  rw [← key]
  generalize (List.range p).map node = l
  match l with
  | [] => simp [checkConsecutive, Conv]
  | [a] =>
    simp only [checkConsecutive, true_iff]
    exact ((loop_iff [] a [a] (by simp)).1 rfl).1
  | a :: b :: rest =>
    show standardLoop a [a] (b :: rest) = true ↔ _
    rw [loop_iff _ _ _ (by simp)]
    constructor
    · exact fun h => h.1
    · exact fun h => ⟨h, fun x _ hx => by simpa using hx⟩

theorem stdDecomp_iff (M : Machine) : stdDecomp M = true ↔ Consecutive M.p M.node :=
  checkConsecutive_iff _ _

theorem device_eq (M : Machine) (r : ℕ) (h : 0 < M.nGpus r) :
    device M r = some (commRank M r % M.nGpus r) := by
  have key : ∀ (k g : ℕ) (d : Option ℕ),
      (List.range g).foldl (fun d i => if k = i then some i else d) d = if k < g then some k else d := by
    intro k g d
    induction g with
    | zero => simp
    | succ g ih =>
      rw [List.range_succ, List.foldl_append, ih]
      simp only [List.foldl_cons, List.foldl_nil]
      by_cases h1 : k = g
      · simp [h1]
      · by_cases h2 : k < g
        · rw [if_neg h1, if_pos h2, if_pos (by omega)]
        · rw [if_neg h1, if_neg h2, if_neg (by omega)]
  unfold device
  rw [key, if_pos (Nat.mod_lt _ h)]

/-- Numbers with distinct values in an interval of the length of the set: each remainder is taken at most
the rounded-up share of times. -/
theorem card_mod_le (S : Finset ℕ) (f : ℕ → ℕ) (g d a : ℕ) (hg : 0 < g)
    (hinj : Set.InjOn f S) (hr : ∀ s ∈ S, a ≤ f s ∧ f s < a + S.card) :
    (S.filter fun s => f s % g = d).card ≤ (S.card + g - 1) / g := by
  classical
  have : (S.filter fun s => f s % g = d).card ≤ (Finset.range ((S.card + g - 1) / g)).card := by
    refine Finset.card_le_card_of_injOn (fun s => (f s - a) / g) ?_ ?_
    · intro s hs
      have hs' := hr s (Finset.mem_filter.1 (Finset.mem_coe.1 hs)).1
      simp only [Finset.coe_range, Set.mem_Iio]
      rw [Nat.div_lt_iff_lt_mul hg]
      have h1 := Nat.div_add_mod (S.card + g - 1) g
      have h2 := Nat.mod_lt (S.card + g - 1) hg
      rw [Nat.mul_comm] at h1
      omega
    · intro s hs t ht he
      have hs1 := Finset.mem_filter.1 (Finset.mem_coe.1 hs)
      have ht1 := Finset.mem_filter.1 (Finset.mem_coe.1 ht)
      refine hinj hs1.1 ht1.1 ?_
      have hs' := hr s hs1.1
      have ht' := hr t ht1.1
      have e : (f s - a) / g = (f t - a) / g := he
      have hm : f s % g = f t % g := hs1.2.trans ht1.2.symm
      have m1 : f s - a ≡ f t - a [MOD g] := by
        have : f s ≡ f t [MOD g] := hm
        have h3 : (f s - a) + a ≡ (f t - a) + a [MOD g] := by
          rw [Nat.sub_add_cancel hs'.1, Nat.sub_add_cancel ht'.1]; exact this
        exact Nat.ModEq.add_right_cancel' a h3
      have h1 := Nat.div_add_mod (f s - a) g
      have h2 := Nat.div_add_mod (f t - a) g
      rw [e, show (f s - a) % g = (f t - a) % g from m1, h2] at h1
      omega
  simpa using this

theorem countP_range_eq (r : ℕ) (P : ℕ → Prop) [DecidablePred P] :
    (List.range r).countP (fun i => decide (P i)) = ((Finset.range r).filter P).card := by
  induction r with
  | zero => simp
  | succ r ih =>
    rw [List.range_succ, List.countP_append, ih, Finset.range_add_one, Finset.filter_insert]
    by_cases h : P r
    · rw [if_pos h, Finset.card_insert_of_notMem (by simp)]; simp [h]
    · rw [if_neg h]; simp [h]

/-- The rank among the processes of the node. -/
theorem commRank_split (M : Machine) (hM : ColoursDiffer M) (hs : stdDecomp M = false) {r : ℕ} (hr : r < M.p) :
    commRank M r = ((sameNode M r).filter fun i => i < r).card := by
  classical
  unfold commRank
  rw [if_neg (by simp [hs])]
  have : (fun i => color (M.node i) == color (M.node r))
      = fun i => decide (color (M.node i) = color (M.node r)) := by
    funext i; rfl
  rw [this, countP_range_eq]
  congr 1
  ext i
  simp only [Finset.mem_filter, Finset.mem_range, sameNode]
  constructor
  · rintro ⟨h1, h2⟩
    exact ⟨⟨by omega, hM i r (by omega) hr h2⟩, h1⟩
  · rintro ⟨⟨h1, h2⟩, h3⟩
    exact ⟨h3, by rw [h2]⟩

theorem sameNode_congr (M : Machine) {r s : ℕ} (h : M.node s = M.node r) : sameNode M s = sameNode M r := by
  unfold sameNode; rw [h]

/-- On one node the ranks that decide about the GPU are distinct and lie in an interval as long as the
number of processes of the node. -/
theorem commRank_node (M : Machine) (hM : stdDecomp M = true ∨ ColoursDiffer M) (r : ℕ) :
    Set.InjOn (commRank M) (sameNode M r) ∧
    ∃ a, ∀ s ∈ sameNode M r, a ≤ commRank M s ∧ commRank M s < a + (sameNode M r).card := by
  classical
  by_cases hs : stdDecomp M = true
  · have e : ∀ s, commRank M s = s := fun s => by unfold commRank; rw [if_pos hs]
    refine ⟨fun s _ t _ h => by rw [e, e] at h; exact h, ?_⟩
    rcases (sameNode M r).eq_empty_or_nonempty with he | hne
    · exact ⟨0, fun s h => by rw [he] at h; simp at h⟩
    · refine ⟨(sameNode M r).min' hne, fun s h => ?_⟩
      rw [e]
      refine ⟨Finset.min'_le _ _ h, ?_⟩
      have hsub : Finset.Icc ((sameNode M r).min' hne) s ⊆ sameNode M r := by
        intro j hj
        rw [Finset.mem_Icc] at hj
        have hmin := Finset.min'_mem _ hne
        by_cases h1 : j = (sameNode M r).min' hne
        · rw [h1]; exact hmin
        · by_cases h2 : j = s
          · rw [h2]; exact h
          · have hm := Finset.mem_filter.1 hmin
            have hk := Finset.mem_filter.1 h
            have hsp := Finset.mem_range.1 hk.1
            have := (stdDecomp_iff M).1 hs _ j s (by omega) (by omega) hsp (hm.2.trans hk.2.symm)
            exact Finset.mem_filter.2 ⟨Finset.mem_range.2 (by omega), this.trans hm.2⟩
      have := Finset.card_le_card hsub
      rw [Nat.card_Icc] at this
      have := Finset.min'_le _ _ h
      omega
  · have hs' : stdDecomp M = false := by simpa using hs
    have hM' := hM.resolve_left hs
    have key : ∀ s ∈ sameNode M r, commRank M s = ((sameNode M r).filter fun i => i < s).card := by
      intro s h
      have hk := Finset.mem_filter.1 h
      rw [commRank_split M hM' hs' (Finset.mem_range.1 hk.1), sameNode_congr M hk.2]
    have mono : ∀ s ∈ sameNode M r, ∀ t ∈ sameNode M r, s < t → commRank M s < commRank M t := by
      intro s h t ht hst
      rw [key s h, key t ht]
      refine Finset.card_lt_card ⟨fun i hi => ?_, fun hc => ?_⟩
      · rw [Finset.mem_filter] at hi ⊢
        exact ⟨hi.1, by omega⟩
      · have := hc (Finset.mem_filter.2 ⟨h, hst⟩)
        rw [Finset.mem_filter] at this
        omega
    refine ⟨fun s h t ht he => ?_, 0, fun s h => ⟨Nat.zero_le _, ?_⟩⟩
    · rcases Nat.lt_trichotomy s t with h1 | h1 | h1
      · have := mono s h t ht h1; omega
      · exact h1
      · have := mono t ht s h h1; omega
    · rw [key s h, Nat.zero_add]
      refine Finset.card_lt_card ⟨Finset.filter_subset _ _, fun hc => ?_⟩
      have := hc h
      rw [Finset.mem_filter] at this
      omega

/-- With the same number of GPUs everywhere, all processes make the same collective calls. -/
theorem not_stuck (M : Machine) {g : ℕ} (hg : Uniform M g) {r : ℕ} (hr : r < M.p) :
    (List.range M.p).any (fun i => decide (calls M i ≠ calls M r)) = false := by
  rw [List.any_eq_false]
  intro i hi
  have hi' := List.mem_range.1 hi
  have e : calls M i = calls M r := by
    unfold calls
    rw [device_eq M i (by rw [hg.2 i hi']; exact hg.1), device_eq M r (by rw [hg.2 r hr]; exact hg.1),
      hg.2 i hi', hg.2 r hr]
    simp
  simp [e]

end Fbpic.GpuSel
