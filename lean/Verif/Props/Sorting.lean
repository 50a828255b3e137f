import Verif.Model.Sorting
import Verif.Lemmas.Tactics
import Mathlib.Data.Finset.Card
import Mathlib.Data.Finset.Range
import Mathlib.Data.Rat.Floor

/-!
# C20: sorting of the particles on the GPU
-/

namespace Fbpic

open Sorting

/-! ### Cell index -/

/-- **C20** (cell index): for every particle at non-negative radius and less than one box length
outside the local box, the cell index is within the prefix-sum array. -/
theorem C20_cell_range {K : Type} [Field K] [LinearOrder K] [IsStrictOrderedRing K] [FloorRing K]
    (r z invdz zmin : K) (Nz : ℕ) (invdr rmin : K) (Nr : ℕ) (hdr : 0 < invdr) (hr : rmin ≤ r)
    (hlo : -(Nz : K) - 1 / 2 < invdz * (z - zmin)) (hhi : invdz * (z - zmin) ≤ 2 * Nz - 1 / 2) :
    0 ≤ cellIdx r z invdz zmin Nz invdr rmin Nr ∧
      cellIdx r z invdz zmin Nz invdr rmin Nr < Nz * (Nr + 1) := by
  unfold cellIdx
  simp only []
  have hr0 : (0 : ℤ) ≤ ⌈invdr * (r - rmin) - 1 / 2⌉ := by
    have : 0 ≤ invdr * (r - rmin) := mul_nonneg hdr.le (by linarith)
    have h1 : (-1 : ℤ) < ⌈invdr * (r - rmin) - 1 / 2⌉ := by
      rw [Int.lt_ceil]; push_cast; linarith
    omega
  have hz0 : -(Nz : ℤ) ≤ ⌈invdz * (z - zmin) - 1 / 2⌉ := by
    have h1 : (-(Nz : ℤ) - 1) < ⌈invdz * (z - zmin) - 1 / 2⌉ := by
      rw [Int.lt_ceil]; push_cast; linarith
    omega
  have hz1 : ⌈invdz * (z - zmin) - 1 / 2⌉ ≤ 2 * (Nz : ℤ) - 1 := by
    rw [Int.ceil_le]; push_cast; linarith
  set ir := ⌈invdr * (r - rmin) - 1 / 2⌉
  set iz := ⌈invdz * (z - zmin) - 1 / 2⌉
  have h1 : 0 ≤ (if ir > Nr then (Nr : ℤ) else ir) ∧ (if ir > Nr then (Nr : ℤ) else ir) ≤ Nr := by
    split_ifs <;> omega
  have h2 : 0 ≤ (if iz < 0 then iz + Nz else if iz > (Nz : ℤ) - 1 then iz - Nz else iz) ∧
      (if iz < 0 then iz + Nz else if iz > (Nz : ℤ) - 1 then iz - Nz else iz) + 1 ≤ Nz := by
    split_ifs <;> omega
  generalize (if ir > Nr then (Nr : ℤ) else ir) = a at h1 ⊢
  generalize (if iz < 0 then iz + Nz else if iz > (Nz : ℤ) - 1 then iz - Nz else iz) = b at h2 ⊢
  have h3 := mul_nonneg h2.1 (show (0 : ℤ) ≤ Nr + 1 by positivity)
  have h4 : (b + 1) * ((Nr : ℤ) + 1) ≤ Nz * (Nr + 1) := by gcongr; exact h2.2
  constructor
  · omega
  · rw [add_mul, one_mul] at h4; omega

/-- A particle in the last half cell of a box of 4 × 2 cells: it is in the cell of the periodic
wrap. -/
example : cellIdx (K := ℚ) (1 / 4) (15 / 4) 1 0 4 1 0 2 = 0 := by decide +kernel

/-! ### Prefix sum -/

/-- Number of particles in cells up to `c`. -/
def countLe (keys : ℕ → ℕ) (n c : ℕ) : ℕ := ((Finset.range n).filter fun i => keys i ≤ c).card

private theorem countLe_eq {keys : ℕ → ℕ} {n c m : ℕ} (hm : m ≤ n) (h1 : ∀ i, i < m → keys i ≤ c)
    (h2 : ∀ i, m ≤ i → i < n → c < keys i) : countLe keys n c = m := by
  unfold countLe
  have : (Finset.range n).filter (fun i => keys i ≤ c) = Finset.range m := by
    ext i
    simp only [Finset.mem_filter, Finset.mem_range]
    constructor
    · rintro ⟨a, b⟩
      by_contra hc
      have := h2 i (by omega) a
      omega
    · intro a
      exact ⟨by omega, h1 i a⟩
  rw [this, Finset.card_range]

private theorem fold_writes {ι : Type} (f : ι → (ℕ → ℕ) → ℕ → ℕ) (V : ℕ → ℕ) (W : ι → ℕ → Prop)
    (h : ∀ i P c, (W i c → f i P c = V c) ∧ (¬ W i c → f i P c = P c)) (L : List ι) (P : ℕ → ℕ)
    (c : ℕ) :
    ((∃ i ∈ L, W i c) → L.foldl (fun P i => f i P) P c = V c) ∧
    ((¬ ∃ i ∈ L, W i c) → L.foldl (fun P i => f i P) P c = P c) := by
  induction L generalizing P with
  | nil => simp
  | cons a L ih =>
    rw [List.foldl_cons]
    obtain ⟨i1, i2⟩ := ih (f a P)
    by_cases hL : ∃ i ∈ L, W i c
    · refine ⟨fun _ => i1 hL, fun hn => absurd ?_ hn⟩
      obtain ⟨i, hi, hw⟩ := hL
      exact ⟨i, by simp [hi], hw⟩
    · rw [i2 hL]
      refine ⟨?_, ?_⟩
      · rintro ⟨i, hi, hw⟩
        rcases List.mem_cons.1 hi with rfl | hi
        · exact (h _ P c).1 hw
        · exact absurd ⟨i, hi, hw⟩ hL
      · intro hn
        exact (h a P c).2 fun hw => hn ⟨a, by simp, hw⟩

private theorem fillLoop_apply (ci ciNext v : ℕ) (P : ℕ → ℕ) (c : ℕ) :
    fillLoop ci ciNext v P c = if ci ≤ c ∧ c < ciNext then v else P c := by
  induction h : ciNext - ci generalizing ci P with
  | zero => rw [fillLoop, if_neg (by omega), if_neg (by omega)]
  | succ k ih =>
    rw [fillLoop, if_pos (by omega), ih (ci + 1) _ (by omega)]
    unfold setEntry
    split_ifs <;> first | rfl | omega

/-- The keys are sorted. -/
def SortedKeys (keys : ℕ → ℕ) (n : ℕ) : Prop := ∀ i j, i ≤ j → j < n → keys i ≤ keys j

private theorem exists_gap {keys : ℕ → ℕ} {n c : ℕ} (hn : 0 < n) (h0 : keys 0 ≤ c)
    (h1 : c < keys (n - 1)) : ∃ i, i + 1 < n ∧ keys i ≤ c ∧ c < keys (i + 1) := by
  by_contra hno
  push Not at hno
  have : ∀ i, i < n → keys i ≤ c := by
    intro i
    induction i with
    | zero => intro _; exact h0
    | succ i ih => intro hi; exact hno i hi (ih (by omega))
  have := this (n - 1) (by omega)
  omega

/-- **C20** (prefix sum): for sorted cell indices within the array, the two kernels, with their
threads run in any order and starting from any content, leave in every entry `c` of the prefix-sum
array the number of particles in the cells `0 … c`, wherever the empty cells are, and write nothing
beyond the array. -/
theorem C20_prefix (keys : ℕ → ℕ) (n len : ℕ) (hs : SortedKeys keys n)
    (hk : ∀ i, i < n → keys i < len) (threads1 threads2 : List ℕ)
    (ht1 : ∀ i, i < len → i ∈ threads1) (ht2 : ∀ i, i < n → i ∈ threads2) (P : ℕ → ℕ) :
    (∀ c, c < len → prefixSum keys n len threads1 threads2 P c = countLe keys n c) ∧
    (∀ c, len ≤ c → prefixSum keys n len threads1 threads2 P c = P c) := by
  have hI := fold_writes (fun i P => inclThread keys n i P) (countLe keys n)
    (fun i c => i + 1 < n ∧ keys i ≤ c ∧ c < keys (i + 1)) (by
      intro i P c
      unfold inclThread
      by_cases hi : i + 1 < n
      · rw [if_pos hi, fillLoop_apply]
        refine ⟨?_, ?_⟩
        · rintro ⟨-, h1, h2⟩
          rw [if_pos ⟨h1, h2⟩]
          refine (countLe_eq (by omega) ?_ ?_).symm
          · intro j hj
            exact (hs j i (by omega) (by omega)).trans h1
          · intro j hj hjn
            exact lt_of_lt_of_le h2 (hs (i + 1) j hj hjn)
        · intro h
          rw [if_neg fun hc => h ⟨hi, hc⟩]
      · rw [if_neg hi]
        exact ⟨fun h => absurd h.1 hi, fun _ => rfl⟩) threads2
  have hP := fold_writes (fun i P => prefillThread keys n len i P) (countLe keys n)
    (fun i c => i = c ∧ i < len ∧ (n = 0 ∨ i < keys 0 ∨ keys (n - 1) ≤ i)) (by
      intro i P c
      unfold prefillThread setEntry
      by_cases hi : i < len
      · rw [if_pos hi]
        by_cases hn : 0 < n
        · rw [if_pos hn]
          by_cases h0 : i < keys 0
          · rw [if_pos h0]
            refine ⟨?_, ?_⟩
            · rintro ⟨rfl, -, -⟩
              simp only [if_true]
              exact (countLe_eq (by omega) (by omega)
                fun j _ hj => lt_of_lt_of_le h0 (hs 0 j (by omega) hj)).symm
            · intro h
              have : ¬ c = i := fun hc => h ⟨hc.symm, hi, Or.inr (Or.inl h0)⟩
              simp only [this, if_false]
          · rw [if_neg h0]
            by_cases h1 : keys (n - 1) ≤ i
            · rw [if_pos h1]
              refine ⟨?_, ?_⟩
              · rintro ⟨rfl, -, -⟩
                simp only [if_true]
                exact (countLe_eq (le_refl n)
                  (fun j hj => (hs j (n - 1) (by omega) (by omega)).trans h1) (by omega)).symm
              · intro h
                have : ¬ c = i := fun hc => h ⟨hc.symm, hi, Or.inr (Or.inr h1)⟩
                simp only [this, if_false]
            · rw [if_neg h1]
              refine ⟨?_, fun _ => rfl⟩
              rintro ⟨-, -, h | h | h⟩ <;> omega
        · rw [if_neg hn]
          refine ⟨?_, ?_⟩
          · rintro ⟨rfl, -, -⟩
            simp only [if_true]
            exact (countLe_eq (by omega) (by omega) (by omega)).symm
          · intro h
            have : ¬ c = i := fun hc => h ⟨hc.symm, hi, Or.inl (by omega)⟩
            simp only [this, if_false]
      · rw [if_neg hi]
        exact ⟨fun h => absurd h.2.1 hi, fun _ => rfl⟩) threads1
  constructor
  · intro c hc
    unfold prefixSum incl
    by_cases hcov : ∃ i ∈ threads2, i + 1 < n ∧ keys i ≤ c ∧ c < keys (i + 1)
    · exact (hI _ c).1 hcov
    · rw [(hI _ c).2 hcov]
      refine (hP P c).1 ⟨c, ht1 c hc, rfl, hc, ?_⟩
      by_contra hno
      push Not at hno
      obtain ⟨i, h1, h2, h3⟩ := exists_gap (by omega) (by omega : keys 0 ≤ c) hno.2.2
      exact hcov ⟨i, ht2 i (by omega), h1, h2, h3⟩
  · intro c hc
    unfold prefixSum incl
    rw [(hI _ c).2, prefill, (hP P c).2]
    · rintro ⟨i, -, rfl, h, -⟩; omega
    · rintro ⟨i, -, h1, h2, h3⟩
      have := hk (i + 1) h1
      omega

/-- **C20** (cell ranges): consecutive entries of the prefix sum delimit exactly the particles of
each cell. -/
theorem C20_ranges (keys : ℕ → ℕ) (n len : ℕ) (hs : SortedKeys keys n)
    (hk : ∀ i, i < n → keys i < len) (threads1 threads2 : List ℕ)
    (ht1 : ∀ i, i < len → i ∈ threads1) (ht2 : ∀ i, i < n → i ∈ threads2) (P : ℕ → ℕ)
    (c : ℕ) (hc : c < len) :
    let S := prefixSum keys n len threads1 threads2 P
    let first := if c = 0 then 0 else S (c - 1)
    first ≤ S c ∧ S c ≤ n ∧ ∀ i, i < n → ((first ≤ i ∧ i < S c) ↔ keys i = c) := by
  intro S first
  have hS := (C20_prefix keys n len hs hk threads1 threads2 ht1 ht2 P).1
  have key : ∀ c i, i < n → (i < countLe keys n c ↔ keys i ≤ c) := by
    intro c i hi
    unfold countLe
    constructor
    · intro h
      by_contra hc
      push Not at hc
      have hsub : (Finset.range n).filter (fun j => keys j ≤ c) ⊆ Finset.range i := by
        intro j hj
        simp only [Finset.mem_filter, Finset.mem_range] at *
        by_contra hji
        have := hs i j (by omega) hj.1
        omega
      have := Finset.card_le_card hsub
      rw [Finset.card_range] at this
      omega
    · intro h
      have hsub : Finset.range (i + 1) ⊆ (Finset.range n).filter (fun j => keys j ≤ c) := by
        intro j hj
        simp only [Finset.mem_filter, Finset.mem_range] at *
        exact ⟨by omega, (hs j i (by omega) hi).trans h⟩
      have := Finset.card_le_card hsub
      rw [Finset.card_range] at this
      omega
  have hfirst : ∀ i, i < n → (first ≤ i ↔ c ≤ keys i) := by
    intro i hi
    by_cases h0 : c = 0
    · simp [first, h0]
    · have : first = countLe keys n (c - 1) := by
        simp only [first, h0, if_false]
        exact hS (c - 1) (by omega)
      rw [this, ← not_lt, key (c - 1) i hi]
      omega
  refine ⟨?_, ?_, ?_⟩
  · by_cases h0 : c = 0
    · simp [first, h0]
    · simp only [first, h0, if_false]
      simp only [S]
      rw [hS (c - 1) (by omega), hS c hc]
      unfold countLe
      apply Finset.card_le_card
      intro j hj
      simp only [Finset.mem_filter, Finset.mem_range] at *
      omega
  · simp only [S]
    rw [hS c hc]
    unfold countLe
    exact (Finset.card_filter_le _ _).trans (by rw [Finset.card_range])
  · intro i hi
    rw [hfirst i hi]
    simp only [S]
    rw [hS c hc, key c i hi]
    omega

/-- Empty cells at the beginning, in the middle and at the end. -/
example : SortedKeys (fun i => [2, 2, 5].getD i 0) 3 ∧
    (List.range 8).map (prefixSum (fun i => [2, 2, 5].getD i 0) 3 8 [7, 6, 5, 4, 3, 2, 1, 0, 8]
      [2, 1, 0, 3] (fun _ => 99)) = [0, 0, 2, 2, 2, 3, 3, 3] := by
  have hs : SortedKeys (fun i => [2, 2, 5].getD i 0) 3 := by
    intro i j h1 h2
    interval_cases j <;> interval_cases i <;> decide
  refine ⟨hs, ?_⟩
  have h := (C20_prefix _ 3 8 hs (by intro i hi; interval_cases i <;> decide)
    [7, 6, 5, 4, 3, 2, 1, 0, 8] [2, 1, 0, 3] (by intro i hi; interval_cases i <;> decide)
    (by intro i hi; interval_cases i <;> decide) (fun _ => 99)).1
  rw [List.map_congr_left fun c hc => h c (List.mem_range.1 hc)]
  decide

/-! ### Rearranged arrays -/

private theorem writeBuffer_apply {α : Type} (idx : ℕ → ℕ) (n src dst : ℕ) (mem : ℕ → ℕ → α)
    (h : src ≠ dst) (a j : ℕ) :
    writeBuffer idx n src dst mem a j = if a = dst ∧ j < n then mem src (idx j) else mem a j := by
  unfold writeBuffer
  induction n generalizing a j with
  | zero => simp
  | succ n ih =>
    rw [List.range_succ, List.foldl_append, List.foldl_cons, List.foldl_nil, ih src, ih a j]
    by_cases h1 : a = dst
    · by_cases h2 : j = n
      · simp [h1, h2, h]
      · by_cases h3 : j < n
        · simp [h1, h2, h3, Nat.lt_succ_of_lt h3]
        · have : ¬ j < n + 1 := by omega
          simp [h1, h2, h3, this]
    · simp [h1]

/-- No two attributes, and no attribute and the buffer, share an array. -/
def Store.Distinct {α : Type} (s : Store α) : Prop :=
  Function.Injective s.attr ∧ ∀ a, s.attr a ≠ s.buffer

/-- **C20** (arrays): rearranging a list of different attributes puts in each of them, at position
`i < n`, the value that was at position `idx i`, leaves the other attributes as they were, and keeps
all arrays distinct. -/
theorem C20_rearrange {α : Type} (idx : ℕ → ℕ) (n : ℕ) (attrs : List ℕ) (hn : attrs.Nodup)
    (s : Store α) (hs : Store.Distinct s) :
    let s' := rearrange idx n attrs s
    Store.Distinct s' ∧ ∀ a i, i < n → s'.mem (s'.attr a) i =
      if a ∈ attrs then s.mem (s.attr a) (idx i) else s.mem (s.attr a) i := by
  suffices H : ∀ s : Store α, Store.Distinct s →
      Store.Distinct (rearrange idx n attrs s) ∧
      (∀ a, a ∈ attrs → ∀ i, i < n → (rearrange idx n attrs s).mem ((rearrange idx n attrs s).attr a) i
        = s.mem (s.attr a) (idx i)) ∧
      (∀ a, a ∉ attrs → ∀ i, (rearrange idx n attrs s).mem ((rearrange idx n attrs s).attr a) i
        = s.mem (s.attr a) i) by
    intro s'
    obtain ⟨h1, h2, h3⟩ := H s hs
    refine ⟨h1, fun a i hi => ?_⟩
    split_ifs with ha
    · exact h2 a ha i hi
    · exact h3 a ha i
  clear hs s
  induction attrs with
  | nil => intro s hs; exact ⟨hs, by simp, fun a _ i => rfl⟩
  | cons b L ih =>
    intro s hs
    rw [List.nodup_cons] at hn
    have e : rearrange idx n (b :: L) s = rearrange idx n L (rearrangeOne idx n s b) := rfl
    have hne : s.attr b ≠ s.buffer := hs.2 b
    have hd : Store.Distinct (rearrangeOne idx n s b) := by
      refine ⟨?_, ?_⟩
      · intro x y hxy
        simp only [rearrangeOne] at hxy
        split_ifs at hxy with h1 h2 h2
        · rw [h1, h2]
        · exact absurd hxy.symm (hs.2 y)
        · exact absurd hxy (hs.2 x)
        · exact hs.1 hxy
      · intro x
        simp only [rearrangeOne]
        split_ifs with h1
        · exact fun h => hne h.symm
        · exact fun h => h1 (hs.1 h)
    obtain ⟨i1, i2, i3⟩ := ih hn.2 _ hd
    have hb : ∀ i, i < n → (rearrangeOne idx n s b).mem ((rearrangeOne idx n s b).attr b) i
        = s.mem (s.attr b) (idx i) := by
      intro i hi
      simp only [rearrangeOne, if_true]
      rw [writeBuffer_apply _ _ _ _ _ hne]
      simp [hi]
    have ho : ∀ a, a ≠ b → ∀ i, (rearrangeOne idx n s b).mem ((rearrangeOne idx n s b).attr a) i
        = s.mem (s.attr a) i := by
      intro a ha i
      simp only [rearrangeOne, ha, if_false]
      rw [writeBuffer_apply _ _ _ _ _ hne]
      simp [hs.2 a]
    rw [e]
    refine ⟨i1, ?_, ?_⟩
    · intro a ha i hi
      rcases List.mem_cons.1 ha with rfl | ha
      · rw [i3 a hn.1, hb i hi]
      · have hab : a ≠ b := fun h => hn.1 (h ▸ ha)
        rw [i2 a ha i hi, ho a hab]
    · intro a ha i
      have hab : a ≠ b := fun h => ha (by simp [h])
      have haL : a ∉ L := fun h => ha (by simp [h])
      rw [i3 a haL, ho a hab]

/-- **C20** (whole sort): after `sort_particles`, the list of the particles (with all rearranged
attributes together) is a permutation of the one before, the cell index of the particle at position
`i` is the sorted key `i`, these are in increasing order, and the prefix sum delimits the particles
of each cell. -/
theorem C20_sort {α : Type} (n len : ℕ) (attrs : List ℕ) (hn : attrs.Nodup) (s : Store α)
    (hs : Store.Distinct s) (keys keys' idx : ℕ → ℕ) (hsort : ArgSorted n keys keys' idx)
    (hk : ∀ i, i < n → keys i < len) (threads1 threads2 : List ℕ)
    (ht1 : ∀ i, i < len → i ∈ threads1) (ht2 : ∀ i, i < n → i ∈ threads2) (P : ℕ → ℕ) :
    let s' := rearrange idx n attrs s
    let S := prefixSum keys' n len threads1 threads2 P
    -- the particles, each with its cell and its attributes
    ((List.range n).map fun i => (keys' i, attrs.map fun a => s'.mem (s'.attr a) i)).Perm
      ((List.range n).map fun i => (keys i, attrs.map fun a => s.mem (s.attr a) i)) ∧
    (∀ i j, i ≤ j → j < n → keys' i ≤ keys' j) ∧
    ∀ c, c < len → ∀ i, i < n →
      (((if c = 0 then 0 else S (c - 1)) ≤ i ∧ i < S c) ↔ keys' i = c) := by
  intro s' S
  refine ⟨?_, hsort.sorted, ?_⟩
  · have h1 : ((List.range n).map fun i => (keys' i, attrs.map fun a => s'.mem (s'.attr a) i))
        = ((List.range n).map idx).map fun i => (keys i, attrs.map fun a => s.mem (s.attr a) i) := by
      rw [List.map_map]
      apply List.map_congr_left
      intro i hi
      have hi := List.mem_range.1 hi
      simp only [Function.comp]
      rw [hsort.keys_eq i hi]
      congr 1
      apply List.map_congr_left
      intro a ha
      have := (C20_rearrange idx n attrs hn s hs).2 a i hi
      rw [if_pos ha] at this
      exact this
    rw [h1]
    exact hsort.perm.map _
  · intro c hc i hi
    have hlt : ∀ i, i < n → idx i < n := by
      intro i hi
      have : idx i ∈ List.range n :=
        hsort.perm.subset (List.mem_map.2 ⟨i, List.mem_range.2 hi, rfl⟩)
      exact List.mem_range.1 this
    have hk' : ∀ i, i < n → keys' i < len := by
      intro i hi
      rw [hsort.keys_eq i hi]
      exact hk _ (hlt i hi)
    exact (C20_ranges keys' n len hsort.sorted hk' threads1 threads2 ht1 ht2 P c hc).2.2 i hi

example : ArgSorted 3 (fun i => [5, 2, 2].getD i 0) (fun i => [2, 2, 5].getD i 0)
    (fun i => [1, 2, 0].getD i 0) := by
  refine ⟨by decide, ?_, ?_⟩
  · intro i hi; interval_cases i <;> rfl
  · intro i j h1 h2
    interval_cases j <;> interval_cases i <;> decide

example : Store.Distinct (⟨fun a i => (a, i), fun a => a + 1, 0⟩ : Store (ℕ × ℕ)) :=
  ⟨fun _ _ h => by simpa using h, fun a => by simp⟩

end Fbpic
