import Verif.Spec.BackTransform
import Verif.Lemmas.Tactics
import Verif.Lemmas.Prelude

/-! # Lemmas for C45 -/

namespace Fbpic.BackTransform

open Fbpic.Spec

/-! ### Abstract part: indices decreasing by one per iteration -/

theorem filter_convex (p : ℕ → Bool) (hp : ∀ a b c, a ≤ b → b ≤ c → p a → p c → p b) (L k : ℕ) :
    ∃ s j, L ≤ s ∧ s + j ≤ L + k ∧ (List.range' L k).filter p = List.range' s j := by
  induction k with
  | zero => exact ⟨L, 0, le_refl _, by omega, by simp⟩
  | succ k ih =>
    obtain ⟨s, j, h1, h2, h3⟩ := ih
    rw [List.range'_concat, List.filter_append, h3]
    by_cases hpk : p (L + 1 * k) = true
    · rw [List.filter_singleton, hpk, cond_true]
      rcases Nat.eq_zero_or_pos j with rfl | hj
      · exact ⟨L + k, 1, by omega, by omega, by simp⟩
      · have hs : s ∈ (List.range' L k).filter p := by rw [h3]; simp [hj]
        have hps := (List.mem_filter.mp hs).2
        have hlast : L + k - 1 ∈ (List.range' L k).filter p := by
          rw [List.mem_filter]
          refine ⟨by rw [List.mem_range'_1]; omega, ?_⟩
          refine hp s _ (L + 1 * k) (by omega) (by omega) hps hpk
        rw [h3, List.mem_range'_1] at hlast
        have : L + 1 * k = s + 1 * j := by omega
        exact ⟨s, j + 1, h1, by omega, by rw [this, List.range'_concat]⟩
    · rw [List.filter_singleton, Bool.eq_false_iff.mpr hpk, cond_false, List.append_nil]
      exact ⟨s, j, h1, by omega, rfl⟩

theorem contiguous_cells (x : ℤ) (s j : ℕ) :
    contiguous ((List.range' s j).map fun n : ℕ => x - n) = true := by
  induction j generalizing s with
  | zero => rfl
  | succ j ih =>
    cases j with
    | zero => rfl
    | succ j =>
      have h := ih (s + 1)
      simp only [List.range'_succ, List.map_cons] at h ⊢
      rw [contiguous, if_neg (by push_cast; omega)]
      exact h

/-- What a rank holds of the iterations `[s, s+j)`. -/
def entry {α : Type} (x : ℤ) (v : ℕ → α) (s j : ℕ) : Option (List α × ℤ × ℤ) :=
  if j = 0 then none else some (((List.range' s j).map v).reverse, x - (s + j - 1 : ℕ), x - s + 1)

theorem compact_cells {α : Type} (x : ℤ) (v : ℕ → α) (s j : ℕ) :
    compact ⟨(List.range' s j).map fun n : ℕ => x - n, (List.range' s j).map v⟩ = .ok (entry x v s j) := by
  cases j with
  | zero => rfl
  | succ j =>
    have hc := contiguous_cells x s (j + 1)
    have hl : ((List.range' s (j + 1)).map fun n : ℕ => x - n).getLast? = some (x - (s + j : ℕ)) := by
      rw [List.range'_concat, List.map_append, List.map_singleton, List.getLast?_concat]
      simp
    simp only [List.range'_succ, List.map_cons] at hc hl ⊢
    unfold compact
    simp only
    rw [if_neg (by rw [hc]; decide)]
    rw [List.getLast?_eq_getLast_of_ne_nil (by simp)] at hl
    rw [Option.some.inj hl]
    unfold entry
    rw [if_neg (by omega)]
    simp only [List.range'_succ, List.map_cons, Nat.add_succ_sub_one]

theorem entry_value {α : Type} [Zero α] {x : ℤ} {v : ℕ → α} {s j : ℕ} {arr : List α} {lo hi : ℤ}
    (h : entry x v s j = some (arr, lo, hi)) (n : ℕ) (hs : s ≤ n) (hn : n < s + j) :
    arr.getD (x - n - lo).toNat 0 = v n ∧ lo ≤ x - n ∧ x - n < hi := by
  unfold entry at h
  rw [if_neg (by omega)] at h
  obtain ⟨rfl, rfl, rfl⟩ : _ ∧ _ ∧ _ := by simpa using h
  refine ⟨?_, by omega, by omega⟩
  have : (x - (n : ℤ) - (x - ((s + j - 1 : ℕ) : ℤ))).toNat = s + j - 1 - n := by omega
  rw [this, List.getD_eq_getElem?_getD, List.getElem?_reverse (by simp; omega)]
  simp only [List.length_map, List.length_range', List.getElem?_map]
  rw [List.getElem?_range' (by omega)]
  simp only [Option.map_some, Option.getD_some]
  congr 1
  omega

theorem entry_range {α : Type} {x : ℤ} {v : ℕ → α} {s j : ℕ} {arr : List α} {lo hi : ℤ}
    (h : entry x v s j = some (arr, lo, hi)) :
    0 < j ∧ lo = x - (s + j - 1 : ℕ) ∧ hi = x - s + 1 := by
  unfold entry at h
  by_cases hj : j = 0
  · rw [if_pos hj] at h; exact absurd h (by simp)
  · rw [if_neg hj] at h
    obtain ⟨rfl, rfl, rfl⟩ : _ ∧ _ ∧ _ := by simpa using h
    exact ⟨by omega, rfl, rfl⟩

theorem stitch_aux {α : Type} (l : List (Option (List α × ℤ × ℤ))) [Zero α] (i : ℤ) (v : α)
    (hv : ∀ arr lo hi, some (arr, lo, hi) ∈ l → lo ≤ i → i < hi → arr.getD (i - lo).toNat 0 = v)
    (g : ℤ → α)
    (h : g i = v ∨ ∃ arr lo hi, some (arr, lo, hi) ∈ l ∧ lo ≤ i ∧ i < hi) :
    l.foldl (fun g o => match o with
    | none => g
    | some (arr, lo, hi) => fun i => if lo ≤ i ∧ i < hi then arr.getD (i - lo).toNat 0 else g i) g i = v := by
  induction l generalizing g with
  | nil =>
    rcases h with h | ⟨_, _, _, h, _⟩
    · exact h
    · simp at h
  | cons o l ih =>
    rw [List.foldl_cons]
    refine ih (fun arr lo hi hm => hv arr lo hi (List.mem_cons_of_mem _ hm)) _ ?_
    cases o with
    | none =>
      rcases h with h | ⟨arr, lo, hi, h, h'⟩
      · exact Or.inl h
      · refine Or.inr ⟨arr, lo, hi, ?_, h'⟩
        simpa using h
    | some e =>
      obtain ⟨arr, lo, hi⟩ := e
      simp only
      by_cases hc : lo ≤ i ∧ i < hi
      · left
        rw [if_pos hc]
        exact hv arr lo hi (by simp) hc.1 hc.2
      · rw [if_neg hc]
        rcases h with h | ⟨arr', lo', hi', h, h'⟩
        · exact Or.inl h
        · rcases List.mem_cons.mp h with h | h
          · simp only [Option.some.injEq, Prod.mk.injEq] at h
            obtain ⟨-, rfl, rfl⟩ := h
            exact absurd h' hc
          · exact Or.inr ⟨arr', lo', hi', h, h'⟩

theorem stitch_value {α : Type} [Zero α] (l : List (Option (List α × ℤ × ℤ))) (i : ℤ) (v : α)
    (hv : ∀ arr lo hi, some (arr, lo, hi) ∈ l → lo ≤ i → i < hi → arr.getD (i - lo).toNat 0 = v)
    (h : ∃ arr lo hi, some (arr, lo, hi) ∈ l ∧ lo ≤ i ∧ i < hi) : stitch l i = v :=
  stitch_aux l i v hv _ (Or.inr h)

theorem stitch_zero {α : Type} [Zero α] (l : List (Option (List α × ℤ × ℤ))) (i : ℤ)
    (h : ∀ arr lo hi, some (arr, lo, hi) ∈ l → ¬ (lo ≤ i ∧ i < hi)) : stitch l i = 0 :=
  stitch_aux l i 0 (fun arr lo hi hm h1 h2 => absurd ⟨h1, h2⟩ (h arr lo hi hm)) _ (Or.inl rfl)

/-- What is handed to the writer. -/
structure Pending {α : Type} [Zero α] (x : ℤ) (size : ℕ) (v : ℕ → ℕ → α) (s j : ℕ → ℕ)
    (o : Option ((ℤ → α) × ℤ × ℤ)) : Prop where
  none : o = none → ∀ r < size, j r = 0
  range : ∀ g lo hi, o = some (g, lo, hi) →
    (∃ r < size, 0 < j r ∧ lo = x - (s r + j r - 1 : ℕ)) ∧ (∃ r < size, 0 < j r ∧ hi = x - s r + 1) ∧
    ∀ r < size, ∀ n, s r ≤ n → n < s r + j r → lo ≤ x - n ∧ x - n < hi
  value : ∀ g lo hi, o = some (g, lo, hi) → ∀ r < size, ∀ n, s r ≤ n → n < s r + j r → g (x - n) = v n r
  zero : ∀ g lo hi, o = some (g, lo, hi) → ∀ i, lo ≤ i → i < hi →
    (∀ r < size, ∀ n, s r ≤ n → n < s r + j r → x - (n : ℤ) ≠ i) → g i = 0

theorem gather_pending {α : Type} [Zero α] (x : ℤ) (size : ℕ) (v : ℕ → ℕ → α) (s j : ℕ → ℕ)
    (huniq : ∀ r < size, ∀ r' < size, ∀ n, s r ≤ n → n < s r + j r → s r' ≤ n → n < s r' + j r' → r = r') :
    Pending x size v s j (gatherSlices ((List.range size).map fun r => entry x (v · r) (s r) (j r))) := by
  set l := (List.range size).map fun r => entry x (v · r) (s r) (j r) with hl
  have hmem : ∀ e, some e ∈ l ↔ ∃ r < size, entry x (v · r) (s r) (j r) = some e := by
    intro e; simp [hl]
  have hlos : ∀ a, a ∈ (l.filterMap id).map (fun x => x.2.1) ↔ ∃ r < size, 0 < j r ∧ a = x - (s r + j r - 1 : ℕ) := by
    intro a
    simp only [List.mem_map, List.mem_filterMap, id]
    constructor
    · rintro ⟨e, ⟨o, ho, rfl⟩, rfl⟩
      obtain ⟨r, hr, he⟩ := (hmem e).mp ho
      obtain ⟨arr, lo, hi⟩ := e
      obtain ⟨h1, h2, h3⟩ := entry_range he
      exact ⟨r, hr, h1, h2⟩
    · rintro ⟨r, hr, hj, rfl⟩
      have he : entry x (v · r) (s r) (j r) =
          some (((List.range' (s r) (j r)).map (v · r)).reverse, x - (s r + j r - 1 : ℕ), x - s r + 1) := by
        unfold entry; rw [if_neg (by omega)]
      exact ⟨_, ⟨_, (hmem _).mpr ⟨r, hr, he⟩, rfl⟩, rfl⟩
  have hhis : ∀ a, a ∈ (l.filterMap id).map (fun x => x.2.2) ↔ ∃ r < size, 0 < j r ∧ a = x - s r + 1 := by
    intro a
    simp only [List.mem_map, List.mem_filterMap, id]
    constructor
    · rintro ⟨e, ⟨o, ho, rfl⟩, rfl⟩
      obtain ⟨r, hr, he⟩ := (hmem e).mp ho
      obtain ⟨arr, lo, hi⟩ := e
      obtain ⟨h1, h2, h3⟩ := entry_range he
      exact ⟨r, hr, h1, h3⟩
    · rintro ⟨r, hr, hj, rfl⟩
      have he : entry x (v · r) (s r) (j r) =
          some (((List.range' (s r) (j r)).map (v · r)).reverse, x - (s r + j r - 1 : ℕ), x - s r + 1) := by
        unfold entry; rw [if_neg (by omega)]
      exact ⟨_, ⟨_, (hmem _).mpr ⟨r, hr, he⟩, rfl⟩, rfl⟩
  constructor
  · intro ho r hr
    by_contra hj
    have h1 := (hlos _).mpr ⟨r, hr, Nat.pos_of_ne_zero hj, rfl⟩
    have h2 := (hhis _).mpr ⟨r, hr, Nat.pos_of_ne_zero hj, rfl⟩
    unfold gatherSlices at ho
    obtain ⟨a, ha⟩ := Option.isSome_iff_exists.mp (List.isSome_min?_of_mem h1)
    obtain ⟨a', ha'⟩ := Option.isSome_iff_exists.mp (List.isSome_max?_of_mem h2)
    rw [ha, ha'] at ho
    exact absurd ho (by simp)
  · intro g lo hi ho
    unfold gatherSlices at ho
    cases hmin : ((l.filterMap id).map fun x => x.2.1).min? with
    | none => rw [hmin] at ho; exact absurd ho (by simp)
    | some a =>
      cases hmax : ((l.filterMap id).map fun x => x.2.2).max? with
      | none => rw [hmin, hmax] at ho; exact absurd ho (by simp)
      | some a' =>
        rw [hmin, hmax] at ho
        obtain ⟨-, rfl, rfl⟩ : _ ∧ _ ∧ _ := by simpa using ho
        have h1 := List.min?_eq_some_iff.mp hmin
        have h2 := List.max?_eq_some_iff.mp hmax
        refine ⟨(hlos _).mp h1.1, (hhis _).mp h2.1, ?_⟩
        intro r hr n hn1 hn2
        have g1 := h1.2 _ ((hlos _).mpr ⟨r, hr, by omega, rfl⟩)
        have g2 := h2.2 _ ((hhis _).mpr ⟨r, hr, by omega, rfl⟩)
        omega
  · intro g lo hi ho r hr n hn1 hn2
    have hg : g = stitch l := by
      unfold gatherSlices at ho
      split at ho
      · simp only [Option.some.injEq, Prod.mk.injEq] at ho; exact ho.1.symm
      · exact absurd ho (by simp)
    rw [hg]
    refine stitch_value l _ _ ?_ ?_
    · intro arr lo' hi' hm h1 h2
      obtain ⟨r', hr', he⟩ := (hmem _).mp hm
      obtain ⟨q1, q2, q3⟩ := entry_range he
      have : r = r' := huniq r hr r' hr' n hn1 hn2 (by omega) (by omega)
      subst this
      exact (entry_value he n hn1 hn2).1
    · have he : entry x (v · r) (s r) (j r) =
          some (((List.range' (s r) (j r)).map (v · r)).reverse, x - (s r + j r - 1 : ℕ), x - s r + 1) := by
        unfold entry; rw [if_neg (by omega)]
      exact ⟨_, _, _, (hmem _).mpr ⟨r, hr, he⟩, (entry_value (arr := _) he n hn1 hn2).2⟩
  · intro g lo hi ho i h1 h2 hne
    have hg : g = stitch l := by
      unfold gatherSlices at ho
      split at ho
      · simp only [Option.some.injEq, Prod.mk.injEq] at ho; exact ho.1.symm
      · exact absurd ho (by simp)
    rw [hg]
    refine stitch_zero l i ?_
    rintro arr lo' hi' hm ⟨h3, h4⟩
    obtain ⟨r', hr', he⟩ := (hmem _).mp hm
    obtain ⟨q1, q2, q3⟩ := entry_range he
    refine hne r' hr' (x - i).toNat (by omega) (by omega) (by omega)

theorem collect_two {α : Type} [Zero α] (e e' : Option (List α × ℤ × ℤ)) (l : List (Option (List α × ℤ × ℤ))) :
    collect (e :: e' :: l) = gatherSlices (e :: e' :: l) := by
  cases e <;> rfl

theorem single_pending {α : Type} [Zero α] (x : ℤ) (v : ℕ → ℕ → α) (s j : ℕ → ℕ) :
    Pending x 1 v s j (collect [entry x (v · 0) (s 0) (j 0)]) := by
  unfold collect
  cases he : entry x (v · 0) (s 0) (j 0) with
  | none =>
    constructor
    · intro _ r hr
      obtain rfl : r = 0 := by omega
      unfold entry at he
      by_contra h
      rw [if_neg h] at he
      exact absurd he (by simp)
    all_goals (intro g lo hi ho; exact absurd ho (by simp))
  | some e =>
    obtain ⟨arr, lo, hi⟩ := e
    obtain ⟨q1, q2, q3⟩ := entry_range he
    constructor
    · intro ho; exact absurd ho (by simp)
    · intro g lo' hi' ho
      obtain ⟨-, rfl, rfl⟩ : _ ∧ _ ∧ _ := by simpa using ho
      refine ⟨⟨0, by omega, q1, q2⟩, ⟨0, by omega, q1, q3⟩, ?_⟩
      intro r hr n h1 h2
      obtain rfl : r = 0 := by omega
      exact (entry_value he n h1 h2).2
    · intro g lo' hi' ho r hr n h1 h2
      simp only [Option.some.injEq, Prod.mk.injEq] at ho
      obtain ⟨rfl, -, -⟩ := ho
      obtain rfl : r = 0 := by omega
      exact (entry_value he n h1 h2).1
    · intro g lo' hi' ho i h1 h2 hne
      simp only [Option.some.injEq, Prod.mk.injEq] at ho
      obtain ⟨-, rfl, rfl⟩ := ho
      exact absurd (by omega) (hne 0 (by omega) (x - i).toNat (by omega) (by omega))

/-! ### Positions -/

variable {K : Type} [Field K] [LinearOrder K] [IsStrictOrderedRing K] [FloorRing K]

theorem dzLab_pos {b : Boost K} (hb : IsBoost b) {dt : K} (hdt : 0 < dt) : 0 < b.dzLab dt := by
  have h1 := hb.c; have h2 := hb.gamma; have h3 := hb.beta
  unfold Boost.dzLab Boost.invBeta Boost.invGamma
  positivity

theorem zLab_step (b : Boost K) (dt : K) (s : Snap K) (n : ℕ) :
    s.zLab b (n * dt) = s.zLab b 0 - n * b.dzLab dt := by
  unfold Snap.zLab Boost.dzLab; ring

theorem zBoost_step (b : Boost K) (dt : K) (s : Snap K) (n : ℕ) :
    s.zBoost b ((n + 1 : ℕ) * dt) = s.zBoost b (n * dt) - b.c * dt / b.beta := by
  unfold Snap.zBoost Boost.invBeta; push_cast; ring

/-- Cell of the plane at the iteration `n`. -/
def cell0 (b : Boost K) (dt : K) (s : Snap K) : ℤ := ⌊(s.zLab b 0 - s.zminLab) / b.dzLab dt⌋

theorem floor_cell {b : Boost K} (hb : IsBoost b) {dt : K} (hdt : 0 < dt) (s : Snap K) (n : ℕ) :
    ⌊(s.zLab b (n * dt) - s.zminLab) * (1 / b.dzLab dt)⌋ = cell0 b dt s - n := by
  have hd := dzLab_pos hb hdt
  have : (s.zLab b (n * dt) - s.zminLab) * (1 / b.dzLab dt) = (s.zLab b 0 - s.zminLab) / b.dzLab dt - n := by
    rw [zLab_step]; field_simp; ring
  rw [this, Int.floor_sub_natCast, cell0]

theorem inCell_iff {zmin dz z : K} (hd : 0 < dz) (i : ℤ) :
    InCell zmin dz i z ↔ i = ⌊(z - zmin) * (1 / dz)⌋ := by
  rw [eq_comm, Int.floor_eq_iff, mul_one_div, le_div_iff₀ hd, div_lt_iff₀ hd]
  unfold InCell
  constructor
  · rintro ⟨h1, h2⟩; exact ⟨by linarith, by linarith⟩
  · rintro ⟨h1, h2⟩; exact ⟨by linarith, by linarith⟩

theorem crosses_convex {α : Type} {b : Boost K} (hb : IsBoost b) {dt : K} (hdt : 0 < dt) (s : Snap K)
    (w : World K α) {size : ℕ} (hslow : SlowEdges b dt size w) {r : ℕ} (hr : r < size) {a m e : ℕ}
    (h1 : a ≤ m) (h2 : m ≤ e) (ha : crosses b dt s w a r) (he : crosses b dt s w e r) :
    crosses b dt s w m r := by
  have hd := dzLab_pos hb hdt
  have hmono1 : Antitone fun n : ℕ => s.zBoost b (n * dt) - w.zmin n r := by
    refine antitone_nat_of_succ_le fun n => ?_
    have := (hslow n r hr).1
    rw [zBoost_step]; linarith
  have hmono2 : Antitone fun n : ℕ => s.zBoost b (n * dt) - w.zmax n r := by
    refine antitone_nat_of_succ_le fun n => ?_
    have := (hslow n r hr).2
    rw [zBoost_step]; linarith
  have hmono3 : Antitone fun n : ℕ => s.zLab b (n * dt) := by
    refine antitone_nat_of_succ_le fun n => ?_
    rw [zLab_step, zLab_step]; push_cast; linarith
  obtain ⟨a1, a2, a3, a4⟩ := ha
  obtain ⟨e1, e2, e3, e4⟩ := he
  have q1 := hmono1 h2
  have q2 := hmono2 h1
  have q3 := hmono3 h2
  have q4 := hmono3 h1
  simp only at q1 q2 q3 q4
  exact ⟨by linarith, by linarith, lt_of_lt_of_le e3 q3, lt_of_le_of_lt q4 a4⟩

/-- Iterations of `[L, n)` recorded by a rank. -/
def iters {α : Type} (b : Boost K) (dt : K) (s : Snap K) (w : World K α) (L n r : ℕ) : List ℕ :=
  (List.range' L (n - L)).filter fun m => crosses b dt s w m r

/-- What the buffers hold of them. -/
def bufOf {α : Type} (b : Boost K) (dt : K) (s : Snap K) (w : World K α) (L n r : ℕ) : Buf α :=
  ⟨(iters b dt s w L n r).map fun m : ℕ => cell0 b dt s - m, (iters b dt s w L n r).map (w.slice · r)⟩

theorem iters_range {α : Type} {b : Boost K} (hb : IsBoost b) {dt : K} (hdt : 0 < dt) (s : Snap K)
    (w : World K α) {size : ℕ} (hslow : SlowEdges b dt size w) {r : ℕ} (hr : r < size) (L n : ℕ) :
    ∃ a j, L ≤ a ∧ a + j ≤ max L n ∧ iters b dt s w L n r = List.range' a j := by
  obtain ⟨a, j, h1, h2, h3⟩ := filter_convex (fun m => decide (crosses b dt s w m r)) (by
    intro a b' c h1 h2 h3 h4
    simp only [decide_eq_true_eq] at *
    exact crosses_convex hb hdt s w hslow hr h1 h2 h3 h4) L (n - L)
  exact ⟨a, j, h1, by omega, h3⟩

theorem mem_iters {α : Type} {b : Boost K} {dt : K} {s : Snap K} {w : World K α} {L n r m : ℕ} :
    m ∈ iters b dt s w L n r ↔ L ≤ m ∧ m < n ∧ crosses b dt s w m r := by
  unfold iters
  rw [List.mem_filter, List.mem_range'_1, decide_eq_true_eq]
  constructor
  · rintro ⟨h1, h2⟩; exact ⟨h1.1, by omega, h2⟩
  · rintro ⟨h1, h2, h3⟩; exact ⟨by omega, h3⟩

theorem iters_succ {α : Type} (b : Boost K) (dt : K) (s : Snap K) (w : World K α) {L n : ℕ} (h : L ≤ n) (r : ℕ) :
    iters b dt s w L (n + 1) r = iters b dt s w L n r ++ if crosses b dt s w n r then [n] else [] := by
  unfold iters
  have : n + 1 - L = (n - L) + 1 := by omega
  rw [this, List.range'_concat, List.filter_append, List.filter_singleton]
  have : L + 1 * (n - L) = n := by omega
  rw [this]
  by_cases hc : crosses b dt s w n r <;> simp [hc]

theorem register_ok {α : Type} {b : Boost K} (hb : IsBoost b) {dt : K} (hdt : 0 < dt) (s : Snap K)
    (w : World K α) {size : ℕ} (hslow : SlowEdges b dt size w) {r : ℕ} (hr : r < size) {L n : ℕ} (hL : L ≤ n) :
    (if crosses b dt s w n r then
      register (1 / b.dzLab dt) (s.zLab b (n * dt)) s.zminLab (w.slice n r) (bufOf b dt s w L n r)
    else bufOf b dt s w L n r) = bufOf b dt s w L (n + 1) r := by
  by_cases hc : crosses b dt s w n r
  · rw [if_pos hc]
    have hd := dzLab_pos hb hdt
    unfold bufOf register
    rw [iters_succ b dt s w hL r, if_pos hc]
    simp only [List.map_append, List.map_singleton, Buf.mk.injEq, and_true]
    congr 1
    congr 1
    obtain ⟨a, j, h1, h2, h3⟩ := iters_range hb hdt s w hslow hr L n
    rw [h3]
    cases j with
    | zero =>
      simp only [List.range'_zero, List.map_nil, List.getLast?_nil]
      rw [pyInt_of_nonneg, floor_cell hb hdt]
      have := hc.2.2.1
      exact mul_nonneg (by linarith) (by positivity)
    | succ j =>
      rw [List.range'_concat, List.map_append, List.map_singleton, List.getLast?_concat]
      simp only
      have hm : a + 1 * j ∈ iters b dt s w L n r := by rw [h3]; rw [List.mem_range'_1]; omega
      have hm' := mem_iters.mp hm
      have hlast : n - 1 ∈ iters b dt s w L n r := by
        rw [mem_iters]
        exact ⟨by omega, by omega, crosses_convex hb hdt s w hslow hr (by omega) (by omega) hm'.2.2 hc⟩
      rw [h3, List.mem_range'_1] at hlast
      omega
  · rw [if_neg hc]
    unfold bufOf
    rw [iters_succ b dt s w hL r, if_neg hc, List.append_nil]

theorem store_ok {α : Type} {b : Boost K} (hb : IsBoost b) {dt : K} (hdt : 0 < dt) (s : Snap K)
    (w : World K α) {size : ℕ} (hslow : SlowEdges b dt size w) {L n : ℕ} (hL : L ≤ n) :
    store b dt s w n ((List.range size).map (bufOf b dt s w L n)) =
      (List.range size).map (bufOf b dt s w L (n + 1)) := by
  unfold store
  refine List.ext_getElem (by simp) ?_
  intro r h1 h2
  have hr : r < size := by simpa using h2
  simp only [List.getElem_mapIdx, List.getElem_map, List.getElem_range]
  exact register_ok hb hdt s w hslow hr hL

theorem cell_range {α : Type} {b : Boost K} (hb : IsBoost b) {dt : K} (hdt : 0 < dt) {s : Snap K}
    {w : World K α} {n r : ℕ} (h : crosses b dt s w n r) :
    0 ≤ cell0 b dt s - n ∧ cell0 b dt s - n < s.Nz b dt := by
  have hd := dzLab_pos hb hdt
  obtain ⟨-, -, h3, h4⟩ := h
  rw [← floor_cell hb hdt]
  constructor
  · exact Int.floor_nonneg.mpr (mul_nonneg (by linarith) (by positivity))
  · unfold Snap.Nz
    rw [pyInt_of_nonneg (div_nonneg (by linarith) hd.le), Int.lt_add_one_iff]
    refine Int.floor_le_floor ?_
    rw [mul_one_div]
    exact div_le_div_of_nonneg_right (by linarith) hd.le

theorem mapM_compact {α : Type} (f : ℕ → Buf α) (g : ℕ → Option (List α × ℤ × ℤ)) (l : List ℕ)
    (h : ∀ r ∈ l, compact (f r) = .ok (g r)) : (l.map f).mapM compact = .ok (l.map g) := by
  induction l with
  | nil => rfl
  | cons r l ih =>
    rw [List.map_cons, List.mapM_cons, h r (by simp), ih fun r' hr' => h r' (by simp [hr'])]
    rfl

theorem entry_map {α : Type} (x : ℤ) (v : ℕ → α) (lab : α → α) (s j : ℕ) :
    (entry x v s j).map (fun y => (y.1.map lab, y.2)) = entry x (fun n => lab (v n)) s j := by
  unfold entry
  by_cases hj : j = 0
  · simp [hj]
  · simp [hj, List.map_reverse]

theorem crosses_unique {α : Type} {b : Boost K} {dt : K} {s : Snap K}
    {w : World K α} {size : ℕ} (hdis : Spec.Disjoint size w) {n r r' : ℕ} (hr : r < size) (hr' : r' < size)
    (h : crosses b dt s w n r) (h' : crosses b dt s w n r') : r = r' := by
  by_contra hne
  obtain ⟨h1, h2, -, -⟩ := h
  obtain ⟨h3, h4, -, -⟩ := h'
  rcases hdis n r r' hr hr' hne with h | h
  · linarith
  · linarith

/-- `flush_to_disk` writes the slices in memory; every part `π` of the values (e.g. one of the fields) keeps what it held in all
other cells. -/
theorem flush_parts {α : Type} [Zero α] {b : Boost K} (hb : IsBoost b) {dt : K} (hdt : 0 < dt) (s : Snap K)
    (w : World K α) (lab : α → α) {size : ℕ} (hslow : SlowEdges b dt size w) (hdis : Spec.Disjoint size w)
    {L n : ℕ} (disk : ℤ → α) :
    ∃ disk', flush lab (s.Nz b dt) ⟨(List.range size).map (bufOf b dt s w L n), disk⟩ =
        .ok ⟨(List.range size).map (bufOf b dt s w n n), disk'⟩ ∧
      ∀ {β : Type} [Zero β] (π : α → β) (_ : π 0 = 0) (S : ℕ → Prop),
        HoldsOn size S (crosses b dt s w) s.zminLab (b.dzLab dt) (fun n => s.zLab b (n * dt))
          (fun n r => π (lab (w.slice n r))) (fun i => π (disk i)) →
        HoldsOn size (fun m => S m ∨ (L ≤ m ∧ m < n)) (crosses b dt s w) s.zminLab (b.dzLab dt)
          (fun n => s.zLab b (n * dt)) (fun n r => π (lab (w.slice n r))) (fun i => π (disk' i)) := by
  have hd := dzLab_pos hb hdt
  set x := cell0 b dt s with hx
  have hcell : ∀ (i : ℤ) (m : ℕ), InCell s.zminLab (b.dzLab dt) i (s.zLab b (m * dt)) ↔ i = x - m := by
    intro i m; rw [inCell_iff hd, floor_cell hb hdt]
  have hex : ∀ r, ∃ a j, r < size → L ≤ a ∧ a + j ≤ max L n ∧ iters b dt s w L n r = List.range' a j := by
    intro r
    by_cases hr : r < size
    · obtain ⟨a, j, h⟩ := iters_range hb hdt s w hslow hr L n
      exact ⟨a, j, fun _ => h⟩
    · exact ⟨0, 0, fun h => absurd h hr⟩
  choose a j haj using hex
  have hmem : ∀ r < size, ∀ m, (a r ≤ m ∧ m < a r + j r) ↔ (L ≤ m ∧ m < n ∧ crosses b dt s w m r) := by
    intro r hr m
    rw [← mem_iters, (haj r hr).2.2, List.mem_range'_1]
  have hcomp := mapM_compact (bufOf b dt s w L n) (fun r => entry x (w.slice · r) (a r) (j r))
    (List.range size) (by
      intro r hr
      rw [List.mem_range] at hr
      unfold bufOf
      rw [(haj r hr).2.2]
      exact compact_cells x (w.slice · r) (a r) (j r))
  have hpend : ∃ o, Pending x size (fun n r => lab (w.slice n r)) a j o ∧
      flush lab (s.Nz b dt) ⟨(List.range size).map (bufOf b dt s w L n), disk⟩ =
        (writeSlices (s.Nz b dt) disk o >>= fun d =>
          .ok ⟨((List.range size).map (bufOf b dt s w L n)).map fun _ => ⟨[], []⟩, d⟩) := by
    have huniq : ∀ r < size, ∀ r' < size, ∀ m, a r ≤ m → m < a r + j r → a r' ≤ m → m < a r' + j r' → r = r' := by
      intro r hr r' hr' m h1 h2 h3 h4
      exact crosses_unique hdis hr hr' ((hmem r hr m).mp ⟨h1, h2⟩).2.2 ((hmem r' hr' m).mp ⟨h3, h4⟩).2.2
    have hmap : ((List.range size).map fun r => entry x (w.slice · r) (a r) (j r)).map
        (Option.map fun y => (y.1.map lab, y.2)) =
        (List.range size).map fun r => entry x (fun m => lab (w.slice m r)) (a r) (j r) := by
      rw [List.map_map]
      refine List.map_congr_left fun r _ => ?_
      exact entry_map x (w.slice · r) lab (a r) (j r)
    refine ⟨collect ((List.range size).map fun r => entry x (fun m => lab (w.slice m r)) (a r) (j r)), ?_, ?_⟩
    rotate_left
    · unfold flush
      simp only [hcomp, bind, Except.bind]
      rw [hmap]
      rfl
    · match size, huniq with
      | 0, huniq => exact gather_pending x 0 (fun n r => lab (w.slice n r)) a j huniq
      | 1, huniq => exact single_pending x (fun n r => lab (w.slice n r)) a j
      | k + 2, huniq =>
        have := gather_pending x (k + 2) (fun n r => lab (w.slice n r)) a j huniq
        simp only [List.range_succ_eq_map, List.map_cons] at this ⊢
        rw [collect_two]
        exact this
  obtain ⟨o, hp, hfl⟩ := hpend
  have hempty : (((List.range size).map (bufOf b dt s w L n)).map fun _ => (⟨[], []⟩ : Buf α)) =
      (List.range size).map (bufOf b dt s w n n) := by
    rw [List.map_map]
    refine List.map_congr_left fun r _ => ?_
    simp [bufOf, iters]
  rw [hfl, hempty]
  cases o with
  | none =>
    refine ⟨disk, rfl, fun π hπ S hold => ⟨?_, ?_⟩⟩
    · intro m r i hS hr hc hi
      by_cases hm : L ≤ m ∧ m < n
      · have := (hmem r hr m).mpr ⟨hm.1, hm.2, hc⟩
        rw [hp.none rfl r hr] at this
        omega
      · exact hold.written m r i (hS.resolve_right hm) hr hc hi
    · intro i h
      exact hold.empty i fun m r h1 => h m r (Or.inl h1)
  | some o =>
    obtain ⟨g, lo, hi⟩ := o
    obtain ⟨⟨r1, hr1, hj1, hlo⟩, ⟨r2, hr2, hj2, hhi⟩, hin⟩ := hp.range g lo hi rfl
    have m1 := (hmem r1 hr1 (a r1 + j r1 - 1)).mp ⟨by omega, by omega⟩
    have m2 := (hmem r2 hr2 (a r2)).mp ⟨by omega, by omega⟩
    have hw : 0 ≤ lo ∧ hi ≤ s.Nz b dt := by
      have c1 := (cell_range hb hdt m1.2.2).1
      have c2 := (cell_range hb hdt m2.2.2).2
      rw [← hx] at c1 c2
      omega
    refine ⟨fun i => if lo ≤ i ∧ i < hi then g i else disk i, ?_, fun π hπ S hold => ⟨?_, ?_⟩⟩
    · simp only [writeSlices, bind, Except.bind]
      rw [if_pos hw]
    · intro m r i hS hr hc hi'
      rw [hcell] at hi'
      simp only
      by_cases hm : L ≤ m ∧ m < n
      · have hm' := (hmem r hr m).mpr ⟨hm.1, hm.2, hc⟩
        have := hin r hr m hm'.1 hm'.2
        rw [hi', if_pos this]
        exact congrArg π (hp.value g lo hi rfl r hr m hm'.1 hm'.2)
      · have : ¬ (lo ≤ i ∧ i < hi) := by omega
        rw [if_neg this]
        exact hold.written m r i (hS.resolve_right hm) hr hc ((hcell i m).mpr hi')
    · intro i h
      simp only
      by_cases hi' : lo ≤ i ∧ i < hi
      · rw [if_pos hi']
        refine (congrArg π (hp.zero g lo hi rfl i hi'.1 hi'.2 ?_)).trans hπ
        intro r hr m h1 h2 h3
        have hm' := (hmem r hr m).mp ⟨h1, h2⟩
        exact h m r (Or.inr ⟨hm'.1, hm'.2.1⟩) hr hm'.2.2 ((hcell i m).mpr h3.symm)
      · rw [if_neg hi']
        exact hold.empty i fun m r h1 => h m r (Or.inl h1)

theorem flush_set {α : Type} [Zero α] {b : Boost K} (hb : IsBoost b) {dt : K} (hdt : 0 < dt) (s : Snap K)
    (w : World K α) (lab : α → α) {size : ℕ} (hslow : SlowEdges b dt size w) (hdis : Spec.Disjoint size w)
    {L n : ℕ} (S : ℕ → Prop) (disk : ℤ → α)
    (hold : HoldsOn size S (crosses b dt s w) s.zminLab (b.dzLab dt) (fun n => s.zLab b (n * dt))
      (fun n r => lab (w.slice n r)) disk) :
    ∃ disk', flush lab (s.Nz b dt) ⟨(List.range size).map (bufOf b dt s w L n), disk⟩ =
        .ok ⟨(List.range size).map (bufOf b dt s w n n), disk'⟩ ∧
      HoldsOn size (fun m => S m ∨ (L ≤ m ∧ m < n)) (crosses b dt s w) s.zminLab (b.dzLab dt)
        (fun n => s.zLab b (n * dt)) (fun n r => lab (w.slice n r)) disk' := by
  obtain ⟨disk', h1, h2⟩ := flush_parts (L := L) (n := n) hb hdt s w lab hslow hdis disk
  exact ⟨disk', h1, h2 id rfl S hold⟩

theorem flush_ok {α : Type} [Zero α] {b : Boost K} (hb : IsBoost b) {dt : K} (hdt : 0 < dt) (s : Snap K)
    (w : World K α) (lab : α → α) {size : ℕ} (hslow : SlowEdges b dt size w) (hdis : Spec.Disjoint size w)
    {n0 L n : ℕ} (hL : L ≤ n) (disk : ℤ → α)
    (hold : Holds size n0 L (crosses b dt s w) s.zminLab (b.dzLab dt) (fun n => s.zLab b (n * dt))
      (fun n r => lab (w.slice n r)) disk) (hn0 : n0 ≤ L) :
    ∃ disk', flush lab (s.Nz b dt) ⟨(List.range size).map (bufOf b dt s w L n), disk⟩ =
        .ok ⟨(List.range size).map (bufOf b dt s w n n), disk'⟩ ∧
      Holds size n0 n (crosses b dt s w) s.zminLab (b.dzLab dt) (fun n => s.zLab b (n * dt))
        (fun n r => lab (w.slice n r)) disk' := by
  obtain ⟨disk', h1, h2, h3⟩ := flush_set (L := L) (n := n) hb hdt s w lab hslow hdis (fun m => n0 ≤ m ∧ m < L) disk
    ⟨fun m r i h => hold.written m r i h.1 h.2, fun i h => hold.empty i fun m r ha hb => h m r ⟨ha, hb⟩⟩
  refine ⟨disk', h1, ?_, ?_⟩
  · exact fun m r i ha hb => h2 m r i (by omega)
  · exact fun i h => h3 i fun m r hm => h m r (by omega) (by omega)

end Fbpic.BackTransform
