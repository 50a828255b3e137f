import Verif.Model.NewSpecies
import Verif.Spec.NewSpecies
import Verif.Lemmas.Window
import Verif.Lemmas.Tactics

/-! # Lemmas for the loading of a new species -/

namespace Fbpic

variable {K : Type} [Field K] [LinearOrder K] [IsStrictOrderedRing K] [FloorRing K]

/-- The indices that satisfy a convex predicate are consecutive. -/
theorem filter_range_convex (P : ℕ → Prop) [DecidablePred P] (h : ∀ i j k, i ≤ j → j ≤ k → P i → P k → P j) (N : ℕ) :
    ∃ a L, (List.range N).filter P = List.range' a L ∧ (0 < L → a + L ≤ N) := by
  induction N with
  | zero => exact ⟨0, 0, rfl, by omega⟩
  | succ N ih =>
    obtain ⟨a, L, e, hL⟩ := ih
    rw [List.range_succ, List.filter_append, e]
    by_cases hN : P N
    · have e1 : List.filter P [N] = [N] := by simp [hN]
      rw [e1]
      rcases Nat.eq_zero_or_pos L with h0 | h0
      · subst h0
        exact ⟨N, 1, by simp, by omega⟩
      · have hLN := hL h0
        have hmem : a + L - 1 ∈ (List.range N).filter P := by
          rw [e, List.mem_range'_1]; omega
        have hPm : P (a + L - 1) := by simpa using (List.mem_filter.mp hmem).2
        have hPN : P (N - 1) := h _ _ _ (by omega) (by omega) hPm hN
        have : N - 1 ∈ List.range' a L := by
          rw [← e, List.mem_filter]
          exact ⟨by rw [List.mem_range]; omega, by simpa using hPN⟩
        rw [List.mem_range'_1] at this
        refine ⟨a, L + 1, ?_, by omega⟩
        rw [List.range'_concat]
        congr 2
        omega
    · exact ⟨a, L, by simp [hN], fun h => by have := hL h; omega⟩

omit [Field K] [IsStrictOrderedRing K] [FloorRing K] in
theorem foldl_min_le (l : List K) : ∀ a, l.foldl min a ≤ a ∧ ∀ x ∈ l, l.foldl min a ≤ x := by
  induction l with
  | nil => intro a; simp
  | cons b l ih =>
    intro a
    obtain ⟨h1, h2⟩ := ih (min a b)
    simp only [List.foldl_cons, List.mem_cons, forall_eq_or_imp]
    exact ⟨h1.trans (min_le_left _ _), h1.trans (min_le_right _ _), h2⟩

omit [Field K] [IsStrictOrderedRing K] [FloorRing K] in
theorem le_foldl_max (l : List K) : ∀ a, a ≤ l.foldl max a ∧ ∀ x ∈ l, x ≤ l.foldl max a := by
  induction l with
  | nil => intro a; simp
  | cons b l ih =>
    intro a
    obtain ⟨h1, h2⟩ := ih (max a b)
    simp only [List.foldl_cons, List.mem_cons, forall_eq_or_imp]
    exact ⟨(le_max_left _ _).trans h1, (le_max_right _ _).trans h1, h2⟩

omit [Field K] [IsStrictOrderedRing K] [FloorRing K] in
theorem foldl_min_mem (l : List K) : ∀ a, l.foldl min a = a ∨ l.foldl min a ∈ l := by
  induction l with
  | nil => intro a; simp
  | cons b l ih =>
    intro a
    rcases ih (min a b) with h | h
    · rcases min_choice a b with h' | h' <;> rw [List.foldl_cons, h, h'] <;> simp
    · simp [h]

omit [Field K] [IsStrictOrderedRing K] [FloorRing K] in
theorem foldl_max_mem (l : List K) : ∀ a, l.foldl max a = a ∨ l.foldl max a ∈ l := by
  induction l with
  | nil => intro a; simp
  | cons b l ih =>
    intro a
    rcases ih (max a b) with h | h
    · rcases max_choice a b with h' | h' <;> rw [List.foldl_cons, h, h'] <;> simp
    · simp [h]

/-- Sites in `L` consecutive cells. -/
theorem sites_consecutive (e dx : K) (p a : ℕ) (hp : 0 < p) : ∀ L : ℕ,
    (List.range (L * p)).map (fun (j : ℕ) => (e + (a : K) * dx) + dx / (p : K) * ((j : K) + 1 / 2))
      = Spec.sites e dx p ((List.range' a L).map fun (i : ℕ) => (i : ℤ)) := by
  have hpK : (p : K) ≠ 0 := by positivity
  intro L
  induction L with
  | zero => simp [Spec.sites]
  | succ L ih =>
    rw [Nat.succ_mul, List.range_add, List.map_append, ih, List.range'_concat]
    simp only [Spec.sites, List.map_append, List.flatMap_append, List.map_map, List.map_cons, List.map_nil, List.flatMap_cons,
      List.flatMap_nil, List.append_nil]
    congr 1
    refine List.map_congr_left fun k _ => ?_
    simp only [Function.comp]
    push_cast
    field_simp
    ring

/-- `adapt_to_grid` on an evenly spaced array: the positions that are evenly spaced between the bounds returned are the sites in the cells
whose centre is strictly between the bounds given. -/
theorem adaptToGrid_spec (e dx : K) (hdx : 0 < dx) (N : ℕ) (hN : 2 ≤ N) (lo hi : K) (p : ℕ) (hp : 0 < p) :
    ∃ lo' hi' Np, adaptToGrid ((List.range N).map fun (j : ℕ) => e + (1 / 2 + (j : K)) * dx) lo hi p = .ok (lo', hi', Np) ∧
      (List.range Np).map (fun (j : ℕ) => lo' + (hi' - lo') / (Np : K) * ((j : K) + 1 / 2)) =
        Spec.sites e dx p (Spec.cellsBetween e dx (some lo) (some hi) ((List.range N).map fun (i : ℕ) => (i : ℤ))) ∧
      Np = p * (Spec.cellsBetween e dx (some lo) (some hi) ((List.range N).map fun (i : ℕ) => (i : ℤ))).length ∧
      (0 < Np → (hi' - lo') / (Np : K) = dx / (p : K)) := by
  obtain ⟨M, rfl⟩ : ∃ M, N = M + 2 := ⟨N - 2, by omega⟩
  let X : ℕ → K := fun j => e + (1 / 2 + (j : K)) * dx
  have hX : ∀ i j, i ≤ j → X i ≤ X j := by
    intro i j h
    have : (i : K) ≤ (j : K) := by exact_mod_cast h
    have := mul_le_mul_of_nonneg_right this hdx.le
    simp only [X]; nlinarith
  let P : ℕ → Prop := fun j => lo < X j ∧ X j < hi
  obtain ⟨a, L, hcells, haL⟩ := filter_range_convex P (by
    rintro i j k hij hjk ⟨h1, _⟩ ⟨_, h4⟩
    exact ⟨h1.trans_le (hX _ _ hij), (hX _ _ hjk).trans_lt h4⟩) (M + 2)
  have hspec : Spec.cellsBetween e dx (some lo) (some hi) ((List.range (M + 2)).map fun (i : ℕ) => (i : ℤ))
      = (List.range' a L).map fun (i : ℕ) => (i : ℤ) := by
    rw [← hcells, Spec.cellsBetween, List.filter_map]
    congr 1
    refine List.filter_congr fun i _ => ?_
    simp only [Function.comp, Option.mem_def, Option.some.injEq, forall_eq', P, X]
    rw [show ((i : ℤ) : K) + 1 / 2 = 1 / 2 + (i : K) by push_cast; ring]
  rw [hspec]
  -- the array
  have hlist : (List.range (M + 2)).map X = X 0 :: X 1 :: (List.range M).map (fun j => X (j + 2)) := by
    rw [List.range_succ_eq_map, List.range_succ_eq_map]
    simp [Function.comp_def]
  have hxmin : ((List.range (M + 2)).map X).foldl min (X 0) = X 0 := by
    rcases foldl_min_mem ((List.range (M + 2)).map X) (X 0) with h | h
    · exact h
    · refine le_antisymm (foldl_min_le _ _).1 ?_
      obtain ⟨j, _, hj⟩ := List.mem_map.mp h
      rw [← hj]; exact hX _ _ (Nat.zero_le _)
  have hxmax : ∀ j < M + 2, X j ≤ ((List.range (M + 2)).map X).foldl max (X 0) := fun j hj =>
    (le_foldl_max _ _).2 _ (List.mem_map.mpr ⟨j, List.mem_range.mpr hj, rfl⟩)
  have hd : X 1 - X 0 = dx := by simp only [X]; push_cast; ring
  -- bounds after the clipping
  obtain ⟨lo1, hlo1⟩ : ∃ l, l = if lo < X 0 - 1 / 2 * dx then X 0 - 1 / 2 * dx else lo := ⟨_, rfl⟩
  obtain ⟨mx, hmx⟩ : ∃ m, m = ((List.range (M + 2)).map X).foldl max (X 0) := ⟨_, rfl⟩
  obtain ⟨hi1, hhi1⟩ : ∃ h, h = if hi > mx + (1 / 2 - ((0 : ℕ) : K)) * dx then mx + (1 / 2 - ((0 : ℕ) : K)) * dx else hi := ⟨_, rfl⟩
  have hload : ((List.range (M + 2)).map X).filter (fun y => lo1 < y ∧ y < hi1) = (List.range' a L).map X := by
    rw [← hcells, List.filter_map]
    congr 1
    refine List.filter_congr fun j hj => ?_
    have hj' := List.mem_range.mp hj
    have h1 := hX 0 j (Nat.zero_le _)
    have h2 := hxmax j hj'
    rw [← hmx] at h2
    have h3 : lo1 < X j ↔ lo < X j := by
      rw [hlo1]
      split_ifs with h
      · constructor <;> intro <;> linarith
      · exact Iff.rfl
    have h4 : X j < hi1 ↔ X j < hi := by
      rw [hhi1]
      split_ifs with h
      · simp only [Nat.cast_zero, sub_zero, gt_iff_lt] at h ⊢
        constructor <;> intro <;> linarith
      · exact Iff.rfl
    simp only [Function.comp, h3, h4, P]
  have hunf : adaptToGrid ((List.range (M + 2)).map X) lo hi p =
      if L * p > 0 then .ok (((List.range' a L).map X).foldl min (((List.range' a L).map X).headD 0) - 1 / 2 * dx,
        ((List.range' a L).map X).foldl max (((List.range' a L).map X).headD 0) + 1 / 2 * dx, L * p)
      else .ok (lo1, hi1, L * p) := by
    rw [hlist] at hload hxmin hmx ⊢
    simp only [adaptToGrid]
    rw [hxmin, ← hmx, hd, ← hlo1, ← hhi1, hload]
    simp
  rw [show (fun (j : ℕ) => e + (1 / 2 + (j : K)) * dx) = X from rfl, hunf]
  by_cases hLp : L * p > 0
  · have hL : 0 < L := Nat.pos_of_mul_pos_right hLp
    have hLN := haL hL
    obtain ⟨L', rfl⟩ : ∃ L', L = L' + 1 := ⟨L - 1, by omega⟩
    have hhead : ((List.range' a (L' + 1)).map X).headD 0 = X a := by simp [List.range'_succ]
    have hmin : ((List.range' a (L' + 1)).map X).foldl min (X a) = X a := by
      rcases foldl_min_mem ((List.range' a (L' + 1)).map X) (X a) with h | h
      · exact h
      · refine le_antisymm (foldl_min_le _ _).1 ?_
        obtain ⟨j, hj, hj'⟩ := List.mem_map.mp h
        rw [List.mem_range'_1] at hj
        rw [← hj']; exact hX _ _ hj.1
    have hmax : ((List.range' a (L' + 1)).map X).foldl max (X a) = X (a + L') := by
      refine le_antisymm ?_ ((le_foldl_max _ _).2 _ (List.mem_map.mpr ⟨a + L', by rw [List.mem_range'_1]; omega, rfl⟩))
      rcases foldl_max_mem ((List.range' a (L' + 1)).map X) (X a) with h | h
      · rw [h]; exact hX _ _ (by omega)
      · obtain ⟨j, hj, hj'⟩ := List.mem_map.mp h
        rw [List.mem_range'_1] at hj
        rw [← hj']; exact hX _ _ (by omega)
    rw [if_pos hLp, hhead, hmin, hmax]
    have hpK : (p : K) ≠ 0 := by positivity
    have hLK : ((L' : K) + 1) ≠ 0 := by positivity
    have hq : (X (a + L') + 1 / 2 * dx - (X a - 1 / 2 * dx)) / (((L' + 1) * p : ℕ) : K) = dx / (p : K) := by
      simp only [X]
      push_cast
      field_simp
      ring
    refine ⟨_, _, _, rfl, ?_, by simp [mul_comm], fun _ => hq⟩
    rw [hq, show X a - 1 / 2 * dx = e + (a : K) * dx by simp only [X]; ring]
    exact sites_consecutive e dx p a hp (L' + 1)
  · have h0 : L = 0 := by
      rcases Nat.eq_zero_or_pos L with h | h
      · exact h
      · exact absurd (Nat.mul_pos h hp) hLp
    subst h0
    rw [if_neg hLp]
    exact ⟨_, _, _, rfl, by simp [Spec.sites], by simp, by simp⟩

end Fbpic
