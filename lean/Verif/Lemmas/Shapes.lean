import Verif.Model.Shapes
import Verif.Model.FieldGather
import Verif.Lemmas.Tactics
import Mathlib.Algebra.Order.Floor.Ring
import Mathlib.Algebra.BigOperators.Group.Finset.Basic
import Mathlib.Algebra.BigOperators.Fin
import Mathlib.Tactic.FinCases

/-! Lemmas on thread chunks and particle shape factors. -/

namespace Fbpic

theorem chunkIndices_getD (N n i : ℕ) (hi : i ≤ n) :
    (chunkIndices N n).getD i 0 = if i = n then N else i * (N / n) := by
  unfold chunkIndices
  simp only [List.getD_eq_getElem?_getD]
  by_cases h : i = n
  · subst h
    simp
  · rw [List.getElem?_set_ne (by omega)]
    simp [h, List.getElem?_range (show i < n + 1 by omega)]

theorem chunkOf_prefix {α : Type} (ps : List α) (n : ℕ) (hn : 0 < n) (k : ℕ) (hk : k ≤ n) :
    (List.range k).flatMap (chunkOf ps n)
      = ps.take (if k = n then ps.length else k * (ps.length / n)) := by
  have hb : ∀ i, i ≤ n → i * (ps.length / n) ≤ ps.length := fun i hi =>
    le_trans (Nat.mul_le_mul_right _ hi) (Nat.mul_div_le _ _)
  induction k with
  | zero => simp [show ¬ (0 = n) by omega]
  | succ k ih =>
    rw [List.range_succ, List.flatMap_append, ih (by omega)]
    simp only [List.flatMap_cons, List.flatMap_nil, List.append_nil]
    unfold chunkOf
    simp only [chunkIndices_getD _ _ _ (show k ≤ n by omega), chunkIndices_getD _ _ _ hk,
      show ¬ (k = n) by omega, if_false]
    rw [← List.take_add]
    congr 1
    split_ifs
    · have := hb k (by omega); omega
    · have : k * (ps.length / n) ≤ (k + 1) * (ps.length / n) :=
        Nat.mul_le_mul_right _ (by omega)
      omega

theorem chunkOf_flatMap {α : Type} (ps : List α) (n : ℕ) (hn : 0 < n) :
    (List.range n).flatMap (chunkOf ps n) = ps := by
  rw [chunkOf_prefix ps n hn n le_rfl]; simp

variable {K : Type} [Field K] [LinearOrder K] [IsStrictOrderedRing K] [FloorRing K]

/-- Position inside the cell, measured from the left grid point: between 0 and 1. -/
theorem ceil_u_bounds (p : K) :
    0 < p - ((⌈p⌉ - 1 : ℤ) : K) ∧ p - ((⌈p⌉ - 1 : ℤ) : K) ≤ 1 := by
  have h1 := Int.le_ceil p
  have h2 := Int.ceil_lt_add_one p
  push_cast
  constructor <;> linarith

theorem cube_piece_pos (u : K) (h0 : 0 ≤ u) (h1 : u ≤ 1) : 0 ≤ 3*u^3 - 6*u^2 + 4 := by
  nlinarith [mul_nonneg h0 h0, mul_nonneg (mul_nonneg h0 h0) h0, mul_nonneg h0 (sub_nonneg.2 h1)]

omit [IsStrictOrderedRing K] in
theorem Shape.sr_flip (s : Shape) (p : K) (i : ℕ) (flip b : K) :
    s.sr p i flip b
      = (if (i : ℤ) + (⌈p⌉ - (s.width / 2 : ℕ)) < 0 then flip else 1) * s.sr p i 1 b := by
  cases s <;>
    simp only [Shape.sr, srLinear, srCubic, Shape.width, mul_one, ite_self] <;>
    norm_num <;> split_ifs <;> first | ring1 | rfl | omega

end Fbpic
