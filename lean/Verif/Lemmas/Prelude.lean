import Verif.Model.Prelude
import Mathlib.Tactic.Linarith

namespace Fbpic

variable {K : Type} [Field K] [LinearOrder K] [IsStrictOrderedRing K] [FloorRing K]

theorem pyInt_of_nonneg {x : K} (h : 0 ≤ x) : pyInt x = ⌊x⌋ := by simp [pyInt, h]

theorem pyInt_of_neg {x : K} (h : x < 0) : pyInt x = ⌈x⌉ := by simp [pyInt, not_le.mpr h]

/-- The truncation error is less than one. -/
theorem abs_sub_pyInt_lt (x : K) : |x - (pyInt x : K)| < 1 := by
  rw [abs_lt]
  by_cases h : 0 ≤ x
  · rw [pyInt_of_nonneg h]
    constructor
    · linarith [Int.floor_le x]
    · linarith [Int.lt_floor_add_one x]
  · rw [pyInt_of_neg (not_le.mp h)]
    constructor
    · linarith [Int.ceil_lt_add_one x]
    · linarith [Int.le_ceil x]

theorem pyInt_nonneg {x : K} (h : 0 ≤ x) : 0 ≤ pyInt x := by
  rw [pyInt_of_nonneg h]; exact Int.floor_nonneg.mpr h

theorem pyInt_nonpos {x : K} (h : x ≤ 0) : pyInt x ≤ 0 := by
  rcases lt_or_eq_of_le h with h | h
  · rw [pyInt_of_neg h]; exact Int.ceil_le.mpr (by simpa using h.le)
  · simp [h, pyInt]

theorem pyInt_neg (x : K) : pyInt (-x) = - pyInt x := by
  rcases lt_trichotomy x 0 with h | h | h
  · rw [pyInt_of_neg h, pyInt_of_nonneg (by linarith), Int.floor_neg]
  · simp [h, pyInt]
  · rw [pyInt_of_nonneg h.le, pyInt_of_neg (by linarith), Int.ceil_neg]

theorem pyInt_intCast (n : ℤ) : pyInt (n : K) = n := by
  unfold pyInt; split <;> simp

end Fbpic
