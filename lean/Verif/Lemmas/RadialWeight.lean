import Verif.Lemmas.Ruyten

/-! # The radial weights of the deposition kernels are `colW` -/

namespace Fbpic.CellVolume

section values

variable (a x : ℝ)

theorem lin_zero_l (h : x - a ≤ -1) : sp .linear a x = 0 := by
  unfold sp tpow
  rw [max_eq_right (by linarith : x - (a - 1) ≤ 0), max_eq_right (by linarith : x - a ≤ 0),
    max_eq_right (by linarith : x - (a + 1) ≤ 0)]; ring

theorem lin_zero_r (h : 1 ≤ x - a) : sp .linear a x = 0 := by
  unfold sp tpow
  rw [max_eq_left (by linarith : 0 ≤ x - (a - 1)), max_eq_left (by linarith : 0 ≤ x - a),
    max_eq_left (by linarith : 0 ≤ x - (a + 1))]; ring

theorem lin_pos (h0 : 0 ≤ x - a) (h1 : x - a ≤ 1) : sp .linear a x = 1 - (x - a) := by
  unfold sp tpow
  rw [max_eq_left (by linarith : 0 ≤ x - (a - 1)), max_eq_left (by linarith : 0 ≤ x - a),
    max_eq_right (by linarith : x - (a + 1) ≤ 0)]; ring

theorem lin_neg (h0 : -1 ≤ x - a) (h1 : x - a ≤ 0) : sp .linear a x = 1 + (x - a) := by
  unfold sp tpow
  rw [max_eq_left (by linarith : 0 ≤ x - (a - 1)), max_eq_right (by linarith : x - a ≤ 0),
    max_eq_right (by linarith : x - (a + 1) ≤ 0)]; ring

theorem cub_zero_l (h : x - a ≤ -2) : sp .cubic a x = 0 := by
  unfold sp tpow
  rw [max_eq_right (by linarith : x - (a - 1) ≤ 0), max_eq_right (by linarith : x - a ≤ 0),
    max_eq_right (by linarith : x - (a + 1) ≤ 0), max_eq_right (by linarith : x - (a - 2) ≤ 0),
    max_eq_right (by linarith : x - (a + 2) ≤ 0)]; ring

theorem cub_zero_r (h : 2 ≤ x - a) : sp .cubic a x = 0 := by
  unfold sp tpow
  rw [max_eq_left (by linarith : 0 ≤ x - (a - 1)), max_eq_left (by linarith : 0 ≤ x - a),
    max_eq_left (by linarith : 0 ≤ x - (a + 1)), max_eq_left (by linarith : 0 ≤ x - (a - 2)),
    max_eq_left (by linarith : 0 ≤ x - (a + 2))]; ring

theorem cub_out_l (h0 : -2 ≤ x - a) (h1 : x - a ≤ -1) : sp .cubic a x = (2 + (x - a)) ^ 3 / 6 := by
  unfold sp tpow
  rw [max_eq_right (by linarith : x - (a - 1) ≤ 0), max_eq_right (by linarith : x - a ≤ 0),
    max_eq_right (by linarith : x - (a + 1) ≤ 0), max_eq_left (by linarith : 0 ≤ x - (a - 2)),
    max_eq_right (by linarith : x - (a + 2) ≤ 0)]; ring

theorem cub_in_l (h0 : -1 ≤ x - a) (h1 : x - a ≤ 0) :
    sp .cubic a x = (4 - 6 * (x - a) ^ 2 - 3 * (x - a) ^ 3) / 6 := by
  unfold sp tpow
  rw [max_eq_left (by linarith : 0 ≤ x - (a - 1)), max_eq_right (by linarith : x - a ≤ 0),
    max_eq_right (by linarith : x - (a + 1) ≤ 0), max_eq_left (by linarith : 0 ≤ x - (a - 2)),
    max_eq_right (by linarith : x - (a + 2) ≤ 0)]; ring

theorem cub_in_r (h0 : 0 ≤ x - a) (h1 : x - a ≤ 1) :
    sp .cubic a x = (4 - 6 * (x - a) ^ 2 + 3 * (x - a) ^ 3) / 6 := by
  unfold sp tpow
  rw [max_eq_left (by linarith : 0 ≤ x - (a - 1)), max_eq_left (by linarith : 0 ≤ x - a),
    max_eq_right (by linarith : x - (a + 1) ≤ 0), max_eq_left (by linarith : 0 ≤ x - (a - 2)),
    max_eq_right (by linarith : x - (a + 2) ≤ 0)]; ring

theorem cub_out_r (h0 : 1 ≤ x - a) (h1 : x - a ≤ 2) : sp .cubic a x = (2 - (x - a)) ^ 3 / 6 := by
  unfold sp tpow
  rw [max_eq_left (by linarith : 0 ≤ x - (a - 1)), max_eq_left (by linarith : 0 ≤ x - a),
    max_eq_left (by linarith : 0 ≤ x - (a + 1)), max_eq_left (by linarith : 0 ≤ x - (a - 2)),
    max_eq_right (by linarith : x - (a + 2) ≤ 0)]; ring

theorem bp_zero_l (h : x - a ≤ 0) : bp a x = 0 := by
  unfold bp tpow
  rw [max_eq_right (by linarith : x - a ≤ 0), max_eq_right (by linarith : x - (a + 1) ≤ 0)]; ring

theorem bp_zero_r (h : 1 ≤ x - a) : bp a x = 0 := by
  unfold bp tpow
  rw [max_eq_left (by linarith : 0 ≤ x - a), max_eq_left (by linarith : 0 ≤ x - (a + 1))]; ring

theorem bp_in (h0 : 0 ≤ x - a) (h1 : x - a ≤ 1) : bp a x = (1 - (x - a)) * (x - a) := by
  unfold bp tpow
  rw [max_eq_left (by linarith : 0 ≤ x - a), max_eq_right (by linarith : x - (a + 1) ≤ 0)]; ring

end values

theorem foldCol_iff (Nr j : ℕ) (hj : j + 1 < Nr) (i : ℤ) (h0 : 0 ≤ i) (h1 : i < Nr + 4) :
    foldCol Nr (wrapIdx (Nr + 4) i) = j ↔ i - 2 = j ∨ i - 2 = -1 - j := by
  rw [wrapIdx_of_nonneg h0]
  unfold foldCol
  split_ifs <;> omega

/-- The weight that reaches column `j` of the reduced array. -/
noncomputable def radW (s : Shape) (Nr : ℕ) (flip bn rc : ℝ) (j : ℕ) : ℝ :=
  ∑ b ∈ Finset.range s.width,
    if foldCol Nr (wrapIdx (Nr + 4) (irCell s rc Nr + b)) = j then s.sr rc b flip bn else 0

theorem radW_eq (s : Shape) (Nr j k : ℕ) (hj : j + 1 < Nr) (β : ℕ → ℝ) (hβ : β 0 = 0) (rc : ℝ)
    (hrc : -(1 / 2) ≤ rc) (hk : ⌈rc⌉ = k) (hkN : k ≤ Nr) :
    radW s Nr 1 (β k) rc j = colW s (β j) (β (j + 1)) ((j : ℝ) + 1 / 2) (rc + 1 / 2) := by
  obtain ⟨u, hu⟩ : ∃ u, rc = k - 1 + u := ⟨rc - (k - 1), by ring⟩
  have hc1 : rc ≤ k := by have := Int.le_ceil rc; rw [hk] at this; exact_mod_cast this
  have hc2 : (k : ℝ) < rc + 1 := by have := Int.ceil_lt_add_one rc; rw [hk] at this; exact_mod_cast this
  have hu0 : 0 < u := by linarith
  have hu1 : u ≤ 1 := by linarith
  have hj0 : (0 : ℝ) ≤ j := by positivity
  have hk0 : (0 : ℝ) ≤ k := by positivity
  cases s with
  | linear =>
    have hir : irCell .linear rc Nr = k + 1 := by
      unfold irCell; rw [hk]; simp only; omega
    unfold radW
    simp only [Shape.width, hir, Finset.sum_range_succ, Finset.sum_range_zero, zero_add]
    rw [if_congr (foldCol_iff Nr j hj _ (by push_cast; omega) (by push_cast; omega)) rfl rfl,
      if_congr (foldCol_iff Nr j hj _ (by push_cast; omega) (by push_cast; omega)) rfl rfl]
    simp only [Shape.sr, srLinear, hk, mul_one, ite_self, zero_ne_one, if_false, if_true]
    unfold colW
    obtain h | h | h | h : k = j + 1 ∨ k = j ∨ j + 2 ≤ k ∨ k + 1 ≤ j := by omega
    · subst h
      push_cast at hu
      rw [if_pos (by first | (push_cast; omega) | norm_num), if_neg (by first | (push_cast; omega) | norm_num)]
      rw [lin_pos _ _ (by linarith) (by linarith), lin_zero_r _ _ (by linarith),
        bp_in _ _ (by linarith) (by linarith), bp_zero_r _ _ (by linarith), hu]
      push_cast; ring
    · subst h
      rcases Nat.eq_zero_or_pos k with h0 | h0
      · subst h0
        push_cast at hu
        rw [if_pos (by first | (push_cast; omega) | norm_num), if_pos (by first | (push_cast; omega) | norm_num)]
        rw [lin_neg _ _ (by push_cast; linarith) (by push_cast; linarith),
          lin_pos _ _ (by push_cast; linarith) (by push_cast; linarith),
          bp_zero_l _ _ (by push_cast; linarith), hβ, hu]
        push_cast; ring
      · have hk1 : (1 : ℝ) ≤ k := by exact_mod_cast h0
        rw [if_neg (by first | (push_cast; omega) | norm_num), if_pos (by first | (push_cast; omega) | norm_num)]
        rw [lin_neg _ _ (by linarith) (by linarith), lin_zero_r _ _ (by linarith),
          bp_zero_l _ _ (by linarith), bp_in _ _ (by linarith) (by linarith), hu]
        push_cast; ring
    · have h' : (j : ℝ) + 2 ≤ k := by exact_mod_cast h
      rw [if_neg (by first | (push_cast; omega) | norm_num), if_neg (by first | (push_cast; omega) | norm_num)]
      rw [lin_zero_r _ _ (by linarith), lin_zero_r _ _ (by linarith),
        bp_zero_r _ _ (by linarith), bp_zero_r _ _ (by linarith)]
      ring
    · have h' : (k : ℝ) + 1 ≤ j := by exact_mod_cast h
      rw [if_neg (by first | (push_cast; omega) | norm_num), if_neg (by first | (push_cast; omega) | norm_num)]
      rw [lin_zero_l _ _ (by linarith), lin_zero_r _ _ (by linarith),
        bp_zero_l _ _ (by linarith), bp_zero_l _ _ (by linarith)]
      ring
  | cubic =>
    have hir : irCell .cubic rc Nr = k := by
      unfold irCell; rw [hk]; simp only; omega
    unfold radW
    simp only [Shape.width, hir, Finset.sum_range_succ, Finset.sum_range_zero, zero_add]
    rw [if_congr (foldCol_iff Nr j hj _ (by push_cast; omega) (by push_cast; omega)) rfl rfl,
      if_congr (foldCol_iff Nr j hj _ (by push_cast; omega) (by push_cast; omega)) rfl rfl,
      if_congr (foldCol_iff Nr j hj _ (by push_cast; omega) (by push_cast; omega)) rfl rfl,
      if_congr (foldCol_iff Nr j hj _ (by push_cast; omega) (by push_cast; omega)) rfl rfl]
    simp only [Shape.sr, srCubic, hk, mul_one, ite_self, if_true, one_ne_zero, if_false, OfNat.ofNat_ne_zero,
      OfNat.ofNat_ne_one, Nat.reduceEqDiff]
    unfold colW
    obtain h | h | h | h | h | h : k = j + 2 ∨ k = j + 1 ∨ k = j ∨ k + 1 = j ∨ j + 3 ≤ k ∨ k + 2 ≤ j := by omega
    · subst h
      push_cast at hu
      rw [if_pos (by first | (push_cast; omega) | norm_num), if_neg (by first | (push_cast; omega) | norm_num), if_neg (by first | (push_cast; omega) | norm_num), if_neg (by first | (push_cast; omega) | norm_num)]
      rw [cub_out_r _ _ (by linarith) (by linarith), cub_zero_r _ _ (by linarith),
        bp_zero_r _ _ (by linarith), bp_zero_r _ _ (by linarith), hu]
      push_cast; ring
    · subst h
      push_cast at hu
      rcases Nat.eq_zero_or_pos j with h0 | h0
      · subst h0
        push_cast at hu
        rw [if_pos (by first | (push_cast; omega) | norm_num), if_pos (by first | (push_cast; omega) | norm_num), if_neg (by first | (push_cast; omega) | norm_num), if_neg (by first | (push_cast; omega) | norm_num)]
        rw [cub_in_r _ _ (by push_cast; linarith) (by push_cast; linarith),
          cub_out_r _ _ (by push_cast; linarith) (by push_cast; linarith),
          bp_in _ _ (by push_cast; linarith) (by push_cast; linarith), bp_zero_r _ _ (by push_cast; linarith), hu]
        push_cast; ring
      · have hk1 : (1 : ℝ) ≤ j := by exact_mod_cast h0
        rw [if_neg (by first | (push_cast; omega) | norm_num), if_pos (by first | (push_cast; omega) | norm_num), if_neg (by first | (push_cast; omega) | norm_num), if_neg (by first | (push_cast; omega) | norm_num)]
        rw [cub_in_r _ _ (by linarith) (by linarith), cub_zero_r _ _ (by linarith),
          bp_in _ _ (by linarith) (by linarith), bp_zero_r _ _ (by linarith), hu]
        push_cast; ring
    · subst h
      rcases Nat.eq_zero_or_pos k with h0 | h0
      · subst h0
        push_cast at hu
        rw [if_neg (by first | (push_cast; omega) | norm_num), if_pos (by first | (push_cast; omega) | norm_num), if_pos (by first | (push_cast; omega) | norm_num), if_neg (by first | (push_cast; omega) | norm_num)]
        rw [cub_in_l _ _ (by push_cast; linarith) (by push_cast; linarith),
          cub_in_r _ _ (by push_cast; linarith) (by push_cast; linarith),
          bp_zero_l _ _ (by push_cast; linarith), hβ, hu]
        push_cast; ring
      · have hk1 : (1 : ℝ) ≤ k := by exact_mod_cast h0
        rw [if_neg (by first | (push_cast; omega) | norm_num), if_neg (by first | (push_cast; omega) | norm_num), if_pos (by first | (push_cast; omega) | norm_num), if_neg (by first | (push_cast; omega) | norm_num)]
        rw [cub_in_l _ _ (by linarith) (by linarith), cub_zero_r _ _ (by linarith),
          bp_zero_l _ _ (by linarith), bp_in _ _ (by linarith) (by linarith), hu]
        push_cast; ring
    · subst h
      rcases Nat.eq_zero_or_pos k with h0 | h0
      · subst h0
        push_cast at hu
        rw [if_pos (by first | (push_cast; omega) | norm_num), if_neg (by first | (push_cast; omega) | norm_num), if_neg (by first | (push_cast; omega) | norm_num), if_pos (by first | (push_cast; omega) | norm_num)]
        rw [cub_out_l _ _ (by push_cast; linarith) (by push_cast; linarith),
          cub_out_r _ _ (by push_cast; linarith) (by push_cast; linarith),
          bp_zero_l _ _ (by push_cast; linarith), bp_zero_l _ _ (by push_cast; linarith), hu]
        push_cast; ring
      · have hk1 : (1 : ℝ) ≤ k := by exact_mod_cast h0
        rw [if_neg (by first | (push_cast; omega) | norm_num), if_neg (by first | (push_cast; omega) | norm_num), if_neg (by first | (push_cast; omega) | norm_num), if_pos (by first | (push_cast; omega) | norm_num)]
        rw [cub_out_l _ _ (by push_cast; linarith) (by push_cast; linarith), cub_zero_r _ _ (by push_cast; linarith),
          bp_zero_l _ _ (by push_cast; linarith), bp_zero_l _ _ (by push_cast; linarith), hu]
        push_cast; ring
    · have h' : (j : ℝ) + 3 ≤ k := by exact_mod_cast h
      rw [if_neg (by first | (push_cast; omega) | norm_num), if_neg (by first | (push_cast; omega) | norm_num), if_neg (by first | (push_cast; omega) | norm_num), if_neg (by first | (push_cast; omega) | norm_num)]
      rw [cub_zero_r _ _ (by linarith), cub_zero_r _ _ (by linarith),
        bp_zero_r _ _ (by linarith), bp_zero_r _ _ (by linarith)]
      ring
    · have h' : (k : ℝ) + 2 ≤ j := by exact_mod_cast h
      rw [if_neg (by first | (push_cast; omega) | norm_num), if_neg (by first | (push_cast; omega) | norm_num), if_neg (by first | (push_cast; omega) | norm_num), if_neg (by first | (push_cast; omega) | norm_num)]
      rw [cub_zero_l _ _ (by linarith), cub_zero_r _ _ (by linarith),
        bp_zero_l _ _ (by linarith), bp_zero_l _ _ (by linarith)]
      ring

end Fbpic.CellVolume
