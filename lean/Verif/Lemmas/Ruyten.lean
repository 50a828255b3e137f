import Verif.Lemmas.TruncPow
import Verif.Lemmas.Riemann
import Verif.Lemmas.DepositLinear
import Verif.Model.CellVolume
import Verif.Spec.UniformPlasma

/-! # The weight of a radial cell as a continuous function of the radius, and its first moment -/

namespace Fbpic.CellVolume

open Spec

/-- B-spline centred at `a`. -/
noncomputable def sp (s : Shape) (a x : ℝ) : ℝ :=
  match s with
  | .linear => tpow 1 (a - 1) x - 2 * tpow 1 a x + tpow 1 (a + 1) x
  | .cubic => (tpow 3 (a - 2) x - 4 * tpow 3 (a - 1) x + 6 * tpow 3 a x - 4 * tpow 3 (a + 1) x
      + tpow 3 (a + 2) x) / 6

/-- `t (1-t)` on `[0,1]`, `t = x - a`. -/
noncomputable def bp (a x : ℝ) : ℝ :=
  tpow 1 a x - tpow 2 a x + tpow 1 (a + 1) x + tpow 2 (a + 1) x

theorem sp_continuous (s : Shape) (a : ℝ) : Continuous (sp s a) := by
  have h := tpow_continuous
  cases s
  · exact ((h 1 _).sub (continuous_const.mul (h 1 _))).add (h 1 _)
  · exact (((((h 3 _).sub (continuous_const.mul (h 3 _))).add (continuous_const.mul (h 3 _))).sub
      (continuous_const.mul (h 3 _))).add (h 3 _)).div_const 6

theorem bp_continuous (a : ℝ) : Continuous (bp a) := by
  have h := tpow_continuous
  exact (((h 1 _).sub (h 2 _)).add (h 1 _)).add (h 2 _)

/-- Weight given to cell `j` (`a = j + 1/2`) by a particle at `x` cells from the axis. -/
noncomputable def colW (s : Shape) (b0 b1 a x : ℝ) : ℝ :=
  sp s a x + sp s (-a) x + b1 * bp a x - b0 * bp (a - 1) x

theorem colW_continuous (s : Shape) (b0 b1 a : ℝ) : Continuous (colW s b0 b1 a) :=
  (((sp_continuous s a).add (sp_continuous s (-a))).add (continuous_const.mul (bp_continuous a))).sub
    (continuous_const.mul (bp_continuous (a - 1)))

/-- Moment of a function. -/
private noncomputable def mom (P : ℝ) (f : ℝ → ℝ) : ℝ := ∫ x in (0 : ℝ)..P, x * f x

private theorem mom_add (P : ℝ) (f g : ℝ → ℝ) (hf : Continuous f) (hg : Continuous g) :
    mom P (fun x => f x + g x) = mom P f + mom P g := by
  unfold mom
  simp only [mul_add]
  exact intervalIntegral.integral_add ((continuous_id.mul hf).intervalIntegrable _ _)
    ((continuous_id.mul hg).intervalIntegrable _ _)

private theorem mom_smul (P c : ℝ) (f : ℝ → ℝ) : mom P (fun x => c * f x) = c * mom P f := by
  unfold mom
  rw [← intervalIntegral.integral_const_mul]
  congr 1; funext x; ring

private theorem mom_sub (P : ℝ) (f g : ℝ → ℝ) (hf : Continuous f) (hg : Continuous g) :
    mom P (fun x => f x - g x) = mom P f - mom P g := by
  have := mom_add P f (fun x => (-1) * g x) hf (continuous_const.mul hg)
  rw [mom_smul] at this
  have e : (fun x => f x - g x) = fun x => f x + (-1) * g x := by funext x; ring
  rw [e, this]; ring

private theorem mom_tpow (n : ℕ) (hn : 0 < n) (b P : ℝ) (hP : 0 ≤ P) :
    mom P (tpow n b) = tmom n b P - tmom n b 0 := tpow_moment n hn b P hP

private theorem mom_bp (a P : ℝ) (ha : 0 ≤ a) (hP : a + 1 ≤ P) : mom P (bp a) = a / 6 + 1 / 12 := by
  have hP0 : 0 ≤ P := by linarith
  have : bp a = fun x => ((tpow 1 a x - tpow 2 a x) + tpow 1 (a + 1) x) + tpow 2 (a + 1) x := rfl
  rw [this, mom_add _ _ _ (by fun_prop) (by fun_prop),
    mom_add _ _ _ (by fun_prop) (by fun_prop), mom_sub _ _ _ (by fun_prop) (by fun_prop)]
  rw [mom_tpow 1 (by norm_num) _ _ hP0, mom_tpow 2 (by norm_num) _ _ hP0,
    mom_tpow 1 (by norm_num) _ _ hP0, mom_tpow 2 (by norm_num) _ _ hP0]
  unfold tmom
  rw [max_eq_left (by linarith : (0:ℝ) ≤ P - a), max_eq_left (by linarith : (0:ℝ) ≤ P - (a + 1)),
    max_eq_right (by linarith : 0 - a ≤ (0:ℝ)), max_eq_right (by linarith : 0 - (a + 1) ≤ (0:ℝ))]
  norm_num
  ring

private theorem mom_sp_lin (a P : ℝ) (hP0 : 0 ≤ P) :
    mom P (sp .linear a) = (tmom 1 (a - 1) P - tmom 1 (a - 1) 0) - 2 * (tmom 1 a P - tmom 1 a 0)
      + (tmom 1 (a + 1) P - tmom 1 (a + 1) 0) := by
  have : sp .linear a = fun x => (tpow 1 (a - 1) x - 2 * tpow 1 a x) + tpow 1 (a + 1) x := rfl
  rw [this, mom_add _ _ _ (by fun_prop) (by fun_prop), mom_sub _ _ _ (by fun_prop) (by fun_prop), mom_smul]
  simp only [mom_tpow 1 (by norm_num) _ _ hP0]

private theorem mom_sp_cub (a P : ℝ) (hP0 : 0 ≤ P) :
    mom P (sp .cubic a) = ((tmom 3 (a - 2) P - tmom 3 (a - 2) 0) - 4 * (tmom 3 (a - 1) P - tmom 3 (a - 1) 0)
      + 6 * (tmom 3 a P - tmom 3 a 0) - 4 * (tmom 3 (a + 1) P - tmom 3 (a + 1) 0)
      + (tmom 3 (a + 2) P - tmom 3 (a + 2) 0)) / 6 := by
  have : sp .cubic a = fun x => (1 / 6) * ((((tpow 3 (a - 2) x - 4 * tpow 3 (a - 1) x) + 6 * tpow 3 a x)
      - 4 * tpow 3 (a + 1) x) + tpow 3 (a + 2) x) := by
    funext x; unfold sp; ring
  rw [this, mom_smul, mom_add _ _ _ (by fun_prop) (by fun_prop),
    mom_sub _ _ _ (by fun_prop) (by fun_prop), mom_add _ _ _ (by fun_prop) (by fun_prop),
    mom_sub _ _ _ (by fun_prop) (by fun_prop), mom_smul, mom_smul, mom_smul]
  simp only [mom_tpow 3 (by norm_num) _ _ hP0]
  ring

private theorem mom_lin_far (a P : ℝ) (ha : 1 ≤ a) (hP : a + 1 ≤ P) :
    mom P (sp .linear a) + mom P (sp .linear (-a)) = a := by
  rw [mom_sp_lin _ _ (by linarith), mom_sp_lin _ _ (by linarith)]
  unfold tmom
  rw [max_eq_left (by linarith : (0:ℝ) ≤ P - (a - 1)), max_eq_left (by linarith : (0:ℝ) ≤ P - a),
    max_eq_left (by linarith : (0:ℝ) ≤ P - (a + 1)),
    max_eq_right (by linarith : 0 - (a - 1) ≤ (0:ℝ)), max_eq_right (by linarith : 0 - a ≤ (0:ℝ)),
    max_eq_right (by linarith : 0 - (a + 1) ≤ (0:ℝ)),
    max_eq_left (by linarith : (0:ℝ) ≤ P - (-a - 1)), max_eq_left (by linarith : (0:ℝ) ≤ P - -a),
    max_eq_left (by linarith : (0:ℝ) ≤ P - (-a + 1)),
    max_eq_left (by linarith : (0:ℝ) ≤ 0 - (-a - 1)), max_eq_left (by linarith : (0:ℝ) ≤ 0 - -a),
    max_eq_left (by linarith : (0:ℝ) ≤ 0 - (-a + 1))]
  norm_num
  ring

private theorem mom_lin_axis (P : ℝ) (hP : 3 / 2 ≤ P) :
    mom P (sp .linear (1 / 2)) + mom P (sp .linear (-(1 / 2))) = 13 / 24 := by
  rw [mom_sp_lin _ _ (by linarith), mom_sp_lin _ _ (by linarith)]
  unfold tmom
  norm_num
  rw [max_eq_left (by linarith : (0:ℝ) ≤ P + 1 / 2), max_eq_left (by linarith : (0:ℝ) ≤ P - 1 / 2),
    max_eq_left (by linarith : (0:ℝ) ≤ P - 3 / 2), max_eq_left (by linarith : (0:ℝ) ≤ P + 3 / 2)]
  ring

private theorem mom_cub_far (a P : ℝ) (ha : 2 ≤ a) (hP : a + 2 ≤ P) :
    mom P (sp .cubic a) + mom P (sp .cubic (-a)) = a := by
  rw [mom_sp_cub _ _ (by linarith), mom_sp_cub _ _ (by linarith)]
  unfold tmom
  rw [max_eq_left (by linarith : (0:ℝ) ≤ P - (a - 1)), max_eq_left (by linarith : (0:ℝ) ≤ P - a),
    max_eq_left (by linarith : (0:ℝ) ≤ P - (a + 1)),
    max_eq_left (by linarith : (0:ℝ) ≤ P - (a - 2)), max_eq_left (by linarith : (0:ℝ) ≤ P - (a + 2)),
    max_eq_right (by linarith : 0 - (a - 1) ≤ (0:ℝ)), max_eq_right (by linarith : 0 - a ≤ (0:ℝ)),
    max_eq_right (by linarith : 0 - (a + 1) ≤ (0:ℝ)),
    max_eq_right (by linarith : 0 - (a - 2) ≤ (0:ℝ)), max_eq_right (by linarith : 0 - (a + 2) ≤ (0:ℝ)),
    max_eq_left (by linarith : (0:ℝ) ≤ P - (-a - 1)), max_eq_left (by linarith : (0:ℝ) ≤ P - -a),
    max_eq_left (by linarith : (0:ℝ) ≤ P - (-a + 1)),
    max_eq_left (by linarith : (0:ℝ) ≤ P - (-a - 2)), max_eq_left (by linarith : (0:ℝ) ≤ P - (-a + 2)),
    max_eq_left (by linarith : (0:ℝ) ≤ 0 - (-a - 1)), max_eq_left (by linarith : (0:ℝ) ≤ 0 - -a),
    max_eq_left (by linarith : (0:ℝ) ≤ 0 - (-a + 1)),
    max_eq_left (by linarith : (0:ℝ) ≤ 0 - (-a - 2)), max_eq_left (by linarith : (0:ℝ) ≤ 0 - (-a + 2))]
  norm_num
  ring

private theorem mom_cub_one (P : ℝ) (hP : 7 / 2 ≤ P) :
    mom P (sp .cubic (3 / 2)) + mom P (sp .cubic (-(3 / 2))) = 3 / 2 + 1 / 1920 := by
  rw [mom_sp_cub _ _ (by linarith), mom_sp_cub _ _ (by linarith)]
  unfold tmom
  norm_num
  rw [max_eq_left (by linarith : (0:ℝ) ≤ P + 1 / 2), max_eq_left (by linarith : (0:ℝ) ≤ P - 1 / 2),
    max_eq_left (by linarith : (0:ℝ) ≤ P - 3 / 2), max_eq_left (by linarith : (0:ℝ) ≤ P + 3 / 2),
    max_eq_left (by linarith : (0:ℝ) ≤ P - 5 / 2), max_eq_left (by linarith : (0:ℝ) ≤ P + 5 / 2),
    max_eq_left (by linarith : (0:ℝ) ≤ P - 7 / 2), max_eq_left (by linarith : (0:ℝ) ≤ P + 7 / 2)]
  ring

private theorem mom_cub_axis (P : ℝ) (hP : 5 / 2 ≤ P) :
    mom P (sp .cubic (1 / 2)) + mom P (sp .cubic (-(1 / 2))) = 1 / 2 + 239 / 1920 := by
  rw [mom_sp_cub _ _ (by linarith), mom_sp_cub _ _ (by linarith)]
  unfold tmom
  norm_num
  rw [max_eq_left (by linarith : (0:ℝ) ≤ P + 1 / 2), max_eq_left (by linarith : (0:ℝ) ≤ P - 1 / 2),
    max_eq_left (by linarith : (0:ℝ) ≤ P - 3 / 2), max_eq_left (by linarith : (0:ℝ) ≤ P + 3 / 2),
    max_eq_left (by linarith : (0:ℝ) ≤ P - 5 / 2), max_eq_left (by linarith : (0:ℝ) ≤ P + 5 / 2)]
  ring

/-- Coefficient number `i` (without the leading zero). -/
noncomputable def coef (s : Shape) (vol : ℕ → ℝ) (dr dz : ℝ) (i : ℕ) : ℝ :=
  match s with
  | .linear => linearCoef vol dr dz i
  | .cubic => cubicCoef vol dr dz i

/-- Coefficient of the particles with `ceil(r_cell) = k`. -/
noncomputable def betaK (s : Shape) (vol : ℕ → ℝ) (dr dz : ℝ) : ℕ → ℝ
  | 0 => 0
  | k + 1 => coef s vol dr dz k

theorem ruytenCoefs_length (u : Bool) (s : Shape) (vol : ℕ → ℝ) (dr dz : ℝ) (Nr : ℕ) :
    (ruytenCoefs u s vol dr dz Nr).length = Nr + 1 := by
  simp [ruytenCoefs]

theorem ruytenCoefs_getD (s : Shape) (vol : ℕ → ℝ) (dr dz : ℝ) (Nr k : ℕ) (hk : k ≤ Nr) :
    (ruytenCoefs true s vol dr dz Nr).getD k 0 = betaK s vol dr dz k := by
  unfold ruytenCoefs
  cases k with
  | zero => rfl
  | succ k =>
    simp only [List.getD_cons_succ, betaK]
    rw [List.getD_eq_getElem?_getD, List.getElem?_map, List.getElem?_range (by omega)]
    cases s <;> rfl

/-- The first moment of the weight of cell `j` is its normalised volume. -/
theorem colW_moment (s : Shape) (vol : ℕ → ℝ) (dr dz : ℝ) (j : ℕ) (P : ℝ)
    (hP : (j : ℝ) + 1 / 2 + halfWidth s ≤ P) :
    ∫ x in (0 : ℝ)..P, x * colW s (betaK s vol dr dz j) (betaK s vol dr dz (j + 1)) ((j : ℝ) + 1 / 2) x
      = normVol vol dr dz j := by
  have hw : 1 ≤ halfWidth s := by cases s <;> simp [halfWidth]
  have hj0 : (0 : ℝ) ≤ j := by positivity
  have hmom : ∀ b0 b1 a, mom P (colW s b0 b1 a) = (mom P (sp s a) + mom P (sp s (-a))) + b1 * mom P (bp a)
      - b0 * mom P (bp (a - 1)) := by
    intro b0 b1 a
    have c1 := sp_continuous s a
    have c2 := sp_continuous s (-a)
    have c3 := bp_continuous a
    have c4 := bp_continuous (a - 1)
    have : colW s b0 b1 a = fun x => ((sp s a x + sp s (-a) x) + b1 * bp a x) - b0 * bp (a - 1) x := rfl
    rw [this, mom_sub _ _ _ (by fun_prop) (by fun_prop), mom_add _ _ _ (by fun_prop) (by fun_prop),
      mom_add _ _ _ (by fun_prop) (by fun_prop), mom_smul, mom_smul]
  change mom P (colW s _ _ _) = _
  rw [hmom, mom_bp _ _ (by linarith) (by linarith)]
  have key : betaK s vol dr dz j * mom P (bp ((j : ℝ) + 1 / 2 - 1)) = betaK s vol dr dz j * (j / 6) := by
    cases j with
    | zero => simp [betaK]
    | succ k =>
      have hk0 : (0 : ℝ) ≤ k := by positivity
      push_cast at hP ⊢
      rw [mom_bp _ _ (by linarith) (by linarith)]; ring
  rw [key]
  cases s with
  | linear =>
    simp only [halfWidth] at hP
    cases j with
    | zero =>
      simp only [betaK, coef, linearCoef, Nat.cast_zero, zero_add, Finset.sum_range_one] at hP ⊢
      rw [mom_lin_axis P (by linarith)]
      ring
    | succ k =>
      have hk0 : (0 : ℝ) ≤ k := by positivity
      push_cast at hP ⊢
      rw [mom_lin_far _ _ (by linarith) (by linarith)]
      simp only [betaK, coef, linearCoef, Finset.sum_range_succ _ (k + 1)]
      push_cast
      have h1 : (k : ℝ) + 1 ≠ 0 := by positivity
      have h2 : (k : ℝ) + 1 + 1 ≠ 0 := by positivity
      field_simp
      ring
  | cubic =>
    simp only [halfWidth] at hP
    cases j with
    | zero =>
      simp only [betaK, coef, cubicCoef, Nat.cast_zero, zero_add, if_true] at hP ⊢
      rw [mom_cub_axis P (by linarith)]
      ring
    | succ k =>
      cases k with
      | zero =>
        simp only [betaK, coef, cubicCoef, Nat.cast_zero, zero_add, if_true, Nat.cast_one] at hP ⊢
        norm_num at hP ⊢
        rw [mom_cub_one P (by linarith)]
        rw [Finset.sum_range_succ, Finset.sum_range_one]
        ring
      | succ k =>
        have hk0 : (0 : ℝ) ≤ k := by positivity
        push_cast at hP ⊢
        rw [mom_cub_far _ _ (by linarith) (by linarith)]
        simp only [betaK, coef, cubicCoef, Finset.sum_range_succ _ (k + 1 + 1), Nat.succ_ne_zero,
          if_false]
        push_cast
        have h1 : (k : ℝ) + 1 + 1 ≠ 0 := by positivity
        have h2 : (k : ℝ) + 1 + 1 + 1 ≠ 0 := by positivity
        field_simp
        ring

theorem colW_moment_axis (s : Shape) (P : ℝ) (hP : 1 / 2 + halfWidth s ≤ P) :
    ∫ x in (0 : ℝ)..P, x * colW s 0 0 (1 / 2) x
      = match s with
        | .linear => 13 / 24
        | .cubic => 1199 / 1920 := by
  have e : ∀ s, colW s 0 0 (1 / 2) = fun x => sp s (1 / 2) x + sp s (-(1 / 2)) x := by
    intro s; funext x; unfold colW; ring
  change mom P (colW s 0 0 (1 / 2)) = _
  rw [e, mom_add _ _ _ (sp_continuous s _) (sp_continuous s _)]
  cases s
  · rw [mom_lin_axis P (by simp only [halfWidth] at hP; linarith)]
  · rw [mom_cub_axis P (by simp only [halfWidth] at hP; linarith)]; norm_num

end Fbpic.CellVolume
