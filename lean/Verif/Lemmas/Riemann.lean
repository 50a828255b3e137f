import Verif.Lemmas.Tactics
import Mathlib.MeasureTheory.Integral.IntervalIntegral.FundThmCalculus
import Mathlib.Topology.MetricSpace.Pseudo.Basic

/-! # Midpoint sums converge to the integral -/

namespace Fbpic

open Filter Topology

theorem midpoint_tendsto (f : ℝ → ℝ) (hf : Continuous f) (R : ℝ) (hR : 0 < R) :
    Tendsto (fun N : ℕ => ∑ i ∈ Finset.range N, R / N * f (R / N * ((i : ℝ) + 1 / 2))) atTop
      (𝓝 (∫ x in (0 : ℝ)..R, f x)) := by
  rw [Metric.tendsto_atTop]
  intro ε hε
  have huc : UniformContinuousOn f (Set.Icc 0 R) :=
    isCompact_Icc.uniformContinuousOn_of_continuous hf.continuousOn
  rw [Metric.uniformContinuousOn_iff] at huc
  obtain ⟨δ, hδ, hd⟩ := huc (ε / (2 * R)) (by positivity)
  obtain ⟨N0, hN0⟩ := exists_nat_gt (R / δ)
  refine ⟨N0 + 1, fun N hN => ?_⟩
  have hNpos : (0 : ℝ) < N := by
    have : 0 < N := by omega
    exact_mod_cast this
  set h := R / N with hh
  have hh0 : 0 < h := by positivity
  have hhδ : h < δ := by
    rw [hh, div_lt_iff₀ hNpos]
    have : (N0 : ℝ) < N := by exact_mod_cast (by omega : N0 < N)
    have : R / δ < N := lt_trans hN0 this
    rw [div_lt_iff₀ hδ] at this
    linarith
  have hsum : ∫ x in (0 : ℝ)..R, f x = ∑ i ∈ Finset.range N, ∫ x in (h * i)..(h * (i + 1)), f x := by
    have := intervalIntegral.sum_integral_adjacent_intervals (μ := MeasureTheory.volume) (f := f)
      (a := fun i : ℕ => h * i) (n := N) (fun k _ => hf.intervalIntegrable _ _)
    simp only [Nat.cast_add, Nat.cast_one, Nat.cast_zero, mul_zero] at this
    rw [this]
    congr 1
    rw [hh]; field_simp
  rw [hsum, dist_eq_norm, ← Finset.sum_sub_distrib]
  have hterm : ∀ i ∈ Finset.range N,
      ‖h * f (h * ((i : ℝ) + 1 / 2)) - ∫ x in (h * i)..(h * (i + 1)), f x‖ ≤ ε / (2 * R) * h := by
    intro i hi
    have hiN : (i : ℝ) + 1 ≤ N := by exact_mod_cast Finset.mem_range.1 hi
    have hi0 : (0 : ℝ) ≤ i := by positivity
    have hRN : h * N = R := by rw [hh]; field_simp
    have e1 : h * f (h * ((i : ℝ) + 1 / 2)) = ∫ x in (h * i)..(h * (i + 1)), f (h * ((i : ℝ) + 1 / 2)) := by
      rw [intervalIntegral.integral_const, smul_eq_mul]; ring
    rw [e1, ← intervalIntegral.integral_sub (by simp) (hf.intervalIntegrable _ _)]
    have := intervalIntegral.norm_integral_le_of_norm_le_const (a := h * i) (b := h * (i + 1))
      (f := fun x => f (h * ((i : ℝ) + 1 / 2)) - f x) (C := ε / (2 * R)) (by
        intro x hx
        rw [Set.uIoc_of_le (by nlinarith)] at hx
        have hx1 := hx.1
        have hx2 := hx.2
        rw [← dist_eq_norm]
        have b1 : 0 ≤ h * i := by positivity
        have b2 : h * (i + 1) ≤ R := by rw [← hRN]; exact mul_le_mul_of_nonneg_left hiN hh0.le
        apply le_of_lt
        apply hd
        · constructor <;> nlinarith
        · constructor <;> nlinarith
        · rw [Real.dist_eq, abs_lt]; constructor <;> nlinarith)
    refine this.trans_eq ?_
    rw [show h * ((i : ℝ) + 1) - h * i = h by ring, abs_of_pos hh0]
  have := (norm_sum_le _ _).trans (Finset.sum_le_sum hterm)
  refine lt_of_le_of_lt this ?_
  rw [Finset.sum_const, Finset.card_range, nsmul_eq_mul]
  have : (N : ℝ) * (ε / (2 * R) * h) = ε / 2 := by
    rw [hh]; field_simp
  rw [this]; linarith

end Fbpic
