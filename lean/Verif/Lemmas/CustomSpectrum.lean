import Verif.Spec.CustomSpectrum
import Mathlib.Analysis.SpecialFunctions.Complex.Circle
import Mathlib.Tactic.LinearCombination
import Mathlib.Tactic.Linarith
import Mathlib.Tactic.FieldSimp

/-!
# Lemmas: laser pulse from a measured spectrum
-/

namespace Fbpic.CustomSpectrum

open Spec
open Complex (I)

section
variable {E : Type} [AddCommGroup E] [Module ℝ E]

/-- In increasing order the interpolation is the one of the specification. -/
theorem interpSorted_spec : ∀ (l : List (ℝ × E)), l.Pairwise (fun a b => a.1 < b.1) → 2 ≤ l.length →
    Interpolates l (fun v => interpSorted v l)
  | [], _, h => by simp at h
  | [_], _, h => by simp at h
  | (x0, y0) :: (x1, y1) :: l, hs, _ => by
    have h01 : x0 < x1 := by
      have := (List.pairwise_cons.1 hs).1 (x1, y1) (by simp); exact this
    have hlt := (List.pairwise_cons.1 hs).1
    have hs' := (List.pairwise_cons.1 hs).2
    have hlt' := (List.pairwise_cons.1 hs').1
    have IH := fun h => interpSorted_spec ((x1, y1) :: l) hs' h
    have hd : x1 - x0 ≠ 0 := by linarith [h01] |> fun h : 0 < x1 - x0 => ne_of_gt h
    have key : ∀ v, x1 ≤ v → 2 ≤ ((x1, y1) :: l).length →
        interpSorted v ((x0, y0) :: (x1, y1) :: l) = interpSorted v ((x1, y1) :: l) := by
      intro v hv hlen
      rw [interpSorted, if_neg (by linarith)]
      by_cases h : v ≤ x1
      · have : v = x1 := le_antisymm h hv
        subst this
        rw [if_pos le_rfl, div_self hd, one_smul]
        have := (IH hlen).node (v, y1) (by simp)
        simp only at this
        rw [this]; abel
      · rw [if_neg h]
    rcases l with _ | ⟨p2, l⟩
    · refine ⟨?_, ?_, ?_, ?_⟩
      · intro p hp
        simp only [List.mem_cons, List.not_mem_nil, or_false] at hp
        rcases hp with rfl | rfl
        · simp [interpSorted, h01.le]
        · simp [interpSorted, not_lt.2 h01.le, div_self hd]
      · intro p hp q hq hpq hr v h1 h2
        simp only [List.mem_cons, List.not_mem_nil, or_false] at hp hq
        rcases hp with rfl | rfl <;> rcases hq with rfl | rfl
        · exact absurd hpq (lt_irrefl _)
        · simp only at h1 h2 ⊢
          rw [interpSorted, if_neg (not_lt.2 h1), if_pos h2]
        · simp only at hpq; linarith
        · exact absurd hpq (lt_irrefl _)
      · intro v hv
        have := hv (x0, y0) (by simp)
        simp only at this ⊢
        rw [interpSorted, if_pos this]
      · intro v hv
        have := hv (x1, y1) (by simp)
        simp only at this ⊢
        rw [interpSorted, if_neg (by linarith), if_neg (by linarith)]
        rfl
    · have ih := IH (by simp)
      have hge : ∀ p ∈ (x1, y1) :: p2 :: l, x1 ≤ p.1 := by
        intro p hp
        rcases List.mem_cons.1 hp with rfl | h
        · exact le_rfl
        · exact (hlt' _ h).le
      refine ⟨?_, ?_, ?_, ?_⟩
      · intro p hp
        rcases List.mem_cons.1 hp with rfl | h
        · simp [interpSorted, h01.le]
        · show interpSorted p.1 _ = _
          rw [key _ (hge _ h) (by simp)]
          exact ih.node p h
      · intro p hp q hq hpq hr v h1 h2
        rcases List.mem_cons.1 hp with rfl | h
        · rcases List.mem_cons.1 hq with rfl | h'
          · exact absurd hpq (lt_irrefl _)
          · have hq1 : q.1 = x1 := by
              rcases hr (x1, y1) (by simp) with h3 | h3
              · simp only at h3; linarith
              · exact le_antisymm h3 (hge _ h')
            have hq2 : q = (x1, y1) := by
              rcases List.mem_cons.1 h' with h4 | h4
              · exact h4
              · have := hlt' _ h4; simp only at this; linarith
            subst hq2
            simp only at h1 h2 ⊢
            rw [interpSorted, if_neg (not_lt.2 h1), if_pos h2]
        · rcases List.mem_cons.1 hq with rfl | h'
          · have := hlt _ h; simp only at this hpq; linarith
          · show interpSorted v _ = _
            rw [key _ (by linarith [hge _ h]) (by simp)]
            exact ih.between p h q h' hpq (fun r hr' => hr r (List.mem_cons_of_mem _ hr')) v h1 h2
      · intro v hv
        have := hv (x0, y0) (by simp)
        simp only at this ⊢
        rw [interpSorted, if_pos this]
      · intro v hv
        have := hv (x1, y1) (by simp)
        simp only at this
        show interpSorted v _ = _
        rw [key _ (by linarith) (by simp)]
        exact ih.above v (fun p hp => hv p (List.mem_cons_of_mem _ hp))

theorem Interpolates_congr {l l' : List (ℝ × E)} {f : ℝ → E} (h : ∀ p, p ∈ l ↔ p ∈ l') (H : Interpolates l f) : Interpolates l' f where
  node p hp := H.node p ((h p).2 hp)
  between p hp q hq hpq hr := H.between p ((h p).2 hp) q ((h q).2 hq) hpq (fun r hr' => hr r ((h r).1 hr'))
  below v hv := H.below v (fun p hp => hv p ((h p).1 hp))
  above v hv := H.above v (fun p hp => hv p ((h p).1 hp))

theorem interp1d_spec (l : List (ℝ × E)) (hl : 2 ≤ l.length) (hd : (l.map Prod.fst).Nodup) : Interpolates l (interp1d l) := by
  have hp := List.perm_insertionSort (fun a b : ℝ × E => a.1 ≤ b.1) l
  have : Std.Total (fun a b : ℝ × E => a.1 ≤ b.1) := ⟨fun a b => le_total a.1 b.1⟩
  have : IsTrans (ℝ × E) (fun a b : ℝ × E => a.1 ≤ b.1) := ⟨fun a b c h h' => le_trans h h'⟩
  have hs := List.pairwise_insertionSort (fun a b : ℝ × E => a.1 ≤ b.1) l
  have hn : ((l.insertionSort fun a b => a.1 ≤ b.1).map Prod.fst).Nodup := (hp.map _).nodup_iff.2 hd
  have hn' := List.pairwise_map.1 hn
  have hst : (l.insertionSort fun a b => a.1 ≤ b.1).Pairwise (fun a b => a.1 < b.1) :=
    (hs.and hn').imp (fun h => lt_of_le_of_ne h.1 h.2)
  have := interpSorted_spec _ hst (by rw [List.length_insertionSort]; exact hl)
  exact Interpolates_congr (fun p => hp.mem_iff) this

/-- Around every position within the range there are neighbouring points. -/
theorem neighbours (l : List (ℝ × E)) (v : ℝ) (a b : ℝ × E) (ha : a ∈ l) (hb : b ∈ l) (h1 : a.1 ≤ v) (h2 : v ≤ b.1) :
    (∃ p ∈ l, p.1 = v) ∨ ∃ p ∈ l, ∃ q ∈ l, p.1 < q.1 ∧ (∀ r ∈ l, r.1 ≤ p.1 ∨ q.1 ≤ r.1) ∧ p.1 ≤ v ∧ v ≤ q.1 := by
  classical
  by_cases hv : ∃ p ∈ l, p.1 = v
  · exact .inl hv
  · right
    push Not at hv
    let L := (l.toFinset.filter fun p => p.1 ≤ v)
    let R := (l.toFinset.filter fun p => v ≤ p.1)
    obtain ⟨p, hp, hpm⟩ := L.exists_max_image (fun p => p.1) ⟨a, by simp [L, ha, h1]⟩
    obtain ⟨q, hq, hqm⟩ := R.exists_min_image (fun p => p.1) ⟨b, by simp [R, hb, h2]⟩
    simp only [L, R, Finset.mem_filter, List.mem_toFinset] at hp hq hpm hqm
    refine ⟨p, hp.1, q, hq.1, ?_, ?_, hp.2, hq.2⟩
    · exact lt_of_lt_of_le (lt_of_le_of_ne hp.2 (hv p hp.1)) hq.2
    · intro r hr
      rcases le_total r.1 v with h | h
      · exact .inl (hpm r ⟨hr, h⟩)
      · exact .inr (hqm r ⟨hr, h⟩)

/-- A value of the interpolation is 0 or a mean of two of the given values. -/
theorem Interpolates_cases {l : List (ℝ × E)} {f : ℝ → E} (H : Interpolates l f) (v : ℝ) :
    f v = 0 ∨ (∃ p ∈ l, f v = p.2) ∨ ∃ p ∈ l, ∃ q ∈ l, ∃ s : ℝ, 0 ≤ s ∧ s ≤ 1 ∧ f v = p.2 + s • (q.2 - p.2) := by
  by_cases h1 : ∀ p ∈ l, v < p.1
  · exact .inl (H.below v h1)
  by_cases h2 : ∀ p ∈ l, p.1 < v
  · exact .inl (H.above v h2)
  push Not at h1 h2
  obtain ⟨a, ha, hav⟩ := h1
  obtain ⟨b, hb, hbv⟩ := h2
  rcases neighbours l v a b ha hb hav hbv with ⟨p, hp, rfl⟩ | ⟨p, hp, q, hq, hpq, hr, h3, h4⟩
  · exact .inr (.inl ⟨p, hp, H.node p hp⟩)
  · refine .inr (.inr ⟨p, hp, q, hq, (v - p.1) / (q.1 - p.1), ?_, ?_, H.between p hp q hq hpq hr v h3 h4⟩)
    · exact div_nonneg (by linarith) (by linarith)
    · exact (div_le_one (by linarith)).2 (by linarith)

/-- The interpolation is determined. -/
theorem Interpolates_unique {l : List (ℝ × E)} {f g : ℝ → E} (H : Interpolates l f) (G : Interpolates l g) : f = g := by
  funext v
  by_cases h1 : ∀ p ∈ l, v < p.1
  · rw [H.below v h1, G.below v h1]
  by_cases h2 : ∀ p ∈ l, p.1 < v
  · rw [H.above v h2, G.above v h2]
  push Not at h1 h2
  obtain ⟨a, ha, hav⟩ := h1
  obtain ⟨b, hb, hbv⟩ := h2
  rcases neighbours l v a b ha hb hav hbv with ⟨p, hp, rfl⟩ | ⟨p, hp, q, hq, hpq, hr, h3, h4⟩
  · rw [H.node p hp, G.node p hp]
  · rw [H.between p hp q hq hpq hr v h3 h4, G.between p hp q hq hpq hr v h3 h4]

end

/-- Values that are not negative stay so. -/
theorem Interpolates_nonneg {l : List (ℝ × ℝ)} {f : ℝ → ℝ} (H : Interpolates l f) (h : ∀ p ∈ l, 0 ≤ p.2) (v : ℝ) : 0 ≤ f v := by
  rcases Interpolates_cases H v with h0 | ⟨p, hp, h0⟩ | ⟨p, hp, q, hq, s, hs, hs', h0⟩
  · rw [h0]
  · rw [h0]; exact h p hp
  · rw [h0, smul_eq_mul]
    nlinarith [h p hp, h q hq, mul_nonneg hs (h q hq), mul_nonneg (sub_nonneg.2 hs') (h p hp)]

/-- No value of the interpolation is larger than all given ones. -/
theorem Interpolates_norm {l : List (ℝ × ℂ)} {f : ℝ → ℂ} (H : Interpolates l f) {B : ℝ} (hB : 0 ≤ B) (h : ∀ p ∈ l, ‖p.2‖ ≤ B) (v : ℝ) :
    ‖f v‖ ≤ B := by
  rcases Interpolates_cases H v with h0 | ⟨p, hp, h0⟩ | ⟨p, hp, q, hq, s, hs, hs', h0⟩
  · rw [h0, norm_zero]; exact hB
  · rw [h0]; exact h p hp
  · rw [h0]
    have : p.2 + s • (q.2 - p.2) = (1 - s) • p.2 + s • q.2 := by
      simp only [Complex.real_smul]; push_cast; ring
    rw [this]
    refine (norm_add_le _ _).trans ?_
    rw [norm_smul, norm_smul, Real.norm_of_nonneg hs, Real.norm_of_nonneg (sub_nonneg.2 hs')]
    nlinarith [h p hp, h q hq, mul_le_mul_of_nonneg_left (h q hq) hs, mul_le_mul_of_nonneg_left (h p hp) (sub_nonneg.2 hs')]

/-- Adding a linear function of the positions to the values adds it to the interpolation, within the range. -/
theorem interp_add_linear {l : List (ℝ × ℝ)} {f g : ℝ → ℝ} {τ : ℝ} (H : Interpolates l f)
    (G : Interpolates (l.map fun p => (p.1, p.2 + τ * p.1)) g) {v : ℝ} (h1 : ¬ ∀ p ∈ l, v < p.1) (h2 : ¬ ∀ p ∈ l, p.1 < v) :
    g v = f v + τ * v := by
  push Not at h1 h2
  obtain ⟨a, ha, hav⟩ := h1
  obtain ⟨b, hb, hbv⟩ := h2
  have hm : ∀ p ∈ l, (p.1, p.2 + τ * p.1) ∈ l.map fun p => (p.1, p.2 + τ * p.1) := fun p hp => List.mem_map_of_mem (f := fun p : ℝ × ℝ => (p.1, p.2 + τ * p.1)) hp
  rcases neighbours l v a b ha hb hav hbv with ⟨p, hp, rfl⟩ | ⟨p, hp, q, hq, hpq, hr, h3, h4⟩
  · rw [H.node p hp]
    exact G.node _ (hm p hp)
  · have hG := G.between _ (hm p hp) _ (hm q hq) hpq (by
      intro r hr'
      obtain ⟨r', hr'', rfl⟩ := List.mem_map.1 hr'
      exact hr r' hr'') v h3 h4
    rw [H.between p hp q hq hpq hr v h3 h4, hG]
    have : q.1 - p.1 ≠ 0 := ne_of_gt (by linarith)
    simp only [smul_eq_mul]
    field_simp
    ring

end Fbpic.CustomSpectrum
