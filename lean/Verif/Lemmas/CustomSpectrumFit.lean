import Verif.Lemmas.CustomSpectrumPulse
import Mathlib.Tactic.Positivity
import Mathlib.Analysis.InnerProductSpace.Projection.Minimal
import Mathlib.Analysis.InnerProductSpace.PiL2
import Mathlib.RingTheory.Polynomial.Basic

/-!
# Lemmas: the fit of the phase, the mean wavelength, shifts in time
-/

namespace Fbpic.CustomSpectrum

open Spec Polynomial
open Complex (I)

/-! ### Least squares -/

theorem mean_square (l : List (ℝ × ℝ)) (p q : ℝ[X]) :
    (l.map fun x => ((C (1 / 2) * (p + q)).eval x.1 - x.2) ^ 2).sum =
      (l.map fun x => (p.eval x.1 - x.2) ^ 2).sum / 2 + (l.map fun x => (q.eval x.1 - x.2) ^ 2).sum / 2
        - (l.map fun x => ((p - q).eval x.1) ^ 2).sum / 4 := by
  induction l with
  | nil => simp
  | cons a l ih =>
    simp only [List.map_cons, List.sum_cons, ih]
    simp only [eval_mul, eval_C, eval_add, eval_sub]
    ring

theorem bestFit_unique {l : List (ℝ × ℝ)} (hn : (l.map Prod.fst).Nodup) (h5 : 5 ≤ l.length) {p q : ℝ[X]} (hp : BestFit l p)
    (hq : BestFit l q) : p = q := by
  have hdeg : (C (1 / 2 : ℝ) * (p + q)).natDegree ≤ 4 :=
    (natDegree_C_mul_le _ _).trans ((natDegree_add_le _ _).trans (max_le hp.degree hq.degree))
  have h1 := hp.least _ hdeg
  have h2 := hq.least _ hp.degree
  have h3 := hp.least _ hq.degree
  rw [mean_square] at h1
  have h4 : (l.map fun x => ((p - q).eval x.1) ^ 2).sum ≤ 0 := by linarith
  have h6 : ∀ x ∈ l, (p - q).eval x.1 = 0 := by
    intro x hx
    have hle : ((p - q).eval x.1) ^ 2 ≤ (l.map fun x => ((p - q).eval x.1) ^ 2).sum :=
      List.single_le_sum (l := l.map fun x => ((p - q).eval x.1) ^ 2) (by
        intro y hy; obtain ⟨w, _, rfl⟩ := List.mem_map.1 hy; positivity) _ (List.mem_map_of_mem (f := fun x : ℝ × ℝ => ((p - q).eval x.1) ^ 2) hx)
    have := sq_nonneg ((p - q).eval x.1)
    exact pow_eq_zero_iff (two_ne_zero) |>.1 (le_antisymm (hle.trans h4) this)
  have h7 := eq_zero_of_natDegree_lt_card_of_eval_eq_zero' (p - q) (l.map Prod.fst).toFinset (by
    intro x hx
    obtain ⟨y, hy, rfl⟩ := List.mem_map.1 (List.mem_toFinset.1 hx)
    exact h6 y hy) (by
    rw [List.toFinset_card_of_nodup hn, List.length_map]
    have := (natDegree_sub_le p q).trans (max_le hp.degree hq.degree)
    omega)
  exact sub_eq_zero.1 h7

theorem deg_linear (τ : ℝ) : (C τ * X : ℝ[X]).natDegree ≤ 4 :=
  (natDegree_C_mul_le _ _).trans (natDegree_X_le.trans (by norm_num))

theorem bestFit_shift {l : List (ℝ × ℝ)} {p : ℝ[X]} (hp : BestFit l p) (τ : ℝ) :
    BestFit (l.map fun x => (x.1, x.2 + τ * x.1)) (p + C τ * X) where
  degree := (natDegree_add_le _ _).trans (max_le hp.degree (deg_linear τ))
  least q hq := by
    have := hp.least (q - C τ * X) ((natDegree_sub_le _ _).trans (max_le hq (deg_linear τ)))
    rw [List.map_map, List.map_map]
    simp only [Function.comp_def, eval_add, eval_sub, eval_mul, eval_C, eval_X] at this ⊢
    convert this using 4 <;> ring

theorem fit_shift {fit : List (ℝ × ℝ) → ℝ} (hf : FitsLinear fit) {l : List (ℝ × ℝ)} (hn : (l.map Prod.fst).Nodup) (h5 : 5 ≤ l.length)
    (τ : ℝ) : fit (l.map fun x => (x.1, x.2 + τ * x.1)) = fit l + τ := by
  obtain ⟨p, hp, e⟩ := hf l
  obtain ⟨q, hq, e'⟩ := hf (l.map fun x => (x.1, x.2 + τ * x.1))
  have hn' : ((l.map fun x => (x.1, x.2 + τ * x.1)).map Prod.fst).Nodup := by
    rw [List.map_map]; exact hn
  have := bestFit_unique hn' (by simpa using h5) hq (bestFit_shift hp τ)
  rw [e, e', this]
  simp

theorem fit_poly {fit : List (ℝ × ℝ) → ℝ} (hf : FitsLinear fit) {l : List (ℝ × ℝ)} (hn : (l.map Prod.fst).Nodup) (h5 : 5 ≤ l.length)
    {p : ℝ[X]} (hp : p.natDegree ≤ 4) (he : ∀ x ∈ l, x.2 = p.eval x.1) : fit l = p.coeff 1 := by
  obtain ⟨q, hq, e⟩ := hf l
  have hb : BestFit l p := by
    refine ⟨hp, fun r _ => ?_⟩
    have h0 : (l.map fun x => (p.eval x.1 - x.2) ^ 2) = l.map fun _ => (0 : ℝ) :=
      List.map_congr_left fun x hx => by rw [he x hx]; ring
    rw [h0]
    simp only [List.map_const', List.sum_replicate, smul_zero]
    exact List.sum_nonneg (by intro y hy; obtain ⟨w, _, rfl⟩ := List.mem_map.1 hy; positivity)
  rw [e, bestFit_unique hn h5 hq hb]

/-- There is a best fit. -/
theorem exists_bestFit (l : List (ℝ × ℝ)) : ∃ p, BestFit l p := by
  let V := EuclideanSpace ℝ (Fin l.length)
  let T : degreeLE ℝ 4 →ₗ[ℝ] V :=
    { toFun := fun p => WithLp.toLp 2 fun i => p.1.eval (l[i]).1
      map_add' := fun p q => by ext i; exact eval_add
      map_smul' := fun a p => by ext i; show eval _ (a • p.1) = a * eval _ p.1; rw [smul_eq_C_mul, eval_mul, eval_C] }
  let u : V := WithLp.toLp 2 fun i => (l[i]).2
  obtain ⟨v, hv, hmin⟩ := Submodule.exists_norm_eq_iInf_of_complete_subspace (LinearMap.range T) (Submodule.complete_of_finiteDimensional _) u
  obtain ⟨p, rfl⟩ := hv
  have hnorm : ∀ q : degreeLE ℝ 4, ‖u - T q‖ ^ 2 = (l.map fun x => (q.1.eval x.1 - x.2) ^ 2).sum := by
    intro q
    rw [EuclideanSpace.norm_sq_eq, ← Fin.sum_univ_fun_getElem]
    refine Finset.sum_congr rfl fun i _ => ?_
    rw [Real.norm_eq_abs, sq_abs]
    show ((l[i]).2 - q.1.eval (l[i]).1) ^ 2 = _
    simp only [Fin.getElem_fin]
    ring
  have hdeg : ∀ q : ℝ[X], q.natDegree ≤ 4 ↔ q ∈ degreeLE ℝ 4 := fun q => by
    rw [mem_degreeLE, natDegree_le_iff_degree_le]; rfl
  refine ⟨p.1, (hdeg _).2 p.2, fun q hq => ?_⟩
  rw [← hnorm p, ← hnorm ⟨q, (hdeg q).1 hq⟩, hmin]
  have hb : BddBelow (Set.range fun w : LinearMap.range T => ‖u - w‖) := ⟨0, by rintro _ ⟨w, rfl⟩; exact norm_nonneg _⟩
  have h0 : 0 ≤ ⨅ w : LinearMap.range T, ‖u - w‖ := Real.iInf_nonneg fun w => norm_nonneg _
  exact pow_le_pow_left₀ h0 (ciInf_le hb ⟨T ⟨q, (hdeg q).1 hq⟩, LinearMap.mem_range_self _ _⟩) 2

/-! ### The mean wavelength -/

theorem trapz_mean (σ a b : ℝ) : ∀ d : List Pt, d.Pairwise (fun p q => 0 < σ * (q.lam - p.lam)) → (∀ p ∈ d, 0 ≤ p.inten) →
    (∀ p ∈ d, a ≤ p.lam ∧ p.lam ≤ b) →
    0 ≤ σ * trapz (d.map fun p => (p.lam, p.inten)) ∧
      a * (σ * trapz (d.map fun p => (p.lam, p.inten))) ≤ σ * trapz (d.map fun p => (p.lam, p.lam * p.inten)) ∧
      σ * trapz (d.map fun p => (p.lam, p.lam * p.inten)) ≤ b * (σ * trapz (d.map fun p => (p.lam, p.inten)))
  | [], _, _, _ => by simp [trapz]
  | [_], _, _, _ => by simp [trapz]
  | p :: q :: d, hs, hi, hab => by
    obtain ⟨h1, h2, h3⟩ := trapz_mean σ a b (q :: d) (List.pairwise_cons.1 hs).2 (fun r hr => hi r (List.mem_cons_of_mem _ hr))
      (fun r hr => hab r (List.mem_cons_of_mem _ hr))
    have hpq := (List.pairwise_cons.1 hs).1 q (by simp)
    have hip := hi p (by simp)
    have hiq := hi q (by simp)
    obtain ⟨hap, hbp⟩ := hab p (by simp)
    obtain ⟨haq, hbq⟩ := hab q (by simp)
    simp only [List.map_cons] at h1 h2 h3 ⊢
    simp only [trapz]
    have t1 := mul_nonneg hpq.le hip
    have t2 := mul_nonneg hpq.le hiq
    refine ⟨?_, ?_, ?_⟩
    · nlinarith
    · nlinarith [mul_nonneg t1 (sub_nonneg.2 hap), mul_nonneg t2 (sub_nonneg.2 haq)]
    · nlinarith [mul_nonneg t1 (sub_nonneg.2 hbp), mul_nonneg t2 (sub_nonneg.2 hbq)]

theorem trapz_pos (σ : ℝ) : ∀ d : List Pt, d.Pairwise (fun p q => 0 < σ * (q.lam - p.lam)) → (∀ p ∈ d, 0 ≤ p.inten) → 2 ≤ d.length →
    (∃ p ∈ d, 0 < p.inten) → 0 < σ * trapz (d.map fun p => (p.lam, p.inten))
  | [], _, _, h, _ => by simp at h
  | [_], _, _, h, _ => by simp at h
  | p :: q :: d, hs, hi, _, hex => by
    have hs' := (List.pairwise_cons.1 hs).2
    have hi' : ∀ r ∈ q :: d, 0 ≤ r.inten := fun r hr => hi r (List.mem_cons_of_mem _ hr)
    have hpq := (List.pairwise_cons.1 hs).1 q (by simp)
    have hip := hi p (by simp)
    have hiq := hi q (by simp)
    have IH := fun h h' => trapz_pos σ (q :: d) hs' hi' h h'
    have hnn : 0 ≤ σ * trapz ((q :: d).map fun p => (p.lam, p.inten)) := by
      have hm : ∃ a b : ℝ, ∀ r ∈ q :: d, a ≤ r.lam ∧ r.lam ≤ b := by
        clear IH hex hiq hip hpq hi' hs' hi hs
        induction q :: d with
        | nil => exact ⟨0, 0, by simp⟩
        | cons r l ih =>
          obtain ⟨a, b, h⟩ := ih
          refine ⟨min a r.lam, max b r.lam, ?_⟩
          intro x hx
          rcases List.mem_cons.1 hx with rfl | h'
          · exact ⟨min_le_right _ _, le_max_right _ _⟩
          · exact ⟨(min_le_left _ _).trans (h x h').1, (h x h').2.trans (le_max_left _ _)⟩
      obtain ⟨a, b, h⟩ := hm
      exact (trapz_mean σ a b _ hs' hi' h).1
    simp only [List.map_cons] at hnn IH ⊢
    simp only [trapz]
    by_cases h0 : 0 < p.inten + q.inten
    · nlinarith [mul_pos hpq h0]
    · have hp0 : p.inten = 0 := by linarith
      have hq0 : q.inten = 0 := by linarith
      obtain ⟨r, hr, hr0⟩ := hex
      have hrd : r ∈ d := by
        rcases List.mem_cons.1 hr with rfl | hr
        · linarith
        · rcases List.mem_cons.1 hr with rfl | hr
          · linarith
          · exact hr
      have := IH (by
        have := List.length_pos_of_mem hrd
        simp only [List.length_cons]; omega) ⟨r, List.mem_cons_of_mem _ hrd, hr0⟩
      rw [hq0] at this
      rw [hp0, hq0]
      simpa using this

/-! ### Shifts -/

theorem pulse_period (c : ℝ) {lam0 : ℝ} (hc : c ≠ 0) (hl : lam0 ≠ 0) (s φ : ℝ → ℝ) (k q : ℤ) :
    pulse c lam0 s φ ((k + 1000000 * q : ℤ) * (lam0 / 1000)) = pulse c lam0 s φ (k * (lam0 / 1000)) := by
  unfold pulse
  refine Finset.sum_congr rfl fun j _ => ?_
  dsimp only
  refine congrArg _ ?_
  rw [Complex.exp_eq_exp_iff_exists_int]
  refine ⟨j * q, ?_⟩
  have e : 2 * Real.pi * c / lam0 * (j / 1000) * ((k + 1000000 * q : ℤ) * (lam0 / 1000)) / c =
      2 * Real.pi * c / lam0 * (j / 1000) * (k * (lam0 / 1000)) / c + 2 * Real.pi * j * q := by
    push_cast
    field_simp
    ring
  rw [e]
  push_cast
  ring

theorem pulse_linear {c lam0 : ℝ} (hc : 0 < c) {d : List Pt} (hd : GoodSpectrum d) (g : Pt → ℝ) (τ x : ℝ) :
    pulse c lam0 (interp1d (d.map fun p => (freq c p, p.inten * p.lam ^ 2))) (interp1d (d.map fun p => (freq c p, g p + τ * freq c p))) x =
      pulse c lam0 (interp1d (d.map fun p => (freq c p, p.inten * p.lam ^ 2))) (interp1d (d.map fun p => (freq c p, g p))) (x + c * τ) := by
  unfold pulse
  refine Finset.sum_congr rfl fun j _ => ?_
  dsimp only
  generalize 2 * Real.pi * c / lam0 * (j / 1000) = w
  have hfst : ∀ (f : Pt → ℝ) (P : ℝ → Prop), (∀ p ∈ d.map fun p => (freq c p, f p), P p.1) ↔ ∀ p ∈ d, P (freq c p) := by
    intro f P
    constructor
    · intro h p hp; exact h _ (List.mem_map_of_mem (f := fun p => (freq c p, f p)) hp)
    · intro h p hp; obtain ⟨q, hq, rfl⟩ := List.mem_map.1 hp; exact h q hq
  by_cases h1 : ∀ p ∈ d, w < freq c p
  · rw [(interp_data hc hd fun p => p.inten * p.lam ^ 2).below w ((hfst _ (fun y => w < y)).2 h1)]
    simp
  by_cases h2 : ∀ p ∈ d, freq c p < w
  · rw [(interp_data hc hd fun p => p.inten * p.lam ^ 2).above w ((hfst _ (fun y => y < w)).2 h2)]
    simp
  have G := interp_data hc hd fun p => g p + τ * freq c p
  have e : (d.map fun p => (freq c p, g p + τ * freq c p)) = (d.map fun p => (freq c p, g p)).map fun x => (x.1, x.2 + τ * x.1) := by
    rw [List.map_map]; rfl
  rw [e] at G ⊢
  rw [interp_add_linear (interp_data hc hd g) G (fun h => h1 ((hfst g (fun y => w < y)).1 h)) (fun h => h2 ((hfst g (fun y => y < w)).1 h))]
  refine congrArg _ (congrArg _ (congrArg _ (congrArg _ ?_)))
  field_simp
  ring

/-- A pulse whose values are those of another one at a distance of `m` points is the other one, moved. -/
theorem isPulse_shift {c lam0 : ℝ} (hc : c ≠ 0) (hl : lam0 ≠ 0) {s φ φ' : ℝ → ℝ} {M M' : ℝ} {F F' : ℝ → ℂ} (H : IsPulse c lam0 s φ M F)
    (H' : IsPulse c lam0 s φ' M' F') (m : ℤ) (h : ∀ k : ℤ, pulse c lam0 s φ' (k * (lam0 / 1000)) = pulse c lam0 s φ ((k + m : ℤ) * (lam0 / 1000))) :
    M' = M ∧ ∀ k : ℤ, -500000 < k → k ≤ 500000 → -500000 < k + m → k + m ≤ 500000 →
      F' (k * (lam0 / 1000)) = F ((k + m : ℤ) * (lam0 / 1000)) := by
  have red : ∀ k : ℤ, ∃ k' q : ℤ, -500000 < k' ∧ k' ≤ 500000 ∧ k = k' + 1000000 * q := by
    intro k
    refine ⟨(k + 499999) % 1000000 - 499999, (k + 499999) / 1000000, ?_, ?_, ?_⟩ <;> omega
  have hM : M' = M := by
    refine le_antisymm ?_ ?_
    · obtain ⟨k, _, _, e⟩ := H'.attained
      obtain ⟨k', q, h1, h2, e'⟩ := red (k + m)
      rw [← e, h, e', pulse_period c hc hl]
      exact H.bound k' h1 h2
    · obtain ⟨k, _, _, e⟩ := H.attained
      obtain ⟨k', q, h1, h2, e'⟩ := red (k - m)
      have e2 : k = (k' + m) + 1000000 * q := by omega
      rw [← e, e2, pulse_period c hc hl, ← h]
      exact H'.bound k' h1 h2
  refine ⟨hM, fun k h1 h2 h3 h4 => ?_⟩
  rw [H'.node k h1 h2, H.node _ h3 h4, h, hM]

/-- The pulse is bounded by its values at the points of the grid. -/
theorem isPulse_norm {c lam0 : ℝ} (hl : 0 < lam0) {s φ : ℝ → ℝ} {M : ℝ} {F : ℝ → ℂ} (hF : IsPulse c lam0 s φ M F) {B : ℝ} (hB : 0 ≤ B)
    (hnode : ∀ k : ℤ, -500000 < k → k ≤ 500000 → ‖F (k * (lam0 / 1000))‖ ≤ B) (x : ℝ) : ‖F x‖ ≤ B := by
  have hD : 0 < lam0 / 1000 := by positivity
  by_cases hx : x < -499999 * (lam0 / 1000) ∨ 500000 * (lam0 / 1000) < x
  · rw [hF.outside x hx, norm_zero]; exact hB
  push Not at hx
  have hfl := Int.floor_le (x / (lam0 / 1000))
  have hfl' := Int.lt_floor_add_one (x / (lam0 / 1000))
  have hlo : (-499999 : ℤ) ≤ ⌊x / (lam0 / 1000)⌋ := Int.le_floor.2 (by push_cast; rw [le_div_iff₀ hD]; exact hx.1)
  have hx' : x = (x / (lam0 / 1000)) * (lam0 / 1000) := by field_simp
  generalize ⌊x / (lam0 / 1000)⌋ = k at *
  have hhi : (k : ℝ) ≤ 500000 := hfl.trans (by rw [div_le_iff₀ hD]; exact hx.2)
  have hhi' : k ≤ 500000 := by exact_mod_cast hhi
  rcases eq_or_lt_of_le hhi' with hk5 | hk5
  · have : x = (k : ℝ) * (lam0 / 1000) := by
      refine le_antisymm ?_ ?_
      · rw [hk5]; push_cast; exact hx.2
      · rw [hx']; exact mul_le_mul_of_nonneg_right hfl hD.le
    rw [this]
    exact hnode k (by omega) hhi'
  · have e : x = (k + (x / (lam0 / 1000) - k)) * (lam0 / 1000) := by rw [add_sub_cancel]; exact hx'
    have hr0 : 0 ≤ x / (lam0 / 1000) - k := by linarith
    have hr1 : x / (lam0 / 1000) - k ≤ 1 := by linarith
    have h1 := hnode k (by omega) hhi'
    have h2 := hnode (k + 1) (by omega) (by omega)
    have hb := hF.between k (by omega) hk5 _ hr0 hr1
    rw [← e] at hb
    rw [hb]
    generalize x / (lam0 / 1000) - k = r at *
    push_cast at h2
    refine (norm_add_le _ _).trans ?_
    rw [norm_mul, norm_mul, Complex.norm_real, Complex.norm_real, Real.norm_of_nonneg hr0, Real.norm_of_nonneg (sub_nonneg.2 hr1)]
    nlinarith [mul_le_mul_of_nonneg_left h1 (sub_nonneg.2 hr1), mul_le_mul_of_nonneg_left h2 hr0]

end Fbpic.CustomSpectrum
