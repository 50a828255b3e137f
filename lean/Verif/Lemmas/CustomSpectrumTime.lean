import Verif.Lemmas.CustomSpectrum

/-!
# Lemmas: the grid in time and the Fourier transform of a measured spectrum
-/

namespace Fbpic.CustomSpectrum

open Spec
open Complex (I)

variable {c lam0 : ℝ}

theorem numTimes_eq (hc : 0 < c) (hl : 0 < lam0) : numTimes c lam0 = 1000000 := by
  have h : timeWindow c lam0 / timeStep c lam0 = ((1000000 : ℤ) : ℝ) := by
    unfold timeWindow timeStep
    field_simp
    norm_num
  unfold numTimes
  rw [h, round_intCast]
  rfl

theorem ctime_eq (hc : 0 < c) (hl : 0 < lam0) (n : ℕ) : c * time c lam0 n = (n - 500000 : ℝ) * (lam0 / 1000) := by
  unfold time timeWindow timeStep
  field_simp
  ring

theorem omega_low (hc : 0 < c) (hl : 0 < lam0) {j : ℕ} (hj : j < 500000) :
    omega c lam0 j = 2 * Real.pi * c / lam0 * (j / 1000) := by
  unfold omega fftfreq
  rw [numTimes_eq hc hl, if_pos (by omega)]
  unfold timeStep
  push_cast
  field_simp
  ring

theorem omega_high (hc : 0 < c) (hl : 0 < lam0) {j : ℕ} (hj : 500000 ≤ j) (hj' : j < 1000000) : omega c lam0 j < 0 := by
  unfold omega fftfreq
  rw [numTimes_eq hc hl, if_neg (by omega)]
  unfold timeStep
  have : (j : ℝ) < 1000000 := by exact_mod_cast hj'
  refine mul_neg_of_pos_of_neg (by positivity) (div_neg_of_neg_of_pos ?_ (by positivity))
  push_cast
  linarith

/-- The field before it is divided by its largest value. -/
noncomputable def rawField (c lam0 : ℝ) (d : List Pt) (n : ℕ) : ℂ :=
  fftshift (numTimes c lam0) (fft (numTimes c lam0) fun j => spectralField c d (omega c lam0 j)) n

theorem freq_pos (hc : 0 < c) {p : Pt} (hp : 0 < p.lam) : 0 < freq c p := by
  unfold freq; positivity

theorem nodup_freq (hc : 0 < c) {d : List Pt} (hd : GoodSpectrum d) (g : Pt → ℝ) :
    ((d.map fun p => (freq c p, g p)).map Prod.fst).Nodup := by
  have h := hd.distinct
  rw [List.map_map]
  have e : d.map (Prod.fst ∘ fun p => (freq c p, g p)) = (d.map Pt.lam).map fun x => 2 * Real.pi * c / x := by
    rw [List.map_map]; rfl
  rw [e]
  refine List.Nodup.map_on ?_ h
  intro x hx y hy hxy
  obtain ⟨p, hp, rfl⟩ := List.mem_map.1 hx
  obtain ⟨q, hq, rfl⟩ := List.mem_map.1 hy
  have h1 := hd.pos p hp
  have h2 := hd.pos q hq
  have h3 : 0 < 2 * Real.pi * c := by positivity
  rw [div_eq_div_iff h1.ne' h2.ne'] at hxy
  exact (mul_left_cancel₀ h3.ne' hxy).symm

theorem interp_data (hc : 0 < c) {d : List Pt} (hd : GoodSpectrum d) (g : Pt → ℝ) :
    Interpolates (d.map fun p => (freq c p, g p)) (interp1d (d.map fun p => (freq c p, g p))) :=
  interp1d_spec _ (by simpa using hd.two) (nodup_freq hc hd g)

theorem interp_neg (hc : 0 < c) {d : List Pt} (hd : GoodSpectrum d) (g : Pt → ℝ) {w : ℝ} (hw : w < 0) :
    interp1d (d.map fun p => (freq c p, g p)) w = 0 := by
  refine (interp_data hc hd g).below w ?_
  intro p hp
  obtain ⟨q, hq, rfl⟩ := List.mem_map.1 hp
  exact hw.trans (freq_pos hc (hd.pos q hq))

theorem exp_shift (N h j m n : ℕ) (k : ℤ) (q : ℕ) (hN : N = 2 * h) (h0 : N ≠ 0) (h1 : n + h = m + N * q) (h2 : (n : ℤ) = h - k) (a : ℝ) :
    Complex.exp (1 * I * (a : ℂ)) * Complex.exp (-(2 * Real.pi * I * (j * m / N : ℂ))) =
      Complex.exp (I * (a + 2 * Real.pi * j * k / N : ℝ)) := by
  rw [← Complex.exp_add, Complex.exp_eq_exp_iff_exists_int]
  refine ⟨j * ((q : ℤ) - 1), ?_⟩
  have h3 : (k : ℂ) = N - m - N * q := by
    have : (k : ℤ) = N - m - N * q := by
      have e : (n : ℤ) + h = m + N * q := by exact_mod_cast h1
      have e' : (N : ℤ) = 2 * h := by exact_mod_cast hN
      linarith
    exact_mod_cast congrArg (Int.cast : ℤ → ℂ) this
  have hn : (N : ℂ) ≠ 0 := by exact_mod_cast h0
  push_cast
  rw [h3]
  field_simp
  ring

/-- The field at a point of the grid is the sum of the plane waves. -/
theorem rawField_eq (hc : 0 < c) (hl : 0 < lam0) {d : List Pt} (hd : GoodSpectrum d) {n : ℕ} {k : ℤ} (h : (n : ℤ) = 500000 - k) :
    rawField c lam0 d n = pulse c lam0 (interp1d (d.map fun p => (freq c p, p.inten * p.lam ^ 2)))
      (interp1d (d.map fun p => (freq c p, p.phase))) (k * (lam0 / 1000)) := by
  unfold rawField fftshift fft pulse
  rw [numTimes_eq hc hl]
  have hsub : Finset.range 500000 ⊆ Finset.range 1000000 := Finset.range_subset_range.2 (by norm_num)
  rw [← Finset.sum_subset hsub]
  · refine Finset.sum_congr rfl fun j hj => ?_
    show spectralField c d (omega c lam0 j) * _ = _
    rw [omega_low hc hl (Finset.mem_range.1 hj)]
    unfold spectralField
    rw [mul_assoc]
    refine congrArg _ ?_
    rw [exp_shift 1000000 500000 j ((n + (1000000 - 1000000 / 2)) % 1000000) n k ((n + (1000000 - 1000000 / 2)) / 1000000) (by norm_num)
      (by norm_num) (by omega) (by rw [h]; norm_num)]
    refine congrArg _ (congrArg _ (congrArg _ ?_))
    rw [Nat.cast_ofNat]
    have : c ≠ 0 := hc.ne'
    field_simp
    ring
  · intro j hj hj'
    have hj1 := Finset.mem_range.1 hj
    have hj2 : 500000 ≤ j := by simpa using hj'
    show spectralField c d (omega c lam0 j) * _ = _
    unfold spectralField
    rw [interp_neg hc hd (fun p => p.inten * p.lam ^ 2) (omega_high hc hl hj2 hj1), Real.sqrt_zero, Complex.ofReal_zero, zero_mul, zero_mul]

theorem maxAbs_aux (l : List ℝ) : 0 ≤ l.foldr max 0 ∧ (∀ x ∈ l, x ≤ l.foldr max 0) ∧ (l.foldr max 0 = 0 ∨ l.foldr max 0 ∈ l) := by
  induction l with
  | nil => simp
  | cons a l ih =>
    obtain ⟨h1, h2, h3⟩ := ih
    refine ⟨h1.trans (le_max_right _ _), ?_, ?_⟩
    · intro x hx
      rcases List.mem_cons.1 hx with rfl | h
      · exact le_max_left _ _
      · exact (h2 x h).trans (le_max_right _ _)
    · rw [List.foldr_cons]
      rcases max_choice a (l.foldr max 0) with h | h
      · rw [h]; right; simp
      · rw [h]
        rcases h3 with h3 | h3
        · exact .inl h3
        · right; simp [h3]

theorem le_maxAbs {N : ℕ} (a : ℕ → ℂ) {n : ℕ} (h : n < N) : ‖a n‖ ≤ maxAbs N a :=
  (maxAbs_aux _).2.1 _ (List.mem_map.2 ⟨n, List.mem_range.2 h, rfl⟩)

theorem maxAbs_nonneg (N : ℕ) (a : ℕ → ℂ) : 0 ≤ maxAbs N a := (maxAbs_aux _).1

theorem maxAbs_attained {N : ℕ} (hN : 0 < N) (a : ℕ → ℂ) : ∃ n < N, ‖a n‖ = maxAbs N a := by
  rcases (maxAbs_aux ((List.range N).map fun n => ‖a n‖)).2.2 with h | h
  · refine ⟨0, hN, ?_⟩
    have h1 := le_maxAbs a hN
    have h2 : maxAbs N a = 0 := h
    rw [h2] at h1 ⊢
    exact le_antisymm h1 (norm_nonneg _)
  · obtain ⟨n, hn, e⟩ := List.mem_map.1 h
    exact ⟨n, List.mem_range.1 hn, e⟩

theorem nodes_spec (hc : 0 < c) (hl : 0 < lam0) (z0 dir : ℝ) (d : List Pt) :
    Interpolates (nodes c lam0 z0 dir d) (interp1d (nodes c lam0 z0 dir d)) := by
  refine interp1d_spec _ ?_ ?_
  · unfold nodes; rw [List.length_map, List.length_range, numTimes_eq hc hl]; norm_num
  · unfold nodes
    rw [List.map_map]
    refine List.Nodup.map_on ?_ List.nodup_range
    intro x _ y _ hxy
    simp only [Function.comp] at hxy
    rw [ctime_eq hc hl, ctime_eq hc hl] at hxy
    have : lam0 / 1000 ≠ 0 := by positivity
    have h2 : ((x : ℝ) - 500000) * (lam0 / 1000) = ((y : ℝ) - 500000) * (lam0 / 1000) := by linarith
    have h3 := mul_right_cancel₀ this h2
    have : (x : ℝ) = y := by linarith
    exact_mod_cast this

end Fbpic.CustomSpectrum
