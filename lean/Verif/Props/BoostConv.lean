import Verif.Spec.BoostConv
import Verif.Lemmas.Tactics

/-! # C49: the boost converter -/

namespace Fbpic

open BoostConv Spec

private theorem conv_basic (b : Conv) (hg : 1 ≤ b.gamma0) :
    0 ≤ b.beta0 ∧ b.beta0 < 1 ∧ b.gamma0 ^ 2 * (1 - b.beta0 ^ 2) = 1 := by
  have h0 : 0 < b.gamma0 := by linarith
  have h1 : 1 / b.gamma0 ^ 2 ≤ 1 := by
    rw [div_le_one (by positivity)]; nlinarith
  have h2 : b.beta0 ^ 2 = 1 - 1 / b.gamma0 ^ 2 := Real.sq_sqrt (by linarith)
  refine ⟨Real.sqrt_nonneg _, ?_, ?_⟩
  · have : 0 < 1 / b.gamma0 ^ 2 := by positivity
    have h3 : 0 ≤ b.beta0 := Real.sqrt_nonneg _
    nlinarith
  · rw [h2]; field_simp; ring

/-- **C49**: the converter holds a boost: `0 ≤ β₀ < 1` and `γ₀²(1-β₀²) = 1`. -/
theorem C49_boost (b : Conv) (hg : 1 ≤ b.gamma0) :
    0 ≤ b.beta0 ∧ b.beta0 < 1 ∧ b.gamma0 ^ 2 * (1 - b.beta0 ^ 2) = 1 := conv_basic b hg

/-- **C49**: the converted velocity is that of the transformed world line: if two events on a world line have the lab
velocity `v` (below c), their boosted coordinates have the ratio `velocity v`; it is below c. -/
theorem C49_velocity (b : Conv) (hc : 0 < b.c) (hg : 1 ≤ b.gamma0) (v : ℝ) (hv : |v| < b.c) :
    |b.velocity v| < b.c ∧
    ∀ t1 z1 t2 z2 t1' z1' t2' z2', z2 - z1 = v * (t2 - t1) →
      LorentzEvent b.gamma0 b.beta0 b.c t1 z1 t1' z1' → LorentzEvent b.gamma0 b.beta0 b.c t2 z2 t2' z2' →
      z2' - z1' = b.velocity v * (t2' - t1') := by
  obtain ⟨h1, h2, h3⟩ := conv_basic b hg
  obtain ⟨hv1, hv2⟩ := abs_lt.mp hv
  have hd : 0 < 1 - v * b.beta0 / b.c := by
    rw [sub_pos, div_lt_one hc]
    nlinarith
  have hd2 : 0 < b.c - v * b.beta0 := by nlinarith
  constructor
  · unfold Conv.velocity
    rw [abs_lt, lt_div_iff₀ hd, div_lt_iff₀ hd]
    have e : v * b.beta0 / b.c * b.c = v * b.beta0 := by field_simp
    constructor
    · nlinarith
    · nlinarith
  · rintro t1 z1 t2 z2 t1' z1' t2' z2' hz ⟨rfl, rfl⟩ ⟨rfl, rfl⟩
    unfold Conv.velocity
    rw [div_mul_eq_mul_div, eq_div_iff hd.ne']
    have : z2 = z1 + v * (t2 - t1) := by linarith
    subst this
    field_simp
    ring

/-- **C49**: the converted momentum of a particle moving along z is the Lorentz transform of its momentum (in particular it
is on the mass shell with the transformed Lorentz factor), and it agrees with the converted velocity. -/
theorem C49_momentum (b : Conv) (hc : 0 < b.c) (hg : 1 ≤ b.gamma0) (u : ℝ) :
    let g := Real.sqrt (1 + u ^ 2)
    let u' := b.longitudinalMomentum u
    let g' := Real.sqrt (1 + u' ^ 2)
    LorentzMomentum b.gamma0 b.beta0 g u g' u' ∧ b.velocity (b.c * u / g) = b.c * u' / g' := by
  obtain ⟨h1, h2, h3⟩ := conv_basic b hg
  intro g u' g'
  have hg2 : g ^ 2 = 1 + u ^ 2 := Real.sq_sqrt (by positivity)
  have hg0 : 0 < g := Real.sqrt_pos.mpr (by positivity)
  have hug : |u| < g := by
    rw [← Real.sqrt_sq_eq_abs]; exact Real.sqrt_lt_sqrt (by positivity) (by linarith)
  obtain ⟨hu1, hu2⟩ := abs_lt.mp hug
  have hpos : 0 < g - b.beta0 * u := by nlinarith
  have hu' : u' = b.gamma0 * (u - g * b.beta0) := rfl
  have hgg : g' = b.gamma0 * (g - b.beta0 * u) := by
    have : 1 + u' ^ 2 = (b.gamma0 * (g - b.beta0 * u)) ^ 2 := by
      rw [hu']
      linear_combination (-1) * (b.gamma0 ^ 2 - b.gamma0 ^ 2 * b.beta0 ^ 2) * hg2 - h3
    change Real.sqrt _ = _
    rw [this, Real.sqrt_sq (mul_nonneg (by linarith) hpos.le)]
  refine ⟨⟨hgg, by rw [hu']; ring⟩, ?_⟩
  have hγ : b.gamma0 ≠ 0 := by linarith
  unfold Conv.velocity
  rw [hgg, hu']
  have hpos' : g - u * b.beta0 ≠ 0 := by rw [mul_comm]; exact hpos.ne'
  have e1 : 1 - b.c * u / g * b.beta0 / b.c = (g - b.beta0 * u) / g := by field_simp
  have e2 : b.c * u / g - b.c * b.beta0 = b.c * (u - g * b.beta0) / g := by field_simp
  rw [e1, e2, div_div_div_cancel_right₀ hg0.ne', mul_left_comm, mul_div_mul_left _ _ hγ]

/-- **C49**: the converted Lorentz factor of a particle moving forward along z (or at rest) is the one of the converted
momentum. -/
theorem C49_gamma (b : Conv) (hc : 0 < b.c) (hg : 1 ≤ b.gamma0) (u : ℝ) (hu : 0 ≤ u) :
    b.gamma (Real.sqrt (1 + u ^ 2)) = Real.sqrt (1 + b.longitudinalMomentum u ^ 2) := by
  have h := (C49_momentum b hc hg u).1.1
  rw [h]
  unfold Conv.gamma
  simp only
  rw [Real.sq_sqrt (by positivity), add_sub_cancel_left, Real.sqrt_sq hu]

/-- The restriction to forward motion is needed: for backward motion the converted Lorentz factor is too small (there is no
way to tell the direction from the Lorentz factor). -/
theorem C49_gamma_backward (b : Conv) (hc : 0 < b.c) (hg : 1 < b.gamma0) (u : ℝ) (hu : u < 0) :
    b.gamma (Real.sqrt (1 + u ^ 2)) < Real.sqrt (1 + b.longitudinalMomentum u ^ 2) := by
  have h := (C49_momentum b hc hg.le u).1.1
  rw [h]
  unfold Conv.gamma
  simp only
  rw [Real.sq_sqrt (by positivity), add_sub_cancel_left, Real.sqrt_sq_eq_abs, abs_of_neg hu]
  have hb : 0 < b.beta0 := by
    refine Real.sqrt_pos.mpr ?_
    rw [sub_pos, div_lt_one (by positivity)]
    nlinarith
  nlinarith [mul_pos hb (neg_pos.mpr hu), mul_pos (mul_pos hb (neg_pos.mpr hu)) (by linarith : 0 < b.gamma0)]

/-- **C49**: lengths. Two points of an object that moves at `βc` in the lab (`β = 0` for a static one), a distance `l` apart
there, are a distance `copropag_length l` (`static_length l`) apart at equal boosted time. -/
theorem C49_length (b : Conv) (hc : 0 < b.c) (hg : 1 ≤ b.gamma0) (beta l : ℝ) (hb : -1 ≤ beta) (hb' : beta ≤ 1)
    (t1 z1 t2 z2 t' z1' z2' : ℝ) (hl : (z2 - beta * b.c * t2) - (z1 - beta * b.c * t1) = l)
    (h1 : LorentzEvent b.gamma0 b.beta0 b.c t1 z1 t' z1') (h2 : LorentzEvent b.gamma0 b.beta0 b.c t2 z2 t' z2') :
    z2' - z1' = b.copropagLength l beta ∧ (beta = 0 → z2' - z1' = b.staticLength l) := by
  obtain ⟨q1, q2, q3⟩ := conv_basic b hg
  have hγ : 0 < b.gamma0 := by linarith
  have hd : 0 < 1 - b.beta0 * beta := by nlinarith
  obtain ⟨h11, h12⟩ := h1
  obtain ⟨h21, h22⟩ := h2
  have ht : t2 - t1 = b.beta0 * (z2 - z1) / b.c := by
    have : t1 - b.beta0 * z1 / b.c = t2 - b.beta0 * z2 / b.c := mul_left_cancel₀ hγ.ne' (by rw [← h11, ← h21])
    have e : b.beta0 * (z2 - z1) / b.c = b.beta0 * z2 / b.c - b.beta0 * z1 / b.c := by ring
    linarith
  have hz : (z2 - z1) * (1 - b.beta0 * beta) = l := by
    have : (z2 - z1) - beta * b.c * (t2 - t1) = l := by linarith
    rw [ht] at this
    rw [← this]
    field_simp
  have hz' : z2' - z1' = (z2 - z1) / b.gamma0 := by
    rw [h12, h22, eq_div_iff hγ.ne']
    have : b.gamma0 * (z2 - b.beta0 * b.c * t2) - b.gamma0 * (z1 - b.beta0 * b.c * t1) =
        b.gamma0 * ((z2 - z1) - b.beta0 * b.c * (t2 - t1)) := by ring
    rw [this, ht]
    have e : b.beta0 * b.c * (b.beta0 * (z2 - z1) / b.c) = b.beta0 ^ 2 * (z2 - z1) := by field_simp
    rw [e]
    linear_combination (z2 - z1) * q3
  constructor
  · rw [hz', ← hz]
    unfold Conv.copropagLength
    field_simp
  · rintro rfl
    rw [hz', ← hz]
    unfold Conv.staticLength
    ring

/-- **C49**: densities: the number of particles in a given length is the same in both frames. -/
theorem C49_density (b : Conv) (hg : 1 ≤ b.gamma0) (beta l n : ℝ) (hb : -1 ≤ beta) (hb' : beta ≤ 1) :
    b.staticDensity n * b.staticLength l = n * l ∧ b.copropagDensity n beta * b.copropagLength l beta = n * l := by
  obtain ⟨q1, q2, q3⟩ := conv_basic b hg
  have hγ : 0 < b.gamma0 := by linarith
  have hd : 0 < 1 - b.beta0 * beta := by nlinarith
  unfold Conv.staticDensity Conv.staticLength Conv.copropagDensity Conv.copropagLength
  constructor <;> field_simp

/-- **C49**: the converted wavenumber of a wave propagating forward gives the same phase at every event. -/
theorem C49_wavenumber (b : Conv) (hc : 0 < b.c) (hg : 1 ≤ b.gamma0) (k t z t' z' : ℝ)
    (h : LorentzEvent b.gamma0 b.beta0 b.c t z t' z') :
    b.wavenumber k * (z' - b.c * t') = k * (z - b.c * t) := by
  obtain ⟨q1, q2, q3⟩ := conv_basic b hg
  have hγ : 0 < b.gamma0 := by linarith
  have hd : 0 < 1 + b.beta0 := by linarith
  obtain ⟨rfl, rfl⟩ := h
  unfold Conv.wavenumber
  field_simp
  ring

/-- **C49**: boosted particles are on their world lines: each lab particle (at time zero, on the mass shell) moves
along a straight line in the lab, and the event of this line at boosted time zero is the position given by the converter;
the momentum is the transformed one. -/
theorem C49_arrays (b : Conv) (hc : 0 < b.c) (hg : 1 ≤ b.gamma0) (p : Part)
    (hp : p.invGamma = 1 / Real.sqrt (1 + p.ux ^ 2 + p.uy ^ 2 + p.uz ^ 2)) :
    let q := b.boostParticle p
    (∃ t, LorentzEvent b.gamma0 b.beta0 b.c t (p.z + b.c * p.uz * p.invGamma * t) 0 q.z ∧
      q.x = p.x + b.c * p.ux * p.invGamma * t ∧ q.y = p.y + b.c * p.uy * p.invGamma * t) ∧
    LorentzMomentum b.gamma0 b.beta0 (1 / p.invGamma) p.uz (1 / q.invGamma) q.uz ∧ q.ux = p.ux ∧ q.uy = p.uy ∧
    q.invGamma = 1 / Real.sqrt (1 + q.ux ^ 2 + q.uy ^ 2 + q.uz ^ 2) := by
  obtain ⟨h1, h2, h3⟩ := conv_basic b hg
  have hγ : 0 < b.gamma0 := by linarith
  intro q
  set g := Real.sqrt (1 + p.ux ^ 2 + p.uy ^ 2 + p.uz ^ 2) with hgdef
  have hg2 : g ^ 2 = 1 + p.ux ^ 2 + p.uy ^ 2 + p.uz ^ 2 := Real.sq_sqrt (by positivity)
  have hg0 : 0 < g := Real.sqrt_pos.mpr (by positivity)
  have hgl : Real.sqrt (1 + (p.ux * p.ux + p.uy * p.uy + p.uz * p.uz)) = g := by
    rw [hgdef]; congr 1; ring
  have hug : |p.uz| < g := by
    rw [← Real.sqrt_sq_eq_abs]; exact Real.sqrt_lt_sqrt (by positivity) (by nlinarith [sq_nonneg p.ux, sq_nonneg p.uy])
  obtain ⟨hu1, hu2⟩ := abs_lt.mp hug
  have hpos : 0 < g - b.beta0 * p.uz := by nlinarith
  set u' := b.gamma0 * p.uz - b.gamma0 * b.beta0 * g with hu'
  have hgb : Real.sqrt (1 + (p.ux ^ 2 + p.uy ^ 2 + u' ^ 2)) = b.gamma0 * (g - b.beta0 * p.uz) := by
    have : 1 + (p.ux ^ 2 + p.uy ^ 2 + u' ^ 2) = (b.gamma0 * (g - b.beta0 * p.uz)) ^ 2 := by
      rw [hu']
      linear_combination (-1) * hg2 - (g ^ 2 - p.uz ^ 2) * h3
    rw [this, Real.sqrt_sq (mul_nonneg hγ.le hpos.le)]
  have hq : q = ⟨p.x - -(b.gamma0 * b.beta0) * p.z / b.c * p.ux * b.c / (b.gamma0 * (g - b.beta0 * p.uz)),
      p.y - -(b.gamma0 * b.beta0) * p.z / b.c * p.uy * b.c / (b.gamma0 * (g - b.beta0 * p.uz)),
      b.gamma0 * p.z - -(b.gamma0 * b.beta0) * p.z / b.c * u' * b.c / (b.gamma0 * (g - b.beta0 * p.uz)),
      p.ux, p.uy, u', 1 / (b.gamma0 * (g - b.beta0 * p.uz))⟩ := by
    simp only [q, Conv.boostParticle, hgl, ← hu', hgb]
  have hinv : 1 / p.invGamma = g := by rw [hp]; field_simp
  rw [hq, hinv]
  refine ⟨⟨b.beta0 * p.z * g / (b.c * (g - b.beta0 * p.uz)), ⟨?_, ?_⟩, ?_, ?_⟩, ⟨?_, ?_⟩, rfl, rfl, ?_⟩
  · rw [hp]; field_simp; ring
  · rw [hp]
    simp only
    rw [hu']
    field_simp
    ring
  · rw [hp]; field_simp; ring
  · rw [hp]; field_simp; ring
  · field_simp
  · rw [hu']; ring
  · simp only
    rw [← hgb]
    congr 2
    ring

/-- **C49**: the interaction time: starting with the front of the window (of the converted length) at the left end of the plasma
(of the converted length, moving at `-β₀c`), the back of the window is at the right end of the plasma after this time. -/
theorem C49_interaction (b : Conv) (hc : 0 < b.c) (hg : 1 ≤ b.gamma0) (L l v : ℝ) (hv : 0 < v) (hv' : v ≤ b.c) :
    let T := b.interactionTime L l v
    b.velocity v * T - b.copropagLength l = b.staticLength L + (-b.beta0 * b.c) * T := by
  obtain ⟨h1, h2, h3⟩ := conv_basic b hg
  have hd : 0 < 1 - v * b.beta0 / b.c := by
    rw [sub_pos, div_lt_one hc]
    nlinarith
  have hrel : b.velocity v - (-b.beta0 * b.c) ≠ 0 := by
    have : b.velocity v - (-b.beta0 * b.c) = v * (1 - b.beta0 ^ 2) / (1 - v * b.beta0 / b.c) := by
      unfold Conv.velocity
      rw [eq_div_iff hd.ne', sub_mul, div_mul_cancel₀ _ hd.ne']
      field_simp
      ring
    rw [this]
    have : 0 < 1 - b.beta0 ^ 2 := by nlinarith
    positivity
  intro T
  have : T * (b.velocity v - (-b.beta0 * b.c)) = b.staticLength L + b.copropagLength l := div_mul_cancel₀ _ hrel
  linarith

/-- A case with numbers: `γ₀ = 5/4`, `β₀ = 3/5`, `c = 2`; a particle at rest is converted to one with `u = -3/4`. -/
example : (⟨2, 5 / 4⟩ : Conv).beta0 = 3 / 5 ∧ (⟨2, 5 / 4⟩ : Conv).longitudinalMomentum 0 = -3 / 4 ∧
    (⟨2, 5 / 4⟩ : Conv).velocity 1 = -2 / 7 := by
  have h : (⟨2, 5 / 4⟩ : Conv).beta0 = 3 / 5 := by
    unfold Conv.beta0
    rw [show (1 - 1 / (5 / 4 : ℝ) ^ 2) = (3 / 5) ^ 2 by norm_num]
    exact Real.sqrt_sq (by norm_num)
  refine ⟨h, ?_, ?_⟩
  · unfold Conv.longitudinalMomentum; rw [h]; norm_num
  · unfold Conv.velocity; rw [h]; norm_num

end Fbpic
