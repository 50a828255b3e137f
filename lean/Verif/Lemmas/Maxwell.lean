import Verif.Spec.Maxwell
import Verif.Lemmas.Tactics
import Mathlib.Analysis.Calculus.Deriv.Mul
import Mathlib.Analysis.Calculus.Deriv.Comp
import Mathlib.Analysis.Calculus.MeanValue
import Mathlib.Analysis.SpecialFunctions.ExpDeriv
import Mathlib.Analysis.SpecialFunctions.Trigonometric.Deriv
import Mathlib.Analysis.Complex.RealDeriv

/-! # Energy, uniqueness and closed form of solutions of Maxwell's equations at one wavenumber -/

namespace Fbpic.Spec

open Complex

theorem hasDerivAt_normSq {f : ℝ → ℂ} {f' : ℂ} {t : ℝ} (h : HasDerivAt f f' t) :
    HasDerivAt (fun t => Complex.normSq (f t)) (2 * ((f t).re * f'.re + (f t).im * f'.im)) t := by
  have hr : HasDerivAt (fun t => (f t).re) f'.re t :=
    (Complex.reCLM.hasFDerivAt.comp_hasDerivAt t h)
  have hi : HasDerivAt (fun t => (f t).im) f'.im t :=
    (Complex.imCLM.hasFDerivAt.comp_hasDerivAt t h)
  have := (hr.mul hr).add (hi.mul hi)
  refine (this.congr_deriv (by ring)).congr_of_eventuallyEq ?_
  filter_upwards with x
  simp [Complex.normSq_apply]

/-- Power: the rate of change of the energy is minus `2 c^2 mu0` times the work done on `J`. -/
theorem IsMaxwell.hasDerivAt_energy {c mu0 kz kr V : ℝ} {J : ℝ → V3} {f : ℝ → EM}
    (h : IsMaxwell c mu0 kz kr V J f) (t : ℝ) :
    HasDerivAt (fun t => energy c (f t))
      (-(2 * c ^ 2 * mu0) * (2 * ((f t).E.p.re * (J t).p.re + (f t).E.p.im * (J t).p.im)
        + 2 * ((f t).E.m.re * (J t).m.re + (f t).E.m.im * (J t).m.im)
        + ((f t).E.z.re * (J t).z.re + (f t).E.z.im * (J t).z.im))) t := by
  have h1 := hasDerivAt_normSq (h.Ep t)
  have h2 := hasDerivAt_normSq (h.Em t)
  have h3 := hasDerivAt_normSq (h.Ez t)
  have h4 := hasDerivAt_normSq (h.Bp t)
  have h5 := hasDerivAt_normSq (h.Bm t)
  have h6 := hasDerivAt_normSq (h.Bz t)
  have := (((h1.const_mul 2).add (h2.const_mul 2)).add h3).add
    ((((h4.const_mul 2).add (h5.const_mul 2)).add h6).const_mul (c ^ 2))
  refine this.congr_deriv ?_
  simp only [curl, Complex.add_re, Complex.add_im, Complex.sub_re, Complex.sub_im, Complex.mul_re,
    Complex.mul_im, Complex.I_re, Complex.I_im, Complex.ofReal_re, Complex.ofReal_im,
    Complex.neg_re, Complex.neg_im, ← Complex.ofReal_pow]
  have hI : (I / 2 : ℂ).re = 0 := by simp
  have hI' : (I / 2 : ℂ).im = 1 / 2 := by simp
  simp only [hI, hI']
  ring

/-- In vacuum the energy is constant in time. -/
theorem IsMaxwell.energy_const {c mu0 kz kr V : ℝ} {f : ℝ → EM}
    (h : IsMaxwell c mu0 kz kr V (fun _ => ⟨0, 0, 0⟩) f) (t s : ℝ) :
    energy c (f t) = energy c (f s) := by
  refine is_const_of_deriv_eq_zero (fun t => (h.hasDerivAt_energy t).differentiableAt)
    (fun t => ?_) t s
  rw [(h.hasDerivAt_energy t).deriv]
  simp

theorem normSq_nonneg (F : V3) : 0 ≤ normSq F := by
  unfold normSq
  have := Complex.normSq_nonneg F.p
  have := Complex.normSq_nonneg F.m
  have := Complex.normSq_nonneg F.z
  linarith

theorem normSq_eq_zero {F : V3} (h : normSq F = 0) : F = ⟨0, 0, 0⟩ := by
  unfold normSq at h
  have h1 := Complex.normSq_nonneg F.p
  have h2 := Complex.normSq_nonneg F.m
  have h3 := Complex.normSq_nonneg F.z
  ext1
  · exact Complex.normSq_eq_zero.1 (by linarith)
  · exact Complex.normSq_eq_zero.1 (by linarith)
  · exact Complex.normSq_eq_zero.1 (by linarith)

theorem energy_eq_zero {c : ℝ} (hc : c ≠ 0) {f : EM} (h : energy c f = 0) :
    f = ⟨⟨0, 0, 0⟩, ⟨0, 0, 0⟩⟩ := by
  unfold energy at h
  have h1 := normSq_nonneg f.E
  have h2 := normSq_nonneg f.B
  have h3 : 0 < c ^ 2 := by positivity
  have h4 : 0 ≤ c ^ 2 * normSq f.B := by positivity
  have h5 : normSq f.B = 0 := by
    have : c ^ 2 * normSq f.B = 0 := by linarith
    exact (mul_eq_zero.1 this).resolve_left h3.ne'
  ext1
  · exact normSq_eq_zero (by rw [h5] at h; linarith)
  · exact normSq_eq_zero h5

/-- Difference of two fields. -/
def EM.sub (f g : EM) : EM :=
  ⟨⟨f.E.p - g.E.p, f.E.m - g.E.m, f.E.z - g.E.z⟩, ⟨f.B.p - g.B.p, f.B.m - g.B.m, f.B.z - g.B.z⟩⟩

theorem IsMaxwell.sub {c mu0 kz kr V : ℝ} {J : ℝ → V3} {f g : ℝ → EM}
    (hf : IsMaxwell c mu0 kz kr V J f) (hg : IsMaxwell c mu0 kz kr V J g) :
    IsMaxwell c mu0 kz kr V (fun _ => ⟨0, 0, 0⟩) (fun t => (f t).sub (g t)) where
  Ep t := ((hf.Ep t).sub (hg.Ep t)).congr_deriv (by simp only [curl, EM.sub]; ring)
  Em t := ((hf.Em t).sub (hg.Em t)).congr_deriv (by simp only [curl, EM.sub]; ring)
  Ez t := ((hf.Ez t).sub (hg.Ez t)).congr_deriv (by simp only [curl, EM.sub]; ring)
  Bp t := ((hf.Bp t).sub (hg.Bp t)).congr_deriv (by simp only [curl, EM.sub]; ring)
  Bm t := ((hf.Bm t).sub (hg.Bm t)).congr_deriv (by simp only [curl, EM.sub]; ring)
  Bz t := ((hf.Bz t).sub (hg.Bz t)).congr_deriv (by simp only [curl, EM.sub]; ring)

/-- Uniqueness: the fields at one time determine them at all times. -/
theorem IsMaxwell.unique {c mu0 kz kr V : ℝ} (hc : c ≠ 0) {J : ℝ → V3} {f g : ℝ → EM}
    (hf : IsMaxwell c mu0 kz kr V J f) (hg : IsMaxwell c mu0 kz kr V J g) (s : ℝ)
    (h0 : f s = g s) (t : ℝ) : f t = g t := by
  have h := (hf.sub hg).energy_const t s
  have h1 : energy c ((f s).sub (g s)) = 0 := by
    rw [h0]; simp [EM.sub, energy, normSq]
  rw [h1] at h
  have h2 := energy_eq_zero hc h
  simp only [EM.sub, EM.mk.injEq, V3.mk.injEq, sub_eq_zero] at h2
  obtain ⟨⟨a1, a2, a3⟩, b1, b2, b3⟩ := h2
  ext1 <;> ext1 <;> assumption

/-- Closed form of a solution, from the five coefficient functions. -/
noncomputable def closed (c kz kr : ℝ) (C S j b r1 r2 : ℂ) (E B J : V3) : EM where
  E :=
    { p := C * E.p + c ^ 2 * S * (curl kz kr B).p + b * J.p
        - (grad kz kr (r1 * div kz kr E + r2 * div kz kr J)).p
      m := C * E.m + c ^ 2 * S * (curl kz kr B).m + b * J.m
        - (grad kz kr (r1 * div kz kr E + r2 * div kz kr J)).m
      z := C * E.z + c ^ 2 * S * (curl kz kr B).z + b * J.z
        - (grad kz kr (r1 * div kz kr E + r2 * div kz kr J)).z }
  B :=
    { p := C * B.p - S * (curl kz kr E).p + j * (curl kz kr J).p
      m := C * B.m - S * (curl kz kr E).m + j * (curl kz kr J).m
      z := C * B.z - S * (curl kz kr E).z + j * (curl kz kr J).z }

/-- Multiplication by a phase. -/
def EM.smul (a : ℂ) (f : EM) : EM :=
  ⟨⟨a * f.E.p, a * f.E.m, a * f.E.z⟩, ⟨a * f.B.p, a * f.B.m, a * f.B.z⟩⟩

/-- The differential equations satisfied by the coefficient functions. -/
structure CoefODE (c mu0 kz kr nu : ℝ) (C S j b r1 r2 : ℝ → ℂ) : Prop where
  hC : ∀ t, HasDerivAt C (-(c ^ 2 * (kz ^ 2 + kr ^ 2)) * S t) t
  hS : ∀ t, HasDerivAt S (C t) t
  hj : ∀ t, HasDerivAt j (-b t) t
  hb : ∀ t, HasDerivAt b (c ^ 2 * (kz ^ 2 + kr ^ 2) * j t - c ^ 2 * mu0 * exp (-(I * nu * t))) t
  hr1 : kz = 0 ∧ kr = 0 ∨ ∀ t, HasDerivAt r1 (c ^ 2 * S t) t
  hr2 : kz = 0 ∧ kr = 0 ∨ ∀ t, HasDerivAt r2 (-(c ^ 2) * j t) t

theorem CoefODE.grad {c mu0 kz kr nu : ℝ} {C S j b r1 r2 : ℝ → ℂ}
    (h : CoefODE c mu0 kz kr nu C S j b r1 r2) (dE dJ a : ℂ) (ha : kz = 0 ∧ kr = 0 → a = 0) (t : ℝ) :
    HasDerivAt (fun t => a * (r1 t * dE + r2 t * dJ))
      (a * (c ^ 2 * S t * dE + -(c ^ 2) * j t * dJ)) t := by
  by_cases hk : kz = 0 ∧ kr = 0
  · simp only [ha hk, zero_mul]
    exact hasDerivAt_const _ _
  · exact ((((h.hr1.resolve_left hk) t).mul_const dE).add
      (((h.hr2.resolve_left hk) t).mul_const dJ)).const_mul a

/-- The closed form solves Maxwell's equations with the current `J exp(-i nu t)`, if the initial
magnetic field has no divergence. -/
theorem isMaxwell_closed {c mu0 kz kr nu : ℝ} {C S j b r1 r2 : ℝ → ℂ}
    (h : CoefODE c mu0 kz kr nu C S j b r1 r2) (E B J : V3) (hB : div kz kr B = 0) :
    IsMaxwell c mu0 kz kr 0
      (fun t => ⟨exp (-(I * nu * t)) * J.p, exp (-(I * nu * t)) * J.m, exp (-(I * nu * t)) * J.z⟩)
      (fun t => closed c kz kr (C t) (S t) (j t) (b t) (r1 t) (r2 t) E B J) where
  Ep t := by
    have hg := h.grad (div kz kr E) (div kz kr J) (-(1 / 2) * kr) (by rintro ⟨-, rfl⟩; simp) t
    refine (((((h.hC t).mul_const E.p).add (((h.hS t).const_mul ((c : ℂ) ^ 2)).mul_const _)).add
      ((h.hb t).mul_const J.p)).sub hg).congr_deriv ?_
    simp only [closed, curl, div, Spec.grad, Complex.ofReal_zero]
    linear_combination (-(c : ℂ) ^ 2 / 2 * kr ^ 2 * (S t * (E.p + E.m) - j t * (J.p + J.m))) * I_sq
  Em t := by
    have hg := h.grad (div kz kr E) (div kz kr J) (1 / 2 * kr) (by rintro ⟨-, rfl⟩; simp) t
    refine (((((h.hC t).mul_const E.m).add (((h.hS t).const_mul ((c : ℂ) ^ 2)).mul_const _)).add
      ((h.hb t).mul_const J.m)).sub hg).congr_deriv ?_
    simp only [closed, curl, div, Spec.grad, Complex.ofReal_zero]
    linear_combination (-(c : ℂ) ^ 2 / 2 * kr ^ 2 * (S t * (E.p + E.m) - j t * (J.p + J.m))) * I_sq
  Ez t := by
    have hg := h.grad (div kz kr E) (div kz kr J) (I * kz) (by rintro ⟨rfl, -⟩; simp) t
    refine (((((h.hC t).mul_const E.z).add (((h.hS t).const_mul ((c : ℂ) ^ 2)).mul_const _)).add
      ((h.hb t).mul_const J.z)).sub hg).congr_deriv ?_
    simp only [closed, curl, div, Spec.grad, Complex.ofReal_zero]
    linear_combination (-(c : ℂ) ^ 2 * (kz ^ 2 + kr ^ 2) * (S t * E.z - j t * J.z)) * I_sq
  Bp t := by
    refine ((((h.hC t).mul_const B.p).sub ((h.hS t).mul_const _)).add
      ((h.hj t).mul_const _)).congr_deriv ?_
    simp only [closed, curl, div, Spec.grad, Complex.ofReal_zero] at *
    linear_combination (-(c : ℂ) ^ 2 / 2 * S t * kr) * hB
      + (-(1 / 2) * kr ^ 2 * c ^ 2 * S t * (B.p + B.m) + 1 / 2 * kr * kz *
        (r1 t * (kr * (E.p - E.m) + I * kz * E.z) + r2 t * (kr * (J.p - J.m) + I * kz * J.z))) * I_sq
  Bm t := by
    refine ((((h.hC t).mul_const B.m).sub ((h.hS t).mul_const _)).add
      ((h.hj t).mul_const _)).congr_deriv ?_
    simp only [closed, curl, div, Spec.grad, Complex.ofReal_zero] at *
    linear_combination ((c : ℂ) ^ 2 / 2 * S t * kr) * hB
      + (-(1 / 2) * kr ^ 2 * c ^ 2 * S t * (B.p + B.m) + 1 / 2 * kr * kz *
        (r1 t * (kr * (E.p - E.m) + I * kz * E.z) + r2 t * (kr * (J.p - J.m) + I * kz * J.z))) * I_sq
  Bz t := by
    refine ((((h.hC t).mul_const B.z).sub ((h.hS t).mul_const _)).add
      ((h.hj t).mul_const _)).congr_deriv ?_
    simp only [closed, curl, div, Spec.grad, Complex.ofReal_zero] at *
    linear_combination ((c : ℂ) ^ 2 * S t * I * kz) * hB
      - c ^ 2 * S t * (kz ^ 2 + kr ^ 2) * B.z * I_sq

theorem hasDerivAt_phase (a : ℂ) (t : ℝ) :
    HasDerivAt (fun t : ℝ => exp (a * t)) (a * exp (a * t)) t := by
  have h : HasDerivAt (fun z : ℂ => exp (a * z)) (a * exp (a * t)) (t : ℂ) := by
    have h1 : HasDerivAt (fun z : ℂ => a * z) a (t : ℂ) := by
      simpa using (hasDerivAt_id (t : ℂ)).const_mul a
    exact (h1.cexp).congr_deriv (by ring)
  exact h.comp_ofReal

/-- A solution on a fixed grid times the phase of the grid motion is a solution on the moving
grid. -/
theorem IsMaxwell.toMoving {c mu0 kz kr V : ℝ} {J : ℝ → V3} {f : ℝ → EM}
    (h : IsMaxwell c mu0 kz kr 0 J f) :
    IsMaxwell c mu0 kz kr V
      (fun t => ⟨exp (I * kz * V * t) * (J t).p, exp (I * kz * V * t) * (J t).m,
        exp (I * kz * V * t) * (J t).z⟩)
      (fun t => (f t).smul (exp (I * kz * V * t))) where
  Ep t := ((hasDerivAt_phase (I * kz * V) t).mul (h.Ep t)).congr_deriv (by
    simp only [curl, EM.smul, Complex.ofReal_zero]; ring)
  Em t := ((hasDerivAt_phase (I * kz * V) t).mul (h.Em t)).congr_deriv (by
    simp only [curl, EM.smul, Complex.ofReal_zero]; ring)
  Ez t := ((hasDerivAt_phase (I * kz * V) t).mul (h.Ez t)).congr_deriv (by
    simp only [curl, EM.smul, Complex.ofReal_zero]; ring)
  Bp t := ((hasDerivAt_phase (I * kz * V) t).mul (h.Bp t)).congr_deriv (by
    simp only [curl, EM.smul, Complex.ofReal_zero]; ring)
  Bm t := ((hasDerivAt_phase (I * kz * V) t).mul (h.Bm t)).congr_deriv (by
    simp only [curl, EM.smul, Complex.ofReal_zero]; ring)
  Bz t := ((hasDerivAt_phase (I * kz * V) t).mul (h.Bz t)).congr_deriv (by
    simp only [curl, EM.smul, Complex.ofReal_zero]; ring)

/-! ### Coefficient functions -/

theorem hasDerivAt_cosw (w : ℝ) (t : ℝ) :
    HasDerivAt (fun t : ℝ => ((Real.cos (w * t) : ℝ) : ℂ)) ((-(w * Real.sin (w * t)) : ℝ) : ℂ) t := by
  have h1 : HasDerivAt (fun t : ℝ => w * t) w t := by
    simpa using (hasDerivAt_id t).const_mul w
  exact ((h1.cos).congr_deriv (by ring)).ofReal_comp

theorem hasDerivAt_sinw (w : ℝ) (t : ℝ) :
    HasDerivAt (fun t : ℝ => ((Real.sin (w * t) : ℝ) : ℂ)) ((w * Real.cos (w * t) : ℝ) : ℂ) t := by
  have h1 : HasDerivAt (fun t : ℝ => w * t) w t := by
    simpa using (hasDerivAt_id t).const_mul w
  exact ((h1.sin).congr_deriv (by ring)).ofReal_comp

theorem hasDerivAt_t (t : ℝ) : HasDerivAt (fun t : ℝ => (t : ℂ)) 1 t := by
  simpa using (hasDerivAt_id t).ofReal_comp

/-- Zero wavenumber. -/
theorem coefODE_zero (c mu0 : ℝ) :
    CoefODE c mu0 0 0 0 (fun _ => 1) (fun t => t) (fun t => c ^ 2 * mu0 * (1 / 2 * t ^ 2))
      (fun t => -(c ^ 2 * mu0 * t)) (fun _ => 0) (fun _ => 0) where
  hC t := (hasDerivAt_const t (1 : ℂ)).congr_deriv (by simp)
  hS t := hasDerivAt_t t
  hj t := ((((hasDerivAt_t t).pow 2).const_mul (1 / 2 : ℂ)).const_mul ((c : ℂ) ^ 2 * mu0)).congr_deriv
    (by push_cast; ring)
  hb t := (((hasDerivAt_t t).const_mul ((c : ℂ) ^ 2 * mu0)).neg).congr_deriv (by simp)
  hr1 := Or.inl ⟨rfl, rfl⟩
  hr2 := Or.inl ⟨rfl, rfl⟩

/-- Constant current, non-zero wavenumber. -/
theorem coefODE_static (c mu0 kz kr w : ℝ) (hw : w ≠ 0) (hwk : w ^ 2 = c ^ 2 * (kz ^ 2 + kr ^ 2)) :
    CoefODE c mu0 kz kr 0 (fun t => (Real.cos (w * t) : ℝ)) (fun t => (Real.sin (w * t) : ℝ) / w)
      (fun t => c ^ 2 * mu0 * (1 - (Real.cos (w * t) : ℝ)) / w ^ 2)
      (fun t => -(c ^ 2 * mu0 * ((Real.sin (w * t) : ℝ) / w)))
      (fun t => c ^ 2 * (1 - (Real.cos (w * t) : ℝ)) / w ^ 2)
      (fun t => -(c ^ 4 * mu0 * (t - (Real.sin (w * t) : ℝ) / w) / w ^ 2)) := by
  have hwc : (w : ℂ) ≠ 0 := by exact_mod_cast hw
  have hwk' : (w : ℂ) ^ 2 = c ^ 2 * (kz ^ 2 + kr ^ 2) := by exact_mod_cast hwk
  constructor
  · intro t
    refine (hasDerivAt_cosw w t).congr_deriv ?_
    rw [← hwk']; push_cast; field_simp
  · intro t
    refine ((hasDerivAt_sinw w t).div_const _).congr_deriv ?_
    push_cast; field_simp
  · intro t
    refine ((((hasDerivAt_const t (1 : ℂ)).sub (hasDerivAt_cosw w t)).const_mul
      ((c : ℂ) ^ 2 * mu0)).div_const _).congr_deriv ?_
    push_cast; field_simp; ring
  · intro t
    refine ((((hasDerivAt_sinw w t).div_const _).const_mul ((c : ℂ) ^ 2 * mu0)).neg).congr_deriv ?_
    rw [← hwk']; simp only [Complex.ofReal_zero, mul_zero, zero_mul, neg_zero, Complex.exp_zero]
    push_cast; field_simp; ring
  · refine Or.inr fun t => ?_
    refine ((((hasDerivAt_const t (1 : ℂ)).sub (hasDerivAt_cosw w t)).const_mul
      ((c : ℂ) ^ 2)).div_const _).congr_deriv ?_
    push_cast; field_simp; ring
  · refine Or.inr fun t => ?_
    refine (((((hasDerivAt_t t).sub ((hasDerivAt_sinw w t).div_const _)).const_mul
      ((c : ℂ) ^ 4 * mu0)).div_const _).neg).congr_deriv ?_
    push_cast; field_simp

/-- Moving current. -/
theorem coefODE_drift (c mu0 kz kr w nu : ℝ) (hw : w ≠ 0) (hnu : nu ≠ 0) (hne : w ^ 2 - nu ^ 2 ≠ 0)
    (hwk : w ^ 2 = c ^ 2 * (kz ^ 2 + kr ^ 2)) :
    CoefODE c mu0 kz kr nu (fun t => (Real.cos (w * t) : ℝ)) (fun t => (Real.sin (w * t) : ℝ) / w)
      (fun t => c ^ 2 * mu0 * (exp (-(I * nu) * t) - (Real.cos (w * t) : ℝ)
        + I * nu * ((Real.sin (w * t) : ℝ) / w)) / (w ^ 2 - nu ^ 2))
      (fun t => c ^ 2 * mu0 * (I * nu * exp (-(I * nu) * t) - I * nu * (Real.cos (w * t) : ℝ)
        - w * (Real.sin (w * t) : ℝ)) / (w ^ 2 - nu ^ 2))
      (fun t => c ^ 2 * (1 - (Real.cos (w * t) : ℝ)) / w ^ 2)
      (fun t => -(c ^ 4 * mu0 * ((1 - exp (-(I * nu) * t)) / (I * nu) - (Real.sin (w * t) : ℝ) / w
        + I * nu * (1 - (Real.cos (w * t) : ℝ)) / w ^ 2) / (w ^ 2 - nu ^ 2))) := by
  have hs := coefODE_static c mu0 kz kr w hw hwk
  have hwc : (w : ℂ) ≠ 0 := by exact_mod_cast hw
  have hnc : (nu : ℂ) ≠ 0 := by exact_mod_cast hnu
  have hd : (w : ℂ) ^ 2 - nu ^ 2 ≠ 0 := by exact_mod_cast hne
  have hwk' : (w : ℂ) ^ 2 = c ^ 2 * (kz ^ 2 + kr ^ 2) := by exact_mod_cast hwk
  have hp := fun t => hasDerivAt_phase (-(I * nu)) t
  refine ⟨hs.hC, hs.hS, ?_, ?_, hs.hr1, ?_⟩
  · intro t
    refine (((((hp t).sub (hasDerivAt_cosw w t)).add
      (((hasDerivAt_sinw w t).div_const _).const_mul (I * nu))).const_mul
      ((c : ℂ) ^ 2 * mu0)).div_const _).congr_deriv ?_
    push_cast; field_simp; ring
  · intro t
    refine ((((((hp t).const_mul (I * nu)).sub ((hasDerivAt_cosw w t).const_mul (I * nu))).sub
      ((hasDerivAt_sinw w t).const_mul (w : ℂ))).const_mul
      ((c : ℂ) ^ 2 * mu0)).div_const _).congr_deriv ?_
    rw [← hwk', show -(I * nu * t) = -(I * nu) * t by ring]
    push_cast; field_simp
    linear_combination (-((c : ℂ) ^ 2) * mu0 * nu ^ 2 * exp (-(I * nu * t))) * I_sq
  · refine Or.inr fun t => ?_
    refine ((((((hasDerivAt_const t (1 : ℂ)).sub (hp t)).div_const (I * nu)).sub
      ((hasDerivAt_sinw w t).div_const _)).add (((((hasDerivAt_const t (1 : ℂ)).sub
      (hasDerivAt_cosw w t)).const_mul (I * nu))).div_const _)).const_mul
      ((c : ℂ) ^ 4 * mu0) |>.div_const _ |>.neg).congr_deriv ?_
    push_cast; field_simp; ring

end Fbpic.Spec
