import Verif.Model.Spectral
import Verif.Lemmas.Maxwell

/-! # The coefficients of the solver -/

namespace Fbpic

open Complex Spec

/-- The fields of a cell. -/
def SpecCell.em (s : SpecCell) : EM := ⟨⟨s.Ep, s.Em, s.Ez⟩, ⟨s.Bp, s.Bm, s.Bz⟩⟩

/-- The current of a cell. -/
def SpecCell.J (s : SpecCell) : V3 := ⟨s.Jp, s.Jm, s.Jz⟩

/-- The scheme chosen by the arguments `v_comoving`, `use_galilean`. -/
def schemeOf (V : Option ℝ) (useGalilean : Bool) : Scheme :=
  match V, useGalilean with
  | none, _ => .standard
  | some V, true => .galilean V
  | some V, false => .comoving V

theorem omega_sq (k : Consts) (kz kr : ℝ) : omega k kz kr ^ 2 = k.c ^ 2 * (kz ^ 2 + kr ^ 2) := by
  unfold omega
  rw [mul_pow, Real.sq_sqrt (by positivity)]

theorem omega_eq_zero {k : Consts} (hk : k.Ok) {kz kr : ℝ} (h : omega k kz kr = 0) :
    kz = 0 ∧ kr = 0 := by
  have h1 := omega_sq k kz kr
  rw [h] at h1
  have h2 : kz ^ 2 + kr ^ 2 = 0 := by
    have := hk.c_pos
    have h3 : k.c ^ 2 ≠ 0 := by positivity
    have h4 : k.c ^ 2 * (kz ^ 2 + kr ^ 2) = 0 := by rw [← h1]; ring
    exact (mul_eq_zero.1 h4).resolve_left h3
  constructor <;> nlinarith [sq_nonneg kz, sq_nonneg kr]

theorem omega_zero (k : Consts) : omega k 0 0 = 0 := by simp [omega]

theorem coefSw_of_ne {k : Consts} {kz kr : ℝ} (dt : ℝ) (h : omega k kz kr ≠ 0) :
    coefSw k kz kr dt = Real.sin (omega k kz kr * dt) / omega k kz kr := by
  rw [coefSw, if_neg h, invOmega, if_neg h]; ring

theorem cos_sin_omega (k : Consts) (kz kr dt : ℝ) :
    coefC k kz kr dt ^ 2 + omega k kz kr ^ 2 * coefSw k kz kr dt ^ 2 = 1 := by
  by_cases h : omega k kz kr = 0
  · simp [coefC, h]
  · rw [coefSw_of_ne dt h, coefC]
    have := Real.sin_sq_add_cos_sq (omega k kz kr * dt)
    field_simp
    linarith

theorem drift_ne {k : Consts} (hk : k.Ok) {kz kr V : ℝ} (hV : |V| < k.c)
    (hz : kz ≠ 0) : omega k kz kr ^ 2 - kz ^ 2 * V ^ 2 ≠ 0 := by
  rw [omega_sq]
  have h1 : V ^ 2 < k.c ^ 2 := by
    rw [← sq_abs V]; exact pow_lt_pow_left₀ hV (abs_nonneg V) (by norm_num)
  have h2 : 0 < kz ^ 2 := by positivity
  have h3 : 0 ≤ k.c ^ 2 * kr ^ 2 := by positivity
  have : 0 < k.c ^ 2 * (kz ^ 2 + kr ^ 2) - kz ^ 2 * V ^ 2 := by nlinarith
  exact this.ne'

theorem coefT2_ne_zero (kz dt V : ℝ) : coefT2 kz dt V ≠ 0 := exp_ne_zero _

theorem coefTcc_ne_zero (kz dt V : ℝ) (b : Bool) : coefTcc kz dt V b ≠ 0 := by
  unfold coefTcc; split_ifs
  · exact one_ne_zero
  · exact exp_ne_zero _

theorem coefTeb_Tcc (kz dt V : ℝ) (b : Bool) :
    coefTeb kz dt V b * coefTcc kz dt V b ^ 2 = coefT2 kz dt V := by
  unfold coefTeb coefTcc coefT2
  cases b
  · simp only [Bool.false_eq_true, if_false, one_mul]
    rw [← exp_nat_mul]
    congr 1
    push_cast; ring
  · simp

theorem coefTeb_ne_zero (kz dt V : ℝ) (b : Bool) : coefTeb kz dt V b ≠ 0 := by
  unfold coefTeb; split_ifs
  · exact coefT2_ne_zero _ _ _
  · exact one_ne_zero

/-- What the coefficients have to be, in terms of the functions in the closed form. -/
structure CoefsAre (k : Consts) (kz kr V : ℝ) (Teb Tcc Trho jc rp rn S j b r1 r2 : ℂ) : Prop where
  hj : jc = Teb * j * Tcc
  hb : jc * I * kz * V - k.c ^ 2 * k.mu0 * Teb * S * Tcc = Teb * b * Tcc
  hr1 : kz = 0 ∧ kr = 0 ∨ (Teb * rn - rp) * k.eps0 = Teb * r1
  hr2 : kz = 0 ∧ kr = 0 ∨ Trho * rn = Teb * r2 * Tcc

/-- The comoving push in closed form. -/
theorem pushEBComoving_eq {k : Consts} {kz kr : ℝ} {ps : PsatdCoefs} {a : ComovCoefs}
    {j b r1 r2 : ℂ}
    (h : CoefsAre k kz kr a.V a.Teb a.Tcc a.Trho ps.jCoef ps.rhoPrevCoef ps.rhoNextCoef ps.Sw
      j b r1 r2) (s : SpecCell) :
    (pushEBComoving k kz kr ps a false s).em
      = (closed k.c kz kr ps.C ps.Sw j b r1 r2 s.em.E s.em.B
          ⟨a.Tcc * s.Jp, a.Tcc * s.Jm, a.Tcc * s.Jz⟩).smul a.Teb := by
  have hg : ∀ x : ℂ, (kz = 0 ∧ kr = 0 → x = 0) → x * ((a.Teb * ps.rhoNextCoef - ps.rhoPrevCoef)
        * k.eps0 * (kr * (s.Ep - s.Em) + I * kz * s.Ez)
        + a.Trho * ps.rhoNextCoef * (kr * (s.Jp - s.Jm) + I * kz * s.Jz))
      = x * (a.Teb * r1 * (kr * (s.Ep - s.Em) + I * kz * s.Ez)
        + a.Teb * r2 * a.Tcc * (kr * (s.Jp - s.Jm) + I * kz * s.Jz)) := by
    intro x hx
    by_cases hk : kz = 0 ∧ kr = 0
    · rw [hx hk]; ring
    · rw [h.hr1.resolve_left hk, h.hr2.resolve_left hk]
  have h1 := hg (0.5 * kr) (by rintro ⟨-, rfl⟩; simp)
  have h2 := hg (I * kz) (by rintro ⟨rfl, -⟩; simp)
  have hj := h.hj
  have hb := h.hb
  simp only [pushEBComoving, SpecCell.em, closed, EM.smul, curl, div, grad, Bool.false_eq_true,
    if_false]
  rw [hj] at hb ⊢
  ext1 <;> ext1 <;> simp only
  · linear_combination h1 + s.Jp * hb
  · linear_combination -h1 + s.Jm * hb
  · linear_combination -h2 + s.Jz * hb
  · ring
  · ring
  · ring

/-- The standard push in closed form. -/
theorem pushEBStandard_eq {k : Consts} {kz kr : ℝ} {ps : PsatdCoefs} {j b r1 r2 : ℂ}
    (h : CoefsAre k kz kr 0 1 1 (-ps.dt) ps.jCoef ps.rhoPrevCoef ps.rhoNextCoef ps.Sw j b r1 r2)
    (s : SpecCell) :
    (pushEBStandard k kz kr ps false s).em
      = closed k.c kz kr ps.C ps.Sw j b r1 r2 s.em.E s.em.B s.J := by
  have := pushEBComoving_eq (ps := ps) (a := ⟨0, 1, 1, -ps.dt, 0⟩) h s
  have h2 : pushEBStandard k kz kr ps false s
      = pushEBComoving k kz kr ps ⟨0, 1, 1, -ps.dt, 0⟩ false s := by
    simp only [pushEBStandard, pushEBComoving, Bool.false_eq_true, if_false]
    congr 1 <;> push_cast <;> ring
  rw [h2, this]
  simp only [closed, EM.smul, one_mul, SpecCell.J]

/-- Solution from the closed form, for a current that is constant or moving. -/
theorem exact_of_closed {k : Consts} (hk : k.Ok) {kz kr nu Vg dt : ℝ} {C S j b r1 r2 : ℝ → ℂ}
    (hode : CoefODE k.c k.mu0 kz kr nu C S j b r1 r2)
    (h0 : C 0 = 1 ∧ S 0 = 0 ∧ j 0 = 0 ∧ b 0 = 0 ∧ r1 0 = 0 ∧ r2 0 = 0)
    (J0 : V3) (J : ℝ → V3) (hJ : ∀ t, J t = ⟨exp (I * kz * Vg * t) * (exp (-(I * nu * t)) * J0.p),
      exp (I * kz * Vg * t) * (exp (-(I * nu * t)) * J0.m),
      exp (I * kz * Vg * t) * (exp (-(I * nu * t)) * J0.z)⟩)
    (f : ℝ → EM) (hf : IsMaxwell k.c k.mu0 kz kr Vg J f) (hB : div kz kr (f 0).B = 0) :
    f dt = (closed k.c kz kr (C dt) (S dt) (j dt) (b dt) (r1 dt) (r2 dt) (f 0).E (f 0).B J0).smul
      (exp (I * kz * Vg * dt)) := by
  have h1 := (isMaxwell_closed hode (f 0).E (f 0).B J0 hB).toMoving (V := Vg)
  have h2 : J = _ := funext hJ
  rw [h2] at hf
  refine hf.unique hk.c_pos.ne' h1 0 ?_ dt
  obtain ⟨a1, a2, a3, a4, a5, a6⟩ := h0
  simp [closed, EM.smul, grad, a1, a2, a3, a4, a5, a6]

/-- The coefficients are the values at `dt` of functions that solve the coefficient equations. -/
structure HasClosed (k : Consts) (kz kr dt v : ℝ) (Teb Tcc Trho : ℂ) (ps : PsatdCoefs)
    (C S j b r1 r2 : ℝ → ℂ) : Prop where
  ode : CoefODE k.c k.mu0 kz kr (kz * v) C S j b r1 r2
  init : C 0 = 1 ∧ S 0 = 0 ∧ j 0 = 0 ∧ b 0 = 0 ∧ r1 0 = 0 ∧ r2 0 = 0
  hC : ps.C = C dt
  hS : ps.Sw = S dt
  coefs : CoefsAre k kz kr v Teb Tcc Trho ps.jCoef ps.rhoPrevCoef ps.rhoNextCoef ps.Sw
    (j dt) (b dt) (r1 dt) (r2 dt)

theorem consts_rel {k : Consts} (hk : k.Ok) : (k.eps0 : ℂ) ≠ 0 ∧
    (k.c : ℂ) ^ 2 / k.eps0 = k.c ^ 4 * k.mu0 := by
  have h0 : (k.eps0 : ℂ) ≠ 0 := by exact_mod_cast hk.eps0_pos.ne'
  refine ⟨h0, ?_⟩
  have h : (k.mu0 * k.eps0 * k.c ^ 2 : ℂ) = 1 := by exact_mod_cast hk.rel
  field_simp
  linear_combination (-(k.c : ℂ) ^ 2) * h

/-- Zero wavenumber. -/
theorem hasClosed_zero {k : Consts} (dt v : ℝ) (V : Option ℝ) (b : Bool) {Trho : ℂ}
    (Teb Tcc : ℂ) (hTeb : Teb = 1) (hTcc : Tcc = 1) :
    HasClosed k 0 0 dt v Teb Tcc Trho (psatdCoefs k 0 0 dt V b) (fun _ => 1) (fun t => t)
      (fun t => k.c ^ 2 * k.mu0 * (1 / 2 * t ^ 2)) (fun t => -(k.c ^ 2 * k.mu0 * t))
      (fun _ => 0) (fun _ => 0) where
  ode := by rw [zero_mul]; exact coefODE_zero k.c k.mu0
  init := by simp
  hC := by simp [psatdCoefs, coefC, omega_zero]
  hS := by simp [psatdCoefs, coefSw, omega_zero]
  coefs :=
    { hj := by
        simp only [psatdCoefs, coefJ, omega_zero, if_true, hTeb, hTcc]; push_cast; ring
      hb := by
        simp only [psatdCoefs, coefJ, coefSw, omega_zero, if_true, hTeb, hTcc]; push_cast; ring
      hr1 := Or.inl ⟨rfl, rfl⟩
      hr2 := Or.inl ⟨rfl, rfl⟩ }

/-- Constant current at a non-zero wavenumber, from the values of the coefficients. -/
theorem hasClosed_static {k : Consts} (hk : k.Ok) {kz kr dt v : ℝ} (hdt : dt ≠ 0)
    (hw : omega k kz kr ≠ 0) (hv : kz * v = 0) {ps : PsatdCoefs} {Teb Tcc : ℂ}
    (hTeb : Teb = 1) (hTcc : Tcc = 1)
    (h1 : ps.C = coefC k kz kr dt) (h2 : ps.Sw = coefSw k kz kr dt)
    (h3 : ps.jCoef = k.mu0 * k.c ^ 2 * (1 - coefC k kz kr dt) / omega k kz kr ^ 2)
    (h4 : ps.rhoPrevCoef
      = k.c ^ 2 / k.eps0 * (coefC k kz kr dt - 1 / dt * coefSw k kz kr dt) / omega k kz kr ^ 2)
    (h5 : ps.rhoNextCoef
      = k.c ^ 2 / k.eps0 * (1 - 1 / dt * coefSw k kz kr dt) / omega k kz kr ^ 2) :
    HasClosed k kz kr dt v Teb Tcc (-dt) ps
      (fun t => (Real.cos (omega k kz kr * t) : ℝ))
      (fun t => (Real.sin (omega k kz kr * t) : ℝ) / omega k kz kr)
      (fun t => k.c ^ 2 * k.mu0 * (1 - (Real.cos (omega k kz kr * t) : ℝ)) / omega k kz kr ^ 2)
      (fun t => -(k.c ^ 2 * k.mu0 * ((Real.sin (omega k kz kr * t) : ℝ) / omega k kz kr)))
      (fun t => k.c ^ 2 * (1 - (Real.cos (omega k kz kr * t) : ℝ)) / omega k kz kr ^ 2)
      (fun t => -(k.c ^ 4 * k.mu0 * (t - (Real.sin (omega k kz kr * t) : ℝ) / omega k kz kr)
        / omega k kz kr ^ 2)) := by
  obtain ⟨he, hrel⟩ := consts_rel hk
  have hwc : (omega k kz kr : ℂ) ≠ 0 := by exact_mod_cast hw
  have hdc : (dt : ℂ) ≠ 0 := by exact_mod_cast hdt
  have hvc : (kz : ℂ) * v = 0 := by exact_mod_cast hv
  have hC : (coefC k kz kr dt : ℂ) = (Real.cos (omega k kz kr * dt) : ℝ) := rfl
  have hS : (coefSw k kz kr dt : ℂ) = (Real.sin (omega k kz kr * dt) : ℝ) / omega k kz kr := by
    rw [coefSw_of_ne dt hw]; push_cast; rfl
  refine ⟨?_, ?_, ?_, ?_, ?_, ?_, ?_, ?_⟩
  · rw [hv]; exact coefODE_static k.c k.mu0 kz kr _ hw (omega_sq k kz kr)
  · simp
  · rw [h1]; rfl
  · rw [h2, hS]
  · rw [h3, hTeb, hTcc, hC]; ring
  · rw [h3, h2, hTeb, hTcc, hS]
    linear_combination (k.mu0 * k.c ^ 2 * (1 - coefC k kz kr dt) / omega k kz kr ^ 2 * I) * hvc
  · refine Or.inr ?_
    rw [h4, h5, hTeb, hC]; field_simp; ring
  · refine Or.inr ?_
    rw [h5, hTeb, hTcc, hrel, hS]; field_simp

/-- Moving current at a non-zero wavenumber. -/
theorem hasClosed_drift {k : Consts} (hk : k.Ok) {kz kr dt v : ℝ} (b : Bool)
    (hz : kz ≠ 0) (hv : v ≠ 0) (hvc : |v| < k.c) (hT : coefT2 kz dt v ≠ 1) :
    HasClosed k kz kr dt v (coefTeb kz dt v b) (coefTcc kz dt v b) (coefTrho kz dt v b)
      (psatdCoefs k kz kr dt (some v) b)
      (fun t => (Real.cos (omega k kz kr * t) : ℝ))
      (fun t => (Real.sin (omega k kz kr * t) : ℝ) / omega k kz kr)
      (fun t => k.c ^ 2 * k.mu0 * (exp (-(I * (kz * v : ℝ)) * t)
        - (Real.cos (omega k kz kr * t) : ℝ)
        + I * (kz * v : ℝ) * ((Real.sin (omega k kz kr * t) : ℝ) / omega k kz kr))
        / (omega k kz kr ^ 2 - (kz * v : ℝ) ^ 2))
      (fun t => k.c ^ 2 * k.mu0 * (I * (kz * v : ℝ) * exp (-(I * (kz * v : ℝ)) * t)
        - I * (kz * v : ℝ) * (Real.cos (omega k kz kr * t) : ℝ)
        - omega k kz kr * (Real.sin (omega k kz kr * t) : ℝ))
        / (omega k kz kr ^ 2 - (kz * v : ℝ) ^ 2))
      (fun t => k.c ^ 2 * (1 - (Real.cos (omega k kz kr * t) : ℝ)) / omega k kz kr ^ 2)
      (fun t => -(k.c ^ 4 * k.mu0 * ((1 - exp (-(I * (kz * v : ℝ)) * t)) / (I * (kz * v : ℝ))
        - (Real.sin (omega k kz kr * t) : ℝ) / omega k kz kr
        + I * (kz * v : ℝ) * (1 - (Real.cos (omega k kz kr * t) : ℝ)) / omega k kz kr ^ 2)
        / (omega k kz kr ^ 2 - (kz * v : ℝ) ^ 2))) := by
  obtain ⟨he, hrel⟩ := consts_rel hk
  have hw : omega k kz kr ≠ 0 := fun h => hz (omega_eq_zero hk h).1
  have hne := drift_ne hk (kr := kr) hvc hz
  have hne' : omega k kz kr ^ 2 - (kz * v) ^ 2 ≠ 0 := by rw [mul_pow]; exact hne
  have hwc : (omega k kz kr : ℂ) ≠ 0 := by exact_mod_cast hw
  have hzc : (kz : ℂ) ≠ 0 := by exact_mod_cast hz
  have hvc : (v : ℂ) ≠ 0 := by exact_mod_cast hv
  have hnd : ¬ noDrift (some v) := by simp [noDrift, hv]
  have hD : (omega k kz kr : ℂ) ^ 2 - (kz * v) ^ 2 ≠ 0 := by exact_mod_cast hne'
  have hD2 : (omega k kz kr : ℂ) ^ 2 - kz ^ 2 * v ^ 2 ≠ 0 := by exact_mod_cast hne
  have hT1 : 1 - coefT2 kz dt v ≠ 0 := sub_ne_zero.2 (Ne.symm hT)
  have hC : (coefC k kz kr dt : ℂ) = (Real.cos (omega k kz kr * dt) : ℝ) := rfl
  have hS : (coefSw k kz kr dt : ℂ) = (Real.sin (omega k kz kr * dt) : ℝ) / omega k kz kr := by
    rw [coefSw_of_ne dt hw]; push_cast; rfl
  have hexp : exp (-(I * (kz * v : ℝ)) * dt) = 1 / coefT2 kz dt v := by
    rw [coefT2, one_div, ← exp_neg]; congr 1; push_cast; ring
  have hinv : (invWkzV k kz kr v : ℂ) = 1 / (omega k kz kr ^ 2 - (kz * v) ^ 2) := by
    rw [invWkzV, if_neg hne]; push_cast; rw [mul_pow]
  have hi1 : inv1T2 kz dt v = 1 / (1 - coefT2 kz dt v) := by rw [inv1T2, if_neg hT]
  have hiw : (invOmega k kz kr : ℂ) = 1 / omega k kz kr := by rw [invOmega, if_neg hw]; push_cast; rfl
  have hTT := coefTeb_Tcc kz dt v b
  have hT2 := coefT2_ne_zero kz dt v
  have hTcc := coefTcc_ne_zero kz dt v b
  have hTeb := coefTeb_ne_zero kz dt v b
  have hjc : (psatdCoefs k kz kr dt (some v) b).jCoef
      = k.mu0 * k.c ^ 2 * (1 / coefTcc kz dt v b * (1 / (omega k kz kr ^ 2 - (kz * v) ^ 2))
      * (1 - coefT2 kz dt v * (Real.cos (omega k kz kr * dt) : ℝ) + I * kz * v * coefT2 kz dt v *
        ((Real.sin (omega k kz kr * dt) : ℝ) / omega k kz kr))) := by
    simp only [psatdCoefs, coefJ, if_neg hw, if_neg hnd, Option.getD_some, xi1, hinv, hS, hC]
  have hrn : (psatdCoefs k kz kr dt (some v) b).rhoNextCoef = k.c ^ 2 / k.eps0 *
      (1 / (omega k kz kr ^ 2 - (kz * v) ^ 2) * (1
      + I * kz * v * coefT2 kz dt v * ((Real.sin (omega k kz kr * dt) : ℝ) / omega k kz kr)
        * (1 / (1 - coefT2 kz dt v))
      + kz ^ 2 * v ^ 2 * (1 / omega k kz kr) ^ 2 * coefT2 kz dt v *
        (1 / (1 - coefT2 kz dt v)) * (1 - (Real.cos (omega k kz kr * dt) : ℝ)))) := by
    simp only [psatdCoefs, coefRhoNext, if_neg hw, if_neg hnd, Option.getD_some, xi2, if_pos hz,
      hinv, hS, hC, hi1, hiw]
  have hrp : (psatdCoefs k kz kr dt (some v) b).rhoPrevCoef = k.c ^ 2 / k.eps0 *
      (coefTeb kz dt v b * (1 / (omega k kz kr ^ 2 - (kz * v) ^ 2))
      * ((Real.cos (omega k kz kr * dt) : ℝ)
      + I * kz * v * coefT2 kz dt v * ((Real.sin (omega k kz kr * dt) : ℝ) / omega k kz kr)
        * (1 / (1 - coefT2 kz dt v))
      + kz ^ 2 * v ^ 2 * (1 / omega k kz kr) ^ 2 *
        (1 / (1 - coefT2 kz dt v)) * (1 - (Real.cos (omega k kz kr * dt) : ℝ)))) := by
    simp only [psatdCoefs, coefRhoPrev, if_neg hw, if_neg hnd, Option.getD_some, xi3, if_pos hz,
      hinv, hS, hC, hi1, hiw]
  have hTr : coefTrho kz dt v b = (1 - coefT2 kz dt v) / (coefTcc kz dt v b * (I * kz * v)) := by
    simp only [coefTrho, ne_eq, hv, not_false_eq_true, if_true, hz, if_false]
  have hSw : (psatdCoefs k kz kr dt (some v) b).Sw
      = (Real.sin (omega k kz kr * dt) : ℝ) / omega k kz kr := hS
  have hCp : (psatdCoefs k kz kr dt (some v) b).C = (Real.cos (omega k kz kr * dt) : ℝ) := rfl
  have hode := coefODE_drift k.c k.mu0 kz kr (omega k kz kr) (kz * v) hw (mul_ne_zero hz hv) hne'
    (omega_sq k kz kr)
  refine ⟨hode, ?_, hCp, hSw, ?_, ?_, ?_, ?_⟩
  · simp
  · rw [hjc, hexp, ← hTT]
    push_cast
    field_simp
  · rw [hjc, hSw, hexp, ← hTT]
    push_cast
    field_simp
    ring_nf
    simp only [I_sq]
    ring
  · refine Or.inr ?_
    rw [hrn, hrp]
    push_cast
    field_simp
    ring
  · refine Or.inr ?_
    rw [hTr, hrn, hexp, hrel, ← hTT]
    rw [← hTT] at hT1
    push_cast
    field_simp
    ring_nf
    simp only [I_sq]
    ring

end Fbpic
