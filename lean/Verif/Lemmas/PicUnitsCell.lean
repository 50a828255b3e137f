import Verif.Spec.PicUnits
import Verif.Lemmas.PicScale
import Verif.Lemmas.Tactics

/-!
# Units: the spectral solver
-/

namespace Fbpic.Pic

open Complex
open Spec (Rescaling)

namespace Units

variable (U : Rescaling)

theorem len_ne : U.len ≠ 0 := U.len_pos.ne'
theorem tim_ne : U.tim ≠ 0 := U.tim_pos.ne'
theorem mass_ne : U.mass ≠ 0 := U.mass_pos.ne'
theorem wgt_ne : U.wgt ≠ 0 := U.wgt_pos.ne'

theorem len_neC : (U.len : ℂ) ≠ 0 := by exact_mod_cast len_ne U
theorem tim_neC : (U.tim : ℂ) ≠ 0 := by exact_mod_cast tim_ne U
theorem mass_neC : (U.mass : ℂ) ≠ 0 := by exact_mod_cast mass_ne U
theorem wgt_neC : (U.wgt : ℂ) ≠ 0 := by exact_mod_cast wgt_ne U
theorem chg_neC : (U.chg : ℂ) ≠ 0 := by exact_mod_cast U.chg_ne

/-- Coefficient of the current. -/
noncomputable def jFac : ℝ := U.B * U.len / U.J

/-- Coefficient of the charge density. -/
noncomputable def rFac : ℝ := U.E * U.len / U.rho

/-- The coefficients of the comoving scheme. -/
noncomputable def comov (a : ComovCoefs) : ComovCoefs where
  V := U.len / U.tim * a.V
  Teb := a.Teb
  Tcc := a.Tcc
  Trho := U.tim * a.Trho
  jCorr := a.jCorr / U.tim

/-- All the coefficients. -/
noncomputable def coefs (p : PsatdCoefs) : PsatdCoefs where
  dt := U.tim * p.dt
  C := p.C
  Sw := U.tim * p.Sw
  jCoef := jFac U * p.jCoef
  rhoPrevCoef := rFac U * p.rhoPrevCoef
  rhoNextCoef := rFac U * p.rhoNextCoef
  comov := p.comov.map (comov U)

variable (k : Consts) (kz kr dt : ℝ)

theorem omega_u : omega (U.consts k) (kz / U.len) (kr / U.len) = omega k kz kr / U.tim := by
  unfold omega
  have h : (kz / U.len) ^ 2 + (kr / U.len) ^ 2 = (kz ^ 2 + kr ^ 2) / U.len ^ 2 := by
    have := len_ne U
    field_simp
  rw [h, Real.sqrt_div' _ (by positivity), Real.sqrt_sq U.len_pos.le]
  show U.len / U.tim * k.c * _ = _
  have := len_ne U
  have := tim_ne U
  field_simp

theorem omega_zero : omega (U.consts k) (kz / U.len) (kr / U.len) = 0 ↔ omega k kz kr = 0 := by
  rw [omega_u, div_eq_zero_iff]
  simp [tim_ne U]

theorem invOmega_u (h : omega k kz kr ≠ 0) :
    invOmega (U.consts k) (kz / U.len) (kr / U.len) = U.tim * invOmega k kz kr := by
  unfold invOmega
  rw [if_neg h, if_neg ((omega_zero U k kz kr).not.2 h), omega_u]
  have := tim_ne U
  field_simp

theorem coefC_u : coefC (U.consts k) (kz / U.len) (kr / U.len) (U.tim * dt) = coefC k kz kr dt := by
  unfold coefC
  rw [omega_u]
  have := tim_ne U
  congr 1; field_simp

theorem coefSw_u : coefSw (U.consts k) (kz / U.len) (kr / U.len) (U.tim * dt) = U.tim * coefSw k kz kr dt := by
  unfold coefSw
  by_cases h : omega k kz kr = 0
  · rw [if_pos h, if_pos ((omega_zero U k kz kr).2 h)]
  · rw [if_neg h, if_neg ((omega_zero U k kz kr).not.2 h), invOmega_u U k kz kr h, omega_u]
    have := tim_ne U
    rw [show omega k kz kr / U.tim * (U.tim * dt) = omega k kz kr * dt by field_simp]
    ring

theorem kzV_u (V : ℝ) : ((kz / U.len : ℝ) : ℂ) * ((U.len / U.tim * V : ℝ) : ℂ) = kz * V / U.tim := by
  have := len_neC U
  have := tim_neC U
  push_cast; field_simp

theorem coefT2_u (V : ℝ) : coefT2 (kz / U.len) (U.tim * dt) (U.len / U.tim * V) = coefT2 kz dt V := by
  unfold coefT2
  have h1 := len_neC U
  have h2 := tim_neC U
  congr 1; push_cast; field_simp

theorem coefTeb_u (V : ℝ) (g : Bool) :
    coefTeb (kz / U.len) (U.tim * dt) (U.len / U.tim * V) g = coefTeb kz dt V g := by
  unfold coefTeb
  rw [coefT2_u]

theorem coefTcc_u (V : ℝ) (g : Bool) :
    coefTcc (kz / U.len) (U.tim * dt) (U.len / U.tim * V) g = coefTcc kz dt V g := by
  unfold coefTcc
  have h1 := len_neC U
  have h2 := tim_neC U
  split_ifs
  · rfl
  · congr 1; push_cast; field_simp

theorem V_zero (V : ℝ) : U.len / U.tim * V = 0 ↔ V = 0 := by
  simp [len_ne U, tim_ne U]

theorem k_zero : kz / U.len = 0 ↔ kz = 0 := by
  simp [len_ne U]

theorem coefTrho_u (V : ℝ) (g : Bool) :
    coefTrho (kz / U.len) (U.tim * dt) (U.len / U.tim * V) g = U.tim * coefTrho kz dt V g := by
  unfold coefTrho
  rw [coefT2_u, coefTcc_u]
  simp only [ne_eq, V_zero, k_zero]
  have h1 := len_neC U
  have h2 := tim_neC U
  split_ifs with hV hk
  · push_cast; ring
  · push_cast; ring
  · rw [mul_assoc I, mul_assoc I, kzV_u, ← mul_div_assoc, ← mul_div_assoc, div_div_eq_mul_div]
    ring

theorem inv1T2_u (V : ℝ) : inv1T2 (kz / U.len) (U.tim * dt) (U.len / U.tim * V) = inv1T2 kz dt V := by
  unfold inv1T2
  rw [coefT2_u]

theorem coefJcorr_u (V : ℝ) :
    coefJcorr (kz / U.len) (U.tim * dt) (U.len / U.tim * V) = coefJcorr kz dt V / U.tim := by
  unfold coefJcorr
  rw [inv1T2_u]
  simp only [ne_eq, V_zero, k_zero]
  split_ifs with hV hk
  · push_cast; rw [one_div, mul_inv, one_div]; ring
  · push_cast; rw [one_div, mul_inv, one_div]; ring
  · rw [mul_assoc (-I), mul_assoc (-I), kzV_u]; ring

/-- The frame is slower than light. -/
theorem invWkzV_u (V : ℝ) (hc : 0 < k.c) (hV : |V| < k.c) (h : omega k kz kr ≠ 0) :
    invWkzV (U.consts k) (kz / U.len) (kr / U.len) (U.len / U.tim * V) = U.tim ^ 2 * invWkzV k kz kr V := by
  have hk : 0 < kz ^ 2 + kr ^ 2 := by
    by_contra h0
    have : kz ^ 2 + kr ^ 2 = 0 := le_antisymm (not_lt.1 h0) (by positivity)
    exact h (by unfold omega; rw [this]; simp)
  have hw : omega k kz kr ^ 2 = k.c ^ 2 * (kz ^ 2 + kr ^ 2) := by
    unfold omega; rw [mul_pow, Real.sq_sqrt hk.le]
  have hV2 : V ^ 2 < k.c ^ 2 := by
    rw [← sq_abs]; exact pow_lt_pow_left₀ hV (abs_nonneg V) (by norm_num)
  have hpos : 0 < omega k kz kr ^ 2 - kz ^ 2 * V ^ 2 := by
    rw [hw]
    rcases eq_or_ne kz 0 with h0 | h0
    · rw [h0] at hk ⊢
      have : 0 < k.c ^ 2 * (0 ^ 2 + kr ^ 2) := mul_pos (by positivity) hk
      nlinarith
    · have h1 : 0 < kz ^ 2 := by positivity
      nlinarith [mul_pos h1 (sub_pos.2 hV2), mul_nonneg (sq_nonneg k.c) (sq_nonneg kr)]
  have e : omega (U.consts k) (kz / U.len) (kr / U.len) ^ 2 - (kz / U.len) ^ 2 * (U.len / U.tim * V) ^ 2
      = (omega k kz kr ^ 2 - kz ^ 2 * V ^ 2) / U.tim ^ 2 := by
    rw [omega_u]
    have := len_ne U
    have := tim_ne U
    field_simp
  unfold invWkzV
  rw [e, if_neg hpos.ne', if_neg (div_pos hpos (by have := U.tim_pos; positivity)).ne']
  have := tim_ne U
  field_simp

theorem kzVr_u (V : ℝ) : ((kz / U.len : ℝ) : ℂ) ^ 2 * ((U.len / U.tim * V : ℝ) : ℂ) ^ 2
    = (kz : ℂ) ^ 2 * (V : ℂ) ^ 2 / (U.tim : ℂ) ^ 2 := by
  rw [← mul_pow, kzV_u, div_pow, mul_pow]

theorem xi1_u (V : ℝ) (g : Bool) (hc : 0 < k.c) (hV : |V| < k.c) (h : omega k kz kr ≠ 0) :
    xi1 (U.consts k) (kz / U.len) (kr / U.len) (U.tim * dt) (U.len / U.tim * V) g
      = U.tim ^ 2 * xi1 k kz kr dt V g := by
  unfold xi1
  rw [coefTcc_u, invWkzV_u U k kz kr V hc hV h, coefT2_u, coefC_u, coefSw_u, mul_assoc I, kzV_u]
  have h2 := tim_neC U
  push_cast
  have : (U.tim : ℂ) * (coefSw k kz kr dt : ℂ) / U.tim = coefSw k kz kr dt := by field_simp
  linear_combination (1 / coefTcc kz dt V g * ((U.tim : ℂ) ^ 2 * invWkzV k kz kr V) * I * kz * V
    * coefT2 kz dt V) * this

theorem xi2_u (V : ℝ) (hc : 0 < k.c) (hV : |V| < k.c) (h : omega k kz kr ≠ 0) :
    xi2 (U.consts k) (kz / U.len) (kr / U.len) (U.tim * dt) (U.len / U.tim * V)
      = U.tim ^ 2 * xi2 k kz kr dt V := by
  unfold xi2
  simp only [ne_eq, k_zero]
  have h2 := tim_neC U
  split_ifs with hk
  · rw [coefSw_u, invOmega_u U k kz kr h]
    push_cast
    have e1 : (U.tim : ℂ) * (coefSw k kz kr dt : ℂ) * (1 / (U.tim * dt)) = coefSw k kz kr dt * (1 / dt) := by
      rw [one_div, mul_inv, one_div]; field_simp
    rw [e1]; ring
  · rw [invWkzV_u U k kz kr V hc hV h, coefT2_u, coefC_u, coefSw_u, mul_assoc I, kzV_u, inv1T2_u, kzVr_u,
      invOmega_u U k kz kr h]
    push_cast
    have e1 : (U.tim : ℂ) * (coefSw k kz kr dt : ℂ) / U.tim = coefSw k kz kr dt := by field_simp
    have e2 : (kz : ℂ) ^ 2 * (V : ℂ) ^ 2 / (U.tim : ℂ) ^ 2 * ((U.tim : ℂ) * invOmega k kz kr) ^ 2
        = (kz : ℂ) ^ 2 * (V : ℂ) ^ 2 * invOmega k kz kr ^ 2 := by field_simp
    rw [e2]
    linear_combination ((U.tim : ℂ) ^ 2 * invWkzV k kz kr V * I * kz * V * coefT2 kz dt V * inv1T2 kz dt V) * e1

theorem xi3_u (V : ℝ) (g : Bool) (hc : 0 < k.c) (hV : |V| < k.c) (h : omega k kz kr ≠ 0) :
    xi3 (U.consts k) (kz / U.len) (kr / U.len) (U.tim * dt) (U.len / U.tim * V) g
      = U.tim ^ 2 * xi3 k kz kr dt V g := by
  unfold xi3
  simp only [ne_eq, k_zero]
  have h2 := tim_neC U
  split_ifs with hk
  · rw [coefSw_u, coefC_u, invOmega_u U k kz kr h]
    push_cast
    have e1 : (U.tim : ℂ) * (coefSw k kz kr dt : ℂ) * (1 / (U.tim * dt)) = coefSw k kz kr dt * (1 / dt) := by
      rw [one_div, mul_inv, one_div]; field_simp
    rw [e1]; ring
  · rw [coefTeb_u, invWkzV_u U k kz kr V hc hV h, coefT2_u, coefC_u, coefSw_u, mul_assoc I, kzV_u, inv1T2_u, kzVr_u,
      invOmega_u U k kz kr h]
    push_cast
    have e1 : (U.tim : ℂ) * (coefSw k kz kr dt : ℂ) / U.tim = coefSw k kz kr dt := by field_simp
    have e2 : (kz : ℂ) ^ 2 * (V : ℂ) ^ 2 / (U.tim : ℂ) ^ 2 * ((U.tim : ℂ) * invOmega k kz kr) ^ 2
        = (kz : ℂ) ^ 2 * (V : ℂ) ^ 2 * invOmega k kz kr ^ 2 := by field_simp
    rw [e2]
    linear_combination (coefTeb kz dt V g * (U.tim : ℂ) ^ 2 * invWkzV k kz kr V * I * kz * V * coefT2 kz dt V
      * inv1T2 kz dt V) * e1

theorem noDrift_u (V : Option ℝ) : noDrift (V.map fun v => U.len / U.tim * v) ↔ noDrift V := by
  unfold noDrift
  cases V with
  | none => simp
  | some v => simp [len_ne U, tim_ne U]

theorem getD_u (V : Option ℝ) : (V.map fun v => U.len / U.tim * v).getD 0 = U.len / U.tim * V.getD 0 := by
  cases V <;> simp

theorem jFac_eq : ((U.consts k).mu0 : ℂ) * ((U.consts k).c : ℂ) ^ 2 * (U.tim : ℂ) ^ 2
    = (jFac U : ℂ) * (k.mu0 * k.c ^ 2) := by
  have h1 := len_neC U
  have h2 := tim_neC U
  have h3 := mass_neC U
  have h4 := wgt_neC U
  have h5 := chg_neC U
  simp only [Rescaling.consts, jFac, Rescaling.B, Rescaling.J]
  push_cast; field_simp

theorem rFac_eq : ((U.consts k).c : ℂ) ^ 2 / ((U.consts k).eps0 : ℂ) * (U.tim : ℂ) ^ 2
    = (rFac U : ℂ) * (k.c ^ 2 / k.eps0) := by
  have h1 := len_neC U
  have h2 := tim_neC U
  have h3 := mass_neC U
  have h4 := wgt_neC U
  have h5 := chg_neC U
  simp only [Rescaling.consts, rFac, Rescaling.E, Rescaling.rho]
  rcases eq_or_ne (k.eps0 : ℂ) 0 with h0 | h0
  · push_cast; simp [h0]
  · push_cast; field_simp

variable (V : Option ℝ) (g : Bool)

theorem coefJ_u (hc : 0 < k.c) (hV : ∀ v, V = some v → |v| < k.c) :
    coefJ (U.consts k) (kz / U.len) (kr / U.len) (U.tim * dt) (V.map fun v => U.len / U.tim * v) g
      = jFac U * coefJ k kz kr dt V g := by
  have hj := jFac_eq U k
  unfold coefJ
  by_cases h : omega k kz kr = 0
  · rw [if_pos h, if_pos ((omega_zero U k kz kr).2 h)]
    push_cast; linear_combination (0.5 * (dt : ℂ) ^ 2) * hj
  rw [if_neg h, if_neg ((omega_zero U k kz kr).not.2 h)]
  by_cases h' : noDrift V
  · rw [if_pos h', if_pos ((noDrift_u U V).2 h'), coefC_u, invOmega_u U k kz kr h]
    push_cast
    linear_combination ((1 - (coefC k kz kr dt : ℂ)) * invOmega k kz kr ^ 2) * hj
  · have hv : |V.getD 0| < k.c := by
      cases hV' : V with
      | none => simpa using hc
      | some v => exact hV v hV'
    rw [if_neg h', if_neg ((noDrift_u U V).not.2 h'), getD_u, xi1_u U k kz kr dt _ g hc hv h]
    linear_combination (xi1 k kz kr dt (V.getD 0) g) * hj

theorem coefRhoPrev_u (hc : 0 < k.c) (hV : ∀ v, V = some v → |v| < k.c) :
    coefRhoPrev (U.consts k) (kz / U.len) (kr / U.len) (U.tim * dt) (V.map fun v => U.len / U.tim * v) g
      = rFac U * coefRhoPrev k kz kr dt V g := by
  have hj := rFac_eq U k
  have h2 := tim_neC U
  unfold coefRhoPrev
  by_cases h : omega k kz kr = 0
  · rw [if_pos h, if_pos ((omega_zero U k kz kr).2 h)]
    push_cast; linear_combination (-1 / 3 * (dt : ℂ) ^ 2) * hj
  rw [if_neg h, if_neg ((omega_zero U k kz kr).not.2 h)]
  by_cases h' : noDrift V
  · rw [if_pos h', if_pos ((noDrift_u U V).2 h'), coefC_u, coefSw_u, invOmega_u U k kz kr h]
    push_cast
    have e1 : 1 / ((U.tim : ℂ) * dt) * ((U.tim : ℂ) * (coefSw k kz kr dt : ℂ)) = 1 / dt * coefSw k kz kr dt := by
      rw [one_div, mul_inv, one_div]; field_simp
    rw [e1]
    linear_combination (((coefC k kz kr dt : ℂ) - 1 / dt * coefSw k kz kr dt) * invOmega k kz kr ^ 2) * hj
  · have hv : |V.getD 0| < k.c := by
      cases hV' : V with
      | none => simpa using hc
      | some v => exact hV v hV'
    rw [if_neg h', if_neg ((noDrift_u U V).not.2 h'), getD_u, xi3_u U k kz kr dt _ g hc hv h]
    linear_combination (xi3 k kz kr dt (V.getD 0) g) * hj

theorem coefRhoNext_u (hc : 0 < k.c) (hV : ∀ v, V = some v → |v| < k.c) :
    coefRhoNext (U.consts k) (kz / U.len) (kr / U.len) (U.tim * dt) (V.map fun v => U.len / U.tim * v)
      = rFac U * coefRhoNext k kz kr dt V := by
  have hj := rFac_eq U k
  have h2 := tim_neC U
  unfold coefRhoNext
  by_cases h : omega k kz kr = 0
  · rw [if_pos h, if_pos ((omega_zero U k kz kr).2 h)]
    push_cast; linear_combination (1 / 6 * (dt : ℂ) ^ 2) * hj
  rw [if_neg h, if_neg ((omega_zero U k kz kr).not.2 h)]
  by_cases h' : noDrift V
  · rw [if_pos h', if_pos ((noDrift_u U V).2 h'), coefSw_u, invOmega_u U k kz kr h]
    push_cast
    have e1 : 1 / ((U.tim : ℂ) * dt) * ((U.tim : ℂ) * (coefSw k kz kr dt : ℂ)) = 1 / dt * coefSw k kz kr dt := by
      rw [one_div, mul_inv, one_div]; field_simp
    rw [e1]
    linear_combination ((1 - 1 / (dt : ℂ) * coefSw k kz kr dt) * invOmega k kz kr ^ 2) * hj
  · have hv : |V.getD 0| < k.c := by
      cases hV' : V with
      | none => simpa using hc
      | some v => exact hV v hV'
    rw [if_neg h', if_neg ((noDrift_u U V).not.2 h'), getD_u, xi2_u U k kz kr dt _ hc hv h]
    linear_combination (xi2 k kz kr dt (V.getD 0)) * hj

theorem psatdCoefs_u (hc : 0 < k.c) (hV : ∀ v, V = some v → |v| < k.c) :
    psatdCoefs (U.consts k) (kz / U.len) (kr / U.len) (U.tim * dt) (V.map fun v => U.len / U.tim * v) g
      = coefs U (psatdCoefs k kz kr dt V g) := by
  unfold psatdCoefs coefs
  simp only [coefC_u, coefSw_u, coefJ_u U k kz kr dt V g hc hV, coefRhoPrev_u U k kz kr dt V g hc hV,
    coefRhoNext_u U k kz kr dt V hc hV]
  congr 1
  · push_cast; rfl
  · cases V with
    | none => rfl
    | some v =>
      simp only [Option.map_some, comov, coefTeb_u, coefTcc_u, coefTrho_u, coefJcorr_u]

/-! ### Cells -/

theorem cell_ext (a b : SpecCell) (h1 : a.Ep = ((U.len ^ 2 * U.E : ℝ) : ℂ) * b.Ep)
    (h2 : a.Em = ((U.len ^ 2 * U.E : ℝ) : ℂ) * b.Em) (h3 : a.Ez = ((U.len ^ 2 * U.E : ℝ) : ℂ) * b.Ez)
    (h4 : a.Bp = ((U.len ^ 2 * U.B : ℝ) : ℂ) * b.Bp) (h5 : a.Bm = ((U.len ^ 2 * U.B : ℝ) : ℂ) * b.Bm)
    (h6 : a.Bz = ((U.len ^ 2 * U.B : ℝ) : ℂ) * b.Bz)
    (h7 : a.Jp = ((U.len ^ 2 * U.J : ℝ) : ℂ) * b.Jp) (h8 : a.Jm = ((U.len ^ 2 * U.J : ℝ) : ℂ) * b.Jm)
    (h9 : a.Jz = ((U.len ^ 2 * U.J : ℝ) : ℂ) * b.Jz)
    (h10 : a.rhoPrev = ((U.len ^ 2 * U.rho : ℝ) : ℂ) * b.rhoPrev)
    (h11 : a.rhoNext = ((U.len ^ 2 * U.rho : ℝ) : ℂ) * b.rhoNext)
    (h12 : a.rhoNextZ = ((U.len ^ 2 * U.rho : ℝ) : ℂ) * b.rhoNextZ)
    (h13 : a.rhoNextXY = ((U.len ^ 2 * U.rho : ℝ) : ℂ) * b.rhoNextXY)
    (h14 : a.EpPml = ((U.len ^ 2 * U.E : ℝ) : ℂ) * b.EpPml)
    (h15 : a.EmPml = ((U.len ^ 2 * U.E : ℝ) : ℂ) * b.EmPml)
    (h16 : a.BpPml = ((U.len ^ 2 * U.B : ℝ) : ℂ) * b.BpPml)
    (h17 : a.BmPml = ((U.len ^ 2 * U.B : ℝ) : ℂ) * b.BmPml) : a = U.cell b :=
  specCell_ext _ _ h1 h2 h3 h4 h5 h6 h7 h8 h9 h10 h11 h12 h13 h14 h15 h16 h17

theorem invK2_u : invK2 (kz / U.len) (kr / U.len) = U.len ^ 2 * invK2 kz kr := by
  unfold invK2
  simp only [k_zero]
  have := len_ne U
  split_ifs
  · simp
  · rw [show (kz / U.len) ^ 2 + (kr / U.len) ^ 2 = (kz ^ 2 + kr ^ 2) / U.len ^ 2 by field_simp, one_div_div]
    ring

theorem filterCell_u (a : ℝ) (f : FilterField) (s : SpecCell) :
    filterCell a f (U.cell s) = U.cell (filterCell a f s) := by
  cases f <;> apply cell_ext <;> (try simp only [filterCell, Rescaling.cell]) <;> (try ring)

theorem crossCorrect_u (Dz Dxy : ℂ) (s : SpecCell) :
    crossCorrect (kz / U.len) (kr / U.len) (((U.len * U.J : ℝ) : ℂ) * Dz) (((U.len * U.J : ℝ) : ℂ) * Dxy) (U.cell s)
      = U.cell (crossCorrect kz kr Dz Dxy s) := by
  have h1 := len_neC U
  have e : ∀ x : ℝ, ((U.len * U.J : ℝ) : ℂ) * (1 / ((x / U.len : ℝ) : ℂ)) = ((U.len ^ 2 * U.J : ℝ) : ℂ) * (1 / x) := by
    intro x; push_cast; rw [one_div_div]; ring
  unfold crossCorrect
  simp only [ne_eq, k_zero]
  by_cases h1 : kr = 0 <;> by_cases h2 : kz = 0 <;>
    simp only [h1, h2, not_true, not_false_eq_true, if_true, if_false] <;>
    apply cell_ext <;> (try simp only [Rescaling.cell])
  · linear_combination (I * Dz) * e kz
  · linear_combination (-0.5 * Dxy) * e kr
  · linear_combination (0.5 * Dxy) * e kr
  · linear_combination (-0.5 * Dxy) * e kr
  · linear_combination (0.5 * Dxy) * e kr
  · linear_combination (I * Dz) * e kz

/-- `J = rho * velocity`. -/
theorem J_eq : (U.J : ℂ) = U.rho * U.len / U.tim := by
  have h1 := len_neC U
  have h2 := tim_neC U
  simp only [Rescaling.J, Rescaling.rho]
  push_cast; field_simp

theorem E_eq : (U.E : ℂ) = U.B * U.len / U.tim := by
  have h1 := len_neC U
  have h2 := tim_neC U
  have h5 := chg_neC U
  simp only [Rescaling.E, Rescaling.B]
  push_cast; field_simp

theorem rho_ne : (U.rho : ℂ) ≠ 0 := by
  simp only [Rescaling.rho]
  push_cast
  exact div_ne_zero (mul_ne_zero (chg_neC U) (wgt_neC U)) (pow_ne_zero _ (len_neC U))

theorem B_ne : (U.B : ℂ) ≠ 0 := by
  simp only [Rescaling.B]
  push_cast
  exact div_ne_zero (mass_neC U) (mul_ne_zero (chg_neC U) (tim_neC U))

theorem correctCurrents_u (cc : CurrentCorrection) (ps : PsatdCoefs) (s : SpecCell) :
    Fbpic.correctCurrents cc (kz / U.len) (kr / U.len) (coefs U ps) (U.cell s)
      = U.cell (Fbpic.correctCurrents cc kz kr ps s) := by
  have h1 := len_neC U
  have h2 := tim_neC U
  have hJ := J_eq U
  have hd : (1 : ℂ) / (U.tim * ps.dt) = 1 / ps.dt / U.tim := by rw [one_div, mul_inv, one_div]; ring
  unfold Fbpic.correctCurrents
  cases hps : ps.comov with
  | none =>
    have e : (coefs U ps).comov = none := by simp [coefs, hps]
    rw [e]
    cases cc with
    | curlFree =>
      simp only [invK2_u]
      apply cell_ext <;> (try simp only [curlFreeStandard, Rescaling.cell, coefs]) <;> (try push_cast) <;>
        (try rw [hJ]) <;> (try rw [hd]) <;> (try field_simp)
    | crossDeposition =>
      simp only [crossDepStandard]
      rw [← crossCorrect_u]
      congr 1 <;> simp only [Rescaling.cell, coefs] <;> push_cast <;> rw [hJ, hd] <;> field_simp
  | some a =>
    have e : (coefs U ps).comov = some (comov U a) := by simp [coefs, hps]
    rw [e]
    cases cc with
    | curlFree =>
      simp only [invK2_u]
      apply cell_ext <;> (try simp only [curlFreeComoving, Rescaling.cell, comov]) <;> (try push_cast) <;>
        (try rw [hJ]) <;> (try field_simp)
    | crossDeposition =>
      simp only [crossDepComoving]
      rw [← crossCorrect_u]
      congr 1 <;> simp only [Rescaling.cell, comov] <;> push_cast <;> rw [hJ] <;> field_simp

theorem pushEBWith_u (ps : PsatdCoefs) (u : Bool) (s : SpecCell) :
    pushEBWith (U.consts k) (kz / U.len) (kr / U.len) (coefs U ps) false u (U.cell s)
      = U.cell (pushEBWith k kz kr ps false u s) := by
  have h1 := len_neC U
  have h2 := tim_neC U
  have h3 := rho_ne U
  have h4 := B_ne U
  have hJ := J_eq U
  have hE := E_eq U
  unfold pushEBWith
  simp only [Bool.false_eq_true, if_false]
  cases hps : ps.comov with
  | none =>
    have e : (coefs U ps).comov = none := by simp [coefs, hps]
    rw [e]
    cases u <;> apply cell_ext <;>
      (try simp only [pushEBStandard, Bool.false_eq_true, if_false, if_true, Rescaling.cell, coefs, jFac, rFac,
        Rescaling.consts]) <;> (try push_cast) <;> (try rw [hJ]) <;> (try rw [hE]) <;> (try field_simp) <;> (try ring)
  | some a =>
    have e : (coefs U ps).comov = some (comov U a) := by simp [coefs, hps]
    rw [e]
    cases u <;> apply cell_ext <;>
      (try simp only [pushEBComoving, Bool.false_eq_true, if_false, if_true, Rescaling.cell, coefs, comov, jFac, rFac,
        Rescaling.consts]) <;> (try push_cast) <;> (try rw [hJ]) <;> (try rw [hE]) <;> (try field_simp) <;> (try ring)

theorem divE_u (s : SpecCell) : (match Fbpic.correctDivE (U.consts k) .curlFree (kz / U.len) (kr / U.len) (U.cell s) with
      | .ok s' => s'
      | .error _ => U.cell s)
    = U.cell (match Fbpic.correctDivE k .curlFree kz kr s with
      | .ok s' => s'
      | .error _ => s) := by
  have h1 := len_neC U
  have h2 := tim_neC U
  have h3 := rho_ne U
  have h4 := B_ne U
  have hE := E_eq U
  simp only [Fbpic.correctDivE, invK2_u]
  have hr : -(((U.len ^ 2 * U.rho : ℝ) : ℂ) * s.rhoPrev) / ((U.consts k).eps0 : ℂ)
      = ((U.len * U.E : ℝ) : ℂ) * (-s.rhoPrev / k.eps0) := by
    simp only [Rescaling.consts]
    push_cast
    rw [hE]
    rcases eq_or_ne (k.eps0 : ℂ) 0 with h0 | h0
    · simp [h0]
    · field_simp
  apply cell_ext <;> (try simp only [Rescaling.cell, hr]) <;> (try push_cast) <;> (try rw [hE]) <;> (try field_simp)

end Units

end Fbpic.Pic
