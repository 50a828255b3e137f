import Verif.Spec.Cylinder
import Verif.Lemmas.Bessel
import Verif.Lemmas.Tactics
import Mathlib.Analysis.SpecialFunctions.ExpDeriv
import Mathlib.Analysis.Calculus.Deriv.Inv

/-!
# Derivatives of the waves in the cylinder
-/

namespace Fbpic

open Complex Spec

variable {g : Cyl}

/-! ### Radial functions -/

theorem radial_deriv_succ (hg : g.Ok) {i : ℕ} (hi : i < g.Nr) {r : ℝ} (hr : 0 < r) :
    HasDerivAt (g.radial (g.m + 1) i) (g.kr i * g.radial g.m i r - (g.m + 1) / r * g.radial (g.m + 1) i r) r := by
  unfold Cyl.radial
  by_cases hl : g.Low i
  · simp only [if_pos hl]
    have h1 : ¬ ((g.m : ℤ) + 1 = g.m - 1) := by omega
    have h2 : ¬ ((g.m : ℤ) = g.m - 1) := by omega
    simp only [if_neg h1, if_neg h2, mul_zero, sub_zero]
    exact hasDerivAt_const r 0
  · simp only [if_neg hl]
    obtain ⟨ha, -⟩ := hg.zero i hi hl
    have hk : g.kr i ≠ 0 := div_ne_zero ha hg.rmax_pos.ne'
    have hx : g.kr i * r ≠ 0 := mul_ne_zero hk hr.ne'
    have h := (besselJ_deriv_pred (g.m + 1) hx)
    have h1 : HasDerivAt (fun r : ℝ => g.kr i * r) (g.kr i) r := by
      simpa using (hasDerivAt_id r).const_mul (g.kr i)
    have h2 := (HasDerivAt.comp r (h₂ := besselJ (g.m + 1)) h h1).div_const
      (Real.pi * g.rmax ^ 2 * besselJ (g.m + 1) (g.alpha i) ^ 2)
    refine h2.congr_deriv ?_
    rw [show (g.m : ℤ) + 1 - 1 = g.m by ring]
    push_cast
    field_simp

theorem radial_deriv_pred (hg : g.Ok) {i : ℕ} (hi : i < g.Nr) {r : ℝ} (hr : 0 < r) :
    HasDerivAt (g.radial (g.m - 1) i) ((g.m - 1) / r * g.radial (g.m - 1) i r - g.kr i * g.radial g.m i r) r := by
  unfold Cyl.radial
  by_cases hl : g.Low i
  · simp only [if_pos hl]
    have h2 : ¬ ((g.m : ℤ) = g.m - 1) := by omega
    simp only [if_true, if_neg h2, mul_zero, sub_zero]
    obtain ⟨hm, -⟩ := hl
    have h := (hasDerivAt_pow (g.m - 1) r).div_const (Real.pi * g.rmax ^ (g.m + 1))
    refine h.congr_deriv ?_
    obtain ⟨k, hk⟩ := Nat.exists_eq_succ_of_ne_zero hm
    rw [hk]
    cases k with
    | zero => simp
    | succ k =>
      simp only [Nat.succ_eq_add_one, Nat.add_sub_cancel]
      push_cast
      field_simp
      ring
  · simp only [if_neg hl]
    obtain ⟨ha, -⟩ := hg.zero i hi hl
    have hk : g.kr i ≠ 0 := div_ne_zero ha hg.rmax_pos.ne'
    have hx : g.kr i * r ≠ 0 := mul_ne_zero hk hr.ne'
    have h := (besselJ_deriv_succ (g.m - 1) hx)
    have h1 : HasDerivAt (fun r : ℝ => g.kr i * r) (g.kr i) r := by
      simpa using (hasDerivAt_id r).const_mul (g.kr i)
    have h2 := (HasDerivAt.comp r (h₂ := besselJ (g.m - 1)) h h1).div_const
      (Real.pi * g.rmax ^ 2 * besselJ (g.m + 1) (g.alpha i) ^ 2)
    refine h2.congr_deriv ?_
    rw [show (g.m : ℤ) - 1 + 1 = g.m by ring]
    push_cast
    field_simp

theorem radial_rec (hg : g.Ok) {i : ℕ} (hi : i < g.Nr) {r : ℝ} (hr : 0 < r) :
    g.kr i * (g.radial (g.m - 1) i r + g.radial (g.m + 1) i r) = 2 * g.m / r * g.radial g.m i r := by
  unfold Cyl.radial
  by_cases hl : g.Low i
  · have h2 : ¬ ((g.m : ℤ) = g.m - 1) := by omega
    rw [if_pos hl, if_pos hl, if_pos hl, Cyl.kr, hg.low i hl, if_neg h2]
    simp
  · simp only [if_neg hl]
    obtain ⟨ha, -⟩ := hg.zero i hi hl
    have hk : g.kr i ≠ 0 := div_ne_zero ha hg.rmax_pos.ne'
    have h := besselJ_rec g.m (mul_ne_zero hk hr.ne')
    rw [← add_div, h]
    push_cast
    field_simp

theorem radial_deriv (hg : g.Ok) {i : ℕ} (hi : i < g.Nr) {r : ℝ} (hr : 0 < r) :
    HasDerivAt (g.radial g.m i) (g.kr i / 2 * (g.radial (g.m - 1) i r - g.radial (g.m + 1) i r)) r := by
  have hrec := radial_rec hg hi hr
  by_cases hl : g.Low i
  · have e : g.radial g.m i = fun _ => 0 := by
      funext r
      have h2 : ¬ ((g.m : ℤ) = g.m - 1) := by omega
      rw [Cyl.radial, if_pos hl, if_neg h2]
    rw [e, Cyl.kr, hg.low i hl]
    simpa using hasDerivAt_const r (0 : ℝ)
  · obtain ⟨ha, -⟩ := hg.zero i hi hl
    have hk : g.kr i ≠ 0 := div_ne_zero ha hg.rmax_pos.ne'
    have hx : g.kr i * r ≠ 0 := mul_ne_zero hk hr.ne'
    have h := (besselJ_deriv_succ g.m hx)
    have h1 : HasDerivAt (fun r : ℝ => g.kr i * r) (g.kr i) r := by
      simpa using (hasDerivAt_id r).const_mul (g.kr i)
    have h2 := (HasDerivAt.comp r (h₂ := besselJ g.m) h h1).div_const
      (Real.pi * g.rmax ^ 2 * besselJ (g.m + 1) (g.alpha i) ^ 2)
    have e : g.radial g.m i = fun r => besselJ g.m (g.kr i * r) /
        (Real.pi * g.rmax ^ 2 * besselJ (g.m + 1) (g.alpha i) ^ 2) := by
      funext r; rw [Cyl.radial, if_neg hl]
    rw [e]
    refine h2.congr_deriv ?_
    have e1 : g.kr i / 2 * (g.radial (g.m - 1) i r - g.radial (g.m + 1) i r)
        = g.m / r * g.radial g.m i r - g.kr i * g.radial (g.m + 1) i r := by
      linear_combination hrec / 2
    rw [e1, Cyl.radial, Cyl.radial, if_neg hl, if_neg hl]
    push_cast
    field_simp

theorem radial_wall (hg : g.Ok) {i : ℕ} (hi : i < g.Nr) : g.radial g.m i g.rmax = 0 := by
  unfold Cyl.radial
  by_cases hl : g.Low i
  · have h2 : ¬ ((g.m : ℤ) = g.m - 1) := by omega
    rw [if_pos hl, if_neg h2]
  · rw [if_neg hl, Cyl.kr, div_mul_cancel₀ _ hg.rmax_pos.ne', (hg.zero i hi hl).2, zero_div]

/-! ### Waves -/

/-- A sum of waves with any radial functions. -/
noncomputable def waveOf (g : Cyl) (R : ℕ → ℝ → ℝ) (F : ℕ → ℕ → ℂ) : ScalField := fun z r θ =>
  1 / (g.Nz : ℂ) * ∑ iz ∈ Finset.range g.Nz, ∑ ir ∈ Finset.range g.Nr,
    F iz ir * (R ir r : ℂ) * exp (I * (g.kz iz : ℂ) * ((z - g.z0 : ℝ) : ℂ)) * exp (-(I * g.m * θ))

theorem wave_eq (p : ℤ) (F : ℕ → ℕ → ℂ) : g.wave p F = waveOf g (g.radial p) F := rfl

theorem waveOf_congr {R R' : ℕ → ℝ → ℝ} {F F' : ℕ → ℕ → ℂ} {z r θ : ℝ}
    (h : ∀ iz ir, iz < g.Nz → ir < g.Nr → F iz ir * (R ir r : ℂ) = F' iz ir * (R' ir r : ℂ)) :
    waveOf g R F z r θ = waveOf g R' F' z r θ := by
  unfold waveOf
  congr 1
  refine Finset.sum_congr rfl fun iz hz => Finset.sum_congr rfl fun ir hr => ?_
  rw [h iz ir (Finset.mem_range.1 hz) (Finset.mem_range.1 hr)]

theorem waveOf_add (R : ℕ → ℝ → ℝ) (F G : ℕ → ℕ → ℂ) (z r θ : ℝ) :
    waveOf g R (fun iz ir => F iz ir + G iz ir) z r θ = waveOf g R F z r θ + waveOf g R G z r θ := by
  unfold waveOf
  rw [← mul_add, ← Finset.sum_add_distrib]
  congr 1
  refine Finset.sum_congr rfl fun iz _ => ?_
  rw [← Finset.sum_add_distrib]
  exact Finset.sum_congr rfl fun ir _ => by ring

theorem waveOf_mul (R : ℕ → ℝ → ℝ) (c : ℂ) (F : ℕ → ℕ → ℂ) (z r θ : ℝ) :
    waveOf g R (fun iz ir => c * F iz ir) z r θ = c * waveOf g R F z r θ := by
  unfold waveOf
  rw [mul_left_comm]
  congr 1
  rw [Finset.mul_sum]
  refine Finset.sum_congr rfl fun iz _ => ?_
  rw [Finset.mul_sum]
  exact Finset.sum_congr rfl fun ir _ => by ring

theorem waveOf_hasDerivAt {R R' : ℕ → ℝ → ℝ} {r : ℝ} (F : ℕ → ℕ → ℂ) (z θ : ℝ)
    (h : ∀ i, i < g.Nr → HasDerivAt (R i) (R' i r) r) :
    HasDerivAt (fun r => waveOf g R F z r θ) (waveOf g R' F z r θ) r := by
  unfold waveOf
  refine HasDerivAt.const_mul _ (HasDerivAt.fun_sum fun iz _ => HasDerivAt.fun_sum fun ir hr => ?_)
  exact ((((h ir (Finset.mem_range.1 hr)).ofReal_comp).const_mul (F iz ir)).mul_const _).mul_const _

theorem waveOf_hasDerivAt_theta (R : ℕ → ℝ → ℝ) (F : ℕ → ℕ → ℂ) (z r θ : ℝ) :
    HasDerivAt (fun θ => waveOf g R F z r θ) (-(I * g.m) * waveOf g R F z r θ) θ := by
  have e : -(I * g.m) * waveOf g R F z r θ = 1 / (g.Nz : ℂ) * ∑ iz ∈ Finset.range g.Nz, ∑ ir ∈ Finset.range g.Nr,
      F iz ir * (R ir r : ℂ) * exp (I * (g.kz iz : ℂ) * ((z - g.z0 : ℝ) : ℂ)) *
        (exp (-(I * g.m * θ)) * (-(I * g.m))) := by
    unfold waveOf
    rw [mul_left_comm]
    congr 1
    rw [Finset.mul_sum]
    refine Finset.sum_congr rfl fun iz _ => ?_
    rw [Finset.mul_sum]
    exact Finset.sum_congr rfl fun ir _ => by ring
  rw [e]
  unfold waveOf
  refine HasDerivAt.const_mul _ (HasDerivAt.fun_sum fun iz _ => HasDerivAt.fun_sum fun ir _ => ?_)
  refine HasDerivAt.const_mul _ ?_
  have h : HasDerivAt (fun θ : ℝ => -(I * g.m * (θ : ℂ))) (-(I * g.m)) θ := by
    simpa using ((Complex.ofRealCLM.hasDerivAt (x := θ)).const_mul (I * (g.m : ℂ))).fun_neg
  exact h.cexp

theorem exp_hasDerivAt (k z0 z : ℝ) :
    HasDerivAt (fun z : ℝ => exp (I * (k : ℂ) * ((z - z0 : ℝ) : ℂ))) (I * k * exp (I * (k : ℂ) * ((z - z0 : ℝ) : ℂ))) z := by
  have h : HasDerivAt (fun z : ℝ => I * (k : ℂ) * ((z - z0 : ℝ) : ℂ)) (I * k) z := by
    have := ((hasDerivAt_id z).sub_const z0).ofReal_comp.const_mul (I * (k : ℂ))
    simpa using this
  refine h.cexp.congr_deriv ?_
  ring

theorem waveOf_hasDerivAt_z (R : ℕ → ℝ → ℝ) (F : ℕ → ℕ → ℂ) (z r θ : ℝ) :
    HasDerivAt (fun z => waveOf g R F z r θ) (waveOf g R (fun iz ir => I * g.kz iz * F iz ir) z r θ) z := by
  unfold waveOf
  refine HasDerivAt.const_mul _ (HasDerivAt.fun_sum fun iz _ => HasDerivAt.fun_sum fun ir _ => ?_)
  refine HasDerivAt.mul_const ?_ _
  refine ((exp_hasDerivAt (g.kz iz) g.z0 z).const_mul _).congr_deriv ?_
  ring

theorem symbol_exact {K : ℕ → ℝ} (h : g.Symbol .exact K) {iz : ℕ} (hz : iz < g.Nz) : K iz = g.kz iz := by
  have h1 := h iz hz 0
  have h2 := exp_hasDerivAt (g.kz iz) 0 0
  simp only [sub_zero] at h2
  have h3 : ZDeriv.apply .exact (fun x : ℝ => exp (I * (g.kz iz : ℂ) * (x : ℂ))) 0 = _ := h2.deriv
  rw [h3] at h1
  simp only [ofReal_zero, mul_zero, exp_zero, mul_one, mul_eq_mul_left_iff, ofReal_inj, I_ne_zero, or_false] at h1
  exact h1.symm

theorem fdDeriv_shift (a : ℕ → ℝ) (n : ℕ) (dz z0 : ℝ) (f : ℝ → ℂ) (z : ℝ) :
    fdDeriv a n dz (fun z => f (z - z0)) z = fdDeriv a n dz f (z - z0) := by
  unfold fdDeriv
  refine Finset.sum_congr rfl fun k _ => ?_
  dsimp only
  rw [show z + k * dz - z0 = z - z0 + k * dz by ring, show z - k * dz - z0 = z - z0 - k * dz by ring]

theorem fdDeriv_mul (a : ℕ → ℝ) (n : ℕ) (dz : ℝ) (c d : ℂ) (f : ℝ → ℂ) (z : ℝ) :
    fdDeriv a n dz (fun z => c * f z * d) z = c * fdDeriv a n dz f z * d := by
  unfold fdDeriv
  rw [Finset.mul_sum, Finset.sum_mul]
  refine Finset.sum_congr rfl fun k _ => ?_
  simp only [real_smul]
  ring

theorem fdDeriv_sum {ι : Type} (a : ℕ → ℝ) (n : ℕ) (dz : ℝ) (s : Finset ι) (f : ι → ℝ → ℂ) (z : ℝ) :
    fdDeriv a n dz (fun z => ∑ i ∈ s, f i z) z = ∑ i ∈ s, fdDeriv a n dz (f i) z := by
  unfold fdDeriv
  rw [Finset.sum_comm]
  refine Finset.sum_congr rfl fun k _ => ?_
  rw [← Finset.sum_sub_distrib, Finset.smul_sum]

theorem fdDeriv_lin (a : ℕ → ℝ) (n : ℕ) (dz : ℝ) (c : ℂ) (f : ℝ → ℂ) (z : ℝ) :
    fdDeriv a n dz (fun z => c * f z) z = c * fdDeriv a n dz f z := by
  simpa using fdDeriv_mul a n dz c 1 f z

/-- The derivative along z multiplies every wave with `i K`. -/
theorem waveOf_dz {D : ZDeriv} {K : ℕ → ℝ} (h : g.Symbol D K) (R : ℕ → ℝ → ℝ) (F : ℕ → ℕ → ℂ) (z r θ : ℝ) :
    D.apply (fun z => waveOf g R F z r θ) z = waveOf g R (fun iz ir => I * K iz * F iz ir) z r θ := by
  match D, h with
  | .exact, h =>
    show deriv _ z = _
    rw [(waveOf_hasDerivAt_z R F z r θ).deriv]
    exact waveOf_congr fun iz ir hz _ => by rw [symbol_exact h hz]
  | .stencil a n dz, h =>
    rw [ZDeriv.apply]
    unfold waveOf
    refine (fdDeriv_lin a n dz (1 / (g.Nz : ℂ)) _ z).trans ?_
    congr 1
    refine (fdDeriv_sum a n dz (Finset.range g.Nz) _ z).trans ?_
    refine Finset.sum_congr rfl fun iz hz => ?_
    refine (fdDeriv_sum a n dz (Finset.range g.Nr) _ z).trans ?_
    refine Finset.sum_congr rfl fun ir _ => ?_
    have e1 := fdDeriv_mul a n dz (F iz ir * (R ir r : ℂ)) (exp (-(I * g.m * θ)))
      (fun z => exp (I * (g.kz iz : ℂ) * ((z - g.z0 : ℝ) : ℂ))) z
    have e2 := fdDeriv_shift a n dz g.z0 (fun x => exp (I * (g.kz iz : ℂ) * (x : ℂ))) z
    have e3 : fdDeriv a n dz (fun x => exp (I * (g.kz iz : ℂ) * (x : ℂ))) (z - g.z0) = _ :=
      h iz (Finset.mem_range.1 hz) (z - g.z0)
    rw [e1, e2, e3]
    ring

/-! ### Derivatives of scalar and vector fields -/

theorem wave_add (p : ℤ) (F G : ℕ → ℕ → ℂ) (z r θ : ℝ) :
    g.wave p (fun iz ir => F iz ir + G iz ir) z r θ = g.wave p F z r θ + g.wave p G z r θ :=
  waveOf_add _ F G z r θ

theorem wave_mul (p : ℤ) (c : ℂ) (F : ℕ → ℕ → ℂ) (z r θ : ℝ) :
    g.wave p (fun iz ir => c * F iz ir) z r θ = c * g.wave p F z r θ :=
  waveOf_mul _ c F z r θ

theorem wave_dr_succ (hg : g.Ok) (F : ℕ → ℕ → ℂ) (z θ : ℝ) {r : ℝ} (hr : 0 < r) :
    HasDerivAt (fun r => g.wave (g.m + 1) F z r θ)
      (g.wave g.m (fun iz ir => g.kr ir * F iz ir) z r θ - (g.m + 1) / r * g.wave (g.m + 1) F z r θ) r := by
  refine (waveOf_hasDerivAt F z θ (R' := fun i r => g.kr i * g.radial g.m i r - (g.m + 1) / r *
    g.radial (g.m + 1) i r) fun i hi => radial_deriv_succ hg hi hr).congr_deriv ?_
  rw [wave_eq, wave_eq, ← waveOf_mul]
  unfold waveOf
  rw [← mul_sub, ← Finset.sum_sub_distrib]
  congr 1
  refine Finset.sum_congr rfl fun iz _ => ?_
  rw [← Finset.sum_sub_distrib]
  refine Finset.sum_congr rfl fun ir _ => ?_
  push_cast
  ring

theorem wave_dr_pred (hg : g.Ok) (F : ℕ → ℕ → ℂ) (z θ : ℝ) {r : ℝ} (hr : 0 < r) :
    HasDerivAt (fun r => g.wave (g.m - 1) F z r θ)
      ((g.m - 1) / r * g.wave (g.m - 1) F z r θ - g.wave g.m (fun iz ir => g.kr ir * F iz ir) z r θ) r := by
  refine (waveOf_hasDerivAt F z θ (R' := fun i r => (g.m - 1) / r * g.radial (g.m - 1) i r -
    g.kr i * g.radial g.m i r) fun i hi => radial_deriv_pred hg hi hr).congr_deriv ?_
  rw [wave_eq, wave_eq, ← waveOf_mul]
  unfold waveOf
  rw [← mul_sub, ← Finset.sum_sub_distrib]
  congr 1
  refine Finset.sum_congr rfl fun iz _ => ?_
  rw [← Finset.sum_sub_distrib]
  refine Finset.sum_congr rfl fun ir _ => ?_
  push_cast
  ring

theorem wave_dr (hg : g.Ok) (F : ℕ → ℕ → ℂ) (z θ : ℝ) {r : ℝ} (hr : 0 < r) :
    HasDerivAt (fun r => g.wave g.m F z r θ)
      (1 / 2 * (g.wave (g.m - 1) (fun iz ir => g.kr ir * F iz ir) z r θ
        - g.wave (g.m + 1) (fun iz ir => g.kr ir * F iz ir) z r θ)) r := by
  refine (waveOf_hasDerivAt F z θ (R' := fun i r => g.kr i / 2 * (g.radial (g.m - 1) i r -
    g.radial (g.m + 1) i r)) fun i hi => radial_deriv hg hi hr).congr_deriv ?_
  rw [wave_eq, wave_eq, mul_sub, ← waveOf_mul, ← waveOf_mul]
  unfold waveOf
  rw [← mul_sub, ← Finset.sum_sub_distrib]
  congr 1
  refine Finset.sum_congr rfl fun iz _ => ?_
  rw [← Finset.sum_sub_distrib]
  refine Finset.sum_congr rfl fun ir _ => ?_
  push_cast
  ring

theorem wave_rec (hg : g.Ok) (F : ℕ → ℕ → ℂ) (z θ : ℝ) {r : ℝ} (hr : 0 < r) :
    g.wave (g.m - 1) (fun iz ir => g.kr ir * F iz ir) z r θ + g.wave (g.m + 1) (fun iz ir => g.kr ir * F iz ir) z r θ
      = 2 * g.m / r * g.wave g.m F z r θ := by
  rw [wave_eq, wave_eq, wave_eq, ← waveOf_mul]
  unfold waveOf
  rw [← mul_add, ← Finset.sum_add_distrib]
  congr 1
  refine Finset.sum_congr rfl fun iz _ => ?_
  rw [← Finset.sum_add_distrib]
  refine Finset.sum_congr rfl fun ir hi => ?_
  have h : (g.kr ir : ℂ) * (g.radial (g.m - 1) ir r + g.radial (g.m + 1) ir r) = 2 * g.m / r * g.radial g.m ir r := by
    exact_mod_cast radial_rec hg (Finset.mem_range.1 hi) hr
  linear_combination (F iz ir * exp (I * (g.kz iz : ℂ) * ((z - g.z0 : ℝ) : ℂ)) * exp (-(I * g.m * θ))) * h

theorem wave_dtheta (p : ℤ) (F : ℕ → ℕ → ℂ) (z r θ : ℝ) :
    HasDerivAt (fun θ => g.wave p F z r θ) (-(I * g.m) * g.wave p F z r θ) θ :=
  waveOf_hasDerivAt_theta _ F z r θ

theorem wave_dz {D : ZDeriv} {K : ℕ → ℝ} (h : g.Symbol D K) (p : ℤ) (F : ℕ → ℕ → ℂ) (z r θ : ℝ) :
    D.apply (fun z => g.wave p F z r θ) z = I * g.wave p (fun iz ir => K iz * F iz ir) z r θ := by
  rw [← wave_mul]
  refine (waveOf_dz h _ F z r θ).trans ?_
  exact waveOf_congr fun iz ir _ _ => by ring

theorem zderiv_add (D : ZDeriv) {f h : ℝ → ℂ} {z : ℝ} (hf : DifferentiableAt ℝ f z)
    (hh : DifferentiableAt ℝ h z) : D.apply (fun z => f z + h z) z = D.apply f z + D.apply h z := by
  match D with
  | .exact => simp only [ZDeriv.apply]; exact deriv_fun_add hf hh
  | .stencil a n dz =>
    simp only [ZDeriv.apply, fdDeriv, ← Finset.sum_add_distrib, ← smul_add]
    refine Finset.sum_congr rfl fun k _ => ?_
    congr 1
    ring

theorem zderiv_mul (D : ZDeriv) (c : ℂ) {f : ℝ → ℂ} {z : ℝ} (hf : DifferentiableAt ℝ f z) :
    D.apply (fun z => c * f z) z = c * D.apply f z := by
  match D with
  | .exact => simp only [ZDeriv.apply]; exact deriv_const_mul c hf
  | .stencil a n dz => simp only [ZDeriv.apply]; exact fdDeriv_lin a n dz c f z

theorem wave_diff_z (p : ℤ) (F : ℕ → ℕ → ℂ) (z r θ : ℝ) :
    DifferentiableAt ℝ (fun z => g.wave p F z r θ) z := (waveOf_hasDerivAt_z _ F z r θ).differentiableAt

theorem vec_dz_r {D : ZDeriv} {K : ℕ → ℝ} (h : g.Symbol D K) (F : ℕ → ℕ → V3) (z r θ : ℝ) :
    D.apply (fun z => (g.vec F).r z r θ) z = I * g.wave (g.m + 1) (fun iz ir => K iz * (F iz ir).p) z r θ
      + I * g.wave (g.m - 1) (fun iz ir => K iz * (F iz ir).m) z r θ := by
  rw [← wave_dz h, ← wave_dz h]
  exact zderiv_add D (wave_diff_z _ _ _ _ _) (wave_diff_z _ _ _ _ _)

theorem vec_dz_t {D : ZDeriv} {K : ℕ → ℝ} (h : g.Symbol D K) (F : ℕ → ℕ → V3) (z r θ : ℝ) :
    D.apply (fun z => (g.vec F).t z r θ) z = -g.wave (g.m + 1) (fun iz ir => K iz * (F iz ir).p) z r θ
      + g.wave (g.m - 1) (fun iz ir => K iz * (F iz ir).m) z r θ := by
  have e : (fun z => (g.vec F).t z r θ) = fun z => I * g.wave (g.m + 1) (fun iz ir => (F iz ir).p) z r θ
      + (-I) * g.wave (g.m - 1) (fun iz ir => (F iz ir).m) z r θ := by
    funext z; simp only [Cyl.vec]; ring
  rw [e, zderiv_add D ((wave_diff_z _ _ _ _ _).const_mul _) ((wave_diff_z _ _ _ _ _).const_mul _),
    zderiv_mul D _ (wave_diff_z _ _ _ _ _), zderiv_mul D _ (wave_diff_z _ _ _ _ _), wave_dz h, wave_dz h]
  linear_combination (g.wave (g.m + 1) (fun iz ir => K iz * (F iz ir).p) z r θ
    - g.wave (g.m - 1) (fun iz ir => K iz * (F iz ir).m) z r θ) * I_mul_I

theorem mul_r {f : ℝ → ℂ} {f' : ℂ} {r : ℝ} (h : HasDerivAt f f' r) :
    HasDerivAt (fun r : ℝ => (r : ℂ) * f r) (f r + r * f') r := by
  simpa using ((hasDerivAt_id r).ofReal_comp).fun_mul h

end Fbpic
