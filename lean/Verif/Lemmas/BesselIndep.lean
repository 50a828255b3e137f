import Verif.Lemmas.BesselZero
import Verif.Lemmas.Cylinder
import Mathlib.LinearAlgebra.Vandermonde
import Mathlib.RingTheory.RootsOfUnity.Complex

/-!
# Bessel functions of different wavenumbers are independent, and so are the waves of the cylinder
-/

namespace Fbpic

open Complex Spec

/-- `J_n` and `J_(n+1)` have no common zero except the origin. -/
theorem besselJ_succ_ne (n : ℕ) {x : ℝ} (hx : 0 < x) (h : besselJ n x = 0) : besselJ (n + 1) x ≠ 0 := by
  induction n with
  | zero =>
    intro h1
    have e0 : besselJ ((0 : ℕ) : ℤ) x = besselG 0 ((x / 2) ^ 2) := by rw [besselJ_natCast, besselNat_eq]; simp
    have e1 : besselJ (((0 : ℕ) : ℤ) + 1) x = x / 2 * besselG 1 ((x / 2) ^ 2) := by
      rw [show (((0 : ℕ) : ℤ) + 1) = ((1 : ℕ) : ℤ) by norm_num, besselJ_natCast, besselNat_eq]; simp
    rw [e0] at h
    rw [e1] at h1
    have h1 : besselG 1 ((x / 2) ^ 2) = 0 := by
      rcases mul_eq_zero.1 h1 with h' | h'
      · linarith
      · exact h'
    set u := (x / 2) ^ 2
    have hu : 0 < u := by positivity
    set v := min u (1 / 2) with hv
    have hv0 : 0 < v := lt_min hu (by norm_num)
    have hm := besselG_energy_mono (min_le_left u (1 / 2))
    simp only [h, h1, ← hv] at hm
    have hg := besselG_ge 0 (by norm_num) hv0.le
    have hexp : Real.exp v < 2 := by
      have h := Real.exp_one_lt_d9
      have h2 : Real.exp v ≤ Real.exp (1 / 2) := Real.exp_le_exp.2 (min_le_right _ _)
      have : Real.exp (1 / 2) * Real.exp (1 / 2) = Real.exp 1 := by rw [← Real.exp_add]; norm_num
      nlinarith [Real.exp_pos (1 / 2)]
    have hpos : 0 < besselG 0 v := by linarith
    have : 0 < v * besselG 0 v ^ 2 := by positivity
    nlinarith [sq_nonneg (v * besselG 1 v)]
  | succ n ih =>
    intro h1
    have hr := besselJ_rec ((n + 1 : ℕ) : ℤ) hx.ne'
    rw [h, h1, show (((n + 1 : ℕ) : ℤ) - 1) = (n : ℤ) by push_cast; ring] at hr
    have h0 : besselJ n x = 0 := by linarith
    refine ih h0 ?_
    rw [← h]; congr 1

/-- `J_p` vanishes identically on no interval from the origin. -/
theorem besselJ_exists_ne (p : ℤ) : ∃ x, 0 < x ∧ besselJ p x ≠ 0 := by
  have key : ∀ n : ℕ, ∃ x, 0 < x ∧ besselJ n x ≠ 0 := by
    intro n
    by_contra hcon
    push Not at hcon
    have hd : HasDerivAt (besselJ n) 0 1 := by
      refine (hasDerivAt_const (1 : ℝ) (0 : ℝ)).congr_of_eventuallyEq ?_
      filter_upwards [lt_mem_nhds (show (0 : ℝ) < 1 by norm_num)] with x hx
      exact hcon x hx
    have h1 := hd.unique (besselJ_deriv_succ n one_ne_zero)
    rw [hcon 1 one_pos] at h1
    exact besselJ_succ_ne n one_pos (hcon 1 one_pos) (by linarith)
  obtain ⟨n, rfl | rfl⟩ := p.eq_nat_or_neg
  · exact key n
  · obtain ⟨x, hx, h⟩ := key n
    refine ⟨x, hx, ?_⟩
    rw [besselJ_neg_natCast]
    rw [besselJ_natCast] at h
    exact mul_ne_zero (pow_ne_zero _ (by norm_num)) h

variable {n : ℕ} {k : Fin n → ℝ}

private theorem hasDerivAt_term (p : ℤ) (a : ℂ) {k r : ℝ} (hk : k ≠ 0) (hr : 0 < r) :
    HasDerivAt (fun r : ℝ => a * (besselJ p (k * r) : ℂ))
      (p / r * (a * besselJ p (k * r)) - a * k * besselJ (p + 1) (k * r)) r := by
  have h1 : HasDerivAt (fun r : ℝ => k * r) k r := by simpa using (hasDerivAt_id r).const_mul k
  have h2 := ((besselJ_deriv_succ p (mul_ne_zero hk hr.ne')).comp r h1).ofReal_comp.const_mul a
  refine h2.congr_deriv ?_
  have hkc : (k : ℂ) ≠ 0 := by exact_mod_cast hk
  have hrc : (r : ℂ) ≠ 0 := by exact_mod_cast hr.ne'
  push_cast
  field_simp

private theorem hasDerivAt_term' (p : ℤ) (a : ℂ) {k r : ℝ} (hk : k ≠ 0) (hr : 0 < r) :
    HasDerivAt (fun r : ℝ => a * (besselJ p (k * r) : ℂ))
      (a * k * besselJ (p - 1) (k * r) - p / r * (a * besselJ p (k * r))) r := by
  have h1 : HasDerivAt (fun r : ℝ => k * r) k r := by simpa using (hasDerivAt_id r).const_mul k
  have h2 := ((besselJ_deriv_pred p (mul_ne_zero hk hr.ne')).comp r h1).ofReal_comp.const_mul a
  refine h2.congr_deriv ?_
  have hkc : (k : ℂ) ≠ 0 := by exact_mod_cast hk
  have hrc : (r : ℂ) ≠ 0 := by exact_mod_cast hr.ne'
  push_cast
  field_simp

private theorem deriv_zero {f : ℝ → ℂ} {f' : ℂ} {r : ℝ} (hr : 0 < r) (h : ∀ r, 0 < r → f r = 0) (hd : HasDerivAt f f' r) :
    f' = 0 := by
  refine hd.unique ((hasDerivAt_const r (0 : ℂ)).congr_of_eventuallyEq ?_)
  filter_upwards [lt_mem_nhds hr] with x hx
  exact h x hx

private theorem step_up (p : ℤ) {a : Fin n → ℂ} (ha : ∀ i, k i = 0 → a i = 0)
    (h : ∀ r, 0 < r → ∑ i, a i * (besselJ p (k i * r) : ℂ) = 0) :
    ∀ r, 0 < r → ∑ i, a i * k i * (besselJ (p + 1) (k i * r) : ℂ) = 0 := by
  intro r hr
  have hd : HasDerivAt (fun r : ℝ => ∑ i, a i * (besselJ p (k i * r) : ℂ))
      (∑ i, (p / r * (a i * besselJ p (k i * r)) - a i * k i * besselJ (p + 1) (k i * r))) r := by
    refine HasDerivAt.fun_sum fun i _ => ?_
    by_cases hi : k i = 0
    · simp only [ha i hi, zero_mul, mul_zero, sub_zero]
      exact hasDerivAt_const r 0
    · exact hasDerivAt_term p (a i) hi hr
  have := deriv_zero hr h hd
  rw [Finset.sum_sub_distrib, ← Finset.mul_sum, h r hr] at this
  linear_combination -this

private theorem step_down (p : ℤ) {a : Fin n → ℂ} (ha : ∀ i, k i = 0 → a i = 0)
    (h : ∀ r, 0 < r → ∑ i, a i * (besselJ p (k i * r) : ℂ) = 0) :
    ∀ r, 0 < r → ∑ i, a i * k i * (besselJ (p - 1) (k i * r) : ℂ) = 0 := by
  intro r hr
  have hd : HasDerivAt (fun r : ℝ => ∑ i, a i * (besselJ p (k i * r) : ℂ))
      (∑ i, (a i * k i * besselJ (p - 1) (k i * r) - p / r * (a i * besselJ p (k i * r)))) r := by
    refine HasDerivAt.fun_sum fun i _ => ?_
    by_cases hi : k i = 0
    · simp only [ha i hi, zero_mul, mul_zero, sub_zero]
      exact hasDerivAt_const r 0
    · exact hasDerivAt_term' p (a i) hi hr
  have := deriv_zero hr h hd
  rw [Finset.sum_sub_distrib, ← Finset.mul_sum, h r hr] at this
  linear_combination this

private theorem powers (p : ℤ) {a : Fin n → ℂ} (ha : ∀ i, k i = 0 → a i = 0)
    (h : ∀ r, 0 < r → ∑ i, a i * (besselJ p (k i * r) : ℂ) = 0) (l : ℕ) :
    ∀ r, 0 < r → ∑ i, a i * ((k i : ℂ) ^ 2) ^ l * (besselJ p (k i * r) : ℂ) = 0 := by
  induction l with
  | zero => simpa using h
  | succ l ih =>
    intro r hr
    have h1 := step_up p (a := fun i => a i * ((k i : ℂ) ^ 2) ^ l) (fun i hi => by simp [ha i hi]) ih
    have h2 := step_down (p + 1) (a := fun i => a i * ((k i : ℂ) ^ 2) ^ l * k i) (fun i hi => by simp [ha i hi]) h1 r hr
    rw [add_sub_cancel_right] at h2
    refine Eq.trans (Finset.sum_congr rfl fun i _ => ?_) h2
    ring

/-- Bessel functions of one order with different wavenumbers are independent. -/
theorem besselJ_indep (p : ℤ) (hk0 : ∀ i, 0 ≤ k i) (hk : Function.Injective k) {a : Fin n → ℂ}
    (ha : ∀ i, k i = 0 → a i = 0) (h : ∀ r, 0 < r → ∑ i, a i * (besselJ p (k i * r) : ℂ) = 0) : ∀ i, a i = 0 := by
  intro i
  by_cases hi : k i = 0
  · exact ha i hi
  obtain ⟨x, hx, hne⟩ := besselJ_exists_ne p
  have hki : 0 < k i := lt_of_le_of_ne (hk0 i) (Ne.symm hi)
  have hr : 0 < x / k i := by positivity
  have hinj : Function.Injective fun i => (k i : ℂ) ^ 2 := by
    intro i j hij
    have hij : (k i : ℂ) ^ 2 = (k j : ℂ) ^ 2 := hij
    have h1 : k i ^ 2 = k j ^ 2 := by exact_mod_cast hij
    exact hk ((sq_eq_sq₀ (hk0 i) (hk0 j)).1 h1)
  have hv := Matrix.eq_zero_of_forall_pow_sum_mul_pow_eq_zero (R := ℂ) (f := fun i => (k i : ℂ) ^ 2)
    (v := fun j => a j * (besselJ p (k j * (x / k i)) : ℂ)) hinj ?_
  · have := congrFun hv i
    simp only [Pi.zero_apply] at this
    rcases mul_eq_zero.1 this with h' | h'
    · exact h'
    · exfalso
      apply hne
      rw [mul_div_cancel₀ _ hki.ne'] at h'
      exact_mod_cast h'
  · intro l
    refine Eq.trans (Finset.sum_congr rfl fun j _ => ?_) (powers p ha h l _ hr)
    ring

/-! ### Waves of the cylinder -/

variable {g : Cyl}

private theorem phase_pow (hg : g.Ok) (n j : ℕ) :
    exp (I * (g.kz j : ℂ) * ((g.z0 + n * g.dz - g.z0 : ℝ) : ℂ)) = (exp (2 * Real.pi * I / (g.Nz : ℂ)) ^ j) ^ n := by
  have hN : (g.Nz : ℂ) ≠ 0 := by exact_mod_cast hg.Nz_pos.ne'
  have hd : (g.dz : ℂ) ≠ 0 := by exact_mod_cast hg.dz_ne
  rw [← exp_nat_mul, ← exp_nat_mul]
  unfold Cyl.kz
  split_ifs with h
  · congr 1
    push_cast
    field_simp
    ring
  · rw [Complex.exp_eq_exp_iff_exists_int]
    refine ⟨-n, ?_⟩
    push_cast
    field_simp
    ring

/-- A wave that vanishes everywhere off the axis vanishes at every longitudinal wavenumber. -/
theorem wave_zero_z (hg : g.Ok) (p : ℤ) {F : ℕ → ℕ → ℂ} (h : ∀ z r, 0 < r → g.wave p F z r 0 = 0) {r : ℝ} (hr : 0 < r)
    {iz : ℕ} (hz : iz < g.Nz) : ∑ ir ∈ Finset.range g.Nr, F iz ir * (g.radial p ir r : ℂ) = 0 := by
  have hN : (g.Nz : ℂ) ≠ 0 := by exact_mod_cast hg.Nz_pos.ne'
  have hprim := Complex.isPrimitiveRoot_exp g.Nz hg.Nz_pos.ne'
  have hinj : Function.Injective fun j : Fin g.Nz => exp (2 * Real.pi * I / (g.Nz : ℂ)) ^ (j : ℕ) := fun i j hij =>
    Fin.ext (hprim.pow_inj i.2 j.2 hij)
  have hv := Matrix.eq_zero_of_forall_pow_sum_mul_pow_eq_zero (R := ℂ)
    (v := fun j : Fin g.Nz => ∑ ir ∈ Finset.range g.Nr, F j ir * (g.radial p ir r : ℂ)) hinj ?_
  · exact congrFun hv ⟨iz, hz⟩
  · intro l
    have := h (g.z0 + l * g.dz) r hr
    unfold Cyl.wave at this
    rw [mul_eq_zero, or_iff_right (by simpa using hN)] at this
    rw [Finset.sum_range] at this
    refine Eq.trans (Finset.sum_congr rfl fun j _ => ?_) this
    rw [Finset.sum_mul]
    refine Finset.sum_congr rfl fun i _ => ?_
    rw [phase_pow hg]
    simp

theorem kr_nonneg (hg : g.Ok) (hd : g.Distinct) (i : Fin g.Nr) : 0 ≤ g.kr i := by
  unfold Cyl.kr
  refine div_nonneg ?_ hg.rmax_pos.le
  by_cases h : g.Low i
  · rw [hg.low i h]
  · exact (hd.pos i i.2 h).le

theorem kr_eq_zero (hg : g.Ok) {i : ℕ} (hi : i < g.Nr) : g.kr i = 0 ↔ g.Low i := by
  have hR := hg.rmax_pos.ne'
  unfold Cyl.kr
  constructor
  · intro h
    by_contra hl
    exact (hg.zero i hi hl).1 ((div_eq_zero_iff.1 h).resolve_right hR)
  · intro h
    rw [hg.low i h, zero_div]

theorem kr_inj (hg : g.Ok) (hd : g.Distinct) : Function.Injective fun i : Fin g.Nr => g.kr i := by
  intro i j hij
  have hij : g.kr i = g.kr j := hij
  have h1 : g.Low i ↔ g.Low j := by rw [← kr_eq_zero hg i.2, hij, kr_eq_zero hg j.2]
  by_cases h : g.Low i
  · exact Fin.ext (h.2.trans (h1.1 h).2.symm)
  · refine Fin.ext (hd.ne i j i.2 j.2 h (fun h' => h (h1.2 h')) ?_)
    unfold Cyl.kr at hij
    exact (div_left_inj' hg.rmax_pos.ne').1 hij

theorem norm_ne (hg : g.Ok) (hd : g.Distinct) {i : ℕ} (hi : i < g.Nr) (hl : ¬ g.Low i) :
    Real.pi * g.rmax ^ 2 * besselJ (g.m + 1) (g.alpha i) ^ 2 ≠ 0 := by
  have := besselJ_succ_ne g.m (hd.pos i hi hl) (hg.zero i hi hl).2
  have h1 := Real.pi_pos.ne'
  have h2 := hg.rmax_pos.ne'
  positivity

/-- Radial functions: a combination of those of order `m` or `m+1` that vanishes has no amplitude except that of
the function that vanishes itself. -/
theorem radial_indep (hg : g.Ok) (hd : g.Distinct) {p : ℤ} (hp : p ≠ g.m - 1) {a : ℕ → ℂ}
    (h : ∀ r, 0 < r → ∑ ir ∈ Finset.range g.Nr, a ir * (g.radial p ir r : ℂ) = 0) {i : ℕ} (hi : i < g.Nr)
    (hl : ¬ g.Low i) : a i = 0 := by
  have h1 := besselJ_indep (n := g.Nr) (k := fun i => g.kr i) p (kr_nonneg hg hd) (kr_inj hg hd)
    (a := fun j => if g.Low j then 0 else
      a j / ((Real.pi * g.rmax ^ 2 * besselJ (g.m + 1) (g.alpha j) ^ 2 : ℝ) : ℂ))
    (fun j hj => by rw [if_pos ((kr_eq_zero hg j.2).1 hj)]) ?_ ⟨i, hi⟩
  · simp only [] at h1
    rw [if_neg hl, div_eq_zero_iff] at h1
    exact h1.resolve_right (by exact_mod_cast norm_ne hg hd hi hl)
  · intro r hr
    have := h r hr
    rw [Finset.sum_range] at this
    refine Eq.trans (Finset.sum_congr rfl fun j _ => ?_) this
    unfold Cyl.radial
    split_ifs
    · simp
    · push_cast; ring

/-- Radial functions of order `m-1`: all are independent. -/
theorem radial_indep_pred (hg : g.Ok) (hd : g.Distinct) {a : ℕ → ℂ}
    (h : ∀ r, 0 < r → ∑ ir ∈ Finset.range g.Nr, a ir * (g.radial (g.m - 1) ir r : ℂ) = 0) {i : ℕ} (hi : i < g.Nr) :
    a i = 0 := by
  have hup : ∀ r, 0 < r → ∑ ir ∈ Finset.range g.Nr, a ir * g.kr ir * (g.radial g.m ir r : ℂ) = 0 := by
    intro r hr
    have hdv : HasDerivAt (fun r => ∑ ir ∈ Finset.range g.Nr, a ir * (g.radial (g.m - 1) ir r : ℂ))
        (∑ ir ∈ Finset.range g.Nr, a ir * (((g.m - 1 : ℝ) / r * g.radial (g.m - 1) ir r - g.kr ir * g.radial g.m ir r : ℝ) : ℂ)) r :=
      HasDerivAt.fun_sum fun ir hir =>
        ((radial_deriv_pred hg (Finset.mem_range.1 hir) hr).ofReal_comp.congr_deriv (by push_cast; ring)).const_mul _
    have := deriv_zero hr h hdv
    have e : ∀ ir, a ir * (((g.m - 1 : ℝ) / r * g.radial (g.m - 1) ir r - g.kr ir * g.radial g.m ir r : ℝ) : ℂ)
        = (g.m - 1 : ℂ) / r * (a ir * (g.radial (g.m - 1) ir r : ℂ)) - a ir * g.kr ir * (g.radial g.m ir r : ℂ) := fun ir => by
      push_cast; ring
    rw [Finset.sum_congr rfl fun ir _ => e ir, Finset.sum_sub_distrib, ← Finset.mul_sum, h r hr] at this
    linear_combination -this
  have hnl : ∀ j, j < g.Nr → ¬ g.Low j → a j = 0 := by
    intro j hj hl
    have := radial_indep hg hd (p := g.m) (by omega) hup hj hl
    exact (mul_eq_zero.1 this).resolve_right (by exact_mod_cast fun h' => hl ((kr_eq_zero hg hj).1 h'))
  by_cases hl : g.Low i
  · have h1 := h 1 one_pos
    rw [Finset.sum_eq_single i] at h1
    · refine (mul_eq_zero.1 h1).resolve_right ?_
      unfold Cyl.radial
      rw [if_pos hl, if_pos rfl]
      have := hg.rmax_pos
      have := Real.pi_pos
      have : (1 : ℝ) ^ (g.m - 1) / (Real.pi * g.rmax ^ (g.m + 1)) ≠ 0 := by positivity
      exact_mod_cast this
    · intro j hj hji
      rw [hnl j (Finset.mem_range.1 hj) fun h' => hji (h'.2.trans hl.2.symm), zero_mul]
    · intro hn
      exact absurd (Finset.mem_range.2 hi) hn
  · exact hnl i hi hl

end Fbpic
