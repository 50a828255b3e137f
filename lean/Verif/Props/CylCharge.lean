import Verif.Props.Cylinder
import Verif.Props.Deposit
import Verif.Model.CellVolume
import Verif.Spec.CylCharge
import Mathlib.Analysis.SpecialFunctions.Integrals.Basic

/-!
# C81: the charge in the simulated fields is the charge of the particles

The charge density that enters the field solver is a field in the cylinder. Its integral is the sum of
the charges of the macroparticles, exactly, because of the modified cell volumes of mode 0.
-/

namespace Fbpic

open Complex Spec Transform CellVolume

variable {g : Cyl}

/-- `∫ r J_0(k r) dr`. -/
private theorem integral_r_J0 {k R : ℝ} (hk : k ≠ 0) (hR : 0 ≤ R) :
    ∫ r in (0 : ℝ)..R, r * besselJ 0 (k * r) = R * besselJ 1 (k * R) / k := by
  have c0 := besselJ_continuous 0
  have c1 := besselJ_continuous 1
  rw [intervalIntegral.integral_eq_sub_of_hasDerivAt_of_le hR (f := fun r => r * besselJ 1 (k * r) / k)
    (by fun_prop) ?_ (Continuous.intervalIntegrable (by fun_prop) _ _)]
  · simp
  · intro x hx
    have hx0 : x ≠ 0 := hx.1.ne'
    have h1 : HasDerivAt (fun r : ℝ => k * r) k x := by simpa using (hasDerivAt_id x).const_mul k
    have h2 := HasDerivAt.comp x (h₂ := besselJ 1) (besselJ_deriv_pred 1 (mul_ne_zero hk hx0)) h1
    have h3 := ((hasDerivAt_id x).fun_mul h2).div_const k
    refine h3.congr_deriv ?_
    simp only [id_eq, Function.comp, sub_self, Int.cast_one]
    field_simp
    ring

/-- A wave integrates to zero over the period, except the constant one. -/
private theorem integral_phase_period (hg : g.Ok) {iz : ℕ} (hz : iz < g.Nz) (z1 : ℝ) :
    ∫ z in z1..(z1 + g.Nz * g.dz), exp (I * (g.kz iz : ℂ) * ((z - g.z0 : ℝ) : ℂ))
      = if iz = 0 then ((g.Nz * g.dz : ℝ) : ℂ) else 0 := by
  have hN : (g.Nz : ℝ) ≠ 0 := by exact_mod_cast hg.Nz_pos.ne'
  have hd := hg.dz_ne
  have hpi := Real.pi_pos.ne'
  by_cases h0 : iz = 0
  · subst h0
    have : g.kz 0 = 0 := by simp [Cyl.kz]
    rw [if_pos rfl, this]
    simp
  · rw [if_neg h0]
    have hne : (if iz ≤ (g.Nz - 1) / 2 then (iz : ℝ) else (iz : ℝ) - g.Nz) ≠ 0 := by
      split_ifs
      · exact_mod_cast h0
      · have : (iz : ℝ) < g.Nz := by exact_mod_cast hz
        linarith
    have hk : g.kz iz ≠ 0 := by unfold Cyl.kz; positivity
    have hkc : I * (g.kz iz : ℂ) ≠ 0 := mul_ne_zero I_ne_zero (by exact_mod_cast hk)
    have e : ∀ z : ℝ, exp (I * (g.kz iz : ℂ) * ((z - g.z0 : ℝ) : ℂ))
        = exp (-(I * g.kz iz * g.z0)) * exp (I * (g.kz iz : ℂ) * z) := fun z => by
      rw [← exp_add]; congr 1; push_cast; ring
    simp only [e]
    rw [intervalIntegral.integral_const_mul, integral_exp_mul_complex hkc]
    have hper : exp (I * (g.kz iz : ℂ) * ((z1 + g.Nz * g.dz : ℝ) : ℂ)) = exp (I * (g.kz iz : ℂ) * z1) := by
      rw [Complex.exp_eq_exp_iff_exists_int]
      refine ⟨if iz ≤ (g.Nz - 1) / 2 then (iz : ℤ) else (iz : ℤ) - g.Nz, ?_⟩
      have hNc : (g.Nz : ℂ) ≠ 0 := by exact_mod_cast hg.Nz_pos.ne'
      have hdc : (g.dz : ℂ) ≠ 0 := by exact_mod_cast hd
      unfold Cyl.kz
      split_ifs
      · push_cast; field_simp
      · push_cast; field_simp
    rw [hper, sub_self, zero_div, mul_zero]

/-- Integral of a scalar field of mode 0 over one period. -/
private theorem integral_scal (hg : g.Ok) (hm : g.m = 0) (f : ℕ → ℕ → ℂ) (z1 : ℝ) :
    cylIntegral z1 (z1 + g.Nz * g.dz) g.rmax (g.scal f)
      = g.dz * ∑ ir ∈ Finset.range g.Nr, f 0 ir * ((2 / (g.alpha ir * besselJ 1 (g.alpha ir)) : ℝ) : ℂ) := by
  have hpi := Real.pi_pos
  have hN : (g.Nz : ℂ) ≠ 0 := by exact_mod_cast hg.Nz_pos.ne'
  have hl : ∀ i, ¬ g.Low i := fun i h => h.1 hm
  have c0 := besselJ_continuous 0
  have hrad : ∀ i, i < g.Nr → ∀ r, g.radial g.m i r
      = besselJ 0 (g.kr i * r) / (Real.pi * g.rmax ^ 2 * besselJ 1 (g.alpha i) ^ 2) := fun i hi r => by
    unfold Cyl.radial
    rw [if_neg (hl i), hm]; simp
  have hri : ∀ i, i < g.Nr → ∫ r in (0 : ℝ)..g.rmax, (g.radial g.m i r : ℂ) * (r : ℂ) * (2 * Real.pi)
      = ((2 / (g.alpha i * besselJ 1 (g.alpha i)) : ℝ) : ℂ) := fun i hi => by
    have hR := hg.rmax_pos
    obtain ⟨ha, -⟩ := hg.zero i hi (hl i)
    have hk : g.kr i ≠ 0 := div_ne_zero ha hR.ne'
    have h1 := integral_r_J0 hk hR.le
    have e : ∀ r : ℝ, (g.radial g.m i r : ℂ) * (r : ℂ) * (2 * Real.pi)
        = ((2 / (g.rmax ^ 2 * besselJ 1 (g.alpha i) ^ 2) * (r * besselJ 0 (g.kr i * r)) : ℝ) : ℂ) := fun r => by
      rw [hrad i hi]
      have : (Real.pi : ℂ) ≠ 0 := by exact_mod_cast hpi.ne'
      push_cast
      field_simp
    simp only [e]
    rw [intervalIntegral.integral_ofReal, intervalIntegral.integral_const_mul, h1]
    congr 1
    have hka : g.kr i * g.rmax = g.alpha i := by unfold Cyl.kr; field_simp
    rw [hka]
    have hkk : g.kr i = g.alpha i / g.rmax := rfl
    rw [hkk]
    by_cases hj : besselJ 1 (g.alpha i) = 0
    · simp [hj]
    · field_simp
  have hθ : ∀ z r : ℝ, ∫ θ in (0 : ℝ)..(2 * Real.pi), g.scal f z r θ * (r : ℂ)
      = 1 / (g.Nz : ℂ) * ∑ iz ∈ Finset.range g.Nz, ∑ ir ∈ Finset.range g.Nr,
        f iz ir * exp (I * (g.kz iz : ℂ) * ((z - g.z0 : ℝ) : ℂ)) * ((g.radial g.m ir r : ℂ) * (r : ℂ) * (2 * Real.pi)) := by
    intro z r
    have : ∀ θ : ℝ, g.scal f z r θ * (r : ℂ) = g.scal f z r 0 * (r : ℂ) := fun θ => by
      unfold Cyl.scal Cyl.wave
      simp [hm]
    simp only [this]
    rw [intervalIntegral.integral_const, sub_zero, Complex.real_smul]
    unfold Cyl.scal Cyl.wave
    rw [mul_comm, mul_assoc, mul_assoc]
    congr 1
    rw [Finset.sum_mul]
    refine Finset.sum_congr rfl fun iz _ => ?_
    rw [Finset.sum_mul]
    refine Finset.sum_congr rfl fun ir _ => ?_
    simp
    ring
  have hr : ∀ z : ℝ, ∫ r in (0 : ℝ)..g.rmax, ∫ θ in (0 : ℝ)..(2 * Real.pi), g.scal f z r θ * (r : ℂ)
      = 1 / (g.Nz : ℂ) * ∑ iz ∈ Finset.range g.Nz, (∑ ir ∈ Finset.range g.Nr,
        f iz ir * ((2 / (g.alpha ir * besselJ 1 (g.alpha ir)) : ℝ) : ℂ)) * exp (I * (g.kz iz : ℂ) * ((z - g.z0 : ℝ) : ℂ)) := by
    intro z
    simp only [hθ]
    have hint : ∀ ir ∈ Finset.range g.Nr, Continuous fun r : ℝ => (g.radial g.m ir r : ℂ) * (r : ℂ) * (2 * Real.pi) :=
      fun ir hir => by
        simp only [hrad ir (Finset.mem_range.1 hir)]
        fun_prop
    rw [intervalIntegral.integral_const_mul, intervalIntegral.integral_finset_sum]
    · congr 1
      refine Finset.sum_congr rfl fun iz _ => ?_
      rw [intervalIntegral.integral_finset_sum, Finset.sum_mul]
      · refine Finset.sum_congr rfl fun ir hir => ?_
        rw [intervalIntegral.integral_const_mul, hri ir (Finset.mem_range.1 hir)]
        ring
      · exact fun ir hir => ((hint ir hir).const_mul _).intervalIntegrable _ _
    · exact fun iz _ => (continuous_finset_sum _ fun ir hir => (hint ir hir).const_mul _).intervalIntegrable _ _
  unfold cylIntegral
  simp only [hr]
  have hexp : ∀ iz, Continuous fun z : ℝ => exp (I * (g.kz iz : ℂ) * ((z - g.z0 : ℝ) : ℂ)) := fun iz => by fun_prop
  rw [intervalIntegral.integral_const_mul, intervalIntegral.integral_finset_sum]
  · rw [Finset.sum_eq_single 0]
    · rw [intervalIntegral.integral_const_mul, integral_phase_period hg hg.Nz_pos, if_pos rfl]
      generalize (∑ ir ∈ Finset.range g.Nr, f 0 ir * ((2 / (g.alpha ir * besselJ 1 (g.alpha ir)) : ℝ) : ℂ)) = S
      push_cast
      field_simp
    · intro iz hz h0
      rw [intervalIntegral.integral_const_mul, integral_phase_period hg (Finset.mem_range.1 hz), if_neg h0, mul_zero]
    · intro h
      exact absurd (Finset.mem_range.2 hg.Nz_pos) h
  · exact fun iz _ => ((hexp iz).const_mul _).intervalIntegrable _ _

theorem fftAxis0_zero (Nz : ℕ) [NeZero Nz] (a : ℕ → ℕ → ℂ) (j : ℕ) :
    fftAxis0 Nz false a 0 j = ∑ k ∈ Finset.range Nz, a k j := by
  unfold fftAxis0 fftZ
  simp only [Bool.false_eq_true, if_false, Nat.cast_zero, ZMod.val_zero, mul_zero, zero_div, exp_zero, mul_one]
  obtain ⟨N, rfl⟩ : ∃ N, Nz = N + 1 := ⟨Nz - 1, by have := NeZero.ne Nz; omega⟩
  exact Fin.sum_univ_eq_sum_range (fun k => a k j) (N + 1)

/-- **C81** (any array of mode 0): what is divided by the modified cell volumes and transformed stands for a field
whose integral over the box is the sum of the array, provided no cell volume is 0. -/
theorem C81_integral {Nr : ℕ} {dr dz zmin rmax : ℝ} {zeros : ℕ → ℝ} {T : Trans} [NeZero T.Nz]
    (hT : TransOf 0 Nr rmax zeros T) (hg : (cylOf 0 T.Nz Nr dz zmin rmax zeros).Ok) (interp spect : ℕ) (mem : Mem)
    (A : Buf) (vol : ℕ → ℝ)
    (hvol : vol = cellVol true 0 dr dz Nr T.M0 (Hankel.alphas 0 zeros) (fun p => besselJ 1 (Hankel.alphas 0 zeros p)))
    (hne : ∀ j, j < Nr → vol j ≠ 0) (hmem : EqOn T.Nz Nr (mem interp) (divideByVolume vol A)) :
    cylIntegral zmin (zmin + T.Nz * dz) rmax
        ((cylOf 0 T.Nz Nr dz zmin rmax zeros).scal (T.interp2spectScal interp spect mem spect))
      = ∑ iz ∈ Finset.range T.Nz, ∑ ir ∈ Finset.range Nr, A iz ir := by
  have h1 := integral_scal hg rfl (T.interp2spectScal interp spect mem spect) zmin
  refine h1.trans ?_
  have hN : 0 < T.Nz := Nat.pos_of_ne_zero (NeZero.ne _)
  have hs : ∀ ir, ir < Nr → T.interp2spectScal interp spect mem spect 0 ir
      = ∑ l ∈ Finset.range Nr, (∑ iz ∈ Finset.range T.Nz, mem interp iz l) * (T.M0 l ir : ℂ) := fun ir hir => by
    rw [(C66_scal_spect hT.ok interp spect mem).1 0 ir hN (by rw [hT.nr]; exact hir)]
    unfold hankel
    rw [hT.nr]
    refine Finset.sum_congr rfl fun l _ => ?_
    congr 1
    exact fftAxis0_zero _ _ _
  have hA : ∀ iz, iz < T.Nz → ∀ l, l < Nr → mem interp iz l * (vol l : ℂ) = A iz l := fun iz hz l hl => by
    rw [hmem iz l hz hl]
    have : (vol l : ℂ) ≠ 0 := by exact_mod_cast hne l hl
    unfold divideByVolume
    push_cast
    field_simp
  have hv : ∀ l, (vol l : ℂ) = dz * ∑ ir ∈ Finset.range Nr, (T.M0 l ir : ℂ) *
      ((2 / (Hankel.alphas 0 zeros ir * besselJ 1 (Hankel.alphas 0 zeros ir)) : ℝ) : ℂ) := fun l => by
    rw [hvol, cellVol, if_pos ⟨rfl, rfl⟩, hankelVol]
    push_cast
    congr 1
    exact Finset.sum_congr rfl fun ir _ => by ring
  show (dz : ℂ) * ∑ ir ∈ Finset.range Nr, T.interp2spectScal interp spect mem spect 0 ir *
    ((2 / (Hankel.alphas 0 zeros ir * besselJ 1 (Hankel.alphas 0 zeros ir)) : ℝ) : ℂ) = _
  rw [Finset.sum_comm]
  rw [Finset.sum_congr rfl fun ir hir => by rw [hs ir (Finset.mem_range.1 hir), Finset.sum_mul]]
  rw [Finset.sum_comm, Finset.mul_sum]
  refine Finset.sum_congr rfl fun l hl => ?_
  rw [← Finset.sum_congr rfl fun iz hz => hA iz (Finset.mem_range.1 hz) l (Finset.mem_range.1 hl), ← Finset.sum_mul, hv,
    Finset.mul_sum, Finset.mul_sum, Finset.mul_sum]
  exact Finset.sum_congr rfl fun ir _ => by ring

/-- **C81** (total charge). -/
theorem C81_charge {Nr : ℕ} {dr dz zmin rmax : ℝ} {zeros : ℕ → ℝ} {T : Trans} [NeZero T.Nz]
    (hT : TransOf 0 Nr rmax zeros T) (hg : (cylOf 0 T.Nz Nr dz zmin rmax zeros).Ok) (interp spect : ℕ) (mem : Mem)
    (vol : ℕ → ℝ)
    (hvol : vol = cellVol true 0 dr dz Nr T.M0 (Hankel.alphas 0 zeros) (fun p => besselJ 1 (Hankel.alphas 0 zeros p)))
    (hne : ∀ j, j < Nr → vol j ≠ 0) (c : ℝ) (G : CylGrid) (hGz : G.Nz = T.Nz) (hGr : G.Nr = Nr) (h2z : 2 ≤ G.Nz)
    (h2r : 2 ≤ G.Nr) (beta : Shape → ℕ → List ℝ) (nthreads : ℕ) (hn : 0 < nthreads) (sps : List DepSpecies) (A : Buf)
    (h : depositAll .rho c G beta 0 nthreads sps = .ok A)
    (hmem : EqOn T.Nz Nr (mem interp) (divideByVolume vol A)) :
    cylIntegral zmin (zmin + T.Nz * dz) rmax
        ((cylOf 0 T.Nz Nr dz zmin rmax zeros).scal (T.interp2spectScal interp spect mem spect))
      = (((sps.map fun sp => (sp.ptcls.map fun p => sp.q * p.w).sum).sum : ℝ) : ℂ) := by
  rw [C81_integral hT hg interp spect mem A vol hvol hne hmem,
    ← C23_charge c G beta nthreads hn sps A h2z h2r h, hGz, hGr]

/-- **C81** (total longitudinal current). -/
theorem C81_current {Nr : ℕ} {dr dz zmin rmax : ℝ} {zeros : ℕ → ℝ} {T : Trans} [NeZero T.Nz]
    (hT : TransOf 0 Nr rmax zeros T) (hg : (cylOf 0 T.Nz Nr dz zmin rmax zeros).Ok) (interp spect : ℕ) (mem : Mem)
    (vol : ℕ → ℝ)
    (hvol : vol = cellVol true 0 dr dz Nr T.M0 (Hankel.alphas 0 zeros) (fun p => besselJ 1 (Hankel.alphas 0 zeros p)))
    (hne : ∀ j, j < Nr → vol j ≠ 0) (c : ℝ) (G : CylGrid) (hGz : G.Nz = T.Nz) (hGr : G.Nr = Nr) (h2z : 2 ≤ G.Nz)
    (h2r : 2 ≤ G.Nr) (beta : Shape → ℕ → List ℝ) (nthreads : ℕ) (hn : 0 < nthreads) (sps : List DepSpecies) (A : Buf)
    (h : depositAll .Jz c G beta 0 nthreads sps = .ok A)
    (hmem : EqOn T.Nz Nr (mem interp) (divideByVolume vol A)) :
    cylIntegral zmin (zmin + T.Nz * dz) rmax
        ((cylOf 0 T.Nz Nr dz zmin rmax zeros).scal (T.interp2spectScal interp spect mem spect))
      = (((sps.map fun sp => (sp.ptcls.map fun p => sp.q * p.w * c * p.invGamma * p.uz).sum).sum : ℝ) : ℂ) := by
  rw [C81_integral hT hg interp spect mem A vol hvol hne hmem,
    ← C23_current c G beta nthreads hn sps A h2z h2r h, hGz, hGr]

/-- **C81** (cell volumes): without the modification, and in the modes other than 0, the cell volume is that of the
ring between `i dr` and `(i+1) dr`. -/
theorem C81_ring (useMod : Bool) (m : ℕ) (h : useMod = false ∨ m ≠ 0) (dr dz : ℝ) (Nr : ℕ) (M : ℕ → ℕ → ℝ)
    (alphas j1 : ℕ → ℝ) (i : ℕ) :
    cellVol useMod m dr dz Nr M alphas j1 i = ringVolume (i * dr) ((i + 1) * dr) dz := by
  have hc : ¬ (useMod = true ∧ m = 0) := by
    rintro ⟨h1, h2⟩
    rcases h with h | h
    · rw [h1] at h; exact absurd h (by decide)
    · exact h h2
  unfold cellVol ringVolume
  rw [if_neg hc]
  simp only [intervalIntegral.integral_const, smul_eq_mul, sub_zero]
  rw [intervalIntegral.integral_const_mul, integral_id]
  unfold stdVol
  simp only
  ring

/-- The hypotheses of `C81_integral` are met with a true zero of `J_0` (one radial cell) and an array that is not
constant. -/
example : ∃ (zeros : ℕ → ℝ) (T : Trans) (vol : ℕ → ℝ) (mem : Mem) (A : Buf), T.Nz = 4 ∧ TransOf 0 1 1 zeros T ∧
    (cylOf 0 T.Nz 1 (1 / 2) 0 1 zeros).Ok ∧
    vol = cellVol true 0 1 (1 / 2) 1 T.M0 (Hankel.alphas 0 zeros) (fun p => besselJ 1 (Hankel.alphas 0 zeros p)) ∧
    (∀ j, j < 1 → vol j ≠ 0) ∧ EqOn T.Nz 1 (mem 0) (divideByVolume vol A) ∧ A 2 0 = 3 := by
  obtain ⟨zeros, T, h1, h2, h3, h4, h5, h6⟩ := exists_trans
  refine ⟨zeros, T, _, fun _ => divideByVolume _ fun i _ => i + 1, fun i _ => i + 1, h1, h4, h3, rfl, ?_,
    fun _ _ _ _ => rfl, by norm_num⟩
  intro j hj
  obtain rfl : j = 0 := by omega
  have ha := (h2.1 0 one_pos).1
  have : Hankel.alphas 0 zeros 0 = zeros 0 := by simp [Hankel.alphas]
  simp only [cellVol, hankelVol, Finset.sum_range_one, and_self, if_true, this]
  positivity

end Fbpic
