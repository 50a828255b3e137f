import Verif.Lemmas.LocalityCoefs
import Verif.Model.StencilReach

/-!
# Lemmas: reach of the stencil
-/

namespace Fbpic.Locality

open Complex

variable {ρ : ℝ}

section
variable {N : ℕ} [NeZero N]

/-- The stencil of a symbol is the operator, applied to one cell. -/
theorem stencil_op (dz : ℝ) (h : ℝ → ℂ) (j : ZMod N) :
    ifftZ N (fun k => h (kzTrue N dz k.val * dz)) j = op N dz h (fun i => if i = 0 then 1 else 0) j := by
  unfold op
  congr 1
  funext k
  have : fftZ N (fun i => if i = 0 then (1 : ℂ) else 0) k = 1 := by
    unfold fftZ
    simp [ite_mul]
  rw [this, mul_one]

/-- Decrease of the stencil. -/
theorem stencil_small (hρ : 1 ≤ ρ) {h : ℝ → ℂ} {C : ℝ} (s : SymW ρ h C) {dz : ℝ} (hdz : dz ≠ 0) {r : ℕ} (hr : 2 * r ≤ N) :
    ‖ifftZ N (fun k => h (kzTrue N dz k.val * dz)) (r : ZMod N)‖ ≤ C / ρ ^ r := by
  rw [stencil_op]
  have hR : (0 : ℝ) < ρ ^ r := pow_pos (by linarith) _
  obtain ⟨T, a, n, S, h1, h2, h3⟩ := s
  refine (HasSum.norm_le_of_bounded (op_hasSum hdz h3 _ _) (h1.div_const (ρ ^ r)) fun t => ?_).trans (div_le_div_of_nonneg_right h2 hR.le)
  split_ifs with h0
  · rw [mul_one, le_div_iff₀ hR]
    refine mul_le_mul_of_nonneg_left (pow_le_pow_right₀ hρ ?_) (norm_nonneg _)
    have : ((r + n t : ℤ) : ZMod N) = 0 := by push_cast; exact h0
    rw [ZMod.intCast_zmod_eq_zero_iff_dvd] at this
    obtain ⟨d, hd⟩ := this
    by_contra hlt
    push Not at hlt
    have hN : (0 : ℤ) < N := by exact_mod_cast Nat.pos_of_ne_zero (NeZero.ne N)
    rcases lt_trichotomy d 0 with hd0 | hd0 | hd0
    · have : (N : ℤ) * d ≤ -N := by nlinarith
      omega
    · subst hd0
      omega
    · have : (N : ℤ) ≤ N * d := by nlinarith
      omega
  · rw [mul_zero, norm_zero]
    exact div_nonneg (mul_nonneg (norm_nonneg _) (pow_nonneg (by linarith) _)) hR.le

end

/-- `theta` of the Galilean scheme is of rapid decrease. -/
theorem loc_exp (hρ : 1 ≤ ρ) (half : ℕ) (dz : ℝ) (z : ℂ) : Loc ρ (fun θ => exp (z * (xsym half dz θ : ℂ))) := by
  refine loc_series hρ (loc_x hρ half dz) (γ := fun j => z ^ j / (j.factorial : ℂ)) (G := 1) (X := ‖z‖) (fun j => ?_) fun θ => ?_
  · rw [norm_div, norm_pow, one_mul, RCLike.norm_natCast]
  · have := NormedSpace.expSeries_div_hasSum_exp (z * (xsym half dz θ : ℂ))
    rw [← Complex.exp_eq_exp_ℂ] at this
    refine this.congr_fun fun j => ?_
    rw [mul_pow]
    ring

/-- The factors of the three stencils. -/
theorem loc_reach (hρ : 1 ≤ ρ) (half : ℕ) (dz cdt : ℝ) {kp : ℝ} (hkp : kp ≠ 0) {th : ℝ → ℂ} (ht : Loc ρ th) :
    Loc ρ (fun θ => th θ ^ 2 * (Real.cos (Real.sqrt (xsym half dz θ ^ 2 + kp ^ 2) * cdt) : ℝ)) ∧
    Loc ρ (fun θ => th θ ^ 2 * (Real.sin (Real.sqrt (xsym half dz θ ^ 2 + kp ^ 2) * cdt) : ℝ) / (Real.sqrt (xsym half dz θ ^ 2 + kp ^ 2) : ℝ) * (xsym half dz θ : ℂ)) ∧
    Loc ρ (fun θ => th θ ^ 2 * (Real.sin (Real.sqrt (xsym half dz θ ^ 2 + kp ^ 2) * cdt) : ℝ) / (Real.sqrt (xsym half dz θ ^ 2 + kp ^ 2) : ℝ) * (kp : ℂ)) := by
  have ht2 : Loc ρ (fun θ => th θ ^ 2) := by simpa only [pow_two] using ht.mul hρ ht
  let k : Consts := { c := 1, eps0 := 1, mu0 := 1 }
  have om : ∀ θ, omega k (xsym half dz θ) kp = Real.sqrt (xsym half dz θ ^ 2 + kp ^ 2) := fun θ => one_mul _
  have nz : ∀ θ, Real.sqrt (xsym half dz θ ^ 2 + kp ^ 2) ≠ 0 := fun θ => (Real.sqrt_pos.2 (by positivity)).ne'
  have hc := loc_trig hρ k half dz kp cdt 0
  have hs := loc_trig hρ k half dz kp cdt 1
  have ec : ∀ θ, trig 0 (ysq k (xsym half dz θ) kp cdt) = Real.cos (Real.sqrt (xsym half dz θ ^ 2 + kp ^ 2) * cdt) := by
    intro θ
    rw [← coefC_eq, coefC, om]
  have es : ∀ θ, cdt * trig 1 (ysq k (xsym half dz θ) kp cdt) = Real.sin (Real.sqrt (xsym half dz θ ^ 2 + kp ^ 2) * cdt) / Real.sqrt (xsym half dz θ ^ 2 + kp ^ 2) := by
    intro θ
    rw [← coefSw_eq, coefSw, if_neg (by rw [om]; exact nz θ), invOmega, if_neg (by rw [om]; exact nz θ), om]
    ring
  have hs' : Loc ρ (fun θ => ((cdt * trig 1 (ysq k (xsym half dz θ) kp cdt) : ℝ) : ℂ)) := by
    simpa only [ofReal_mul] using (loc_const (ρ := ρ) (cdt : ℂ)).mul hρ hs
  simp only [es] at hs'
  simp only [ec] at hc
  refine ⟨ht2.mul hρ hc, ?_, ?_⟩
  · have := (ht2.mul hρ hs').mul hρ (loc_x hρ half dz)
    simpa only [ofReal_div, mul_div_assoc] using this
  · have := (ht2.mul hρ hs').mul hρ (loc_const (kp : ℂ))
    simpa only [ofReal_div, mul_div_assoc] using this

theorem mk_eq {half : ℕ} (hh : 1 ≤ half) (N : ℕ) (dz : ℝ) (i : ℕ) :
    (modifiedK (kzTrue N dz i) (2 * (half : ℤ)) dz).toOption.getD 0 = xsym half dz (kzTrue N dz i * dz) := by
  unfold modifiedK
  rw [if_neg (by omega), if_neg (by omega)]
  have : (2 * (half : ℤ) / 2).toNat = half := by omega
  simp only [this, Except.toOption, Option.getD_some]
  unfold xsym
  refine Finset.sum_congr rfl fun n _ => ?_
  congr 3
  ring

/-- `alpha` is small at a distance that does not depend on the number of cells. -/
theorem alpha_small {half : ℕ} (hh : 1 ≤ half) {dz : ℝ} (hdz : dz ≠ 0) (cdt : ℝ) {th : ℝ → ℂ} (ht : Loc 2 th) {ε : ℝ} (hε : 0 < ε) :
    ∃ r0 : ℕ, ∀ (N : ℕ) [NeZero N], 2 * r0 ≤ N →
      |reachAlpha N (fun i => (modifiedK (kzTrue N dz i) (2 * (half : ℤ)) dz).toOption.getD 0) 0.5 cdt (fun i => th (kzTrue N dz i * dz)) r0| < ε := by
  have h1 : (1 : ℝ) ≤ 2 := by norm_num
  obtain ⟨⟨A, hA⟩, ⟨B, hB⟩, ⟨D, hD⟩⟩ := loc_reach h1 half dz cdt (kp := 0.5) (by norm_num) ht
  have A0 := hA.nonneg h1
  have B0 := hB.nonneg h1
  have D0 := hD.nonneg h1
  obtain ⟨r0, hr0⟩ := pow_unbounded_of_one_lt ((A + B + D) / ε) (show (1 : ℝ) < 2 by norm_num)
  refine ⟨r0, fun N _ hN => ?_⟩
  have hp : (0 : ℝ) < 2 ^ r0 := by positivity
  have a1 := stencil_small (N := N) h1 hA hdz hN
  have b1 := stencil_small (N := N) h1 hB hdz hN
  have d1 := stencil_small (N := N) h1 hD hdz hN
  have nz : ∀ x : ℝ, Real.sqrt (x ^ 2 + 0.5 ^ 2) ≠ 0 := fun x => (Real.sqrt_pos.2 (by positivity)).ne'
  have e1 : cosStencil N (fun i => (modifiedK (kzTrue N dz i) (2 * (half : ℤ)) dz).toOption.getD 0) 0.5 cdt (fun i => th (kzTrue N dz i * dz)) r0
      = ifftZ N (fun k => (fun θ => th θ ^ 2 * (Real.cos (Real.sqrt (xsym half dz θ ^ 2 + 0.5 ^ 2) * cdt) : ℝ)) (kzTrue N dz k.val * dz)) (r0 : ZMod N) := by
    unfold cosStencil reachK
    simp only [mk_eq hh]
  have e2 : sinZStencil N (fun i => (modifiedK (kzTrue N dz i) (2 * (half : ℤ)) dz).toOption.getD 0) 0.5 cdt (fun i => th (kzTrue N dz i * dz)) r0
      = ifftZ N (fun k => (fun θ => th θ ^ 2 * (Real.sin (Real.sqrt (xsym half dz θ ^ 2 + 0.5 ^ 2) * cdt) : ℝ) / (Real.sqrt (xsym half dz θ ^ 2 + 0.5 ^ 2) : ℝ) * (xsym half dz θ : ℂ)) (kzTrue N dz k.val * dz)) (r0 : ZMod N) := by
    unfold sinZStencil reachK
    simp only [mk_eq hh, nz, if_false]
  have e3 : sinPerpStencil N (fun i => (modifiedK (kzTrue N dz i) (2 * (half : ℤ)) dz).toOption.getD 0) 0.5 cdt (fun i => th (kzTrue N dz i * dz)) r0
      = ifftZ N (fun k => (fun θ => th θ ^ 2 * (Real.sin (Real.sqrt (xsym half dz θ ^ 2 + 0.5 ^ 2) * cdt) : ℝ) / (Real.sqrt (xsym half dz θ ^ 2 + 0.5 ^ 2) : ℝ) * ((0.5 : ℝ) : ℂ)) (kzTrue N dz k.val * dz)) (r0 : ZMod N) := by
    unfold sinPerpStencil reachK
    simp only [mk_eq hh, nz, if_false]
  unfold reachAlpha
  rw [abs_of_nonneg (Real.sqrt_nonneg _), Real.sqrt_lt' hε, e1, e2, e3]
  have key : A / 2 ^ r0 + B / 2 ^ r0 + D / 2 ^ r0 < ε := by
    rw [← add_div, ← add_div, div_lt_iff₀ hp]
    rw [div_lt_iff₀ hε] at hr0
    linarith
  have n1 := norm_nonneg (ifftZ N (fun k => (fun θ => th θ ^ 2 * (Real.cos (Real.sqrt (xsym half dz θ ^ 2 + 0.5 ^ 2) * cdt) : ℝ)) (kzTrue N dz k.val * dz)) (r0 : ZMod N))
  have n2 := norm_nonneg (ifftZ N (fun k => (fun θ => th θ ^ 2 * (Real.sin (Real.sqrt (xsym half dz θ ^ 2 + 0.5 ^ 2) * cdt) : ℝ) / (Real.sqrt (xsym half dz θ ^ 2 + 0.5 ^ 2) : ℝ) * (xsym half dz θ : ℂ)) (kzTrue N dz k.val * dz)) (r0 : ZMod N))
  have n3 := norm_nonneg (ifftZ N (fun k => (fun θ => th θ ^ 2 * (Real.sin (Real.sqrt (xsym half dz θ ^ 2 + 0.5 ^ 2) * cdt) : ℝ) / (Real.sqrt (xsym half dz θ ^ 2 + 0.5 ^ 2) : ℝ) * ((0.5 : ℝ) : ℂ)) (kzTrue N dz k.val * dz)) (r0 : ZMod N))
  generalize ‖ifftZ N (fun k => (fun θ => th θ ^ 2 * (Real.cos (Real.sqrt (xsym half dz θ ^ 2 + 0.5 ^ 2) * cdt) : ℝ)) (kzTrue N dz k.val * dz)) (r0 : ZMod N)‖ = x at *
  generalize ‖ifftZ N (fun k => (fun θ => th θ ^ 2 * (Real.sin (Real.sqrt (xsym half dz θ ^ 2 + 0.5 ^ 2) * cdt) : ℝ) / (Real.sqrt (xsym half dz θ ^ 2 + 0.5 ^ 2) : ℝ) * (xsym half dz θ : ℂ)) (kzTrue N dz k.val * dz)) (r0 : ZMod N)‖ = y at *
  generalize ‖ifftZ N (fun k => (fun θ => th θ ^ 2 * (Real.sin (Real.sqrt (xsym half dz θ ^ 2 + 0.5 ^ 2) * cdt) : ℝ) / (Real.sqrt (xsym half dz θ ^ 2 + 0.5 ^ 2) : ℝ) * ((0.5 : ℝ) : ℂ)) (kzTrue N dz k.val * dz)) (r0 : ZMod N)‖ = z at *
  have lt : x + y + z < ε := by linarith
  nlinarith [mul_nonneg n1 n2, mul_nonneg n1 n3, mul_nonneg n2 n3]

end Fbpic.Locality
