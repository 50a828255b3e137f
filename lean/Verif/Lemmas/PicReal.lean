import Verif.Lemmas.Pic
import Verif.Lemmas.SpectShift
import Verif.Spec.PicReal

/-!
# Lemmas: complex conjugation and opposite wavenumbers
-/

namespace Fbpic.Pic

open Transform ExternalField Step
open Spec (negIdx hankel)
open scoped ComplexConjugate

/-! ### Rows -/

theorem negIdx_lt {N : ℕ} [NeZero N] (iz : ℕ) : negIdx N iz < N := Nat.mod_lt _ (Nat.pos_of_ne_zero (NeZero.ne _))

theorem negIdx_val {N : ℕ} [NeZero N] (k : ZMod N) : (-k).val = negIdx N k.val := ZMod.neg_val' k

theorem negIdx_cast {N : ℕ} [NeZero N] {iz : ℕ} (h : iz < N) : ((negIdx N iz : ℕ) : ZMod N) = -(iz : ZMod N) := by
  have := negIdx_val (iz : ZMod N)
  rw [ZMod.val_natCast_of_lt h] at this
  rw [← this, ZMod.natCast_zmod_val]

theorem negIdx_negIdx {N : ℕ} [NeZero N] {iz : ℕ} (h : iz < N) : negIdx N (negIdx N iz) = iz := by
  have h1 := negIdx_val (-(iz : ZMod N))
  rw [neg_neg, negIdx_val, ZMod.val_natCast_of_lt h] at h1
  exact h1.symm

theorem negIdx_cases {N : ℕ} {iz : ℕ} (h : iz < N) : negIdx N iz = 0 ∧ iz = 0 ∨ negIdx N iz = N - iz ∧ iz ≠ 0 := by
  unfold negIdx
  by_cases h0 : iz = 0
  · left; subst h0; simp
  · right; exact ⟨Nat.mod_eq_of_lt (by omega), h0⟩

/-! ### Fourier transform -/

theorem phase_neg {N : ℕ} [NeZero N] (j : ℕ) {k : ℕ} (h : k < N) :
    Complex.exp (2 * Real.pi * Complex.I * ((j * negIdx N k : ℕ) : ℂ) / (N : ℂ))
      = Complex.exp (-2 * Real.pi * Complex.I * ((j * k : ℕ) : ℂ) / (N : ℂ)) := by
  have hN : (N : ℂ) ≠ 0 := Nat.cast_ne_zero.2 (NeZero.ne _)
  rcases negIdx_cases h with ⟨h1, h2⟩ | ⟨h1, h2⟩
  · rw [h1, h2]; simp
  · rw [h1, Complex.exp_eq_exp_iff_exists_int]
    refine ⟨j, ?_⟩
    push_cast [Nat.cast_sub h.le]
    field_simp
    ring

theorem conj_phase (x N : ℕ) (z : ℝ) :
    conj (Complex.exp (z * Real.pi * Complex.I * (x : ℂ) / (N : ℂ)))
      = Complex.exp ((-z : ℝ) * Real.pi * Complex.I * (x : ℂ) / (N : ℂ)) := by
  rw [← Complex.exp_conj]
  congr 1
  simp only [map_div₀, map_mul, Complex.conj_ofReal, Complex.conj_I, map_natCast, Complex.ofReal_neg]
  ring

theorem fft_conj {N Nr : ℕ} [NeZero N] {a b : Buf} (h : ∀ i < N, ∀ j < Nr, a i j = conj (b i j)) {iz ir : ℕ}
    (hz : iz < N) (hr : ir < Nr) :
    fftAxis0 N false a (negIdx N iz) ir = conj (fftAxis0 N false b iz ir) := by
  simp only [fftAxis0, Bool.false_eq_true, if_false, fftZ]
  rw [map_sum]
  refine Finset.sum_congr rfl fun j _ => ?_
  rw [map_mul, h _ (ZMod.val_lt j) _ hr]
  congr 1
  rw [ZMod.val_natCast_of_lt hz, ZMod.val_natCast_of_lt (negIdx_lt iz)]
  have h1 := conj_phase (j.val * negIdx N iz) N 2
  have h2 := conj_phase (j.val * iz) N (-2)
  push_cast at h1 h2 ⊢
  rw [h2, ← h1]
  have h3 := phase_neg (N := N) j.val hz
  have h4 := conj_phase (j.val * iz) N (-2)
  push_cast at h3 h4
  rw [h3, h4]

theorem ifft_conj {N Nr : ℕ} [NeZero N] {F G : Buf} (h : ∀ i < N, ∀ j < Nr, F (negIdx N i) j = conj (G i j)) {iz ir : ℕ}
    (hr : ir < Nr) : fftAxis0 N true F iz ir = conj (fftAxis0 N true G iz ir) := by
  simp only [fftAxis0, if_true, ifftZ]
  rw [map_mul, map_sum, map_div₀, map_one, map_natCast]
  congr 1
  rw [← Equiv.sum_comp (Equiv.neg (ZMod N))]
  refine Finset.sum_congr rfl fun k _ => ?_
  rw [map_mul]
  show F (-k).val ir * _ = _
  rw [Equiv.neg_apply, negIdx_val, h _ (ZMod.val_lt k) _ hr]
  congr 1
  have h1 := phase_neg (N := N) (iz : ZMod N).val (ZMod.val_lt k)
  have h2 := conj_phase ((iz : ZMod N).val * k.val) N 2
  push_cast at h1 h2 ⊢
  rw [h1, h2]

theorem hankel_conj {N Nr : ℕ} [NeZero N] (M : ℕ → ℕ → ℝ) {F G : Buf} {iz : ℕ} (ir : ℕ)
    (h : ∀ j < Nr, F (negIdx N iz) j = conj (G iz j)) :
    hankel Nr M F (negIdx N iz) ir = conj (hankel Nr M G iz ir) := by
  unfold hankel
  rw [map_sum]
  refine Finset.sum_congr rfl fun l hl => ?_
  rw [map_mul, Complex.conj_ofReal, h l (Finset.mem_range.1 hl)]

theorem hankel_neg {Nr : ℕ} {M M' : ℕ → ℕ → ℝ} (h : ∀ i < Nr, ∀ j < Nr, M' i j = -M i j) (F : Buf) (iz : ℕ) {ir : ℕ}
    (hr : ir < Nr) : hankel Nr M' F iz ir = -hankel Nr M F iz ir := by
  unfold hankel
  rw [← Finset.sum_neg_distrib]
  refine Finset.sum_congr rfl fun l hl => ?_
  rw [h l (Finset.mem_range.1 hl) ir hr]
  push_cast; ring

theorem hankel_zero {Nr : ℕ} (M : ℕ → ℕ → ℝ) {F : Buf} {iz : ℕ} (h : ∀ j < Nr, F iz j = 0) (ir : ℕ) :
    hankel Nr M F iz ir = 0 := by
  unfold hankel
  exact Finset.sum_eq_zero fun l hl => by rw [h l (Finset.mem_range.1 hl), zero_mul]

/-! ### Cells -/

/-- The cells of opposite wavenumbers of the transform of real fields: `b` belongs to the opposite wavenumber. -/
structure Herm (a b : SpecCell) : Prop where
  Ep : b.Ep = -conj a.Em
  Em : b.Em = -conj a.Ep
  Ez : b.Ez = conj a.Ez
  Bp : b.Bp = -conj a.Bm
  Bm : b.Bm = -conj a.Bp
  Bz : b.Bz = conj a.Bz
  Jp : b.Jp = -conj a.Jm
  Jm : b.Jm = -conj a.Jp
  Jz : b.Jz = conj a.Jz
  rhoPrev : b.rhoPrev = conj a.rhoPrev
  rhoNext : b.rhoNext = conj a.rhoNext
  rhoNextZ : b.rhoNextZ = conj a.rhoNextZ
  rhoNextXY : b.rhoNextXY = conj a.rhoNextXY

/-- All the fields and sources vanish. -/
structure Zero (a : SpecCell) : Prop where
  Ep : a.Ep = 0
  Em : a.Em = 0
  Ez : a.Ez = 0
  Bp : a.Bp = 0
  Bm : a.Bm = 0
  Bz : a.Bz = 0
  Jp : a.Jp = 0
  Jm : a.Jm = 0
  Jz : a.Jz = 0
  rhoPrev : a.rhoPrev = 0
  rhoNext : a.rhoNext = 0
  rhoNextZ : a.rhoNextZ = 0
  rhoNextXY : a.rhoNextXY = 0

/-! ### Coefficients at opposite wavenumbers -/

section
variable (k : Consts) (kz kr dt V : ℝ) (gal : Bool)

theorem omega_neg : omega k (-kz) kr = omega k kz kr := by unfold omega; rw [neg_sq]

theorem invOmega_neg : invOmega k (-kz) kr = invOmega k kz kr := by unfold invOmega; rw [omega_neg]

theorem coefC_neg : coefC k (-kz) kr dt = coefC k kz kr dt := by unfold coefC; rw [omega_neg]

theorem coefSw_neg : coefSw k (-kz) kr dt = coefSw k kz kr dt := by
  unfold coefSw; rw [omega_neg, invOmega_neg]

theorem coefT2_neg : coefT2 (-kz) dt V = conj (coefT2 kz dt V) := by
  unfold coefT2
  rw [← Complex.exp_conj]
  congr 1
  simp only [map_mul, Complex.conj_ofReal, Complex.conj_I]
  push_cast; ring

theorem coefTeb_neg : coefTeb (-kz) dt V gal = conj (coefTeb kz dt V gal) := by
  unfold coefTeb
  cases gal
  · simp
  · simp [coefT2_neg]

theorem conj_half : conj (0.5 : ℂ) = 0.5 := by
  have : (0.5 : ℂ) = ((0.5 : ℝ) : ℂ) := by push_cast; norm_num
  rw [this, Complex.conj_ofReal]

theorem coefTcc_neg : coefTcc (-kz) dt V gal = conj (coefTcc kz dt V gal) := by
  unfold coefTcc
  cases gal
  · simp only [Bool.false_eq_true, if_false]
    rw [← Complex.exp_conj]
    congr 1
    simp only [map_mul, Complex.conj_ofReal, Complex.conj_I, conj_half]
    push_cast; ring
  · simp

theorem coefTrho_neg : coefTrho (-kz) dt V gal = conj (coefTrho kz dt V gal) := by
  unfold coefTrho
  rw [coefT2_neg, coefTcc_neg]
  by_cases hV : V ≠ 0
  · rw [if_pos hV, if_pos hV]
    by_cases hk : kz = 0
    · rw [if_pos (by rw [hk, neg_zero]), if_pos hk, map_neg, Complex.conj_ofReal]
    · rw [if_neg (by rwa [neg_eq_zero]), if_neg hk]
      simp only [map_div₀, map_sub, map_one, map_mul, Complex.conj_I, Complex.conj_ofReal]
      push_cast; ring
  · rw [if_neg hV, if_neg hV, map_neg, Complex.conj_ofReal]

theorem invWkzV_neg : invWkzV k (-kz) kr V = invWkzV k kz kr V := by
  unfold invWkzV; rw [omega_neg, neg_sq]

theorem inv1T2_neg : inv1T2 (-kz) dt V = conj (inv1T2 kz dt V) := by
  unfold inv1T2
  rw [coefT2_neg]
  have h : (starRingEnd ℂ) (coefT2 kz dt V) = 1 ↔ coefT2 kz dt V = 1 := by
    constructor
    · intro h; have := congrArg (starRingEnd ℂ) h; rwa [Complex.conj_conj, map_one] at this
    · intro h; rw [h, map_one]
  by_cases h1 : coefT2 kz dt V = 1
  · rw [if_pos (h.2 h1), if_pos h1]; simp
  · rw [if_neg fun e => h1 (h.1 e), if_neg h1]; simp

theorem xi1_neg : xi1 k (-kz) kr dt V gal = conj (xi1 k kz kr dt V gal) := by
  unfold xi1
  rw [coefTcc_neg, invWkzV_neg, coefT2_neg, coefC_neg, coefSw_neg]
  simp only [map_div₀, map_sub, map_add, map_one, map_mul, Complex.conj_I, Complex.conj_ofReal]
  push_cast; ring

theorem xi2_neg : xi2 k (-kz) kr dt V = conj (xi2 k kz kr dt V) := by
  unfold xi2
  rw [invWkzV_neg, coefT2_neg, coefC_neg, coefSw_neg, inv1T2_neg, invOmega_neg]
  by_cases hk : kz ≠ 0
  · rw [if_pos (by simpa using hk), if_pos hk]
    simp only [map_div₀, map_sub, map_add, map_one, map_mul, map_pow, Complex.conj_I, Complex.conj_ofReal]
    push_cast; ring
  · rw [if_neg (by simpa using hk), if_neg hk]
    simp only [map_div₀, map_sub, map_add, map_one, map_mul, map_pow, Complex.conj_ofReal]

theorem xi3_neg : xi3 k (-kz) kr dt V gal = conj (xi3 k kz kr dt V gal) := by
  unfold xi3
  rw [coefTeb_neg, invWkzV_neg, coefT2_neg, coefC_neg, coefSw_neg, inv1T2_neg, invOmega_neg]
  by_cases hk : kz ≠ 0
  · rw [if_pos (by simpa using hk), if_pos hk]
    simp only [map_div₀, map_sub, map_add, map_one, map_mul, map_pow, Complex.conj_I, Complex.conj_ofReal]
    push_cast; ring
  · rw [if_neg (by simpa using hk), if_neg hk]
    simp only [map_div₀, map_sub, map_add, map_one, map_mul, map_pow, Complex.conj_ofReal]

theorem coefJcorr_neg : coefJcorr (-kz) dt V = conj (coefJcorr kz dt V) := by
  unfold coefJcorr
  rw [inv1T2_neg]
  by_cases hV : V ≠ 0
  · rw [if_pos hV, if_pos hV]
    by_cases hk : kz ≠ 0
    · rw [if_pos (by simpa using hk), if_pos hk]
      simp only [map_neg, map_mul, Complex.conj_I, Complex.conj_ofReal]
      push_cast; ring
    · rw [if_neg (by simpa using hk), if_neg hk]
      simp only [map_div₀, map_one, Complex.conj_ofReal]
  · rw [if_neg hV, if_neg hV]
    simp only [map_div₀, map_one, Complex.conj_ofReal]

variable (W : Option ℝ)

theorem coefJ_neg : coefJ k (-kz) kr dt W gal = conj (coefJ k kz kr dt W gal) := by
  unfold coefJ
  rw [omega_neg, coefC_neg, invOmega_neg, xi1_neg]
  by_cases h : omega k kz kr = 0
  · rw [if_pos h, if_pos h]
    simp only [map_mul, map_pow, Complex.conj_ofReal, conj_half]
  · rw [if_neg h, if_neg h]
    by_cases h' : noDrift W
    · rw [if_pos h', if_pos h']
      simp only [map_mul, map_pow, map_sub, map_one, Complex.conj_ofReal]
    · rw [if_neg h', if_neg h']
      simp only [map_mul, map_pow, Complex.conj_ofReal]

theorem coefRhoPrev_neg : coefRhoPrev k (-kz) kr dt W gal = conj (coefRhoPrev k kz kr dt W gal) := by
  unfold coefRhoPrev
  rw [omega_neg, coefC_neg, invOmega_neg, xi3_neg, coefSw_neg]
  by_cases h : omega k kz kr = 0
  · rw [if_pos h, if_pos h]
    simp only [map_mul, map_pow, map_div₀, map_neg, map_one, map_ofNat, Complex.conj_ofReal]
  · rw [if_neg h, if_neg h]
    by_cases h' : noDrift W
    · rw [if_pos h', if_pos h']
      simp only [map_mul, map_pow, map_div₀, map_sub, map_one, Complex.conj_ofReal]
    · rw [if_neg h', if_neg h']
      simp only [map_mul, map_pow, map_div₀, Complex.conj_ofReal]

theorem coefRhoNext_neg : coefRhoNext k (-kz) kr dt W = conj (coefRhoNext k kz kr dt W) := by
  unfold coefRhoNext
  rw [omega_neg, invOmega_neg, xi2_neg, coefSw_neg]
  by_cases h : omega k kz kr = 0
  · rw [if_pos h, if_pos h]
    simp only [map_mul, map_pow, map_div₀, map_one, map_ofNat, Complex.conj_ofReal]
  · rw [if_neg h, if_neg h]
    by_cases h' : noDrift W
    · rw [if_pos h', if_pos h']
      simp only [map_mul, map_pow, map_div₀, map_sub, map_one, Complex.conj_ofReal]
    · rw [if_neg h', if_neg h']
      simp only [map_mul, map_pow, map_div₀, Complex.conj_ofReal]

theorem invK2_neg : invK2 (-kz) kr = invK2 kz kr := by
  unfold invK2
  simp only [neg_sq, neg_eq_zero]

end

end Fbpic.Pic
