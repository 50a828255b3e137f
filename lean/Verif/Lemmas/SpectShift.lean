import Verif.Model.SpectShift
import Verif.Lemmas.Tactics
import Mathlib.Analysis.Fourier.ZMod

namespace Fbpic
open Complex

theorem powLoop_eq (s : ℂ) (n : ℕ) : ∀ p, powLoop s n p = p * s ^ n := by
  induction n with
  | zero => intro p; simp [powLoop]
  | succ n ih => intro p; rw [powLoop, ih]; ring

variable {N : ℕ} [NeZero N]

theorem exp_char (m : ℕ) :
    exp (2 * Real.pi * I * (m : ℂ) / (N : ℂ)) = ZMod.stdAddChar ((m : ZMod N)) := by
  have := ZMod.stdAddChar_coe (N := N) (m : ℤ)
  push_cast at this
  rw [this]

theorem exp_char_neg (m : ℕ) :
    exp (-2 * Real.pi * I * (m : ℂ) / (N : ℂ)) = ZMod.stdAddChar (-(m : ZMod N)) := by
  have := ZMod.stdAddChar_coe (N := N) (-(m : ℤ))
  push_cast at this
  rw [this]; congr 1; ring

theorem fftZ_eq (f : ZMod N → ℂ) : fftZ N f = ZMod.dft f := by
  funext k
  rw [fftZ, ZMod.dft_apply]
  apply Finset.sum_congr rfl
  intro j _
  rw [exp_char_neg, smul_eq_mul, mul_comm]
  simp

theorem ifftZ_eq (f : ZMod N → ℂ) : ifftZ N f = ZMod.dft.symm f := by
  funext k
  rw [ifftZ, ZMod.invDFT_apply, smul_eq_mul, one_div]
  congr 1
  apply Finset.sum_congr rfl
  intro j _
  rw [exp_char, smul_eq_mul, mul_comm]
  push_cast
  rw [ZMod.natCast_zmod_val, ZMod.natCast_zmod_val, mul_comm k j]

theorem fieldShift_eq (dz : ℝ) (hdz : dz ≠ 0) (k : ZMod N) :
    fieldShift N dz k.val = ZMod.stdAddChar k := by
  have hN : (N : ℂ) ≠ 0 := by exact_mod_cast NeZero.ne N
  have hd : (dz : ℂ) ≠ 0 := by exact_mod_cast hdz
  unfold fieldShift kzTrue fftfreq
  by_cases h : k.val ≤ (N - 1) / 2
  · rw [if_pos h]
    have := exp_char (N := N) k.val
    rw [ZMod.natCast_zmod_val] at this
    rw [← this]
    congr 1
    push_cast
    field_simp
  · rw [if_neg h]
    have := ZMod.stdAddChar_coe (N := N) ((k.val : ℤ) - N)
    push_cast at this
    rw [ZMod.natCast_zmod_val, ZMod.natCast_self, sub_zero] at this
    rw [this]
    congr 1
    push_cast
    field_simp

theorem star_char (k : ZMod N) : (starRingEnd ℂ) (ZMod.stdAddChar k) = ZMod.stdAddChar (-k) := by
  rw [AddChar.starComp_apply (by rw [ZMod.ringChar_zmod_n]; exact NeZero.pos N) ]
  rfl

end Fbpic
