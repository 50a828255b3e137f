import Verif.Lemmas.SpectShift

/-!
# C12: the spectral shift translates the data by whole cells
-/

namespace Fbpic
open Complex

variable {N : ℕ} [NeZero N]

theorem shift_char (dz : ℝ) (hdz : dz ≠ 0) (n : ℤ) (F : ZMod N → ℂ) (k : ZMod N) :
    shiftSpectArray N (fieldShift N dz) n F k = F k * ZMod.stdAddChar ((n : ZMod N) * k) := by
  unfold shiftSpectArray
  simp only [powLoop_eq, one_mul, fieldShift_eq dz hdz]
  congr 1
  have hpow : ∀ m : ℕ, (ZMod.stdAddChar k : ℂ) ^ m = ZMod.stdAddChar ((m : ZMod N) * k) := by
    intro m; rw [← AddChar.map_nsmul_eq_pow, nsmul_eq_mul]
  split_ifs with h
  · rw [map_pow, star_char, ← AddChar.map_nsmul_eq_pow, nsmul_eq_mul]
    congr 1
    have e : (n.natAbs : ℤ) = -n := by omega
    have : ((n.natAbs : ℤ) : ZMod N) = -(n : ZMod N) := by rw [e]; push_cast; ring
    rw [Int.cast_natCast] at this
    rw [this]; ring
  · rw [hpow]
    congr 2
    have e : (n.natAbs : ℤ) = n := by omega
    have : ((n.natAbs : ℤ) : ZMod N) = (n : ZMod N) := by rw [e]
    rwa [Int.cast_natCast] at this

/-- **C12.** Transforming a field to spectral space, shifting it there by `n` cells (either sign)
with the code's shift factor and transforming back gives the field translated cyclically by `n`
cells: the new value in cell `j` is the old value of cell `j+n` (indices modulo `N`). -/
theorem C12_translation (dz : ℝ) (hdz : dz ≠ 0) (n : ℤ) (f : ZMod N → ℂ) (j : ZMod N) :
    ifftZ N (shiftSpectArray N (fieldShift N dz) n (fftZ N f)) j = f (j + (n : ZMod N)) := by
  have : shiftSpectArray N (fieldShift N dz) n (fftZ N f)
      = fftZ N (fun j => f (j + (n : ZMod N))) := by
    funext k
    rw [shift_char dz hdz, fftZ_eq, fftZ_eq, ZMod.dft_apply, ZMod.dft_apply, Finset.sum_mul]
    rw [← Equiv.sum_comp (Equiv.addRight (n : ZMod N))]
    apply Finset.sum_congr rfl
    intro i _
    simp only [Equiv.coe_addRight, smul_eq_mul]
    have h1 := AddChar.map_add_eq_mul (ZMod.stdAddChar (N := N)) (-((i + (n : ZMod N)) * k))
      ((n : ZMod N) * k)
    have h2 : -((i + (n : ZMod N)) * k) + (n : ZMod N) * k = -(i * k) := by ring
    rw [h2] at h1
    rw [h1]; ring
  rw [this, ifftZ_eq, fftZ_eq, LinearEquiv.symm_apply_apply]

/-- **C12** (composition): shifts compose additively. -/
theorem C12_compose (dz : ℝ) (hdz : dz ≠ 0) (m n : ℤ) (F : ZMod N → ℂ) :
    shiftSpectArray N (fieldShift N dz) m (shiftSpectArray N (fieldShift N dz) n F)
      = shiftSpectArray N (fieldShift N dz) (m + n) F := by
  funext k
  rw [shift_char dz hdz, shift_char dz hdz, shift_char dz hdz]
  push_cast
  rw [add_mul, AddChar.map_add_eq_mul]; ring

/-- **C12** (inverse): shifting by `n` and then by `-n` restores the field. -/
theorem C12_restore (dz : ℝ) (hdz : dz ≠ 0) (n : ℤ) (F : ZMod N → ℂ) :
    shiftSpectArray N (fieldShift N dz) (-n) (shiftSpectArray N (fieldShift N dz) n F) = F := by
  rw [C12_compose dz hdz]
  funext k
  rw [shift_char dz hdz]; simp

/-- **C12** (full turn): a shift by any multiple of the number of cells is the identity. -/
theorem C12_full_turn (dz : ℝ) (hdz : dz ≠ 0) (q : ℤ) (F : ZMod N → ℂ) :
    shiftSpectArray N (fieldShift N dz) (q * N) F = F := by
  funext k
  rw [shift_char dz hdz]; simp

/-- The transforms are inverse to each other, in both orders. -/
theorem C12_fft_inverse (f : ZMod N → ℂ) : ifftZ N (fftZ N f) = f ∧ fftZ N (ifftZ N f) = f := by
  constructor
  · rw [ifftZ_eq, fftZ_eq, LinearEquiv.symm_apply_apply]
  · rw [ifftZ_eq, fftZ_eq, LinearEquiv.apply_symm_apply]

/-- Non-vacuity: on 5 cells, a window that moves forward by 2 cells puts the content of cell 1 + 2
in cell 1, and going backward by 3 the content of cell `1 - 3 = 3` (mod 5). -/
example (f : ZMod 5 → ℂ) :
    ifftZ 5 (shiftSpectArray 5 (fieldShift 5 (1/2)) 2 (fftZ 5 f)) 1 = f 3 ∧
    ifftZ 5 (shiftSpectArray 5 (fieldShift 5 (1/2)) (-3) (fftZ 5 f)) 1 = f 3 := by
  exact ⟨(C12_translation (1/2) (by norm_num) 2 f 1).trans (congrArg f (by decide)),
    (C12_translation (1/2) (by norm_num) (-3) f 1).trans (congrArg f (by decide))⟩

end Fbpic
