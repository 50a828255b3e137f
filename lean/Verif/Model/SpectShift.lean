import Mathlib.Analysis.SpecialFunctions.Complex.Log
import Mathlib.Data.ZMod.Basic

/-!
# Model of the spectral shift of the moving window
(`boundaries/moving_window.py`, `fields/spectral_grid.py`, `fields/fields.py`)

One column (fixed `ir`) of a field array with `N` rows; rows are indexed by `ZMod N` through
`ZMod.val`. The kernels act on every column in the same way, on CPU and GPU.
-/

namespace Fbpic

open Complex

/-- `np.fft.fftfreq(N, dz)[i]`: `i/(N dz)` for `i ≤ (N-1)//2`, `(i-N)/(N dz)` above. -/
noncomputable def fftfreq (N : ℕ) (dz : ℝ) (i : ℕ) : ℝ :=
  (if i ≤ (N - 1) / 2 then (i : ℝ) else (i : ℝ) - N) / (N * dz)

/-- `kz_true = 2*pi*fftfreq(Nz, dz)`. fields.py:176-177 -/
noncomputable def kzTrue (N : ℕ) (dz : ℝ) (i : ℕ) : ℝ := 2 * Real.pi * fftfreq N dz i

/-- `field_shift = exp(1.j*kz_true*dz)`. spectral_grid.py:124 -/
noncomputable def fieldShift (N : ℕ) (dz : ℝ) (i : ℕ) : ℂ := exp (I * (kzTrue N dz i : ℂ) * (dz : ℂ))

/-- `for i in range(n): power_shift *= s`, from `power_shift = p`. moving_window.py:233-234 -/
def powLoop (s : ℂ) : ℕ → ℂ → ℂ
  | 0, p => p
  | n + 1, p => powLoop s n (p * s)

/-- `shift_spect_array_cpu` (and gpu) on one column. moving_window.py:204-239, 244-278 -/
noncomputable def shiftSpectArray (N : ℕ) (shiftFactor : ℕ → ℂ) (nMove : ℤ) (f : ZMod N → ℂ) :
    ZMod N → ℂ := fun iz =>
  let p := powLoop (shiftFactor iz.val) nMove.natAbs 1
  let p := if nMove < 0 then (starRingEnd ℂ) p else p
  f iz * p

/-- Forward FFT along z (FFTW_FORWARD, `np.fft.fft`), documented meaning.
spectral_transform/fourier.py:104-139 -/
noncomputable def fftZ (N : ℕ) [NeZero N] (f : ZMod N → ℂ) : ZMod N → ℂ := fun k =>
  ∑ j : ZMod N, f j * exp (-2 * Real.pi * I * ((j.val * k.val : ℕ) : ℂ) / (N : ℂ))

/-- Inverse FFT along z (FFTW_BACKWARD, normalised by `1/N`), documented meaning.
spectral_transform/fourier.py:141-178 -/
noncomputable def ifftZ (N : ℕ) [NeZero N] (F : ZMod N → ℂ) : ZMod N → ℂ := fun j =>
  (1 / (N : ℂ)) * ∑ k : ZMod N, F k * exp (2 * Real.pi * I * ((j.val * k.val : ℕ) : ℂ) / (N : ℂ))

end Fbpic
