import Verif.Model.LaserProfile
import Verif.Model.SpectShift

/-!
# Laser pulse from a measured spectrum

`CustomSpectrumLongitudinalProfile` (lpa_utils/laser/longitudinal_laser_profiles.py:190-355). Real and complex numbers instead of
floats; `x/0 = 0` instead of `nan`. Contracts of libraries: `np.loadtxt` gives the rows of the file, and an array with one dimension if
there is only one row or one column; `interp1d` sorts the points and interpolates linearly, 0 outside; `np.fft.fft`, `fftfreq` and
`fftshift` have their documented meaning; `np.polyfit` is a parameter.
-/

namespace Fbpic.CustomSpectrum

open Complex (I)
open LaserProf (Long checkDir)

/-- A row of the file: wavelength, spectral intensity and spectral phase. -/
structure Pt where
  (lam inten phase : ℝ)

/-- The columns of the array that `np.loadtxt` returns; the phase is 0 if there is no third column
(longitudinal_laser_profiles.py:271-277). With one row or one column the array has one dimension and `[:, 0]` raises an
exception. -/
noncomputable def readRows (rows : List (List ℝ)) : Except PyErr (List Pt) :=
  let cols := (rows.headD []).length
  if rows.length < 2 ∨ cols < 2 then .error (.indexError "too many indices for array")
  else .ok (rows.map fun r => ⟨r.getD 0 0, r.getD 1 0, if cols < 3 then 0 else r.getD 2 0⟩)

/-- `omega_axis` (line 278). -/
noncomputable def freq (c : ℝ) (p : Pt) : ℝ := 2 * Real.pi * c / p.lam

/-- `np.trapz(y, x)` for points `(x, y)`. -/
noncomputable def trapz : List (ℝ × ℝ) → ℝ
  | (x0, y0) :: (x1, y1) :: l => (x1 - x0) * (y1 + y0) / 2 + trapz ((x1, y1) :: l)
  | _ => 0

/-- The linear slope is subtracted from the phase (lines 281-284); `fit` is `np.polyfit(…, 4)[-2]`, as a function of the
points `(omega, phase)`. -/
noncomputable def subtractSlope (c : ℝ) (fit : List (ℝ × ℝ) → ℝ) (d : List Pt) : List Pt :=
  let a := fit (d.map fun p => (freq c p, p.phase))
  d.map fun p => { p with phase := p.phase - freq c p * a }

/-- `lambda0` (lines 287-288). -/
noncomputable def meanWavelength (d : List Pt) : ℝ :=
  trapz (d.map fun p => (p.lam, p.lam * p.inten)) * 1 / trapz (d.map fun p => (p.lam, p.inten))

/-- The phases that are added (lines 292-297). -/
noncomputable def addChirp (c k0 phi2 phi3 phi4 : ℝ) (p : Pt) : Pt :=
  let p := { p with phase := p.phase + 1 / (Nat.factorial 2 : ℝ) * phi2 * (freq c p - k0 * c) ^ 2 }
  let p := { p with phase := p.phase + 1 / (Nat.factorial 3 : ℝ) * phi3 * (freq c p - k0 * c) ^ 3 }
  { p with phase := p.phase + 1 / (Nat.factorial 4 : ℝ) * phi4 * (freq c p - k0 * c) ^ 4 }

section
variable {E : Type} [AddCommGroup E] [Module ℝ E]

/-- Linear interpolation between points in increasing order, 0 outside. -/
noncomputable def interpSorted (v : ℝ) : List (ℝ × E) → E
  | (x0, y0) :: (x1, y1) :: l =>
    if v < x0 then 0
    else if v ≤ x1 then y0 + ((v - x0) / (x1 - x0)) • (y1 - y0)
    else interpSorted v ((x1, y1) :: l)
  | _ => 0

/-- `interp1d(x, y, fill_value=0, bounds_error=False)(v)`. -/
noncomputable def interp1d (l : List (ℝ × E)) (v : ℝ) : E :=
  interpSorted v (l.insertionSort fun a b => a.1 ≤ b.1)

end

/-- `spectral_Efield` (lines 301-305, 319-320). -/
noncomputable def spectralField (c : ℝ) (d : List Pt) (w : ℝ) : ℂ :=
  (Real.sqrt (interp1d (d.map fun p => (freq c p, p.inten * p.lam ^ 2)) w) : ℂ) *
    Complex.exp (1 * I * (interp1d (d.map fun p => (freq c p, p.phase)) w : ℝ))

/-- `dt`, `time_window` and `Nt` (lines 308-311). -/
noncomputable def timeStep (c lam0 : ℝ) : ℝ := lam0 / 1000 / c
noncomputable def timeWindow (c lam0 : ℝ) : ℝ := lam0 * lam0 / c / (lam0 / 1000)
noncomputable def numTimes (c lam0 : ℝ) : ℕ := (round (timeWindow c lam0 / timeStep c lam0)).toNat

/-- `time_arr` (line 314). -/
noncomputable def time (c lam0 : ℝ) (n : ℕ) : ℝ := -0.5 * timeWindow c lam0 + timeStep c lam0 * n

/-- `omega_arr` (line 315). -/
noncomputable def omega (c lam0 : ℝ) (j : ℕ) : ℝ := 2 * Real.pi * fftfreq (numTimes c lam0) (timeStep c lam0) j

/-- `np.fft.fft`. -/
noncomputable def fft (N : ℕ) (a : ℕ → ℂ) (n : ℕ) : ℂ :=
  ∑ j ∈ Finset.range N, a j * Complex.exp (-(2 * Real.pi * I * (j * n / N : ℂ)))

/-- `np.fft.fftshift`: the elements are moved to the right by `N//2`, cyclically. -/
def fftshift (N : ℕ) (a : ℕ → ℂ) (n : ℕ) : ℂ := a ((n + (N - N / 2)) % N)

/-- `abs(a).max()`. -/
noncomputable def maxAbs (N : ℕ) (a : ℕ → ℂ) : ℝ := ((List.range N).map fun n => ‖a n‖).foldr max 0

/-- `temporal_Efield` (lines 321-323). -/
noncomputable def temporalField (c lam0 : ℝ) (d : List Pt) (n : ℕ) : ℂ :=
  let N := numTimes c lam0
  let a := fftshift N (fft N fun j => spectralField c d (omega c lam0 j))
  a n / maxAbs N a

/-- The points through which the profile is interpolated (lines 326-328). -/
noncomputable def nodes (c lam0 z0 dir : ℝ) (d : List Pt) : List (ℝ × ℂ) :=
  (List.range (numTimes c lam0)).map fun n => (dir * z0 - c * time c lam0 n, temporalField c lam0 d n)

/-- `CustomSpectrumLongitudinalProfile` (lines 266-355); the mean wavelength is returned beside the profile. -/
noncomputable def customLong (c : ℝ) (fit : List (ℝ × ℝ) → ℝ) (z0 : ℝ) (rows : List (List ℝ)) (phi2 phi3 phi4 : ℝ) (subtract : Bool)
    (dir : ℝ) : Except PyErr (Long × ℝ) := do
  let dir ← checkDir dir
  let d ← readRows rows
  let d := if subtract then subtractSlope c fit d else d
  let lam0 := meanWavelength d
  let k0 := 2 * Real.pi / lam0
  let d := d.map (addChirp c k0 phi2 phi3 phi4)
  let sq := trapz ((List.range (numTimes c lam0)).map fun n => (c * time c lam0 n, ‖temporalField c lam0 d n‖ ^ 2))
  return (⟨fun z t => interp1d (nodes c lam0 z0 dir d) (dir * z - c * t), sq, k0, dir⟩, lam0)

end Fbpic.CustomSpectrum
