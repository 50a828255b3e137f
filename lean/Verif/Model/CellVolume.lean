import Verif.Model.Deposit
import Verif.Model.Injection
import Mathlib.Analysis.SpecialFunctions.Trigonometric.Basic

/-!
# Cell volumes, Ruyten coefficients, division by the volume

Models `fbpic/fields/interpolation_grid.py` (constructor, lines 66-140, and
`divide_by_volume`), and the transverse positions of the particles of a plasma that is uniform in azimuth.
Exact real arithmetic.
-/

namespace Fbpic.CellVolume

/-- Standard cell volume `pi*dz*((r+0.5*dr)**2 - (r-0.5*dr)**2)`, `r = (0.5+i)*dr`.
interpolation_grid.py:94-97 -/
noncomputable def stdVol (dr dz : ℝ) (i : ℕ) : ℝ :=
  let r := (1 / 2 + i) * dr
  Real.pi * dz * ((r + 1 / 2 * dr) ^ 2 - (r - 1 / 2 * dr) ^ 2)

/-- Modified cell volume of mode 0, `dz * (M[i,:]*2./(alphas*j1(alphas))).sum()`, with the matrix `M` of
the Hankel transform, the zeros `alphas` of `J0` and the values `j1` of `J1` there as parameters.
interpolation_grid.py:87-92 -/
noncomputable def hankelVol (dz : ℝ) (Nr : ℕ) (M : ℕ → ℕ → ℝ) (alphas j1 : ℕ → ℝ) (i : ℕ) : ℝ :=
  dz * ∑ p ∈ Finset.range Nr, M i p * 2 / (alphas p * j1 p)

/-- The choice between both. interpolation_grid.py:86-97 -/
noncomputable def cellVol (useModifiedVolume : Bool) (m : ℕ) (dr dz : ℝ) (Nr : ℕ) (M : ℕ → ℕ → ℝ)
    (alphas j1 : ℕ → ℝ) : ℕ → ℝ :=
  if useModifiedVolume ∧ m = 0 then hankelVol dz Nr M alphas j1 else stdVol dr dz

/-- `norm_vol = vol/(2*np.pi*self.dr**2*self.dz)`. interpolation_grid.py:109 -/
noncomputable def normVol (vol : ℕ → ℝ) (dr dz : ℝ) (i : ℕ) : ℝ :=
  vol i / (2 * Real.pi * dr ^ 2 * dz)

/-- `ruyten_linear_coef[i]` before the zero is put in front. interpolation_grid.py:110-111 -/
noncomputable def linearCoef (vol : ℕ → ℝ) (dr dz : ℝ) (i : ℕ) : ℝ :=
  6 / ((i : ℝ) + 1) *
    ((∑ k ∈ Finset.range (i + 1), normVol vol dr dz k) - 1 / 2 * ((i : ℝ) + 1) ^ 2 - 1 / 24)

/-- `ruyten_cubic_coef[i]` before the zero is put in front. interpolation_grid.py:112-115 -/
noncomputable def cubicCoef (vol : ℕ → ℝ) (dr dz : ℝ) (i : ℕ) : ℝ :=
  if i = 0 then 6 * (normVol vol dr dz 0 - 1 / 2 - 239 / (15 * 2 ^ 7))
  else 6 / ((i : ℝ) + 1) *
    ((∑ k ∈ Finset.range (i + 1), normVol vol dr dz k) - 1 / 2 * ((i : ℝ) + 1) ^ 2 - 1 / 8)

/-- The arrays of coefficients that are passed to the deposition (length `Nr+1`).
interpolation_grid.py:106-135 -/
noncomputable def ruytenCoefs (useRuyten : Bool) (s : Shape) (vol : ℕ → ℝ) (dr dz : ℝ) (Nr : ℕ) : List ℝ :=
  0 :: (List.range Nr).map fun i =>
    if useRuyten then
      match s with
      | .linear => linearCoef vol dr dz i
      | .cubic => cubicCoef vol dr dz i
    else 0

/-- `divide_by_volume`: `rho *= invvol[np.newaxis,:]`, `invvol = 1./vol`.
interpolation_grid.py:99-100, 279-306 -/
noncomputable def divideByVolume (vol : ℕ → ℝ) (A : Buf) : Buf :=
  fun i j => A i j * ((1 / vol j : ℝ) : ℂ)

/-- A particle of `generate_evenly_spaced` as the deposition sees it: `x = r*cos(theta)`,
`y = r*sin(theta)` with `theta = 2 pi itheta/Nptheta + angle_shift`, the shift (random) being common to the
particles at the same `z` and `r` (continuous_injection.py:221-241, 275-316), and a momentum along z
(`ux_m = uy_m = 0`, no temperature). -/
noncomputable def depOf (Nptheta : ℕ) (shift : ℝ → ℝ → ℝ) (uz invGamma : ℝ) (p : NewPtcl ℝ) : DepPtcl :=
  let theta := 2 * Real.pi / Nptheta * p.itheta + shift p.z p.r
  { x := p.r * Real.cos theta, y := p.r * Real.sin theta, z := p.z, w := p.w,
    ux := 0, uy := 0, uz := uz, invGamma := invGamma }

end Fbpic.CellVolume
