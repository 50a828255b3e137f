import Verif.Model.Compton

/-!
# Compton scattering: the drawing of the angle, and the laser pulse

Models the rejection loop of `scatter_photons_electrons_numba` (numba_methods.py:184-206; the loop of
`cuda_methods.py` has the same body), the density of the incoming photons (inline_functions.py:87-125) and its
parameters (compton.py:96-133), in real arithmetic. Random numbers are parameters.
-/

namespace Fbpic

noncomputable section

/-- The test of one turn of the rejection loop, with the draws `r1` (which gives `x`) and `r2`; `pRest` is the
momentum of the incoming photon in the rest frame. numba_methods.py:184-206 -/
def acceptX (invMC pRest r1 r2 : ℝ) : Prop :=
  let k := pRest * invMC
  let c0 := 2 * (2 * k ^ 2 + 2 * k + 1) / (2 * k + 1) ^ 3
  let b := (2 + c0) / (2 - c0)
  let a := 2 * b - 1
  let x := drawX invMC pRest r1
  let h := a / (b - x)
  let factor := 1 + k * (1 - x)
  let f := ((1 + x ^ 2) * factor + k ^ 2 * (1 - x) ^ 2) / factor ^ 3
  r2 < f / h

open Classical in
/-- `while reject`: the value of `x` in the first turn that is accepted; `none` if the loop does not end.
numba_methods.py:190-206 -/
def rejectionLoop (invMC pRest : ℝ) (draws : ℕ → ℝ × ℝ) : Option ℝ :=
  if h : ∃ t, acceptX invMC pRest (draws t).1 (draws t).2 then some (drawX invMC pRest (draws (Nat.find h)).1)
  else none

/-- The laser pulse of a `ComptonScatterer`: the boost, the shape in the lab frame and the photon density at the
peak. -/
structure ComptonLaser where
  gammaB : ℝ
  betaB : ℝ
  z0 : ℝ
  invWaist2 : ℝ
  invCtau2 : ℝ
  nPeak : ℝ

/-- The parameters computed by `ComptonScatterer.__init__`; `h` is Planck's constant, `c` the speed of light.
compton.py:96-133 -/
def ComptonLaser.init (c h energy wavelength waist ctau z0 gammaB betaB : ℝ) : ComptonLaser :=
  let labPz := -h / wavelength
  let labP := Real.sqrt (0 ^ 2 + 0 ^ 2 + labPz ^ 2)
  let effectiveVolume := (Real.pi / 2) ^ ((3 : ℝ) / 2) * waist ^ 2 * ctau
  let photonEnergy := labP * c
  { gammaB := gammaB, betaB := betaB, z0 := z0, invWaist2 := 1 / waist ^ 2, invCtau2 := 1 / ctau ^ 2
    nPeak := energy / (effectiveVolume * photonEnergy) }

/-- `get_photon_density_gaussian`. inline_functions.py:87-125 -/
def ComptonLaser.density (L : ComptonLaser) (x y z ct : ℝ) : ℝ :=
  let zlab := L.gammaB * (z + L.betaB * ct)
  let ctlab := L.gammaB * (ct + L.betaB * z)
  let nLab := L.nPeak * Real.exp (-2 * L.invWaist2 * (x ^ 2 + y ^ 2) - 2 * L.invCtau2 * (zlab - L.z0 + ctlab) ^ 2)
  L.gammaB * nLab * (1 + L.betaB)

/-- Whether the electron takes a recoil: at least one photon, and a draw below the inverse ratio of the weights.
numba_methods.py:90-91, 259-261 -/
def takesRecoil (p ratio draw recoilDraw : ℝ) : Prop := 0 < nScatter p ratio draw ∧ recoilDraw < 1 / ratio

end

end Fbpic
