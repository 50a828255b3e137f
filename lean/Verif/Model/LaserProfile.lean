import Verif.Model.Comm
import Mathlib.Analysis.SpecialFunctions.Pow.Complex
import Mathlib.Analysis.SpecialFunctions.Pow.Real
import Mathlib.Analysis.SpecialFunctions.Complex.Arg
import Mathlib.Analysis.SpecialFunctions.Sqrt

/-!
# `lpa_utils/laser/laser_profiles.py`, `longitudinal_laser_profiles.py`, `transverse_laser_profiles.py`

Real and complex numbers instead of floats. The arrays are functions of one point. `gpu_capable` is not modelled; the custom spectrum
(`CustomSpectrumLongitudinalProfile`) is in `Model/CustomSpectrum.lean`, `FromLasyFileLaser` in `Model/Lasy.lean`. Contracts of libraries:
`scipy.special.genlaguerre(p, m)` is the polynomial `laguerre p m`; `a**b` of complex numbers is the principal power; `np.angle` is the
principal argument; `fsolve` is a parameter.
-/

namespace Fbpic.LaserProf

open Complex (I)

/-- `m_e`, `c`, `e`, `epsilon_0` (laser_profiles.py:9). -/
structure Phys where
  (c me e eps0 : ℝ)

/-- What is used of a longitudinal profile: `evaluate(z, t)`, `squared_profile_integral()`, `k0`, `propag_direction`. -/
structure Long where
  evaluate : ℝ → ℝ → ℂ
  sqInt : ℝ
  k0 : ℝ
  dir : ℝ

/-- What is used of a transverse profile: `evaluate(x, y, z)`, `squared_profile_integral()`, `k0`, `propag_direction`. -/
structure Trans where
  evaluate : ℝ → ℝ → ℝ → ℂ
  sqInt : ℝ
  k0 : ℝ
  dir : ℝ

/-- What is used of a laser profile: `E_field(x, y, z, t)`, `propag_direction`. -/
structure Laser where
  field : ℝ → ℝ → ℝ → ℝ → ℝ × ℝ
  dir : ℝ

/-- The initializations of the three base classes (laser_profiles.py:46-47, longitudinal_laser_profiles.py:43-44,
transverse_laser_profiles.py:41-42). -/
noncomputable def checkDir (d : ℝ) : Except PyErr ℝ := if d = -1 ∨ d = 1 then .ok d else .error (.assertionError "")

/-! ### Longitudinal profile -/

/-- `GaussianChirpedLongitudinalProfile.evaluate`, longitudinal_laser_profiles.py:162-181. -/
noncomputable def gaussLongEval (c k0 z0 cep phi2 invCtau2 dir z t : ℝ) : ℂ :=
  let stretch : ℂ := 1 - 2 * I * phi2 * c ^ 2 * invCtau2
  let arg : ℂ := -I * cep + I * k0 * (dir * (z - z0) - c * t) - 1 / stretch * invCtau2 * (dir * (z - z0) - c * t) ^ 2
  Complex.exp arg / stretch ^ (1 / 2 : ℂ)

/-- `GaussianChirpedLongitudinalProfile`, longitudinal_laser_profiles.py:149-187. -/
noncomputable def gaussLong (c tau z0 lambda0 cep phi2 dir : ℝ) : Except PyErr Long := do
  let dir ← checkDir dir
  let k0 := 2 * Real.pi / lambda0
  let invCtau2 := 1 / (c * tau) ^ 2
  return ⟨gaussLongEval c k0 z0 cep phi2 invCtau2 dir, Real.sqrt (1 / 2 * Real.pi * 1 / invCtau2), k0, dir⟩

/-! ### Transverse profiles -/

/-- Diffraction factor, transverse_laser_profiles.py:154, 287, 408, 530. -/
noncomputable def diffract (invZr zf dir z : ℝ) : ℂ := 1 + I * dir * (z - zf) * invZr

/-- `GaussianTransverseProfile.evaluate`, transverse_laser_profiles.py:143-160. -/
noncomputable def gaussTransEval (w0 invZr zf dir x y z : ℝ) : ℂ :=
  let d := diffract invZr zf dir z
  Complex.exp (-(x ^ 2 + y ^ 2) / (w0 ^ 2 * d)) / d

/-- `GaussianTransverseProfile`, transverse_laser_profiles.py:130-166. -/
noncomputable def gaussTrans (waist zf lambda0 dir : ℝ) : Except PyErr Trans := do
  let dir ← checkDir dir
  let k0 := 2 * Real.pi / lambda0
  let zr := 1 / 2 * k0 * waist ^ 2
  return ⟨gaussTransEval waist (1 / zr) zf dir, 1 / 2 * Real.pi * waist ^ 2, k0, dir⟩

/-- `scipy.special.genlaguerre(p, m)`: the generalized Laguerre polynomial (contract of the library). -/
noncomputable def laguerre (p m : ℕ) (x : ℝ) : ℝ :=
  ∑ k ∈ Finset.range (p + 1), (-1) ^ k * ((p + m).choose (p - k) : ℝ) / k.factorial * x ^ k

/-- `LaguerreGaussTransverseProfile.evaluate`, transverse_laser_profiles.py:281-304. -/
noncomputable def lgEval (p m : ℕ) (amplitude theta0 w0 invZr zf dir x y z : ℝ) : ℂ :=
  let d := diffract invZr zf dir z
  let w := w0 * ‖d‖
  let psi := Complex.arg d
  let r2 := 2 * (x ^ 2 + y ^ 2) / w ^ 2
  let r := Real.sqrt r2
  let theta := Complex.arg (x + I * y)
  let arg : ℂ := -(x ^ 2 + y ^ 2) / (w0 ^ 2 * d) - I * (2 * p + m) * psi
  (Complex.exp arg / d * (r ^ m : ℝ) * (laguerre p m r2 : ℝ) * (Real.cos (m * (theta - theta0)) : ℝ)) * amplitude

/-- `LaguerreGaussTransverseProfile`, transverse_laser_profiles.py:254-310. `p` is not negative, `m` is an `int`. -/
noncomputable def lgTrans (p : ℕ) (m : ℤ) (waist zf lambda0 theta0 dir : ℝ) : Except PyErr Trans := do
  let dir ← checkDir dir
  let k0 := 2 * Real.pi / lambda0
  let zr := 1 / 2 * k0 * waist ^ 2
  let amp : ℝ := if m = 0 then 1 else Real.sqrt (p.factorial / (m.toNat + p).factorial)
  let amp : ℝ := if m ≠ 0 then amp * Real.sqrt 2 else amp
  if m < 0 then throw (.valueError "m should be an integer positive number.")
  else return ⟨lgEval p m.toNat amp theta0 waist (1 / zr) zf dir, 1 / 2 * Real.pi * waist ^ 2, k0, dir⟩

/-- `DonutLikeLaguerreGaussTransverseProfile.evaluate`, transverse_laser_profiles.py:402-426. -/
noncomputable def donutEval (p : ℕ) (m : ℤ) (amplitude w0 invZr zf dir x y z : ℝ) : ℂ :=
  let d := diffract invZr zf dir z
  let w := w0 * ‖d‖
  let psi := Complex.arg d
  let r2 := 2 * (x ^ 2 + y ^ 2) / w ^ 2
  let r := Real.sqrt r2
  let theta := Complex.arg (x + I * y)
  let arg : ℂ := -I * m * theta - (x ^ 2 + y ^ 2) / (w0 ^ 2 * d) - I * (2 * p + m.natAbs) * psi
  (Complex.exp arg / d * (r ^ m.natAbs : ℝ) * (laguerre p m.natAbs r2 : ℝ)) * amplitude

/-- `DonutLikeLaguerreGaussTransverseProfile`, transverse_laser_profiles.py:383-432. `p` is not negative. -/
noncomputable def donutTrans (p : ℕ) (m : ℤ) (waist zf lambda0 dir : ℝ) : Except PyErr Trans := do
  let dir ← checkDir dir
  let k0 := 2 * Real.pi / lambda0
  let zr := 1 / 2 * k0 * waist ^ 2
  let amp : ℝ := Real.sqrt (p.factorial / (m.natAbs + p).factorial)
  return ⟨donutEval p m amp waist (1 / zr) zf dir, 1 / 2 * Real.pi * waist ^ 2, k0, dir⟩

/-- `self.cn[n]`, transverse_laser_profiles.py:519-522. -/
noncomputable def flatCn (N n : ℕ) : ℝ := (∑ m ∈ Finset.Icc n N, (1 / 2) ^ m * (m.choose n : ℝ)) / (N + 1)

/-- The variables of the loop of `FlattenedGaussianTransverseProfile.evaluate`: `laguerre_sum`, `L`, `L1`. -/
structure FlatState where
  sum : ℂ
  L : ℝ
  L1 : ℝ

/-- Loop body, transverse_laser_profiles.py:537-553. -/
noncomputable def flatStep (cn : ℕ → ℝ) (psi r2 : ℝ) (s : FlatState) (n : ℕ) : FlatState :=
  let (L, L1) : ℝ × ℝ :=
    if n = 0 then (1, s.L1)
    else if n = 1 then (1 - r2, s.L)
    else (((2 * n - 1 - r2) * s.L - (n - 1) * s.L1) / n, s.L)
  ⟨s.sum + cn n * Complex.exp (-(2 * I * n) * psi) * L, L, L1⟩

/-- `FlattenedGaussianTransverseProfile.evaluate`, transverse_laser_profiles.py:524-559. -/
noncomputable def flatEval (N : ℕ) (cn : ℕ → ℝ) (wFoc invZr zf dir x y z : ℝ) : ℂ :=
  let d := diffract invZr zf dir z
  let w := wFoc * ‖d‖
  let psi := Complex.arg d
  let r2 := 2 * (x ^ 2 + y ^ 2) / w ^ 2
  let s := (List.range (N + 1)).foldl (flatStep cn psi r2) ⟨0, 0, 0⟩
  s.sum * Complex.exp (-(x ^ 2 + y ^ 2) / (wFoc ^ 2 * d)) / d

/-- `FlattenedGaussianTransverseProfile`, transverse_laser_profiles.py:503-565. `N` is an integer and not negative. -/
noncomputable def flatTrans (w0 : ℝ) (N : ℕ) (zf lambda0 dir : ℝ) : Except PyErr Trans := do
  let dir ← checkDir dir
  let wFoc := w0 * Real.sqrt (N + 1)
  let k0 := 2 * Real.pi / lambda0
  let zr := 1 / 2 * k0 * wFoc ^ 2
  return ⟨flatEval N (flatCn N) wFoc (1 / zr) zf dir,
    1 / 2 * Real.pi * wFoc ^ 2 * ((List.range (N + 1)).map fun n => flatCn N n ^ 2).sum, k0, dir⟩

/-! ### Laser profiles -/

/-- The `E_field` method of all the classes that combine two profiles, laser_profiles.py:161-174, 281-294, 433-446, 572-585, 697-710. -/
noncomputable def combine (E0x E0y : ℝ) (l : Long) (tr : Trans) (x y z t : ℝ) : ℝ × ℝ :=
  let profile := l.evaluate z t * tr.evaluate x y z
  ((E0x * profile).re, (E0y * profile).re)

/-- `ParaxialApproximationLaser`, laser_profiles.py:108-174. -/
noncomputable def paraxial (k : Phys) (l : Long) (tr : Trans) (energy thetaPol : ℝ) : Except PyErr Laser := do
  if l.dir ≠ tr.dir then throw (.assertionError "")
  if l.k0 ≠ tr.k0 then throw (.assertionError "")
  let E0 := Real.sqrt (2 * energy / (k.eps0 * l.sqInt * tr.sqInt))
  return ⟨combine (E0 * Real.cos thetaPol) (E0 * Real.sin thetaPol) l tr, l.dir⟩

/-- The amplitude `E0`, laser_profiles.py:262-263, 414-415, 553-554, 678-679, 802-803. -/
noncomputable def amplitude (k : Phys) (a0 lambda0 : ℝ) : ℝ :=
  let k0 := 2 * Real.pi / lambda0
  a0 * k.me * k.c ^ 2 * k0 / k.e

/-- Common part of the initializations of the pulses of given `a0`: laser_profiles.py:259-279, 411-431, 550-570, 675-695; `tr` creates
the transverse profile from the focal plane and the direction. -/
noncomputable def pulse (k : Phys) (a0 tau z0 : ℝ) (zf : Option ℝ) (thetaPol lambda0 cep phi2 dir : ℝ)
    (tr : ℝ → ℝ → Except PyErr Trans) : Except PyErr Laser := do
  let dir ← checkDir dir
  let E0 := amplitude k a0 lambda0
  let zf := zf.getD z0
  let l ← gaussLong k.c tau z0 lambda0 cep phi2 dir
  let tr ← tr zf dir
  return ⟨combine (E0 * Real.cos thetaPol) (E0 * Real.sin thetaPol) l tr, dir⟩

/-- `GaussianLaser`, laser_profiles.py:179-294. -/
noncomputable def gaussianLaser (k : Phys) (a0 waist tau z0 : ℝ) (zf : Option ℝ) (thetaPol lambda0 cep phi2 dir : ℝ) : Except PyErr Laser :=
  pulse k a0 tau z0 zf thetaPol lambda0 cep phi2 dir fun zf dir => gaussTrans waist zf lambda0 dir

/-- `LaguerreGaussLaser`, laser_profiles.py:296-446. -/
noncomputable def laguerreGaussLaser (k : Phys) (p : ℕ) (m : ℤ) (a0 waist tau z0 : ℝ) (zf : Option ℝ)
    (thetaPol lambda0 cep theta0 dir : ℝ) : Except PyErr Laser :=
  pulse k a0 tau z0 zf thetaPol lambda0 cep 0 dir fun zf dir => lgTrans p m waist zf lambda0 theta0 dir

/-- `DonutLikeLaguerreGaussLaser`, laser_profiles.py:448-585. -/
noncomputable def donutLaser (k : Phys) (p : ℕ) (m : ℤ) (a0 waist tau z0 : ℝ) (zf : Option ℝ)
    (thetaPol lambda0 cep dir : ℝ) : Except PyErr Laser :=
  pulse k a0 tau z0 zf thetaPol lambda0 cep 0 dir fun zf dir => donutTrans p m waist zf lambda0 dir

/-- `FlattenedGaussianLaser`, laser_profiles.py:587-710. -/
noncomputable def flattenedLaser (k : Phys) (a0 w0 tau z0 : ℝ) (N : ℕ) (zf : Option ℝ)
    (thetaPol lambda0 cep dir : ℝ) : Except PyErr Laser :=
  pulse k a0 tau z0 zf thetaPol lambda0 cep 0 dir fun zf dir => flatTrans w0 N zf lambda0 dir

/-- `FewCycleLaser.E_field` before taking the real part and the polarization, laser_profiles.py:827-835. -/
noncomputable def fewCycleEval (c k0 zr z0 zf cep s dir x y z t : ℝ) : ℂ :=
  let invQ : ℂ := 1 / (dir * (z - zf) + I * zr)
  let argument : ℂ := 1 + I * k0 / s * (dir * (z - z0) - c * t + 1 / 2 * (x ^ 2 + y ^ 2) * invQ)
  Complex.exp (I * cep) * I * zr * invQ * argument ^ (-s - 1 : ℂ)

/-- The function whose zero `fsolve` searches, laser_profiles.py:819-820. -/
noncomputable def fewCycleEq (c k0 tauFwhm s : ℝ) : ℝ :=
  let wTau := c * k0 * tauFwhm
  s * Real.sqrt (2 * (4 ^ (1 / (s + 1)) - 1)) - wTau

/-- `FewCycleLaser`, laser_profiles.py:713-839; `solve` is `fsolve(f, 1.)[0]`. -/
noncomputable def fewCycleLaser (k : Phys) (solve : (ℝ → ℝ) → ℝ) (a0 waist tauFwhm z0 : ℝ) (zf : Option ℝ)
    (thetaPol lambda0 cep dir : ℝ) : Except PyErr Laser := do
  let dir ← checkDir dir
  let k0 := 2 * Real.pi / lambda0
  let E0 := amplitude k a0 lambda0
  let zr := 1 / 2 * k0 * waist ^ 2
  let zf := zf.getD z0
  let s := solve (fewCycleEq k.c k0 tauFwhm)
  return ⟨fun x y z t =>
    let profile := fewCycleEval k.c k0 zr z0 zf cep s dir x y z t
    (((E0 * Real.cos thetaPol : ℝ) * profile).re, ((E0 * Real.sin thetaPol : ℝ) * profile).re), dir⟩

/-- `SummedLaserProfile`, laser_profiles.py:70-103. -/
noncomputable def add (a b : Laser) : Except PyErr Laser := do
  if a.dir ≠ b.dir then throw (.assertionError "")
  let dir ← checkDir a.dir
  return ⟨fun x y z t =>
    let (Ex1, Ey1) := a.field x y z t
    let (Ex2, Ey2) := b.field x y z t
    (Ex1 + Ex2, Ey1 + Ey2), dir⟩

end Fbpic.LaserProf
