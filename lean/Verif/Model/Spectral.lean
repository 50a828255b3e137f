import Mathlib.Analysis.SpecialFunctions.Trigonometric.Basic
import Mathlib.Analysis.SpecialFunctions.Sqrt
import Verif.Model.Comm

/-!
# The spectral field solver

`fields/psatd_coefs.py`, `fields/spectral_grid.py` and the kernels of `fields/numba_methods.py`
(the GPU kernels `fields/cuda_methods.py:120-440` have the same body, with the loop over the grid
replaced by `if (iz < Nz) and (ir < Nr)`).

Simplifications: exact real and complex arithmetic instead of floating point. The constants of
`scipy.constants` are parameters. The two loops over the grid are independent per cell (every
statement reads and writes only the entry `[iz, ir]` of the arrays), so a kernel is a function of
the values in one cell, applied to every cell by `mapCells`.
-/

namespace Fbpic

open Complex

/-- `c`, `mu_0`, `epsilon_0` of `scipy.constants`. -/
structure Consts where
  c : ℝ
  mu0 : ℝ
  eps0 : ℝ

/-- What is used of the constants: positive, and `mu_0 epsilon_0 c^2 = 1`. -/
structure Consts.Ok (k : Consts) : Prop where
  c_pos : 0 < k.c
  mu0_pos : 0 < k.mu0
  eps0_pos : 0 < k.eps0
  rel : k.mu0 * k.eps0 * k.c ^ 2 = 1

/-- The values of the arrays of `SpectralGrid` in one cell (spectral_grid.py:85-106). -/
structure SpecCell where
  Ep : ℂ
  Em : ℂ
  Ez : ℂ
  Bp : ℂ
  Bm : ℂ
  Bz : ℂ
  Jp : ℂ
  Jm : ℂ
  Jz : ℂ
  rhoPrev : ℂ
  rhoNext : ℂ
  rhoNextZ : ℂ
  rhoNextXY : ℂ
  EpPml : ℂ
  EmPml : ℂ
  BpPml : ℂ
  BmPml : ℂ

/-- The attributes of `PsatdCoeffs` that exist only `if self.V is not None`
(psatd_coefs.py:77-137). -/
structure ComovCoefs where
  V : ℝ
  Teb : ℂ
  Tcc : ℂ
  Trho : ℂ
  jCorr : ℂ

/-- The attributes of `PsatdCoeffs` for one cell (psatd_coefs.py:55-163). -/
structure PsatdCoefs where
  dt : ℝ
  C : ℂ
  Sw : ℂ
  jCoef : ℂ
  rhoPrevCoef : ℂ
  rhoNextCoef : ℂ
  comov : Option ComovCoefs

section Coefs

variable (k : Consts) (kz kr dt : ℝ)

/-- `w = c*np.sqrt( kz**2 + kr**2 )` (psatd_coefs.py:66). -/
noncomputable def omega : ℝ := k.c * Real.sqrt (kz ^ 2 + kr ^ 2)

/-- `inv_w = 1./np.where( w == 0, 1., w )` (psatd_coefs.py:67). -/
noncomputable def invOmega : ℝ :=
  if omega k kz kr = 0 then 1 else 1 / omega k kz kr

/-- `C = np.cos( w*dt )` (psatd_coefs.py:70). -/
noncomputable def coefC : ℝ := Real.cos (omega k kz kr * dt)

/-- `S_w = np.sin( w*dt )*inv_w`, and `dt` where `w == 0` (psatd_coefs.py:72-74). -/
noncomputable def coefSw : ℝ :=
  if omega k kz kr = 0 then dt else Real.sin (omega k kz kr * dt) * invOmega k kz kr

/-- `T2 = np.exp(i*kz*V*dt)` (psatd_coefs.py:80). -/
noncomputable def coefT2 (V : ℝ) : ℂ := exp (I * kz * V * dt)

/-- `T_eb` (psatd_coefs.py:86-91). -/
noncomputable def coefTeb (V : ℝ) (useGalilean : Bool) : ℂ :=
  if useGalilean then coefT2 kz dt V else 1

/-- `T_cc` (psatd_coefs.py:81-91). -/
noncomputable def coefTcc (V : ℝ) (useGalilean : Bool) : ℂ :=
  if useGalilean then 1 else exp (I * 0.5 * kz * V * dt)

/-- `T_rho` (psatd_coefs.py:93-100). -/
noncomputable def coefTrho (V : ℝ) (useGalilean : Bool) : ℂ :=
  if V ≠ 0 then
    if kz = 0 then -dt else (1 - coefT2 kz dt V) / (coefTcc kz dt V useGalilean * (I * kz * V))
  else -dt

/-- `inv_w_kzV` (psatd_coefs.py:105-108). -/
noncomputable def invWkzV (V : ℝ) : ℝ :=
  1 / (if omega k kz kr ^ 2 - kz ^ 2 * V ^ 2 = 0 then 1 else omega k kz kr ^ 2 - kz ^ 2 * V ^ 2)

/-- `inv_1_T2 = 1./np.where(T2 == 1, 1., 1-T2)` (psatd_coefs.py:110). -/
noncomputable def inv1T2 (V : ℝ) : ℂ :=
  1 / (if coefT2 kz dt V = 1 then 1 else 1 - coefT2 kz dt V)

/-- `xi_1` (psatd_coefs.py:112-113). -/
noncomputable def xi1 (V : ℝ) (useGalilean : Bool) : ℂ :=
  1 / coefTcc kz dt V useGalilean * invWkzV k kz kr V
    * (1 - coefT2 kz dt V * coefC k kz kr dt + I * kz * V * coefT2 kz dt V * coefSw k kz kr dt)

/-- `xi_2` (psatd_coefs.py:115-121). -/
noncomputable def xi2 (V : ℝ) : ℂ :=
  if kz ≠ 0 then
    invWkzV k kz kr V * (1
      + I * kz * V * coefT2 kz dt V * coefSw k kz kr dt * inv1T2 kz dt V
      + kz ^ 2 * V ^ 2 * invOmega k kz kr ^ 2 * coefT2 kz dt V *
        inv1T2 kz dt V * (1 - coefC k kz kr dt))
  else 1 * invOmega k kz kr ^ 2 * (1 - coefSw k kz kr dt * (1 / dt))

/-- `xi_3` (psatd_coefs.py:123-129). -/
noncomputable def xi3 (V : ℝ) (useGalilean : Bool) : ℂ :=
  if kz ≠ 0 then
    coefTeb kz dt V useGalilean * invWkzV k kz kr V * (coefC k kz kr dt
      + I * kz * V * coefT2 kz dt V * coefSw k kz kr dt * inv1T2 kz dt V
      + kz ^ 2 * V ^ 2 * invOmega k kz kr ^ 2 *
        inv1T2 kz dt V * (1 - coefC k kz kr dt))
  else 1 * invOmega k kz kr ^ 2 * (coefC k kz kr dt - coefSw k kz kr dt * (1 / dt))

/-- `j_corr_coef` (psatd_coefs.py:131-137). -/
noncomputable def coefJcorr (V : ℝ) : ℂ :=
  if V ≠ 0 then (if kz ≠ 0 then (-I * kz * V) * inv1T2 kz dt V else 1 / dt) else 1 / dt

/-- `V is None or V == 0` (psatd_coefs.py:140, 148, 157). -/
def noDrift (V : Option ℝ) : Prop := V = none ∨ V = some 0

open Classical in
/-- `j_coef` (psatd_coefs.py:139-145). -/
noncomputable def coefJ (V : Option ℝ) (useGalilean : Bool) : ℂ :=
  if omega k kz kr = 0 then k.mu0 * k.c ^ 2 * (0.5 * dt ^ 2)
  else if noDrift V then k.mu0 * k.c ^ 2 * (1 - coefC k kz kr dt) * invOmega k kz kr ^ 2
  else k.mu0 * k.c ^ 2 * xi1 k kz kr dt (V.getD 0) useGalilean

open Classical in
/-- `rho_prev_coef` (psatd_coefs.py:147-154). -/
noncomputable def coefRhoPrev (V : Option ℝ) (useGalilean : Bool) : ℂ :=
  if omega k kz kr = 0 then k.c ^ 2 / k.eps0 * (-1 / 3 * dt ^ 2)
  else if noDrift V then
    k.c ^ 2 / k.eps0 * (coefC k kz kr dt - 1 / dt * coefSw k kz kr dt) * invOmega k kz kr ^ 2
  else k.c ^ 2 / k.eps0 * xi3 k kz kr dt (V.getD 0) useGalilean

open Classical in
/-- `rho_next_coef` (psatd_coefs.py:156-163). -/
noncomputable def coefRhoNext (V : Option ℝ) : ℂ :=
  if omega k kz kr = 0 then k.c ^ 2 / k.eps0 * (1 / 6 * dt ^ 2)
  else if noDrift V then
    k.c ^ 2 / k.eps0 * (1 - 1 / dt * coefSw k kz kr dt) * invOmega k kz kr ^ 2
  else k.c ^ 2 / k.eps0 * xi2 k kz kr dt (V.getD 0)

/-- `PsatdCoeffs.__init__` for one cell (psatd_coefs.py:20-163). -/
noncomputable def psatdCoefs (V : Option ℝ) (useGalilean : Bool) : PsatdCoefs where
  dt := dt
  C := coefC k kz kr dt
  Sw := coefSw k kz kr dt
  jCoef := coefJ k kz kr dt V useGalilean
  rhoPrevCoef := coefRhoPrev k kz kr dt V useGalilean
  rhoNextCoef := coefRhoNext k kz kr dt V
  comov := V.map fun V =>
    { V := V, Teb := coefTeb kz dt V useGalilean, Tcc := coefTcc kz dt V useGalilean
      Trho := coefTrho kz dt V useGalilean, jCorr := coefJcorr kz dt V }

end Coefs

/-! ### Current correction -/

/-- `inv_k2` (spectral_grid.py:117-120). -/
noncomputable def invK2 (kz kr : ℝ) : ℝ :=
  if kz = 0 ∧ kr = 0 then 0 else 1 / (kz ^ 2 + kr ^ 2)

/-- The allowed values of `current_correction` (fields.py:149-152). -/
inductive CurrentCorrection where
  | curlFree
  | crossDeposition

/-- `numba_correct_currents_curlfree_standard` in one cell (numba_methods.py:74-83). -/
noncomputable def curlFreeStandard (kz kr : ℝ) (invk2 invdt : ℝ) (s : SpecCell) : SpecCell :=
  let F : ℂ := -invk2 * ((s.rhoNext - s.rhoPrev) * invdt + I * kz * s.Jz + kr * (s.Jp - s.Jm))
  { s with Jp := s.Jp + 0.5 * kr * F, Jm := s.Jm + -0.5 * kr * F, Jz := s.Jz + -I * kz * F }

/-- The last part of both cross-deposition kernels (numba_methods.py:107-114, 266-273). -/
noncomputable def crossCorrect (kz kr : ℝ) (Dz Dxy : ℂ) (s : SpecCell) : SpecCell :=
  let s := if kr ≠ 0 then
      { s with Jp := s.Jp + -0.5 * Dxy * (1 / kr), Jm := s.Jm + 0.5 * Dxy * (1 / kr) }
    else s
  if kz ≠ 0 then { s with Jz := s.Jz + I * Dz * (1 / kz) } else s

/-- `numba_correct_currents_crossdeposition_standard` in one cell (numba_methods.py:98-114). -/
noncomputable def crossDepStandard (kz kr invdt : ℝ) (s : SpecCell) : SpecCell :=
  let Dz : ℂ := I * kz * s.Jz + 0.5 * invdt * (s.rhoNext - s.rhoNextXY + s.rhoNextZ - s.rhoPrev)
  let Dxy : ℂ := kr * (s.Jp - s.Jm)
    + 0.5 * invdt * (s.rhoNext - s.rhoNextZ + s.rhoNextXY - s.rhoPrev)
  crossCorrect kz kr Dz Dxy s

/-- `numba_correct_currents_curlfree_comoving` in one cell (numba_methods.py:229-238). -/
noncomputable def curlFreeComoving (kz kr invk2 : ℝ) (a : ComovCoefs) (s : SpecCell) : SpecCell :=
  let F : ℂ := -invk2 * (a.Tcc * a.jCorr * (s.rhoNext - s.rhoPrev * a.Teb)
    + I * kz * s.Jz + kr * (s.Jp - s.Jm))
  { s with Jp := s.Jp + 0.5 * kr * F, Jm := s.Jm + -0.5 * kr * F, Jz := s.Jz + -I * kz * F }

/-- `numba_correct_currents_crossdeposition_comoving` in one cell (numba_methods.py:254-273). -/
noncomputable def crossDepComoving (kz kr : ℝ) (a : ComovCoefs) (s : SpecCell) : SpecCell :=
  let Dz : ℂ := I * kz * s.Jz + 0.5 * a.Tcc * a.jCorr *
    (s.rhoNext - a.Teb * s.rhoNextXY + s.rhoNextZ - a.Teb * s.rhoPrev)
  let Dxy : ℂ := kr * (s.Jp - s.Jm) + 0.5 * a.Tcc * a.jCorr *
    (s.rhoNext + a.Teb * s.rhoNextXY - s.rhoNextZ - a.Teb * s.rhoPrev)
  crossCorrect kz kr Dz Dxy s

/-- `SpectralGrid.correct_currents` in one cell (spectral_grid.py:198-296). The `inv_k2` array
exists because the grid is created with the same `current_correction` (fields.py:189-191). -/
noncomputable def correctCurrents (m : CurrentCorrection) (kz kr : ℝ) (ps : PsatdCoefs)
    (s : SpecCell) : SpecCell :=
  match ps.comov, m with
  | none, .curlFree => curlFreeStandard kz kr (invK2 kz kr) (1 / ps.dt) s
  | none, .crossDeposition => crossDepStandard kz kr (1 / ps.dt) s
  | some a, .curlFree => curlFreeComoving kz kr (invK2 kz kr) a s
  | some a, .crossDeposition => crossDepComoving kz kr a s

/-! ### Divergence correction -/

/-- `SpectralGrid.correct_divE` in one cell (spectral_grid.py:299-314). The attribute `inv_k2`
only exists if the grid was created with `current_correction == 'curl-free'`
(spectral_grid.py:117-120). -/
noncomputable def correctDivE (k : Consts) (m : CurrentCorrection) (kz kr : ℝ) (s : SpecCell) :
    Except PyErr SpecCell :=
  match m with
  | .crossDeposition => .error (.attributeError "'SpectralGrid' object has no attribute 'inv_k2'")
  | .curlFree =>
    let F : ℂ := -invK2 kz kr * (-s.rhoPrev / k.eps0 + I * kz * s.Ez + kr * (s.Ep - s.Em))
    .ok { s with Ep := s.Ep + 0.5 * kr * F, Em := s.Em + -0.5 * kr * F, Ez := s.Ez + -I * kz * F }

/-! ### Field push -/

/-- `numba_push_eb_standard` in one cell (numba_methods.py:133-183). -/
noncomputable def pushEBStandard (k : Consts) (kz kr : ℝ) (ps : PsatdCoefs) (useTrueRho : Bool)
    (s : SpecCell) : SpecCell :=
  let rhoDiff : ℂ := if useTrueRho then ps.rhoNextCoef * s.rhoNext - ps.rhoPrevCoef * s.rhoPrev
    else
      let divE : ℂ := kr * (s.Ep - s.Em) + I * kz * s.Ez
      let divJ : ℂ := kr * (s.Jp - s.Jm) + I * kz * s.Jz
      (ps.rhoNextCoef - ps.rhoPrevCoef) * k.eps0 * divE - ps.rhoNextCoef * ps.dt * divJ
  { s with
    Ep := ps.C * s.Ep + 0.5 * kr * rhoDiff
      + k.c ^ 2 * ps.Sw * (-I * 0.5 * kr * s.Bz + kz * s.Bp - k.mu0 * s.Jp)
    Em := ps.C * s.Em - 0.5 * kr * rhoDiff
      + k.c ^ 2 * ps.Sw * (-I * 0.5 * kr * s.Bz - kz * s.Bm - k.mu0 * s.Jm)
    Ez := ps.C * s.Ez - I * kz * rhoDiff
      + k.c ^ 2 * ps.Sw * (I * kr * s.Bp + I * kr * s.Bm - k.mu0 * s.Jz)
    Bp := ps.C * s.Bp - ps.Sw * (-I * 0.5 * kr * s.Ez + kz * s.Ep)
      + ps.jCoef * (-I * 0.5 * kr * s.Jz + kz * s.Jp)
    Bm := ps.C * s.Bm - ps.Sw * (-I * 0.5 * kr * s.Ez - kz * s.Em)
      + ps.jCoef * (-I * 0.5 * kr * s.Jz - kz * s.Jm)
    Bz := ps.C * s.Bz - ps.Sw * (I * kr * s.Ep + I * kr * s.Em)
      + ps.jCoef * (I * kr * s.Jp + I * kr * s.Jm) }

/-- `numba_push_eb_pml_standard` in one cell (numba_methods.py:200-212). -/
noncomputable def pushPmlStandard (k : Consts) (kr : ℝ) (ps : PsatdCoefs) (s : SpecCell) :
    SpecCell :=
  { s with
    EpPml := ps.C * s.EpPml + k.c ^ 2 * ps.Sw * (-I * 0.5 * kr * s.Bz)
    EmPml := ps.C * s.EmPml + k.c ^ 2 * ps.Sw * (-I * 0.5 * kr * s.Bz)
    BpPml := ps.C * s.BpPml - ps.Sw * (-I * 0.5 * kr * s.Ez)
    BmPml := ps.C * s.BmPml - ps.Sw * (-I * 0.5 * kr * s.Ez) }

/-- `numba_push_eb_comoving` in one cell (numba_methods.py:295-353). -/
noncomputable def pushEBComoving (k : Consts) (kz kr : ℝ) (ps : PsatdCoefs) (a : ComovCoefs)
    (useTrueRho : Bool) (s : SpecCell) : SpecCell :=
  let rhoDiff : ℂ := if useTrueRho then ps.rhoNextCoef * s.rhoNext - ps.rhoPrevCoef * s.rhoPrev
    else
      let divE : ℂ := kr * (s.Ep - s.Em) + I * kz * s.Ez
      let divJ : ℂ := kr * (s.Jp - s.Jm) + I * kz * s.Jz
      (a.Teb * ps.rhoNextCoef - ps.rhoPrevCoef) * k.eps0 * divE
        + a.Trho * ps.rhoNextCoef * divJ
  { s with
    Ep := a.Teb * ps.C * s.Ep + 0.5 * kr * rhoDiff + ps.jCoef * I * kz * a.V * s.Jp
      + k.c ^ 2 * a.Teb * ps.Sw * (-I * 0.5 * kr * s.Bz + kz * s.Bp - k.mu0 * a.Tcc * s.Jp)
    Em := a.Teb * ps.C * s.Em - 0.5 * kr * rhoDiff + ps.jCoef * I * kz * a.V * s.Jm
      + k.c ^ 2 * a.Teb * ps.Sw * (-I * 0.5 * kr * s.Bz - kz * s.Bm - k.mu0 * a.Tcc * s.Jm)
    Ez := a.Teb * ps.C * s.Ez - I * kz * rhoDiff + ps.jCoef * I * kz * a.V * s.Jz
      + k.c ^ 2 * a.Teb * ps.Sw * (I * kr * s.Bp + I * kr * s.Bm - k.mu0 * a.Tcc * s.Jz)
    Bp := a.Teb * ps.C * s.Bp - a.Teb * ps.Sw * (-I * 0.5 * kr * s.Ez + kz * s.Ep)
      + ps.jCoef * (-I * 0.5 * kr * s.Jz + kz * s.Jp)
    Bm := a.Teb * ps.C * s.Bm - a.Teb * ps.Sw * (-I * 0.5 * kr * s.Ez - kz * s.Em)
      + ps.jCoef * (-I * 0.5 * kr * s.Jz - kz * s.Jm)
    Bz := a.Teb * ps.C * s.Bz - a.Teb * ps.Sw * (I * kr * s.Ep + I * kr * s.Em)
      + ps.jCoef * (I * kr * s.Jp + I * kr * s.Jm) }

/-- `numba_push_eb_pml_comoving` in one cell (numba_methods.py:370-380). -/
noncomputable def pushPmlComoving (k : Consts) (kr : ℝ) (ps : PsatdCoefs) (a : ComovCoefs)
    (s : SpecCell) : SpecCell :=
  { s with
    EpPml := a.Teb * ps.C * s.EpPml + k.c ^ 2 * a.Teb * ps.Sw * (-I * 0.5 * kr * s.Bz)
    EmPml := a.Teb * ps.C * s.EmPml + k.c ^ 2 * a.Teb * ps.Sw * (-I * 0.5 * kr * s.Bz)
    BpPml := a.Teb * ps.C * s.BpPml - a.Teb * ps.Sw * (-I * 0.5 * kr * s.Ez)
    BmPml := a.Teb * ps.C * s.BmPml - a.Teb * ps.Sw * (-I * 0.5 * kr * s.Ez) }

/-- `SpectralGrid.push_eb_with` in one cell (spectral_grid.py:316-405): the PML components first,
then the regular fields. -/
noncomputable def pushEBWith (k : Consts) (kz kr : ℝ) (ps : PsatdCoefs) (usePml useTrueRho : Bool)
    (s : SpecCell) : SpecCell :=
  match ps.comov with
  | none =>
    pushEBStandard k kz kr ps useTrueRho (if usePml then pushPmlStandard k kr ps s else s)
  | some a =>
    pushEBComoving k kz kr ps a useTrueRho (if usePml then pushPmlComoving k kr ps a s else s)

/-- `SpectralGrid.push_rho` in one cell (spectral_grid.py:407-421). -/
def pushRho (s : SpecCell) : SpecCell := { s with rhoPrev := s.rhoNext, rhoNext := 0 }

/-! ### The grid -/

/-- `SpectralGrid` with its arrays (spectral_grid.py:77-124); `kz` is the modified wavenumber.
The meshgrid arrays depend on one index only (spectral_grid.py:111). -/
structure SpecGrid where
  Nz : ℕ
  Nr : ℕ
  kz : ℕ → ℝ
  kr : ℕ → ℝ
  cell : ℕ → ℕ → SpecCell

/-- The double loop `for iz in prange(Nz): for ir in range(Nr)` over independent cells. -/
def SpecGrid.mapCells (g : SpecGrid) (f : ℝ → ℝ → SpecCell → SpecCell) : SpecGrid :=
  { g with cell := fun iz ir =>
      if iz < g.Nz ∧ ir < g.Nr then f (g.kz iz) (g.kr ir) (g.cell iz ir) else g.cell iz ir }

/-- `Fields.correct_currents` for one azimuthal mode (fields.py:278-302, without the assertions,
for which see C40). -/
noncomputable def SpecGrid.correctCurrents (k : Consts) (m : CurrentCorrection) (dt : ℝ)
    (V : Option ℝ) (useGalilean : Bool) (g : SpecGrid) : SpecGrid :=
  g.mapCells fun kz kr s => Fbpic.correctCurrents m kz kr (psatdCoefs k kz kr dt V useGalilean) s

/-- `Fields.push` for one azimuthal mode (fields.py:247-276, without the assertions). -/
noncomputable def SpecGrid.push (k : Consts) (dt : ℝ) (V : Option ℝ) (useGalilean usePml : Bool)
    (useTrueRho : Bool) (g : SpecGrid) : SpecGrid :=
  (g.mapCells fun kz kr s =>
    pushEBWith k kz kr (psatdCoefs k kz kr dt V useGalilean) usePml useTrueRho s).mapCells
      fun _ _ s => pushRho s

end Fbpic
