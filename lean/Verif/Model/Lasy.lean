import Verif.Model.LaserProfile

/-!
# Laser read from a lasy file (`fbpic/lpa_utils/laser/laser_profiles.py`, class `FromLasyFileLaser`)

The HDF5 file is a record of the attributes which are read. Arrays are functions of integer indices, with their shape; reading out of the
shape is not an error in compiled numba code, so that it is excluded by a theorem (`C76_in_bounds`) and not by the model.
-/

namespace Fbpic.Lasy

open Complex (I)

/-- What `FromLasyFileLaser.__init__` reads, laser_profiles.py:902-937: attributes of the file (absent or not; the version string already split
at the points, `none` where `int` fails), attributes of `/data/0/meshes/laserEnvelope`, and its array. -/
structure File where
  software : Option String
  version : Option (List (Option ℤ))
  omega : ℝ
  pol : ℂ × ℂ
  geometry : String
  unitSI : ℝ
  spacing : List ℝ
  offset : List ℝ
  shape : List ℕ
  env : ℤ → ℤ → ℤ → ℂ

/-- `a >= b` for tuples of integers, Python's lexicographic order. -/
def tupleGe : List ℤ → List ℤ → Bool
  | _, [] => true
  | [], _ :: _ => false
  | a :: as, b :: bs => if a = b then tupleGe as bs else a > b

/-- laser_profiles.py:905-919: the check of the version. -/
def checkVersion (f : File) : Except PyErr Unit := do
  let mut valid := false
  match f.software, f.version with
  | some software, some parts =>
    if parts.any (·.isNone) then throw (.valueError "invalid literal for int()")
    let version := parts.map (·.getD 0)
    if software = "lasy" ∧ tupleGe version [0, 3, 0] = true then valid := true
  | _, _ => pure ()
  if ¬valid then throw (.runtimeError "obsolete lasy version")

/-- `a, b = list` and alike: ValueError if the length is different. -/
def unpack2 {α : Type} : List α → Except PyErr (α × α)
  | [a, b] => .ok (a, b)
  | _ => .error (.valueError "unpack")

/-- See `unpack2`. -/
def unpack3 {α : Type} : List α → Except PyErr (α × α × α)
  | [a, b, c] => .ok (a, b, c)
  | _ => .error (.valueError "unpack")

/-- The four products of laser_profiles.py:974-977, 980-983, 984-987, for one component of the array. -/
noncomputable def bilinear (d : ℤ → ℤ → ℂ) (it ir : ℤ) (S0t S1t S0r S1r : ℝ) : ℂ :=
  S1r * S1t * d it ir + S0r * S1t * d it (ir + 1) + S1r * S0t * d (it + 1) ir + S0r * S0t * d (it + 1) (ir + 1)

/-- `interp_function` of `define_thetaMode_interp_function`, laser_profiles.py:958-996; `none` is the division of zero by zero on the axis. -/
noncomputable def thetaInterp (env : ℤ → ℤ → ℤ → ℂ) (invDt invDr : ℝ) (nt nr nModes : ℤ) (x y t : ℝ) : Option ℂ :=
  let irInterp := Real.sqrt (x ^ 2 + y ^ 2) * invDr
  let ir := ⌊irInterp⌋
  let itInterp := t * invDt
  let it := ⌊itInterp⌋
  if it < 0 ∨ it + 1 > nt - 1 ∨ ir < 0 ∨ ir + 1 > nr - 1 then some 0
  else
    let S0t := itInterp - it
    let S1t := it + 1 - itInterp
    let S0r := irInterp - ir
    let S1r := ir + 1 - irInterp
    if 1 < nModes ∧ Real.sqrt (x ^ 2 + y ^ 2) = 0 then none
    else some (((List.range (nModes - 1).toNat).map (· + 1)).foldl (fun acc (m : ℕ) =>
      let envCos := bilinear (env (2 * m - 1)) it ir S0t S1t S0r S1r
      let envSin := bilinear (env (2 * m)) it ir S0t S1t S0r S1r
      let expTheta : ℂ := ((x + I * y) / (Real.sqrt (x ^ 2 + y ^ 2) : ℝ)) ^ m
      acc + (envCos * expTheta.re + envSin * expTheta.im))
      (bilinear (env 0) it ir S0t S1t S0r S1r))

/-- `interp_function` of `define_cartesian_interp_function`, laser_profiles.py:1019-1050. -/
noncomputable def cartInterp (env : ℤ → ℤ → ℤ → ℂ) (invDt invDy invDx yMin xMin : ℝ) (nt ny nx : ℤ) (x y t : ℝ) : Option ℂ :=
  let ixInterp := (x - xMin) * invDx
  let ix := ⌊ixInterp⌋
  let iyInterp := (y - yMin) * invDy
  let iy := ⌊iyInterp⌋
  let itInterp := t * invDt
  let it := ⌊itInterp⌋
  if it < 0 ∨ it + 1 > nt - 1 ∨ iy < 0 ∨ iy + 1 > ny - 1 ∨ ix < 0 ∨ ix + 1 > nx - 1 then some 0
  else
    let S0t : ℂ := (itInterp - it : ℝ)
    let S1t : ℂ := (it + 1 - itInterp : ℝ)
    let S0y : ℂ := (iyInterp - iy : ℝ)
    let S1y : ℂ := (iy + 1 - iyInterp : ℝ)
    let S0x : ℂ := (ixInterp - ix : ℝ)
    let S1x : ℂ := (ix + 1 - ixInterp : ℝ)
    some (S1x * S1y * S1t * env it iy ix + S0x * S1y * S1t * env it iy (ix + 1) +
      S1x * S0y * S1t * env it (iy + 1) ix + S0x * S0y * S1t * env it (iy + 1) (ix + 1) +
      S1x * S1y * S0t * env (it + 1) iy ix + S0x * S1y * S0t * env (it + 1) iy (ix + 1) +
      S1x * S0y * S0t * env (it + 1) (iy + 1) ix + S0x * S0y * S0t * env (it + 1) (iy + 1) (ix + 1))

/-- `E_field`, laser_profiles.py:1055-1069. -/
noncomputable def eField (omega : ℝ) (pol : ℂ × ℂ) (tMinLasy tStart : ℝ) (interp : ℝ → ℝ → ℝ → Option ℂ) (x y _z t : ℝ) : Option (ℝ × ℝ) := do
  let env ← interp x y (t - tStart)
  let E : ℂ := env * Complex.exp (-I * omega * (t - tStart + tMinLasy))
  return ((E * pol.1).re, (E * pol.2).re)

/-- `FromLasyFileLaser.__init__`, laser_profiles.py:898-957 with 948-954 and 1010-1017; the result is `E_field`. The laser propagates towards
positive `z` (line 899). An empty `gridGlobalOffset` raises IndexError (line 924). `int(shape[0]/2) + 1` is `shape[0]/2 + 1`. -/
noncomputable def fromLasyFile (f : File) (tStart : ℝ) : Except PyErr (ℝ → ℝ → ℝ → ℝ → Option (ℝ × ℝ)) := do
  checkVersion f
  let tMinLasy ← match f.offset with
    | a :: _ => pure a
    | [] => throw (.indexError "")
  if f.geometry = "thetaMode" then
    let (dt, dr) ← unpack2 (f.spacing.map (· * f.unitSI))
    let (n0, nt, nr) ← unpack3 f.shape
    return eField f.omega f.pol tMinLasy tStart (thetaInterp f.env (1 / dt) (1 / dr) nt nr ((n0 / 2 : ℕ) + 1))
  else if f.geometry = "cartesian" then
    let (dt, dy, dx) ← unpack3 (f.spacing.map (· * f.unitSI))
    let (_, yMin, xMin) ← unpack3 f.offset
    let (nt, ny, nx) ← unpack3 f.shape
    return eField f.omega f.pol tMinLasy tStart (cartInterp f.env (1 / dt) (1 / dy) (1 / dx) yMin xMin nt ny nx)
  else throw (.runtimeError "Unknown geometry")

end Fbpic.Lasy
