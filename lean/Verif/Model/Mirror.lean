import Verif.Model.Comm
import Mathlib.Analysis.SpecialFunctions.Sqrt
import Mathlib.Data.Complex.Basic

/-! # `lpa_utils/mirrors.py`: `Mirror` -/

namespace Fbpic.Mirror

/-- The argument `m`: the default `'all'`, an integer, a list, or anything else. -/
inductive ModeArg | all | int (m : ℕ) | list (l : List ℕ) | other

/-- The attributes of a mirror. -/
structure Mir where
  zStart : ℝ
  zEnd : ℝ
  gammaBoost : Option ℝ
  modes : Option (List ℕ)

/-- `Mirror.__init__`, mirrors.py:15-48. -/
def make (zStart zEnd : ℝ) (gammaBoost : Option ℝ) (m : ModeArg) : Except PyErr Mir :=
  match m with
  | .all => .ok ⟨zStart, zEnd, gammaBoost, none⟩
  | .int m => .ok ⟨zStart, zEnd, gammaBoost, some [m]⟩
  | .list l => .ok ⟨zStart, zEnd, gammaBoost, some l⟩
  | .other => .error (.typeError "m should be an int or a list of ints.")

/-- Names of the arrays of an interpolation grid. -/
inductive Arr | Er | Et | Ez | Br | Bt | Bz | ErPml | EtPml | BrPml | BtPml | Jr | Jt | Jz | rho
  deriving DecidableEq

/-- The interpolation grid of one mode; arrays as functions of the two indices. -/
structure Grid where
  usePml : Bool
  arr : Arr → ℕ → ℕ → ℂ

/-- `fieldlist`, mirrors.py:88-90. -/
def fieldlist (g : Grid) : List Arr :=
  if g.usePml then [.Er, .Et, .Ez, .Br, .Bt, .Bz] ++ [.ErPml, .EtPml, .BrPml, .BtPml]
  else [.Er, .Et, .Ez, .Br, .Bt, .Bz]

/-- `arr[imin:imax, :] = 0` for non-negative bounds, mirrors.py:93. -/
def zeroRows (imin imax : ℤ) (a : ℕ → ℕ → ℂ) : ℕ → ℕ → ℂ :=
  fun i j => if imin ≤ i ∧ (i : ℤ) < imax then 0 else a i j

/-- The position of a lab plane in the frame of the simulation, mirrors.py:64-69. -/
noncomputable def position (c : ℝ) (g : Option ℝ) (t z : ℝ) : ℝ :=
  match g with
  | none => z
  | some γ =>
    let beta := Real.sqrt (1 - 1 / γ ^ 2)
    1 / γ * z - beta * c * t

/-- The cells `[imin, imax)`, or none, mirrors.py:71-80; `zmin`, `zmax` are the limits of the local grid. -/
noncomputable def cells (zStart zEnd zmin zmax dz : ℝ) : Option (ℤ × ℤ) :=
  if zStart < zmin ∨ zStart ≥ zmax then none
  else
    let imax := pyInt ((zStart - zmin) / dz)
    let nCells := pyInt ((zEnd - zStart) / dz)
    some (max (imax - nCells) 0, imax)

/-- Whether mode `i` is selected, mirrors.py:85-87. -/
def Mir.selects (M : Mir) (i : ℕ) : Bool :=
  match M.modes with
  | none => true
  | some l => decide (i ∈ l)

/-- `set_fields_to_zero` on the rank `rank`, mirrors.py:50-94. -/
noncomputable def setFieldsToZero (c : ℝ) (M : Mir) (cm : Comm) (zminGlobal dz : ℝ) (rank : ℕ) (t : ℝ) (interp : List Grid) :
    Except PyErr (List Grid) := do
  let zs := position c M.gammaBoost t M.zStart
  let ze := position c M.gammaBoost t M.zEnd
  let (zmin, zmax) ← cm.getZminZmax zminGlobal dz true true true (some rank)
  match cells zs ze zmin zmax dz with
  | none => return interp
  | some (imin, imax) =>
    return interp.mapIdx fun i g =>
      if M.selects i then
        { g with arr := fun a => if a ∈ fieldlist g then zeroRows imin imax (g.arr a) else g.arr a }
      else g

end Fbpic.Mirror
