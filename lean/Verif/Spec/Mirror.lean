import Verif.Model.Mirror
import Verif.Spec.BoostConv

/-! # Specification for C51 -/

namespace Fbpic.Spec

open Mirror

/-- The arrays that hold E and B (with their PML parts when there are some). -/
def isEB (pml : Bool) : Arr → Prop
  | .Er | .Et | .Ez | .Br | .Bt | .Bz => True
  | .ErPml | .EtPml | .BrPml | .BtPml => pml = true
  | .Jr | .Jt | .Jz | .rho => False

/-- The modes meant by the argument of the user. -/
def wanted : ModeArg → ℕ → Prop
  | .all, _ => True
  | .int m, i => i = m
  | .list l, i => i ∈ l
  | .other, _ => False

/-- `interp'` is `interp` with E and B of the wanted modes set to zero in the rows `R`, and nothing else changed. -/
def ZeroedIn (R : ℕ → Prop) (modes : ModeArg) (interp interp' : List Grid) : Prop :=
  interp'.length = interp.length ∧ ∀ i g g', interp[i]? = some g → interp'[i]? = some g' →
    g'.usePml = g.usePml ∧ ∀ a iz ir,
      ((R iz ∧ wanted modes i ∧ isEB g.usePml a) → g'.arr a iz ir = 0) ∧
      (¬ (R iz ∧ wanted modes i ∧ isEB g.usePml a) → g'.arr a iz ir = g.arr a iz ir)

/-- The property: the rows whose cell centre is between the two faces of the mirror. -/
def Between (zs ze zmin dz : ℝ) (iz : ℕ) : Prop :=
  zs ≤ zmin + (iz + 1 / 2) * dz ∧ zmin + (iz + 1 / 2) * dz < ze

/-- What the code does: the rows of the slab of `n` cells on the left of `zs`: the right edge of the cell is not beyond `zs` and
less than `n` cells before it. -/
def Before (zs : ℝ) (n : ℤ) (zmin dz : ℝ) (iz : ℕ) : Prop :=
  zs - n * dz < zmin + (iz + 1) * dz ∧ zmin + (iz + 1) * dz ≤ zs

end Fbpic.Spec
