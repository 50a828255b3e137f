import Verif.Spec.PicOpen
import Verif.Spec.PicSplit

/-!
# What a run with open boundaries depends on (C109)
-/

namespace Fbpic.Spec

open Pic

/-- The states agree on what defines a simulation with open boundaries between two calls: position of the grid and of
the window, injectors, antennas, time, particles, and the fields E and B on the interpolation grids. -/
structure SameOpen (c : OCfg) (S S' : OSim) : Prop where
  stored : SameStored c.base S.sim S'.sim
  zminG : S'.zminG = S.zminG
  win : S'.win = S.win
  inj : S'.inj = S.inj
  ants : S'.ants = S.ants

/-- The states agree on everything that can be seen after a call of `step`. -/
structure SeenOpen (c : OCfg) (S S' : OSim) : Prop extends SameOpen c S S' where
  seen : SameSeen c.base S.sim S'.sim

/-- Both runs fail, or both succeed and the results agree. -/
def OpenResult (c : OCfg) (r r' : Except PyErr OSim) : Prop :=
  (∀ T, r = .ok T → ∃ T', r' = .ok T' ∧ SeenOpen c T T') ∧ (∀ T', r' = .ok T' → ∃ T, r = .ok T ∧ SeenOpen c T T')

/-- The fields vanish in the rows of the grid where they are damped. -/
def Undamped (c : OCfg) (S : OSim) : Prop := ∀ m < c.base.Nm, ∀ iz < c.base.Nz,
  openDamping c.comm 0 c.base.Nz iz = 1 ∨ ∀ ir,
    (S.sim.interp m).E.r iz ir = 0 ∧ (S.sim.interp m).E.t iz ir = 0 ∧ (S.sim.interp m).E.z iz ir = 0 ∧
    (S.sim.interp m).B.r iz ir = 0 ∧ (S.sim.interp m).B.t iz ir = 0 ∧ (S.sim.interp m).B.z iz ir = 0

end Fbpic.Spec
