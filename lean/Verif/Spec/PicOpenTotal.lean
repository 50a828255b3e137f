import Verif.Spec.PicOpen
import Verif.Spec.Pic

/-!
# Simulations with open boundaries that cannot go wrong (C95)
-/

namespace Fbpic.Spec

open Pic Transform ExternalField Step

/-- All virtual particles of an antenna are in one plane, which is not faster than light. -/
structure PlaneAntenna (light : ℝ) (a : Antenna.Ant) : Prop where
  some : a.parts ≠ []
  plane : ∃ z v : ℝ, |v| ≤ light ∧ ∀ p ∈ a.parts, p.z = z ∧ p.vz = v

/-- A continuous injection that has not begun: the spacing between the particles is known, and not more than the
length of the physical domain; the plasma is not faster than the window; and if there is plasma already, then it reaches
into the box (without the guard cells). -/
structure FreshInjector (c : OCfg) (S : OSim) (w : MovWin ℝ) (sp : Pic.Species) (i : Injector ℝ) : Prop where
  new : i.pos = none
  spacing : ∃ d, i.dzp = some d ∧ 0 < d ∧ d ≤ c.comm.NzGlobal * c.dz
  speed : |i.vEnd| ≤ c.base.k.c
  slower : i.vEnd ≤ w.v
  reaches : sp.ptcl = [] ∨ ∃ p ∈ sp.ptcl, S.zminG - (c.comm.nzDamp + c.comm.nInject) * c.dz ≤ p.push.z

/-- A configuration, a list of calls and an initial state for which a run with open boundaries cannot go wrong. The
period of the exchange is so short that no particle crosses more than `n_guard/2 - 3` cells relative to the grid within
a period, as the code chooses it (see `C54_guard_partial`). Where the particles are is not restricted. -/
structure Sensible (c : OCfg) (L : List (ℕ × Opts)) (S : OSim) : Prop where
  one : OneProcess c
  healthy : Healthy c S
  dt : 0 < c.base.dt
  invdz : c.base.invdz * c.dz = 1
  invdr : 0 < c.base.invdr
  Nr : 2 ≤ c.base.Nr
  beta : ∀ sh k, (c.base.beta sh k).length = c.base.Nr + 1
  period : 1 ≤ c.comm.exchangePeriod
  guard : (c.comm.exchangePeriod : ℝ) * (2 * (c.base.k.c * c.base.dt)) ≤ ((c.comm.nGuard : ℝ) / 2 - 3) * c.dz
  opts : ∀ x ∈ L, x.2.correctDivE = true → c.base.correction = .curlFree
  frame : |frameVelocity c.base| ≤ c.base.k.c
  plane : ∀ sp ∈ S.sim.species, sp.plane ≠ none → sp.ionizable = false
  ants : ∀ a ∈ S.ants, PlaneAntenna c.base.k.c a
  window : ∀ w, S.win = some w → |w.v| ≤ c.base.k.c ∧ w.tLast = S.sim.time - c.base.dt ∧ |w.zmin - S.zminG| < c.dz
  inj : ∀ w, S.win = some w → ∀ (id : ℕ) sp i, S.sim.species[id]? = some sp → S.inj.getD id none = some i →
    FreshInjector c S w sp i

/-- Everything that carries charge is between the ends of the grid. -/
structure Inside (S : OSim) : Prop where
  ptcl : ∀ sp ∈ S.sim.species, ∀ p ∈ sp.ptcl, S.sim.zmin ≤ p.push.z ∧ p.push.z ≤ S.sim.zmax
  ants : ∀ a ∈ S.ants, a.onRank = true → ∀ p ∈ a.parts, S.sim.zmin ≤ p.z ∧ p.z ≤ S.sim.zmax

end Fbpic.Spec
