import Verif.Spec.PicOpenTotal
import Verif.Spec.PicPlasma

/-!
# Plasma at rest without fields (C111)
-/

namespace Fbpic.Spec

open Pic Transform ExternalField Step

/-- The field that is zero everywhere. -/
def noField : GridVec := ⟨fun _ _ => 0, fun _ _ => 0, fun _ _ => 0⟩

/-- There are no fields on the grid. -/
def NoFields (c : OCfg) (S : OSim) : Prop :=
  ∀ m < c.base.Nm, OnGrid c.base (S.sim.interp m).E noField ∧ OnGrid c.base (S.sim.interp m).B noField

/-- A particle at rest. -/
structure Motionless (e : ElecMom) : Prop where
  x : e.ux = 0
  y : e.uy = 0
  z : e.uz = 0

/-- All particles are at rest. -/
def AllAtRest (s : Sim) : Prop := ∀ sp ∈ s.species, ∀ p ∈ sp.ptcl, Motionless p.push.mom

/-- Nothing drives the plasma: the grid does not move with the Galilean frame, there are no external fields and no
antennas, and the injected plasma is at rest; the fields are advanced with the currents alone (neither `use_true_rho` nor
`correct_divE`). There are no fields at the beginning, and all particles are at rest. What the charge density is does not
matter: the particles may be electrons without ions. -/
structure Undisturbed (c : OCfg) (L : List (ℕ × Opts)) (S : OSim) : Prop where
  frame : c.base.V = none
  ext : c.base.ext = []
  ants : S.ants = []
  fill : ∀ id t n x, Motionless (c.fill id t n x).2.1
  opts : ∀ x ∈ L, x.2.useTrueRho = false ∧ x.2.correctDivE = false
  fields : NoFields c S
  ptcl : AllAtRest S.sim

/-- The particle has not changed, except for the fields that were last interpolated to it. -/
structure Stands (p p' : Ptcl) : Prop where
  x : p'.push.x = p.push.x
  y : p'.push.y = p.push.y
  z : p'.push.z = p.push.z
  w : p'.w = p.w
  level : p'.push.level = p.push.level
  mom : Motionless p'.push.mom

/-- Every particle stands where a particle of the same species stood at the beginning, or where one was injected in one
of the iterations `l`. -/
def OldOrNew (c : OCfg) (l : List (ℕ × OSim)) (S T : OSim) : Prop :=
  ∀ (id : ℕ) (sp' : Pic.Species), T.sim.species[id]? = some sp' → ∀ p' ∈ sp'.ptcl,
    (∃ sp, S.sim.species[id]? = some sp ∧ ∃ p ∈ sp.ptcl, Stands p p') ∨
      ∃ y ∈ l, Exchanges c y ∧ ∃ x ∈ injected c y.2 id, NewOf x p'

/-- All particles are in the box: in the periodic box, or between the guard cells. -/
def InTheBox (c : OCfg) (s : Sim) : Prop := ∀ sp ∈ s.species, ∀ p ∈ sp.ptcl,
  (c.comm.nGuard = 0 → s.zmin ≤ p.push.z ∧ p.push.z < s.zmax) ∧
  (c.comm.nGuard ≠ 0 → s.zmin + c.comm.nGuard * c.dz ≤ p.push.z ∧ p.push.z ≤ s.zmax - c.comm.nGuard * c.dz)

end Fbpic.Spec
