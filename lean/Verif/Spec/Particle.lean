import Mathlib.Algebra.Field.Defs
import Mathlib.Order.Defs.LinearOrder
import Mathlib.Data.Nat.Notation

/-!
# Specification: macroparticles

A macroparticle with all its attributes, independent of how the code stores them.
-/

namespace Spec

/-- A macroparticle. `id`, `level`, `wl` (weight times level) are only meaningful for tracked /
ionizable species. -/
structure Ptcl (K : Type) where
  x : K
  y : K
  z : K
  ux : K
  uy : K
  uz : K
  invGamma : K
  w : K
  id : ℕ
  level : ℕ
  wl : K
  deriving DecidableEq

variable {K : Type} [Field K] [LinearOrder K]

/-- The particle translated along z. -/
def Ptcl.shift (s : K) (p : Ptcl K) : Ptcl K := { p with z := p.z + s }

/-- The particle without its integer attributes. -/
def Ptcl.noInts (p : Ptcl K) : Ptcl K := { p with id := 0, level := 0 }

/-- What has to happen at the ends of the global domain `[lo, hi]` to a particle held by the first
(`isFirst`) and/or last (`isLast`) rank: periodic boundaries translate a particle that left by one
box length `L`, open boundaries remove it. -/
def Ptcl.settle (periodic isFirst isLast : Bool) (lo hi L : K) (p : Ptcl K) : Option (Ptcl K) :=
  if isFirst ∧ p.z < lo then if periodic then some (p.shift L) else none
  else if isLast ∧ hi < p.z then if periodic then some (p.shift (-L)) else none
  else some p

end Spec
