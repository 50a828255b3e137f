import Verif.Model.GpuExchange
import Verif.Spec.ParticleArrays

/-!
# Specification: particle exchange on the GPU

Reachable states of a species on the GPU, and what the exchange has to do at the ends of the global
domain.
-/

namespace Fbpic.GpuExchange
open Fbpic _root_.Spec

variable {K : Type} [Field K] [LinearOrder K] [FloorRing K]

/-- `argsort` does what `thrust.argsort` is documented to do. -/
def IsArgSort (argsort : ℕ → (ℕ → ℕ) → ℕ → ℕ) : Prop :=
  ∀ n keys, Sorting.ArgSorted n keys (fun i => keys (argsort n keys i)) (argsort n keys)

/-- The launches of device `d` have at least the threads `0 … n-1`, in any order and possibly with
more threads. -/
def Device.Covers (d : Device K) (n : ℕ) : Prop := ∀ i, i < n → i ∈ d.threads

/-- The grid moved by `n` cells. -/
def movedGrid (n : ℤ) (g : InterpGrid K) : InterpGrid K :=
  { g with zmin := g.zmin + (n : K) * g.dz, zmax := g.zmax + (n : K) * g.dz }

/-- States of a species (tracked or not, ionizable or not) that hold the particles `ps` while the
local grid is `g`: particles that were pushed or added are unsorted, whatever is left in the arrays
of the last sort; then they may be sorted (by the charge deposition, or by an earlier particle
diagnostic) and the window may move the grid, any number of times. -/
inductive Holds (rad : Radial K) (t i : Bool) :
    InterpGrid K → List (Ptcl K) → GpuSpecies K → Prop
  | unsorted (g ps st) (harr : st.arr = Species.ofList t i ps) (hs : st.sorted = false) :
      Holds rad t i g ps st
  | sort (g ps ps' st) (d : Device K) (h : Holds rad t i g ps st) (hd : IsArgSort d.argsort)
      (hth : d.Covers (ps.length + g.Nz * (rad.Nr + 1)))
      (harr : (sortParticles rad g d.argsort d.threads st).arr = Species.ofList t i ps') :
      Holds rad t i g ps' { sortParticles rad g d.argsort d.threads st with sorted := true }
  | move (g ps st) (n : ℤ) (h : Holds rad t i g ps st) :
      Holds rad t i (movedGrid n g) ps (moveWindow n st)

/-- By how many cells the window moved the grid since the particles were sorted. -/
def GpuSpecies.moved (st : GpuSpecies K) : ℤ := if st.sorted then st.shift else 0

/-- When it was (or will be) sorted, particle `p` was inside the local grid, and not in its last half
cell: its position in cells is more than `-1/2` and at most `Nz - 1/2`. -/
def InGrid (g : InterpGrid K) (st : GpuSpecies K) (p : Ptcl K) : Prop :=
  -(1 / 2) < (p.z - g.zmin) / g.dz + st.moved ∧ (p.z - g.zmin) / g.dz + st.moved ≤ (g.Nz : K) - 1 / 2

/-- As `Ptcl.settle`, with the ends of the global domain `[lo, hi]` extended by `h` on both sides:
particles at most `h` outside are left as they are. -/
def settleWithin (periodic isFirst isLast : Bool) (lo hi L h : K) (p : Ptcl K) : Option (Ptcl K) :=
  if isFirst ∧ p.z ≤ lo - h then if periodic then some (p.shift L) else none
  else if isLast ∧ hi + h < p.z then if periodic then some (p.shift (-L)) else none
  else some p

end Fbpic.GpuExchange
