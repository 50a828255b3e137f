import Verif.Model.PicGpu
import Verif.Spec.Pic

/-! # Specification: the same simulation on the CPU and on the GPU -/

namespace Fbpic.Spec

open Pic.Gpu

/-- The species on the GPU has the attributes of the one on the CPU, and the same macroparticles (position,
momentum, level and weight), possibly in another order. -/
structure SameSpeciesOnGpu (a : Pic.Species) (b : GSpecies) : Prop where
  q : b.sp.q = a.q
  m : b.sp.m = a.m
  shape : b.sp.shape = a.shape
  tracer : b.sp.isTracer = a.isTracer
  ionizable : b.sp.ionizable = a.ionizable
  plane : b.sp.plane = a.plane
  ptcl : (b.sp.ptcl.map fun p => (p.push, p.w)).Perm (a.ptcl.map fun p => (p.push, p.w))

/-- The state on the GPU shows the same simulation as the one on the CPU: the same box, time and iteration, the
same fields in real and in spectral space (to the last bit of a real number: nothing is rounded here), the same
macroparticles. -/
structure SameOnGpu (s : Pic.Sim) (g : GSim) : Prop where
  zmin : g.zmin = s.zmin
  zmax : g.zmax = s.zmax
  time : g.time = s.time
  iteration : g.iteration = s.iteration
  interp : g.interp = s.interp
  spect : g.spect = s.spect
  species : List.Forall₂ SameSpeciesOnGpu s.species g.species

/-- At the time when the diagnostics are written, the fields on the charged macroparticles are those of the CPU
too: the lists of macroparticles, each with the fields on it, are the same up to the order. -/
def SameAtDiagnostics (s : Pic.Sim) (g : GSim) : Prop :=
  SameOnGpu s g ∧ List.Forall₂ (fun a b => a.q ≠ 0 → b.sp.ptcl.Perm a.ptcl) s.species g.species

/-- The grid: at least two cells in each direction, cells of positive size that fill the box, the Ruyten
coefficients of a mode are those of mode 0 or those of mode 1. -/
structure UsualGrid (c : Pic.Cfg) (s : Pic.Sim) : Prop where
  Nz : 2 ≤ c.Nz
  Nr : 2 ≤ c.Nr
  invdz : 0 < c.invdz
  invdr : 0 < c.invdr
  threads : 0 < c.nthreads
  beta : ∀ sh m, (c.beta sh m).length = c.Nr + 1
  modes : ∀ sh m, 1 ≤ m → c.beta sh m = c.beta sh 1
  box : (s.zmax - s.zmin) * c.invdz = c.Nz

/-- The Galilean frame is not used with frozen particles. -/
def NoFrozenGalilean (c : Pic.Cfg) (L : List (ℕ × Step.Opts)) : Prop :=
  c.galilean = true → ∀ a ∈ L, a.2.movePositions = true

/-- A simulation on the GPU before its first step: no species was sorted yet (particles.py:219, 242). -/
def Unsorted (g : GSim) : Prop := ∀ a ∈ g.species, a.sorted = false

end Fbpic.Spec
