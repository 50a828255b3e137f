import Verif.Model.Pic

/-!
# What a run depends on

The state of a simulation has more arrays than what is written to a checkpoint. The definitions say when two
states agree on what is stored, and when they agree on everything that a user can see.
-/

namespace Fbpic.Spec

open Pic

/-- The same macroparticle, except that the fields on it need only agree if `p` holds. -/
structure SamePtcl (p : Prop) (a b : Ptcl) : Prop where
  push : b.push = a.push
  w : b.w = a.w
  F : p → b.F = a.F

/-- The same species with the same macroparticles, one by one. The fields on the particles of a charged species
agree if `p` holds. -/
structure SameSpecies' (p : Prop) (a b : Pic.Species) : Prop where
  q : b.q = a.q
  m : b.m = a.m
  shape : b.shape = a.shape
  tracer : b.isTracer = a.isTracer
  ionizable : b.ionizable = a.ionizable
  plane : b.plane = a.plane
  ptcl : List.Forall₂ (SamePtcl (p ∧ a.q ≠ 0)) a.ptcl b.ptcl

/-- The states agree on what a checkpoint holds: position of the grid, time, iteration, particles, and the
fields E and B on the interpolation grids. The spectral grids have the same sizes and wavenumbers, and nothing
is said about their values, about J and rho, nor about the fields on the particles. -/
structure SameStored (c : Cfg) (s s' : Sim) : Prop where
  zmin : s'.zmin = s.zmin
  zmax : s'.zmax = s.zmax
  time : s'.time = s.time
  iteration : s'.iteration = s.iteration
  species : List.Forall₂ (SameSpecies' False) s.species s'.species
  E : ∀ m < c.Nm, (s'.interp m).E = (s.interp m).E
  B : ∀ m < c.Nm, (s'.interp m).B = (s.interp m).B
  Nz : ∀ m < c.Nm, (s.spect m).Nz = c.Nz ∧ (s'.spect m).Nz = c.Nz
  Nr : ∀ m < c.Nm, (s.spect m).Nr = c.Nr ∧ (s'.spect m).Nr = c.Nr
  kz : ∀ m < c.Nm, (s'.spect m).kz = (s.spect m).kz
  kr : ∀ m < c.Nm, (s'.spect m).kr = (s.spect m).kr

/-- The states agree on everything that can be seen after a call of `step`: also on J, on rho, and on the fields
on the charged particles. -/
structure SameSeen (c : Cfg) (s s' : Sim) : Prop extends SameStored c s s' where
  ptcl : List.Forall₂ (SameSpecies' True) s.species s'.species
  J : ∀ m < c.Nm, (s'.interp m).J = (s.interp m).J
  rho : ∀ m < c.Nm, (s'.interp m).rho = (s.interp m).rho

/-- Both calls fail, or both succeed and the results agree. -/
def SameResult (c : Cfg) (r r' : Except PyErr Sim) : Prop :=
  (∀ t, r = .ok t → ∃ t', r' = .ok t' ∧ SameSeen c t t') ∧ (∀ t', r' = .ok t' → ∃ t, r = .ok t ∧ SameSeen c t t')

/-- The options of the iterations of several calls of `step`, one by one. -/
def perIteration (L : List (ℕ × Opts)) : List Opts := L.flatMap fun x => List.replicate x.1 x.2

end Fbpic.Spec
