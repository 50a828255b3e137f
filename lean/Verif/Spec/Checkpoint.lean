import Verif.Model.Checkpoint

/-!
# Specification for C43, C44: what a restart has to restore
-/

namespace Fbpic.Spec

open Checkpoint

/-- Two states of a species hold the same particles. -/
structure SameParticles (a b : Species) : Prop where
  x : b.x = a.x
  y : b.y = a.y
  z : b.z = a.z
  ux : b.ux = a.ux
  uy : b.uy = a.uy
  uz : b.uz = a.uz
  w : b.w = a.w
  invGamma : b.invGamma = a.invGamma
  id : b.tracker.map (fun t => t.id) = a.tracker.map (fun t => t.id)
  /-- A continuous injection stays one, at a position to be set when the window is. -/
  inject : b.inject = a.inject.map fun _ => none
  level : b.ionizer.map (fun i => i.level) = a.ionizer.map (fun i => i.level)
  wTimesLevel : b.ionizer.map (fun i => i.wTimesLevel) = a.ionizer.map (fun i => i.wTimesLevel)

/-- `b` has the fields, particles, position, time and iteration of `a`. -/
structure SameState (a b : Sim) : Prop where
  iteration : b.iteration = a.iteration
  time : b.time = a.time
  zmin : ∀ m < a.Nm, b.zmin m = a.zmin m
  zmax : ∀ m < a.Nm, b.zmax m = a.zmax m
  /-- All arrays (those of the PML only if there is one). -/
  field : ∀ c, (c ∈ [Comp.ErPml, .EtPml, .BrPml, .BtPml] → a.usePml = true) → ∀ m < a.Nm, ∀ iz < a.Nz, ∀ ir < a.Nr,
    b.field c m iz ir = a.field c m iz ir
  count : b.ptcl.length = a.ptcl.length
  particles : ∀ i (h : i < a.ptcl.length) (h' : i < b.ptcl.length), SameParticles a.ptcl[i] b.ptcl[i]

/-- A state that the simulation can be in when a checkpoint is written: mode 0 is real, the grids of
all modes have the same bounds, the time is `iteration*dt` (C40), the Lorentz factors are those of the
momenta. -/
structure Consistent (a : Sim) : Prop where
  real : ∀ c iz ir, (a.field c 0 iz ir).im = 0
  zmin : ∀ m, a.zmin m = a.zmin 0
  zmax : ∀ m, a.zmax m = a.zmin 0 + a.Nz * a.dz
  time : a.time = a.iteration * a.dt
  modes : 0 < a.Nm
  gamma : ∀ s ∈ a.ptcl, s.invGamma = invGammas s.ux s.uy s.uz
  wlevel : ∀ s ∈ a.ptcl, ∀ i, s.ionizer = some i →
    i.wTimesLevel = List.zipWith (fun (w : ℝ) (l : ℕ) => w * l) s.w i.level

/-- `b` is set up like `a`: same grid size (up to the tolerance of the check), number of modes, PML
and species, as in a rerun of the same input script. Ids are allocated by the restart if they are in
the checkpoint; a species that is not tracked in `a` is not tracked in `b`. -/
structure SameSetup (a b : Sim) : Prop where
  Nm : b.Nm = a.Nm
  Nz : b.Nz = a.Nz
  Nr : b.Nr = a.Nr
  usePml : b.usePml = a.usePml
  length : ∀ m < a.Nm, allclose (b.zmax m - b.zmin m) (a.Nz * a.dz)
  count : b.ptcl.length = a.ptcl.length
  ionizable : ∀ i (h : i < a.ptcl.length) (h' : i < b.ptcl.length),
    b.ptcl[i].ionizer.isSome = a.ptcl[i].ionizer.isSome
  injecting : ∀ i (h : i < a.ptcl.length) (h' : i < b.ptcl.length),
    b.ptcl[i].inject.isSome = a.ptcl[i].inject.isSome
  tracked : ∀ i (h : i < a.ptcl.length) (h' : i < b.ptcl.length),
    a.ptcl[i].tracker = none → b.ptcl[i].tracker = none

/-- The checkpoint of `a` is the one requested. -/
def Requests (k : Consts) (a : Sim) (series : List File) (request : Option ℕ) : Prop :=
  (request = some a.iteration ∧ write k a ∈ series ∧ (series.map fun (f : File) => f.iteration).Nodup) ∨
    (request = none ∧ series.getLast? = some (write k a) ∧ (series.map fun (f : File) => f.iteration).Nodup)

end Fbpic.Spec
