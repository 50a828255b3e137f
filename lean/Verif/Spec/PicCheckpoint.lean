import Verif.Model.PicCheckpoint
import Verif.Spec.PicSplit
import Verif.Spec.PicReal
import Verif.Spec.PicGauss

/-!
# Specification: crashes and restarts
-/

namespace Fbpic.Spec

open Pic Step
open Checkpoint (File)

/-- The first `j` iterations of the calls. -/
def cut (j : ℕ) : List (ℕ × Opts) → List (ℕ × Opts)
  | [] => []
  | (n, o) :: L => if j ≤ n then [(j, o)] else (n, o) :: cut (j - n) L

section
variable (c : Cfg)

/-- What lies outside of the `Nz x Nr` values of the arrays E and B, which has no meaning, is the same. -/
def SameOutside (s b : Sim) : Prop :=
  ∀ m < c.Nm, ∀ iz ir, ¬ (iz < c.Nz ∧ ir < c.Nr) →
    (b.interp m).E.r iz ir = (s.interp m).E.r iz ir ∧ (b.interp m).E.t iz ir = (s.interp m).E.t iz ir ∧
    (b.interp m).E.z iz ir = (s.interp m).E.z iz ir ∧ (b.interp m).B.r iz ir = (s.interp m).B.r iz ir ∧
    (b.interp m).B.t iz ir = (s.interp m).B.t iz ir ∧ (b.interp m).B.z iz ir = (s.interp m).B.z iz ir

/-- A simulation that has just been set up. The time is `iteration*dt`, the grid has `Nz` cells, `inv_gamma` belongs to
the momenta, the masses are not negative, only the ionizable species have ionization levels; the wavenumbers and the
transforms are those of C92. -/
structure Prepared (s : Sim) : Prop where
  modes : 0 < c.Nm
  trans : ∀ m < c.Nm, TransOk m (c.trans m)
  Nz : ∀ m < c.Nm, (s.spect m).Nz = c.Nz
  Nr : ∀ m < c.Nm, (s.spect m).Nr = c.Nr
  kr : ∀ m < c.Nm, m ≠ 0 → 0 < c.Nr → (s.spect m).kr 0 = 0
  time : s.time = s.iteration * c.dt
  box : s.zmax = s.zmin + c.Nz * (1 / c.invdz)
  mass : ∀ sp ∈ s.species, 0 ≤ sp.m
  momenta : ∀ sp ∈ s.species, ∀ p ∈ sp.ptcl, p.push.mom.ok
  levels : ∀ sp ∈ s.species, sp.ionizable = false → ∀ p ∈ sp.ptcl, p.push.level = 0

/-- The same, and the conditions of C97 under which the fields of mode 0 stay real. -/
structure Fresh [NeZero c.Nz] (s : Sim) : Prop extends Prepared c s where
  solver : RealSolver c s
  blank : BlankSpect s
  real : Mode0Real c s

/-- `b` is set up by the same script as `s`: same grid and same species. Nothing is said about its particles, its
fields, its time, nor about where its grid is. -/
structure SetUpLike (s b : Sim) : Prop where
  outside : SameOutside c s b
  length : Checkpoint.allclose (b.zmax - b.zmin) (c.Nz * (1 / c.invdz))
  Nz : ∀ m < c.Nm, (b.spect m).Nz = c.Nz
  Nr : ∀ m < c.Nm, (b.spect m).Nr = c.Nr
  kz : ∀ m < c.Nm, (b.spect m).kz = (s.spect m).kz
  kr : ∀ m < c.Nm, (b.spect m).kr = (s.spect m).kr
  species : List.Forall₂ (fun a b : Pic.Species => { b with ptcl := a.ptcl } = a) s.species b.species

variable [NeZero c.Nz] (k : Checkpoint.Consts) (period : ℕ)

/-- The directory after a crash: between two iterations (or when an exception was raised), or while the checkpoint of
an iteration was written. -/
inductive Crash (a : Sim) (P : List (ℕ × Opts)) (D : List File) : List File → Prop
  | between (j : ℕ) : Crash a P D (c.callsSaving k period (cut j P) a D).2
  | during (j : ℕ) (v : Sim) (st : Stage) (hj : j < (perIteration P).length) (hv : c.calls (cut (j + 1) P) a = .ok v)
      (hp : v.iteration % period = 0) : Crash a P D (tear st (c.file k v) (c.callsSaving k period (cut j P) a D).2)

/-- Any number of crashes and restarts of the run that makes the calls `L` from the state `s`: the program is at the
state `a`, the calls `P` are still to be made, the checkpoints `D` are in the directory. After each crash, a simulation
that is set up by the same script is filled from the last checkpoint, or from one that the user requests, and makes the
remaining iterations. -/
inductive RunHistory (L : List (ℕ × Opts)) (s : Sim) : Sim → List (ℕ × Opts) → List File → Prop
  | start : RunHistory L s s L []
  | restart {a b a' : Sim} {P P' : List (ℕ × Opts)} {D D' : List File} {request : Option ℕ} (h : RunHistory L s a P D)
      (crash : Crash c k period a P D D') (setup : SetUpLike c s b)
      (req : request = none ∨ ∃ f ∈ D', request = some f.iteration)
      (ok : c.restartFrom k D' request b = .ok a')
      (rest : perIteration P' = (perIteration L).drop (a'.iteration - s.iteration)) : RunHistory L s a' P' D'

end

end Fbpic.Spec
