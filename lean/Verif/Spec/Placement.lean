import Verif.Model.Placement

/-!
# Where the data of a simulation is (C113)
-/

namespace Fbpic.Spec

open Place

variable {A O : Type}

/-- A simulation on a GPU: it and all its species and fields use the GPU; no species is listed twice.
Nothing is said about where the arrays are. -/
structure OnGpuSim (s : GSim A O) : Prop where
  sim : s.useCuda = true
  fld : s.fld.obj.useCuda = true
  spc : ∀ i ∈ s.ptcl, (s.spc i).obj.useCuda = true
  nodup : s.ptcl.Nodup

/-- A species without GPU, with the same contents. -/
def cpuSpc (p : Spc A) : Spc A :=
  { p with obj := ⟨false, false, fun n => .cpu (p.obj.arr n).val⟩ }

/-- The same simulation without GPU: the same contents, all on the CPU, nothing uses the GPU. -/
def cpuTwin (s : GSim A O) : GSim A O where
  useCuda := false
  spc := fun i => cpuSpc (s.spc i)
  ptcl := s.ptcl
  fld := { s.fld with obj := ⟨false, false, fun k => .cpu (s.fld.obj.arr k).val⟩ }
  out := s.out

/-- A diagnostic of particles: its species are species of the simulation, none under two names. -/
def Act.Proper (ptcl : List ℕ) : Act A O → Prop
  | .partDiag ids _ => ids.Nodup ∧ ∀ i ∈ ids, i ∈ ptcl
  | _ => True

/-- All arrays of the simulation are on the CPU, and the flags say so. -/
def BackOnCpu (s : GSim A O) : Prop :=
  (∀ i ∈ s.ptcl, (s.spc i).At false ∧ (s.spc i).obj.onGpu = false) ∧
  s.fld.At false ∧ s.fld.obj.onGpu = false

/-- The flags are right: each species, and the fields, are where they say to be. -/
def FlagsRight (s : GSim A O) : Prop :=
  (∀ i ∈ s.ptcl, (s.spc i).At (s.spc i).obj.onGpu) ∧ s.fld.At s.fld.obj.onGpu

end Fbpic.Spec
