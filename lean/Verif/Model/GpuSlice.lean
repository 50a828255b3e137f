import Verif.Model.GpuExchange
import Verif.Model.BackTransform

/-!
# Model of the extraction of particles near the output plane (CPU and GPU)
(`openpmd_diag/boosted_particle_diag.py`, `openpmd_diag/cuda_methods.py`)

On the GPU only the particles in the cells around the output plane are copied to the host; they are
found from the prefix sum of the last sort. Threads, uninitialised memory and argsort are as in
`Verif/Model/GpuExchange.lean`.
-/

namespace Fbpic.GpuSlice
open GpuExchange BackTransform

/-- The dictionary `particle_data`. boosted_particle_diag.py:658-668, cuda_methods.py:54-62 -/
structure PData (K : Type) where
  x : List K
  y : List K
  z : List K
  ux : List K
  uy : List K
  uz : List K
  w : List K
  invGamma : List K
  charge : Option (List ℕ)
  id : Option (List ℕ)
  deriving DecidableEq

section
variable {α : Type}

/-- Thread `i` of `extract_array_from_gpu`, and of `extract_particles_from_gpu` for one row.
cuda_methods.py:92-103, 126-130 -/
def extractThread (a : List α) (start : ℕ) (selected : List α) (i : ℕ) : List α :=
  if i < selected.length then
    match a[start + i]? with
    | none => selected
    | some v => selected.set i v
  else selected

/-- Allocation of the array and launch of the kernel. cuda_methods.py:33-50 -/
def extractArray (junk : ℕ → α) (threads : List ℕ) (start n : ℕ) (a : List α) : List α :=
  threads.foldl (extractThread a start) (emptyArray junk n)

/-- `np.take(array, indices)`. -/
def npTake (idx : List ℕ) (a : List α) : List α := idx.filterMap fun j => a[j]?

end

section
variable {K : Type}

/-- `extract_slice_from_gpu`. For an ionizable species the weight is replaced by
`w_times_level`. cuda_methods.py:11-65 -/
def extractSliceFromGpu (d : Device K) (prefSumCurr nArea : ℕ) (s : Species K) : PData K :=
  let f := extractArray d.junk d.threads prefSumCurr nArea
  let g := extractArray d.junkI d.threads prefSumCurr nArea
  let pd : PData K :=
    { x := f s.x, y := f s.y, z := f s.z, ux := f s.ux, uy := f s.uy, uz := f s.uz, w := f s.w
      invGamma := f s.invGamma, charge := none, id := s.id.map g }
  match s.ion with
  | some (level, wl) => { pd with charge := some (g level), w := f wl }
  | none => pd

/-- `get_particle_data` on the CPU. boosted_particle_diag.py:656-668 -/
def getParticleDataCpu (s : Species K) : PData K :=
  { x := s.x, y := s.y, z := s.z, ux := s.ux, uy := s.uy, uz := s.uz, w := s.w
    invGamma := s.invGamma, charge := s.ion.map (·.1), id := s.id }

/-- The dictionary of empty arrays. boosted_particle_diag.py:712-720 -/
def emptyData (s : Species K) : PData K :=
  { x := [], y := [], z := [], ux := [], uy := [], uz := [], w := [], invGamma := []
    charge := s.ion.map fun _ => [], id := s.id.map fun _ => [] }

/-- `pref_sum_curr`, `pref_sum_prev` from the index of a cell along z.
boosted_particle_diag.py:689-704 -/
def prefSumAt (P : ℕ → ℕ) (Nz Nr nTot : ℕ) (zCell : ℤ) : Except PyErr ℕ :=
  if zCell ≤ 0 then .ok 0
  else if zCell > Nz then .ok nTot
  else readPrefix P (Nz * (Nr + 1)) (zCell * ((Nr : ℤ) + 1) - 1)

end

section
variable {K : Type} [Field K] [LinearOrder K] [FloorRing K]

/-- `get_particle_data` on the GPU; also returns the state of the species, which may have been
sorted. boosted_particle_diag.py:669-722 -/
def getParticleDataGpu (d : Device K) (rad : Radial K) (g : InterpGrid K) (b : Boost K)
    (dt cur prev : K) (st : GpuSpecies K) : Except PyErr (PData K × GpuSpecies K) :=
  let st := if st.sorted = false then
    { sortParticles rad g d.argsort d.threads st with sorted := true } else st
  let izCurr : ℤ := ⌈(cur - g.zmin - 1 / 2 * g.dz) / g.dz⌉
  let izPrev : ℤ := ⌈(prev - g.zmin - 1 / 2 * g.dz + dt * b.c) / g.dz⌉ + 1
  match prefSumAt st.prefixSum g.Nz rad.Nr st.arr.z.length (izCurr + st.shift),
    prefSumAt st.prefixSum g.Nz rad.Nr st.arr.z.length (izPrev + st.shift) with
  | .ok prefCurr, .ok prefPrev =>
    .ok (if prefCurr < prefPrev then extractSliceFromGpu d prefCurr (prefPrev - prefCurr) st.arr
      else emptyData st.arr, st)
  | .error e, _ => .error e
  | _, .error e => .error e

/-- `selected_indices`. boosted_particle_diag.py:749-766 -/
def selectedIndices (b : Boost K) (dt cur prev : K) (pd : PData K) : List ℕ :=
  (List.range pd.z.length).filter fun j =>
    let z := pd.z.getD j 0
    let prevZ := z - pd.uz.getD j 0 * pd.invGamma.getD j 0 * b.c * dt
    decide ((z ≥ cur ∧ prevZ ≤ prev) ∨ (z ≤ cur ∧ prevZ ≥ prev))

/-- `get_particle_slice`. boosted_particle_diag.py:746-772 -/
def getParticleSlice (b : Boost K) (dt cur prev : K) (pd : PData K) : PData K :=
  let sel := selectedIndices b dt cur prev pd
  { x := npTake sel pd.x, y := npTake sel pd.y, z := npTake sel pd.z, ux := npTake sel pd.ux
    uy := npTake sel pd.uy, uz := npTake sel pd.uz, w := npTake sel pd.w
    invGamma := npTake sel pd.invGamma, charge := pd.charge.map (npTake sel)
    id := pd.id.map (npTake sel) }

end
end Fbpic.GpuSlice
