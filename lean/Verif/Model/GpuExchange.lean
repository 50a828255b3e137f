import Verif.Model.ParticleExchange
import Verif.Model.Sorting

/-!
# Model of the particle exchange (GPU)
(`particles/particles.py`, `boundaries/particle_buffer_handling.py`,
`boundaries/boundary_communicator.py`)

On the GPU the particles to be removed are not found by comparing their positions with the edges of
the sub-domain, but from the prefix sum of the last sort.

A kernel launch is the execution of its threads one after the other in an arbitrary order (the list
`threads`, the same for all launches of one call). `cupy.empty` returns arbitrary content
(`junk`). `thrust.argsort` is an arbitrary function `argsort` (its specification is
`Sorting.ArgSorted`). The fields on the particles and the arrays that are only resized are not
modelled.
-/

namespace Fbpic.GpuExchange

/-- A species on the GPU: particle arrays, `prefix_sum`, `prefix_sum_shift`, `sorted`.
particles.py:228-241 -/
structure GpuSpecies (K : Type) where
  arr : Species K
  prefixSum : ℕ → ℕ
  shift : ℤ
  sorted : Bool

/-- What the kernels use besides the z position of the grid: `Nr`, `invdr`, `rmin`, and the radius
`sqrt(x**2 + y**2)` as a function of x, y. cuda_sorting.py:60-65 -/
structure Radial (K : Type) where
  Nr : ℕ
  invdr : K
  rmin : K
  radius : K → K → K

/-! ### Sorting -/

section
variable {α : Type}

/-- `write_sorting_buffer`: element `i` of the new array is element `idx i` of the old one
(cuda_sorting.py:211-213). The threads write different entries and read another array: run in
increasing order here. `idx i` is a valid index for every `i`; if it were not, the entry is
skipped. -/
def rearrangeArray (idx : ℕ → ℕ) (a : List α) : List α :=
  (List.range a.length).filterMap fun i => a[idx i]?

end

section
variable {K : Type} [Field K] [LinearOrder K] [FloorRing K]

/-- `cell_idx`: the cell index of every particle (cuda_sorting.py:56-85; particles.py:1071-1076).
The int32 array is modelled without overflow. -/
def cellIndices (rad : Radial K) (g : InterpGrid K) (s : Species K) : List ℤ :=
  ((s.x.zip s.y).zip s.z).map fun (xy, z) =>
    Sorting.cellIdx (rad.radius xy.1 xy.2) z (1 / g.dz) g.zmin g.Nz rad.invdr rad.rmin rad.Nr

/-- `rearrange_particle_arrays`. particles.py:510-555 -/
def rearrangeSpecies (idx : ℕ → ℕ) (s : Species K) : Species K :=
  { x := rearrangeArray idx s.x, y := rearrangeArray idx s.y, z := rearrangeArray idx s.z
    ux := rearrangeArray idx s.ux, uy := rearrangeArray idx s.uy, uz := rearrangeArray idx s.uz
    invGamma := rearrangeArray idx s.invGamma, w := rearrangeArray idx s.w
    id := s.id.map (rearrangeArray idx)
    ion := s.ion.map fun (l, wl) => (rearrangeArray idx l, rearrangeArray idx wl) }

/-- `sort_particles`. `prefix_sum` has `Nz*(Nr+1)` entries. particles.py:1063-1092.
The cell indices are non-negative for particles in the periodic neighbourhood of the box
(`C20_cell_range`). -/
def sortParticles (rad : Radial K) (g : InterpGrid K) (argsort : ℕ → (ℕ → ℕ) → ℕ → ℕ)
    (threads : List ℕ) (st : GpuSpecies K) : GpuSpecies K :=
  let keys := fun i => ((cellIndices rad g st.arr).getD i 0).toNat
  let n := st.arr.z.length
  let idx := argsort n keys
  { st with
    arr := rearrangeSpecies idx st.arr
    shift := 0
    prefixSum := Sorting.prefixSum (fun i => keys (idx i)) n (g.Nz * (rad.Nr + 1)) threads threads
      st.prefixSum }

/-- `species.prefix_sum_shift += n_move` when the moving window moves the grid.
moving_window.py:112-117 -/
def moveWindow (n : ℤ) (st : GpuSpecies K) : GpuSpecies K := { st with shift := st.shift + n }

end

/-! ### Splitting -/

section
variable {α : Type}

/-- `cupy.empty(n)`. -/
def emptyArray (junk : ℕ → α) (n : ℕ) : List α := (List.range n).map junk

/-- Thread `i` of `split_particles_to_buffers` on the three buffers `(left, stay, right)`
(particle_buffer_handling.py:592-612). A thread beyond the array does nothing. -/
def splitThread (a : List α) (iMin iMax : ℕ) (b : List α × List α × List α) (i : ℕ) :
    List α × List α × List α :=
  match a[i]? with
  | none => b
  | some v =>
    if i < iMin then
      if b.1.length ≠ 0 then (b.1.set i v, b.2.1, b.2.2) else b
    else if i < iMax then (b.1, b.2.1.set (i - iMin) v, b.2.2)
    else if b.2.2.length ≠ 0 then (b.1, b.2.1, b.2.2.set (i - iMax) v) else b

/-- One round of the loops over the attributes: allocation of the buffers and launch of the kernel
(particle_buffer_handling.py:260-274, 293-300). -/
def splitArray (junk : ℕ → α) (threads : List ℕ) (iMin iMax : ℕ) (a : List α) :
    List α × List α × List α :=
  threads.foldl (splitThread a iMin iMax)
    (emptyArray junk iMin, emptyArray junk (iMax - iMin), emptyArray junk (a.length - iMax))

/-- `copy_particles[...](n, source, 0, target, start)`: thread `i`
(particle_buffer_handling.py:634-638). -/
def copyThread (n : ℕ) (source : List α) (start : ℕ) (target : List α) (i : ℕ) : List α :=
  if i < n then
    match source[i]? with
    | none => target
    | some v => target.set (i + start) v
  else target

/-- Merging of one attribute (particle_buffer_handling.py:459-476, 489-506). -/
def mergeArray (junk : ℕ → α) (threads : List ℕ) (left own right : List α) : List α :=
  let nLeft := left.length
  let nOwn := own.length
  let nRight := right.length
  let a := emptyArray junk (nOwn + nLeft + nRight)
  let a := if nLeft ≠ 0 then threads.foldl (copyThread nLeft left 0) a else a
  let a := if nOwn ≠ 0 then threads.foldl (copyThread nOwn own nLeft) a else a
  if nRight ≠ 0 then threads.foldl (copyThread nRight right (nLeft + nOwn)) a else a

end

section
variable {K : Type}

/-- `prefix_sum[i]` for an array of `len` entries, with Python's negative indices. -/
def readPrefix (P : ℕ → ℕ) (len : ℕ) (i : ℤ) : Except PyErr ℕ :=
  if 0 ≤ i ∧ i < len then .ok (P i.toNat)
  else if i < 0 ∧ 0 ≤ i + len then .ok (P (i + len).toNat)
  else .error (.indexError "index out of bounds")

/-- `i_min`. particle_buffer_handling.py:224-230 -/
def lowerCut (P : ℕ → ℕ) (Nz Nr : ℕ) (izMin : ℤ) : Except PyErr ℕ :=
  if 0 ≤ izMin * ((Nr : ℤ) + 1) - 1 then readPrefix P (Nz * (Nr + 1)) (izMin * ((Nr : ℤ) + 1) - 1)
  else .ok 0

/-- `i_min`, `i_max`. particle_buffer_handling.py:212-231 -/
def splitIndices (Nz Nr nGuard : ℕ) (st : GpuSpecies K) : Except PyErr (ℕ × ℕ) := do
  let izMin : ℤ := max ((nGuard : ℤ) + st.shift) 0
  let izMax : ℤ := min ((Nz : ℤ) - nGuard + st.shift + 1) Nz
  let iMin ← lowerCut st.prefixSum Nz Nr izMin
  let iMax ← readPrefix st.prefixSum (Nz * (Nr + 1)) (izMax * ((Nr : ℤ) + 1) - 1)
  .ok (iMin, iMax)

/-- The three parts of all attributes: `(left, stay, right)` as species. -/
def splitSpecies (junk : ℕ → K) (junkI : ℕ → ℕ) (threads : List ℕ) (iMin iMax : ℕ)
    (part : ∀ {α : Type}, List α × List α × List α → List α) (s : Species K) : Species K :=
  let f := fun a => part (splitArray junk threads iMin iMax a)
  let g := fun a => part (splitArray junkI threads iMin iMax a)
  { x := f s.x, y := f s.y, z := f s.z, ux := f s.ux, uy := f s.uy, uz := f s.uz
    invGamma := f s.invGamma, w := f s.w, id := s.id.map g
    ion := s.ion.map fun (l, wl) => (g l, f wl) }

/-- The rows of a sending buffer (both integer buffers have dtype uint64 here).
particle_buffer_handling.py:240-254, 275-283, 301-308 -/
def toBuffer (s : Species K) : PBuf K :=
  { floats := [s.x, s.y, s.z, s.ux, s.uy, s.uz, s.invGamma, s.w] ++
      (match s.ion with | some (_, wl) => [wl] | none => [])
    words := (match s.id with | some i => [i] | none => []) ++
      (match s.ion with | some (l, _) => [l] | none => []) }

/-- `add_buffers_gpu`. particle_buffer_handling.py:423-510; `species.sorted = False`: 375-377 -/
def addBuffersGpu (junk : ℕ → K) (junkI : ℕ → ℕ) (threads : List ℕ) (s : Species K)
    (bl br : PBuf K) : Species K :=
  let f := fun (i : ℕ) (own : List K) =>
    mergeArray junk threads (bl.floats.getD i []) own (br.floats.getD i [])
  let g := fun (i : ℕ) (own : List ℕ) =>
    mergeArray junkI threads (bl.words.getD i []) own (br.words.getD i [])
  { x := f 0 s.x, y := f 1 s.y, z := f 2 s.z, ux := f 3 s.ux, uy := f 4 s.uy, uz := f 5 s.uz
    invGamma := f 6 s.invGamma, w := f 7 s.w
    id := s.id.map (g 0)
    ion := s.ion.map fun (l, wl) => (g (if s.id.isSome then 1 else 0) l, f 8 wl) }

end

section
variable {K : Type} [Field K] [LinearOrder K] [FloorRing K]

/-- The environment of a GPU call: order of the threads, uninitialised memory, argsort. -/
structure Device (K : Type) where
  threads : List ℕ
  junk : ℕ → K
  junkI : ℕ → ℕ
  argsort : ℕ → (ℕ → ℕ) → ℕ → ℕ

/-- `remove_particles_gpu`: `(send_left, send_right, species)`.
particle_buffer_handling.py:178-315 -/
def removeParticlesGpu (d : Device K) (rad : Radial K) (g : InterpGrid K) (nGuard : ℕ)
    (left right : Option ℤ) (st : GpuSpecies K) : Except PyErr (PBuf K × PBuf K × GpuSpecies K) :=
  let st := if st.sorted = false then
    { sortParticles rad g d.argsort d.threads st with sorted := true } else st
  match splitIndices g.Nz rad.Nr nGuard st with
  | .error e => .error e
  | .ok (iMin, iMax) =>
    let parts := fun (part : ∀ {α : Type}, List α × List α × List α → List α) =>
      splitSpecies d.junk d.junkI d.threads iMin iMax part st.arr
    .ok (if left.isSome then toBuffer (parts (·.1)) else emptyBuffer st.arr,
      if right.isSome then toBuffer (parts (·.2.2)) else emptyBuffer st.arr,
      { st with arr := parts (·.2.1) })

/-- `exchange_particles_aperiodic_subdomain` on all ranks, on the GPU; an error on any rank is the
outcome for all (the others wait). boundary_communicator.py:750-826 -/
def exchangeGpu (c : Comm) (dz : K) (grid : ℕ → InterpGrid K) (rad : Radial K) (d : ℕ → Device K)
    (injected : Option (PBuf K)) (sp : ℕ → GpuSpecies K) (r : ℕ) : Except PyErr (GpuSpecies K) :=
  let rem := fun q => removeParticlesGpu (d q) rad (grid q) c.nGuard (c.leftProc q) (c.rightProc q)
    (sp q)
  match (List.range c.size).mapM rem with
  | .error e => .error e
  | .ok out =>
    let dflt := (emptyBuffer (sp r).arr, emptyBuffer (sp r).arr, sp r)
    let recv := c.exchangeDomains (fun q => (out.getD q dflt).1) (fun q => (out.getD q dflt).2.1) r
    let recvLeft := recv.1.getD (emptyBuffer (sp r).arr)
    let recvRight := recv.2.getD (emptyBuffer (sp r).arr)
    let recvRight := if r + 1 = c.size then injected.getD recvRight else recvRight
    let L := (c.NzGlobal : K) * dz
    let recvRight := if c.rightProc r = some 0 then shiftZ L recvRight else recvRight
    let recvLeft :=
      if c.leftProc r = some ((c.size : ℤ) - 1) then shiftZ (-L) recvLeft else recvLeft
    let own := (out.getD r dflt).2.2
    .ok { own with
      arr := addBuffersGpu (d r).junk (d r).junkI (d r).threads own.arr recvLeft recvRight
      sorted := false }

end
end Fbpic.GpuExchange
