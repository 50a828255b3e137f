import Verif.Model.Prelude
import Mathlib.Algebra.Order.Field.Basic
import Mathlib.Algebra.Order.Floor.Defs

/-!
# Sorting of the particles per cell on the GPU

`particles/utilities/cuda_sorting.py`, `Particles.sort_particles` and
`Particles.rearrange_particle_arrays` of `particles/particles.py`.

A kernel launch is the execution of its threads one after the other in an arbitrary order: the list
`threads` of thread indices. The arrays are functions of the index; entries beyond the shape are
never read. `thrust.argsort` is external: its documented result is the relation `ArgSorted`.
-/

namespace Fbpic.Sorting

/-! ### Cell index -/

section
variable {K : Type} [Field K] [LinearOrder K] [FloorRing K]

/-- The cell index of a particle at radius `r`, position `z`
(cuda_sorting.py:56-85, `r = sqrt(x**2 + y**2)`). -/
def cellIdx (r z invdz zmin : K) (Nz : ℕ) (invdr rmin : K) (Nr : ℕ) : ℤ :=
  let rCell := invdr * (r - rmin) - 1 / 2
  let zCell := invdz * (z - zmin) - 1 / 2
  let irUpper : ℤ := ⌈rCell⌉
  let izUpper : ℤ := ⌈zCell⌉
  let irUpper := if irUpper > Nr then (Nr : ℤ) else irUpper
  let izUpper := if izUpper < 0 then izUpper + Nz
    else if izUpper > (Nz : ℤ) - 1 then izUpper - Nz else izUpper
  irUpper + izUpper * (Nr + 1)

end

/-! ### Sorting -/

/-- Result of `thrust.argsort`: `idx` is a permutation of `0 … n-1` and `keys'` are the keys in this
order, sorted (cuda_sorting.py:105-116). -/
structure ArgSorted (n : ℕ) (keys keys' : ℕ → ℕ) (idx : ℕ → ℕ) : Prop where
  perm : (List.map idx (List.range n)).Perm (List.range n)
  keys_eq : ∀ i, i < n → keys' i = keys (idx i)
  sorted : ∀ i j, i ≤ j → j < n → keys' i ≤ keys' j

/-! ### Prefix sum -/

/-- `A[i] = v`. -/
def setEntry (A : ℕ → ℕ) (i v : ℕ) : ℕ → ℕ := fun j => if j = i then v else A j

/-- Thread `i` of `prefill_prefix_sum` (cuda_sorting.py:176-190); `len` is
`prefix_sum.shape[0]`. -/
def prefillThread (keys : ℕ → ℕ) (n len i : ℕ) (P : ℕ → ℕ) : ℕ → ℕ :=
  if i < len then
    if 0 < n then
      if i < keys 0 then setEntry P i 0
      else if keys (n - 1) ≤ i then setEntry P i n
      else P
    else setEntry P i 0
  else P

/-- `prefill_prefix_sum`. -/
def prefill (keys : ℕ → ℕ) (n len : ℕ) (threads : List ℕ) (P : ℕ → ℕ) : ℕ → ℕ :=
  threads.foldl (fun P i => prefillThread keys n len i P) P

/-- The loop `while ci < ci_next` (cuda_sorting.py:150-154). -/
def fillLoop (ci ciNext v : ℕ) (P : ℕ → ℕ) : ℕ → ℕ :=
  if ci < ciNext then fillLoop (ci + 1) ciNext v (setEntry P ci v) else P
termination_by ciNext - ci

/-- Thread `i` of `incl_prefix_sum` (cuda_sorting.py:141-154). `i < shape[0]-1` is a comparison of
integers: for an empty array no thread passes. -/
def inclThread (keys : ℕ → ℕ) (n i : ℕ) (P : ℕ → ℕ) : ℕ → ℕ :=
  if i + 1 < n then fillLoop (keys i) (keys (i + 1)) (i + 1) P else P

/-- `incl_prefix_sum`. -/
def incl (keys : ℕ → ℕ) (n : ℕ) (threads : List ℕ) (P : ℕ → ℕ) : ℕ → ℕ :=
  threads.foldl (fun P i => inclThread keys n i P) P

/-- The prefix sum computed by `sort_particles` from the sorted keys, starting from whatever is in
the array (particles.py:1083-1090). -/
def prefixSum (keys : ℕ → ℕ) (n len : ℕ) (threads1 threads2 : List ℕ) (P : ℕ → ℕ) : ℕ → ℕ :=
  incl keys n threads2 (prefill keys n len threads1 P)

/-! ### Rearranging the arrays -/

/-- The arrays in memory, and which of them each attribute and the sorting buffer refer to. -/
structure Store (α : Type) where
  mem : ℕ → ℕ → α
  attr : ℕ → ℕ
  buffer : ℕ

/-- `write_sorting_buffer` on `n` particles: array `dst` receives the rearranged `src`
(cuda_sorting.py:211-213). The threads write different entries and read another array, so that
their order does not matter; they are run in increasing order here. -/
def writeBuffer {α : Type} (idx : ℕ → ℕ) (n src dst : ℕ) (mem : ℕ → ℕ → α) : ℕ → ℕ → α :=
  (List.range n).foldl (fun mem i =>
    fun a j => if a = dst ∧ j = i then mem src (idx i) else mem a j) mem

/-- One round of the loop of `rearrange_particle_arrays` for attribute `a`
(particles.py:528-538, 545-555). -/
def rearrangeOne {α : Type} (idx : ℕ → ℕ) (n : ℕ) (s : Store α) (a : ℕ) : Store α :=
  let particleArray := s.attr a
  let mem := writeBuffer idx n particleArray s.buffer s.mem
  { mem := mem
    attr := fun b => if b = a then s.buffer else s.attr b
    buffer := particleArray }

/-- `rearrange_particle_arrays` for the attributes of one type (the integer attributes have their
own buffer) (particles.py:510-555). -/
def rearrange {α : Type} (idx : ℕ → ℕ) (n : ℕ) (attrs : List ℕ) (s : Store α) : Store α :=
  attrs.foldl (rearrangeOne idx n) s

end Fbpic.Sorting
