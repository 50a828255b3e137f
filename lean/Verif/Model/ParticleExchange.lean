import Verif.Model.Exchange
import Verif.Model.Window
import Verif.Model.Float64

/-!
# Model of the particle exchange (CPU)
(`boundaries/boundary_communicator.py`, `boundaries/particle_buffer_handling.py`)

The particle arrays are kept as separate lists (structure of arrays), as in the code.
`Ex..Bz` and sorting arrays (reallocated, uninitialised) are not modelled.
-/

namespace Fbpic

/-- Boolean mask indexing `a[sel]`. -/
def mask {α : Type} (sel : List Bool) (a : List α) : List α :=
  ((a.zip sel).filter (·.2)).map (·.1)

/-- Particle arrays of one species on one rank. `id` is `tracker.id` (if `tracker` is not `None`),
`ion` is `(ionization_level, w_times_level)` (if `ionizer` is not `None`). -/
structure Species (K : Type) where
  x : List K
  y : List K
  z : List K
  ux : List K
  uy : List K
  uz : List K
  invGamma : List K
  w : List K
  id : Option (List ℕ)
  ion : Option (List ℕ × List K)
  deriving DecidableEq

/-- A pair of send (or receive) buffers: rows of floats, rows of 64-bit words. -/
structure PBuf (K : Type) where
  floats : List (List K)
  words : List (List ℕ)
  deriving DecidableEq

section
variable {K : Type}

/-- `n_float_quantities`, `n_integer_quantities`: 8 floats, one more with an ionizer; one integer
per tracker / ionizer. particles.py:210-214, 386-392, 488-496 -/
def Species.nFloat (s : Species K) : ℕ := 8 + (if s.ion.isSome then 1 else 0)

@[inherit_doc Species.nFloat]
def Species.nInt (s : Species K) : ℕ :=
  (if s.id.isSome then 1 else 0) + (if s.ion.isSome then 1 else 0)

/-- Filling of a send buffer with the selected particles; `conv` is the conversion to the dtype of
the integer buffer followed by reading the bits.
particle_buffer_handling.py:104-124 (left), 130-150 (right) -/
def fillBuffer (s : Species K) (sel : List Bool) (conv : ℕ → ℕ) : PBuf K :=
  { floats := [mask sel s.x, mask sel s.y, mask sel s.z, mask sel s.ux, mask sel s.uy,
               mask sel s.uz, mask sel s.invGamma, mask sel s.w] ++
      (match s.ion with | some (_, wl) => [mask sel wl] | none => [])
    words := (match s.id with | some i => [(mask sel i).map conv] | none => []) ++
      (match s.ion with | some (l, _) => [(mask sel l).map conv] | none => []) }

/-- `np.empty((n_float, 0))`, `np.empty((n_int, 0))`. -/
def emptyBuffer (s : Species K) : PBuf K :=
  { floats := List.replicate s.nFloat [], words := List.replicate s.nInt [] }

/-- Resizing of the particle arrays. particle_buffer_handling.py:155-172 -/
def keep (s : Species K) (sel : List Bool) : Species K :=
  { x := mask sel s.x, y := mask sel s.y, z := mask sel s.z, ux := mask sel s.ux
    uy := mask sel s.uy, uz := mask sel s.uz, invGamma := mask sel s.invGamma
    w := mask sel s.w, id := s.id.map (mask sel)
    ion := s.ion.map fun (l, wl) => (mask sel l, mask sel wl) }

/-- `add_buffers_cpu`: `hstack((left, own, right))` for every attribute.
particle_buffer_handling.py:379-421 -/
def addBuffers (s : Species K) (bl br : PBuf K) : Species K :=
  let f := fun (i : ℕ) (own : List K) => (bl.floats.getD i []) ++ own ++ (br.floats.getD i [])
  let g := fun (i : ℕ) (own : List ℕ) => (bl.words.getD i []) ++ own ++ (br.words.getD i [])
  { x := f 0 s.x, y := f 1 s.y, z := f 2 s.z, ux := f 3 s.ux, uy := f 4 s.uy, uz := f 5 s.uz
    invGamma := f 6 s.invGamma, w := f 7 s.w
    id := s.id.map (g 0)
    ion := s.ion.map fun (l, wl) => (g (if s.id.isSome then 1 else 0) l, f 8 wl) }

end

section
variable {K : Type} [Field K] [LinearOrder K]

/-- `remove_particles_cpu`: `(send_left, send_right, species)`. The left integer buffer has dtype
uint64, the right one dtype **float64**. particle_buffer_handling.py:58-175 -/
def removeParticles (s : Species K) (zmin zmax dz : K) (nGuard : ℕ) (left right : Option ℤ) :
    PBuf K × PBuf K × Species K :=
  let zboxMin := zmin + (nGuard : K) * dz
  let zboxMax := zmax - (nGuard : K) * dz
  let selLeft := s.z.map fun z => decide (z < zboxMin)
  let selRight := s.z.map fun z => decide (zboxMax < z)
  let selStay := (selLeft.zip selRight).map fun (a, b) => !a && !b
  (if left.isSome then fillBuffer s selLeft id else emptyBuffer s,
   if right.isSome then fillBuffer s selRight f64Bits else emptyBuffer s,
   keep s selStay)

/-- `float_recv[2,:] = float_recv[2,:] + shift`. boundary_communicator.py:811-818 -/
def shiftZ (shift : K) (b : PBuf K) : PBuf K :=
  { b with floats := b.floats.modify 2 (List.map (· + shift)) }

/-- `exchange_particles_aperiodic_subdomain` on all ranks. boundary_communicator.py:750-826.
`injected` is the pair of buffers returned by `generate_continuously_injected_particles(time)` on
the last rank when there is a moving window and the species is continuously injected, `none`
otherwise. `L` is `Ltot`. The exchange of the particle numbers is implicit in the list lengths. -/
def exchangeAperiodic (c : Comm) (dz : K) (grid : ℕ → InterpGrid K) (injected : Option (PBuf K))
    (sp : ℕ → Species K) (r : ℕ) : Species K :=
  let rem := fun q => removeParticles (sp q) (grid q).zmin (grid q).zmax (grid q).dz c.nGuard
    (c.leftProc q) (c.rightProc q)
  let recv := c.exchangeDomains (fun q => (rem q).1) (fun q => (rem q).2.1) r
  let recvLeft := recv.1.getD (emptyBuffer (sp r))
  let recvRight := recv.2.getD (emptyBuffer (sp r))
  let recvRight := if r + 1 = c.size then injected.getD recvRight else recvRight
  let L := (c.NzGlobal : K) * dz
  let recvRight := if c.rightProc r = some 0 then shiftZ L recvRight else recvRight
  let recvLeft :=
    if c.leftProc r = some ((c.size : ℤ) - 1) then shiftZ (-L) recvLeft else recvLeft
  addBuffers (rem r).2.2 recvLeft recvRight

/-- `while z >= zmax: z -= l_box`, run for at most `fuel` tests; `none` if still running.
particle_buffer_handling.py:553-554 -/
def loopDown (zmax L : K) : ℕ → K → Option K
  | 0, _ => none
  | fuel + 1, z => if zmax ≤ z then loopDown zmax L fuel (z - L) else some z

/-- `while z < zmin: z += l_box`. particle_buffer_handling.py:555-556 -/
def loopUp (zmin L : K) : ℕ → K → Option K
  | 0, _ => none
  | fuel + 1, z => if z < zmin then loopUp zmin L fuel (z + L) else some z

/-- Body of the loop over particles of `shift_particles_periodic_numba` (and of the cuda kernel).
particle_buffer_handling.py:536-556, 634-658 -/
def wrapZ (zmin zmax : K) (fuel : ℕ) (z : K) : Option K :=
  (loopDown zmax (zmax - zmin) fuel z).bind (loopUp zmin (zmax - zmin) fuel)

/-- `exchange_particles` on all ranks; `none`: a wrapping loop is still running after `fuel` tests.
boundary_communicator.py:710-748 -/
def exchangeParticles (c : Comm) (dz : K) (grid : ℕ → InterpGrid K) (injected : Option (PBuf K))
    (fuel : ℕ) (sp : ℕ → Species K) (r : ℕ) : Option (Species K) :=
  if c.nGuard = 0 then
    ((sp r).z.mapM (wrapZ (grid r).zmin (grid r).zmax fuel)).map fun z => { sp r with z := z }
  else some (exchangeAperiodic c dz grid injected sp r)

end
end Fbpic
