import Verif.Model.Parallel
import Verif.Model.Deposit
import Verif.Model.Ionization
import Verif.Model.SpectShift

/-!
# Threads that handle many particles: deposition, reduction, ionization; shift of the window

The statements of the threads on the machine of `Model/Parallel.lean`.
-/

namespace Fbpic.Parallel

/-! ### Deposition on CPU threads -/

section
variable {ι : Type}

/-- `a[i] += v`: the value is loaded, and the sum is stored afterwards. -/
def plusEq (i : ι) (v : ℂ) : List (Stmt ι ℂ ℂ) := atCell i [assign fun _ s => s + v, store fun r _ => r]

end

/-- Index of an entry of the buffers of all threads: `rho_global[t, m, iz, ir]`, `Jr_global[...]`, ... -/
structure DepIdx where
  f : DepField
  t : ℕ
  m : ℕ
  iz : ℕ
  ir : ℕ
  deriving DecidableEq

/-- The entry that an index addresses in an axis of length `n` (negative: from the end). Simplification:
numba does not check bounds; indices out of bounds are excluded by the sequential model. -/
def entry (n : ℕ) (i : ℤ) : ℕ := if 0 ≤ i then i.toNat else (i + n).toNat

/-- Body of the particle loop of the four deposition kernels: for every mode, the additions to the arrays of the
quantities `fs` (`[rho]`, or `[Jr, Jt, Jz]`). threading_methods.py:98-146, 233-303, 383-446, 535-648 -/
noncomputable def depositPtclCode (fs : List DepField) (s : Shape) (c q : ℝ) (g : CylGrid) (beta : Shape → ℕ → List ℝ)
    (Nm t : ℕ) (p : DepPtcl) : List (Stmt DepIdx ℂ ℂ) :=
  let r := cylR p.x p.y
  let ir : ℤ := min ⌈g.rCell r⌉ g.Nr
  (List.range Nm).flatMap fun m =>
    let b := beta s (min m 1)
    let bn := b.getD (entry b.length ir) 0
    fs.flatMap fun f =>
      let scal := modeScal (f.scal0 c q p) (cylCos p.x p.y) (cylSin p.x p.y) m
      (ptclAdds s g bn (f.flip m) scal r p.z).flatMap fun a =>
        plusEq ⟨f, t, m, entry (g.Nz + 4) a.1, entry (g.Nr + 4) a.2.1⟩ a.2.2

/-- The launches in `Particles.deposit` on the CPU: none for a species without charge, otherwise one kernel for all
modes. particles.py:856-857, 986-1046 -/
noncomputable def depositCpu (fs : List DepField) (c : ℝ) (g : CylGrid) (beta : Shape → ℕ → List ℝ) (Nm nthreads : ℕ)
    (sp : DepSpecies) : List (Launch ℕ DepIdx ℂ ℂ) :=
  if sp.q = 0 then []
  else [prangeLoop nthreads fun t =>
    (chunkOf sp.ptcls nthreads t).flatMap (depositPtclCode fs sp.shape c sp.q g beta Nm t)]

/-- The buffers of all threads, as the memory. -/
def depMem (G : DepField → ℕ → ℕ → Buf) : DepIdx → ℂ := fun i => G i.f i.m i.t i.iz i.ir

/-- `numba_erase_threading_buffer` on the array of quantity `f`. numba_methods.py:390-407 -/
def eraseBuffer (f : DepField) (nthreads Nm nz nr : ℕ) : Launch ℕ DepIdx ℂ ℂ :=
  prangeLoop nthreads fun t =>
    (List.range Nm).flatMap fun m => (List.range nz).flatMap fun iz => (List.range nr).flatMap fun ir =>
      atCell ⟨f, t, m, iz, ir⟩ [store fun _ _ => 0]

/-- Before the reduction in `Simulation.deposit`: erase the buffers of the quantities `fs`, then deposit every
species. main.py:628-656, fields.py:539-562 -/
noncomputable def depositAllCpu (fs : List DepField) (c : ℝ) (g : CylGrid) (beta : Shape → ℕ → List ℝ)
    (Nm nthreads : ℕ) (sps : List DepSpecies) : List (Launch ℕ DepIdx ℂ ℂ) :=
  fs.map (fun f => eraseBuffer f nthreads Nm (g.Nz + 4) (g.Nr + 4)) ++
    sps.flatMap (depositCpu fs c g beta Nm nthreads)

/-- `reduce_slice`, as the statements of one thread. numba_methods.py:443-461 -/
def reduceSliceCode (Nr nthreads : ℕ) (G : ℕ → Buf) (iz izg : ℕ) : List (Stmt (ℕ × ℕ) ℂ ℂ) :=
  (List.range nthreads).flatMap fun t =>
    plusEq (iz, 1) (G t izg 0) ++ plusEq (iz, 0) (G t izg 1) ++
      (List.range Nr).flatMap (fun ir => plusEq (iz, ir) (G t izg (ir + 2))) ++
      plusEq (iz, Nr - 1) (G t izg (Nr + 2)) ++ plusEq (iz, Nr - 1) (G t izg (Nr + 3))

/-- `sum_reduce_2d_array`: the parallel loop over the rows, then the guard cells by the calling thread.
numba_methods.py:409-441 -/
def sumReduceCpu (Nz Nr nthreads : ℕ) (G : ℕ → Buf) : List (Launch ℕ (ℕ × ℕ) ℂ ℂ) :=
  [ prangeLoop Nz fun iz => reduceSliceCode Nr nthreads G iz (iz + 2),
    prangeLoop 1 fun _ =>
      reduceSliceCode Nr nthreads G (Nz - 2) 0 ++ reduceSliceCode Nr nthreads G (Nz - 1) 1 ++
        reduceSliceCode Nr nthreads G 0 (Nz + 2) ++ reduceSliceCode Nr nthreads G 1 (Nz + 3) ]

/-- A 2d array as the memory. -/
def bufMem (A : Buf) : ℕ × ℕ → ℂ := fun i => A i.1 i.2

/-! ### Ionization -/

/-- The memory of `ionize_ions`: the arrays with one entry per ion, and the column `n_ionized[:, i_batch]`. -/
inductive IonIdx
  | ion (ip : ℕ)
  | batch (b : ℕ)
  deriving DecidableEq

/-- The content: of `ionized_from`, `ionization_level`, `w_times_level` at one ion, or of one column of `n_ionized`. -/
structure IonCell where
  ionizedFrom : ℤ
  level : ℕ
  wtl : ℝ
  n : ℕ → ℕ

/-- Local variables: `level`, and which count has to be incremented. -/
structure IonRegs where
  level : ℕ
  slot : Option ℕ

/-- The loop over the levels that sets the counts to zero. numba_methods.py:46-47, cuda_methods.py:52-53 -/
def resetCode (P : IonParams) (b : ℕ) : List (Stmt IonIdx IonRegs IonCell) :=
  atCell (.batch b) ((List.range P.nLevels).map fun l => store fun _ s => { s with n := Function.update s.n l 0 })

/-- Body of the loop over the ions of a batch. numba_methods.py:51-80, cuda_methods.py:56-87 -/
noncomputable def ionizeCode (P : IonParams) (w : ℕ → ℝ) (dec : ℕ → ℕ → Bool) (b ip : ℕ) :
    List (Stmt IonIdx IonRegs IonCell) :=
  [ ⟨.ion ip, assign fun r s => { r with level := s.level }⟩,
    ⟨.ion ip, fun r s =>
      if P.levelMax ≤ r.level then ({ r with slot := none }, { s with ionizedFrom := -1 })
      else if dec ip r.level then
        ({ r with slot := some (P.slot r.level) }, { s with ionizedFrom := ((r.level - P.levelStart : ℕ) : ℤ) })
      else ({ r with slot := none }, { s with ionizedFrom := -1 })⟩,
    ⟨.batch b, store fun r s =>
      match r.slot with
      | some l => { s with n := Function.update s.n l (s.n l + 1) }
      | none => s⟩,
    ⟨.ion ip, store fun r s => if r.slot.isSome then { s with level := s.level + 1 } else s⟩,
    ⟨.ion ip, store fun r s => if r.slot.isSome then { s with wtl := w ip * (s.level : ℝ) } else s⟩ ]

/-- One batch. -/
noncomputable def batchCode (P : IonParams) (Ntot : ℕ) (w : ℕ → ℝ) (dec : ℕ → ℕ → Bool) (b : ℕ) :
    List (Stmt IonIdx IonRegs IonCell) :=
  resetCode P b ++ (P.chunk Ntot b).flatMap (ionizeCode P w dec b)

/-- `ionize_ions_numba`. numba_methods.py:43 -/
noncomputable def ionizeCpu (P : IonParams) (Ntot : ℕ) (w : ℕ → ℝ) (dec : ℕ → ℕ → Bool) :
    Launch ℕ IonIdx IonRegs IonCell :=
  prangeLoop (P.nBatch Ntot) (batchCode P Ntot w dec)

/-- `ionize_ions_cuda`. cuda_methods.py:48-49, ionizer.py:252-253 -/
noncomputable def ionizeGpu (P : IonParams) (Ntot : ℕ) (w : ℕ → ℝ) (dec : ℕ → ℕ → Bool) :
    Launch (ℕ × ℕ) IonIdx IonRegs IonCell :=
  launch1d (P.nBatch Ntot) 256 fun b => if b < P.nBatch Ntot then batchCode P Ntot w dec b else []

/-- The arrays as the memory. -/
def ionMem (s : IonState ℝ) : IonIdx → IonCell
  | .ion ip => ⟨s.ionizedFrom ip, s.level ip, s.wtl ip, fun _ => 0⟩
  | .batch b => ⟨0, 0, 0, fun l => s.nIonized l b⟩

/-- `copy_ionized_electrons_batch` from electron index `e` on: the statements that write to the arrays of the
electrons (the 14 attributes are one content). The flags `ionized_from` are only read.
inline_functions.py:78-114 -/
def copyCode {α : Type} (create : ℕ → Bool) (ion : ℕ → α) : List ℕ → ℕ → List (Stmt ℕ Unit α)
  | [], _ => []
  | ip :: l, e =>
    if create ip then ⟨e, store fun _ _ => ion ip⟩ :: copyCode create ion l (e + 1) else copyCode create ion l e

/-- `copy_ionized_electrons_numba` for target `iLevel`. numba_methods.py:84-115 -/
def copyCpu {α : Type} (P : IonParams) (Ntot oldNtot : ℕ) (cum : ℕ → ℕ → ℕ) (ionizedFrom : ℕ → ℤ) (iLevel : ℕ)
    (ion : ℕ → α) : Launch ℕ ℕ Unit α :=
  prangeLoop (P.nBatch Ntot) fun b =>
    copyCode (createElectron P ionizedFrom iLevel) ion (P.chunk Ntot b) (oldNtot + cum iLevel b)

/-- `copy_ionized_electrons_cuda` for target `iLevel`. cuda_methods.py:91-123, ionizer.py:292 -/
def copyGpu {α : Type} (P : IonParams) (Ntot oldNtot : ℕ) (cum : ℕ → ℕ → ℕ) (ionizedFrom : ℕ → ℤ) (iLevel : ℕ)
    (ion : ℕ → α) : Launch (ℕ × ℕ) ℕ Unit α :=
  launch1d (P.nBatch Ntot) 256 fun b => if b < P.nBatch Ntot then
    copyCode (createElectron P ionizedFrom iLevel) ion (P.chunk Ntot b) (oldNtot + cum iLevel b) else []

/-! ### Shift of the fields with the moving window -/

/-- `power_shift`. moving_window.py:229-237, 268-276 -/
noncomputable def powerCode (shift : ℂ) (nMove : ℤ) : List (ℂ → ℂ → ℂ × ℂ) :=
  [ assign fun _ _ => 1 ] ++ List.replicate nMove.natAbs (assign fun r _ => r * shift) ++
    [ assign fun r _ => if nMove < 0 then (starRingEnd ℂ) r else r ]

/-- `shift_spect_array_cpu`: the factor is computed once per row. moving_window.py:204-240 -/
noncomputable def shiftCpu (Nz Nr : ℕ) (shift : ℕ → ℂ) (nMove : ℤ) : Launch ℕ (ℕ × ℕ) ℂ ℂ :=
  prangeLoop Nz fun iz =>
    atCell (iz, 0) (powerCode (shift iz) nMove) ++
      (List.range Nr).flatMap fun ir => atCell (iz, ir) [store fun r s => s * r]

/-- `shift_spect_array_gpu`. moving_window.py:164-166, 244-279 -/
noncomputable def shiftGpu (Nz Nr : ℕ) (shift : ℕ → ℂ) (nMove : ℤ) : Launch ((ℕ × ℕ) × (ℕ × ℕ)) (ℕ × ℕ) ℂ ℂ :=
  launch2d Nz Nr 1 128 (cellKernel Nz Nr fun iz _ => powerCode (shift iz) nMove ++ [store fun r s => s * r])

end Fbpic.Parallel
