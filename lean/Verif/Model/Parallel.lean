import Verif.Model.Shapes
import Mathlib.Logic.Function.Basic

/-!
# Parallel execution (CPU threads and GPU threads)

An abstract machine for the loops over `prange` (numba, `utils/threading.py:50-63`) and for the CUDA
kernels (`utils/cuda.py`). The memory is a function from cells (the entries, at one index, of all arrays
that are passed to the kernel) to their content. A thread has private registers (the local variables)
and executes its statements one after the other; which thread executes its next statement is decided by
an arbitrary schedule. Arrays that a kernel only reads at other indices (the grids in the gathering, the
receive buffers in the exchange) are not written by it and are parameters of the statements.

Simplification: a statement is executed as a whole (numba's and CUDA's memory accesses within one
statement are not interleaved), except where it matters (`+=` in `addRow`, Model/Kernels.lean).
-/

namespace Fbpic.Parallel

/-- A statement: the index of the cell it works on, and its effect on the registers and on that cell. -/
structure Stmt (ι ρ σ : Type) where
  cell : ι
  run : ρ → σ → ρ × σ

/-- A thread: its registers and the statements that it still has to execute. -/
structure Thread (ι ρ σ : Type) where
  reg : ρ
  code : List (Stmt ι ρ σ)

/-- All threads and the shared memory. -/
structure Machine (τ ι ρ σ : Type) where
  mem : ι → σ
  thread : τ → Thread ι ρ σ

section
variable {τ ι ρ σ : Type} [DecidableEq τ] [DecidableEq ι]

/-- Thread `t` executes its next statement (nothing happens if it is finished). -/
def Machine.step (M : Machine τ ι ρ σ) (t : τ) : Machine τ ι ρ σ :=
  match (M.thread t).code with
  | [] => M
  | s :: rest =>
    let out := s.run (M.thread t).reg (M.mem s.cell)
    { mem := Function.update M.mem s.cell out.2
      thread := Function.update M.thread t { reg := out.1, code := rest } }

/-- Execution with a schedule: the threads in the order in which they get their turn. -/
def Machine.run (M : Machine τ ι ρ σ) (schedule : List τ) : Machine τ ι ρ σ :=
  schedule.foldl Machine.step M

end

section
variable {τ ι ρ σ : Type}

/-- A launch: the machine at the start as a function of the memory and of the content that the
registers happen to have. -/
abbrev Launch (τ ι ρ σ : Type) := (ι → σ) → (τ → ρ) → Machine τ ι ρ σ

/-- `BPG = int(x/TPB + 1)`. utils/cuda.py:69, 95-96 (exact division) -/
def blocks (x TPB : ℕ) : ℕ := x / TPB + 1

/-- `kernel[cuda_tpb_bpg_1d(x, TPB)](...)`: threads are pairs (block, thread in the block), `cuda.grid(1)`
is `blockIdx.x*blockDim.x + threadIdx.x`. utils/cuda.py:48-70 -/
def launch1d (x TPB : ℕ) (kernel : ℕ → List (Stmt ι ρ σ)) : Launch (ℕ × ℕ) ι ρ σ := fun mem junk =>
  { mem := mem
    thread := fun t =>
      { reg := junk t
        code := if t.1 < blocks x TPB ∧ t.2 < TPB then kernel (t.1 * TPB + t.2) else [] } }

/-- `kernel[cuda_tpb_bpg_2d(x, y, TPBx, TPBy)](...)`: threads are (block, thread in the block), each a
pair. utils/cuda.py:72-97 -/
def launch2d (x y TPBx TPBy : ℕ) (kernel : ℕ → ℕ → List (Stmt ι ρ σ)) :
    Launch ((ℕ × ℕ) × (ℕ × ℕ)) ι ρ σ := fun mem junk =>
  { mem := mem
    thread := fun t =>
      { reg := junk t
        code :=
          if (t.1.1 < blocks x TPBx ∧ t.2.1 < TPBx) ∧ (t.1.2 < blocks y TPBy ∧ t.2.2 < TPBy) then
            kernel (t.1.1 * TPBx + t.2.1) (t.1.2 * TPBy + t.2.2)
          else [] } }

/-- `for i in prange(N): body(i)`. Every iteration may be interleaved with every other one; that a
worker thread executes several iterations in turn is a special case of a schedule. -/
def prangeLoop (N : ℕ) (body : ℕ → List (Stmt ι ρ σ)) : Launch ℕ ι ρ σ := fun mem junk =>
  { mem := mem
    thread := fun i => { reg := junk i, code := if i < N then body i else [] } }

/-- The statements of one cell. -/
def atCell (i : ι) (code : List (ρ → σ → ρ × σ)) : List (Stmt ι ρ σ) := code.map (Stmt.mk i)

/-- A kernel over a grid: `if (iz < Nz) and (ir < Nr): ...` on the entries `[iz, ir]`. -/
def cellKernel (Nz Nr : ℕ) (code : ℕ → ℕ → List (ρ → σ → ρ × σ)) (iz ir : ℕ) :
    List (Stmt (ℕ × ℕ) ρ σ) :=
  if iz < Nz ∧ ir < Nr then atCell (iz, ir) (code iz ir) else []

/-- The body of `for iz in prange(Nz): for ir in range(Nr): ...`. -/
def rowLoop (Nr : ℕ) (code : ℕ → ℕ → List (ρ → σ → ρ × σ)) (iz : ℕ) : List (Stmt (ℕ × ℕ) ρ σ) :=
  (List.range Nr).flatMap fun ir => atCell (iz, ir) (code iz ir)

/-- A kernel over the particles: `if i < Ntot: ...` on the entries `[i]`. -/
def ptclKernel (Ntot : ℕ) (code : ℕ → List (ρ → σ → ρ × σ)) (i : ℕ) : List (Stmt ℕ ρ σ) :=
  if i < Ntot then atCell i (code i) else []

/-- The body of `for nt in prange(nthreads): for i in range(chunk[nt], chunk[nt+1]): ...` with the chunks
of `get_chunk_indices` (utils/threading.py:66-93). -/
def chunkLoop (Ntot nthreads : ℕ) (code : ℕ → List (ρ → σ → ρ × σ)) (nt : ℕ) : List (Stmt ℕ ρ σ) :=
  (chunkOf (List.range Ntot) nthreads nt).flatMap fun i => atCell i (code i)

/-- A statement that only sets local variables. -/
def assign (f : ρ → σ → ρ) : ρ → σ → ρ × σ := fun r s => (f r s, s)

/-- A statement that writes to the arrays. -/
def store (f : ρ → σ → σ) : ρ → σ → ρ × σ := fun r s => (r, f r s)

end

end Fbpic.Parallel
