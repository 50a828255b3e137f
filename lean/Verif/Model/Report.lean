import Verif.Model.Comm
import Mathlib.Data.Rat.Floor
import Mathlib.Algebra.Order.Floor.Ring

/-!
# What a run reports: progress bar, summary, errors of the memory of the GPU

Times are rational numbers; the rounding of their sums and products is not modelled.
-/

namespace Fbpic.Report

/-- State of `ProgressBar`. printing.py:47-59 -/
structure Bar where
  N : ℕ
  nAvg : ℕ
  nBars : ℕ
  iStep : ℕ
  (start prev total tps avg : ℚ)
  eta : Option ℚ

/-- `ProgressBar(N)` at the time `now`, with the default values of the other arguments. printing.py:26-59 -/
def newBar (N : ℕ) (now : ℚ) : Bar := ⟨N, 20, 35, 0, now, now, 0, 0, 0, .none⟩

/-- `time(i_step)` at the time `now`. printing.py:61-90 -/
def Bar.time (b : Bar) (i : ℕ) (now : ℚ) : Bar :=
  let tps := now - b.prev
  let avg := b.avg + (tps - b.avg) / b.nAvg
  let avg := if i ≤ 2 then tps else avg
  { b with
    iStep := i
    total := now - b.start
    tps := tps
    avg := avg
    eta := if i < b.nAvg then .none else some (avg * (b.N - i))
    prev := now }

/-- `m, s = divmod(t, 60); h, m = divmod(m, 60)` and the conversion to integers by `%d`, for `t` not negative. printing.py:115-117 -/
def hms (t : ℚ) : ℤ × ℤ × ℤ :=
  let m : ℤ := ⌊t / 60⌋
  let s := t - 60 * m
  let h : ℤ := ⌊(m : ℚ) / 60⌋
  (h, m - 60 * h, ⌊s⌋)

/-- What `print_progress` shows: the message on the compilation; or the bar (numbers of filled and of blank characters), the number of the
iteration and their total, the remaining time if it is known, the time of the last step in milliseconds. -/
inductive Line
  | compiling
  | bar (full blank : ℕ) (i N : ℕ) (left : Option (ℤ × ℤ × ℤ)) (ms : ℤ)
deriving DecidableEq

/-- `print_progress`. printing.py:92-122 -/
def Bar.line (b : Bar) : Line :=
  if b.iStep = 0 then .compiling
  else
    let nbars := ⌊((b.iStep : ℚ) + 1) * 1 / b.N * b.nBars⌋.toNat
    .bar nbars (b.nBars - nbars) (b.iStep + 1) b.N (b.eta.map hms) ⌊b.tps * 1000⌋

/-- `print_summary`: total time, average time of an iteration in milliseconds. printing.py:124-134 -/
def Bar.summary (b : Bar) : Except PyErr ((ℤ × ℤ × ℤ) × ℤ) :=
  if b.N = 0 then .error (.runtimeError "ZeroDivisionError") else .ok (hms b.total, ⌊b.total / b.N * 1000⌋)

/-- The progress bar in the iteration `k` of `step(N)`, called at `start`, when the iteration `i` begins at `now i`. main.py:396-399, 421-426 -/
def barAt (N : ℕ) (start : ℚ) (now : ℕ → ℚ) : ℕ → Bar
  | 0 => (newBar N start).time 0 (now 0)
  | k + 1 => (barAt N start now k).time (k + 1) (now (k + 1))

/-- The summary at the end of `step(N)`. main.py:584-585 -/
def stepSummary (N : ℕ) (start : ℚ) (now : ℕ → ℚ) : Except PyErr ((ℤ × ℤ × ℤ) × ℤ) :=
  match N with
  | 0 => (newBar 0 start).summary
  | n + 1 => (barAt (n + 1) start now n).summary

/-- Exceptions as seen by `catch_gpu_memory_error`. -/
inductive Exc
  | outOfMemory
  | nameError (name : String)
  | other (e : PyErr)
  | keyboardInterrupt
deriving DecidableEq

/-- End of a call: a value, an exception, or the end of all processes of the job by `MPI.COMM_WORLD.Abort()`. -/
inductive End (α : Type)
  | returns (a : α)
  | raises (e : Exc)
  | aborted
deriving DecidableEq

/-- `handle_cuda_memory_error`. printing.py:330-346 -/
def handleMemoryError {α : Type} (size : ℕ) (e : Exc) : End α := if size > 1 then .aborted else .raises e

/-- A function decorated by `catch_gpu_memory_error`; `f` is the end of the function itself. The name `OutOfMemoryError` is only defined if
cupy is installed (printing.py:12-13), and it is evaluated when an exception arrives at the clause `except`. printing.py:313-328 -/
def catchMemoryError {α : Type} (cudaInstalled : Bool) (size : ℕ) (f : End α) : End α :=
  match f with
  | .raises e =>
    if cudaInstalled then
      if e = .outOfMemory then handleMemoryError size e else .raises e
    else .raises (.nameError "OutOfMemoryError")
  | f => f

end Fbpic.Report
