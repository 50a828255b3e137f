import Verif.Model.Prelude
import Mathlib.Data.List.Range
import Mathlib.Data.List.MinMax
import Mathlib.Data.Rat.Floor

/-!
# Particle ids

Models `fbpic/particles/tracking/tracking.py` and the callers that create ids.
Ids are natural numbers here; the code stores them as `uint64` (overflow after 2^64 ids is not
modelled).
-/

namespace Fbpic

/-- `ParticleTracker`. `misspelt` is the attribute `next_attibuted_id` created by `overwrite_ids`
(tracking.py:132), which nothing reads. -/
structure Tracker where
  next : ℕ
  step : ℕ
  id : List ℕ
  misspelt : Option ℤ := none
  deriving DecidableEq, Repr

/-- `np.arange(start, start + N*step, step)`. tracking.py:50-52, 77-79 -/
def arangeIds (start step N : ℕ) : List ℕ := (List.range N).map fun k => start + k * step

/-- `ParticleTracker.__init__(comm_size, comm_rank, N)`. tracking.py:28-53 -/
def mkTracker (commSize commRank N : ℕ) : Tracker :=
  { next := commRank + N * commSize
    step := commSize
    id := arangeIds commRank commSize N }

/-- `generate_new_ids(N)`: the new ids and the updated tracker. tracking.py:66-81 -/
def Tracker.generate (t : Tracker) (N : ℕ) : List ℕ × Tracker :=
  (arangeIds t.next t.step N, { t with next := t.next + N * t.step })

/-- `generate_new_ids_gpu(i_start, i_end)` with kernel `generate_ids_gpu`: thread `i < i_end-i_start`
writes `id[i_start + i]`. Requires `i_start ≤ i_end` (both callers pass `old_Ntot, new_Ntot`).
tracking.py:83-100, 134-160 -/
def Tracker.generateGpu (t : Tracker) (iStart iEnd : ℕ) : Tracker :=
  let N := iEnd - iStart
  { t with
    id := t.id.mapIdx fun j v =>
      if iStart ≤ j ∧ j < iStart + N then t.next + (j - iStart) * t.step else v
    next := t.next + N * t.step }

/-- `cuda_numba_utils.generate_new_ids(species, old_Ntot, new_Ntot)` on a tracked species, after
`reallocate_and_copy_old` extended the array `id` to `new_Ntot` entries (`junk` is the uninitialised
part). cuda_numba_utils.py:65-139 -/
def Tracker.extend (t : Tracker) (useCuda : Bool) (junk : List ℕ) : Tracker :=
  let oldN := t.id.length
  let newN := oldN + junk.length
  let t1 := { t with id := t.id ++ junk }
  if useCuda then t1.generateGpu oldN newN
  else
    let (ids, t2) := t1.generate (newN - oldN)
    { t2 with id := t2.id.take oldN ++ ids }

/-- `n = int( (global_id_max - comm.rank)/self.id_step ) + 1`; value assigned to
`next_attibuted_id`. tracking.py:121-132 -/
def restartId (gmax rank step : ℕ) : ℤ :=
  let n : ℤ := pyInt ((((gmax : ℤ) - (rank : ℤ) : ℤ) : ℚ) / (step : ℚ)) + 1
  (rank : ℤ) + n * (step : ℤ)

/-- `max( local_id_max_list )` over all ranks with `local_id_max = 0` for an empty list.
tracking.py:120-128 -/
def globalIdMax (size : ℕ) (pid : ℕ → List ℕ) : ℕ :=
  ((List.range size).map fun r => (pid r).max?.getD 0).max?.getD 0

/-- `overwrite_ids(pid, comm)` on rank `rank`: the ids are replaced, the next id to attribute is
computed but assigned to the misspelt attribute. tracking.py:102-132 -/
def Tracker.overwrite (t : Tracker) (size rank : ℕ) (pid : ℕ → List ℕ) : Tracker :=
  { t with id := pid rank
           misspelt := some (restartId (globalIdMax size pid) rank t.step) }

/-- What the comment at tracking.py:118-119, 129-130 announces: the same with the attribute spelt
right. Not in the code; used to locate the defect. -/
def Tracker.overwriteIntended (t : Tracker) (size rank : ℕ) (pid : ℕ → List ℕ) : Tracker :=
  { t with id := pid rank
           next := (restartId (globalIdMax size pid) rank t.step).toNat }

/-- Tracker of rank `rank` after `load_species` read the ids `pid rank`: `species.track(comm)`, then
`overwrite_ids`. checkpoint_restart.py:325-333, particles.py:388 -/
def restartTracker (size rank : ℕ) (pid : ℕ → List ℕ) : Tracker :=
  (mkTracker size rank (pid rank).length).overwrite size rank pid

/-- The same with the intended assignment. -/
def restartTrackerIntended (size rank : ℕ) (pid : ℕ → List ℕ) : Tracker :=
  (mkTracker size rank (pid rank).length).overwriteIntended size rank pid

/-- A creation event: rank `rank` attributes `N` new ids (continuous injection particles.py:368,
ionization ionizer.py:318, Compton scattering compton.py:240). -/
structure IdOp where
  rank : ℕ
  N : ℕ

/-- Run a history of creations over all ranks; returns all ids attributed, in order, and the
trackers. -/
def runIds : (ℕ → Tracker) → List IdOp → List ℕ × (ℕ → Tracker)
  | ts, [] => ([], ts)
  | ts, o :: os =>
    let (ids, t) := (ts o.rank).generate o.N
    let (rest, ts') := runIds (Function.update ts o.rank t) os
    (ids ++ rest, ts')

end Fbpic
