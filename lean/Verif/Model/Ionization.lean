import Verif.Model.Comm
import Mathlib.Data.List.Range
import Mathlib.Logic.Function.Basic

/-!
# Field ionization

Models `fbpic/particles/elementary_process/ionization/` (`ionizer.py`, `numba_methods.py`,
`inline_functions.py`; `cuda_methods.py` has the same bodies with one thread per batch) and
`perform_cumsum_2d`, `reallocate_and_copy_old` of `cuda_numba_utils.py`.

Arrays are functions of the index; uninitialised memory (`np.empty`) is an arbitrary function.
The ADK probability and the random draw enter through `dec ip level : Bool`, the truth value of
`random_draw[ip] < p` for ion `ip` found at level `level` (numba_methods.py:58-66); the ADK
probability is in `Model/Adk.lean`. The 13 attributes copied besides the weight (positions,
momenta, `inv_gamma`, fields) are one value of type `A`.
-/

namespace Fbpic

variable {K A : Type}

/-- The arrays that `ionize_ions_numba` writes. -/
structure IonState (K : Type) where
  /-- `n_ionized[i_level, i_batch]` -/
  nIonized : ℕ → ℕ → ℕ
  /-- `ionized_from[ip]` (−1: not ionized) -/
  ionizedFrom : ℕ → ℤ
  /-- `ionization_level[ip]` -/
  level : ℕ → ℕ
  /-- `w_times_level[ip]` -/
  wtl : ℕ → K

/-- Parameters of the ionizer. -/
structure IonParams where
  batchSize : ℕ
  levelStart : ℕ
  levelMax : ℕ
  storePerLevel : Bool

/-- `n_levels`. ionizer.py:221-225 -/
def IonParams.nLevels (P : IonParams) : ℕ :=
  if P.storePerLevel then P.levelMax - P.levelStart else 1

/-- `N_batch = int( ion.Ntot / self.batch_size ) + 1`. ionizer.py:215 -/
def IonParams.nBatch (P : IonParams) (Ntot : ℕ) : ℕ := Ntot / P.batchSize + 1

/-- `range(i_batch*batch_size, min((i_batch+1)*batch_size, Ntot))`.
numba_methods.py:50-51, inline_functions.py:82-83 -/
def IonParams.chunk (P : IonParams) (Ntot b : ℕ) : List ℕ :=
  List.range' (b * P.batchSize) (min ((b + 1) * P.batchSize) Ntot - b * P.batchSize)

/-- Index of the row of `n_ionized` that is incremented. numba_methods.py:69-74 -/
def IonParams.slot (P : IonParams) (level : ℕ) : ℕ :=
  if P.nLevels = 1 then 0 else level - P.levelStart

/-- Body of the loop over `ip` in `ionize_ions_numba`. (`level - level_start` is computed in
naturals: the levels are never below `level_start`, see `C16_levels`.) numba_methods.py:51-80 -/
def ionizeOne [NatCast K] [Mul K] (P : IonParams) (w : ℕ → K) (dec : ℕ → ℕ → Bool) (b : ℕ)
    (s : IonState K) (ip : ℕ) : IonState K :=
  let level := s.level ip
  if P.levelMax ≤ level then
    { s with ionizedFrom := Function.update s.ionizedFrom ip (-1) }
  else if dec ip level then
    { ionizedFrom := Function.update s.ionizedFrom ip ((level - P.levelStart : ℕ) : ℤ)
      nIonized := Function.update s.nIonized (P.slot level)
        (Function.update (s.nIonized (P.slot level)) b (s.nIonized (P.slot level) b + 1))
      level := Function.update s.level ip (level + 1)
      wtl := Function.update s.wtl ip (w ip * ((level + 1 : ℕ) : K)) }
  else
    { s with ionizedFrom := Function.update s.ionizedFrom ip (-1) }

/-- Body of the loop over batches: reset the counts, then loop through the batch.
numba_methods.py:43-80 -/
def ionizeBatch [NatCast K] [Mul K] (P : IonParams) (Ntot : ℕ) (w : ℕ → K) (dec : ℕ → ℕ → Bool)
    (s : IonState K) (b : ℕ) : IonState K :=
  let s := { s with nIonized := fun l b' => if l < P.nLevels ∧ b' = b then 0 else s.nIonized l b' }
  (P.chunk Ntot b).foldl (ionizeOne P w dec b) s

/-- `ionize_ions_numba`. numba_methods.py:21-82 -/
def ionizeIons [NatCast K] [Mul K] (P : IonParams) (Ntot : ℕ) (w : ℕ → K) (dec : ℕ → ℕ → Bool)
    (s : IonState K) : IonState K :=
  (List.range (P.nBatch Ntot)).foldl (ionizeBatch P Ntot w dec) s

/-- `perform_cumsum_2d`: entry `[l, b]` is the sum of the entries before `b`.
cuda_numba_utils.py:45-63 -/
def cumsum2d (n : ℕ → ℕ → ℕ) (l b : ℕ) : ℕ := ((List.range b).map (n l)).sum

/-- Whether an electron of target `iLevel` is created from ion `ip`. inline_functions.py:85-94 -/
def createElectron (P : IonParams) (ionizedFrom : ℕ → ℤ) (iLevel ip : ℕ) : Bool :=
  if P.storePerLevel then decide (ionizedFrom ip = (iLevel : ℤ)) else decide (0 ≤ ionizedFrom ip)

/-- Loop over the ions of a batch in `copy_ionized_electrons_batch`: state is
`(elec_index, electron arrays)`. inline_functions.py:83-111 -/
def copyLoop {α : Type} (create : ℕ → Bool) (ion : ℕ → α) (l : List ℕ) (s : ℕ × (ℕ → α)) :
    ℕ × (ℕ → α) :=
  l.foldl (fun s ip => if create ip then (s.1 + 1, Function.update s.2 s.1 (ion ip)) else s) s

/-- `copy_ionized_electrons_numba` for target `iLevel`.
numba_methods.py:84-115, inline_functions.py:53-111 -/
def copyIonized {α : Type} (P : IonParams) (Ntot oldNtot : ℕ) (cum : ℕ → ℕ → ℕ)
    (ionizedFrom : ℕ → ℤ) (iLevel : ℕ) (ion : ℕ → α) (elec : ℕ → α) : ℕ → α :=
  (List.range (P.nBatch Ntot)).foldl (fun e b =>
    (copyLoop (createElectron P ionizedFrom iLevel) ion (P.chunk Ntot b)
      (oldNtot + cum iLevel b, e)).2) elec

/-- The ionizable species (the arrays relevant here). -/
structure Ions (K A : Type) where
  Ntot : ℕ
  attr : ℕ → A
  w : ℕ → K
  level : ℕ → ℕ
  wtl : ℕ → K

/-- An electron species: attributes and weight per macroparticle. -/
structure Elecs (K A : Type) where
  Ntot : ℕ
  data : ℕ → A × K

/-- Electron species as a list. -/
def Elecs.toList (e : Elecs K A) : List (A × K) := (List.range e.Ntot).map e.data

/-- Uninitialised memory seen by one call. -/
structure Junk (K A : Type) where
  nIonized : ℕ → ℕ → ℕ
  ionizedFrom : ℕ → ℤ
  elec : ℕ → ℕ → A × K

/-- `Ionizer.handle_ionization`. ionizer.py:191-318 -/
def handleIonization [NatCast K] [Mul K] (P : IonParams) (ion : Ions K A)
    (targets : List (Elecs K A)) (dec : ℕ → ℕ → Bool) (J : Junk K A) :
    Except PyErr (Ions K A × List (Elecs K A)) :=
  if ion.Ntot = 0 then .ok (ion, targets)
  else if P.storePerLevel ∧ P.levelMax < P.levelStart then
    .error (.valueError "negative dimensions are not allowed")
  else
    let s := ionizeIons P ion.Ntot ion.w dec ⟨J.nIonized, J.ionizedFrom, ion.level, ion.wtl⟩
    let ion' := { ion with level := s.level, wtl := s.wtl }
    let cum := cumsum2d s.nIonized
    if ∀ l < P.nLevels, cum l (P.nBatch ion.Ntot) = 0 then .ok (ion', targets)
    else if targets.length ≠ P.nLevels then
      .error (.assertionError "len(self.target_species) == n_levels")
    else
      .ok (ion', targets.mapIdx fun i elec =>
        { Ntot := elec.Ntot + cum i (P.nBatch ion.Ntot)
          -- `reallocate_and_copy_old` (cuda_numba_utils.py:65-124), then the copy
          data := copyIonized P ion.Ntot elec.Ntot cum s.ionizedFrom i
            (fun ip => (ion.attr ip, ion.w ip))
            (fun j => if j < elec.Ntot then elec.data j else J.elec i j) })

/-- `Ionizer.__init__`: all ions start at `level_start`. ionizer.py:111-114 -/
def mkIons [NatCast K] [Mul K] (P : IonParams) (Ntot : ℕ) (attr : ℕ → A) (w : ℕ → K) : Ions K A :=
  { Ntot := Ntot, attr := attr, w := w
    level := fun _ => P.levelStart
    wtl := fun ip => w ip * (P.levelStart : K) }

end Fbpic
