import Verif.Model.Comm

/-!
# Which GPU each MPI process uses (`utils/cuda.py:218-297`)

`mpi_select_gpus` is called when `fbpic.main` is imported (`main.py:18-21`), by every process.
Not modelled: the text of the UUID of a GPU (`get_uuid`, `cuda.py:187-216`); here it is an optional number.
-/

namespace Fbpic.GpuSel

/-- The name of a node: the bytes of `Get_processor_name().encode()`. -/
abbrev NodeName := List ℕ

/-- The processes of `COMM_WORLD` (`p` of them): the node on which each one runs, the number of GPUs
that it sees (`len(cuda.gpus)`), and what `get_uuid(i)` returns to it (`none`: not known). -/
structure Machine where
  p : ℕ
  node : ℕ → NodeName
  nGpus : ℕ → ℕ
  uuid : ℕ → ℕ → Option ℕ

/-- The loop of `check_consecutive_ranks_on_same_nodes` (`cuda.py:238-247`): `prev` is `nodes[i-1]`,
`seen` is `unique_nodes`, the list is what remains of `nodes`. -/
def standardLoop {N : Type} [DecidableEq N] : N → List N → List N → Bool
  | _, _, [] => true
  | prev, seen, n :: rest =>
    if n ≠ prev then
      if n ∉ seen then standardLoop n (seen ++ [n]) rest
      else false
    else standardLoop n seen rest

/-- `check_consecutive_ranks_on_same_nodes` (`cuda.py:220-258`): what rank 0 finds and broadcasts. -/
def checkConsecutive {N : Type} [DecidableEq N] : List N → Bool
  | [] => true
  | [_] => true
  | n :: rest => standardLoop n [n] rest

/-- `std_decomp` (`cuda.py:270`). -/
def stdDecomp (M : Machine) : Bool := checkConsecutive ((List.range M.p).map M.node)

/-- `int.from_bytes(…, 'little')`. -/
def fromBytes : NodeName → ℕ
  | [] => 0
  | b :: rest => b + 256 * fromBytes rest

/-- `color` (`cuda.py:275`). -/
def color (n : NodeName) : ℕ := fromBytes n % 100000000

/-- `comm.rank` (`cuda.py:271-278, 282`): the rank in `COMM_WORLD`, or the rank in the communicator that
`Split` makes of the processes with the same colour (without a key the order of the ranks is kept). -/
def commRank (M : Machine) (r : ℕ) : ℕ :=
  if stdDecomp M then r
  else (List.range r).countP fun i => color (M.node i) == color (M.node r)

/-- The loop over the GPUs (`cuda.py:283-287`): the device that is selected; `none` if no turn of the
loop selects one. -/
def device (M : Machine) (r : ℕ) : Option ℕ :=
  (List.range (M.nGpus r)).foldl
    (fun d i => if commRank M r % M.nGpus r = i then some i else d) none

/-- The collective calls on `COMM_WORLD`. -/
inductive Coll | gatherNames | bcastStd | split | barrier | gatherUuid
  deriving DecidableEq

/-- The collective calls that a process makes, in order (`cuda.py:228, 231, 257, 276, 287, 290`). -/
def calls (M : Machine) (r : ℕ) : List Coll :=
  (if M.p = 1 then [] else [.gatherNames, .bcastStd])
    ++ (if stdDecomp M then [] else [.split])
    ++ List.replicate (M.nGpus r) .barrier
    ++ (if device M r = none then [] else [.gatherUuid])

/-- `uuids = mpi.COMM_WORLD.gather(uuid)` (`cuda.py:290`): the list on the root, rank 0; `None` elsewhere. -/
def gathered (M : Machine) (r : ℕ) : Option (List (Option ℕ)) :=
  if r = 0 then
    some ((List.range M.p).map fun i => (device M i).bind (M.uuid i))
  else none

/-- How the call ends for one process. -/
inductive Ended
  | stuck
  | raised (e : PyErr)
  | done (warned : Bool)
  deriving DecidableEq

/-- `mpi_select_gpus` (`cuda.py:261-297`). A process that makes other collective calls than another one
waits without end (simplification: all processes of the run do, not only those that wait for each other). -/
def select (M : Machine) (r : ℕ) : Ended :=
  if (List.range M.p).any fun i => decide (calls M i ≠ calls M r) then .stuck
  else
    match device M r with
    | none => .raised (.runtimeError "UnboundLocalError: uuid")
    | some _ =>
      if commRank M r = 0 then
        match gathered M r with
        | none => .raised (.typeError "argument of type 'NoneType' is not iterable")
        | some uuids => .done (decide (none ∉ uuids ∧ ¬ uuids.Nodup))
      else .done false

end Fbpic.GpuSel
