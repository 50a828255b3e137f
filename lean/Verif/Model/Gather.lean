import Verif.Model.Comm

/-!
# Model of `gather_grid_array`, `scatter_grid_array`, `gather_ptcl_array`
(`boundaries/boundary_communicator.py`)

A 2d array is a function of row and column; a contiguous buffer of a 2d array with `Nr` columns is
the function of the flat index `i`, row `i / Nr`, column `i % Nr`. `Gatherv`/`Scatterv` work on
flat buffers with counts and displacements, as in the code. Only the array of the root is modelled
(the other ranks return `None`).
-/

namespace Fbpic

/-- Value of a call that cannot raise here (`get_Nz_and_iz` with a rank given). -/
def okOr {α : Type} (d : α) : Except PyErr α → α
  | .ok x => x
  | .error _ => d

/-- `MPI.Gatherv`: rank `k` contributes `cnt k` elements, stored from `disp k` on. -/
def gatherv {A : Type} (n : ℕ) (cnt disp : ℕ → ℕ) (send : ℕ → ℕ → A) (init : ℕ → A) : ℕ → A :=
  (List.range n).foldl
    (fun buf k i => if disp k ≤ i ∧ i < disp k + cnt k then send k (i - disp k) else buf i) init

/-- `MPI.Scatterv`: rank `k` receives `cnt k` elements, starting at `disp k`. -/
def scatterv {A : Type} (cnt disp : ℕ → ℕ) (send : ℕ → A) (k : ℕ) (init : ℕ → A) : ℕ → A :=
  fun i => if i < cnt k then send (disp k + i) else init i

/-- Contiguous copy of `array[i0:, :Nr]` as a flat buffer. -/
def flat {A : Type} (Nr : ℕ) (a : ℕ → ℕ → A) : ℕ → A := fun i => a (i / Nr) (i % Nr)

/-- View of a flat buffer as a 2d array with `Nr` columns. -/
def unflat {A : Type} (Nr : ℕ) (b : ℕ → A) : ℕ → ℕ → A := fun i j => b (i * Nr + j)

variable {A : Type} [Zero A]

/-- `gather_grid_array` (array returned on the root), `arr k` is the local array of rank `k`,
`Nr = get_Nr(with_damp)`. boundary_communicator.py:1011-1072 -/
def gatherGridArray (c : Comm) (Nr : ℕ) (withDamp : Bool) (arr : ℕ → ℕ → ℕ → A) : ℕ → ℕ → A :=
  let izGlobal := (okOr (0, 0) (c.getNzIz false withDamp false none)).2
  let loc := fun k => okOr (0, 0) (c.getNzIz true withDamp false (some k))
  let izInArray := fun k =>
    (loc k).2 - (okOr (0, 0) (c.getNzIz true true true (some k))).2
  let localArray := fun k i j => arr k ((izInArray k).toNat + i) j
  if 1 < c.size then
    unflat Nr (gatherv c.size (fun k => Nr * (loc k).1)
      (fun k => ((Nr : ℤ) * ((loc k).2 - izGlobal)).toNat)
      (fun k => flat Nr (localArray k)) (fun _ => 0))
  else localArray 0

/-- `scatter_grid_array` (array returned on rank `k`). boundary_communicator.py:1075-1129 -/
def scatterGridArray (c : Comm) (Nr : ℕ) (withDamp : Bool) (array : ℕ → ℕ → A) (k : ℕ) :
    ℕ → ℕ → A :=
  let izGlobal := (okOr (0, 0) (c.getNzIz false withDamp false none)).2
  let loc := fun k => okOr (0, 0) (c.getNzIz true withDamp false (some k))
  if 1 < c.size then
    unflat Nr (scatterv (fun k => Nr * (loc k).1)
      (fun k => ((Nr : ℤ) * ((loc k).2 - izGlobal)).toNat) (flat Nr array) k (fun _ => 0))
  else
    let izInArray := (loc k).2 - izGlobal
    fun i j => if i < (loc k).1 then array (izInArray.toNat + i) j else 0

/-- `np.cumsum([0] + n_rank[:-1])`: displacement of rank `k`. -/
def cumsumBefore (n : ℕ → ℕ) (k : ℕ) : ℕ := ((List.range k).map n).sum

/-- `gather_ptcl_array` on the root: `nRank k` particles of rank `k`.
boundary_communicator.py:1175-1222 -/
def gatherPtclArray (size : ℕ) (nRank : ℕ → ℕ) (arr : ℕ → ℕ → A) : ℕ → A :=
  if 1 < size then gatherv size nRank (cumsumBefore nRank) arr (fun _ => 0)
  else arr 0

end Fbpic
