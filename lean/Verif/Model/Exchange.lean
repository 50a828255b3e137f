import Verif.Model.Comm
import Mathlib.Logic.Function.Basic

/-!
# Model of `exchange_domains`, `exchange_fields` and of the CPU buffer handling
(`boundaries/boundary_communicator.py`, `boundaries/field_buffer_handling.py`)

All ranks are modelled together. A message is what a rank posts with `Isend`; a receive takes the
first posted message with the right source, destination and tag.
-/

namespace Fbpic

/-- A message posted with `Isend`. -/
structure Msg (B : Type) where
  src : ℤ
  dst : ℤ
  tag : ℕ
  payload : B

namespace Comm

/-- The `Isend` calls of one rank. boundary_communicator.py:688-698 -/
def postedSends {B : Type} (c : Comm) (r : ℕ) (sendLeft sendRight : B) : List (Msg B) :=
  (match c.leftProc r with
    | some l => [{ src := r, dst := l, tag := 1, payload := sendLeft }]
    | none => []) ++
  (match c.rightProc r with
    | some p => [{ src := r, dst := p, tag := 2, payload := sendRight }]
    | none => [])

/-- The `Irecv` calls of one rank, as (source, destination, tag).
boundary_communicator.py:690-700 -/
def postedRecvs (c : Comm) (r : ℕ) : List (ℤ × ℤ × ℕ) :=
  (match c.leftProc r with
    | some l => [(l, (r : ℤ), 2)]
    | none => []) ++
  (match c.rightProc r with
    | some p => [(p, (r : ℤ), 1)]
    | none => [])

/-- All messages of one collective `exchange_domains`. -/
def network {B : Type} (c : Comm) (sendLeft sendRight : ℕ → B) : List (Msg B) :=
  (List.range c.size).flatMap fun r => c.postedSends r (sendLeft r) (sendRight r)

/-- MPI matching of a receive by source, destination, tag. -/
def matchRecv {B : Type} (net : List (Msg B)) (src dst : ℤ) (tag : ℕ) : Option B :=
  (net.find? fun m => m.src = src ∧ m.dst = dst ∧ m.tag = tag).map Msg.payload

/-- `exchange_domains` on rank `r`: contents of `(recv_left, recv_right)`; `none` where no receive
is posted (buffer untouched). boundary_communicator.py:674-707 -/
def exchangeDomains {B : Type} (c : Comm) (sendLeft sendRight : ℕ → B) (r : ℕ) :
    Option B × Option B :=
  let net := c.network sendLeft sendRight
  ((c.leftProc r).bind fun l => matchRecv net l r 2,
   (c.rightProc r).bind fun p => matchRecv net p r 1)

end Comm

/-- `method` of `exchange_fields`. -/
inductive XMethod | replace | add
  deriving DecidableEq, Repr

/-- `nz_start`, `nz_end`. field_buffer_handling.py:180-185 -/
def XMethod.zone (ng : ℕ) : XMethod → ℕ × ℕ
  | .replace => (ng, 2 * ng)
  | .add => (0, 2 * ng)

/-- Filling of a send buffer: `buf[nf*m+k] = src[m][k]` for all modes `m` and components `k`
(`nf = 3`, `5` with PML, `1` for scalars). The loops overwrite the previous contents `old`.
field_buffer_handling.py:268-300 (vector), the same loop with one component for scalars. -/
def packBuf {B : Type} (nf Nm : ℕ) (src : ℕ → ℕ → B) (old : ℕ → B) : ℕ → B :=
  (List.range Nm).foldl (fun buf m =>
    (List.range nf).foldl (fun buf k => Function.update buf (nf * m + k) (src m k)) buf) old

/-- Fields of all ranks: rank, mode, component, row along z. A row is abstract (the whole radial
line). -/
abbrev RankFields (A : Type) := ℕ → ℕ → ℕ → ℕ → A

section
variable {A : Type} [Inhabited A]

/-- `send_l` of one rank. Slice `[nz_start:nz_end]`. field_buffer_handling.py:273-286 -/
def sendL (c : Comm) (meth : XMethod) (nf Nm : ℕ) (F : RankFields A) (r : ℕ) : ℕ → ℕ → A :=
  packBuf nf Nm (fun m k row => F r m k ((meth.zone c.nGuard).1 + row)) (fun _ _ => default)

/-- `send_r` of one rank. Slice `[Nz-nz_end:Nz-nz_start]`. field_buffer_handling.py:287-300
(`Nz ≥ 4*n_guard` by `divide_into_domain`, so the subtraction is not negative). -/
def sendR (c : Comm) (meth : XMethod) (nf Nm : ℕ) (N : ℕ → ℕ) (F : RankFields A) (r : ℕ) :
    ℕ → ℕ → A :=
  packBuf nf Nm (fun m k row => F r m k (N r - (meth.zone c.nGuard).2 + row)) (fun _ _ => default)

/-- Use of the received left buffer: rows `[:nz_end-nz_start]` are replaced, or added to.
field_buffer_handling.py:308-322, 339-343 -/
def recvLeft [Add A] (meth : XMethod) (w nf : ℕ) (buf : Option (ℕ → ℕ → A))
    (f : ℕ → ℕ → ℕ → A) : ℕ → ℕ → ℕ → A :=
  match buf with
  | none => f
  | some b => fun m k row =>
    if row < w then
      match meth with
      | .replace => b (nf * m + k) row
      | .add => f m k row + b (nf * m + k) row
    else f m k row

/-- Use of the received right buffer: rows `[-(nz_end-nz_start):]`.
field_buffer_handling.py:323-336, 344-348 -/
def recvRight [Add A] (meth : XMethod) (w nf N : ℕ) (buf : Option (ℕ → ℕ → A))
    (f : ℕ → ℕ → ℕ → A) : ℕ → ℕ → ℕ → A :=
  match buf with
  | none => f
  | some b => fun m k row =>
    if N - w ≤ row ∧ row < N then
      match meth with
      | .replace => b (nf * m + k) (row - (N - w))
      | .add => f m k row + b (nf * m + k) (row - (N - w))
    else f m k row

/-- `exchange_fields` on all ranks. boundary_communicator.py:556-671. First the left buffer is
used, then the right one. With `n_guard = 0` and a right neighbour the slice `[-0:]` is the whole
array and the assignment of an empty buffer raises. Modes `m < Nm` and components `k < nf` are
concerned; the others do not exist in the code. -/
def exchangeFields [Add A] (c : Comm) (meth : XMethod) (nf Nm : ℕ) (N : ℕ → ℕ)
    (F : RankFields A) : Except PyErr (RankFields A) :=
  if c.size = 1 then .ok F
  else if c.nGuard = 0 then .error (.valueError "could not broadcast input array")
  else
    let w := (meth.zone c.nGuard).2 - (meth.zone c.nGuard).1
    .ok fun r =>
      let bufs := c.exchangeDomains (sendL c meth nf Nm F) (sendR c meth nf Nm N F) r
      recvRight meth w nf (N r) bufs.2 (recvLeft meth w nf bufs.1 (F r))

end
end Fbpic
