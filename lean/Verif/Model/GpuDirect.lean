import Verif.Model.Exchange

/-!
# Exchange of fields with and without GPUDirect (`utils/mpi.py`, `boundaries/boundary_communicator.py`,
`boundaries/field_buffer_handling.py`)

The buffers in the memory of the CPU and of the GPU are modelled with the content that they keep from one exchange to the next. One
exchange type (the buffers of different types are different arrays). The GPU kernels that fill and use the buffers are those of
`Model/Kernels.lean`, for which C102 shows that they do the same as the loops on the CPU; here the effect on the arrays is taken. Transfers are complete when the call returns (`cuda.synchronize`, boundary_communicator.py:641).
-/

namespace Fbpic.GpuDirect

/-- Import of `fbpic.utils.mpi`: value of `gpudirect_enabled`. `var`: the environment variable `FBPIC_ENABLE_GPUDIRECT` (`none`: not set;
`some none`: not the text of an integer). utils/mpi.py:10-76 -/
def gpudirectEnabled (mpiInstalled : Bool) (var : Option (Option ℤ)) (major minor : ℕ) : Except PyErr Bool :=
  if mpiInstalled then
    match var with
    | none => .ok false
    | some none => .error (.valueError "invalid literal for int()")
    | some (some v) =>
      if v = 1 then
        if major < 4 then
          if major < 3 ∨ minor < 1 then .error (.runtimeError "In order to use GPU Direct, you need to install mpi4py>=3.1.")
          else .ok true
        else .ok true
      else .ok false
  else .ok false

/-- `send_l`, `send_r`, `recv_l`, `recv_r` (or `d_send_l`, …) for one exchange type. field_buffer_handling.py:72-111 -/
structure Bufs (B : Type) where
  sendL : B
  sendR : B
  recvL : B
  recvR : B

/-- The buffers of one rank. -/
structure Mem (B : Type) where
  cpu : Bufs B
  gpu : Bufs B

/-- What the exchange depends on: `cuda_installed`, `use_cuda` of the simulation, `gpudirect_enabled`. -/
structure Machine where
  cuda : Bool
  useCuda : Bool
  direct : Bool
  deriving DecidableEq

/-- Exceptions of the exchange. -/
inductive Err
  | nameError (name : String)
  | py (e : PyErr)
  deriving DecidableEq

variable {B : Type}

/-- The sending buffers are filled where there is a neighbour. field_buffer_handling.py:198-215, 268-300 -/
def Bufs.fill (left right : Bool) (pl pr : B → B) (b : Bufs B) : Bufs B :=
  { b with
    sendL := if left then pl b.sendL else b.sendL
    sendR := if right then pr b.sendR else b.sendR }

/-- `d_send_l.get(out=send_l)`. field_buffer_handling.py:216-224 -/
def copySend (left right : Bool) (g b : Bufs B) : Bufs B :=
  { b with
    sendL := if left then g.sendL else b.sendL
    sendR := if right then g.sendR else b.sendR }

/-- `d_recv_l.set(recv_l)`. field_buffer_handling.py:227-235 -/
def copyRecv (left right : Bool) (b g : Bufs B) : Bufs B :=
  { g with
    recvL := if left then b.recvL else g.recvL
    recvR := if right then b.recvR else g.recvR }

/-- `handle_vec_buffer`, `handle_scal_buffer` with `before_sending`. field_buffer_handling.py:191-224, 268-300, 420-440, 470-480 -/
def beforeSending (M : Machine) (left right : Bool) (pl pr : B → B) (s : Mem B) : Mem B :=
  if M.useCuda then
    let g := s.gpu.fill left right pl pr
    if M.direct then { s with gpu := g } else ⟨copySend left right g s.cpu, g⟩
  else { s with cpu := s.cpu.fill left right pl pr }

/-- The buffers given to `exchange_domains`. boundary_communicator.py:643-656 -/
def pointers (M : Machine) (s : Mem B) : Bufs B := if M.direct then s.gpu else s.cpu

/-- `Irecv` into the receiving buffers; `none`: no neighbour. boundary_communicator.py:643-659, 688-707 -/
def receive (M : Machine) (x : Option B × Option B) (s : Mem B) : Mem B :=
  let put (b : Bufs B) : Bufs B := { b with recvL := x.1.getD b.recvL, recvR := x.2.getD b.recvR }
  if M.direct then { s with gpu := put s.gpu } else { s with cpu := put s.cpu }

/-- Copy of the buffers with `after_receiving`. field_buffer_handling.py:226-235, 442-451 -/
def afterReceiving (M : Machine) (left right : Bool) (s : Mem B) : Mem B :=
  if M.useCuda then
    if M.direct then s else { s with gpu := copyRecv left right s.cpu s.gpu }
  else s

/-- The receiving buffers that are used for the grid. field_buffer_handling.py:236-263, 302-305 -/
def used (M : Machine) (s : Mem B) : Bufs B := if M.useCuda then s.gpu else s.cpu

variable {A : Type}

/-- `send_l` filled with the rows `[nz_start:nz_end]`. field_buffer_handling.py:273-286 -/
def packL (c : Comm) (meth : XMethod) (nf Nm : ℕ) (F : RankFields A) (r : ℕ) (old : ℕ → ℕ → A) : ℕ → ℕ → A :=
  packBuf nf Nm (fun m k row => F r m k ((meth.zone c.nGuard).1 + row)) old

/-- `send_r` filled with the rows `[Nz-nz_end:Nz-nz_start]`. field_buffer_handling.py:287-300 -/
def packR (c : Comm) (meth : XMethod) (nf Nm : ℕ) (N : ℕ → ℕ) (F : RankFields A) (r : ℕ) (old : ℕ → ℕ → A) : ℕ → ℕ → A :=
  packBuf nf Nm (fun m k row => F r m k (N r - (meth.zone c.nGuard).2 + row)) old

/-- `exchange_fields` on all ranks, with the fields and the buffers of all ranks. boundary_communicator.py:556-671. The name `cuda` is
imported only if CUDA is installed (boundary_communicator.py:21-26). (`n_guard = 0`: as in `exchangeFields`.) -/
def exchange [Add A] (M : Machine) (c : Comm) (meth : XMethod) (nf Nm : ℕ) (N : ℕ → ℕ) (F : RankFields A)
    (s : ℕ → Mem (ℕ → ℕ → A)) : Except Err (RankFields A × (ℕ → Mem (ℕ → ℕ → A))) :=
  if c.size = 1 then .ok (F, s)
  else
    let left r := (c.leftProc r).isSome
    let right r := (c.rightProc r).isSome
    let s1 r := beforeSending M (left r) (right r) (packL c meth nf Nm F r) (packR c meth nf Nm N F r) (s r)
    if M.direct && !M.cuda then .error (.nameError "cuda")
    else if c.nGuard = 0 then .error (.py (.valueError "could not broadcast input array"))
    else
      let w := (meth.zone c.nGuard).2 - (meth.zone c.nGuard).1
      let s2 r := receive M
        (c.exchangeDomains (fun q => (pointers M (s1 q)).sendL) (fun q => (pointers M (s1 q)).sendR) r) (s1 r)
      let s3 r := afterReceiving M (left r) (right r) (s2 r)
      .ok (fun r =>
        recvRight meth w nf (N r) (if right r then some (used M (s3 r)).recvR else none)
          (recvLeft meth w nf (if left r then some (used M (s3 r)).recvL else none) (F r)), s3)

end Fbpic.GpuDirect
