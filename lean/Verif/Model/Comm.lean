import Verif.Model.Prelude

/-!
# Model of `fbpic/boundaries/boundary_communicator.py`: construction, domain decomposition

Simplifications (on top of the global ones in DESIGN.md): MPI ranks/sizes, cell counts and
the user-given numbers of guard/damp/injection cells are natural numbers (Python would accept
negative ones); warnings are dropped; the GPU copies of the arrays are dropped;
`get_stencil_reach` (`fbpic/fields/utility_methods.py:69-133`) enters as the number `stencil`.
-/

namespace Fbpic

/-- Errors raised by the modelled code. The string is only for reading. -/
inductive PyErr where
  | valueError (msg : String)
  | typeError (msg : String)
  | runtimeError (msg : String)
  | attributeError (msg : String)
  | assertionError (msg : String)
  | indexError (msg : String)
  deriving DecidableEq, Repr

/-- `boundaries['z']` after validation. -/
inductive ZB | periodic | opened
  deriving DecidableEq, Repr

/-- `boundaries['r']` after validation. -/
inductive RB | reflective | opened
  deriving DecidableEq, Repr

/-- What the user may pass as `boundaries`: a string, a dictionary (with possibly missing keys
`z`, `r`), or something else. boundary_communicator.py:163-185 -/
inductive BoundArg
  | str (s : String)
  | dict (z r : Option String)
  | other
  deriving DecidableEq, Repr

/-- Check of the boundary values. boundary_communicator.py:186-194 -/
def checkBoundaryValues (z r : String) : Except PyErr (ZB × RB) :=
  if z = "periodic" then
    if r = "reflective" then .ok (.periodic, .reflective)
    else if r = "open" then .ok (.periodic, .opened)
    else .error (.valueError "Unrecognized boundaries['r']")
  else if z = "open" then
    if r = "reflective" then .ok (.opened, .reflective)
    else if r = "open" then .ok (.opened, .opened)
    else .error (.valueError "Unrecognized boundaries['r']")
  else .error (.valueError "Unrecognized boundaries['z']")

/-- Validation of `boundaries`. boundary_communicator.py:163-194 -/
def parseBoundaries : BoundArg → Except PyErr (ZB × RB)
  | .str s => checkBoundaryValues s "reflective"
  | .dict (some z) (some r) => checkBoundaryValues z r
  | .dict _ _ => .error (.valueError "keys should be 'z' and 'r'")
  | .other => .error (.valueError "boundaries should be a dictionary")

/-- The part of a `BoundaryCommunicator` object that is fixed after construction and that is
the same on all ranks. `NzGlobal` is `_Nz_global_domain`. -/
structure Comm where
  NzGlobal : ℕ
  size : ℕ
  nGuard : ℕ
  nzDamp : ℕ
  nInject : ℕ
  bz : ZB
  br : RB
  exchangePeriod : ℤ
  deriving DecidableEq, Repr

/-- Constructor arguments of `BoundaryCommunicator` (boundary_communicator.py:51-57) that
matter for the decomposition in z; `size` stands for `comm.size` of MPI (1 if
`use_all_mpi_ranks` is False), `stencil` for the value of `get_stencil_reach(...)`,
`cdt` for `c*dt`, `dz` for `(zmax-zmin)/Nz`. -/
structure CommArgs (K : Type) where
  Nz : ℕ
  size : ℕ
  boundaries : BoundArg
  nOrder : ℤ
  nGuard : Option ℕ
  nDampZ : ℕ
  nInject : Option ℕ
  exchangePeriod : Option ℤ
  stencil : ℕ
  cdt : K
  dz : K

section
variable {K : Type} [Field K] [LinearOrder K] [FloorRing K]

/-- Number of guard cells before the single-proc periodic special case.
boundary_communicator.py:227-252 -/
def initialGuard (a : CommArgs K) : Except PyErr ℕ :=
  match a.nGuard with
  | none =>
    if a.nOrder = -1 then
      if a.size ≠ 1 then .error (.valueError "n_order must be positive with MPI decomposition")
      else .ok 64
    else .ok (a.stencil + 1)
  | some n => .ok n

/-- `exchange_period`. boundary_communicator.py:281-304 -/
def initExchangePeriod (a : CommArgs K) (bz : ZB) (nGuard : ℕ) : Except PyErr ℤ :=
  match a.exchangePeriod with
  | none =>
    let cellsPerStep : K := 2 * a.cdt / a.dz
    let p : ℤ := pyInt ((((nGuard : K) / 2) - 3) / cellsPerStep)
    let p : ℤ := if a.size = 1 ∧ bz = .periodic then 1 else p
    if p < 1 then .error (.valueError "Guard region size is too small for chosen timestep.")
    else .ok p
  | some p => .ok p

/-- `BoundaryCommunicator.__init__` (z part). boundary_communicator.py:154-304.
Order of checks as in the code: boundaries, n_guard, exchange_period. -/
def mkComm (a : CommArgs K) : Except PyErr Comm := do
  let (bz, br) ← parseBoundaries a.boundaries
  let ng ← initialGuard a
  -- lines 253-256: for single proc and periodic boundaries, no need for guard cells
  let ng := if bz = .periodic ∧ a.size = 1 then 0 else ng
  -- lines 258-272: damping and injection cells
  let nzDamp := if bz = .periodic then 0 else a.nDampZ
  let nInject := if bz = .periodic then 0 else
    match a.nInject with
    | none => ng / 2          -- int(n_guard/2)
    | some n => n
  let p ← initExchangePeriod a bz ng
  return { NzGlobal := a.Nz, size := a.size, nGuard := ng, nzDamp := nzDamp,
           nInject := nInject, bz := bz, br := br, exchangePeriod := p }

end

namespace Comm

/-- `self.left_proc` of rank `rank` (`none` models Python's `None`).
boundary_communicator.py:207-222 -/
def leftProc (c : Comm) (rank : ℕ) : Option ℤ :=
  match c.bz with
  | .periodic => if rank = 0 then some (c.size - 1) else some (rank - 1)
  | .opened => if rank = 0 then none else some (rank - 1)

/-- `self.right_proc` of rank `rank`. boundary_communicator.py:207-222 -/
def rightProc (c : Comm) (rank : ℕ) : Option ℤ :=
  match c.bz with
  | .periodic => if rank + 1 = c.size then some 0 else some (rank + 1)
  | .opened => if rank + 1 = c.size then none else some (rank + 1)

/-- `get_Nz_and_iz(local, with_damp, with_guard, rank)`: number of cells and (signed) index of
the first cell, counted from the first cell of the global physical domain.
boundary_communicator.py:399-473.
`int(self._Nz_global_domain/self.size)` is natural-number division (`size ≥ 1` always). -/
def getNzIz (c : Comm) (loc withDamp withGuard : Bool) (rank : Option ℕ) :
    Except PyErr (ℕ × ℤ) :=
  if loc then
    match rank with
    | none => .error (.valueError "For a local number of cells, the rank considered is needed.")
    | some rank =>
      let nzPerProc := c.NzGlobal / c.size
      let nz := nzPerProc
      let iz : ℤ := rank * nzPerProc
      let nz := if rank + 1 = c.size then nz + c.NzGlobal % c.size else nz
      -- damp cells, only for first and last sub-domain
      let nz := if withDamp ∧ rank = 0 then nz + (c.nzDamp + c.nInject) else nz
      let iz := if withDamp ∧ rank = 0 then iz - (c.nzDamp + c.nInject) else iz
      let nz := if withDamp ∧ rank + 1 = c.size then nz + (c.nzDamp + c.nInject) else nz
      -- guard cells
      let nz := if withGuard then nz + 2 * c.nGuard else nz
      let iz := if withGuard then iz - c.nGuard else iz
      .ok (nz, iz)
  else
    let nz := c.NzGlobal
    let iz : ℤ := 0
    let nz := if withDamp then nz + 2 * (c.nzDamp + c.nInject) else nz
    let iz := if withDamp then iz - (c.nzDamp + c.nInject) else iz
    let nz := if withGuard then nz + 2 * c.nGuard else nz
    let iz := if withGuard then iz - c.nGuard else iz
    .ok (nz, iz)

section
variable {K : Type} [Field K]

/-- `get_zmin_zmax`. boundary_communicator.py:476-512.
`zminGlobal` is the attribute `_zmin_global_domain`, `dz` the attribute `dz`. -/
def getZminZmax (c : Comm) (zminGlobal dz : K) (loc withDamp withGuard : Bool)
    (rank : Option ℕ) : Except PyErr (K × K) := do
  let (nz, izStart) ← c.getNzIz loc withDamp withGuard rank
  let zmin := zminGlobal + (izStart : K) * dz
  let zmax := zmin + (nz : K) * dz
  return (zmin, zmax)

/-- `divide_into_domain` on rank `rank`. boundary_communicator.py:338-369 -/
def divideIntoDomain (c : Comm) (zminGlobal dz : K) (rank : ℕ) : Except PyErr (K × K × ℕ) := do
  let (zmin, zmax) ← c.getZminZmax zminGlobal dz true true true (some rank)
  let (nz, _) ← c.getNzIz true true true (some rank)
  if nz < 4 * c.nGuard then
    throw (.valueError "The boundary guard region is larger than the physical domain size.")
  return (zmin, zmax, nz)

/-- `shift_global_domain_positions`: new value of `_zmin_global_domain`.
boundary_communicator.py:515-525 -/
def shiftGlobalDomainPositions (zminGlobal zShift : K) : K := zminGlobal + zShift

end
end Comm
end Fbpic
