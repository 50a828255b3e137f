import Verif.Model.Exchange
import Verif.Model.CellVolume
import Verif.Model.FieldGather

/-!
# Deposition and gathering on all processes

Models `Simulation.deposit(..., exchange=True)` up to the transform to spectral space
(`fbpic/main.py:632-660`) and `Particles.gather` (`fbpic/particles/particles.py:673-830`, CPU) on all processes
together: every process works on its own sub-domain (`divide_into_domain`), then the guard cells are exchanged.
The processes do not communicate before the exchange, so they are modelled one after the other.
-/

namespace Fbpic.Ranks

/-- What is the same on all processes: `z0` is the left end of the global domain, `dz` the cell size,
`vol m` the cell volumes of mode `m` and `beta` the Ruyten coefficients (`interpolation_grid.py:72-134`). -/
structure Setup where
  z0 : ℝ
  dz : ℝ
  invdr : ℝ
  Nr : ℕ
  Nm : ℕ
  clight : ℝ
  nthreads : ℕ
  rmaxGather : ℝ
  beta : Shape → ℕ → List ℝ
  vol : ℕ → ℕ → ℝ

/-- The grid of one process: `zmin, zmax, Nz = self.comm.divide_into_domain()` (main.py:292), then
`dz = (zmax-zmin)/Nz`, `invdz = 1./dz` (interpolation_grid.py:72-76). The same for all modes. -/
noncomputable def rankGrid (c : Comm) (S : Setup) (r : ℕ) : Except PyErr CylGrid := do
  let (zmin, zmax, nz) ← c.divideIntoDomain S.z0 S.dz r
  pure ⟨1 / ((zmax - zmin) / nz), zmin, nz, S.invdr, 0, S.Nr⟩

/-- Number of rows (`Nz`) of the local arrays of process `r`. boundary_communicator.py:366-369 -/
def rows (c : Comm) (r : ℕ) : ℕ :=
  match c.getNzIz true true true (some r) with
  | .ok p => p.1
  | .error _ => 0

/-- Global index of the first row of the local arrays of process `r`. boundary_communicator.py:399-473 -/
def start (c : Comm) (r : ℕ) : ℤ :=
  match c.getNzIz true true true (some r) with
  | .ok p => p.2
  | .error _ => 0

/-- The components that `deposit` handles: `'rho'` and `'J'`. main.py:632, 648 -/
inductive Source | rho | J
  deriving DecidableEq

/-- Number of components. -/
def Source.nf : Source → ℕ
  | .rho => 1
  | .J => 3

/-- In the order of the exchange buffers (`Jr`, `Jt`, `Jz`; boundary_communicator.py:615-630). -/
def Source.comp : Source → ℕ → DepField
  | .rho, _ => .rho
  | .J, k => if k = 0 then .Jr else if k = 1 then .Jt else .Jz

/-- On one process: erase, deposit all species, sum the threads, divide by the volume (main.py:633-640,
649-657); for all modes and components. -/
noncomputable def depositRank (S : Setup) (f : Source) (g : CylGrid) (sps : List DepSpecies) :
    Except PyErr (ℕ → ℕ → Buf) :=
  (List.range S.Nm).foldlM (fun (A : ℕ → ℕ → Buf) (m : ℕ) => do
    let B ← (List.range f.nf).foldlM (fun (B : ℕ → Buf) (k : ℕ) => do
      let a ← depositAll (f.comp k) S.clight g S.beta m S.nthreads sps
      pure (Function.update B k (CellVolume.divideByVolume (S.vol m) a))) (fun _ _ _ => 0)
    pure (Function.update A m B)) (fun _ _ _ _ => 0)

/-- `deposit(fieldtype, exchange=True)` on all processes, up to the transform (main.py:632-660); `sps r` are the
species of process `r`. -/
noncomputable def depositRanks (c : Comm) (S : Setup) (f : Source) (sps : ℕ → List DepSpecies) :
    Except PyErr (RankFields (ℕ → ℂ)) := do
  let F ← (List.range c.size).foldlM (fun (F : RankFields (ℕ → ℂ)) (r : ℕ) => do
    let g ← rankGrid c S r
    let A ← depositRank S f g (sps r)
    pure (Function.update F r A)) (fun _ _ _ _ _ => 0)
  if 1 < c.size then exchangeFields c .add f.nf S.Nm (rows c) F else pure F

/-- `exchange_fields(fld.interp, 'E', 'replace')` on all processes (main.py:408-409, 745-746), then
`Particles.gather` of one of the two fields for a particle of process `r` at `(x, y, z)`. -/
noncomputable def gatherRank (c : Comm) (S : Setup) (s : Shape) (E : RankFields (ℕ → ℂ)) (r : ℕ) (x y z : ℝ) :
    Except PyErr (ℝ × ℝ × ℝ) := do
  let E' ← exchangeFields c .replace 3 S.Nm (rows c) E
  let g ← rankGrid c S r
  gatherField s g S.rmaxGather
    ((List.range S.Nm).map fun m => (⟨E' r m 0, E' r m 1, E' r m 2⟩ : GridVec)) x y z

end Fbpic.Ranks
