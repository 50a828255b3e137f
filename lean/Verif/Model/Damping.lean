import Verif.Model.Comm
import Mathlib.Analysis.SpecialFunctions.Trigonometric.Basic

/-!
# Damping of the fields at the open boundaries

`boundaries/pml_damping.py` and `damp_EB_open_boundary`, `generate_damp_array`, `damp_pml_EB` of
`boundaries/boundary_communicator.py`. Exact real and complex arithmetic. The GPU kernel of the PML
is modelled as well; the GPU kernels `boundaries/cuda_methods.py:486-640` of the longitudinal
damping multiply the same entries by the same factors as the CPU code.
-/

namespace Fbpic

/-- A 2d array of complex numbers, first index z, second r (entries beyond its shape are never
touched). -/
abbrev Arr2 := ℕ → ℕ → ℂ

/-- The field arrays of one `InterpolationGrid` (fields/interpolation_grid.py:80-110). -/
@[ext] structure EBGrid where
  Er : Arr2
  Et : Arr2
  Ez : Arr2
  Br : Arr2
  Bt : Arr2
  Bz : Arr2
  ErPml : Arr2
  EtPml : Arr2
  BrPml : Arr2
  BtPml : Arr2

/-- `A[lo:hi, :] *= f[:, np.newaxis]`. -/
noncomputable def scaleRows (lo hi : ℕ) (f : ℕ → ℝ) (A : Arr2) : Arr2 :=
  fun i j => if lo ≤ i ∧ i < hi then A i j * f (i - lo) else A i j

/-! ### Longitudinal damping -/

/-- `generate_damp_array(n_guard, nz_damp, n_inject)[i]` (boundary_communicator.py:909-943). -/
noncomputable def dampArray (nGuard nzDamp nInject i : ℕ) : ℝ :=
  let a : ℝ := if (i : ℝ) < nGuard + nInject + nzDamp / 2 then
      Real.sin (((i : ℝ) - (nGuard + nInject)) * Real.pi / (2 * nzDamp / 2)) ^ 2 else 1
  if i < nGuard + nInject then 0 else a

/-- One branch (left or right) of `damp_EB_open_boundary`, for one mode: all components, and the
PML ones `if interp[m].use_pml` (boundary_communicator.py:862-873, 893-904). -/
noncomputable def dampRows (lo hi : ℕ) (f : ℕ → ℝ) (usePml : Bool) (g : EBGrid) : EBGrid :=
  let s := scaleRows lo hi f
  let g := { g with Er := s g.Er, Et := s g.Et, Ez := s g.Ez, Br := s g.Br, Bt := s g.Bt, Bz := s g.Bz }
  if usePml then
    { g with ErPml := s g.ErPml, EtPml := s g.EtPml, BrPml := s g.BrPml, BtPml := s g.BtPml }
  else g

/-- `damp_EB_open_boundary` on rank `rank` with arrays of `Nz` rows, for one mode
(boundary_communicator.py:828-907). If `nd > Nz` the shapes of the slice and of the damping array
differ. -/
noncomputable def dampOpenBoundary (c : Comm) (rank Nz : ℕ) (usePml : Bool) (g : EBGrid) :
    Except PyErr EBGrid :=
  if c.nzDamp ≠ 0 then do
    let nd := c.nGuard + c.nzDamp + c.nInject
    let d := dampArray c.nGuard c.nzDamp c.nInject
    let g ← (if c.leftProc rank = none then
        if Nz < nd then .error (.valueError "operands could not be broadcast together")
        else .ok (dampRows 0 nd d usePml g)
      else .ok g)
    if c.rightProc rank = none then
      if Nz < nd then .error (.valueError "operands could not be broadcast together")
      else .ok (dampRows (Nz - nd) Nz (fun i => d (nd - 1 - i)) usePml g)
    else .ok g
  else .ok g

/-! ### Radial PML -/

/-- `generate_pml_damp_array(n_pml, cdt_over_dr)[i]` (pml_damping.py:84-106). -/
noncomputable def pmlDampArray (nPml : ℕ) (cdtOverDr : ℝ) (i : ℕ) : ℝ :=
  Real.exp (-4 * cdtOverDr * ((i : ℝ) * 1 / nPml) ^ 2)

/-- `A[:, -n:] = f(A[:, -n:], B[:, -n:])` on arrays of shape `(Nz, Nr)`, with `f` also taking the
index along the slice. -/
def updCols (Nz Nr n : ℕ) (f : ℕ → ℂ → ℂ → ℂ) (A B : Arr2) : Arr2 :=
  fun i j => if i < Nz ∧ Nr - n ≤ j ∧ j < Nr then f (j - (Nr - n)) (A i j) (B i j) else A i j

/-- `PMLDamper.damp_pml_EB` on the CPU for one mode (pml_damping.py:65-81). For `n_pml = 0` the
slice `[:,-0:]` is the whole array, and for `n_pml > Nr` it is shorter than the damping array: in
both cases the shapes differ. -/
noncomputable def dampPmlCpu (Nz Nr nPml : ℕ) (cdtOverDr : ℝ) (g : EBGrid) : Except PyErr EBGrid :=
  if nPml = 0 ∨ Nr < nPml then .error (.valueError "operands could not be broadcast together")
  else
    let upd := updCols Nz Nr nPml
    let d := pmlDampArray nPml cdtOverDr
    let g := { g with Et := upd (fun _ a b => a - b) g.Et g.EtPml }
    let g := { g with Bt := upd (fun _ a b => a - b) g.Bt g.BtPml }
    let g := { g with EtPml := upd (fun i a _ => a * d i) g.EtPml g.EtPml }
    let g := { g with BtPml := upd (fun i a _ => a * d i) g.BtPml g.BtPml }
    let g := { g with Et := upd (fun _ a b => a + b) g.Et g.EtPml }
    let g := { g with Bt := upd (fun _ a b => a + b) g.Bt g.BtPml }
    let g := { g with Bz := upd (fun i a _ => a * d i) g.Bz g.Bz }
    let g := { g with Ez := upd (fun i a _ => a * d i) g.Ez g.Ez }
    .ok g

/-- Set one entry of an array. -/
def setAt (A : Arr2) (i j : ℕ) (v : ℂ) : Arr2 :=
  fun i' j' => if i' = i ∧ j' = j then v else A i' j'

/-- Thread `(iz, i_pml)` of `cuda_damp_pml_EB` (pml_damping.py:131-154). -/
noncomputable def dampPmlThread (Nz Nr nPml : ℕ) (d : ℕ → ℝ) (iz ipml : ℕ) (g : EBGrid) : EBGrid :=
  if ipml < nPml then
    if iz < Nz then
      let ir := Nr - nPml + ipml
      let g := { g with Et := setAt g.Et iz ir (g.Et iz ir - g.EtPml iz ir) }
      let g := { g with Bt := setAt g.Bt iz ir (g.Bt iz ir - g.BtPml iz ir) }
      let g := { g with EtPml := setAt g.EtPml iz ir (g.EtPml iz ir * d ipml) }
      let g := { g with BtPml := setAt g.BtPml iz ir (g.BtPml iz ir * d ipml) }
      let g := { g with Et := setAt g.Et iz ir (g.Et iz ir + g.EtPml iz ir) }
      let g := { g with Bt := setAt g.Bt iz ir (g.Bt iz ir + g.BtPml iz ir) }
      let g := { g with Ez := setAt g.Ez iz ir (g.Ez iz ir * d ipml) }
      { g with Bz := setAt g.Bz iz ir (g.Bz iz ir * d ipml) }
    else g
  else g

/-- The kernel: the threads run in some order (pml_damping.py:60-66). -/
noncomputable def dampPmlGpu (Nz Nr nPml : ℕ) (cdtOverDr : ℝ) (threads : List (ℕ × ℕ))
    (g : EBGrid) : EBGrid :=
  threads.foldl (fun g t => dampPmlThread Nz Nr nPml (pmlDampArray nPml cdtOverDr) t.1 t.2 g) g

end Fbpic
