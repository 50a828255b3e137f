import Verif.Model.Spectral

/-!
# Binomial smoothing and finite-order stencil

`fields/smoothing.py`, `SpectralGrid.filter` with its kernels, and `get_modified_k` of
`fields/utility_methods.py`. Exact real and complex arithmetic.
-/

namespace Fbpic

/-- What the user may pass as `n_passes` or `compensator`: a single value, a dictionary, or
something else. -/
inductive PerAxisArg (α : Type) where
  | single (a : α)
  | dict (z r : Option α)
  | other

/-- `BinomialSmoother` after construction. Simplification: the number of passes is a natural
number. A missing dictionary key is only noticed in `get_filter_array`. -/
structure Smoother where
  nPasses : Option ℕ × Option ℕ
  compensator : Option Bool × Option Bool

/-- `self.n_passes = ...` (smoothing.py:41-54). -/
def PerAxisArg.register {α : Type} : PerAxisArg α → Except PyErr (Option α × Option α)
  | .single a => .ok (some a, some a)
  | .dict z r => .ok (z, r)
  | .other => .error (.valueError "Invalid argument")

/-- `BinomialSmoother.__init__` (smoothing.py:17-54). -/
def mkSmoother (n : PerAxisArg ℕ) (comp : PerAxisArg Bool) : Except PyErr Smoother := do
  let n ← n.register
  let comp ← comp.register
  .ok ⟨n, comp⟩

/-- `filt_z` or `filt_r` for one wavenumber (smoothing.py:80-93). -/
noncomputable def filterFactor (n : ℕ) (comp : Bool) (k d : ℝ) : ℝ :=
  let s2 := Real.sin (0.5 * k * d) ^ 2
  let f := (1 - s2) ^ n
  if comp then f * (1 + n * s2) else f

/-- `get_filter_array` (smoothing.py:57-94): the two filters as functions of the index. A missing
dictionary key raises (KeyError, modelled as `indexError`). -/
noncomputable def Smoother.filterArrays (s : Smoother) (kz kr : ℕ → ℝ) (dz dr : ℝ) :
    Except PyErr ((ℕ → ℝ) × (ℕ → ℝ)) :=
  match s.nPasses, s.compensator with
  | (some nz, some nr), (some cz, some cr) =>
    .ok (fun i => filterFactor nz cz (kz i) dz, fun i => filterFactor nr cr (kr i) dr)
  | _, _ => .error (.indexError "KeyError")

/-- The field names accepted by `SpectralGrid.filter` (spectral_grid.py:423-478). -/
inductive FilterField where
  | E | B | J | rhoPrev | rhoNext | rhoNextZ | rhoNextXY

/-- `numba_filter_vector`, `numba_filter_scalar` in one cell, called by `filter`
(spectral_grid.py:456-474, numba_methods.py:14-60). -/
noncomputable def filterCell (f : ℝ) (fld : FilterField) (s : SpecCell) : SpecCell :=
  match fld with
  | .J => { s with Jp := f * s.Jp, Jm := f * s.Jm, Jz := f * s.Jz }
  | .E => { s with Ep := f * s.Ep, Em := f * s.Em, Ez := f * s.Ez }
  | .B => { s with Bp := f * s.Bp, Bm := f * s.Bm, Bz := f * s.Bz }
  | .rhoPrev => { s with rhoPrev := f * s.rhoPrev }
  | .rhoNext => { s with rhoNext := f * s.rhoNext }
  | .rhoNextZ => { s with rhoNextZ := f * s.rhoNextZ }
  | .rhoNextXY => { s with rhoNextXY := f * s.rhoNextXY }

/-- `SpectralGrid.filter(fieldtype)`: the factor is `filter_array_z[iz]*filter_array_r[ir]`. -/
noncomputable def SpecGrid.filter (g : SpecGrid) (filtZ filtR : ℕ → ℝ) (fld : FilterField) :
    SpecGrid :=
  { g with cell := fun iz ir => if iz < g.Nz ∧ ir < g.Nr then
      filterCell (filtZ iz * filtR ir) fld (g.cell iz ir) else g.cell iz ir }

/-! ### Finite-order stencil -/

/-- `stencil_coef[n]` (utility_methods.py:49-52). -/
noncomputable def stencilCoef (m : ℕ) : ℕ → ℝ
  | 0 => -2
  | n + 1 => -((m : ℝ) + 1 - (n + 1 : ℕ)) * 1 / ((m : ℝ) + (n + 1 : ℕ)) * stencilCoef m n

/-- `get_modified_k` for one value of `k` (utility_methods.py:11-66). `n_order % 2 == 1` is
Python's modulo, which is the Euclidean one for the modulus 2. -/
noncomputable def modifiedK (k : ℝ) (nOrder : ℤ) (dz : ℝ) : Except PyErr ℝ :=
  if nOrder = -1 then .ok k
  else if nOrder % 2 = 1 ∨ nOrder ≤ 0 then .error (.valueError "Invalid n_order")
  else
    let m := (nOrder / 2).toNat
    .ok (∑ n ∈ Finset.Icc 1 m, Real.sin (k * n * dz) / (n * dz) * stencilCoef m n)

end Fbpic
