import Verif.Model.Smoothing
import Verif.Model.Transform

/-!
# The field solver on parts of the grid (C112)
-/

namespace Fbpic.Spec

open Transform

/-- The quantities that the push of the fields uses. -/
inductive Quant where
  | Ep | Em | Ez | Bp | Bm | Bz | Jp | Jm | Jz | rhoPrev | rhoNext

/-- The value of a quantity. -/
def Quant.of : Quant → SpecCell → ℂ
  | .Ep, s => s.Ep | .Em, s => s.Em | .Ez, s => s.Ez
  | .Bp, s => s.Bp | .Bm, s => s.Bm | .Bz, s => s.Bz
  | .Jp, s => s.Jp | .Jm, s => s.Jm | .Jz, s => s.Jz
  | .rhoPrev, s => s.rhoPrev | .rhoNext, s => s.rhoNext

/-- The fields E and B. -/
def Quant.isField : Quant → Prop
  | .Ep | .Em | .Ez | .Bp | .Bm | .Bz => True
  | _ => False

/-- The values of all quantities as functions of the cell in z and of the radial wavenumber. -/
abbrev Rows := ℕ → ℕ → SpecCell

/-- A transform, applied to each quantity. -/
def mapQuant (T : (ℕ → ℕ → ℂ) → ℕ → ℕ → ℂ) (F : Rows) : Rows := fun i j =>
  { F i j with
    Ep := T (fun i j => (F i j).Ep) i j
    Em := T (fun i j => (F i j).Em) i j
    Ez := T (fun i j => (F i j).Ez) i j
    Bp := T (fun i j => (F i j).Bp) i j
    Bm := T (fun i j => (F i j).Bm) i j
    Bz := T (fun i j => (F i j).Bz) i j
    Jp := T (fun i j => (F i j).Jp) i j
    Jm := T (fun i j => (F i j).Jm) i j
    Jz := T (fun i j => (F i j).Jz) i j
    rhoPrev := T (fun i j => (F i j).rhoPrev) i j
    rhoNext := T (fun i j => (F i j).rhoNext) i j }

/-- The parameters of the standard solver of the finite order `2 * half`. -/
structure SolverPar where
  k : Consts
  dt : ℝ
  half : ℕ
  dz : ℝ
  Nr : ℕ
  kr : ℕ → ℝ
  trueRho : Bool

/-- Sensible parameters. -/
structure SolverPar.Ok (P : SolverPar) : Prop where
  consts : P.k.Ok
  dt : 0 < P.dt
  half : 1 ≤ P.half
  dz : 0 < P.dz

/-- The wavenumbers of a grid of `N` cells. -/
noncomputable def SolverPar.kz (P : SolverPar) (N iz : ℕ) : ℝ := (modifiedK (kzTrue N P.dz iz) (2 * P.half) P.dz).toOption.getD 0

/-- One push of the fields on a periodic grid of `N` cells: transform along z, push of the code, transform back. -/
noncomputable def SolverPar.solve (P : SolverPar) (N : ℕ) [NeZero N] (F : Rows) : Rows :=
  mapQuant (fftAxis0 N true) (SpecGrid.push P.k P.dt none false false P.trueRho
    ⟨N, P.Nr, P.kz N, P.kr, mapQuant (fftAxis0 N false) F⟩).cell

/-- All values of `N` cells are at most `M`. -/
def SolverPar.Bounded (P : SolverPar) (N : ℕ) (M : ℝ) (F : Rows) : Prop := ∀ q : Quant, ∀ i < N, ∀ ir < P.Nr, ‖q.of (F i ir)‖ ≤ M

/-! ### Several processes -/

/-- A periodic grid of `N` cells that is divided among processes, with `G` guard cells at each end of the arrays of a
process: process `p` has an array of `size p` cells, whose cell `i` is the cell `off p + i` of the grid. Each cell of the
grid belongs to one process, in whose array it is not a guard cell. -/
structure Division (N G : ℕ) where
  size : ℕ → ℕ
  ne : ∀ p, NeZero (size p)
  off : ℕ → ℕ
  own : ℕ → ℕ
  loc : ℕ → ℕ
  guardL : ∀ i < N, G ≤ loc i
  guardR : ∀ i < N, loc i + G < size (own i)
  cell : ∀ i < N, (off (own i) + loc i) % N = i

/-- The fields of `e` with the sources of `s`. -/
def withSources (e s : SpecCell) : SpecCell :=
  { e with Jp := s.Jp, Jm := s.Jm, Jz := s.Jz, rhoPrev := s.rhoPrev, rhoNext := s.rhoNext }

/-- The fields after `n` steps on one process, when the sources of step `n` are `src n`. -/
noncomputable def SolverPar.serial (P : SolverPar) (N : ℕ) [NeZero N] (src : ℕ → Rows) (F : Rows) : ℕ → Rows
  | 0 => fun i ir => withSources (F i ir) (src 0 i ir)
  | n + 1 => fun i ir => withSources (P.solve N (P.serial N src F n) i ir) (src (n + 1) i ir)

/-- The same with several processes. Each one pushes the fields in its array; then the guard cells are taken from the
processes to which they belong. The value in a cell is the one of its process. -/
noncomputable def SolverPar.parallel (P : SolverPar) {N G : ℕ} (D : Division N G) (src : ℕ → Rows) (F : Rows) : ℕ → Rows
  | 0 => fun i ir => withSources (F i ir) (src 0 i ir)
  | n + 1 => fun i ir =>
    haveI := D.ne (D.own i)
    withSources (P.solve (D.size (D.own i)) (fun j ir => P.parallel D src F n ((D.off (D.own i) + j) % N) ir) (D.loc i) ir)
      (src (n + 1) i ir)

end Fbpic.Spec
