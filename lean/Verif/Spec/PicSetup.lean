import Verif.Spec.PicUnits
import Verif.Spec.Transform
import Verif.Model.CellVolume
import Verif.Model.Hankel
import Verif.Model.Smoothing
import Verif.Model.SpectShift

/-!
# What the constructor of the simulation computes from its arguments

The arrays that the cycle uses (volumes, coefficients of the shapes, matrices, filters, wavenumbers), in terms of the
size of the box and of the options.
-/

namespace Fbpic.Spec

open Pic Transform

/-- The arguments: cell sizes, radius of the box, order of the stencil, options, and the numbers of passes and
compensators of the smoother along z and r. `zeros m` are the zeros of the Bessel function of order `m`, `j1` the values
of the Bessel function of order 1 at the zeros of order 0. -/
structure GridSetup where
  (dz dr rmax : ℝ)
  nOrder : ℤ
  (modifiedVolume ruyten : Bool)
  smoother : Option ((ℕ × Bool) × (ℕ × Bool))
  zeros : ℕ → ℕ → ℝ
  j1 : ℕ → ℝ

/-- `X` is the Moore-Penrose pseudo-inverse of the matrix `A`, which has `n` rows and `k` columns. -/
structure PseudoInverse (n k : ℕ) (A X : ℕ → ℕ → ℝ) : Prop where
  axa : ∀ i j, i < n → j < k →
    ∑ l ∈ Finset.range k, ∑ p ∈ Finset.range n, A i l * X l p * A p j = A i j
  xax : ∀ i j, i < k → j < n →
    ∑ l ∈ Finset.range n, ∑ p ∈ Finset.range k, X i l * A l p * X p j = X i j
  symm_ax : ∀ i j, i < n → j < n → ∑ l ∈ Finset.range k, A i l * X l j = ∑ l ∈ Finset.range k, A j l * X l i
  symm_xa : ∀ i j, i < k → j < k → ∑ l ∈ Finset.range n, X i l * A l j = ∑ l ∈ Finset.range n, X j l * A l i

/-- The pair of matrices of `DHT(p, m, Nr, Nz, rmax)`. -/
def DhtPair (p m : ℤ) (Nr : ℕ) (rmax : ℝ) (zeros : ℕ → ℝ) (M invM : ℕ → ℕ → ℝ) : Prop :=
  invM = Hankel.invM p m Nr rmax zeros ∧ ∃ inv pinv : ℕ → ℕ → ℝ, M = hankelM m p inv pinv ∧
    (¬ (m ≠ 0 ∧ p ≠ m - 1) → Inverse Nr invM inv ∧ Inverse Nr inv invM) ∧
    ((m ≠ 0 ∧ p ≠ m - 1) → PseudoInverse (Nr - 1) Nr (fun i j => invM (i + 1) j) pinv)

/-- The parameters `c` and the spectral grids of `s` are those that the constructor computes. -/
structure Built (g : GridSetup) (c : Cfg) (s : Sim) : Prop where
  invdz : c.invdz = 1 / g.dz
  invdr : c.invdr = 1 / g.dr
  dr : g.dr = g.rmax / c.Nr
  rmax : c.rmaxGather = g.rmax
  dht0 : ∀ m < c.Nm, DhtPair m m c.Nr g.rmax (g.zeros m) (c.mats m).M0 (c.mats m).invM0
  dhtp : ∀ m < c.Nm, DhtPair (m + 1) m c.Nr g.rmax (g.zeros m) (c.mats m).Mp (c.mats m).invMp
  dhtm : ∀ m < c.Nm, DhtPair (m - 1) m c.Nr g.rmax (g.zeros m) (c.mats m).Mm (c.mats m).invMm
  vol : ∀ m < c.Nm, c.vol m = CellVolume.cellVol g.modifiedVolume m g.dr g.dz c.Nr (c.mats m).M0 (g.zeros 0) g.j1
  beta : ∀ sh, ∀ m < c.Nm, c.beta sh m = CellVolume.ruytenCoefs g.ruyten sh (c.vol m) g.dr g.dz c.Nr
  noFilter : g.smoother = none → c.filter = none
  filter : ∀ nz cz nr cr, g.smoother = some ((nz, cz), (nr, cr)) → ∃ fz fr, c.filter = some (fz, fr) ∧
    (∀ iz, fz iz = filterFactor nz cz (kzTrue c.Nz g.dz iz) g.dz) ∧
    ∀ m < c.Nm, ∀ ir, fr m ir = filterFactor nr cr ((s.spect m).kr ir) g.dr
  kr : ∀ m < c.Nm, (s.spect m).kr = Hankel.kr m g.rmax (g.zeros m)
  kz : ∀ m < c.Nm, ∀ iz < c.Nz, modifiedK (kzTrue c.Nz g.dz iz) g.nOrder g.dz = .ok ((s.spect m).kz iz)

/-- The arguments for the rescaled box. -/
noncomputable def Rescaling.setup (U : Rescaling) (g : GridSetup) : GridSetup :=
  { g with dz := U.len * g.dz, dr := U.len * g.dr, rmax := U.len * g.rmax }

end Fbpic.Spec
