import Verif.Model.Transform
import Verif.Spec.Bessel

/-!
# Construction of the Hankel transform

Models the constructor of `DHT` (`fields/spectral_transform/hankel.py:30-118`): the radial grid, the
radial wavenumbers, the matrix `invM`. `scipy.special.jn` is the Bessel function (`Spec.besselJ`),
`jn_zeros(m, n)` a given sequence of its zeros. Exact real arithmetic.
-/

namespace Fbpic.Hankel

open Spec Transform

/-- `alphas`, hankel.py:75-80: the zeros, with 0 put in front if `m != 0`. -/
def alphas (m : ℤ) (zeros : ℕ → ℝ) (i : ℕ) : ℝ :=
  if m ≠ 0 then (if i = 0 then 0 else zeros (i - 1)) else zeros i

/-- `nu = 1./(2*np.pi*rmax) * alphas`, hankel.py:83. -/
noncomputable def nu (m : ℤ) (rmax : ℝ) (zeros : ℕ → ℝ) (i : ℕ) : ℝ :=
  1 / (2 * Real.pi * rmax) * alphas m zeros i

/-- `r = (rmax*1./Nr) * (np.arange(Nr) + 0.5)`, hankel.py:86. -/
noncomputable def rGrid (Nr : ℕ) (rmax : ℝ) (j : ℕ) : ℝ := rmax * 1 / Nr * (j + 1 / 2)

/-- `p_denom`, hankel.py:94-97. -/
def pDenom (p m : ℤ) : ℤ := if p = m then p + 1 else p

/-- `denom`, hankel.py:98. -/
noncomputable def denom (p m : ℤ) (rmax : ℝ) (zeros : ℕ → ℝ) (i : ℕ) : ℝ :=
  Real.pi * rmax ^ 2 * besselJ (pDenom p m) (alphas m zeros i) ^ 2

/-- `num`, hankel.py:99. -/
noncomputable def num (p m : ℤ) (Nr : ℕ) (rmax : ℝ) (zeros : ℕ → ℝ) (i j : ℕ) : ℝ :=
  besselJ p (2 * Real.pi * rGrid Nr rmax j * nu m rmax zeros i)

/-- `invM` of `DHT(p, m, Nr, Nz, rmax)`, hankel.py:93-114. -/
noncomputable def invM (p m : ℤ) (Nr : ℕ) (rmax : ℝ) (zeros : ℕ → ℝ) : ℕ → ℕ → ℝ :=
  hankelInvM m p rmax (rGrid Nr rmax) fun i j => num p m Nr rmax zeros i j / denom p m rmax zeros i

/-- The radial wavenumbers `kr = 2*np.pi * trans[m].dht0.get_nu()`, fields.py:187. -/
noncomputable def kr (m : ℤ) (rmax : ℝ) (zeros : ℕ → ℝ) (i : ℕ) : ℝ := 2 * Real.pi * nu m rmax zeros i

end Fbpic.Hankel
