import Verif.Model.Injection

/-! # Specification for C56: evenly spaced macroparticles in given cells -/

namespace Fbpic.Spec

variable {K : Type} [Field K] [LinearOrder K]

/-- The cells among `cells` (numbered from the edge `x0`, size `dx`) whose centre is strictly between the bounds; a bound `none` is
infinite. -/
def cellsBetween (x0 dx : K) (lo hi : Option K) (cells : List ℤ) : List ℤ :=
  cells.filter fun (i : ℤ) => (∀ l ∈ lo, l < x0 + ((i : K) + 1 / 2) * dx) ∧ ∀ h ∈ hi, x0 + ((i : K) + 1 / 2) * dx < h

/-- `p` evenly spaced positions in each of the cells. -/
def sites (x0 dx : K) (p : ℕ) (cells : List ℤ) : List K :=
  cells.flatMap fun (i : ℤ) => (List.range p).map fun (k : ℕ) => x0 + ((i : K) + ((k : K) + 1 / 2) / (p : K)) * dx

/-- One macroparticle for each site along z, along r and each of `pt` angles; its weight is the number of physical particles in its volume
`r dθ dr dz`. Those without physical particles are left out. -/
def loadedPlasma (zs rs : List K) (pt : ℕ) (n twoPi dzp drp : K) (dens : K → K → ℕ → K) : List (NewPtcl K) :=
  (zs.flatMap fun z => rs.flatMap fun r => (List.range pt).map fun i =>
    (⟨z, r, i, n * dens z r i * (r * (twoPi / (pt : K)) * drp * dzp)⟩ : NewPtcl K)).filter fun p => 0 < p.w

end Fbpic.Spec
