import Verif.Spec.Bessel
import Verif.Spec.Maxwell
import Verif.Spec.Stencil
import Mathlib.Analysis.Calculus.Deriv.Basic

/-!
# Fields in the cylinder, and the field that a pair of spectral arrays stands for

Functions of `z`, `r`, `theta`, with the textbook divergence, curl and gradient in cylindrical
coordinates. Nothing here refers to the solver.
-/

namespace Fbpic.Spec

open Complex

/-- A scalar field, function of `z`, `r`, `theta`. -/
abbrev ScalField := ℝ → ℝ → ℝ → ℂ

/-- A vector field by its components along `r`, `theta`, `z`. -/
@[ext] structure VecField where
  r : ScalField
  t : ScalField
  z : ScalField

/-- The derivative along z: exact, or the finite-difference formula with `n` points on each side. -/
inductive ZDeriv where
  | exact
  | stencil (a : ℕ → ℝ) (n : ℕ) (dz : ℝ)

/-- The derivative along z of a function. -/
noncomputable def ZDeriv.apply : ZDeriv → (ℝ → ℂ) → ℝ → ℂ
  | .exact, f, z => deriv f z
  | .stencil a n dz, f, z => fdDeriv a n dz f z

/-- `div F = (1/r) d(r F_r)/dr + (1/r) dF_t/dtheta + dF_z/dz`. -/
noncomputable def cylDiv (D : ZDeriv) (F : VecField) : ScalField := fun z r θ =>
  1 / r * deriv (fun r' : ℝ => r' * F.r z r' θ) r + 1 / r * deriv (fun θ' => F.t z r θ') θ
    + D.apply (fun z' => F.z z' r θ) z

/-- `curl F`. -/
noncomputable def cylCurl (D : ZDeriv) (F : VecField) : VecField where
  r := fun z r θ => 1 / r * deriv (fun θ' => F.z z r θ') θ - D.apply (fun z' => F.t z' r θ) z
  t := fun z r θ => D.apply (fun z' => F.r z' r θ) z - deriv (fun r' => F.z z r' θ) r
  z := fun z r θ => 1 / r * deriv (fun r' : ℝ => r' * F.t z r' θ) r
    - 1 / r * deriv (fun θ' => F.r z r θ') θ

/-- `grad f`. -/
noncomputable def cylGrad (D : ZDeriv) (f : ScalField) : VecField where
  r := fun z r θ => deriv (fun r' => f z r' θ) r
  t := fun z r θ => 1 / r * deriv (fun θ' => f z r θ') θ
  z := fun z r θ => D.apply (fun z' => f z' r θ) z

/-- `f` has all its partial derivatives away from the axis. -/
def Diff (f : ScalField) : Prop := ∀ z r θ, 0 < r →
  DifferentiableAt ℝ (fun z' => f z' r θ) z ∧ DifferentiableAt ℝ (fun r' => f z r' θ) r ∧
    DifferentiableAt ℝ (fun θ' => f z r θ') θ

/-- Two scalar fields agree away from the axis. -/
def SameScal (f g : ScalField) : Prop := ∀ z r θ, 0 < r → f z r θ = g z r θ

/-- Two vector fields agree away from the axis. -/
def SameVec (F G : VecField) : Prop := SameScal F.r G.r ∧ SameScal F.t G.t ∧ SameScal F.z G.z

/-- The azimuthal mode `m` in a cylinder of radius `rmax`, with `Nz` longitudinal wavenumbers of a
periodic length `Nz dz` that begins at `z0`, and `Nr` radial wavenumbers `alpha i / rmax`. -/
structure Cyl where
  m : ℕ
  (Nz Nr : ℕ)
  (dz z0 rmax : ℝ)
  alpha : ℕ → ℝ

variable (g : Cyl)

/-- The additional radial function of the modes other than 0. -/
def Cyl.Low (i : ℕ) : Prop := g.m ≠ 0 ∧ i = 0

instance (i : ℕ) : Decidable (g.Low i) := inferInstanceAs (Decidable (_ ∧ _))

/-- `alpha` are zeros of `J_m`, not at the origin except for the additional function. -/
structure Cyl.Ok : Prop where
  rmax_pos : 0 < g.rmax
  dz_ne : g.dz ≠ 0
  Nz_pos : 0 < g.Nz
  zero : ∀ i, i < g.Nr → ¬ g.Low i → g.alpha i ≠ 0 ∧ besselJ g.m (g.alpha i) = 0
  low : ∀ i, g.Low i → g.alpha i = 0

/-- The zeros are positive and different from each other. -/
structure Cyl.Distinct : Prop where
  pos : ∀ i, i < g.Nr → ¬ g.Low i → 0 < g.alpha i
  ne : ∀ i j, i < g.Nr → j < g.Nr → ¬ g.Low i → ¬ g.Low j → g.alpha i = g.alpha j → i = j

/-- Longitudinal wavenumbers, positive ones first. -/
noncomputable def Cyl.kz (i : ℕ) : ℝ :=
  2 * Real.pi * (if i ≤ (g.Nz - 1) / 2 then (i : ℝ) else (i : ℝ) - g.Nz) / (g.Nz * g.dz)

/-- Radial wavenumbers. -/
noncomputable def Cyl.kr (i : ℕ) : ℝ := g.alpha i / g.rmax

/-- The radial functions of order `p` (`m-1`, `m` or `m+1`): Bessel functions that vanish at `rmax`
for `p = m`, and the additional one of the modes other than 0. -/
noncomputable def Cyl.radial (p : ℤ) (i : ℕ) (r : ℝ) : ℝ :=
  if g.Low i then (if p = (g.m : ℤ) - 1 then r ^ (g.m - 1) / (Real.pi * g.rmax ^ (g.m + 1)) else 0)
  else besselJ p (g.kr i * r) / (Real.pi * g.rmax ^ 2 * besselJ (g.m + 1) (g.alpha i) ^ 2)

/-- The sum of waves with radial functions of order `p` and amplitudes `F`. -/
noncomputable def Cyl.wave (p : ℤ) (F : ℕ → ℕ → ℂ) : ScalField := fun z r θ =>
  1 / (g.Nz : ℂ) * ∑ iz ∈ Finset.range g.Nz, ∑ ir ∈ Finset.range g.Nr,
    F iz ir * (g.radial p ir r : ℂ) * exp (I * (g.kz iz : ℂ) * ((z - g.z0 : ℝ) : ℂ)) * exp (-(I * g.m * θ))

/-- The scalar field that the array `f` stands for. -/
noncomputable def Cyl.scal (f : ℕ → ℕ → ℂ) : ScalField := g.wave g.m f

/-- The vector field that the arrays `+`, `-` and `z` stand for. -/
noncomputable def Cyl.vec (F : ℕ → ℕ → V3) : VecField where
  r := fun z r θ => g.wave (g.m + 1) (fun iz ir => (F iz ir).p) z r θ
    + g.wave (g.m - 1) (fun iz ir => (F iz ir).m) z r θ
  t := fun z r θ => I * (g.wave (g.m + 1) (fun iz ir => (F iz ir).p) z r θ
    - g.wave (g.m - 1) (fun iz ir => (F iz ir).m) z r θ)
  z := g.wave g.m (fun iz ir => (F iz ir).z)

/-- `K iz` is what the derivative `D` multiplies the wave number `iz` with (up to `i`). -/
def Cyl.Symbol (D : ZDeriv) (K : ℕ → ℝ) : Prop := ∀ iz, iz < g.Nz → ∀ z : ℝ,
  D.apply (fun x => exp (I * (g.kz iz : ℂ) * (x : ℂ))) z = I * K iz * exp (I * (g.kz iz : ℂ) * (z : ℂ))

end Fbpic.Spec
