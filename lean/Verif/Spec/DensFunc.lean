import Verif.Model.DensFunc

/-!
# What a density function means
-/

namespace Fbpic.DensF.Spec

/-- The two forms of the documentation, as a function or as a method: `dens_func(x, y, z)` and `dens_func(z, r)`. -/
def Cartesian (f : Callable) : Prop := f.args = ["x", "y", "z"] ∨ f.args = ["self", "x", "y", "z"]

/-- See `Cartesian`. -/
def Radial (f : Callable) : Prop := f.args = ["z", "r"] ∨ f.args = ["self", "z", "r"]

/-- The callable stands for the density `D` in space (relative to `n`). -/
def Means (f : Callable) (D : ℝ → ℝ → ℝ → ℝ) : Prop :=
  (Cartesian f ∧ ∀ x y z, f.value [x, y, z] = .ok (D x y z)) ∨
    (Radial f ∧ ∃ g : ℝ → ℝ → ℝ, (∀ z r, 0 ≤ r → f.value [z, r] = .ok (g z r)) ∧
      ∀ x y z, D x y z = g z (Real.sqrt (x ^ 2 + y ^ 2)))

open Classical in
/-- The particles of a plasma of density `n D`: of the evenly spaced particles, those where the density is positive, with the charge of
their volume `r dθ dr dz`. -/
noncomputable def profile (s : Slab) (D : ℝ → ℝ → ℝ → ℝ) : List Macro :=
  ((List.range s.Npz.toNat).flatMap fun (iz : ℕ) => (List.range s.Npr).flatMap fun (ir : ℕ) => (List.range s.Nptheta).map fun (it : ℕ) =>
    let z := s.zmin + (iz + 1 / 2) * ((s.zmax - s.zmin) / s.Npz)
    let r := s.rmin + (ir + 1 / 2) * ((s.rmax - s.rmin) / s.Npr)
    let x := r * Real.cos (s.theta iz ir it)
    let y := r * Real.sin (s.theta iz ir it)
    (⟨x, y, z, r, s.n * D x y z * (r * (2 * Real.pi / s.Nptheta) * ((s.rmax - s.rmin) / s.Npr) * ((s.zmax - s.zmin) / s.Npz))⟩ : Macro)).filter
    fun p => 0 < p.w

end Fbpic.DensF.Spec
