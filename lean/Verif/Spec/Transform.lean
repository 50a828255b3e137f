import Verif.Model.Transform

/-!
# Specification of the transforms
-/

namespace Fbpic.Spec

open Complex Transform

/-- Every grid point of the array is treated exactly once (other indices may occur). -/
def Covers (Nz Nr : ℕ) (threads : List (ℕ × ℕ)) : Prop :=
  threads.Nodup ∧ ∀ i j, i < Nz → j < Nr → (i, j) ∈ threads

/-- Product of a complex array with a real matrix. -/
noncomputable def hankel (Nr : ℕ) (mat : ℕ → ℕ → ℝ) (F : ℕ → ℕ → ℂ) : ℕ → ℕ → ℂ := fun iz k =>
  ∑ l ∈ Finset.range Nr, F iz l * (mat l k : ℂ)

/-- The product of the matrices `A` and `B` is the identity. -/
def Inverse (Nr : ℕ) (A B : ℕ → ℕ → ℝ) : Prop :=
  ∀ i j, i < Nr → j < Nr → ∑ l ∈ Finset.range Nr, A i l * B l j = if i = j then 1 else 0

/-- The product of the matrices is the identity except for the first component, which is dropped. -/
def InverseOff0 (Nr : ℕ) (A B : ℕ → ℕ → ℝ) : Prop :=
  ∀ i j, i < Nr → j < Nr → ∑ l ∈ Finset.range Nr, A i l * B l j = if i = j ∧ i ≠ 0 then 1 else 0

/-- The two arrays agree on the grid. -/
def EqOn (Nz Nr : ℕ) (F G : ℕ → ℕ → ℂ) : Prop := ∀ iz ir, iz < Nz → ir < Nr → F iz ir = G iz ir

end Fbpic.Spec
