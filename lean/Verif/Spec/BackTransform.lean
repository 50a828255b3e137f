import Verif.Model.BackTransform

/-!
# Specification for C45-C48: lab-frame snapshots
-/

namespace Fbpic.Spec

open BackTransform

variable {K : Type} [Field K] [LinearOrder K]

/-- A boost: `γ²(1-β²) = 1`, forward and slower than light. -/
structure IsBoost (b : Boost K) : Prop where
  c : 0 < b.c
  gamma : 0 < b.gamma
  beta : 0 < b.beta
  beta_lt : b.beta < 1
  shell : b.gamma ^ 2 * (1 - b.beta ^ 2) = 1

/-- Event `(t, z)` of the boosted frame at the lab coordinates `(tl, zl)`. -/
def SameEvent (b : Boost K) (t z tl zl : K) : Prop :=
  zl = b.gamma * (z + b.beta * b.c * t) ∧ tl = b.gamma * (t + b.beta * z / b.c)

/-- Cell `i` of the lab dataset contains the lab position `z`. -/
def InCell (zmin dz : K) (i : ℤ) (z : K) : Prop := zmin + i * dz ≤ z ∧ z < zmin + (i + 1) * dz

/-- The dataset holds in every cell the slice recorded (by any rank) at the iteration of `[n0, n1)` at which
the plane was in this cell, and zero if there was none. -/
structure Holds {α : Type} [Zero α] (size n0 n1 : ℕ) (recorded : ℕ → ℕ → Prop) (zmin dz : K) (zlab : ℕ → K)
    (value : ℕ → ℕ → α) (disk : ℤ → α) : Prop where
  written : ∀ n r i, n0 ≤ n → n < n1 → r < size → recorded n r → InCell zmin dz i (zlab n) → disk i = value n r
  empty : ∀ i, (∀ n r, n0 ≤ n → n < n1 → r < size → recorded n r → ¬ InCell zmin dz i (zlab n)) → disk i = 0

/-- The same for any set of iterations: the cells of the iterations in `S` hold their slices, all others zero. -/
structure HoldsOn {α : Type} [Zero α] (size : ℕ) (S : ℕ → Prop) (recorded : ℕ → ℕ → Prop) (zmin dz : K) (zlab : ℕ → K)
    (value : ℕ → ℕ → α) (disk : ℤ → α) : Prop where
  written : ∀ n r i, S n → r < size → recorded n r → InCell zmin dz i (zlab n) → disk i = value n r
  empty : ∀ i, (∀ n r, S n → r < size → recorded n r → ¬ InCell zmin dz i (zlab n)) → disk i = 0

/-- Sub-domains of different ranks do not overlap. -/
def Disjoint {α : Type} (size : ℕ) (w : World K α) : Prop :=
  ∀ n r r', r < size → r' < size → r ≠ r' → w.zmax n r ≤ w.zmin n r' ∨ w.zmax n r' ≤ w.zmin n r

/-- The edges of the sub-domains do not move to the left faster than the plane `z = ... - c t/β` from one
iteration to the next (true for a fixed grid, a Galilean grid and for a window moving to the right). -/
def SlowEdges {α : Type} (b : Boost K) (dt : K) (size : ℕ) (w : World K α) : Prop :=
  ∀ n r, r < size → w.zmin n r - w.zmin (n + 1) r ≤ b.c * dt / b.beta ∧
    w.zmax n r - w.zmax (n + 1) r ≤ b.c * dt / b.beta

/-- Lorentz transform of the fields along z to a frame moving at `-β` (components r, t, z of right-handed
coordinates): `E + v×B` etc., with `v = -βc ez`, and of the four-current. -/
def Boosted (b : Boost K) (f g : Flds K) : Prop :=
  g.Ez = f.Ez ∧ g.Bz = f.Bz ∧ g.Jr = f.Jr ∧ g.Jt = f.Jt ∧
  -- ez × (Br, Bt) = (-Bt, Br)
  g.Er = b.gamma * (f.Er + (-b.beta * b.c) * (-f.Bt)) ∧ g.Et = b.gamma * (f.Et + (-b.beta * b.c) * f.Br) ∧
  g.Br = b.gamma * (f.Br - (-b.beta * b.c) / b.c ^ 2 * (-f.Et)) ∧
  g.Bt = b.gamma * (f.Bt - (-b.beta * b.c) / b.c ^ 2 * f.Er) ∧
  g.Jz = b.gamma * (f.Jz - (-b.beta * b.c) * f.rho) ∧ g.rho = b.gamma * (f.rho - (-b.beta * b.c) / b.c ^ 2 * f.Jz)

end Fbpic.Spec
