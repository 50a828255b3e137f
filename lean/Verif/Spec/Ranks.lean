import Verif.Model.Ranks

/-!
# Specification: the same simulation with one and with several processes

The cells of the domain are numbered globally; in a periodic domain of `L` cells the numbers count modulo `L`.
-/

namespace Fbpic.Spec

/-- The same cell. -/
def SameCell (period : Option ℕ) (i j : ℤ) : Prop :=
  match period with
  | none => i = j
  | some L => i ≡ j [ZMOD L]

/-- The same position, up to whole box lengths in a periodic box. -/
def SamePos (box : Option ℝ) (z z' : ℝ) : Prop :=
  match box with
  | none => z' = z
  | some L => ∃ k : ℤ, z' = z + k * L

/-- The same particle: all its quantities agree; in a periodic box of length `box` the position may differ by
whole box lengths. -/
def SameSource (box : Option ℝ) (p q : DepPtcl) : Prop :=
  q.x = p.x ∧ q.y = p.y ∧ q.w = p.w ∧ q.ux = p.ux ∧ q.uy = p.uy ∧ q.uz = p.uz ∧ q.invGamma = p.invGamma ∧
  SamePos box p.z q.z

/-- The particles of the `n` processes, species by species, are the particles `one` of the single process: no
particle is missing, none is counted twice. The order does not matter. -/
def SameSources (box : Option ℝ) (n : ℕ) (sps : ℕ → List DepSpecies) (one : List DepSpecies) : Prop :=
  (∀ r < n, (sps r).map (fun sp => (sp.q, sp.shape)) = one.map fun sp => (sp.q, sp.shape)) ∧
  ∀ (k : ℕ) (sp : DepSpecies), one[k]? = some sp → ∃ l : List DepPtcl,
    List.Forall₂ (SameSource box) ((List.range n).flatMap fun r => ((sps r)[k]?.map DepSpecies.ptcls).getD []) l ∧
    l.Perm sp.ptcls

/-- Half the width of the shape, plus half a cell because the values belong to the centres of the cells. -/
noncomputable def edge : Shape → ℝ
  | .linear => 1 / 2
  | .cubic => 3 / 2

/-- The particle, with its shape, is inside the `n` rows of length `dz` that begin at `zmin`. -/
def Within (zmin dz : ℝ) (n : ℕ) (s : Shape) (z : ℝ) : Prop :=
  zmin + edge s * dz < z ∧ z < zmin + n * dz - edge s * dz

/-- How far a particle may be outside of a box whose arrays are folded periodically. -/
noncomputable def beyond : Shape → ℝ
  | .linear => 3 / 2
  | .cubic => 1 / 2

/-- The particle is inside the box `[zmin, zmin + n dz]`, or just outside. -/
def Near (zmin dz : ℝ) (n : ℕ) (s : Shape) (z : ℝ) : Prop :=
  zmin - beyond s * dz < z ∧ z ≤ zmin + n * dz + beyond s * dz

/-- Number of cells of the periodic domain, if it is periodic. -/
def periodOf (c : Comm) : Option ℕ := if c.bz = .periodic then some c.NzGlobal else none

/-- Length of the periodic box, if it is periodic. -/
noncomputable def boxOf (c : Comm) (S : Ranks.Setup) : Option ℝ := (periodOf c).map fun L : ℕ => (L : ℝ) * S.dz

/-- The grid of a single process: the `Nz` cells from `z0` on, and on both sides the guard, damping and injection
cells. -/
noncomputable def wholeGrid (c : Comm) (S : Ranks.Setup) : CylGrid where
  invdz := 1 / S.dz
  zmin := S.z0 - (c.nGuard + c.nzDamp + c.nInject) * S.dz
  Nz := c.NzGlobal + 2 * (c.nGuard + c.nzDamp + c.nInject)
  invdr := S.invdr
  rmin := 0
  Nr := S.Nr

/-- Row `i` of process `r` is not a guard cell. -/
def Owns (c : Comm) (r i : ℕ) : Prop := c.nGuard ≤ i ∧ i + c.nGuard < Ranks.rows c r

/-- Before the exchange: every cell that process `r` owns, and every cell stored by process `r` that no process
owns (guard cells beyond an open end), has the same value as in the single process. -/
def OwnedAgree (c1 c : Comm) (S : Ranks.Setup) (E E1 : RankFields (ℕ → ℂ)) : Prop :=
  ∀ r < c.size, ∀ i < Ranks.rows c r,
    (Owns c r i ∨ ¬ ∃ s < c.size, ∃ i', Owns c s i' ∧
      SameCell (periodOf c) (Ranks.start c r + i) (Ranks.start c s + i')) →
    ∀ j < Ranks.rows c1 0, SameCell (periodOf c) (Ranks.start c r + i) (Ranks.start c1 0 + j) →
      ∀ m < S.Nm, ∀ k < 3, ∀ ir < S.Nr, E r m k i ir = E1 0 m k j ir

end Fbpic.Spec
