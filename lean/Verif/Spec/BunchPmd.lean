import Verif.Model.BunchPmd

/-!
# Specification: bunches from openPMD files (C123)
-/

namespace Fbpic.Spec

open Bunch BunchPmd

/-- The particle (in SI units) fulfils a rule whose bounds for positions are given in the unit `u`, and those for momenta
in units of mc. -/
def Fulfils (u : ℝ) (b : Bounds) (p : In) : Prop :=
  match b.key with
  | .x => (∀ l, b.lo = some l → l * u < p.x) ∧ (∀ h, b.hi = some h → p.x < h * u)
  | .y => (∀ l, b.lo = some l → l * u < p.y) ∧ (∀ h, b.hi = some h → p.y < h * u)
  | .z => (∀ l, b.lo = some l → l * u < p.z) ∧ (∀ h, b.hi = some h → p.z < h * u)
  | .ux => (∀ l, b.lo = some l → l < p.ux) ∧ (∀ h, b.hi = some h → p.ux < h)
  | .uy => (∀ l, b.lo = some l → l < p.uy) ∧ (∀ h, b.hi = some h → p.uy < h)
  | .uz => (∀ l, b.lo = some l → l < p.uz) ∧ (∀ h, b.hi = some h → p.uz < h)

open Classical in
/-- The particles of the file that fulfil all rules. -/
noncomputable def chosen (u : ℝ) (select : Option (List Bounds)) (file : List In) : List In :=
  file.filter fun p => ∀ b ∈ select.getD [], Fulfils u b p

/-- The particle, shifted along z. -/
def shiftedBy (d : ℝ) (p : In) : In := { p with z := p.z + d }

/-- The number of physical particles. -/
def number (l : List In) : ℝ := (l.map fun p => p.w).sum

/-- The weighted mean of z is `z0`. -/
def CenterAt (z0 : ℝ) (l : List In) : Prop := (l.map fun p => p.w * p.z).sum = z0 * number l

/-- The unit of the positions in openPMD-viewer, in meters. -/
noncomputable def unitOf : Version → ℝ
  | .v0 => 1 / 10 ^ 6
  | .v1 => 1

/-- A micron. -/
noncomputable def micron : ℝ := 1 / 10 ^ 6

/-- The rules concern momenta, or x and y, only. -/
def NoZ (select : Option (List Bounds)) : Prop := ∀ b ∈ select.getD [], b.key ≠ .z

/-- The rules concern momenta only. -/
def MomentaOnly (select : Option (List Bounds)) : Prop := ∀ b ∈ select.getD [], b.key = .ux ∨ b.key = .uy ∨ b.key = .uz

end Fbpic.Spec
