import Verif.Model.CellVolume

/-!
# Specification: an evenly spaced plasma in a periodic box
-/

namespace Fbpic.Spec

open Fbpic.CellVolume

/-- The species created by `generate_evenly_spaced` over the whole length of the box, with `pz` particles per
cell along z, `Npr` up to the radius `R`, `Nt` in azimuth (each ring rotated by an arbitrary angle), the
density `dens z r`, moving along z. -/
noncomputable def evenPlasma (s : Shape) (q : ℝ) (g : CylGrid) (dz : ℝ) (pz Npr Nt : ℕ) (R : ℝ)
    (dens : ℝ → ℝ → ℝ) (shift : ℝ → ℝ → ℝ) (uz invGamma : ℝ) : DepSpecies :=
  { q := q
    shape := s
    ptcls := (generateEvenlySpaced ((pz * g.Nz : ℕ) : ℤ) g.zmin (g.zmin + g.Nz * dz) Npr 0 R Nt 1
      (2 * Real.pi) (fun z r _ => dens z r)).map (depOf Nt shift uz invGamma) }

/-- Half-width of the particle shape, in cells. -/
def halfWidth : Shape → ℝ
  | .linear => 1
  | .cubic => 2

/-- The geometry of a box with cells `dr`, `dz`. -/
structure BoxGrid (g : CylGrid) (dr dz : ℝ) : Prop where
  dr_pos : 0 < dr
  dz_pos : 0 < dz
  invdr : g.invdr = 1 / dr
  invdz : g.invdz = 1 / dz
  rmin : g.rmin = 0
  Nz : 2 ≤ g.Nz

end Fbpic.Spec
