import Verif.Model.Pic
import Verif.Model.DirectLaser
import Verif.Model.SpectShift

/-!
# `add_laser_pulse(sim, profile, method='direct')` in the assembled simulation

One process and periodic boundaries: the local array is the global one, so that `gather_grid_array` and
`scatter_grid_array` do nothing (C65_ranks has several processes). The transforms are those of the simulation: the temporary
`Fields` object has the same grid, the same order and therefore the same matrices and wavenumbers.
-/

namespace Fbpic.Pic

open DirectLaser BoostConv

variable (c : Cfg)

/-- All the arrays of a spectral cell when they are created. spectral_grid.py:85-101 -/
def blankCell : SpecCell := ⟨0, 0, 0, 0, 0, 0, 0, 0, 0, 0, 0, 0, 0, 0, 0, 0, 0⟩

/-- The interpolation grid of one mode of the temporary fields: Er and Et of the laser at the positions
`z = zmin + (iz + 1/2) dz`, `r = (ir + 1/2) dr` (direct_injection.py:44-53, 115-122, interpolation_grid.py:96, 168-173), other fields zero. -/
noncomputable def Cfg.laserInterp (profile : ℝ → ℝ → ℝ → ℝ → ℝ × ℝ) (boost : Option Conv) (s : Sim) (m : ℕ) : Interp :=
  let at' := fun iz ir : ℕ => laserErEt c.k.c profile boost c.Nm s.time (s.zmin + (iz + 0.5) * (1 / c.invdz)) ((ir + 0.5) * (1 / c.invdr)) m
  ⟨⟨fun iz ir => (at' iz ir).1, fun iz ir => (at' iz ir).2, 0⟩, ⟨0, 0, 0⟩, ⟨0, 0, 0⟩, 0⟩

/-- The spectral grid of one mode of the temporary fields after `calculate_laser_fields` (direct_injection.py:180-213). -/
noncomputable def Cfg.laserSpect [NeZero c.Nz] (profile : ℝ → ℝ → ℝ → ℝ → ℝ × ℝ) (boost : Option Conv) (dir : ℝ) (s : Sim)
    (m : ℕ) : SpecGrid :=
  let g := c.spectE m (c.laserInterp profile boost s m) { s.spect m with
    cell := fun _ _ => blankCell }
  { g with
    cell := fun iz ir => laserCell c.k.c dir (1 / c.invdz) (kzTrue c.Nz (1 / c.invdz) iz) (g.kz iz) (g.kr ir) (g.cell iz ir) }

/-- `add_laser_direct` (direct_injection.py:38-97), with `spect2interp` at the end of `calculate_laser_fields`
(direct_injection.py:215-217). -/
noncomputable def Cfg.addLaser [NeZero c.Nz] (profile : ℝ → ℝ → ℝ → ℝ → ℝ × ℝ) (boost : Option Conv) (dir : ℝ) (s : Sim) : Sim :=
  { s with interp := onModes c.Nm (fun m i =>
      let l := c.interpEB m (c.laserSpect profile boost dir s m) (c.laserInterp profile boost s m)
      { i with
        E := ⟨i.E.r + l.E.r, i.E.t + l.E.t, i.E.z + l.E.z⟩
        B := ⟨i.B.r + l.B.r, i.B.t + l.B.t, i.B.z + l.B.z⟩ }) s.interp }

end Fbpic.Pic
