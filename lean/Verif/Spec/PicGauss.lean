import Verif.Spec.Pic
import Verif.Props.Maxwell
import Verif.Props.Transform

/-!
# Gauss' law and the absence of magnetic charges for the state of a simulation
-/

namespace Fbpic.Spec

open Pic

variable (c : Cfg) [NeZero c.Nz]

/-- The arrays of the field solver belong to the grid: sizes, matrices of the Hankel transforms (C66), no resonance of
the comoving or Galilean scheme, and radial wavenumbers that vanish only in the first column of the modes other
than 0. With the cross-deposition the longitudinal wavenumber vanishes only at index 0 and where the filter removes
everything (`C30_kz_zero`). -/
structure SolverOk (s : Sim) : Prop where
  consts : c.k.Ok
  Nz : ∀ m < c.Nm, (s.spect m).Nz = c.Nz
  Nr : ∀ m < c.Nm, (s.spect m).Nr = c.Nr
  trans : ∀ m < c.Nm, TransOk m (c.trans m)
  regular : ∀ m < c.Nm, ∀ iz < c.Nz, Regular c.k ((s.spect m).kz iz) c.dt c.V
  kr : ∀ m < c.Nm, ∀ ir < c.Nr, (s.spect m).kr ir = 0 ↔ m ≠ 0 ∧ ir = 0
  kz : c.correction = .crossDeposition → ∀ m < c.Nm, ∀ iz < c.Nz, (s.spect m).kz iz = 0 →
    iz = 0 ∨ ∃ fz fr, c.filter = some (fz, fr) ∧ fz iz = 0

/-- Gauss' law for the electric field on the grid and the particles: bring the particles into the periodic box,
deposit their charge, transform the charge density and the electric field; then `div E = rho / epsilon_0` at every
wavenumber of every mode. -/
def GaussLaw (s : Sim) : Prop :=
  ∃ w r, s.mapPtclM (fun _ p => c.wrap s.zmin s.zmax p) = .ok w ∧ c.depositRho .prev w = .ok r ∧
    ∀ m < c.Nm, ((c.startFields r).spect m).All fun kz kr f => div kz kr f.em.E = f.rhoPrev / c.k.eps0

/-- The magnetic field on the grid has no divergence. -/
def NoMonopoles (s : Sim) : Prop :=
  ∀ m < c.Nm, ((c.startFields s).spect m).All fun kz kr f => div kz kr f.em.B = 0

end Fbpic.Spec
