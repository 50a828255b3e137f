import Verif.Spec.PicGauss

/-!
# Specification: propagation of the fields in vacuum
-/

namespace Fbpic.Spec

open Pic

variable (c : Cfg) [NeZero c.Nz]

/-- The arrays of the field solver belong to the grid, with the matrices of the Hankel transforms of C66; the radial
wavenumber of the first column vanishes in the modes other than 0. -/
structure VacuumOk (s : Sim) : Prop where
  consts : c.k.Ok
  Nz : ∀ m < c.Nm, (s.spect m).Nz = c.Nz
  Nr : ∀ m < c.Nm, (s.spect m).Nr = c.Nr
  trans : ∀ m < c.Nm, TransOk m (c.trans m)
  kr : ∀ m < c.Nm, m ≠ 0 → (s.spect m).kr 0 = 0

/-- Nothing is a source of the fields: every species is a tracer or neutral, and the spectral arrays of the current and
of the charge density contain zeros, as after their creation. -/
structure NoSources (s : Sim) : Prop where
  species : ∀ sp ∈ s.species, sp.isTracer = true ∨ sp.q = 0
  spect : ∀ m < c.Nm, ∀ iz < c.Nz, ∀ ir < c.Nr, ((s.spect m).cell iz ir).J = ⟨0, 0, 0⟩ ∧
    ∀ n : RhoName, n.get ((s.spect m).cell iz ir) = 0

/-- The electric and magnetic fields on the grid have no divergence. -/
def Transverse (s : Sim) : Prop :=
  ∀ m < c.Nm, ((c.startFields s).spect m).All fun kz kr f => div kz kr f.em.E = 0 ∧ div kz kr f.em.B = 0

/-- The fields on the grid at one wavenumber of one mode. -/
noncomputable def emAt (s : Sim) (m iz ir : ℕ) : EM := (((c.startFields s).spect m).cell iz ir).em

/-- At every wavenumber of every mode, the fields on the grid of `t` are those to which the fields on the grid of `s`
evolve during the time `T` according to Maxwell's equations without current. -/
def MaxwellEvolution (T : ℝ) (s t : Sim) : Prop :=
  ∀ m < c.Nm, ∀ iz < c.Nz, ∀ ir < c.Nr, ∃ f : ℝ → EM,
    IsMaxwell c.k.c c.k.mu0 ((s.spect m).kz iz) ((s.spect m).kr ir) (schemeOf c.V c.galilean).gridVelocity
      (fun _ => ⟨0, 0, 0⟩) f ∧ f 0 = emAt c s m iz ir ∧ f T = emAt c t m iz ir

end Fbpic.Spec
