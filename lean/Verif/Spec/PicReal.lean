import Verif.Spec.Pic
import Verif.Spec.Transform

/-!
# Specification: the axisymmetric mode of the fields is real
-/

namespace Fbpic.Spec

open Pic Transform

/-- The row of the spectral arrays that holds the wavenumber opposite to the one of row `iz`. -/
def negIdx (N iz : ℕ) : ℕ := (N - iz) % N

/-- An array on the grid is real. -/
def RealArr (c : Cfg) (a : Buf) : Prop := ∀ iz < c.Nz, ∀ ir < c.Nr, (a iz ir).im = 0

/-- A vector field on the grid is real. -/
def RealVec (c : Cfg) (a : GridVec) : Prop := RealArr c a.r ∧ RealArr c a.t ∧ RealArr c a.z

/-- The fields, the current and the charge density of the azimuthal mode 0 are real on the grid. -/
structure Mode0Real (c : Cfg) (s : Sim) : Prop where
  E : RealVec c (s.interp 0).E
  B : RealVec c (s.interp 0).B
  J : RealVec c (s.interp 0).J
  rho : RealArr c (s.interp 0).rho

/-- No part of the array along z oscillates with the wavenumber of row `iz`. -/
def Absent (c : Cfg) [NeZero c.Nz] (iz : ℕ) (a : Buf) : Prop := ∀ ir < c.Nr, fftAxis0 c.Nz false a iz ir = 0

/-- The same for a vector field. -/
def AbsentVec (c : Cfg) [NeZero c.Nz] (iz : ℕ) (a : GridVec) : Prop :=
  Absent c iz a.r ∧ Absent c iz a.t ∧ Absent c iz a.z

/-- The modified wavenumbers of the solver are opposite for opposite rows. -/
def Odd (c : Cfg) (s : Sim) (iz : ℕ) : Prop := (s.spect 0).kz (negIdx c.Nz iz) = -(s.spect 0).kz iz

/-- What is needed of the solver for mode 0. The matrices of the Bessel functions of order -1 are opposite to those
of order 1; the smoother has the same effect on opposite wavenumbers; and where the modified wavenumbers of opposite
rows are not opposite (only possible at the Nyquist wavenumber), the smoother removes the sources and the fields
have no such component at the start. -/
structure RealSolver (c : Cfg) [NeZero c.Nz] (s : Sim) : Prop where
  modes : 0 < c.Nm
  Nz : (s.spect 0).Nz = c.Nz
  Nr : (s.spect 0).Nr = c.Nr
  M : ∀ i < c.Nr, ∀ j < c.Nr, (c.mats 0).Mm i j = -(c.mats 0).Mp i j
  invM : ∀ i < c.Nr, ∀ j < c.Nr, (c.mats 0).invMm i j = -(c.mats 0).invMp i j
  smooth : ∀ fz fr, c.filter = some (fz, fr) → ∀ iz < c.Nz, fz (negIdx c.Nz iz) = fz iz
  nyquist : ∀ iz < c.Nz, Odd c s iz ∨
    ((∃ fz fr, c.filter = some (fz, fr) ∧ fz iz = 0) ∧ AbsentVec c iz (s.interp 0).E ∧ AbsentVec c iz (s.interp 0).B)

/-- The spectral arrays of mode 0 contain zeros, as after their creation. -/
def BlankSpect (s : Sim) : Prop := ∀ iz ir, (s.spect 0).cell iz ir = ⟨0, 0, 0, 0, 0, 0, 0, 0, 0, 0, 0, 0, 0, 0, 0, 0, 0⟩

end Fbpic.Spec
