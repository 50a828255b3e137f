import Verif.Spec.PicReal

/-!
# Specification: reflection in a plane through the axis

The reflection changes `y` into `-y`. The definitions say what it does to the particles, to the species, to the
arrays on the grid and to the spectral arrays. The magnetic field is an axial vector: its components in the plane change
sign, its component across the plane does not.
-/

namespace Fbpic

/-- The same configuration with other external fields. -/
def Pic.Cfg.withExt (c : Pic.Cfg) (ext : List ExternalField.Ext) : Pic.Cfg := { c with ext := ext }

instance (c : Pic.Cfg) [h : NeZero c.Nz] (ext : List ExternalField.Ext) : NeZero (c.withExt ext).Nz := h

end Fbpic

namespace Fbpic.Spec.Reflect

open Pic ExternalField Step Transform
open scoped ComplexConjugate

/-- Position and momentum of the reflected particle. -/
def push (p : PushPtcl) : PushPtcl := { p with y := -p.y, mom := { p.mom with uy := -p.mom.uy } }

/-- The fields on the reflected particle. -/
def fields (F : Comp → ℝ) : Comp → ℝ
  | .Ex => F .Ex
  | .Ey => -F .Ey
  | .Ez => F .Ez
  | .Bx => -F .Bx
  | .By => F .By
  | .Bz => -F .Bz

/-- The reflected macroparticle. -/
def ptcl (p : Ptcl) : Ptcl := ⟨push p.push, p.w, fields p.F⟩

/-- A species with all its particles reflected. -/
def species (s : Pic.Species) : Pic.Species := { s with ptcl := s.ptcl.map ptcl }

/-- An array on the grid of the reflected field: the coefficient of `e^{-imθ}` becomes that of `e^{imθ}`, and the component
keeps (`e = 1`) or changes (`e = -1`) its sign. -/
noncomputable def arr (e : ℝ) (a : Buf) : Buf := fun iz ir => e * conj (a iz ir)

/-- The spectral arrays of the reflected fields at the opposite wavenumber. -/
structure Cells (a b : SpecCell) : Prop where
  Ep : b.Ep = conj a.Ep
  Em : b.Em = conj a.Em
  Ez : b.Ez = conj a.Ez
  Bp : b.Bp = -conj a.Bp
  Bm : b.Bm = -conj a.Bm
  Bz : b.Bz = -conj a.Bz
  Jp : b.Jp = conj a.Jp
  Jm : b.Jm = conj a.Jm
  Jz : b.Jz = conj a.Jz
  rhoPrev : b.rhoPrev = conj a.rhoPrev
  rhoNext : b.rhoNext = conj a.rhoNext
  rhoNextZ : b.rhoNextZ = conj a.rhoNextZ
  rhoNextXY : b.rhoNextXY = conj a.rhoNextXY

/-- The external fields `ext` act on the reflected particles as those of `c` act on the particles. -/
def ExtReflected (c : Cfg) (ext : List Ext) : Prop :=
  ∀ (t : ℝ) (id : ℕ) (p : Ptcl), ext.foldl (fun p e => applyExt e t id p) (ptcl p)
    = ptcl (c.ext.foldl (fun p e => applyExt e t id p) p)

/-- The state `s'` is the state `s`, reflected. -/
structure Reflected (c : Cfg) (s s' : Sim) : Prop where
  zmin : s'.zmin = s.zmin
  zmax : s'.zmax = s.zmax
  time : s'.time = s.time
  iteration : s'.iteration = s.iteration
  species : s'.species = s.species.map species
  Er : ∀ m, (s'.interp m).E.r = arr 1 (s.interp m).E.r
  Et : ∀ m, (s'.interp m).E.t = arr (-1) (s.interp m).E.t
  Ez : ∀ m, (s'.interp m).E.z = arr 1 (s.interp m).E.z
  Br : ∀ m, (s'.interp m).B.r = arr (-1) (s.interp m).B.r
  Bt : ∀ m, (s'.interp m).B.t = arr 1 (s.interp m).B.t
  Bz : ∀ m, (s'.interp m).B.z = arr (-1) (s.interp m).B.z
  Jr : ∀ m, (s'.interp m).J.r = arr 1 (s.interp m).J.r
  Jt : ∀ m, (s'.interp m).J.t = arr (-1) (s.interp m).J.t
  Jz : ∀ m, (s'.interp m).J.z = arr 1 (s.interp m).J.z
  rho : ∀ m, (s'.interp m).rho = arr 1 (s.interp m).rho
  shape : ∀ m < c.Nm, (s'.spect m).Nz = (s.spect m).Nz ∧ (s'.spect m).Nr = (s.spect m).Nr ∧
    (s'.spect m).kz = (s.spect m).kz ∧ (s'.spect m).kr = (s.spect m).kr
  spect : ∀ m < c.Nm, ∀ iz < c.Nz, ∀ ir < c.Nr,
    Cells ((s.spect m).cell iz ir) ((s'.spect m).cell (negIdx c.Nz iz) ir)

/-- The modified wavenumbers of mode `m` are opposite for opposite rows. -/
def OddAt (c : Cfg) (s : Sim) (m iz : ℕ) : Prop := (s.spect m).kz (negIdx c.Nz iz) = -(s.spect m).kz iz

/-- Nothing in the state oscillates with the wavenumber of row `iz`, and the smoother removes it from the sources. -/
def Removed (c : Cfg) [NeZero c.Nz] (s : Sim) (m iz : ℕ) : Prop :=
  (∃ fz fr, c.filter = some (fz, fr) ∧ fz iz = 0) ∧ AbsentVec c iz (s.interp m).E ∧ AbsentVec c iz (s.interp m).B ∧
    ∀ ir < c.Nr, (s.spect m).cell iz ir = ⟨0, 0, 0, 0, 0, 0, 0, 0, 0, 0, 0, 0, 0, 0, 0, 0, 0⟩

/-- What is needed of the solver: the smoother has the same effect on opposite wavenumbers, and so has the stencil, except
for wavenumbers (that of Nyquist) that are not there. -/
structure EvenSolver (c : Cfg) [NeZero c.Nz] (s : Sim) : Prop where
  Nz : ∀ m < c.Nm, (s.spect m).Nz = c.Nz
  Nr : ∀ m < c.Nm, (s.spect m).Nr = c.Nr
  smooth : ∀ fz fr, c.filter = some (fz, fr) → ∀ iz < c.Nz, fz (negIdx c.Nz iz) = fz iz
  nyquist : ∀ m < c.Nm, ∀ iz < c.Nz, OddAt c s m iz ∨ Removed c s m iz

/-- The sign of a component under the reflection: the azimuthal one of a polar vector, the others of an axial vector
change sign. -/
def sign : GridArray → ℝ
  | .Er | .Ez | .Bt | .Jr | .Jz | .rho => 1
  | .Et | .Br | .Bz | .Jt => -1

/-- The state does not change when everything is reflected: fields and clouds of particles are the same afterwards. -/
def MirrorSymmetric (c : Cfg) (s : Sim) : Prop := ∃ s', Reflected c s s' ∧ SameRun SameCloud s' s

end Fbpic.Spec.Reflect
