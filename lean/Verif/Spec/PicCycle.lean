import Verif.Model.Pic
import Verif.Spec.Push
import Verif.Spec.Maxwell
import Verif.Spec.Transform
import Verif.Lemmas.Spectral

/-!
# The PIC cycle as in the textbooks (C93)

What one time step should do to the particles, the sources and the fields, in terms of the equation of motion
(`NewtonLorentz`), Maxwell's equations (`IsMaxwell`), the interpolation of one particle on one grid and the
Fourier-Hankel transform. The functions of the cycle are not used.
-/

namespace Fbpic.Spec

open Pic Transform ExternalField Step

/-! ### Particles -/

/-- Two states have the same species with the same number of particles; `R` holds between the particle number `j`
of the species number `id` in the first state and the one with the same numbers in the second. -/
structure Paired (R : ℕ → Pic.Species → Ptcl → Ptcl → Prop) (s t : Sim) : Prop where
  count : t.species.length = s.species.length
  same : ∀ (id : ℕ) (sp sp' : Pic.Species), s.species[id]? = some sp → t.species[id]? = some sp' →
    { sp' with ptcl := sp.ptcl } = sp ∧ sp'.ptcl.length = sp.ptcl.length
  ptcl : ∀ (id : ℕ) (sp sp' : Pic.Species), s.species[id]? = some sp → t.species[id]? = some sp' →
    ∀ (j : ℕ) (p p' : Ptcl), sp.ptcl[j]? = some p → sp'.ptcl[j]? = some p' → R id sp p p'

/-- `z'` is `z`, brought into the box by a whole number of periods. -/
structure Wrapped (zmin zmax z z' : ℝ) : Prop where
  periods : ∃ n : ℤ, z' = z + n * (zmax - zmin)
  lower : zmin ≤ z'
  upper : z' < zmax

/-- The external fields at one point: the functions for the component `k` that concern the species `id`, one after
the other, each applied to the value so far. -/
def external (c : Cfg) (time : ℝ) (id : ℕ) (x y z : ℝ) (k : Comp) (v : ℝ) : ℝ :=
  ((c.ext.filter fun e => e.species = none ∨ e.species = some id).flatMap fun e =>
    (e.terms.filter fun a => a.1 = k).map fun a => fun v => e.func v x y z time a.2 e.lengthScale).foldl
      (fun v f => f v) v

/-- `F` are the fields at the point `(x, y, z)`: the ones of the grid, interpolated with the shape of the species,
and the external ones. -/
def FieldsAt (c : Cfg) (s : Sim) (id : ℕ) (sp : Pic.Species) (x y z : ℝ) (F : Comp → ℝ) : Prop :=
  ∃ E B : ℝ × ℝ × ℝ,
    gatherField sp.shape (c.grid s.zmin) c.rmaxGather ((List.range c.Nm).map fun m => (s.interp m).E) x y z = .ok E ∧
    gatherField sp.shape (c.grid s.zmin) c.rmaxGather ((List.range c.Nm).map fun m => (s.interp m).B) x y z = .ok B ∧
    F .Ex = external c s.time id x y z .Ex E.1 ∧ F .Ey = external c s.time id x y z .Ey E.2.1 ∧
    F .Ez = external c s.time id x y z .Ez E.2.2 ∧ F .Bx = external c s.time id x y z .Bx B.1 ∧
    F .By = external c s.time id x y z .By B.2.1 ∧ F .Bz = external c s.time id x y z .Bz B.2.2

/-- The charge of one of the physical particles. -/
noncomputable def chargeOf (c : Cfg) (sp : Pic.Species) (p : Ptcl) : ℝ :=
  if sp.ionizable then c.eCharge * p.push.level else sp.q

/-- The species feels forces at `z`: it is charged and, if it is injected through a plane, has passed it at the
middle of the step. -/
def Feels (c : Cfg) (s : Sim) (sp : Pic.Species) (z : ℝ) : Prop :=
  sp.q ≠ 0 ∧ ∀ b, sp.plane = some b → b.position c.k.c (s.time + c.dt / 2) < z

/-- The velocity. -/
noncomputable def velocity (c : Cfg) (e : ElecMom) : Vec3 :=
  ⟨c.k.c * e.ux / e.gamma, c.k.c * e.uy / e.gamma, c.k.c * e.uz / e.gamma⟩

/-- The leap-frog step of one particle that starts at `z`: the momentum, known half a step before the position, is
advanced by a whole step with the fields at the position; then the position is advanced by a whole step with the new
momentum. -/
structure LeapFrom (c : Cfg) (o : Opts) (s : Sim) (id : ℕ) (sp : Pic.Species) (z : ℝ) (p p' : Ptcl) : Prop where
  weight : p'.w = p.w
  level : p'.push.level = p.push.level
  fields : sp.q ≠ 0 → FieldsAt c s id sp p.push.x p.push.y z p'.F
  force : o.moveMomenta = true ∧ Feels c s sp z →
    NewtonLorentz (chargeOf c sp p * c.dt / (sp.m * c.k.c)) (chargeOf c sp p * c.dt / (2 * sp.m))
      ⟨p'.F .Ex, p'.F .Ey, p'.F .Ez⟩ ⟨p'.F .Bx, p'.F .By, p'.F .Bz⟩ p.push.mom p'.push.mom
  free : ¬ (o.moveMomenta = true ∧ Feels c s sp z) → p'.push.mom = p.push.mom
  moves : o.movePositions = true → p'.push.x = p.push.x + c.dt * (velocity c p'.push.mom).x ∧
    p'.push.y = p.push.y + c.dt * (velocity c p'.push.mom).y ∧
    p'.push.z = z + c.dt * (velocity c p'.push.mom).z
  rests : o.movePositions = false → p'.push.x = p.push.x ∧ p'.push.y = p.push.y ∧ p'.push.z = z

/-- The leap-frog step in a periodic box. -/
def Leap (c : Cfg) (o : Opts) (s : Sim) (id : ℕ) (sp : Pic.Species) (p p' : Ptcl) : Prop :=
  ∃ z, Wrapped s.zmin s.zmax p.push.z z ∧ LeapFrom c o s id sp z p p'

/-! ### Sources -/

/-- The particles on the straight way that they follow in a step, seen from its end: their transverse positions a
time `a` before, their longitudinal positions and the grid a time `b` before. -/
noncomputable def back (c : Cfg) (o : Opts) (a b : ℝ) (t : Sim) : Sim :=
  { t with
    zmin := if c.galilean then t.zmin - c.V.getD 0 * b else t.zmin
    species := t.species.map fun sp => { sp with ptcl := sp.ptcl.map fun p =>
      if o.movePositions then { p with push := { p.push with
        x := p.push.x - a * (velocity c p.push.mom).x
        y := p.push.y - a * (velocity c p.push.mom).y
        z := p.push.z - b * (velocity c p.push.mom).z } } else p } }

/-- `a` is a density on the grid of mode `m`: the one that the particles deposit, divided by the volumes of the
cells. -/
def Density (c : Cfg) (f : DepField) (s : Sim) (m : ℕ) (a : Buf) : Prop :=
  ∃ A, depositAll f c.k.c (c.grid s.zmin) c.beta m c.nthreads s.depositing = .ok A ∧
    ∀ iz ir, a iz ir = A iz ir / c.vol m ir

section
variable (c : Cfg) [NeZero c.Nz]

/-- The Fourier-Hankel transform of a scalar. -/
noncomputable def scalHat (m : ℕ) (a : Buf) (iz ir : ℕ) : ℂ :=
  hankel c.Nr (c.mats m).M0 (fftAxis0 c.Nz false a) iz ir

/-- The Fourier-Hankel transform of a vector. -/
noncomputable def vecHat (m : ℕ) (F : GridVec) (iz ir : ℕ) : V3 where
  p := hankel c.Nr (c.mats m).Mp (fftAxis0 c.Nz false fun i j => (F.r i j - Complex.I * F.t i j) / 2) iz ir
  m := hankel c.Nr (c.mats m).Mm (fftAxis0 c.Nz false fun i j => (F.r i j + Complex.I * F.t i j) / 2) iz ir
  z := scalHat c m F.z iz ir

/-- The scalar that belongs to a transform. -/
noncomputable def scalBack (m : ℕ) (a : Buf) (iz ir : ℕ) : ℂ :=
  fftAxis0 c.Nz true (hankel c.Nr (c.mats m).invM0 a) iz ir

/-- The vector that belongs to a transform. -/
noncomputable def vecBack (m : ℕ) (F : ℕ → ℕ → V3) : GridVec where
  r := fftAxis0 c.Nz true fun i j => hankel c.Nr (c.mats m).invMp (fun i j => (F i j).p) i j
    + hankel c.Nr (c.mats m).invMm (fun i j => (F i j).m) i j
  t := fftAxis0 c.Nz true fun i j => Complex.I * (hankel c.Nr (c.mats m).invMp (fun i j => (F i j).p) i j
    - hankel c.Nr (c.mats m).invMm (fun i j => (F i j).m) i j)
  z := scalBack c m fun i j => (F i j).z

/-- Two vectors on the grid agree. -/
structure OnGrid (F G : GridVec) : Prop where
  r : ∀ iz < c.Nz, ∀ ir < c.Nr, F.r iz ir = G.r iz ir
  t : ∀ iz < c.Nz, ∀ ir < c.Nr, F.t iz ir = G.t iz ir
  z : ∀ iz < c.Nz, ∀ ir < c.Nr, F.z iz ir = G.z iz ir

/-- The smoothing of the sources. -/
noncomputable def smoothing (m iz ir : ℕ) : ℂ :=
  match c.filter with
  | some (fz, fr) => ((fz iz * fr m ir : ℝ) : ℂ)
  | none => 1

/-- `rho` is the transform of the charge density of the particles, smoothed. -/
def ChargeOf (s : Sim) (rho : ℕ → ℕ → ℕ → ℂ) : Prop :=
  ∀ m < c.Nm, ∃ a, Density c .rho s m a ∧
    ∀ iz < c.Nz, ∀ ir < c.Nr, rho m iz ir = smoothing c m iz ir * scalHat c m a iz ir

/-- `J` is the transform of the current density of the particles, smoothed. -/
def CurrentOf (s : Sim) (J : ℕ → ℕ → ℕ → V3) : Prop :=
  ∀ m < c.Nm, ∃ a : GridVec, Density c .Jr s m a.r ∧ Density c .Jt s m a.t ∧ Density c .Jz s m a.z ∧
    ∀ iz < c.Nz, ∀ ir < c.Nr,
      (J m iz ir).p = smoothing c m iz ir * (vecHat c m a iz ir).p ∧
      (J m iz ir).m = smoothing c m iz ir * (vecHat c m a iz ir).m ∧
      (J m iz ir).z = smoothing c m iz ir * (vecHat c m a iz ir).z

end

/-- A gradient is added to the current. -/
def PlusGradient (kz kr : ℝ) (J₀ J : V3) : Prop :=
  ∃ f, J.p = J₀.p + (grad kz kr f).p ∧ J.m = J₀.m + (grad kz kr f).m ∧ J.z = J₀.z + (grad kz kr f).z

/-- A transverse and a longitudinal gradient are added to the current. -/
def PlusGradients (kz kr : ℝ) (J₀ J : V3) : Prop :=
  ∃ f g, J.p = J₀.p + (grad kz kr f).p ∧ J.m = J₀.m + (grad kz kr f).m ∧ J.z = J₀.z + (grad kz kr g).z

/-- The sources of one step, with the wavenumbers `kz` and `kr`: `rho₀` and `rho` are the charge densities at its
beginning and at its end, `J` is the current density of the particles at its middle. `P a b` are the particles with
their transverse positions a time `a` before the end, their longitudinal positions and the grid a time `b` before. If
the currents are corrected, a gradient is added so that the charge is conserved; with the cross-deposition this is
done separately for the transverse and the longitudinal motion, with the charge densities on the two detours where the
particles make one of them before the other. -/
structure Sources (c : Cfg) [NeZero c.Nz] (o : Opts) (kz kr : ℕ → ℕ → ℝ) (P : ℝ → ℝ → Sim) (rho₀ rho : ℕ → ℕ → ℕ → ℂ)
    (J : ℕ → ℕ → ℕ → V3) : Prop where
  after : ChargeOf c (P 0 0) rho
  plain : o.correctCurrents = false → CurrentOf c (P (c.dt / 2) (c.dt / 2)) J
  curlFree : o.correctCurrents = true → c.correction = .curlFree →
    ∃ J₀, CurrentOf c (P (c.dt / 2) (c.dt / 2)) J₀ ∧ ∀ m < c.Nm, ∀ iz < c.Nz, ∀ ir < c.Nr,
      PlusGradient (kz m iz) (kr m ir) (J₀ m iz ir) (J m iz ir) ∧
      (kz m iz ≠ 0 ∨ kr m ir ≠ 0 → (schemeOf c.V c.galilean).Continuity (kz m iz) (kr m ir) c.dt
        (rho₀ m iz ir) (rho m iz ir) (J m iz ir))
  cross : o.correctCurrents = true → c.correction = .crossDeposition →
    ∃ J₀ rhoXY rhoZ, CurrentOf c (P (c.dt / 2) (c.dt / 2)) J₀ ∧ ChargeOf c (P 0 c.dt) rhoXY ∧
      ChargeOf c (P c.dt 0) rhoZ ∧ ∀ m < c.Nm, ∀ iz < c.Nz, ∀ ir < c.Nr,
      PlusGradients (kz m iz) (kr m ir) (J₀ m iz ir) (J m iz ir) ∧
      (kz m iz ≠ 0 → (schemeOf c.V c.galilean).Continuity (kz m iz) (kr m ir) c.dt
        ((rho₀ m iz ir + rhoXY m iz ir) / 2) ((rhoZ m iz ir + rho m iz ir) / 2) ⟨0, 0, (J m iz ir).z⟩) ∧
      (kr m ir ≠ 0 → (schemeOf c.V c.galilean).Continuity (kz m iz) (kr m ir) c.dt
        ((rho₀ m iz ir - rhoXY m iz ir) / 2) ((rho m iz ir - rhoZ m iz ir) / 2)
        ⟨(J m iz ir).p, (J m iz ir).m, 0⟩)

end Fbpic.Spec
