import Verif.Model.Pic

/-!
# Symmetries of a simulation

A *motion* turns the transverse axes by an angle (given by its cosine and sine), moves the origin of `z`, and
possibly reverses the sign of all the charges. The definitions say what it does to the particles, to the
species, and to the arrays of the azimuthal mode `m`.
-/

namespace Fbpic.Spec

open Pic ExternalField Step

/-- Angle (`cos`, `sin`), sign of the charges, and displacement along z. -/
structure Motion where
  cos : ℝ
  sin : ℝ
  unit : cos ^ 2 + sin ^ 2 = 1
  sign : ℝ
  sign_sq : sign = 1 ∨ sign = -1
  shift : ℝ

namespace Motion

/-- Rotation by the angle `a` around the axis. -/
noncomputable def rotation (a : ℝ) : Motion where
  cos := Real.cos a
  sin := Real.sin a
  unit := Real.cos_sq_add_sin_sq a
  sign := 1
  sign_sq := Or.inl rfl
  shift := 0

/-- All charges are reversed. -/
def conjugation : Motion where
  cos := 1
  sin := 0
  unit := by norm_num
  sign := -1
  sign_sq := Or.inr rfl
  shift := 0

/-- Everything is displaced by `d` along z. -/
def translation (d : ℝ) : Motion where
  cos := 1
  sin := 0
  unit := by norm_num
  sign := 1
  sign_sq := Or.inl rfl
  shift := d

variable (M : Motion)

/-- The x component of a rotated vector. -/
def vx (x y : ℝ) : ℝ := M.cos * x - M.sin * y

/-- The y component of a rotated vector. -/
def vy (x y : ℝ) : ℝ := M.sin * x + M.cos * y

/-- Position and momentum of a moved particle. -/
def push (p : PushPtcl) : PushPtcl :=
  { p with
    x := M.vx p.x p.y
    y := M.vy p.x p.y
    z := p.z + M.shift
    mom := { p.mom with ux := M.vx p.mom.ux p.mom.uy, uy := M.vy p.mom.ux p.mom.uy } }

/-- The fields on a moved particle: turned, and reversed if the charges are. -/
def fields (F : Comp → ℝ) : Comp → ℝ
  | .Ex => M.sign * M.vx (F .Ex) (F .Ey)
  | .Ey => M.sign * M.vy (F .Ex) (F .Ey)
  | .Ez => M.sign * F .Ez
  | .Bx => M.sign * M.vx (F .Bx) (F .By)
  | .By => M.sign * M.vy (F .Bx) (F .By)
  | .Bz => M.sign * F .Bz

/-- A moved macroparticle. -/
def ptcl (p : Ptcl) : Ptcl := ⟨M.push p.push, p.w, M.fields p.F⟩

/-- A plane for ballistic injection, displaced along z. -/
noncomputable def plane (b : BallisticPlane) : BallisticPlane :=
  { b with zPlaneLab := b.zPlaneLab + M.shift / b.invGammaBoost }

/-- A species with all its particles moved. -/
noncomputable def species (s : Pic.Species) : Pic.Species :=
  { s with q := M.sign * s.q, plane := s.plane.map M.plane, ptcl := s.ptcl.map M.ptcl }

/-- The factor of the arrays of mode `m`: `e^{i m a}`, with the sign of the charges. -/
noncomputable def factor (m : ℕ) : ℂ := M.sign * ((M.cos : ℂ) + Complex.I * M.sin) ^ m

/-- An array of mode `m` of the moved fields. -/
noncomputable def arr (m : ℕ) (a : Buf) : Buf := fun iz ir => M.factor m * a iz ir

/-- The spectral arrays of mode `m` of the moved fields. -/
noncomputable def cell (m : ℕ) (s : SpecCell) : SpecCell where
  Ep := M.factor m * s.Ep
  Em := M.factor m * s.Em
  Ez := M.factor m * s.Ez
  Bp := M.factor m * s.Bp
  Bm := M.factor m * s.Bm
  Bz := M.factor m * s.Bz
  Jp := M.factor m * s.Jp
  Jm := M.factor m * s.Jm
  Jz := M.factor m * s.Jz
  rhoPrev := M.factor m * s.rhoPrev
  rhoNext := M.factor m * s.rhoNext
  rhoNextZ := M.factor m * s.rhoNextZ
  rhoNextXY := M.factor m * s.rhoNextXY
  EpPml := M.factor m * s.EpPml
  EmPml := M.factor m * s.EmPml
  BpPml := M.factor m * s.BpPml
  BmPml := M.factor m * s.BmPml

/-- The second configuration: the elementary charge has the sign of the charges, and the external fields are
`ext`. -/
def cfg (c : Cfg) (ext : List Ext) : Cfg := { c with eCharge := M.sign * c.eCharge, ext := ext }

/-- The external fields of the second configuration act on the moved particles as those of the first one act on
the particles. -/
def ExtMoved (c : Cfg) (ext : List Ext) : Prop :=
  ∀ (t : ℝ) (id : ℕ) (p : Ptcl), ext.foldl (fun p e => applyExt e t id p) (M.ptcl p)
    = M.ptcl (c.ext.foldl (fun p e => applyExt e t id p) p)

/-- The state `s'` is the state `s`, moved. -/
structure Moved (s s' : Sim) : Prop where
  zmin : s'.zmin = s.zmin + M.shift
  zmax : s'.zmax = s.zmax + M.shift
  time : s'.time = s.time
  iteration : s'.iteration = s.iteration
  species : s'.species = s.species.map M.species
  Er : ∀ m, (s'.interp m).E.r = M.arr m (s.interp m).E.r
  Et : ∀ m, (s'.interp m).E.t = M.arr m (s.interp m).E.t
  Ez : ∀ m, (s'.interp m).E.z = M.arr m (s.interp m).E.z
  Br : ∀ m, (s'.interp m).B.r = M.arr m (s.interp m).B.r
  Bt : ∀ m, (s'.interp m).B.t = M.arr m (s.interp m).B.t
  Bz : ∀ m, (s'.interp m).B.z = M.arr m (s.interp m).B.z
  Jr : ∀ m, (s'.interp m).J.r = M.arr m (s.interp m).J.r
  Jt : ∀ m, (s'.interp m).J.t = M.arr m (s.interp m).J.t
  Jz : ∀ m, (s'.interp m).J.z = M.arr m (s.interp m).J.z
  rho : ∀ m, (s'.interp m).rho = M.arr m (s.interp m).rho
  spect : ∀ m, s'.spect m = { s.spect m with cell := fun iz ir => M.cell m ((s.spect m).cell iz ir) }

end Motion

/-- The field at the angle `θ` of a grid point, from the values of the modes: the real part of
`a₀ + 2 Σ a_m e^{-i m θ}`. -/
noncomputable def atAngle (Nm : ℕ) (a : ℕ → ℂ) (θ : ℝ) : ℝ :=
  ∑ m ∈ Finset.range Nm, (if m = 0 then 1 else 2) * (a m * Complex.exp (-Complex.I * m * θ)).re

/-- The arrays of the interpolation grids. -/
inductive GridArray | Er | Et | Ez | Br | Bt | Bz | Jr | Jt | Jz | rho

/-- The array of a grid. -/
def GridArray.get (f : GridArray) (i : Interp) : Buf :=
  match f with
  | .Er => i.E.r | .Et => i.E.t | .Ez => i.E.z
  | .Br => i.B.r | .Bt => i.B.t | .Bz => i.B.z
  | .Jr => i.J.r | .Jt => i.J.t | .Jz => i.J.z
  | .rho => i.rho

/-- The physical field at the point `(iz, ir)` and at the angle `θ`. -/
noncomputable def physical (Nm : ℕ) (s : Sim) (f : GridArray) (iz ir : ℕ) (θ : ℝ) : ℝ :=
  atAngle Nm (fun m => f.get (s.interp m) iz ir) θ

/-- The number of cells that a particle may travel along the grid in one time step. -/
noncomputable def maxCells : Shape → ℝ
  | .linear => 3 / 2
  | .cubic => 1 / 2

/-- The velocity of the grid: `v_comoving` with the Galilean scheme. -/
noncomputable def frameVelocity (c : Cfg) : ℝ := if c.galilean then c.V.getD 0 else 0

/-- A configuration, a list of calls and an initial state for which a run cannot go wrong: the grid and its
number of cells agree, the particles are at most one box length outside of the box, and no particle can cross
more than `maxCells` cells of the grid per time step. -/
structure Reasonable (c : Cfg) (L : List (ℕ × Opts)) (s : Sim) : Prop where
  light : 0 < c.k.c
  dt : 0 < c.dt
  invdz : 0 < c.invdz
  invdr : 0 < c.invdr
  Nz : 2 ≤ c.Nz
  Nr : 2 ≤ c.Nr
  threads : 0 < c.nthreads
  period : c.exchangePeriod = 1
  fuel : 2 ≤ c.fuel
  beta : ∀ sh k, (c.beta sh k).length = c.Nr + 1
  opts : ∀ x ∈ L, x.2.correctDivE = true → c.correction = .curlFree
  box : (s.zmax - s.zmin) * c.invdz = c.Nz
  plane : ∀ sp ∈ s.species, sp.plane ≠ none → sp.ionizable = false
  speed : ∀ sp ∈ s.species, (c.k.c + |frameVelocity c|) * c.dt * c.invdz ≤ maxCells sp.shape
  mom : ∀ sp ∈ s.species, ∀ p ∈ sp.ptcl,
    p.push.mom.invGamma = 1 / Real.sqrt (1 + p.push.mom.ux ^ 2 + p.push.mom.uy ^ 2 + p.push.mom.uz ^ 2)
  near : ∀ sp ∈ s.species, ∀ p ∈ sp.ptcl,
    s.zmin - (s.zmax - s.zmin) ≤ p.push.z ∧ p.push.z < s.zmax + (s.zmax - s.zmin)

/-! ### Macroparticles that stand for the same cloud -/

/-- The sum over the macroparticles of any function of position, momentum, level and fields, with the weights. -/
noncomputable def weighted (φ : PushPtcl × (Comp → ℝ) → ℂ) (L : List Ptcl) : ℂ :=
  (L.map fun p => (p.w : ℂ) * φ (p.push, p.F)).sum

/-- The second list has no macroparticle at another place (in phase space) than the first one. -/
def NoNewPlace (L L' : List Ptcl) : Prop := ∀ p' ∈ L', ∃ p ∈ L, p'.push = p.push ∧ p'.F = p.F

/-- The macroparticles stand for the same cloud: the same total weight at each place. They may be in another
order, split or merged. -/
def SameCloud (L L' : List Ptcl) : Prop := ∀ φ, weighted φ L' = weighted φ L

/-- Two species with the same attributes. Unless they do not act on the fields (tracers and neutral particles),
their macroparticles are related by `P`. -/
structure SameSpecies (P : List Ptcl → List Ptcl → Prop) (a b : Pic.Species) : Prop where
  q : b.q = a.q
  m : b.m = a.m
  shape : b.shape = a.shape
  tracer : b.isTracer = a.isTracer
  ionizable : b.ionizable = a.ionizable
  plane : b.plane = a.plane
  places : NoNewPlace a.ptcl b.ptcl
  cloud : a.isTracer = true ∨ a.q = 0 ∨ P a.ptcl b.ptcl

/-- Two states with the same fields, and particles related by `P`. -/
structure SameRun (P : List Ptcl → List Ptcl → Prop) (s s' : Sim) : Prop where
  zmin : s'.zmin = s.zmin
  zmax : s'.zmax = s.zmax
  time : s'.time = s.time
  iteration : s'.iteration = s.iteration
  species : List.Forall₂ (SameSpecies P) s.species s'.species
  interp : s'.interp = s.interp
  spect : s'.spect = s.spect

/-- The same configuration with another number of threads. -/
def withThreads (c : Cfg) (n : ℕ) : Cfg := { c with nthreads := n }

instance (c : Cfg) [h : NeZero c.Nz] (n : ℕ) : NeZero (withThreads c n).Nz := h

/-- The state does not change when everything is turned by one `n`-th of a revolution: fields and clouds of
particles are the same afterwards. -/
def FoldSymmetric (n : ℕ) (s : Sim) : Prop :=
  ∃ s', (Motion.rotation (2 * Real.pi / n)).Moved s s' ∧ SameRun SameCloud s' s

end Fbpic.Spec
