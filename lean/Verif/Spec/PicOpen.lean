import Verif.Model.PicOpen
import Verif.Spec.PicCycle
import Verif.Spec.Mirror
import Verif.Props.Damping
import Verif.Lemmas.SpectralStep

/-!
# The PIC cycle with open boundaries, moving window, lasers and mirrors (C94)

What one iteration should do to the population of particles, to the antennas, to the grid and to the fields. The
functions of the cycle are not used.
-/

namespace Fbpic.Spec

open Pic Transform ExternalField Step

/-! ### Particles -/

/-- A new particle is the one that the continuous injection prescribes. -/
structure NewOf (x : NewPtcl ℝ) (p : Ptcl) : Prop where
  z : p.push.z = x.z
  w : p.w = x.w
  r : p.push.x ^ 2 + p.push.y ^ 2 = x.r ^ 2

/-- The plasma that species `id` receives: with a moving window and continuous injection, the layers that are waiting. -/
noncomputable def injected (c : OCfg) (S : OSim) (id : ℕ) : List (NewPtcl ℝ) :=
  match S.win, S.inj.getD id none with
  | some _, some ⟨some d, v, some p⟩ => (generateParticles d v (c.plasma id) S.sim.time p).1
  | _, _ => []

/-- The particles of species `id` after an exchange. In a periodic box they are wrapped. Otherwise the ones beyond the
guard cells are removed, the others stay as they are, and the injected ones follow. -/
structure Exchanged (c : OCfg) (S : OSim) (id : ℕ) (l l' : List Ptcl) : Prop where
  periodic : c.comm.nGuard = 0 → List.Forall₂ (fun p p' : Ptcl => ∃ z, Wrapped S.sim.zmin S.sim.zmax p.push.z z ∧
    p' = { p with push := { p.push with z := z } }) l l'
  opened : c.comm.nGuard ≠ 0 → ∃ new, l' = l.filter (fun p => decide (S.sim.zmin + c.comm.nGuard * c.dz ≤ p.push.z ∧
      p.push.z ≤ S.sim.zmax - c.comm.nGuard * c.dz)) ++ new ∧ List.Forall₂ NewOf (injected c S id) new

/-- `u` is the simulation with the particles that take part in the iteration `i` of a call: after the exchange if
there is one, else the same ones. -/
structure Entered (c : OCfg) (i : ℕ) (S : OSim) (u : Sim) : Prop where
  rest : { u with species := S.sim.species } = S.sim
  count : u.species.length = S.sim.species.length
  species : ∀ (id : ℕ) (sp sp' : Pic.Species), S.sim.species[id]? = some sp → u.species[id]? = some sp' →
    { sp' with ptcl := sp.ptcl } = sp ∧
    ((S.sim.iteration : ℤ) % c.comm.exchangePeriod = 0 ∨ i = 0 → Exchanged c S id sp.ptcl sp'.ptcl) ∧
    (¬ ((S.sim.iteration : ℤ) % c.comm.exchangePeriod = 0 ∨ i = 0) → sp'.ptcl = sp.ptcl)

/-! ### Antennas -/

/-- The motion of one virtual particle of an antenna in a step that starts at the time `t`: the field of the laser at
the middle of the step gives the new transverse velocity, with which the excursion is advanced by a whole step; the
plane moves with its constant velocity. In a boosted frame the profile is evaluated in the laboratory frame. -/
def Swings (c : OCfg) (a : Antenna.Ant) (t : ℝ) (p p' : Antenna.VP) : Prop :=
  ∃ zl tl : ℝ, (a.boost = none → zl = p.z + p.vz * c.base.dt / 2 ∧ tl = t + c.base.dt / 2) ∧
    (∀ b, a.boost = some b → zl = b.gamma0 * (p.z + p.vz * c.base.dt / 2 + b.beta0 * c.base.k.c * (t + c.base.dt / 2)) ∧
      tl = b.gamma0 * (t + c.base.dt / 2 + b.beta0 * (p.z + p.vz * c.base.dt / 2) / c.base.k.c)) ∧
    let E := a.profile (p.x + p.vx * c.base.dt / 2) (p.y + p.vy * c.base.dt / 2) zl tl
    p' = ⟨p.x, p.y, p.z + c.base.dt * p.vz, p.w, p.ex + c.base.dt * (a.mobility * E.1), p.ey + c.base.dt * (a.mobility * E.2),
      a.mobility * E.1, a.mobility * E.2, p.vz⟩

/-- An antenna after the iteration `i` of a call. Its virtual particles swing, and its profile stays. Whether it emits
is decided when the particles are exchanged: it does if its plane is in the box without the guard cells. -/
structure Swung (c : OCfg) (i : ℕ) (S : OSim) (a a' : Antenna.Ant) : Prop where
  profile : a'.profile = a.profile
  boost : a'.boost = a.boost
  mobility : a'.mobility = a.mobility
  parts : List.Forall₂ (Swings c a S.sim.time) a.parts a'.parts
  emits : (S.sim.iteration : ℤ) % c.comm.exchangePeriod = 0 ∨ i = 0 → ∃ p, a.parts.head? = some p ∧ (a'.onRank = true ↔
    S.sim.zmin + c.comm.nGuard * c.dz ≤ p.z ∧ p.z < S.sim.zmax - c.comm.nGuard * c.dz)
  keeps : ¬ ((S.sim.iteration : ℤ) % c.comm.exchangePeriod = 0 ∨ i = 0) → a'.onRank = a.onRank

/-! ### Sources -/

/-- One of the two virtual particles of a pair, of charge `q`. -/
noncomputable def pairPtcl (k q : ℝ) (p : Antenna.VP) : Ptcl where
  push := ⟨p.x + q * p.ex, p.y + q * p.ey, p.z, ⟨q * p.vx / k, q * p.vy / k, p.vz / k, 1⟩, 0⟩
  w := p.w
  F := fun _ => 0

/-- The virtual particles of the same sign as a species. -/
noncomputable def pairSpecies (k q : ℝ) (a : Antenna.Ant) : Pic.Species :=
  ⟨q, 1, .linear, false, false, none, a.parts.map (pairPtcl k q)⟩

/-- Everything that carries charge: the particles and the virtual particles of the antennas that are in the box. -/
noncomputable def charges (c : OCfg) (S : OSim) : Sim :=
  { S.sim with species := S.sim.species ++ S.ants.flatMap fun a =>
      if a.onRank then [pairSpecies c.base.k.c (-1) a, pairSpecies c.base.k.c 1 a] else [] }

/-- The particles and antennas on the straight way that they follow in a step, seen from its end: their transverse
positions a time `a` before, their longitudinal positions and the grid a time `b` before. The window has moved by `n`
cells at the end. -/
noncomputable def earlier (c : OCfg) (o : Opts) (n : ℤ) (a b : ℝ) (S : OSim) : OSim :=
  { S with
    sim := back c.base o a b { S.sim with zmin := S.sim.zmin - n * c.dz }
    ants := S.ants.map fun A => { A with parts := A.parts.map fun p =>
      { p with ex := p.ex - a * p.vx, ey := p.ey - a * p.vy, z := p.z - b * p.vz } } }

/-! ### Grid and fields -/

/-- The grid is where the communicator says. -/
def Placed (c : OCfg) (S : OSim) : Prop :=
  c.comm.getZminZmax S.zminG c.dz true true true (some 0) = .ok (S.sim.zmin, S.sim.zmax)

/-- What is assumed of the configuration: one process, whose grid has the physical cells, and the cells for damping,
injection and the guard region on both sides; `inv_gamma` of injected particles belongs to their momentum. -/
structure OneProcess (c : OCfg) : Prop where
  threads : 0 < c.base.nthreads
  consts : c.base.k.Ok
  size : c.comm.size = 1
  cells : c.base.Nz = c.comm.NzGlobal + 2 * (c.comm.nzDamp + c.comm.nInject) + 2 * c.comm.nGuard
  dz : 0 < c.dz
  fill : ∀ id t n x, (c.fill id t n x).2.1.ok

/-- What is assumed of the state at the beginning: the arrays have the right size, the wavenumbers are not exceptional,
the grid is where it should be relative to the physical domain, and `inv_gamma` of the particles belongs to their
momentum. -/
structure Healthy (c : OCfg) (S : OSim) : Prop where
  sized : ∀ m < c.base.Nm, (S.sim.spect m).Nz = c.base.Nz ∧ (S.sim.spect m).Nr = c.base.Nr
  regular : ∀ m < c.base.Nm, ∀ iz < c.base.Nz, Regular c.base.k ((S.sim.spect m).kz iz) c.base.dt c.base.V
  zmin : S.sim.zmin = S.zminG - (c.comm.nzDamp + c.comm.nInject + c.comm.nGuard) * c.dz
  zmax : S.sim.zmax = S.sim.zmin + c.base.Nz * c.dz
  mom : ∀ sp ∈ S.sim.species, ∀ p ∈ sp.ptcl, p.push.mom.ok

/-- The row `iz` of mode `m` is set to zero by the mirror at time `t`; `zmin` and `zmax` are the ends of the grid. The
row is before the mirror, and not behind its surface, see C51. -/
def InMirror (c : OCfg) (M : Mirror.Mir) (zmin zmax t : ℝ) (m iz : ℕ) : Prop :=
  let zs := Mirror.position c.base.k.c M.gammaBoost t M.zStart
  let ze := Mirror.position c.base.k.c M.gammaBoost t M.zEnd
  (∀ l, M.modes = some l → m ∈ l) ∧ zmin ≤ zs ∧ zs < zmax ∧ Before zs (pyInt ((ze - zs) / c.dz)) zmin c.dz iz

open Classical in
/-- The factor by which the fields of mode `m` in the row `iz` are multiplied at the end of a step. -/
noncomputable def transmission (c : OCfg) (zmin zmax t : ℝ) (m iz : ℕ) : ℝ :=
  if ∃ M ∈ c.mirrors, InMirror c M zmin zmax t m iz then 0 else openDamping c.comm 0 c.base.Nz iz

/-- The row `n` cells to the right of `iz`; the arrays are periodic. -/
def rowAfter (N : ℕ) (n : ℤ) (iz : ℕ) : ℕ := (((iz : ℤ) + n) % (N : ℤ)).toNat

/-- The array `a`, with the content moved by `n` cells to the left, and multiplied by `g`. -/
noncomputable def movedArr (N : ℕ) (n : ℤ) (g : ℕ → ℝ) (a : Buf) : Buf := fun iz ir => (g iz : ℂ) * a (rowAfter N n iz) ir

/-- The same for a vector. -/
noncomputable def movedVec (N : ℕ) (n : ℤ) (g : ℕ → ℝ) (F : GridVec) : GridVec :=
  ⟨movedArr N n g F.r, movedArr N n g F.t, movedArr N n g F.z⟩

/-- On the grid in z (and in Hankel space along r), `b` is `a`, moved by `n` cells to the left and multiplied by
`g`. -/
def MovedScal (N Nr : ℕ) [NeZero N] (n : ℤ) (g : ℕ → ℝ) (a b : Buf) : Prop :=
  ∀ iz < N, ∀ ir < Nr, fftAxis0 N true b iz ir = (g iz : ℂ) * fftAxis0 N true a (rowAfter N n iz) ir

/-- On the grid in z (and in Hankel space along r), `G` is `F`, moved by `n` cells to the left and multiplied by
`g`. -/
def MovedHat (N Nr : ℕ) [NeZero N] (n : ℤ) (g : ℕ → ℝ) (F G : ℕ → ℕ → V3) : Prop :=
  MovedScal N Nr n g (fun i j => (F i j).p) (fun i j => (G i j).p) ∧
  MovedScal N Nr n g (fun i j => (F i j).m) (fun i j => (G i j).m) ∧
  MovedScal N Nr n g (fun i j => (F i j).z) (fun i j => (G i j).z)

/-- `S'` is the simulation before the first iteration of a call: the fields on the grid are damped at the ends, and the
ones in spectral space are their transforms. -/
structure Started (c : OCfg) [NeZero c.base.Nz] (S S' : OSim) : Prop where
  species : S'.sim.species = S.sim.species
  zmin : S'.sim.zmin = S.sim.zmin
  zmax : S'.sim.zmax = S.sim.zmax
  time : S'.sim.time = S.sim.time
  iteration : S'.sim.iteration = S.sim.iteration
  zminG : S'.zminG = S.zminG
  win : S'.win = S.win
  ants : S'.ants = S.ants
  E : ∀ m < c.base.Nm, OnGrid c.base (S'.sim.interp m).E
    (movedVec c.base.Nz 0 (openDamping c.comm 0 c.base.Nz) (S.sim.interp m).E)
  B : ∀ m < c.base.Nm, OnGrid c.base (S'.sim.interp m).B
    (movedVec c.base.Nz 0 (openDamping c.comm 0 c.base.Nz) (S.sim.interp m).B)
  grid : ∀ m < c.base.Nm, { S'.sim.spect m with cell := (S.sim.spect m).cell } = S.sim.spect m
  em : ∀ m < c.base.Nm, ∀ iz < c.base.Nz, ∀ ir < c.base.Nr, ((S'.sim.spect m).cell iz ir).em =
    ⟨vecHat c.base m (S'.sim.interp m).E iz ir, vecHat c.base m (S'.sim.interp m).B iz ir⟩

end Fbpic.Spec
