import Verif.Spec.Pic

/-!
# The same simulation in other units, or at another scale

Positions, times, charges, masses and weights are multiplied by five numbers. The definitions say what this means
for the particles, the fields, the constants of nature and the parameters of the simulation.
-/

namespace Fbpic.Spec

open Pic ExternalField Step

/-- The factors of lengths, times, charges, masses, and of the number of electrons per macroparticle. -/
structure Rescaling where
  len : ℝ
  tim : ℝ
  chg : ℝ
  mass : ℝ
  wgt : ℝ
  len_pos : 0 < len
  tim_pos : 0 < tim
  chg_ne : chg ≠ 0
  mass_pos : 0 < mass
  wgt_pos : 0 < wgt

namespace Rescaling

variable (U : Rescaling)

/-- Electric field: force divided by charge. -/
noncomputable def E : ℝ := U.mass * U.len / (U.chg * U.tim ^ 2)

/-- Magnetic field: electric field divided by velocity. -/
noncomputable def B : ℝ := U.mass / (U.chg * U.tim)

/-- Charge density: charge of a macroparticle divided by volume. -/
noncomputable def rho : ℝ := U.chg * U.wgt / U.len ^ 3

/-- Current density: charge density times velocity. -/
noncomputable def J : ℝ := U.chg * U.wgt / (U.len ^ 2 * U.tim)

/-- Position; the momentum `u = p/mc` and the level have no dimension. -/
def push (p : PushPtcl) : PushPtcl := { p with x := U.len * p.x, y := U.len * p.y, z := U.len * p.z }

/-- The fields on a particle. -/
noncomputable def fields (F : Comp → ℝ) : Comp → ℝ
  | .Ex => U.E * F .Ex
  | .Ey => U.E * F .Ey
  | .Ez => U.E * F .Ez
  | .Bx => U.B * F .Bx
  | .By => U.B * F .By
  | .Bz => U.B * F .Bz

/-- A macroparticle. -/
noncomputable def ptcl (p : Ptcl) : Ptcl := ⟨U.push p.push, U.wgt * p.w, U.fields p.F⟩

/-- A plane for ballistic injection. -/
def plane (b : BallisticPlane) : BallisticPlane := { b with zPlaneLab := U.len * b.zPlaneLab }

/-- A species. -/
noncomputable def species (s : Pic.Species) : Pic.Species :=
  { s with q := U.chg * s.q, m := U.mass * s.m, plane := s.plane.map U.plane, ptcl := s.ptcl.map U.ptcl }

/-- The constants of nature: velocity of light, and the two constants of the vacuum, such that a density of
charges and currents makes the fields that it made before. -/
noncomputable def consts (k : Consts) : Consts where
  c := U.len / U.tim * k.c
  mu0 := U.B / (U.len * U.J) * k.mu0
  eps0 := U.len * U.rho / U.E * k.eps0

/-- The matrices of the Hankel transforms (integrals over the transverse plane). -/
noncomputable def mats (M : Mats) : Mats where
  M0 := fun i j => U.len ^ 2 * M.M0 i j
  invM0 := fun i j => M.invM0 i j / U.len ^ 2
  Mp := fun i j => U.len ^ 2 * M.Mp i j
  invMp := fun i j => M.invMp i j / U.len ^ 2
  Mm := fun i j => U.len ^ 2 * M.Mm i j
  invMm := fun i j => M.invMm i j / U.len ^ 2

/-- The parameters of the simulation; the external fields are `ext`. -/
noncomputable def cfg (c : Cfg) (ext : List Ext) : Cfg :=
  { c with
    k := U.consts c.k
    eCharge := U.chg * c.eCharge
    dt := U.tim * c.dt
    invdz := c.invdz / U.len
    invdr := c.invdr / U.len
    rmaxGather := U.len * c.rmaxGather
    vol := fun m i => U.len ^ 3 * c.vol m i
    mats := fun m => U.mats (c.mats m)
    V := c.V.map fun v => U.len / U.tim * v
    ext := ext }

/-- The external fields of the second simulation act on the rescaled particles, at the rescaled time, as those of
the first one act on the particles. -/
def ExtRescaled (c : Cfg) (ext : List Ext) : Prop :=
  ∀ (t : ℝ) (id : ℕ) (p : Ptcl), ext.foldl (fun p e => applyExt e (U.tim * t) id p) (U.ptcl p)
    = U.ptcl (c.ext.foldl (fun p e => applyExt e t id p) p)

/-- All the values of an array are multiplied by a real number. -/
noncomputable def times (x : ℝ) (a : Buf) : Buf := fun iz ir => (x : ℂ) * a iz ir

/-- The spectral arrays: the spectral amplitudes are integrals over the transverse plane. -/
noncomputable def cell (s : SpecCell) : SpecCell where
  Ep := ((U.len ^ 2 * U.E : ℝ) : ℂ) * s.Ep
  Em := ((U.len ^ 2 * U.E : ℝ) : ℂ) * s.Em
  Ez := ((U.len ^ 2 * U.E : ℝ) : ℂ) * s.Ez
  Bp := ((U.len ^ 2 * U.B : ℝ) : ℂ) * s.Bp
  Bm := ((U.len ^ 2 * U.B : ℝ) : ℂ) * s.Bm
  Bz := ((U.len ^ 2 * U.B : ℝ) : ℂ) * s.Bz
  Jp := ((U.len ^ 2 * U.J : ℝ) : ℂ) * s.Jp
  Jm := ((U.len ^ 2 * U.J : ℝ) : ℂ) * s.Jm
  Jz := ((U.len ^ 2 * U.J : ℝ) : ℂ) * s.Jz
  rhoPrev := ((U.len ^ 2 * U.rho : ℝ) : ℂ) * s.rhoPrev
  rhoNext := ((U.len ^ 2 * U.rho : ℝ) : ℂ) * s.rhoNext
  rhoNextZ := ((U.len ^ 2 * U.rho : ℝ) : ℂ) * s.rhoNextZ
  rhoNextXY := ((U.len ^ 2 * U.rho : ℝ) : ℂ) * s.rhoNextXY
  EpPml := ((U.len ^ 2 * U.E : ℝ) : ℂ) * s.EpPml
  EmPml := ((U.len ^ 2 * U.E : ℝ) : ℂ) * s.EmPml
  BpPml := ((U.len ^ 2 * U.B : ℝ) : ℂ) * s.BpPml
  BmPml := ((U.len ^ 2 * U.B : ℝ) : ℂ) * s.BmPml

/-- A spectral grid: the wavenumbers are inverse lengths. -/
noncomputable def grid (g : SpecGrid) : SpecGrid :=
  { g with kz := fun i => g.kz i / U.len, kr := fun i => g.kr i / U.len, cell := fun iz ir => U.cell (g.cell iz ir) }

/-- The state `s'` is the state `s`, rescaled. -/
structure Rescaled (s s' : Sim) : Prop where
  zmin : s'.zmin = U.len * s.zmin
  zmax : s'.zmax = U.len * s.zmax
  time : s'.time = U.tim * s.time
  iteration : s'.iteration = s.iteration
  species : s'.species = s.species.map U.species
  Er : ∀ m, (s'.interp m).E.r = times U.E (s.interp m).E.r
  Et : ∀ m, (s'.interp m).E.t = times U.E (s.interp m).E.t
  Ez : ∀ m, (s'.interp m).E.z = times U.E (s.interp m).E.z
  Br : ∀ m, (s'.interp m).B.r = times U.B (s.interp m).B.r
  Bt : ∀ m, (s'.interp m).B.t = times U.B (s.interp m).B.t
  Bz : ∀ m, (s'.interp m).B.z = times U.B (s.interp m).B.z
  Jr : ∀ m, (s'.interp m).J.r = times U.J (s.interp m).J.r
  Jt : ∀ m, (s'.interp m).J.t = times U.J (s.interp m).J.t
  Jz : ∀ m, (s'.interp m).J.z = times U.J (s.interp m).J.z
  rho : ∀ m, (s'.interp m).rho = times U.rho (s.interp m).rho
  spect : ∀ m, s'.spect m = U.grid (s.spect m)

/-- Another scale in the same units: lengths and times are multiplied by `l`, charges by `q` and masses by `m`. The
number of particles per macroparticle then changes by `l m / q²`. -/
noncomputable def similarity (l q m : ℝ) (hl : 0 < l) (hq : q ≠ 0) (hm : 0 < m) : Rescaling :=
  ⟨l, l, q, m, l * m / q ^ 2, hl, hl, hq, hm, by positivity⟩

end Rescaling

instance (U : Rescaling) (c : Cfg) [h : NeZero c.Nz] (ext : List Ext) : NeZero (U.cfg c ext).Nz := h

end Fbpic.Spec
