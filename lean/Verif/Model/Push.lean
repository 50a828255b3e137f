import Verif.Model.Compton

/-!
# Particle pushers

Models `fbpic/particles/push/` (`inline_functions.py`, `numba_methods.py`; the CUDA kernels have the
same bodies with one thread per particle), `Particles.push_p`, `Particles.push_x`
(`fbpic/particles/particles.py`), `ballistic_before_plane.py`, the position pushes of
`Simulation.cross_deposit`, `shift_galilean_boundaries` and `Simulation.reverse_time`
(`fbpic/main.py`), in real arithmetic.
-/

namespace Fbpic

noncomputable section

/-- A field (or any vector) at the position of a particle. -/
@[ext] structure Vec3 where
  x : ℝ
  y : ℝ
  z : ℝ

/-- `push_p_vay`. push/inline_functions.py:11-48 -/
def pushVay (e : ElecMom) (E B : Vec3) (econst bconst : ℝ) : ElecMom :=
  let taux := bconst * B.x
  let tauy := bconst * B.y
  let tauz := bconst * B.z
  let tau2 := taux ^ 2 + tauy ^ 2 + tauz ^ 2
  let uxp := e.ux + econst * E.x + e.invGamma * (e.uy * tauz - e.uz * tauy)
  let uyp := e.uy + econst * E.y + e.invGamma * (e.uz * taux - e.ux * tauz)
  let uzp := e.uz + econst * E.z + e.invGamma * (e.ux * tauy - e.uy * taux)
  let sigma := 1 + uxp ^ 2 + uyp ^ 2 + uzp ^ 2 - tau2
  let utau := uxp * taux + uyp * tauy + uzp * tauz
  let invGammaF := Real.sqrt (2 / (sigma + Real.sqrt (sigma ^ 2 + 4 * (tau2 + utau ^ 2))))
  let tx := invGammaF * taux
  let ty := invGammaF * tauy
  let tz := invGammaF * tauz
  let ut := invGammaF * utau
  let s := 1 / (1 + tau2 * invGammaF ^ 2)
  { ux := s * (uxp + tx * ut + uyp * tz - uzp * ty)
    uy := s * (uyp + ty * ut + uzp * tx - uxp * tz)
    uz := s * (uzp + tz * ut + uxp * ty - uyp * tx)
    invGamma := invGammaF }

/-- Position and momentum of one macroparticle, with its ionization level (if the species is
ionizable). -/
@[ext] structure PushPtcl where
  x : ℝ
  y : ℝ
  z : ℝ
  mom : ElecMom
  level : ℕ

/-- The fields gathered on one macroparticle. -/
structure PtclFields where
  E : Vec3
  B : Vec3

/-- `push_p_numba`, one particle. push/numba_methods.py:35-50 -/
def pushP (c q m dt : ℝ) (F : PtclFields) (p : PushPtcl) : PushPtcl :=
  { p with mom := pushVay p.mom F.E F.B (q * dt / (m * c)) (0.5 * q * dt / m) }

/-- `push_p_after_plane_numba`, one particle. push/numba_methods.py:53-69 -/
def pushPAfterPlane (c zPlane q m dt : ℝ) (F : PtclFields) (p : PushPtcl) : PushPtcl :=
  if p.z > zPlane then
    { p with mom := pushVay p.mom F.E F.B (q * dt / (m * c)) (0.5 * q * dt / m) }
  else p

/-- `push_p_ioniz_numba`, one particle; `eCharge` is the elementary charge.
push/numba_methods.py:73-98 -/
def pushPIoniz (c eCharge m dt : ℝ) (F : PtclFields) (p : PushPtcl) : PushPtcl :=
  if p.level = 0 then p
  else
    let econst := eCharge * dt / (m * c) * (p.level : ℝ)
    let bconst := 0.5 * eCharge * dt / m * (p.level : ℝ)
    { p with mom := pushVay p.mom F.E F.B econst bconst }

/-- `BallisticBeforePlane`: `(z_plane_lab, inv_gamma_boost, beta_boost)`; the boost is
`(gamma0, beta0)`. ballistic_before_plane.py:27-47 -/
structure BallisticPlane where
  zPlaneLab : ℝ
  invGammaBoost : ℝ
  betaBoost : ℝ

/-- `BallisticBeforePlane.__init__`. ballistic_before_plane.py:27-47 -/
def mkBallisticPlane (zPlaneLab : ℝ) (boost : Option (ℝ × ℝ)) : BallisticPlane :=
  match boost with
  | some (gamma0, beta0) => ⟨zPlaneLab, 1 / gamma0, beta0⟩
  | none => ⟨zPlaneLab, 1, 0⟩

/-- `get_current_plane_position`. ballistic_before_plane.py:50-66 -/
def BallisticPlane.position (b : BallisticPlane) (c t : ℝ) : ℝ :=
  b.invGammaBoost * b.zPlaneLab - b.betaBoost * c * t

/-- What `Particles.push_p` looks at in a species. `plane` is the injector when it is a
`BallisticBeforePlane`. -/
structure PushSpecies where
  q : ℝ
  m : ℝ
  dt : ℝ
  ionizable : Bool
  plane : Option BallisticPlane
  ptcl : List PushPtcl

/-- `Particles.push_p(t)`; `F i` are the fields on the `i`-th particle. particles.py:557-636 (CPU) -/
def PushSpecies.pushP (c eCharge : ℝ) (s : PushSpecies) (F : ℕ → PtclFields) (t : ℝ) :
    Except PyErr PushSpecies :=
  if s.q = 0 then .ok s
  else
    match s.plane with
    | some b =>
      if s.ionizable then
        .error (.runtimeError "NotImplementedError: ballistic injection of ionizable particles")
      else .ok { s with ptcl := s.ptcl.mapIdx fun i p => pushPAfterPlane c (b.position c t) s.q s.m s.dt (F i) p }
    | none =>
      if s.ionizable then
        .ok { s with ptcl := s.ptcl.mapIdx fun i p => pushPIoniz c eCharge s.m s.dt (F i) p }
      else .ok { s with ptcl := s.ptcl.mapIdx fun i p => Fbpic.pushP c s.q s.m s.dt (F i) p }

/-- `push_x_numba`, one particle. push/numba_methods.py:17-32 -/
def pushX (c dt px py pz : ℝ) (p : PushPtcl) : PushPtcl :=
  let chdt := c * dt
  { p with
    x := p.x + chdt * p.mom.invGamma * px * p.mom.ux
    y := p.y + chdt * p.mom.invGamma * py * p.mom.uy
    z := p.z + chdt * p.mom.invGamma * pz * p.mom.uz }

/-- The virtual particles of a laser antenna. antenna_injection.py:134-170 -/
@[ext] structure AntennaPtcl where
  baseX : ℝ
  baseY : ℝ
  baseZ : ℝ
  excX : ℝ
  excY : ℝ
  vx : ℝ
  vy : ℝ
  vz : ℝ
  w : ℝ

/-- `LaserAntenna.push_x`, one virtual particle. antenna_injection.py:223-247 -/
def AntennaPtcl.pushX (dt px py pz : ℝ) (a : AntennaPtcl) : AntennaPtcl :=
  { a with
    excX := a.excX + dt * px * a.vx
    excY := a.excY + dt * py * a.vy
    baseZ := a.baseZ + dt * pz * a.vz }

/-- The positions that `cross_deposit` moves: species, antennas, and the bounds `zmin, zmax` of the
grids (local grids and global domain), as one list of bounds. -/
@[ext] structure Movables where
  species : List (List PushPtcl)
  antennas : List (List AntennaPtcl)
  bounds : List ℝ

/-- `shift_galilean_boundaries`. main.py:772-789 -/
def Movables.shiftGalilean (vComoving dt : ℝ) (s : Movables) : Movables :=
  { s with bounds := s.bounds.map (· + vComoving * dt) }

/-- One push of `cross_deposit`. main.py:684-692, 696-704, 708-716 -/
def Movables.crossPush (c : ℝ) (movePositions galilean : Bool) (vComoving dt px py pz dtGal : ℝ)
    (s : Movables) : Movables :=
  let s1 := if movePositions then { s with species := s.species.map (·.map (pushX c dt px py pz)) }
    else s
  let s2 := { s1 with antennas := s1.antennas.map (·.map (AntennaPtcl.pushX dt px py pz)) }
  if galilean then s2.shiftGalilean vComoving dtGal else s2

/-- `cross_deposit`: the states in which `rho_next_xy` and `rho_next_z` are deposited, and the final
state. main.py:672-716 -/
def Movables.crossDeposit (c : ℝ) (movePositions galilean : Bool) (vComoving dt : ℝ)
    (s : Movables) : Movables × Movables × Movables :=
  let s1 := s.crossPush c movePositions galilean vComoving (0.5 * dt) 1 1 (-1) (-0.5 * dt)
  let s2 := s1.crossPush c movePositions galilean vComoving dt (-1) (-1) 1 dt
  let s3 := s2.crossPush c movePositions galilean vComoving (0.5 * dt) 1 1 (-1) (-0.5 * dt)
  (s1, s2, s3)

/-- Fields and momenta touched by `reverse_time`; grids are functions of the cell. -/
structure RevState (I : Type) where
  /-- `spect[m].(Ep, Em, Ez)` -/
  spectE : ℕ → I → ℂ × ℂ × ℂ
  /-- `spect[m].(Bp, Bm, Bz)` -/
  spectB : ℕ → I → ℂ × ℂ × ℂ
  /-- `interp[m].(Er, Et, Ez)` -/
  interpE : ℕ → I → ℂ × ℂ × ℂ
  /-- `interp[m].(Br, Bt, Bz)` -/
  interpB : ℕ → I → ℂ × ℂ × ℂ
  species : List (List PushPtcl)

/-- `x *= -1` on a triple of complex arrays. -/
def neg3 (v : ℂ × ℂ × ℂ) : ℂ × ℂ × ℂ := (v.1 * -1, v.2.1 * -1, v.2.2 * -1)

/-- `Simulation.reverse_time`; `Nm` modes. main.py:1034-1054 -/
def RevState.reverseTime {I : Type} (Nm : ℕ) (s : RevState I) : RevState I :=
  { s with
    spectB := fun m i => if m < Nm then neg3 (s.spectB m i) else s.spectB m i
    interpB := fun m i => if m < Nm then neg3 (s.interpB m i) else s.interpB m i
    species := s.species.map (·.map fun p =>
      { p with mom := { p.mom with ux := p.mom.ux * -1, uy := p.mom.uy * -1, uz := p.mom.uz * -1 } }) }

end

end Fbpic
