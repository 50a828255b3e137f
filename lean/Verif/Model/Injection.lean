import Verif.Model.Comm
import Mathlib.Data.List.Range
import Mathlib.Data.List.MinMax

/-!
# Continuous injection of particles by the moving window

Models `fbpic/particles/injection/continuous_injection.py` (class `ContinuousInjector` and
`generate_evenly_spaced`).
-/

namespace Fbpic

variable {K : Type} [Field K] [LinearOrder K] [IsStrictOrderedRing K] [FloorRing K]

/-- The mutable attributes `nz_inject`, `z_inject`, `z_end_plasma` once they are set.
continuous_injection.py:55-57 -/
structure InjPos (K : Type) where
  nzInject : ℤ
  zInject : K
  zEnd : K

/-- `ContinuousInjector`. `pos = none` stands for the three attributes being `None`.
`dzp` is `dz_particles` (possibly `None`), `vEnd` is `v_end_plasma`.
continuous_injection.py:19-57 (the registered density and momenta are parameters of
`generateEvenlySpaced`) -/
structure Injector (K : Type) where
  dzp : Option K
  vEnd : K
  pos : Option (InjPos K)

/-- `ContinuousInjector.__init__`, spacing between particles. The value of
`c*uz_m/sqrt(1+ux_m**2+uy_m**2+uz_m**2)` is passed as `vEnd`. continuous_injection.py:42-57 -/
def mkInjector (Npz : ℤ) (zmin zmax : K) (dzParticles : Option K) (vEnd : K) : Injector K :=
  { dzp := if Npz ≠ 0 then some ((zmax - zmin) / (Npz : K)) else dzParticles
    vEnd := vEnd
    pos := none }

/-- `initialize_injection_positions`, called on rank `rank`. `speciesZ` are the positions of the
particles of the species on that rank. The exception raised when the plasma is not empty but
`dz_particles` is `None` is a `TypeError` in the code (`0.5*None`), a `ValueError` otherwise.
continuous_injection.py:60-119 -/
def Injector.initialize (inj : Injector K) (c : Comm) (zminG dz : K) (rank : ℕ)
    (vWin : K) (speciesZ : List K) (dt : K) : Except PyErr (Injector K) :=
  if (rank : ℤ) ≠ (c.size : ℤ) - 1 then .ok inj
  else if inj.pos.isSome then .ok inj
  else do
    let (_, zmaxDamp) ← c.getZminZmax zminG dz false true false none
    let zInject := zmaxDamp + (3 - (c.nInject : K)) * dz
      + (c.exchangePeriod : K) * dt * (vWin - inj.vEnd)
    let (_, zmaxPhys) ← c.getZminZmax zminG dz false false false none
    match speciesZ.max? with
    | some zm =>
      match inj.dzp with
      | some d => .ok { inj with pos := some ⟨0, zInject, zm + 1 / 2 * d⟩ }
      | none => .error (.typeError "unsupported operand type(s) for *: 'float' and 'NoneType'")
    | none =>
      match inj.dzp with
      | some _ => .ok { inj with pos := some ⟨0, zInject, zmaxPhys⟩ }
      | none => .error (.valueError "unable to calculate the spacing between particles")

/-- `reset_injection_positions`. continuous_injection.py:121-128 -/
def Injector.reset (inj : Injector K) : Injector K := { inj with pos := none }

/-- `increment_injection_positions(v_moving_window, duration)`. continuous_injection.py:130-156 -/
def incrementPos (dzp vEnd vWin duration : K) (p : InjPos K) : InjPos K :=
  let zInject := p.zInject + vWin * duration
  let zEnd := p.zEnd + vEnd * duration
  let nzNew := pyInt ((zInject - zEnd) / dzp)
  { nzInject := p.nzInject + nzNew
    zInject := zInject
    zEnd := zEnd + (nzNew : K) * dzp }

/-- A generated macroparticle: longitudinal position, radius, index of the angle, weight. The angle
(a random or irrational offset plus `2π i/Nptheta`), hence `x` and `y`, is not modelled; the
weight is. -/
structure NewPtcl (K : Type) where
  z : K
  r : K
  itheta : ℕ
  w : K
deriving DecidableEq

/-- `generate_evenly_spaced`: the mesh of positions in the order of `flatten` with `indexing='ij'`,
weights `n*r*dtheta*dr*dz*dens_func`, particles of non-positive weight dropped.
`twoPi` is `2*np.pi`; `dens z r i` is the density function on the particle with angle index `i`.
Momenta (random) are not modelled. continuous_injection.py:203-272 -/
def generateEvenlySpaced (Npz : ℤ) (zmin zmax : K) (Npr : ℕ) (rmin rmax : K) (Nptheta : ℕ)
    (n twoPi : K) (dens : K → K → ℕ → K) : List (NewPtcl K) :=
  if 0 < Npz * Npr * Nptheta then
    let dz := (zmax - zmin) / (Npz : K)
    let dr := (rmax - rmin) / (Npr : K)
    let dtheta := twoPi / (Nptheta : K)
    let mesh := (List.range Npz.toNat).flatMap fun (iz : ℕ) =>
      (List.range Npr).flatMap fun (ir : ℕ) =>
        (List.range Nptheta).map fun (it : ℕ) =>
          let z := zmin + dz * ((iz : K) + 1 / 2)
          let r := rmin + dr * ((ir : K) + 1 / 2)
          (⟨z, r, it, n * r * dtheta * dr * dz * dens z r it⟩ : NewPtcl K)
    mesh.filter fun p => 0 < p.w
  else []

/-- The arguments registered in the injector that `generate_particles` passes on. -/
structure InjPlasma (K : Type) where
  Npr : ℕ
  rmin : K
  rmax : K
  Nptheta : ℕ
  n : K
  twoPi : K
  dens : K → K → ℕ → K

/-- `generate_particles(time)`: slab `[z_end - nz_inject*dz_particles, z_end]` with `nz_inject`
layers, density evaluated at `z - v_end_plasma*time`; afterwards `nz_inject = 0`.
continuous_injection.py:159-197 -/
def generateParticles (dzp vEnd : K) (pl : InjPlasma K) (time : K) (p : InjPos K) :
    List (NewPtcl K) × InjPos K :=
  (generateEvenlySpaced p.nzInject (p.zEnd - (p.nzInject : K) * dzp) p.zEnd
      pl.Npr pl.rmin pl.rmax pl.Nptheta pl.n pl.twoPi
      (fun z r i => pl.dens (z - vEnd * time) r i),
    { p with nzInject := 0 })

/-- What the moving window and the particle exchange do to the injector of the last rank. -/
inductive InjOp (K : Type)
  /-- `move_grids` at time `time`: `increment_injection_positions(v, time - t_last_move)`.
  moving_window.py:119-131 -/
  | move (time : K)
  /-- `exchange_particles` at time `time`: `generate_particles(time)`.
  boundary_communicator.py:803-810, particles.py:335-374 -/
  | exchange (time : K)

/-- State of a run as seen by the injector: window clock, injector, particles created so far with
the value of the window clock at their creation (the latter is not in the code, it is recorded to
be able to speak about them). -/
structure InjRun (K : Type) where
  tLast : K
  pos : InjPos K
  created : List (K × List (NewPtcl K))

/-- One operation. -/
def InjRun.step (dzp vEnd vWin : K) (pl : InjPlasma K) (s : InjRun K) : InjOp K → InjRun K
  | .move time =>
    { s with tLast := time
             pos := incrementPos dzp vEnd vWin (time - s.tLast) s.pos }
  | .exchange time =>
    let (ps, pos) := generateParticles dzp vEnd pl time s.pos
    { s with pos := pos, created := s.created ++ [(s.tLast, ps)] }

/-- A history of operations. -/
def InjRun.run (dzp vEnd vWin : K) (pl : InjPlasma K) (s : InjRun K) (ops : List (InjOp K)) :
    InjRun K :=
  ops.foldl (InjRun.step dzp vEnd vWin pl) s

end Fbpic
