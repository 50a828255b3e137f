import Verif.Model.PicCompton
import Verif.Spec.Compton
import Verif.Spec.PicIonize

/-!
# Electrons and photons of a simulation with Compton scattering
-/

namespace Fbpic.Spec

open Pic

noncomputable section

/-- The parameters of the scatterers make sense for these species: batches of at least one electron, incoming photons
that move at the speed of light, and sources that are charged, move freely from the start and are not ionizable. -/
def ScatterersOk (scat : ℕ → Option Scatterer) (sps : List Pic.Species) : Prop :=
  ∀ id S, id < sps.length → scat id = some S →
    0 < S.batch ∧ 0 < S.invMC ∧ S.photon.inv = 0 ∧ 0 < S.photon.p ∧ 1 ≤ S.ratio ∧
    (∃ e, sps[id]? = some e ∧ e.q ≠ 0 ∧ e.plane = none ∧ e.ionizable = false) ∧
    ∃ ph, sps[S.target]? = some ph ∧ ph.q = 0

/-- The drawn cosines of the scattering angles are cosines. -/
def CosinesOk (ch : Luck) : Prop := ∀ i id e k, -1 ≤ ((ch.draws i id).scat e k).x ∧ ((ch.draws i id).scat e k).x ≤ 1

/-- The momentum of the incoming photons in units of `m c`, at most. -/
def HardnessLe (scat : ℕ → Option Scatterer) (k : ℝ) : Prop := ∀ id S, scat id = some S → S.photon.p * S.invMC ≤ k

/-- The square of the velocity with which the code moves a macroparticle, in units of `c`. -/
def velocity2 (e : ElecMom) : ℝ := (e.ux * e.invGamma) ^ 2 + (e.uy * e.invGamma) ^ 2 + (e.uz * e.invGamma) ^ 2

/-- The macroparticle moves at the speed of light. -/
def AtLightSpeed (p : Pic.Ptcl) : Prop := 0 < p.push.mom.invGamma ∧ velocity2 p.push.mom = 1

/-- The same macroparticle after a free flight during the time `T` in a box of length `len` that is periodic along z:
same weight and momentum, in a straight line with constant velocity. -/
structure FreeFlight (cl len T : ℝ) (p p' : Pic.Ptcl) : Prop where
  w : p'.w = p.w
  mom : p'.push.mom = p.push.mom
  x : p'.push.x = p.push.x + cl * T * (p.push.mom.ux * p.push.mom.invGamma)
  y : p'.push.y = p.push.y + cl * T * (p.push.mom.uy * p.push.mom.invGamma)
  z : ∃ n : ℤ, p'.push.z = p.push.z + cl * T * (p.push.mom.uz * p.push.mom.invGamma) + n * len

/-- A species after a run of duration `T`. Charged species have the same macroparticles, with the same weights, in the
same order. Neutral species have their macroparticles in free flight, and behind them new ones, which move at the speed
of light. -/
structure Outcome (cl len T : ℝ) (a b : Pic.Species) : Prop where
  same : { b with ptcl := a.ptcl } = a
  charged : a.q ≠ 0 → List.Forall₂ (fun p p' => p'.w = p.w ∧ p'.push.level = p.push.level) a.ptcl b.ptcl
  neutral : a.q = 0 → ∃ old new, b.ptcl = old ++ new ∧ List.Forall₂ (FreeFlight cl len T) a.ptcl old ∧
    ∀ p ∈ new, AtLightSpeed p

/-- The scatterings of a step, in the order of the new photons: photon `j` of electron `i`. -/
def scatterings (n : ℕ → ℕ) (N : ℕ) : List (ℕ × ℕ) :=
  (List.range N).flatMap fun i => (List.range (n i)).map fun j => (i, j)

/-- `p` is the photon of scattering `(i, j)` of the electrons `es`: at the position of the electron, with its weight
divided by the ratio, and with the momentum that the kinematics give for the drawn angles (C18). -/
def PhotonOf (S : Scatterer) (D : ComptonDraws) (es : List Pic.Ptcl) (ij : ℕ × ℕ) (p : Pic.Ptcl) : Prop :=
  ∃ e, es[ij.1]? = some e ∧ p.push.x = e.push.x ∧ p.push.y = e.push.y ∧ p.push.z = e.push.z ∧ p.w = e.w / S.ratio ∧
    let q := scatterPhoton S.invMC e.push.mom S.photon (D.scat ij.1 ij.2)
    p.push.mom = ⟨q.px, q.py, q.pz, 1 / q.p⟩

open Classical in
/-- The electron `e` number `i` after a step in which it scatters `n` times. -/
def afterScattering (S : Scatterer) (D : ComptonDraws) (n : ℕ) (i : ℕ) (e : Pic.Ptcl) : Pic.Ptcl :=
  if 0 < n ∧ D.recoilDraw i < 1 / S.ratio then
    let mom := recoil S.invMC e.push.mom S.photon (scatterPhoton S.invMC e.push.mom S.photon (D.scat i (n - 1)))
    { e with push := { e.push with mom := mom } }
  else e

/-- The time during which the particles are moved. -/
def movedTime (dt : ℝ) (L : List (ℕ × Step.Opts)) : ℝ :=
  (L.map fun x => if x.2.movePositions then (x.1 : ℝ) * dt else 0).sum

/-- A configuration, calls and an initial state for which a run with Compton scattering cannot go wrong. In contrast to
`Reasonable`: momenta are pushed in every call, neutral particles may be photons, and electrons may for half a step be
faster than light by the factor `1 + k`. -/
structure ComptonReasonable (c : Cfg) (k : ℝ) (L : List (ℕ × Step.Opts)) (s : Sim) : Prop where
  light : 0 < c.k.c
  dt : 0 < c.dt
  invdz : 0 < c.invdz
  invdr : 0 < c.invdr
  Nz : 2 ≤ c.Nz
  Nr : 2 ≤ c.Nr
  threads : 0 < c.nthreads
  period : c.exchangePeriod = 1
  fuel : 2 ≤ c.fuel
  beta : ∀ sh k, (c.beta sh k).length = c.Nr + 1
  correction : c.correction = .curlFree
  momenta : ∀ x ∈ L, x.2.moveMomenta = true
  box : (s.zmax - s.zmin) * c.invdz = c.Nz
  plane : ∀ sp ∈ s.species, sp.plane ≠ none → sp.ionizable = false
  speed : ∀ sp ∈ s.species, (c.k.c * (1 + k / 2) + |frameVelocity c|) * c.dt * c.invdz < maxCells sp.shape
  mom : ∀ sp ∈ s.species, ∀ p ∈ sp.ptcl, velocity2 p.push.mom ≤ 1
  near : ∀ sp ∈ s.species, ∀ p ∈ sp.ptcl,
    s.zmin - (s.zmax - s.zmin) ≤ p.push.z ∧ p.push.z < s.zmax + (s.zmax - s.zmin)

end

end Fbpic.Spec
