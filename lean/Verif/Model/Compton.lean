import Verif.Model.Prelude
import Verif.Model.Ionization
import Mathlib.Analysis.SpecialFunctions.Exp
import Mathlib.Analysis.SpecialFunctions.Log.Basic
import Mathlib.Analysis.SpecialFunctions.Trigonometric.Basic
import Mathlib.Analysis.SpecialFunctions.Pow.Real
import Mathlib.Algebra.Order.Floor.Ring

/-!
# Compton scattering

Models `fbpic/particles/elementary_process/compton/` (`inline_functions.py`, `numba_methods.py`;
`cuda_methods.py` has the same bodies with one thread per batch), in real arithmetic. Random
numbers are parameters.
-/

namespace Fbpic

noncomputable section

/-- A four-momentum `(p, px, py, pz)`. -/
@[ext] structure FourMom where
  p : ℝ
  px : ℝ
  py : ℝ
  pz : ℝ

/-- `lorentz_transform`. inline_functions.py:17-40 -/
def lorentzTransform (q : FourMom) (gamma beta nx ny nz : ℝ) : FourMom :=
  let pPar := nx * q.px + ny * q.py + nz * q.pz
  let pOut := gamma * (q.p - beta * pPar)
  let pParOut := gamma * (pPar - beta * q.p)
  { p := pOut
    px := q.px + nx * (pParOut - pPar)
    py := q.py + ny * (pParOut - pPar)
    pz := q.pz + nz * (pParOut - pPar) }

/-- The momentum attributes of an electron macroparticle. -/
@[ext] structure ElecMom where
  ux : ℝ
  uy : ℝ
  uz : ℝ
  invGamma : ℝ

/-- `get_scattering_probability`; `piRe2` is `PI_RE_2`, `invMC` is `INV_MC`, `c` the speed of light,
`(bx, by, bz)` the direction of the incoming photons. inline_functions.py:43-84 -/
def scatteringProbability (piRe2 invMC c dt : ℝ) (e : ElecMom) (photonN photonP bx by_ bz : ℝ) : ℝ :=
  let elecGamma := 1 / e.invGamma
  let f := elecGamma - e.ux * bx - e.uy * by_ - e.uz * bz
  let nRest := photonN * f
  let pRest := photonP * f
  let k := pRest * invMC
  let f1 := 2 * (2 + k * (1 + k) * (8 + k)) / (k ^ 2 * (1 + 2 * k) ^ 2)
  let f2 := (2 + k * (2 - k)) * Real.log (1 + 2 * k) / k ^ 3
  let sigma := piRe2 * (f1 - f2)
  let properDt := dt * e.invGamma
  1 - Real.exp (-sigma * nRest * c * properDt)

/-- The momentum of the incoming photons in the frame of the simulation, for lab momentum
`h/wavelength` and the boost `(gammaB, betaB)`. compton.py:104-117 -/
def incomingPhoton (hOverLambda gammaB betaB : ℝ) : FourMom :=
  let labPz := -hOverLambda
  let labP := Real.sqrt (0 ^ 2 + 0 ^ 2 + labPz ^ 2)
  let pz := gammaB * (labPz - betaB * labP)
  { p := Real.sqrt (0 ^ 2 + 0 ^ 2 + pz ^ 2), px := 0, py := 0, pz := pz }

/-- Number of photons emitted by one electron: `int( p * ratio + random )`.
numba_methods.py:90-91 -/
def nScatter (p ratio random : ℝ) : ℤ := pyInt (p * ratio + random)

/-- Draws used for one scattered photon: `x` (accepted by the rejection loop) and `phi_s`. -/
structure ScatDraw where
  x : ℝ
  phi : ℝ

/-- The value of `x` proposed by one turn of the rejection loop, for the rest-frame photon momentum
`pRest` and a uniform draw `r1`; the loop returns one of these values. numba_methods.py:184-193 -/
def drawX (invMC pRest r1 : ℝ) : ℝ :=
  let k := pRest * invMC
  let c0 := 2 * (2 * k ^ 2 + 2 * k + 1) / (2 * k + 1) ^ 3
  let b := (2 + c0) / (2 - c0)
  b - (b + 1) * (0.5 * c0) ^ r1

/-- Preparation of the Lorentz transform to the rest frame of the electron:
`(elec_gamma, elec_beta, elec_nx, elec_ny, elec_nz)`. numba_methods.py:143-158 -/
def restFrame (e : ElecMom) : ℝ × ℝ × ℝ × ℝ × ℝ :=
  let elecU := Real.sqrt (e.ux ^ 2 + e.uy ^ 2 + e.uz ^ 2)
  let beta := elecU * e.invGamma
  if elecU ≠ 0 then (1 / e.invGamma, beta, 1 / elecU * e.ux, 1 / elecU * e.uy, 1 / elecU * e.uz)
  else (1 / e.invGamma, beta, 0, 0, 1)

/-- Spherical angles of the incoming photon in the rest frame:
`(cos_theta, sin_theta, cos_phi, sin_phi)`. numba_methods.py:165-178 -/
def restAngles (q : FourMom) : ℝ × ℝ × ℝ × ℝ :=
  let cosTheta := q.pz / q.p
  if cosTheta ^ 2 < 1 then
    let sinTheta := Real.sqrt (1 - cosTheta ^ 2)
    let inv := 1 / (sinTheta * q.p)
    (cosTheta, sinTheta, q.px * inv, q.py * inv)
  else (cosTheta, 0, 1, 0)

/-- Momentum of the scattered photon in the rest frame. numba_methods.py:184-226
(`x` is a parameter here; the values the rejection loop can return are those of `drawX`) -/
def scatterRest (invMC : ℝ) (q : FourMom) (d : ScatDraw) : FourMom :=
  let (cosTheta, sinTheta, cosPhi, sinPhi) := restAngles q
  let k := q.p * invMC
  let newP := q.p / (1 + k * (1 - d.x))
  let sinThetaS := Real.sqrt (1 - d.x ^ 2)
  let pX := newP * sinThetaS * Real.cos d.phi
  let pY := newP * sinThetaS * Real.sin d.phi
  let pZ := newP * d.x
  { p := newP
    px := sinTheta * cosPhi * pZ + cosTheta * cosPhi * pX - sinPhi * pY
    py := sinTheta * sinPhi * pZ + cosTheta * sinPhi * pX + cosPhi * pY
    pz := cosTheta * pZ - sinTheta * pX }

/-- Momentum of a scattered photon in the frame of the simulation, for the incoming photon `q` and
the electron `e`. numba_methods.py:140-234 -/
def scatterPhoton (invMC : ℝ) (e : ElecMom) (q : FourMom) (d : ScatDraw) : FourMom :=
  let (gamma, beta, nx, ny, nz) := restFrame e
  let qRest := lorentzTransform q gamma beta nx ny nz
  let newRest := scatterRest invMC qRest d
  lorentzTransform newRest gamma beta (-nx) (-ny) (-nz)

/-- Recoil of the electron with the momentum of the last photon: `ux, uy, uz` are changed,
`inv_gamma` is not. numba_methods.py:252-264 -/
def recoil (invMC : ℝ) (e : ElecMom) (q new : FourMom) : ElecMom :=
  { e with ux := e.ux + invMC * (q.px - new.px)
           uy := e.uy + invMC * (q.py - new.py)
           uz := e.uz + invMC * (q.pz - new.pz) }

/-- A photon macroparticle created from an electron: position (any type), momentum `px,py,pz`,
`inv_gamma = 1/p`, weight. -/
structure PhotonRec (Pos : Type) where
  pos : Pos
  px : ℝ
  py : ℝ
  pz : ℝ
  invGamma : ℝ
  w : ℝ

/-- Creation of the photon. numba_methods.py:236-249 -/
def mkPhoton {Pos : Type} (pos : Pos) (w invRatio : ℝ) (new : FourMom) : PhotonRec Pos :=
  { pos := pos, px := new.px, py := new.py, pz := new.pz, invGamma := 1 / new.p, w := w * invRatio }

/-- The electron species as seen by the scattering kernel. -/
structure ComptonElec (Pos : Type) where
  Ntot : ℕ
  pos : ℕ → Pos
  mom : ℕ → ElecMom
  w : ℕ → ℝ

/-- Random numbers of one call: the uniform draw for the number of photons of electron `i`, the
draws for its `j`-th photon, and the draw for its recoil. -/
structure ComptonDraws where
  num : ℕ → ℝ
  scat : ℕ → ℕ → ScatDraw
  recoilDraw : ℕ → ℝ

/-- Loop over the electrons of one batch in `scatter_photons_electrons_numba`; the state is
`(i_photon, photon arrays, electron momenta)`. numba_methods.py:136-264 -/
def scatterElec {Pos : Type} (invMC invRatio : ℝ) (q : FourMom) (el : ComptonElec Pos)
    (n : ℕ → ℕ) (D : ComptonDraws) (s : ℕ × (ℕ → PhotonRec Pos) × (ℕ → ElecMom)) (i : ℕ) :
    ℕ × (ℕ → PhotonRec Pos) × (ℕ → ElecMom) :=
  let e := s.2.2 i
  let (iPh, ph) := (List.range (n i)).foldl (fun (t : ℕ × (ℕ → PhotonRec Pos)) (j : ℕ) =>
    (t.1 + 1, Function.update t.2 t.1
      (mkPhoton (el.pos i) (el.w i) invRatio (scatterPhoton invMC e q (D.scat i j))))) (s.1, s.2.1)
  if 0 < n i ∧ D.recoilDraw i < invRatio then
    (iPh, ph, Function.update s.2.2 i (recoil invMC e q (scatterPhoton invMC e q (D.scat i (n i - 1)))))
  else (iPh, ph, s.2.2)

/-- `scatter_photons_electrons_numba`: all batches. The batches are those of `IonParams.chunk`
(same loop bounds). numba_methods.py:106-264 -/
def scatterAll {Pos : Type} (P : IonParams) (invMC invRatio : ℝ) (q : FourMom)
    (el : ComptonElec Pos) (n : ℕ → ℕ) (D : ComptonDraws) (oldNtot : ℕ) (cum : ℕ → ℕ)
    (photons : ℕ → PhotonRec Pos) : (ℕ → PhotonRec Pos) × (ℕ → ElecMom) :=
  (List.range (P.nBatch el.Ntot)).foldl (fun s b =>
    ((P.chunk el.Ntot b).foldl (scatterElec invMC invRatio q el n D)
      (oldNtot + cum b, s.1, s.2)).2) (photons, el.mom)

/-- `determine_scatterings_numba`: `nscatter_per_batch[b]`. The counts per electron are
`nscatter_per_elec[i] = n i`. numba_methods.py:53-103 -/
def nPerBatch (P : IonParams) (Ntot : ℕ) (n : ℕ → ℕ) (b : ℕ) : ℕ :=
  (P.chunk Ntot b).foldl (fun acc i => acc + n i) 0

/-- `perform_cumsum`. cuda_numba_utils.py:30-43 -/
def cumsum1d (n : ℕ → ℕ) (b : ℕ) : ℕ := ((List.range b).map n).sum

end

end Fbpic
