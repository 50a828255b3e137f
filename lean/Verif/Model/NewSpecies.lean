import Verif.Model.Window
import Verif.Model.Injection
import Verif.Model.BoostConv

/-!
# `Simulation.add_new_species` and `adapt_to_grid`

Momenta and the random offset of the angles are not modelled, the other arguments and the macroparticles created are.
-/

namespace Fbpic

variable {K : Type} [Field K] [LinearOrder K] [IsStrictOrderedRing K] [FloorRing K]

/-- `adapt_to_grid` (main.py:1056-1111). An array without elements makes `x.min()` raise, one with a single element `x[1]`. -/
def adaptToGrid (x : List K) (pXmin pXmax : K) (pNx : ℕ) (ncellsEmpty : ℕ := 0) : Except PyErr (K × K × ℕ) :=
  match x with
  | [] => .error (.valueError "zero-size array to reduction operation minimum which has no identity")
  | [_] => .error (.indexError "index 1 is out of bounds for axis 0 with size 1")
  | x0 :: x1 :: rest =>
    let x := x0 :: x1 :: rest
    let xmin := x.foldl min x0
    let xmax := x.foldl max x0
    let dx := x1 - x0
    let pXmin := if pXmin < xmin - 1 / 2 * dx then xmin - 1 / 2 * dx else pXmin
    let pXmax := if pXmax > xmax + (1 / 2 - (ncellsEmpty : K)) * dx then xmax + (1 / 2 - (ncellsEmpty : K)) * dx else pXmax
    let xLoad := x.filter fun y => pXmin < y ∧ y < pXmax
    let Npx := xLoad.length * pNx
    if Npx > 0 then
      let l0 := xLoad.headD 0
      .ok (xLoad.foldl min l0 - 1 / 2 * dx, xLoad.foldl max l0 + 1 / 2 * dx, Npx)
    else .ok (pXmin, pXmax, Npx)

/-- Radial grid: cell size, number of cells without the damp cells (`_Nr`), number of damp cells. -/
structure RGrid (K : Type) where
  dr : K
  Nr : ℕ
  nrDamp : ℕ

/-- Property `r` of `InterpolationGrid` (interpolation_grid.py:173-176), with `rmin = 0` and `get_Nr(with_damp=True)` cells
(main.py:293-296). -/
def RGrid.r (g : RGrid K) : List K := (List.range (g.Nr + g.nrDamp)).map fun (i : ℕ) => (1 / 2 + (i : K)) * g.dr

/-- The arguments of `add_new_species` (main.py:792-800). A bound `none` is the default, `-inf` or `inf`. `dens z r i` is the density
function on the particle with the angle index `i` (constant 1 if `dens_func` is `None`). -/
structure SpeciesArgs (K : Type) where
  n : Option K
  pNz : Option ℕ
  pNr : Option ℕ
  pNt : Option ℕ
  pZmin : Option K := none
  pZmax : Option K := none
  pRmin : K
  pRmax : Option K := none
  continuousInjection : Bool := true
  dens : K → K → ℕ → K

/-- The arguments that `add_new_species` passes to `Particles` (main.py:987-997). -/
structure Loading (K : Type) where
  n : K
  Npz : ℕ
  zmin : K
  zmax : K
  Npr : ℕ
  rmin : K
  rmax : K
  Nptheta : ℕ
  continuousInjection : Bool
  dzParticles : K
deriving DecidableEq

/-- `max(a, p)` with `p` possibly `-inf`. -/
def maxBound (a : K) : Option K → K
  | none => a
  | some p => max a p

/-- `min(a, p)` with `p` possibly `inf`. -/
def minBound (a : K) : Option K → K
  | none => a
  | some p => min a p

/-- `add_new_species` on rank `rank` after the conversion to the boosted frame (main.py:896-907, 951-985). `zminG` is
`_zmin_global_domain`, `dz` is `comm.dz`, `g` the grid of `fld.interp[0]`. -/
def newSpecies (c : Comm) (zminG dz : K) (g : InterpGrid K) (rg : RGrid K) (rank : ℕ) (a : SpeciesArgs K) :
    Except PyErr (Loading K) :=
  match a.n with
  | some n =>
    match a.pNz, a.pNr, a.pNt with
    | some pNz, some pNr, some pNt => do
      let (zminLocal, zmaxLocal) ← c.getZminZmax zminG dz true false false (some rank)
      let pZmin := maxBound zminLocal a.pZmin
      let pZmax := minBound zmaxLocal a.pZmax
      let rmax := (rg.Nr : K) * rg.dr
      let pRmax := minBound rmax a.pRmax
      let (pZmin, pZmax, Npz) ← adaptToGrid ((List.range g.Nz).map g.z) pZmin pZmax pNz
      let (pRmin, pRmax, Npr) ← adaptToGrid rg.r a.pRmin pRmax pNr
      if pNz = 0 then .error (.runtimeError "ZeroDivisionError")
      else .ok ⟨n, Npz, pZmin, pZmax, Npr, pRmin, pRmax, pNt, a.continuousInjection, dz / (pNz : K)⟩
    | _, _, _ => .error (.valueError "then the arguments `p_nz`, `p_nr` and `p_nt` need to be passed too.")
  | none => .ok ⟨0, 0, 0, 0, 0, 0, 0, 0, false, 0⟩

/-- The macroparticles that `Particles.__init__` creates (particles.py:147-152). -/
def Loading.particles (l : Loading K) (twoPi : K) (dens : K → K → ℕ → K) : List (NewPtcl K) :=
  generateEvenlySpaced l.Npz l.zmin l.zmax l.Npr l.rmin l.rmax l.Nptheta l.n twoPi dens

/-- Macroparticles that `add_new_species` creates on rank `rank`. -/
def newSpeciesParticles (c : Comm) (zminG dz twoPi : K) (g : InterpGrid K) (rg : RGrid K) (rank : ℕ) (a : SpeciesArgs K) :
    Except PyErr (List (NewPtcl K)) := do
  let l ← newSpecies c zminG dz g rg rank a
  return l.particles twoPi a.dens

/-- Mean momenta given to `add_new_species`. -/
structure MeanU where
  (ux uy uz : ℝ)

/-- Conversion of the arguments to the boosted frame (main.py:909-949): bounds, density, mean momentum, density function. The thermal
momenta are not modelled. The factor of `copropag_length` is positive, so that an infinite bound stays as it is. -/
noncomputable def boostSpecies (b : BoostConv.Conv) (u : MeanU) (boostPositions : Bool) (a : SpeciesArgs ℝ) : SpeciesArgs ℝ × MeanU :=
  let gammaM := Real.sqrt (1 + u.uz ^ 2 + u.ux ^ 2 + u.uy ^ 2)
  let betaM := u.uz / gammaM
  let coef := b.gamma0 * (1 - betaM * b.beta0)
  ({ a with pZmin := a.pZmin.map fun z => b.copropagLength z betaM
            pZmax := a.pZmax.map fun z => b.copropagLength z betaM
            n := a.n.map fun n => b.copropagDensity n betaM
            dens := if boostPositions then fun z r i => a.dens (coef * z) r i else a.dens },
   { u with uz := b.gamma0 * (u.uz - b.beta0 * gammaM) })

end Fbpic
