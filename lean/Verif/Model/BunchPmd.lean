import Verif.Model.Bunch

/-!
# Bunches from openPMD files

`add_particle_bunch_openPMD` and `add_elec_bunch_openPMD` (bunch.py).

Outside fbpic and taken as given: `get_particle` of the package openPMD-viewer returns the particles of the species and
iteration that satisfy all rules of `select` (strict inequalities), in the order of the file, with positions in meters in
version 1 and in microns in version 0, and applies the rules to the values that it returns. The space-charge fields are
those of `Model/SpaceCharge.lean`.
-/

namespace Fbpic.BunchPmd

open Bunch

noncomputable section

/-- Which openPMD-viewer is installed. -/
inductive Version | v0 | v1
  deriving DecidableEq

/-- The keys of `select`. -/
inductive Key | x | y | z | ux | uy | uz
  deriving DecidableEq

/-- The value of a quantity. -/
def value (p : In) : Key → ℝ
  | .x => p.x | .y => p.y | .z => p.z | .ux => p.ux | .uy => p.uy | .uz => p.uz

/-- An item of the dictionary `select`: `key : [lo, hi]`. -/
structure Bounds where
  key : Key
  lo : Option ℝ
  hi : Option ℝ

/-- The particle, as openPMD-viewer shows it. -/
def view (v : Version) (p : In) : In :=
  match v with
  | .v1 => p
  | .v0 => { p with x := p.x * 10 ^ 6, y := p.y * 10 ^ 6, z := p.z * 10 ^ 6 }

/-- The rule holds for the values that openPMD-viewer shows. -/
def Bounds.holds (b : Bounds) (p : In) : Prop :=
  (∀ l, b.lo = some l → l < value p b.key) ∧ (∀ h, b.hi = some h → value p b.key < h)

open Classical in
/-- `ts.get_particle(['x', …, 'w'], iteration, species, select)`, bunch.py:436-439. -/
def getParticle (v : Version) (select : Option (List Bounds)) (file : List In) : List In :=
  (file.map (view v)).filter fun p => ∀ b ∈ select.getD [], b.holds p

/-- `x *= 1.e-6` for the positions in version 0, bunch.py:440-444. -/
def toMeters (v : Version) (p : In) : In :=
  match v with
  | .v1 => p
  | .v0 => { p with x := p.x * (1 / 10 ^ 6), y := p.y * (1 / 10 ^ 6), z := p.z * (1 / 10 ^ 6) }

/-- `np.average(z, weights=w)`: numpy raises `ZeroDivisionError` if the weights add up to 0. -/
def average (l : List In) : Except PyErr ℝ :=
  let W := (l.map fun p => p.w).sum
  if W = 0 then .error (.runtimeError "ZeroDivisionError: Weights sum to zero, can't be normalized")
  else .ok ((l.map fun p => p.z * p.w).sum / W)

/-- `add_particle_bunch_openPMD` up to the call of `add_particle_bunch_from_arrays`: the arrays passed on. `viewer` is
`none` if openPMD-viewer is not installed. bunch.py:418-446 -/
def load (viewer : Option Version) (zOff : ℝ) (select : Option (List Bounds)) (file : List In) : Except PyErr (List In) :=
  match viewer with
  | none => .error (.runtimeError "ImportError: The package openPMD-viewer is required")
  | some v => do
    let l := (getParticle v select file).map (toMeters v)
    let m ← average l
    return l.map fun p => { p with z := p.z - m + zOff }

/-- What is created on a rank: charge and mass of the species, and its macroparticles. -/
structure Created where
  q : ℝ
  m : ℝ
  ptcl : List Out

/-- `add_particle_bunch_openPMD` on rank `rank`, bunch.py:359-453. -/
def addBunch (c : Comm) (zminG dz : ℝ) (rank : ℕ) (boost : Option BoostConv.Conv) (q m : ℝ) (viewer : Option Version) (zOff : ℝ)
    (select : Option (List Bounds)) (file : List In) : Except PyErr Created := do
  let l ← load viewer zOff select file
  let o ← fromArrays c zminG dz rank boost l
  return ⟨q, m, o⟩

/-- `add_elec_bunch_openPMD`, bunch.py:789-793. -/
def addElec (c : Comm) (zminG dz : ℝ) (rank : ℕ) (boost : Option BoostConv.Conv) (e mE : ℝ) (viewer : Option Version) (zOff : ℝ)
    (select : Option (List Bounds)) (file : List In) : Except PyErr Created :=
  addBunch c zminG dz rank boost (-e) mE viewer zOff select file

end

end Fbpic.BunchPmd
