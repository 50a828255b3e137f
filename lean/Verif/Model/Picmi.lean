import Verif.Model.BoostConv
import Verif.Model.Bunch
import Verif.Model.ExternalField
import Verif.Model.LaserProfile
import Verif.Model.FieldDiag

/-!
# `fbpic/picmi/simulation.py`: the PICMI interface

The objects of `picmistandard` are records with the attributes that fbpic reads. What the methods do
is recorded as the arguments of the fbpic functions they call; these functions are modelled elsewhere
(`Model/Bunch.lean`, `Model/ExternalField.lean`, `Model/LaserProfile.lean`, `Model/FieldDiag.lean`). Vectors
are reduced to the components that are read. Warnings are dropped. `±inf` bounds are `none`.
-/

namespace Fbpic.Picmi

/-! ### The simulation -/

/-- The attributes of the grid that are read. `cylindrical`: its type is `PICMI_CylindricalGrid`. -/
structure Grid where
  cylindrical : Bool := true
  nr : ℕ
  nz : ℕ
  rmin : ℝ
  rmax : ℝ
  zmin : ℝ
  zmax : ℝ
  bcR : String
  bcZLower : String
  bcZUpper : String
  nModes : ℕ
  guard : Option ℕ := none
  windowVelocity : Option ℝ := none

/-- `PICMI_BinomialSmoother`: `n_pass` and `compensation` for `(r, z)`. -/
structure Smoother where
  nPass : Option (ℕ × ℕ)
  compensation : Option (Bool × Bool)

/-- `PICMI_ElectromagneticSolver`. -/
structure Solver where
  cfl : Option ℝ
  smoother : Option Smoother := none
  stencilOrder : Option ℤ := none
  galileanVelocity : Option ℝ := none

/-- The attributes of the PICMI simulation that `init` reads. -/
structure SimDesc where
  grid : Grid
  solver : Solver
  timeStep : Option ℝ := none
  gammaBoost : Option ℝ := none
  verbose : Option ℕ := none
  shape : String := "linear"

/-- The arguments passed to `fbpic.main.Simulation`, and the velocity of the window.
simulation.py:127-141 -/
structure SimArgs where
  Nz : ℕ
  zmin : ℝ
  zmax : ℝ
  Nr : ℕ
  rmax : ℝ
  Nm : ℕ
  dt : ℝ
  nOrder : ℤ
  boundZ : String
  boundR : String
  nGuard : Option ℕ
  verbose : ℕ
  shape : String
  vComoving : Option ℝ
  gammaBoost : Option ℝ
  /-- `n_passes` in `r`, `z` -/
  nPasses : ℕ × ℕ
  /-- `compensator` in `r`, `z` -/
  compensator : Bool × Bool
  window : Option ℝ

/-- Determination of the time step. simulation.py:74-87 -/
noncomputable def timeStep (c : ℝ) (s : SimDesc) : Except PyErr ℝ :=
  match s.solver.cfl with
  | some cfl =>
    let dz := (s.grid.zmax - s.grid.zmin) / (s.grid.nz : ℝ)
    let dr := (s.grid.rmax - s.grid.rmin) / (s.grid.nr : ℝ)
    let dr := match s.gammaBoost with
      | some g => dr / ((1 + √(1 - 1 / g ^ 2)) * g)
      | none => dr
    .ok (cfl * min dz dr / c)
  | none =>
    match s.timeStep with
    | some dt => .ok dt
    | none => .error (.valueError "You need to either set the `cfl` of the solver")

/-- Conversion of the smoother. simulation.py:89-103, smoothing.py:41-53 -/
def smootherArgs : Option Smoother → (ℕ × ℕ) × (Bool × Bool)
  | none => ((1, 1), (false, false))
  | some s =>
    (s.nPass.getD (1, 1),
      match s.compensation with
      | none => (false, false)
      | some (r, z) => (r && z, r && z))

/-- `Simulation.init`; the options of fbpic that are passed on as they are (lines 42-55) are left out.
simulation.py:57-141 -/
noncomputable def initSim (c : ℝ) (s : SimDesc) : Except PyErr SimArgs :=
  let g := s.grid
  if !g.cylindrical then .error (.valueError "the grid needs to be a CylindricalGrid object")
  else if g.rmin ≠ 0 then .error (.assertionError "grid.lower_bound[0] == 0.")
  else if g.bcZLower ≠ g.bcZUpper then .error (.assertionError "lower_boundary_conditions[1]")
  else
    let bcZ := if g.bcZLower = "reflective" then "open" else g.bcZUpper
    if bcZ ≠ "periodic" ∧ bcZ ≠ "open" then .error (.assertionError "boundary z")
    else if g.bcR ≠ "reflective" ∧ g.bcR ≠ "open" then .error (.assertionError "boundary r")
    else
      match timeStep c s with
      | .error e => .error e
      | .ok dt =>
        .ok { Nz := g.nz, zmin := g.zmin, zmax := g.zmax, Nr := g.nr, rmax := g.rmax, Nm := g.nModes,
              dt := dt, nOrder := s.solver.stencilOrder.getD (-1), boundZ := bcZ, boundR := g.bcR,
              nGuard := g.guard, verbose := s.verbose.getD 1, shape := s.shape,
              vComoving := s.solver.galileanVelocity, gammaBoost := s.gammaBoost,
              nPasses := (smootherArgs s.solver.smoother).1,
              compensator := (smootherArgs s.solver.smoother).2, window := g.windowVelocity }

/-- The box and the time step that the simulation uses: `copropag_length` of those given, if
`gamma_boost` is passed. main.py:275-282 -/
noncomputable def SimArgs.converted (c : ℝ) (a : SimArgs) : ℝ × ℝ × ℝ :=
  match a.gammaBoost with
  | none => (a.zmin, a.zmax, a.dt)
  | some g =>
    let b : BoostConv.Conv := ⟨c, g⟩
    (b.copropagLength a.zmin, b.copropagLength a.zmax, b.copropagLength a.dt)

/-! ### Lasers -/

/-- `PICMI_GaussianLaser`: `direction` is `propagation_direction`, `polar` is
`polarization_direction[:2]`, `phi0` the phase of the carrier. -/
structure LaserDesc where
  wavelength : ℝ
  waist : ℝ
  duration : ℝ
  a0 : ℝ
  focalZ : ℝ
  centroidZ : ℝ
  direction : ℝ × ℝ × ℝ
  polar : ℝ × ℝ
  zeta : Option ℝ := none
  beta : Option ℝ := none
  phi2 : Option ℝ := none
  phi0 : Option ℝ := none

/-- `np.arctan2(y, x)`. -/
noncomputable def arctan2 (y x : ℝ) : ℝ := Complex.arg ⟨x, y⟩

/-- The laser profile built by `add_laser` (for an antenna and a Gaussian laser): `lambda0 = 0.8e-6`,
`cep_phase = 0`, `propagation_direction = 1` are the defaults of `GaussianLaser`.
simulation.py:144-172, laser_profiles.py:182-184 -/
noncomputable def addLaser (k : LaserProf.Phys) (l : LaserDesc) : Except PyErr LaserProf.Laser :=
  if l.direction.1 ≠ 0 then .error (.assertionError "propagation_direction[0]")
  else if l.direction.2.1 ≠ 0 then .error (.assertionError "propagation_direction[1]")
  else if l.zeta.getD 0 ≠ 0 then .error (.assertionError "zeta")
  else if l.beta.getD 0 ≠ 0 then .error (.assertionError "beta")
  else LaserProf.gaussianLaser k l.a0 l.waist l.duration l.centroidZ (some l.focalZ)
    (arctan2 l.polar.2 l.polar.1) 0.8e-6 0 (l.phi2.getD 0) 1

/-! ### Species -/

/-- Standard particle types and elements: charge and mass. particle_charge_and_mass.py:12-34 -/
structure ParticleTable where
  e : ℝ
  me : ℝ
  charge : String → Option ℝ
  mass : String → Option ℝ

/-- Density: uniform, or an expression of the position. -/
inductive Dist
  | uniform (density : ℝ)
  | analytic (expr : ℝ → ℝ → ℝ → ℝ)

/-- A plasma or beam on a gridded layout: bounds (`None` is allowed), mean and RMS velocity (times the Lorentz
factor) along `z`, and whether the species is to fill the window as it moves. -/
structure PlasmaDesc where
  dist : Dist
  zLower : Option ℝ := none
  zUpper : Option ℝ := none
  rLower : Option ℝ := none
  rUpper : Option ℝ := none
  directedVz : ℝ := 0
  rmsVz : ℝ := 0
  fillIn : Bool := false

/-- `PICMI_GaussianBunchDistribution` (components along the radius and `z`). -/
structure GaussDesc where
  nPhys : ℝ
  sizeR : ℝ
  sizeZ : ℝ
  /-- `rms_velocity` -/
  rmsVr : ℝ
  rmsVz : ℝ
  centroidZ : ℝ
  centroidVz : ℝ
  /-- `velocity_divergence` -/
  divergence : ℝ := 0

/-- `PICMI_Species`. -/
structure SpeciesDesc where
  particleType : Option String := none
  charge : ℝ := 0
  mass : ℝ := 0
  chargeState : Option ℤ := none
  densityScale : Option ℝ := none

/-- Charge and mass. simulation.py:214-221 -/
def chargeMass (T : ParticleTable) (s : SpeciesDesc) : Except PyErr (ℝ × ℝ) := do
  let (q, m) ← match s.particleType with
    | none => pure (s.charge, s.mass)
    | some t =>
      match T.charge t, T.mass t with
      | some q, some m => pure (q, m)
      | _, _ => .error (.indexError "KeyError")
  match s.chargeState with
  | none => return (q, m)
  | some z => return (z * T.e, m - z * T.me)

/-- What is passed to `add_new_species` or `add_particle_bunch` for a gridded layout. The density is
`n` times `dens`, or `n` everywhere. -/
structure PlasmaCall where
  q : ℝ
  m : ℝ
  n : ℝ
  dens : Option (ℝ → ℝ → ℝ → ℝ)
  pNz : ℕ
  pNr : ℕ
  pNt : ℕ
  pZmin : Option ℝ
  pZmax : Option ℝ
  pRmin : ℝ
  pRmax : Option ℝ
  continuous : Bool
  /-- mean momentum `u_z` of the particles, and its RMS spread -/
  uz : ℝ
  uzTh : ℝ
  selfField : Bool
  plane : Option ℝ

/-- The density of the created particles. -/
def PlasmaCall.density (p : PlasmaCall) (x y z : ℝ) : ℝ :=
  match p.dens with
  | none => p.n
  | some f => p.n * f x y z

/-- `_create_new_fbpic_species` for a gridded layout `(nr, nt, nz)`. In the first branch
`add_particle_bunch` sets `uz_m = sqrt(gamma0**2 - 1)` (bunch.py:103); in the second the momentum
and the inner radius keep their default 0 (main.py:792-800). simulation.py:252-307 -/
noncomputable def addGridded (c : ℝ) (T : ParticleTable) (s : SpeciesDesc) (d : PlasmaDesc)
    (layout : ℕ × ℕ × ℕ) (selfField : Bool) (plane : Option ℝ) : Except PyErr PlasmaCall := do
  let (q, m) ← chargeMass T s
  let (n0, dens) := match d.dist with
    | .uniform n => (n, none)
    | .analytic f => (s.densityScale.getD 1, some f)
  if selfField ∨ plane.isSome then
    if d.fillIn then .error (.assertionError "fill_in != True")
    else
      let u := d.directedVz / c
      let gamma0 := √(1 + u ^ 2)
      return ⟨q, m, n0, dens, layout.2.2, layout.1, layout.2.1, d.zLower, d.zUpper, 0, d.rUpper,
        false, √(gamma0 ^ 2 - 1), 0, selfField, plane⟩
  else
    return ⟨q, m, n0, dens, layout.2.2, layout.1, layout.2.1, d.zLower, d.zUpper, 0, d.rUpper,
      d.fillIn, 0, 0, false, none⟩

/-- `_create_new_fbpic_species` for a Gaussian bunch with `N` macroparticles: the arguments of
`add_particle_bunch_gaussian`. simulation.py:309-339 -/
noncomputable def addGauss (c : ℝ) (s : SpeciesDesc) (d : GaussDesc) (N : ℕ) : Bunch.GaussArgs :=
  let u := d.centroidVz / c
  let gamma0 := √(1 + u ^ 2)
  let sigVr := d.rmsVr / gamma0
  let tf := if sigVr ≠ 0 then -(d.sizeR ^ 2) / sigVr ^ 2 * d.divergence else 0
  let zf := d.centroidZ + d.centroidVz / gamma0 * tf
  let sigR0 := √(d.sizeR ^ 2 - (sigVr * tf) ^ 2)
  { sigR := sigR0, sigZ := d.sizeZ, nEmit := gamma0 * sigR0 * sigVr / c, gamma0 := gamma0,
    sigGamma := d.rmsVz / c, nPhys := d.nPhys * s.densityScale.getD 1, N := N, tf := tf, zf := zf,
    symmetrize := false }

/-! ### Ionization -/

/-- A `Particles` object: what counts here. -/
structure Particles where
  nFloat : ℕ := 8
  nInt : ℕ := 0
  tracked : Bool := false
  /-- starting level, if there is an ionizer -/
  ionizer : Option ℕ := none

/-- `make_ionizable`. particles.py:484-493 -/
def Particles.makeIonizable (p : Particles) (levelStart : ℕ) : Particles :=
  { p with ionizer := some levelStart, nFloat := p.nFloat + 1, nInt := p.nInt + 1 }

/-- `track`. particles.py:387-389 -/
def Particles.track (p : Particles) : Particles := { p with tracked := true, nInt := p.nInt + 1 }

/-- `attr_list[i]`. particle_buffer_handling.py:276, 301 -/
def attrAt (l : List String) (i : ℕ) : Except PyErr String :=
  match l[i]? with
  | some a => .ok a
  | none => .error (.indexError "list index out of range")

/-- The attributes that are moved to the sending buffers on GPU: `attr_list[i_attr]` for each `i_attr` in
`range(n_float)`, `range(n_int)`. particle_buffer_handling.py:258-301. -/
def Particles.packGpu (p : Particles) : Except PyErr (List String × List String) := do
  let floats := ["x", "y", "z", "ux", "uy", "uz", "inv_gamma", "w"]
    ++ (if p.ionizer.isSome then ["w_times_level"] else [])
  let ints := (if p.tracked then ["id"] else [])
    ++ (if p.ionizer.isSome then ["ionization_level"] else [])
  let f ← (List.range p.nFloat).mapM (attrAt floats)
  let i ← (List.range p.nInt).mapM (attrAt ints)
  return (f, i)

/-- A PICMI species, by its number: the corresponding fbpic species, if it was added. `Ionization` is
`PICMI_FieldIonization` (`model == 'ADK'`). -/
structure Ionization where
  source : ℕ
  target : ℕ
  levelStart : ℕ

/-- What `add_species` and `add_interaction` act on. -/
structure IonSim where
  fbpic : ℕ → Option Particles := fun _ => none
  interactions : List Ionization := []

/-- `PICMI_Simulation.add_interaction` registers the interaction. -/
def IonSim.addInteraction (s : IonSim) (i : Ionization) : IonSim :=
  { s with interactions := s.interactions ++ [i] }

/-- Body of the loop over interactions. simulation.py:232-246 -/
def IonSim.interact (s : IonSim) (i : Ionization) : Except PyErr IonSim :=
  match s.fbpic i.target with
  | none => .error (.runtimeError "You need to add the target species to the simulation")
  | some _ =>
    match s.fbpic i.source with
    | none => .error (.attributeError "fbpic_species")
    | some p =>
      .ok { s with fbpic := Function.update s.fbpic i.source (some (p.makeIonizable i.levelStart)) }

/-- `_add_species_generic` for one species: creation, then the loop over all interactions.
simulation.py:200-246 -/
def IonSim.addSpecies (s : IonSim) (k : ℕ) : Except PyErr IonSim :=
  s.interactions.foldlM IonSim.interact { s with fbpic := Function.update s.fbpic k (some {}) }

/-! ### Diagnostics -/

/-- Conversion of one entry of `data_list`. simulation.py:373-381 -/
def fieldName (data : String) : Option String :=
  if data ∈ ["Ex", "Ey", "Ez", "E"] then some "E"
  else if data ∈ ["Bx", "By", "Bz", "B"] then some "B"
  else if data ∈ ["Jx", "Jy", "Jz", "J"] then some "J"
  else if data = "rho" then some "rho"
  else none

/-- `data_list` of a field diagnostic: `order` is the order in which Python runs through the `set` (it
depends on the process), then `sorted`. simulation.py:369-385 -/
def fieldTypes (order : List String → List String) : Option (List String) → List String
  | none => ["rho", "E", "B", "J"]
  | some l => (order (l.filterMap fieldName).dedup).mergeSort (· ≤ ·)

/-- The types of fields known to `FieldDiagnostic` (field_diag.py:138-155, 275-309), by their
strings. -/
def fieldTypeOf : String → FieldDiag.FieldType
  | "rho" => .rho
  | "E" => .E
  | "B" => .B
  | "J" => .J
  | s => .other s

/-- What the loops of a lab-frame field diagnostic run through: `fieldtypes=diagnostic.data_list`, the raw
attribute; a loop over `None` raises. simulation.py:421-433, boosted_field_diag.py:88-89, 120-126 (rank 0 creates the file) -/
def labFieldTypes (dataList : Option (List String)) :
    Except PyErr (List (List (FieldDiag.FieldType × Option FieldDiag.Coord))) :=
  match dataList with
  | none => .error (.typeError "'NoneType' object is not iterable")
  | some l => l.mapM fun s => FieldDiag.createPaths (fieldTypeOf s)

/-! ### Applied fields -/

/-- `PICMI_Mirror`: position of the front, number of cells. `Mirror` takes `z_start`, `z_end`, `gamma_boost`,
`m` (mirrors.py:14), so the keywords `z_lab`, `n_cells` raise; before that `self.fbpic_sim.boost` is `None`
without a boost. simulation.py:479-484 -/
def addMirror (gammaBoost : Option ℝ) (zFront : Option ℝ) (_nCells : ℕ) : Except PyErr Unit :=
  match zFront with
  | none => .error (.assertionError "z_front_location is not None")
  | some _ =>
    match gammaBoost with
    | none => .error (.attributeError "'NoneType' object has no attribute 'gamma0'")
    | some _ => .error (.typeError "got an unexpected keyword argument 'z_lab'")

/-- `PICMI_ConstantAppliedField`: values in the order of `fieldNames`. -/
def fieldNames : List String := ["Ex", "Ey", "Ez", "Bx", "By", "Bz"]

/-- `PICMI_ConstantAppliedField`. The closure reads `field_value` when it is compiled, that is at once
(external_fields.py:131, 145). No `gamma_boost` is passed. simulation.py:486-497 -/
noncomputable def addConstantField (c : ℝ) (value : String → Option ℝ) :
    Except PyErr (List ExternalField.Ext) :=
  (fieldNames.filterMap fun f => (value f).map fun v => (f, v)).mapM fun fv =>
    ExternalField.make c (fun F _ _ _ _ amplitude _ => F + amplitude * fv.2) fv.1 1 0 none none

/-- `PICMI_AnalyticAppliedField`: `exec` defines `fieldfunc` among the globals of the module, while
`ExternalField` receives the local variable, which is `None`; compiling it raises.
simulation.py:499-518 -/
def addAnalyticField (expr : String → Option ExternalField.FieldFunc) :
    Except PyErr (List ExternalField.Ext) :=
  match fieldNames.filterMap expr with
  | [] => .ok []
  | _ :: _ => .error (.typeError "The decorated object is not a function")

end Fbpic.Picmi
