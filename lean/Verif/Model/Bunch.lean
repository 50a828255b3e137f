import Verif.Model.NewSpecies

/-!
# `lpa_utils/bunch.py`: creation of particle bunches

The random draws are a parameter. The arrays of a bunch are modelled as one list of particles. The space charge fields are in
`Model/SpaceCharge.lean`.
-/

namespace Fbpic.Bunch

/-! ### Uniform bunch -/

/-- The arguments of `add_particle_bunch` (bunch.py:18-22). `initSelfField` is `initialize_self_field`, `plane` is `z_injection_plane`,
`boostPositions` is `boost_positions_in_dens_func`. -/
structure Args (K : Type) where
  q : K
  m : K
  gamma0 : K
  n : K
  pZmin : K
  pZmax : K
  pRmin : K
  pRmax : K
  pNr : ℕ := 2
  pNz : ℕ := 2
  pNt : ℕ := 4
  dens : K → K → ℕ → K
  boost : Option BoostConv.Conv := none
  direction : String := "forward"
  plane : Option K := none
  initSelfField : Bool := true
  boostPositions : Bool := false

/-- What `add_particle_bunch` does: the call of `add_new_species` (its charge, mass, arguments; the mean momentum is
`± sqrt(gamma0^2 - 1)` with the sign `backward`), the injection plane set, and the direction of the space charge calculation, if any. -/
structure Made (K : Type) where
  q : K
  m : K
  species : SpeciesArgs K
  gamma0 : K
  backward : Bool
  boostPositions : Bool
  plane : Option (K × Option BoostConv.Conv)
  selfField : Option String

/-- `uz_m`, bunch.py:103-106. -/
noncomputable def Made.uzM (b : Made ℝ) : ℝ :=
  let u := Real.sqrt (b.gamma0 ^ 2 - 1)
  if b.backward then u * -1 else u

/-- `add_particle_bunch` (bunch.py:102-123). -/
def addParticleBunch {K : Type} (a : Args K) : Made K :=
  { q := a.q
    m := a.m
    species := ⟨some a.n, some a.pNz, some a.pNr, some a.pNt, some a.pZmin, some a.pZmax, a.pRmin, some a.pRmax, false, a.dens⟩
    gamma0 := a.gamma0
    backward := a.direction = "backward"
    boostPositions := a.boostPositions
    plane := a.plane.map fun z => (z, a.boost)
    selfField := if a.initSelfField then some a.direction else none }

/-- The arguments of `add_elec_bunch` (bunch.py:550-552). -/
structure ElecArgs (K : Type) where
  gamma0 : K
  nE : K
  pZmin : K
  pZmax : K
  pRmin : K
  pRmax : K
  pNr : ℕ := 2
  pNz : ℕ := 2
  pNt : ℕ := 4
  dens : K → K → ℕ → K
  boost : Option BoostConv.Conv := none
  direction : String := "forward"
  plane : Option K := none

/-- `add_elec_bunch` (bunch.py:611-616): note `p_nt=p_nz`. -/
def addElecBunch {K : Type} [Neg K] (e mE : K) (a : ElecArgs K) : Made K :=
  addParticleBunch { q := -e, m := mE, gamma0 := a.gamma0, n := a.nE, pZmin := a.pZmin, pZmax := a.pZmax, pRmin := a.pRmin,
                     pRmax := a.pRmax, pNr := a.pNr, pNz := a.pNz, pNt := a.pNz, dens := a.dens, boost := a.boost,
                     direction := a.direction, plane := a.plane }

/-! ### Bunch from arrays -/

/-- One entry of the arrays passed to `add_particle_bunch_from_arrays`. -/
structure In where
  (x y z ux uy uz w : ℝ)

/-- One entry of the arrays of the species. -/
structure Out where
  (x y z ux uy uz invGamma w : ℝ)

/-- Lorentz factor and conversion to the boosted frame (bunch.py:503-507). -/
noncomputable def convert (boost : Option BoostConv.Conv) (p : In) : Out :=
  let invGamma := 1 / Real.sqrt (1 + p.ux ^ 2 + p.uy ^ 2 + p.uz ^ 2)
  match boost with
  | none => ⟨p.x, p.y, p.z, p.ux, p.uy, p.uz, invGamma, p.w⟩
  | some b =>
    let q := b.boostParticle ⟨p.x, p.y, p.z, p.ux, p.uy, p.uz, invGamma⟩
    ⟨q.x, q.y, q.z, q.ux, q.uy, q.uz, q.invGamma, p.w⟩

/-- `add_particle_bunch_from_arrays` on rank `rank`: the particles created (bunch.py:503-537). -/
noncomputable def fromArrays (c : Comm) (zminG dz : ℝ) (rank : ℕ) (boost : Option BoostConv.Conv) (ps : List In) :
    Except PyErr (List Out) := do
  let (zmin, zmax) ← c.getZminZmax zminG dz true false false (some rank)
  return (ps.map (convert boost)).filter fun p => zmin ≤ p.z ∧ p.z < zmax

/-! ### Gaussian bunch -/

/-- Standard normal draws for one macroparticle. -/
structure Draw where
  (g x y z ux uy : ℝ)

/-- The numerical arguments of `add_particle_bunch_gaussian` (bunch.py:126-132). -/
structure GaussArgs where
  (sigR sigZ nEmit gamma0 sigGamma nPhys : ℝ)
  N : ℕ
  (tf zf : ℝ)
  symmetrize : Bool

/-- A macroparticle before the weights are set: with its Lorentz factor. -/
structure Pre where
  (gamma x y z ux uy : ℝ)

/-- Macroparticle number `i` (bunch.py:205-227). -/
noncomputable def drawOne (a : GaussArgs) (d : Draw) : Pre :=
  let gamma := if a.sigGamma > 0 then a.gamma0 + a.sigGamma * d.g else a.gamma0
  let sigUr := a.nEmit / a.sigR
  ⟨gamma, a.sigR * d.x, a.sigR * d.y, a.zf + a.sigZ * d.z, sigUr * d.ux, sigUr * d.uy⟩

/-- `uz_sqr`, bunch.py:231. -/
noncomputable def uzSqr (p : Pre) : ℝ := p.gamma ^ 2 - 1 - p.ux ^ 2 - p.uy ^ 2

/-- The macroparticles that are not removed (bunch.py:199-254), `draw i` are the draws for the particle `i`. -/
noncomputable def kept (a : GaussArgs) (draw : ℕ → Draw) : List Pre :=
  let n := if a.symmetrize then a.N / 4 else a.N
  ((List.range n).map fun i => drawOne a (draw i)).filter fun p => 0 ≤ uzSqr p

/-- Longitudinal momentum, weight and propagation to the time `tf` (bunch.py:255-266); `c` is the speed of light. -/
noncomputable def propagate (c : ℝ) (a : GaussArgs) (w : ℝ) (p : Pre) : In :=
  let uz := Real.sqrt (uzSqr p)
  let invGamma := 1 / p.gamma
  if a.tf ≠ 0 then ⟨p.x - p.ux * invGamma * c * a.tf, p.y - p.uy * invGamma * c * a.tf, p.z - uz * invGamma * c * a.tf, p.ux, p.uy, uz, w⟩
  else ⟨p.x, p.y, p.z, p.ux, p.uy, uz, w⟩

/-- The 4-fold copies (bunch.py:269-275). -/
noncomputable def fourfold (l : List In) : List In :=
  let l := l.map fun p => { p with w := p.w * 0.25 }
  l ++ l.map (fun p => ⟨-p.y, p.x, p.z, -p.uy, p.ux, p.uz, p.w⟩) ++ l.map (fun p => ⟨-p.x, -p.y, p.z, -p.ux, -p.uy, p.uz, p.w⟩)
    ++ l.map (fun p => ⟨p.y, -p.x, p.z, p.uy, -p.ux, p.uz, p.w⟩)

/-- `add_particle_bunch_gaussian` up to the call of `add_particle_bunch_from_arrays` (bunch.py:203-275): the arrays passed on. `N_new = 0`
makes Python raise in `n_physical_particles / N_new`. -/
noncomputable def gaussian (c : ℝ) (a : GaussArgs) (draw : ℕ → Draw) : Except PyErr (List In) :=
  if a.symmetrize ∧ a.N % 4 ≠ 0 then
    .error (.assertionError "When using symmetrize, `n_macroparticles` must be a multiple of 4.")
  else if (kept a draw).length = 0 then .error (.runtimeError "ZeroDivisionError")
  else
    let l := (kept a draw).map (propagate c a (a.nPhys / ((kept a draw).length : ℝ)))
    if a.symmetrize then .ok (fourfold l) else .ok l

/-- `add_elec_bunch_gaussian` (bunch.py:685-693): the arrays passed on; `e` is the elementary charge. The species has the charge `-e`. -/
noncomputable def elecGaussian (c e Q : ℝ) (a : GaussArgs) (draw : ℕ → Draw) : Except PyErr (List In) :=
  gaussian c { a with nPhys := Q / e } draw

/-- A row of the file of `add_particle_bunch_file`. -/
structure Row where
  (x y z ux uy uz : ℝ)

/-- `add_particle_bunch_file` (bunch.py:329-354): the arrays passed on. `n_physical_particles / 0` raises. -/
noncomputable def fromFile (nPhys zOff : ℝ) (rows : List Row) : Except PyErr (List In) :=
  if rows.length = 0 then .error (.runtimeError "ZeroDivisionError")
  else .ok (rows.map fun r => ⟨r.x, r.y, r.z + zOff, r.ux, r.uy, r.uz, nPhys / (rows.length : ℝ)⟩)

/-- `add_elec_bunch_file` (bunch.py:735-740). -/
noncomputable def elecFile (e Qtot zOff : ℝ) (rows : List Row) : Except PyErr (List In) := fromFile (Qtot / e) zOff rows

end Fbpic.Bunch
