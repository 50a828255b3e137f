import Verif.Spec.Picmi
import Verif.Props.ExternalField
import Verif.Lemmas.Tactics
import Mathlib.Data.String.Basic

/-!
# C83: a simulation described through PICMI is the one that FBPIC runs

The description is met for the grid, the time step, the boundaries, charges and masses, densities given by expressions, the
moments of Gaussian bunches moving forward, the fields that are written and constant fields in the lab frame. It
is not met in the cases of the theorems `C83_violated_*`.
-/

namespace Fbpic

open Picmi Spec

/-! ### Grid and time step -/

private theorem copropag_factor {g : ℝ} (hg : 1 ≤ g) :
    1 / (g * (1 - √(1 - 1 / g ^ 2))) = (1 + √(1 - 1 / g ^ 2)) * g ∧ 0 < (1 + √(1 - 1 / g ^ 2)) * g := by
  have h0 : 0 < g := by linarith
  have hs : 0 ≤ 1 - 1 / g ^ 2 := by rw [sub_nonneg, div_le_one (by positivity)]; nlinarith
  have hb := Real.sq_sqrt hs
  have hb0 := Real.sqrt_nonneg (1 - 1 / g ^ 2)
  set b := √(1 - 1 / g ^ 2) with hbd
  have hp : 0 < (1 + b) * g := by positivity
  have hm : g * (1 - b) * ((1 + b) * g) = 1 := by
    have : g * (1 - b) * ((1 + b) * g) = g ^ 2 * (1 - b ^ 2) := by ring
    rw [this, hb]; field_simp; ring
  refine ⟨?_, hp⟩
  have : g * (1 - b) ≠ 0 := fun h => by rw [h] at hm; simp at hm
  rw [div_eq_iff this]; linarith

private theorem initSim_ok {c : ℝ} {s : SimDesc} {a : SimArgs} (h : initSim c s = .ok a) :
    s.grid.cylindrical = true ∧ s.grid.rmin = 0 ∧ s.grid.bcZLower = s.grid.bcZUpper ∧
    (s.grid.bcZUpper = "periodic" ∨ s.grid.bcZUpper = "open" ∨ s.grid.bcZUpper = "reflective") ∧
    (s.grid.bcR = "reflective" ∨ s.grid.bcR = "open") ∧ ∃ dt, timeStep c s = .ok dt ∧
    a = { Nz := s.grid.nz, zmin := s.grid.zmin, zmax := s.grid.zmax, Nr := s.grid.nr, rmax := s.grid.rmax,
          Nm := s.grid.nModes, dt := dt, nOrder := s.solver.stencilOrder.getD (-1),
          boundZ := if s.grid.bcZUpper = "reflective" then "open" else s.grid.bcZUpper, boundR := s.grid.bcR,
          nGuard := s.grid.guard, verbose := s.verbose.getD 1, shape := s.shape,
          vComoving := s.solver.galileanVelocity, gammaBoost := s.gammaBoost,
          nPasses := (smootherArgs s.solver.smoother).1,
          compensator := (smootherArgs s.solver.smoother).2, window := s.grid.windowVelocity } := by
  unfold initSim at h
  simp only [] at h
  by_cases h1 : (!s.grid.cylindrical) = true
  · rw [if_pos h1] at h; cases h
  rw [if_neg h1] at h
  by_cases h2 : s.grid.rmin ≠ 0
  · rw [if_pos h2] at h; cases h
  rw [if_neg h2] at h
  by_cases h3 : s.grid.bcZLower ≠ s.grid.bcZUpper
  · rw [if_pos h3] at h; cases h
  rw [if_neg h3] at h
  simp only [ne_eq, not_not, Bool.not_eq_true', Bool.not_eq_false] at h1 h2 h3
  rw [h3] at h
  by_cases h4 : (if s.grid.bcZUpper = "reflective" then "open" else s.grid.bcZUpper) ≠ "periodic" ∧
      (if s.grid.bcZUpper = "reflective" then "open" else s.grid.bcZUpper) ≠ "open"
  · rw [if_pos h4] at h; cases h
  rw [if_neg h4] at h
  by_cases h5 : s.grid.bcR ≠ "reflective" ∧ s.grid.bcR ≠ "open"
  · rw [if_pos h5] at h; cases h
  rw [if_neg h5] at h
  refine ⟨h1, h2, h3, ?_, by tauto, ?_⟩
  · by_cases hr : s.grid.bcZUpper = "reflective"
    · exact Or.inr (Or.inr hr)
    · rw [if_neg hr] at h4; tauto
  · cases hts : timeStep c s with
    | error e => rw [hts] at h; cases h
    | ok dt =>
      rw [hts] at h
      injection h with h
      exact ⟨dt, rfl, h.symm⟩

/-- If `cfl` is given, the time step used by the simulation obeys the Courant condition for the cells used by the
simulation, in the lab frame as well as in a boosted frame. -/
theorem C83_courant (c : ℝ) (hc : 0 < c) (s : SimDesc) (a : SimArgs) (h : initSim c s = .ok a) (cfl : ℝ)
    (hcfl : s.solver.cfl = some cfl) (hg : ∀ g, s.gammaBoost = some g → 1 ≤ g) :
    CourantStep c cfl (((a.converted c).2.1 - (a.converted c).1) / a.Nz) (a.rmax / a.Nr) (a.converted c).2.2 := by
  obtain ⟨-, h2, -, -, -, dt, hts, rfl⟩ := initSim_ok h
  · · simp only [timeStep, hcfl] at hts
      injection hts with hts
      simp only [CourantStep, SimArgs.converted]
      cases hgb : s.gammaBoost with
      | none =>
        rw [hgb] at hts
        simp only [] at hts ⊢
        rw [← hts, h2]
        simp only [sub_zero]
        field_simp
      | some g =>
        rw [hgb] at hts
        simp only [] at hts ⊢
        obtain ⟨hF, hF0⟩ := copropag_factor (hg g hgb)
        simp only [BoostConv.Conv.copropagLength, BoostConv.Conv.beta0, mul_one]
        rw [hF, ← hts, h2]
        generalize (1 + √(1 - 1 / g ^ 2)) * g = F at hF0
        rw [show (s.grid.zmax * F - s.grid.zmin * F) / (s.grid.nz : ℝ)
            = F * ((s.grid.zmax - s.grid.zmin) / s.grid.nz) by ring,
          show s.grid.rmax / (s.grid.nr : ℝ) = F * (s.grid.rmax / s.grid.nr / F) by field_simp,
          ← mul_min_of_nonneg _ _ hF0.le, sub_zero]
        field_simp

/-- When a description is accepted, and what is then passed on: the grid as it is, the boundaries except that
`reflective` along `z` becomes `open`, and the time step of the description if no `cfl` is given. -/
theorem C83_grid (c : ℝ) (s : SimDesc) :
    ((∃ a, initSim c s = .ok a) ↔ s.grid.cylindrical = true ∧ s.grid.rmin = 0 ∧ s.grid.bcZLower = s.grid.bcZUpper ∧
      s.grid.bcZUpper ∈ ["periodic", "open", "reflective"] ∧ s.grid.bcR ∈ ["reflective", "open"] ∧
      (s.solver.cfl.isSome ∨ s.timeStep.isSome)) ∧
    ∀ a, initSim c s = .ok a →
      a.Nz = s.grid.nz ∧ a.Nr = s.grid.nr ∧ a.zmin = s.grid.zmin ∧ a.zmax = s.grid.zmax ∧ a.rmax = s.grid.rmax ∧
      a.Nm = s.grid.nModes ∧ a.boundR = s.grid.bcR ∧
      a.boundZ = (if s.grid.bcZUpper = "reflective" then "open" else s.grid.bcZUpper) ∧
      a.nGuard = s.grid.guard ∧ a.window = s.grid.windowVelocity ∧ a.gammaBoost = s.gammaBoost ∧
      a.vComoving = s.solver.galileanVelocity ∧ a.nOrder = s.solver.stencilOrder.getD (-1) ∧ a.shape = s.shape ∧
      (∀ dt, s.solver.cfl = none → s.timeStep = some dt → a.dt = dt) ∧
      (∀ sm n, s.solver.smoother = some sm → sm.nPass = some n → a.nPasses = n) := by
  have ht : (∃ dt, timeStep c s = .ok dt) ↔ (s.solver.cfl.isSome ∨ s.timeStep.isSome) := by
    unfold timeStep
    cases s.solver.cfl <;> cases s.timeStep <;> simp
  constructor
  · constructor
    · rintro ⟨a, h⟩
      obtain ⟨h1, h2, h3, h4, h5, dt, hts, -⟩ := initSim_ok h
      exact ⟨h1, h2, h3, by simpa using h4, by simpa using h5, ht.1 ⟨dt, hts⟩⟩
    · rintro ⟨h1, h2, h3, h4, h5, h6⟩
      obtain ⟨dt, hdt⟩ := ht.2 h6
      unfold initSim
      simp only [h1, h2, h3, hdt]
      simp only [List.mem_cons, List.not_mem_nil, or_false] at h4 h5
      rcases h4 with h4 | h4 | h4 <;> rcases h5 with h5 | h5 <;> simp [h4, h5]
  · intro a h
    obtain ⟨-, -, -, -, -, dt, hts, rfl⟩ := initSim_ok h
    refine ⟨rfl, rfl, rfl, rfl, rfl, rfl, rfl, rfl, rfl, rfl, rfl, rfl, rfl, rfl, ?_, ?_⟩
    · intro dt' hn hs
      simp only [timeStep, hn, hs] at hts
      injection hts with hts
      exact hts.symm
    · intro sm n hsm hn
      simp [smootherArgs, hsm, hn]

/-- The compensation of the smoother is met if it is the same in both directions. -/
theorem C83_smoother_partial (c : ℝ) (s : SimDesc) (a : SimArgs) (h : initSim c s = .ok a) (sm : Smoother)
    (hsm : s.solver.smoother = some sm) (b : Bool) (hb : sm.compensation = some (b, b)) : a.compensator = (b, b) := by
  obtain ⟨-, -, -, -, -, dt, -, rfl⟩ := initSim_ok h
  simp [smootherArgs, hsm, hb]

/-- A grid of unit cells, for the examples. -/
def exPicmiGrid : Grid := { nr := 10, nz := 20, rmin := 0, rmax := 10, zmin := -20, zmax := 0, bcR := "reflective", bcZLower := "open", bcZUpper := "open", nModes := 2 }

/-- Non-vacuity of `C83_courant`, `C83_grid`: a boosted-frame simulation. -/
example : (∃ a, initSim 1 { grid := exPicmiGrid, solver := { cfl := some 1 }, gammaBoost := some 2 } = .ok a) ∧
    ∀ a, initSim 1 { grid := exPicmiGrid, solver := { cfl := some 1 }, gammaBoost := some 2 } = .ok a →
      CourantStep 1 1 (((a.converted 1).2.1 - (a.converted 1).1) / a.Nz) (a.rmax / a.Nr) (a.converted 1).2.2 := by
  refine ⟨(C83_grid 1 _).1.2 ⟨rfl, rfl, rfl, by simp [exPicmiGrid], by simp [exPicmiGrid], by simp⟩, fun a h => ?_⟩
  exact C83_courant 1 one_pos _ a h 1 rfl (by rintro g ⟨⟩; norm_num)

/-- A compensation requested along `r` only is not applied. -/
theorem C83_violated_compensation : ∃ s a sm, initSim 1 s = .ok a ∧ s.solver.smoother = some sm ∧
    sm.compensation = some (true, false) ∧ a.compensator.1 = false := by
  obtain ⟨a, h⟩ := (C83_grid 1 { grid := exPicmiGrid, solver := { cfl := some 1, smoother := some ⟨none, some (true, false)⟩ } }).1.2
    ⟨rfl, rfl, rfl, by simp [exPicmiGrid], by simp [exPicmiGrid], by simp⟩
  refine ⟨_, a, _, h, rfl, rfl, ?_⟩
  obtain ⟨-, -, -, -, -, dt, -, rfl⟩ := initSim_ok h
  rfl

/-! ### Laser -/

private theorem gaussian_eq (k : LaserProf.Phys) (a0 w tau z0 zf th la cep phi2 dir : ℝ) (hd : dir = -1 ∨ dir = 1) :
    LaserProf.gaussianLaser k a0 w tau z0 (some zf) th la cep phi2 dir =
      .ok ⟨LaserProf.combine (LaserProf.amplitude k a0 la * Real.cos th) (LaserProf.amplitude k a0 la * Real.sin th)
        ⟨LaserProf.gaussLongEval k.c (2 * Real.pi / la) z0 cep phi2 (1 / (k.c * tau) ^ 2) dir,
          Real.sqrt (1 / 2 * Real.pi * 1 / (1 / (k.c * tau) ^ 2)), 2 * Real.pi / la, dir⟩
        ⟨LaserProf.gaussTransEval w (1 / (1 / 2 * (2 * Real.pi / la) * w ^ 2)) zf dir, 1 / 2 * Real.pi * w ^ 2, 2 * Real.pi / la, dir⟩,
        dir⟩ := by
  simp only [LaserProf.gaussianLaser, LaserProf.pulse, LaserProf.gaussLong, LaserProf.gaussTrans, LaserProf.checkDir, if_pos hd]
  simp [bind, Except.bind, pure, Except.pure, if_pos hd]

private theorem pulse_ok {k : LaserProf.Phys} {a0 w tau z0 zf th la cep phi2 dir : ℝ} (hd : dir = -1 ∨ dir = 1) :
    ∃ las, LaserProf.gaussianLaser k a0 w tau z0 (some zf) th la cep phi2 dir = .ok las ∧ las.dir = dir :=
  ⟨_, gaussian_eq k a0 w tau z0 zf th la cep phi2 dir hd, rfl⟩

/-- The laser is the one described if its wavelength is 0.8 μm, its phase 0 and it moves forward. -/
theorem C83_laser_partial (k : LaserProf.Phys) (l : LaserDesc) (hx : l.direction.1 = 0) (hy : l.direction.2.1 = 0)
    (hz : l.zeta.getD 0 = 0) (hb : l.beta.getD 0 = 0) (hw : l.wavelength = 0.8e-6) (hp : l.phi0.getD 0 = 0)
    (hd : 0 < l.direction.2.2) :
    addLaser k l = describedLaser k l ∧ ∃ las, addLaser k l = .ok las := by
  have h : addLaser k l = describedLaser k l := by
    simp [addLaser, describedLaser, hx, hy, hz, hb, hw, hp, hd]
  refine ⟨h, ?_⟩
  rw [h]
  obtain ⟨las, hl, -⟩ := pulse_ok (k := k) (a0 := l.a0) (w := l.waist) (tau := l.duration) (z0 := l.centroidZ) (zf := l.focalZ)
    (th := arctan2 l.polar.2 l.polar.1) (la := l.wavelength) (cep := l.phi0.getD 0) (phi2 := l.phi2.getD 0) (dir := 1) (Or.inr rfl)
  exact ⟨las, by simp only [describedLaser, if_pos hd]; exact hl⟩

/-- Whatever the direction that is described, the laser moves forward. -/
theorem C83_violated_direction (k : LaserProf.Phys) (l : LaserDesc) (hx : l.direction.1 = 0) (hy : l.direction.2.1 = 0)
    (hz : l.zeta.getD 0 = 0) (hb : l.beta.getD 0 = 0) (hd : l.direction.2.2 < 0) :
    ∃ las las', addLaser k l = .ok las ∧ describedLaser k l = .ok las' ∧ las.dir = 1 ∧ las'.dir = -1 := by
  obtain ⟨las, h1, h2⟩ := pulse_ok (k := k) (a0 := l.a0) (w := l.waist) (tau := l.duration) (z0 := l.centroidZ) (zf := l.focalZ)
    (th := arctan2 l.polar.2 l.polar.1) (la := 0.8e-6) (cep := 0) (phi2 := l.phi2.getD 0) (dir := 1) (Or.inr rfl)
  obtain ⟨las', h3, h4⟩ := pulse_ok (k := k) (a0 := l.a0) (w := l.waist) (tau := l.duration) (z0 := l.centroidZ) (zf := l.focalZ)
    (th := arctan2 l.polar.2 l.polar.1) (la := l.wavelength) (cep := l.phi0.getD 0) (phi2 := l.phi2.getD 0) (dir := -1) (Or.inl rfl)
  refine ⟨las, las', ?_, ?_, h2, h4⟩
  · simp only [addLaser, hx, hy, hz, hb, ne_eq, not_true_eq_false, if_false]; exact h1
  · simp only [describedLaser, if_neg (not_lt.2 hd.le)]; exact h3

/-- The electric field at the center of a pulse that is at its focus, polarized along `x`. -/
private theorem peak {k : LaserProf.Phys} {a0 w tau z0 la cep dir : ℝ} (hd : dir = -1 ∨ dir = 1) {las : LaserProf.Laser}
    (h : LaserProf.gaussianLaser k a0 w tau z0 (some z0) 0 la cep 0 dir = .ok las) :
    (las.field 0 0 z0 0).1 = a0 * k.me * k.c ^ 2 * (2 * Real.pi / la) / k.e * Real.cos cep := by
  rw [gaussian_eq _ _ _ _ _ _ _ _ _ _ _ hd] at h
  injection h with h
  subst h
  simp only [LaserProf.combine, LaserProf.gaussLongEval, LaserProf.gaussTransEval, LaserProf.diffract, LaserProf.amplitude,
    Real.cos_zero]
  generalize a0 * k.me * k.c ^ 2 * (2 * Real.pi / la) / k.e = A
  simp [Complex.exp_re]

/-- A pulse of wavelength 1.6 μm (or of phase π) is injected with the wavelength 0.8 μm and the phase 0: its electric field has
twice (respectively minus) the strength that is described. -/
theorem C83_violated_wavelength (k : LaserProf.Phys) (l : LaserDesc) (hf : l.focalZ = l.centroidZ)
    (hd : l.direction = (0, 0, 1)) (hpol : l.polar = (1, 0)) (hz : l.zeta = none) (hb : l.beta = none) (h2 : l.phi2 = none) :
    ∃ las las', addLaser k l = .ok las ∧ describedLaser k l = .ok las' ∧
      (l.wavelength = 1.6e-6 → l.phi0 = none →
        (las.field 0 0 l.centroidZ 0).1 = 2 * (las'.field 0 0 l.centroidZ 0).1) ∧
      (l.wavelength = 0.8e-6 → l.phi0 = some Real.pi →
        (las.field 0 0 l.centroidZ 0).1 = -(las'.field 0 0 l.centroidZ 0).1) ∧
      (las.field 0 0 l.centroidZ 0).1 = l.a0 * k.me * k.c ^ 2 * (2 * Real.pi / 0.8e-6) / k.e := by
  have hth : arctan2 l.polar.2 l.polar.1 = 0 := by
    rw [hpol]; simp [arctan2, show (⟨1, 0⟩ : ℂ) = 1 from rfl]
  obtain ⟨las, h1, -⟩ := pulse_ok (k := k) (a0 := l.a0) (w := l.waist) (tau := l.duration) (z0 := l.centroidZ) (zf := l.centroidZ)
    (th := 0) (la := 0.8e-6) (cep := 0) (phi2 := 0) (dir := 1) (Or.inr rfl)
  obtain ⟨las', h3, h4⟩ := pulse_ok (k := k) (a0 := l.a0) (w := l.waist) (tau := l.duration) (z0 := l.centroidZ) (zf := l.centroidZ)
    (th := 0) (la := l.wavelength) (cep := l.phi0.getD 0) (phi2 := 0) (dir := 1) (Or.inr rfl)
  have p1 := peak (Or.inr rfl) h1
  have p2 := peak (Or.inr rfl) h3
  refine ⟨las, las', ?_, ?_, ?_, ?_, ?_⟩
  · rw [addLaser, hth, ← h1]; simp [hf, hd, hz, hb, h2]
  · rw [describedLaser, hth, ← h3]; simp [hf, hd, h2]
  · intro hw hp
    rw [p1, p2, hw, hp, Option.getD_none]
    norm_num
    ring
  · intro hw hp
    rw [p1, p2, hw, hp, Option.getD_some]
    simp
  · rw [p1]; simp

/-- Non-vacuity: a pulse of wavelength 1.6 μm. -/
example : ∃ las las' : LaserProf.Laser,
    addLaser ⟨1, 1, 1, 1⟩ ⟨1.6e-6, 1, 1, 1, 0, 0, (0, 0, 1), (1, 0), none, none, none, none⟩ = .ok las ∧
    describedLaser ⟨1, 1, 1, 1⟩ ⟨1.6e-6, 1, 1, 1, 0, 0, (0, 0, 1), (1, 0), none, none, none, none⟩ = .ok las' ∧
    (las.field 0 0 0 0).1 = 2 * (las'.field 0 0 0 0).1 := by
  obtain ⟨las, las', h1, h2, h3, -, -⟩ := C83_violated_wavelength ⟨1, 1, 1, 1⟩
    ⟨1.6e-6, 1, 1, 1, 0, 0, (0, 0, 1), (1, 0), none, none, none, none⟩ rfl rfl rfl rfl rfl rfl
  exact ⟨las, las', h1, h2, h3 rfl rfl⟩

/-- Non-vacuity: a pulse of wavelength 0.8 μm moving forward. -/
example : ∃ las, addLaser ⟨1, 1, 1, 1⟩ ⟨0.8e-6, 1, 1, 1, 0, 0, (0, 0, 1), (0, 1), none, none, some 2, none⟩ = .ok las :=
  (C83_laser_partial _ _ rfl rfl rfl rfl rfl rfl (by norm_num)).2

/-! ### Species -/

/-- Charge and mass: those of the particle type or those given; an ion of charge state `Z` has the charge `Z e` and has lost
`Z` electrons. -/
theorem C83_charge (T : ParticleTable) (s : SpeciesDesc) (q m : ℝ) (h : chargeMass T s = .ok (q, m)) :
    (∀ t q0 m0, s.particleType = some t → T.charge t = some q0 → T.mass t = some m0 →
      (s.chargeState = none → q = q0 ∧ m = m0) ∧ ∀ Z, s.chargeState = some Z → q = Z * T.e ∧ m + Z * T.me = m0) ∧
    (s.particleType = none → (s.chargeState = none → q = s.charge ∧ m = s.mass) ∧
      ∀ Z, s.chargeState = some Z → q = Z * T.e ∧ m + Z * T.me = s.mass) := by
  constructor
  · intro t q0 m0 ht hq hm
    simp only [chargeMass, ht, hq, hm] at h
    cases hZ : s.chargeState with
    | none =>
      rw [hZ] at h; cases h
      exact ⟨fun _ => ⟨rfl, rfl⟩, by rintro _ ⟨⟩⟩
    | some Z =>
      rw [hZ] at h; cases h
      exact ⟨by rintro ⟨⟩, by rintro _ ⟨⟩; exact ⟨rfl, by ring⟩⟩
  · intro ht
    simp only [chargeMass, ht] at h
    cases hZ : s.chargeState with
    | none =>
      rw [hZ] at h; cases h
      exact ⟨fun _ => ⟨rfl, rfl⟩, by rintro _ ⟨⟩⟩
    | some Z =>
      rw [hZ] at h; cases h
      exact ⟨by rintro ⟨⟩, by rintro _ ⟨⟩; exact ⟨rfl, by ring⟩⟩

private theorem addGridded_ok {c : ℝ} {T : ParticleTable} {s : SpeciesDesc} {d : PlasmaDesc} {n : ℕ × ℕ × ℕ} {sf : Bool}
    {pl : Option ℝ} {p : PlasmaCall} (h : addGridded c T s d n sf pl = .ok p) :
    p.n = (match d.dist with | .uniform n => n | .analytic _ => s.densityScale.getD 1) ∧
    p.dens = (match d.dist with | .uniform _ => none | .analytic f => some f) ∧
    p.pNr = n.1 ∧ p.pNt = n.2.1 ∧ p.pNz = n.2.2 ∧ p.pZmin = d.zLower ∧ p.pZmax = d.zUpper ∧ p.pRmin = 0 ∧
    p.pRmax = d.rUpper ∧ p.uzTh = 0 ∧ chargeMass T s = .ok (p.q, p.m) ∧ p.continuous = d.fillIn ∧ p.selfField = sf ∧ p.plane = pl ∧
    ((sf = true ∨ pl.isSome = true) → p.uz = √((√(1 + (d.directedVz / c) ^ 2)) ^ 2 - 1)) ∧
    (¬ (sf = true ∨ pl.isSome = true) → p.uz = 0) := by
  unfold addGridded at h
  cases hq : chargeMass T s with
  | error e => rw [hq] at h; cases h
  | ok qm =>
    obtain ⟨q, m⟩ := qm
    rw [hq] at h
    simp only [bind, Except.bind, pure, Except.pure] at h
    by_cases hs : sf = true ∨ pl.isSome = true
    · rw [if_pos hs] at h
      by_cases hf : d.fillIn = true
      · rw [if_pos hf] at h; cases h
      · rw [if_neg hf] at h
        cases hd : d.dist <;> rw [hd] at h <;> cases h <;> simp_all
    · rw [if_neg hs] at h
      cases hd : d.dist <;> rw [hd] at h <;> cases h <;> simp_all

/-- A species on a gridded layout has the charge, mass, number of macroparticles per cell and longitudinal bounds that are
described; its density is the one described if it is given by an expression or if there is no `density_scale`; its mean momentum is
if it does not move backward and either is at rest or has its self-field initialized or is injected through a plane. -/
theorem C83_gridded_partial (c : ℝ) (T : ParticleTable) (s : SpeciesDesc) (d : PlasmaDesc) (nr nt nz : ℕ) (sf : Bool)
    (pl : Option ℝ) (p : PlasmaCall) (h : addGridded c T s d (nr, nt, nz) sf pl = .ok p) :
    chargeMass T s = .ok (p.q, p.m) ∧ p.pNr = nr ∧ p.pNt = nt ∧ p.pNz = nz ∧
    p.pZmin = d.zLower ∧ p.pZmax = d.zUpper ∧ p.pRmax = d.rUpper ∧ p.continuous = d.fillIn ∧
    ((∃ f, d.dist = .analytic f) ∨ s.densityScale = none → ∀ x y z, p.density x y z = describedDensity s d x y z) ∧
    (0 ≤ d.directedVz / c → d.directedVz = 0 ∨ sf = true ∨ pl.isSome = true → p.uz = d.directedVz / c) ∧
    (d.rLower.getD 0 = 0 → p.pRmin = d.rLower.getD 0) ∧ (d.rmsVz = 0 → p.uzTh = d.rmsVz) := by
  obtain ⟨h1, h2, h3, h4, h5, h6, h7, h8, h9, h10, h11, h12, h13, h14, h15, h16⟩ := addGridded_ok h
  refine ⟨h11, h3, h4, h5, h6, h7, h9, h12, ?_, ?_, fun hr => by rw [h8, hr], fun hr => by rw [h10, hr]⟩
  · intro hd x y z
    unfold PlasmaCall.density describedDensity
    rw [h1, h2]
    rcases hd with ⟨f, hf⟩ | hs
    · rw [hf]
    · rw [hs]
      cases d.dist <;> simp
  · intro h0 hv
    by_cases hs : sf = true ∨ pl.isSome = true
    · rw [h15 hs, Real.sq_sqrt (by positivity), show 1 + (d.directedVz / c) ^ 2 - 1 = (d.directedVz / c) ^ 2 by ring, Real.sqrt_sq h0]
    · rw [h16 hs]
      rcases hv with hv | hv
      · rw [hv]; simp
      · exact absurd hv hs

/-- The `density_scale` of a uniform species is ignored. -/
theorem C83_violated_density (c : ℝ) (T : ParticleTable) (s : SpeciesDesc) (d : PlasmaDesc) (n : ℕ × ℕ × ℕ) (sf : Bool)
    (pl : Option ℝ) (p : PlasmaCall) (h : addGridded c T s d n sf pl = .ok p) (n0 f : ℝ) (hn : n0 ≠ 0) (hd : d.dist = .uniform n0)
    (hs : s.densityScale = some f) (hf : f ≠ 1) : ∀ x y z, p.density x y z ≠ describedDensity s d x y z := by
  obtain ⟨h1, h2, -⟩ := addGridded_ok h
  intro x y z
  unfold PlasmaCall.density describedDensity
  rw [h1, h2, hd, hs]
  simp only [Option.getD_some]
  intro he
  exact hf (mul_right_cancel₀ hn (by rw [one_mul]; exact he.symm))

/-- A plasma described with a mean velocity is created at rest (unless its self-field is initialized); a thermal spread and an inner
radius are always ignored; a beam described to move backward moves forward. -/
theorem C83_violated_momentum (c : ℝ) (hc : 0 < c) (T : ParticleTable) (s : SpeciesDesc) (d : PlasmaDesc) (n : ℕ × ℕ × ℕ) (sf : Bool)
    (pl : Option ℝ) (p : PlasmaCall) (h : addGridded c T s d n sf pl = .ok p) :
    (sf = false → pl = none → d.directedVz ≠ 0 → p.uz = 0 ∧ p.uz ≠ d.directedVz / c) ∧
    (d.rmsVz ≠ 0 → p.uzTh ≠ d.rmsVz / c) ∧ (∀ r, d.rLower = some r → r ≠ 0 → p.pRmin ≠ r) ∧
    (sf = true → d.directedVz < 0 → 0 < p.uz ∧ p.uz = -(d.directedVz / c)) := by
  obtain ⟨-, -, -, -, -, -, -, h8, -, h10, -, -, -, -, h15, h16⟩ := addGridded_ok h
  refine ⟨?_, ?_, ?_, ?_⟩
  · rintro rfl rfl hv
    rw [h16 (by simp)]
    exact ⟨rfl, fun h => hv ((div_eq_zero_iff.1 h.symm).resolve_right hc.ne')⟩
  · intro hr
    rw [h10]
    exact fun h => hr ((div_eq_zero_iff.1 h.symm).resolve_right hc.ne')
  · intro r _ hr
    rw [h8]; exact hr.symm
  · intro hs hv
    have h0 : 0 < -(d.directedVz / c) := by rw [neg_pos]; exact div_neg_of_neg_of_pos hv hc
    have : p.uz = -(d.directedVz / c) := by
      rw [h15 (Or.inl hs), Real.sq_sqrt (by positivity), show 1 + (d.directedVz / c) ^ 2 - 1 = (-(d.directedVz / c)) ^ 2 by ring,
        Real.sqrt_sq h0.le]
    exact ⟨this ▸ h0, this⟩

/-- Non-vacuity of the above: doubly ionized species of uniform density with a scale, drifting. -/
example : ∃ p, addGridded 1 ⟨1, 1, fun _ => some 0, fun _ => some 100⟩ { particleType := some "N", chargeState := some 2, densityScale := some 3 }
    { dist := .uniform 5, directedVz := -4 } (2, 4, 2) true none = .ok p ∧ p.q = 2 ∧ p.m = 98 ∧ p.density 0 0 0 = 5 := by
  refine ⟨_, rfl, ?_, ?_, rfl⟩ <;> norm_num

/-! ### Gaussian bunch -/

/-- A Gaussian bunch: transverse RMS size, RMS velocity and correlation of position and velocity (the divergence times the square
of the size) are the ones described, where the mean is taken over the random draws. There is no spread of the longitudinal
velocity, and the RMS velocity is larger than the one due to the divergence alone. -/
theorem C83_bunch_moments (c : ℝ) (hc : 0 < c) (s : SpeciesDesc) (d : GaussDesc) (N : ℕ) (w : ℝ) (hr : 0 < d.sizeR)
    (hz : d.rmsVz = 0) (hv : d.sizeR * |d.divergence| < d.rmsVr / √(1 + (d.centroidVz / c) ^ 2) ∨ d.rmsVr = 0 ∧ d.divergence = 0)
    (E : (Bunch.Draw → ℝ) →ₗ[ℝ] ℝ) (hE : StandardDraws E) :
    let P : Bunch.Draw → Bunch.In := fun x => Bunch.propagate c (addGauss c s d N) w (Bunch.drawOne (addGauss c s d N) x)
    let v : Bunch.Draw → ℝ := fun x => c * (P x).ux / √(1 + (d.centroidVz / c) ^ 2)
    E (fun x => (P x).x) = 0 ∧ E (fun x => (P x).x ^ 2) = d.sizeR ^ 2 ∧
    E (fun x => c ^ 2 * (P x).ux ^ 2) = d.rmsVr ^ 2 ∧ E (fun x => (P x).x * v x) = d.divergence * d.sizeR ^ 2 ∧
    (∀ x, 0 ≤ Bunch.uzSqr (Bunch.drawOne (addGauss c s d N) x) → velocityX c (P x) = v x) := by
  intro P v
  set G := √(1 + (d.centroidVz / c) ^ 2) with hG
  have hG0 : 0 < G := Real.sqrt_pos.2 (by positivity)
  set sv := d.rmsVr / G with hsv
  set a := addGauss c s d N with ha
  have hsg : a.sigGamma = 0 := by simp [ha, addGauss, hz]
  have hg0 : a.gamma0 = G := rfl
  -- the position and the velocity as functions of the draws
  have hsig : (a.sigR ≠ 0) ∧ a.sigR ^ 2 + (sv * a.tf) ^ 2 = d.sizeR ^ 2 ∧ -(sv ^ 2 * a.tf) = d.divergence * d.sizeR ^ 2 := by
    by_cases h0 : sv = 0
    · have htf : a.tf = 0 := by simp only [ha, addGauss]; exact if_neg (not_not.2 h0)
      have hsr : a.sigR = d.sizeR := by
        change √(d.sizeR ^ 2 - (sv * a.tf) ^ 2) = _
        rw [h0]; simp [Real.sqrt_sq hr.le]
      have hdiv : d.divergence = 0 := by
        rcases hv with hv | hv
        · exfalso
          rw [h0] at hv
          exact absurd hv (not_lt.2 (by positivity))
        · exact hv.2
      rw [hsr, h0, hdiv]
      exact ⟨hr.ne', by ring, by ring⟩
    · have htf : a.tf = -(d.sizeR ^ 2) / sv ^ 2 * d.divergence := by
        simp only [ha, addGauss]; exact if_pos h0
      have hlt : d.sizeR * |d.divergence| < sv := by
        rcases hv with hv | hv
        · exact hv
        · exact absurd (by rw [hsv, hv.1, zero_div]) h0
      have hpos : 0 < d.sizeR ^ 2 - (sv * a.tf) ^ 2 := by
        have h1 : (d.sizeR * |d.divergence|) ^ 2 < sv ^ 2 := pow_lt_pow_left₀ hlt (by positivity) (by norm_num)
        rw [mul_pow, sq_abs] at h1
        have hsv2 : 0 < sv ^ 2 := by positivity
        have : d.sizeR ^ 2 - (sv * a.tf) ^ 2 = d.sizeR ^ 2 / sv ^ 2 * (sv ^ 2 - d.sizeR ^ 2 * d.divergence ^ 2) := by
          rw [htf]; field_simp
        rw [this]
        exact mul_pos (by positivity) (by linarith)
      have hsr : a.sigR = √(d.sizeR ^ 2 - (sv * a.tf) ^ 2) := rfl
      refine ⟨?_, ?_, ?_⟩
      · rw [hsr]; exact (Real.sqrt_pos.2 hpos).ne'
      · rw [hsr, Real.sq_sqrt hpos.le]; ring
      · rw [htf]; field_simp
  obtain ⟨hR0, hR, hC⟩ := hsig
  have hem : a.nEmit / a.sigR = G * sv / c := by
    change G * a.sigR * sv / c / a.sigR = _
    field_simp
  have hux : ∀ x, (P x).ux = G * sv / c * x.ux := by
    intro x
    change (Bunch.propagate c a w (Bunch.drawOne a x)).ux = _
    unfold Bunch.propagate
    split_ifs <;> simp only [Bunch.drawOne, hem]
  have hx : ∀ x, (P x).x = a.sigR * x.x - sv * a.tf * x.ux := by
    intro x
    change (Bunch.propagate c a w (Bunch.drawOne a x)).x = _
    unfold Bunch.propagate
    split_ifs with h
    · simp only [Bunch.drawOne, hem, hsg, hg0, gt_iff_lt, lt_self_iff_false, if_false]
      field_simp
    · simp only [not_not] at h
      simp only [Bunch.drawOne, h]; ring
  have hvx : ∀ x, v x = sv * x.ux := by
    intro x
    change c * (P x).ux / G = _
    rw [hux]; field_simp
  have lin : ∀ (p q r : ℝ) (f g h : Bunch.Draw → ℝ), E (fun x => p * f x + q * g x + r * h x) = p * E f + q * E g + r * E h := by
    intro p q r f g h
    have : (fun x => p * f x + q * g x + r * h x) = p • f + q • g + r • h := rfl
    rw [this]; simp
  refine ⟨?_, ?_, ?_, ?_, ?_⟩
  · have : (fun x => (P x).x) = fun x : Bunch.Draw => a.sigR * x.x + -(sv * a.tf) * x.ux + 0 * x.x := by
      funext x; rw [hx]; ring
    rw [this, lin, hE.mean_x, hE.mean_ux]; ring
  · have : (fun x => (P x).x ^ 2) = fun x : Bunch.Draw => a.sigR ^ 2 * x.x ^ 2 + (sv * a.tf) ^ 2 * x.ux ^ 2
        + -(2 * a.sigR * (sv * a.tf)) * (x.x * x.ux) := by
      funext x; rw [hx]; ring
    rw [this, lin (a.sigR ^ 2) ((sv * a.tf) ^ 2) _ (fun x => x.x ^ 2) (fun x => x.ux ^ 2) (fun x => x.x * x.ux), hE.var_x, hE.var_ux,
      hE.cov, ← hR]
    ring
  · have : (fun x => c ^ 2 * (P x).ux ^ 2) = fun x : Bunch.Draw => d.rmsVr ^ 2 * x.ux ^ 2 + 0 * x.x + 0 * x.x := by
      funext x; rw [hux, hsv]; field_simp; ring
    rw [this, lin (d.rmsVr ^ 2) 0 0 (fun x => x.ux ^ 2) (fun x => x.x) (fun x => x.x), hE.var_ux]; ring
  · have : (fun x => (P x).x * v x) = fun x : Bunch.Draw => -(sv ^ 2 * a.tf) * x.ux ^ 2 + a.sigR * sv * (x.x * x.ux) + 0 * x.x := by
      funext x; rw [hx, hvx]; ring
    rw [this, lin (-(sv ^ 2 * a.tf)) (a.sigR * sv) 0 (fun x => x.ux ^ 2) (fun x => x.x * x.ux) (fun x => x.x), hE.var_ux, hE.cov, hC]
    ring
  · intro x hpos
    have huy : (P x).uy = (Bunch.drawOne a x).uy ∧ (P x).uz = √(Bunch.uzSqr (Bunch.drawOne a x)) ∧ (P x).ux = (Bunch.drawOne a x).ux := by
      change (Bunch.propagate c a w (Bunch.drawOne a x)).uy = _ ∧ (Bunch.propagate c a w (Bunch.drawOne a x)).uz = _ ∧
        (Bunch.propagate c a w (Bunch.drawOne a x)).ux = _
      unfold Bunch.propagate
      split_ifs <;> exact ⟨rfl, rfl, rfl⟩
    change c * (P x).ux / √_ = c * (P x).ux / G
    congr 1
    rw [huy.1, huy.2.1, huy.2.2, Real.sq_sqrt hpos]
    have : (Bunch.drawOne a x).gamma = G := by simp [Bunch.drawOne, hsg, hg0]
    rw [Bunch.uzSqr, this]
    rw [show 1 + (Bunch.drawOne a x).ux ^ 2 + (Bunch.drawOne a x).uy ^ 2 + (G ^ 2 - 1 - (Bunch.drawOne a x).ux ^ 2 - (Bunch.drawOne a x).uy ^ 2)
      = G ^ 2 by ring, Real.sqrt_sq hG0.le]

/-- The mean value over the four draws `±1` of position and momentum. -/
noncomputable def exMean : (Bunch.Draw → ℝ) →ₗ[ℝ] ℝ where
  toFun f := (f ⟨0, 1, 0, 0, 1, 0⟩ + f ⟨0, 1, 0, 0, -1, 0⟩ + f ⟨0, -1, 0, 0, 1, 0⟩ + f ⟨0, -1, 0, 0, -1, 0⟩) / 4
  map_add' f g := by simp only [Pi.add_apply]; ring
  map_smul' r f := by simp only [Pi.smul_apply, smul_eq_mul, RingHom.id_apply]; ring

/-- Non-vacuity of `C83_bunch_moments`: a diverging bunch. -/
example : StandardDraws exMean ∧ (3 : ℝ) * |1 / 10| < 10 / √(1 + ((3 : ℝ) / 1) ^ 2) := by
  refine ⟨⟨?_, ?_, ?_, ?_, ?_⟩, ?_⟩
  · simp only [exMean, LinearMap.coe_mk, AddHom.coe_mk]; norm_num
  · simp only [exMean, LinearMap.coe_mk, AddHom.coe_mk]; norm_num
  · simp only [exMean, LinearMap.coe_mk, AddHom.coe_mk]; norm_num
  · simp only [exMean, LinearMap.coe_mk, AddHom.coe_mk]; norm_num
  · simp only [exMean, LinearMap.coe_mk, AddHom.coe_mk]; norm_num
  · rw [lt_div_iff₀ (by positivity)]
    have : √(1 + ((3 : ℝ) / 1) ^ 2) < 4 := by
      rw [Real.sqrt_lt' (by norm_num)]; norm_num
    rw [abs_of_pos (by norm_num)]
    nlinarith

private theorem center (c : ℝ) (hc : 0 < c) (s : SpeciesDesc) (d : GaussDesc) (N : ℕ) (w : ℝ) :
    let p := Bunch.propagate c (addGauss c s d N) w (Bunch.drawOne (addGauss c s d N) ⟨0, 0, 0, 0, 0, 0⟩)
    p.x = 0 ∧ p.y = 0 ∧ p.ux = 0 ∧ p.uy = 0 ∧ p.uz = |d.centroidVz| / c ∧
    p.z = d.centroidZ + (d.centroidVz - |d.centroidVz|) / √(1 + (d.centroidVz / c) ^ 2) * (addGauss c s d N).tf := by
  intro p
  set G := √(1 + (d.centroidVz / c) ^ 2) with hG
  have hG0 : 0 < G := Real.sqrt_pos.2 (by positivity)
  set a := addGauss c s d N with ha
  have hgam : (Bunch.drawOne a ⟨0, 0, 0, 0, 0, 0⟩).gamma = G := by
    have : a.gamma0 = G := rfl
    simp [Bunch.drawOne, this]
  have hu : √(Bunch.uzSqr (Bunch.drawOne a ⟨0, 0, 0, 0, 0, 0⟩)) = |d.centroidVz| / c := by
    rw [Bunch.uzSqr, hgam, hG, Real.sq_sqrt (by positivity)]
    simp only [Bunch.drawOne, mul_zero]
    rw [show 1 + (d.centroidVz / c) ^ 2 - 1 - 0 ^ 2 - 0 ^ 2 = (d.centroidVz / c) ^ 2 by ring, Real.sqrt_sq_eq_abs, abs_div, abs_of_pos hc]
  have hzf : a.zf = d.centroidZ + d.centroidVz / G * a.tf := rfl
  change (Bunch.propagate c a w _).x = 0 ∧ (Bunch.propagate c a w _).y = 0 ∧ (Bunch.propagate c a w _).ux = 0 ∧
    (Bunch.propagate c a w _).uy = 0 ∧ (Bunch.propagate c a w _).uz = _ ∧ (Bunch.propagate c a w _).z = _
  unfold Bunch.propagate
  rw [hu, hgam]
  split_ifs with h
  · refine ⟨by simp [Bunch.drawOne], by simp [Bunch.drawOne], by simp [Bunch.drawOne], by simp [Bunch.drawOne], rfl, ?_⟩
    simp only [Bunch.drawOne, mul_zero, add_zero]
    rw [show (addGauss c s d N).zf = a.zf from rfl, hzf]
    field_simp
    ring
  · simp only [not_not] at h
    refine ⟨by simp [Bunch.drawOne], by simp [Bunch.drawOne], by simp [Bunch.drawOne], by simp [Bunch.drawOne], rfl, ?_⟩
    simp only [Bunch.drawOne, mul_zero, add_zero]
    rw [show (addGauss c s d N).zf = a.zf from rfl, hzf, h]
    ring

/-- The particle at the center of a bunch described to move forward (or at rest) starts at the centroid, with the velocity of
the centroid; the bunch stands for the number of particles described, times the `density_scale`. -/
theorem C83_bunch_centroid_partial (c : ℝ) (hc : 0 < c) (s : SpeciesDesc) (d : GaussDesc) (N : ℕ) (w : ℝ) (hv : 0 ≤ d.centroidVz) :
    let p := Bunch.propagate c (addGauss c s d N) w (Bunch.drawOne (addGauss c s d N) ⟨0, 0, 0, 0, 0, 0⟩)
    p.x = 0 ∧ p.y = 0 ∧ p.z = d.centroidZ ∧ p.ux = 0 ∧ p.uy = 0 ∧ c * p.uz = d.centroidVz ∧
    (addGauss c s d N).nPhys = s.densityScale.getD 1 * d.nPhys ∧ (addGauss c s d N).sigZ = d.sizeZ ∧ (addGauss c s d N).N = N := by
  intro p
  obtain ⟨h1, h2, h3, h4, h5, h6⟩ := center c hc s d N w
  refine ⟨h1, h2, ?_, h3, h4, ?_, mul_comm _ _, rfl, rfl⟩
  · change p.z = _; rw [h6, abs_of_nonneg hv]; ring
  · change c * p.uz = _; rw [h5, abs_of_nonneg hv]; field_simp

/-- A bunch described to move backward moves forward. -/
theorem C83_violated_backward (c : ℝ) (hc : 0 < c) (s : SpeciesDesc) (d : GaussDesc) (N : ℕ) (w : ℝ) (hv : d.centroidVz < 0) :
    let p := Bunch.propagate c (addGauss c s d N) w (Bunch.drawOne (addGauss c s d N) ⟨0, 0, 0, 0, 0, 0⟩)
    0 < p.uz ∧ c * p.uz = -d.centroidVz := by
  intro p
  obtain ⟨h1, h2, h3, h4, h5, h6⟩ := center c hc s d N w
  have : p.uz = -d.centroidVz / c := by rw [← abs_of_neg hv]; exact h5
  exact ⟨this ▸ div_pos (by linarith) hc, by rw [this]; field_simp⟩

/-- Non-vacuity of `C83_violated_backward`. -/
example : (⟨1, 1, 1, 0, 0, 5, -3, 0⟩ : GaussDesc).centroidVz < 0 := by norm_num

/-! ### Ionization -/

private theorem mapM_get (l : List String) (n : ℕ) :
    (n ≤ l.length → (List.range n).mapM (attrAt l) = .ok (l.take n)) ∧
    (l.length < n → (List.range n).mapM (attrAt l) = .error (.indexError "list index out of range")) := by
  induction n with
  | zero => exact ⟨fun _ => by simp; rfl, fun h => absurd h (Nat.not_lt_zero _)⟩
  | succ n ih =>
    rw [List.range_succ, List.mapM_append]
    constructor
    · intro h
      rw [ih.1 (by omega)]
      simp only [List.mapM_cons, List.mapM_nil, attrAt, List.getElem?_eq_getElem (show n < l.length by omega)]
      change Except.ok (l.take n ++ [l[n]]) = _
      rw [List.take_append_getElem]
    · intro h
      by_cases hn : l.length < n
      · rw [ih.2 hn]; rfl
      · rw [ih.1 (by omega)]
        simp only [List.mapM_cons, List.mapM_nil, attrAt, List.getElem?_eq_none (show l.length ≤ n by omega)]
        rfl

private theorem pack_ok (p : Particles) (hf : p.nFloat = if p.ionizer.isSome then 9 else 8)
    (hi : p.nInt = (if p.tracked then 1 else 0) + if p.ionizer.isSome then 1 else 0) :
    p.packGpu = .ok (["x", "y", "z", "ux", "uy", "uz", "inv_gamma", "w"] ++ (if p.ionizer.isSome then ["w_times_level"] else []),
      (if p.tracked then ["id"] else []) ++ (if p.ionizer.isSome then ["ionization_level"] else [])) := by
  unfold Particles.packGpu
  simp only []
  rw [(mapM_get _ _).1 (by rw [hf]; split_ifs <;> simp), hf]
  simp only [bind, Except.bind]
  rw [(mapM_get _ _).1 (by rw [hi]; split_ifs <;> simp), hi]
  split_ifs <;> rfl

private theorem pack_err (p : Particles) (hf : (if p.ionizer.isSome then 9 else 8) < p.nFloat ∨
      (if p.tracked then 1 else 0) + (if p.ionizer.isSome then 1 else 0) < p.nInt) :
    p.packGpu = .error (.indexError "list index out of range") := by
  unfold Particles.packGpu
  simp only []
  by_cases h : (if p.ionizer.isSome then 9 else 8) < p.nFloat
  · rw [(mapM_get _ _).2 (by split_ifs at h ⊢ <;> simpa using h)]; rfl
  · rw [(mapM_get _ _).1 (by split_ifs at h ⊢ <;> simpa using h)]
    simp only [bind, Except.bind]
    rw [(mapM_get _ _).2 (by have := hf.resolve_left h; split_ifs at this ⊢ <;> simpa using this)]

/-- On GPU, the attributes of the particles can be packed for the exchange between subdomains exactly if ionization was activated at
most once and tracking at most once; then all the attributes are packed. -/
theorem C83_gpu_pack (n k l : ℕ) :
    (n ≤ 1 ∧ k ≤ 1 → ((Particles.track^[n]) (((·.makeIonizable l))^[k] {})).packGpu = .ok
      (["x", "y", "z", "ux", "uy", "uz", "inv_gamma", "w"] ++ (if k = 1 then ["w_times_level"] else []),
        (if n = 1 then ["id"] else []) ++ (if k = 1 then ["ionization_level"] else []))) ∧
    (¬ (n ≤ 1 ∧ k ≤ 1) → ((Particles.track^[n]) (((·.makeIonizable l))^[k] {})).packGpu = .error (.indexError "list index out of range")) := by
  have hk : ∀ k, ((·.makeIonizable l))^[k] ({} : Particles) = ⟨8 + k, k, false, if k = 0 then none else some l⟩ := by
    intro k
    induction k with
    | zero => rfl
    | succ k ih => rw [Function.iterate_succ_apply', ih]; simp [Particles.makeIonizable]; omega
  have hn : ∀ n, (Particles.track^[n]) (((·.makeIonizable l))^[k] {}) = ⟨8 + k, k + n, !(n == 0), if k = 0 then none else some l⟩ := by
    intro n
    induction n with
    | zero => rw [Function.iterate_zero_apply, hk]; simp
    | succ n ih => rw [Function.iterate_succ_apply', ih]; simp [Particles.track]; omega
  rw [hn]
  constructor
  · rintro ⟨h1, h2⟩
    interval_cases n <;> interval_cases k <;> rw [pack_ok _ (by simp) (by simp)] <;> rfl
  · intro h
    refine pack_err _ ?_
    rcases Nat.eq_zero_or_pos k with rfl | hk
    · rcases Nat.eq_zero_or_pos n with rfl | hn
      · simp at h
      · right; simp [hn.ne']; omega
    · rcases Nat.eq_zero_or_pos n with rfl | hn
      · left; simp [hk.ne']; omega
      · simp [hk.ne', hn.ne']; omega

/-- If the product species is added first, then the interaction is registered, then the ionized species is added (last of
all), the ionized species is ionizable, from the level described, and its attributes can be exchanged on GPU. -/
theorem C83_ionization_partial (s : IonSim) (i : Ionization) (h : s.interactions = []) (ht : (s.fbpic i.target).isSome)
    (hne : i.target ≠ i.source) : ∃ s' p, (s.addInteraction i).addSpecies i.source = .ok s' ∧ s'.fbpic i.source = some p ∧
      p.ionizer = some i.levelStart ∧
      p.packGpu = .ok (["x", "y", "z", "ux", "uy", "uz", "inv_gamma", "w", "w_times_level"], ["ionization_level"]) := by
  obtain ⟨t, ht⟩ := Option.isSome_iff_exists.1 ht
  refine ⟨{ (s.addInteraction i) with
      fbpic := Function.update (Function.update s.fbpic i.source (some {})) i.source (some (({} : Particles).makeIonizable i.levelStart)) },
    ({} : Particles).makeIonizable i.levelStart, ?_, ?_, rfl, pack_ok _ rfl rfl⟩
  · simp only [IonSim.addSpecies, IonSim.addInteraction, h, List.nil_append, List.foldlM_cons, List.foldlM_nil, IonSim.interact,
      Function.update_of_ne hne, ht, Function.update_self]
    rfl
  · simp

/-- After that, adding any further species makes the exchange of the ionizable particles fail on GPU. -/
theorem C83_violated_ionization (s : IonSim) (i : Ionization) (h : s.interactions = []) (ht : (s.fbpic i.target).isSome)
    (hne : i.target ≠ i.source) (k : ℕ) (hk : k ≠ i.source) : ∃ s' s'' p, (s.addInteraction i).addSpecies i.source = .ok s' ∧
      s'.addSpecies k = .ok s'' ∧ s''.fbpic i.source = some p ∧ p.packGpu = .error (.indexError "list index out of range") := by
  obtain ⟨t, ht⟩ := Option.isSome_iff_exists.1 ht
  set f1 := Function.update (Function.update s.fbpic i.source (some {})) i.source (some (({} : Particles).makeIonizable i.levelStart)) with hf1
  have ht1 : ∃ t', Function.update f1 k (some {}) i.target = some t' := by
    by_cases hkt : i.target = k
    · rw [hkt, Function.update_self]; exact ⟨_, rfl⟩
    · rw [Function.update_of_ne hkt, hf1, Function.update_of_ne hne, Function.update_of_ne hne, ht]; exact ⟨_, rfl⟩
  obtain ⟨t', ht'⟩ := ht1
  have hs1 : Function.update f1 k (some {}) i.source = some (({} : Particles).makeIonizable i.levelStart) := by
    rw [Function.update_of_ne hk.symm, hf1, Function.update_self]
  refine ⟨{ (s.addInteraction i) with fbpic := f1 }, { (s.addInteraction i) with
    fbpic := Function.update (Function.update f1 k (some {})) i.source
      (some ((({} : Particles).makeIonizable i.levelStart).makeIonizable i.levelStart)) },
    (({} : Particles).makeIonizable i.levelStart).makeIonizable i.levelStart, ?_, ?_, by simp, ?_⟩
  · simp only [IonSim.addSpecies, IonSim.addInteraction, h, List.nil_append, List.foldlM_cons, List.foldlM_nil, IonSim.interact,
      Function.update_of_ne hne, ht, Function.update_self]
    rfl
  · simp only [IonSim.addSpecies, IonSim.addInteraction, h, List.nil_append, List.foldlM_cons, List.foldlM_nil, IonSim.interact, ht', hs1]
    rfl
  · exact pack_err _ (Or.inl (by simp [Particles.makeIonizable]))

/-- An interaction registered after all the species has no effect; one that is registered before them makes the addition of the
product species fail. -/
theorem C83_violated_order (i : Ionization) (hne : i.target ≠ i.source) :
    (∃ s1 s2, ({} : IonSim).addSpecies i.target = .ok s1 ∧ s1.addSpecies i.source = .ok s2 ∧
      ∃ p, (s2.addInteraction i).fbpic i.source = some p ∧ p.ionizer = none) ∧
    (({} : IonSim).addInteraction i).addSpecies i.target = .error (.attributeError "fbpic_species") := by
  refine ⟨⟨_, _, rfl, rfl, ({} : Particles), ?_, rfl⟩, ?_⟩
  · simp [IonSim.addInteraction]
  · simp only [IonSim.addSpecies, IonSim.addInteraction, List.nil_append, List.foldlM_cons, List.foldlM_nil, IonSim.interact,
      Function.update_self, Function.update_of_ne hne.symm]
    rfl

/-- Non-vacuity of the hypotheses: electrons (0) added first, nitrogen (1) ionized from level 2. -/
example : ∃ s, ({} : IonSim).addSpecies 0 = .ok s ∧ s.interactions = [] ∧ (s.fbpic (⟨1, 0, 2⟩ : Ionization).target).isSome :=
  ⟨_, rfl, rfl, by simp⟩

/-! ### Diagnostics -/

private theorem fieldName_spec (f d : String) : fieldName d = some f ↔ requested f d := by
  unfold fieldName
  constructor
  · intro h
    split_ifs at h with h1 h2 h3 h4 <;> cases h <;> simp_all [requested] <;> tauto
  · intro h
    unfold requested at h
    split at h
    · rcases h with rfl | rfl | rfl | rfl <;> decide
    · rcases h with rfl | rfl | rfl | rfl <;> decide
    · rcases h with rfl | rfl | rfl | rfl <;> decide
    · subst h; decide
    · exact h.elim

/-- Field diagnostics: the fields written are those requested, each once, all of them known to the diagnostic, and in an order that does not
depend on the order in which Python runs through a set, so that all MPI ranks agree. -/
theorem C83_fields (o o' : List String → List String) (ho : ∀ l, (o l).Perm l) (ho' : ∀ l, (o' l).Perm l) (l : List String) :
    fieldTypes o (some l) = fieldTypes o' (some l) ∧ (fieldTypes o (some l)).Nodup ∧
    (∀ f, f ∈ fieldTypes o (some l) ↔ ∃ d ∈ l, requested f d) ∧
    ∀ f ∈ fieldTypes o (some l), ∃ ps, FieldDiag.createPaths (fieldTypeOf f) = .ok ps := by
  have hp : ∀ o : List String → List String, (∀ l, (o l).Perm l) → (fieldTypes o (some l)).Perm (l.filterMap fieldName).dedup := by
    intro o ho
    exact (List.mergeSort_perm _ _).trans (ho _)
  have hm : ∀ f, f ∈ fieldTypes o (some l) ↔ ∃ d ∈ l, requested f d := by
    intro f
    rw [(hp o ho).mem_iff, List.mem_dedup, List.mem_filterMap]
    simp only [fieldName_spec]
  have hsort : ∀ o : List String → List String, (fieldTypes o (some l)).Pairwise (· ≤ ·) := by
    intro o
    have := List.pairwise_mergeSort (le := fun a b : String => decide (a ≤ b)) (fun a b c h1 h2 => by
      simp only [decide_eq_true_eq] at *; exact le_trans h1 h2) (fun a b => by
      simp only [Bool.or_eq_true, decide_eq_true_eq]; exact le_total a b) (o (l.filterMap fieldName).dedup)
    simpa [fieldTypes] using this
  refine ⟨?_, ?_, hm, ?_⟩
  · exact List.Perm.eq_of_pairwise' (hsort o) (hsort o') ((hp o ho).trans (hp o' ho').symm)
  · exact (hp o ho).nodup_iff.2 (List.nodup_dedup _)
  · intro f hf
    obtain ⟨d, -, hd⟩ := (hm f).1 hf
    unfold requested at hd
    split at hd
    · exact ⟨_, rfl⟩
    · exact ⟨_, rfl⟩
    · exact ⟨_, rfl⟩
    · exact ⟨_, rfl⟩
    · exact hd.elim

/-- Non-vacuity of `C83_fields`: two ranks that run through the set in opposite orders. -/
example : fieldTypes id (some ["Ez", "rho", "Ex", "By"]) = fieldTypes List.reverse (some ["Ez", "rho", "Ex", "By"]) :=
  (C83_fields id List.reverse (fun _ => List.Perm.refl _) List.reverse_perm _).1

/-- A lab-frame field diagnostic is created exactly if a list of fields is given, in which components are not named. -/
theorem C83_lab_fields_partial (dl : Option (List String)) :
    (∃ ps, labFieldTypes dl = .ok ps) ↔ ∃ l, dl = some l ∧ ∀ d ∈ l, d ∈ ["rho", "E", "B", "J"] := by
  have hone : ∀ d, (∃ ps, FieldDiag.createPaths (fieldTypeOf d) = .ok ps) ↔ d ∈ ["rho", "E", "B", "J"] := by
    intro d
    unfold fieldTypeOf
    split
    · simp [FieldDiag.createPaths]
    · simp [FieldDiag.createPaths]
    · simp [FieldDiag.createPaths]
    · simp [FieldDiag.createPaths]
    · simp_all [FieldDiag.createPaths]
  cases dl with
  | none => simp [labFieldTypes]
  | some l =>
    simp only [labFieldTypes, Option.some.injEq, exists_eq_left']
    induction l with
    | nil => simp [pure, Except.pure]
    | cons d l ih =>
      rw [List.mapM_cons]
      simp only [List.forall_mem_cons]
      refine Iff.trans ?_ (and_congr (hone d) ih)
      cases FieldDiag.createPaths (fieldTypeOf d) with
      | error e => simp [bind, Except.bind]
      | ok ps =>
        cases l.mapM (fun s => FieldDiag.createPaths (fieldTypeOf s)) with
        | error e => simp [bind, Except.bind]
        | ok qs => simp [bind, Except.bind, pure, Except.pure]

/-- A lab-frame field diagnostic without a list of fields, or with components, fails, whereas the regular diagnostic accepts both. -/
theorem C83_violated_lab : (¬ ∃ ps, labFieldTypes none = .ok ps) ∧ (¬ ∃ ps, labFieldTypes (some ["Ex"]) = .ok ps) ∧
    fieldTypes id none = ["rho", "E", "B", "J"] ∧ fieldTypes id (some ["Ex"]) = ["E"] := by
  rw [C83_lab_fields_partial, C83_lab_fields_partial]
  exact ⟨by simp, by simp, rfl, by simp [fieldTypes, fieldName]⟩

/-! ### Applied fields -/

private theorem apply_const (c : ℝ) (l : List (ExternalField.Comp × ℝ)) (P : ExternalField.Part) (t : ℝ) :
    ∃ es, (l.map fun kv => (nameOf kv.1, kv.2)).mapM (fun fv : String × ℝ =>
        ExternalField.make c (fun F _ _ _ _ amplitude _ => F + amplitude * fv.2) fv.1 1 0 none none) = .ok es ∧
      ∃ P', ExternalField.applyAll es [⟨0, [P]⟩] t = [⟨0, [P']⟩] ∧
        ∀ k, P'.F k = P.F k + ((l.filter fun kv => kv.1 = k).map fun kv => kv.2).sum := by
  induction l generalizing P with
  | nil => exact ⟨[], rfl, P, rfl, fun k => by simp⟩
  | cons kv l ih =>
    obtain ⟨k0, v⟩ := kv
    have hm : ∃ e, ExternalField.make c (fun F _ _ _ _ amplitude _ => F + amplitude * v) (nameOf k0) 1 0 none none = .ok e :=
      (C50_error _ _ _ _ _ _ _).2 ⟨k0, rfl⟩
    obtain ⟨e, he⟩ := hm
    have hap := C50_lab c _ k0 1 0 none none (Or.inl rfl) e he [⟨0, [P]⟩] t
    simp only [List.map_cons, List.map_nil, true_or, if_true] at hap
    obtain ⟨es, hes, P', hP', hF⟩ := ih { P with F := fun k' => if k' = k0 then P.F k0 + 1 * v else P.F k' }
    refine ⟨e :: es, ?_, P', ?_, ?_⟩
    · rw [List.map_cons, List.mapM_cons, he, hes]; rfl
    · simp only [ExternalField.applyAll, List.foldl_cons]
      rw [hap]
      exact hP'
    · intro k
      rw [hF]
      by_cases hk : k0 = k
      · subst hk; simp; ring
      · simp [hk, Ne.symm hk]

/-- In the lab frame, the constant fields that are described act on the particles, and no others. -/
theorem C83_applied_constant_partial (c : ℝ) (value : String → Option ℝ) :
    ∃ es, addConstantField c value = .ok es ∧ ∀ x y z t k, addedField es x y z t k = (value (nameOf k)).getD 0 := by
  have hl : (fieldNames.filterMap fun f => (value f).map fun v => (f, v)) =
      ([ExternalField.Comp.Ex, .Ey, .Ez, .Bx, .By, .Bz].filterMap fun k => (value (nameOf k)).map fun v => (k, v)).map
        fun kv => (nameOf kv.1, kv.2) := by
    rw [List.map_filterMap]
    simp only [fieldNames, List.filterMap_cons, List.filterMap_nil, nameOf, Option.map_map, Function.comp_def]
  set l := [ExternalField.Comp.Ex, .Ey, .Ez, .Bx, .By, .Bz].filterMap fun k => (value (nameOf k)).map fun v => (k, v) with hld
  obtain ⟨es, hes, -⟩ := apply_const c l ⟨0, 0, 0, fun _ => 0⟩ 0
  refine ⟨es, ?_, ?_⟩
  · rw [addConstantField, hl]; exact hes
  · intro x y z t k
    obtain ⟨es', hes', P', hP', hF⟩ := apply_const c l ⟨x, y, z, fun _ => 0⟩ t
    rw [hes] at hes'
    injection hes' with hes'
    subst hes'
    unfold addedField
    rw [hP']
    simp only [List.map_cons, List.map_nil, List.sum_cons, List.sum_nil, add_zero, hF, zero_add]
    rw [hld]
    generalize hv : (fun k => value (nameOf k)) = V
    have hV : ∀ k, value (nameOf k) = V k := fun k => by rw [← hv]
    simp only [hV]
    clear hv hV hF hP' hes hl hld
    cases h1 : V .Ex <;> cases h2 : V .Ey <;> cases h3 : V .Ez <;> cases h4 : V .Bx <;> cases h5 : V .By <;> cases h6 : V .Bz <;>
      cases k <;> simp [h1, h2, h3, h4, h5, h6]

/-- In a boosted frame they act with their values in the lab, instead of those in the boosted frame: a constant `Ex` is not multiplied
by the Lorentz factor, and comes without a magnetic field. -/
theorem C83_violated_applied_boost (c γ : ℝ) (hγ : 1 < γ) (E0 : ℝ) (hE : E0 ≠ 0) :
    ∃ es, addConstantField c (fun f => if f = "Ex" then some E0 else none) = .ok es ∧ ∀ x y z t,
      addedField es x y z t .Ex ≠ boostFields γ (√(1 - 1 / γ ^ 2)) c (only .Ex E0) .Ex := by
  obtain ⟨es, h1, h2⟩ := C83_applied_constant_partial c (fun f => if f = "Ex" then some E0 else none)
  refine ⟨es, h1, fun x y z t => ?_⟩
  rw [h2]
  simp [nameOf, boostFields, only, hE, hγ.ne']

/-- A mirror can never be added, nor an applied field that is given by expressions. -/
theorem C83_violated_mirror_analytic (g z : Option ℝ) (n : ℕ) (expr : String → Option ExternalField.FieldFunc)
    (hex : ∃ f ∈ fieldNames, (expr f).isSome) :
    (∃ e, addMirror g z n = .error e) ∧ ∃ e, addAnalyticField expr = .error e := by
  constructor
  · cases z <;> cases g <;> exact ⟨_, rfl⟩
  · obtain ⟨f, hf, hs⟩ := hex
    obtain ⟨v, hv⟩ := Option.isSome_iff_exists.1 hs
    unfold addAnalyticField
    cases hl : fieldNames.filterMap expr with
    | nil =>
      have : v ∈ fieldNames.filterMap expr := List.mem_filterMap.2 ⟨f, hf, hv⟩
      rw [hl] at this
      cases this
    | cons a l => exact ⟨_, rfl⟩

/-- Non-vacuity: an expression for `Ez`. -/
example : ∃ f ∈ fieldNames, ((fun s => if s = "Ez" then some (fun _ _ _ _ _ _ _ => 0) else none : String → Option ExternalField.FieldFunc) f).isSome :=
  ⟨"Ez", by decide, by simp⟩

end Fbpic
