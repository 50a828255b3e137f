import Verif.Spec.PicOpen
import Verif.Lemmas.PicCycleStep
import Verif.Props.Antenna

/-!
# Lemmas: the cycle with open boundaries, in terms of the cycle without
-/

namespace Fbpic.Pic

open Transform ExternalField Step
open Spec (Paired Wrapped pairPtcl pairSpecies charges earlier back ChargeOf CurrentOf Sources)

variable (c : OCfg) [NeZero c.base.Nz]

/-! ### Antennas as particles -/

/-- A displacement of an antenna with its velocities. -/
def slide (a b : ℝ) (A : Antenna.Ant) : Antenna.Ant :=
  { A with parts := A.parts.map fun p => { p with ex := p.ex + a * p.vx, ey := p.ey + a * p.vy, z := p.z + b * p.vz } }

theorem antPush_slide (A : Antenna.Ant) (dt px pz : ℝ) : Antenna.pushX A dt px px pz = slide (dt * px) (dt * pz) A := rfl

theorem slide_add (a b a' b' : ℝ) (A : Antenna.Ant) : slide a b (slide a' b' A) = slide (a' + a) (b' + b) A := by
  unfold slide
  dsimp only
  rw [List.map_map]
  congr 1
  refine List.map_congr_left fun p _ => ?_
  simp only [Function.comp_apply]
  congr 1 <;> ring

theorem slide_zero (A : Antenna.Ant) : slide 0 0 A = A := by
  unfold slide
  have : (A.parts.map fun p => { p with ex := p.ex + 0 * p.vx, ey := p.ey + 0 * p.vy, z := p.z + 0 * p.vz }) = A.parts := by
    conv_rhs => rw [← List.map_id A.parts]
    refine List.map_congr_left fun p _ => ?_
    simp
  rw [this]

theorem slides_add (a b a' b' : ℝ) (l : List Antenna.Ant) : (l.map (slide a' b')).map (slide a b) = l.map (slide (a' + a) (b' + b)) := by
  rw [List.map_map]
  exact List.map_congr_left fun A _ => slide_add a b a' b' A

theorem slides_zero (l : List Antenna.Ant) : l.map (slide 0 0) = l := by
  conv_rhs => rw [← List.map_id l]
  exact List.map_congr_left fun A _ => slide_zero A

theorem pair_slide (hc : c.base.k.c ≠ 0) (q a b : ℝ) (A : Antenna.Ant) :
    { pairSpecies c.base.k.c q A with ptcl := (pairSpecies c.base.k.c q A).ptcl.map (c.base.shiftP a b) } =
      pairSpecies c.base.k.c q (slide a b A) := by
  unfold pairSpecies slide
  dsimp only
  rw [List.map_map, List.map_map]
  congr 1
  refine List.map_congr_left fun p _ => ?_
  simp only [Function.comp_apply]
  unfold Cfg.shiftP pairPtcl
  dsimp only
  congr 2 <;> field_simp <;> ring

theorem charges_slide (hc : c.base.k.c ≠ 0) {a b : ℝ} {S T : OSim} (hs : T.sim.species = c.base.shiftAll a b S.sim.species)
    (ha : T.ants = S.ants.map (slide a b)) : (charges c T).species = c.base.shiftAll a b (charges c S).species := by
  unfold charges
  dsimp only
  rw [hs, ha]
  unfold Cfg.shiftAll
  rw [List.map_append]
  congr 1
  rw [List.map_flatMap, List.flatMap_map]
  congr 1
  funext A
  have : (slide a b A).onRank = A.onRank := rfl
  rw [this]
  cases A.onRank
  · rfl
  · simp only [if_true, List.map_cons, List.map_nil]
    rw [← pair_slide c hc, ← pair_slide c hc]

/-! ### Depositions -/

theorem charges_depositing (S : OSim) : (charges c S).depositing = S.sim.depositing ++
    S.ants.flatMap fun a => if a.onRank then [Antenna.species c.ak (-1) a, Antenna.species c.ak 1 a] else [] := by
  unfold Sim.depositing charges
  dsimp only
  rw [List.filter_append, List.map_append]
  congr 1
  have hp : ∀ q (A : Antenna.Ant), (pairSpecies c.base.k.c q A).dep = Antenna.species c.ak q A := by
    intro q A
    unfold pairSpecies Species.dep Antenna.species
    dsimp only
    rw [List.map_map]
    congr 1
  have : ∀ l : List Antenna.Ant, ((l.flatMap fun a => if a.onRank then [pairSpecies c.base.k.c (-1) a, pairSpecies c.base.k.c 1 a]
      else []).filter fun sp => !sp.isTracer).map Species.dep =
      l.flatMap fun a => if a.onRank then [Antenna.species c.ak (-1) a, Antenna.species c.ak 1 a] else [] := by
    intro l
    induction l with
    | nil => rfl
    | cons A l ih =>
      rw [List.flatMap_cons, List.flatMap_cons, List.filter_append, List.map_append, ih]
      congr 1
      cases A.onRank
      · rfl
      · simp only [if_true, ← hp]
        rfl
  exact this _

theorem depositModes_charges (f : DepField) {S : OSim} {s : Sim} (hz : s.zmin = S.sim.zmin)
    (hs : s.species = (charges c S).species) : c.depositModes f S = c.base.depositModes f s := by
  unfold OCfg.depositModes Cfg.depositModes
  rw [hz, depositing_congr (s := charges c S) (t := s) hs, charges_depositing]
  simp only [depositAllWith_eq]
  rfl

/-- The state without antennas, with pseudo-particles instead. -/
structure OCfg.Emb (S : OSim) (s : Sim) : Prop where
  zmin : s.zmin = S.sim.zmin
  zmax : s.zmax = S.sim.zmax
  time : s.time = S.sim.time
  iteration : s.iteration = S.sim.iteration
  interp : s.interp = S.sim.interp
  spect : s.spect = S.sim.spect
  species : s.species = (charges c S).species

theorem emb_charges (S : OSim) : c.Emb S (charges c S) := ⟨rfl, rfl, rfl, rfl, rfl, rfl, rfl⟩

/-- What happens to particles, antennas and grid in a part of the step: `a`, `b` for the particles, `e`, `f` for the
antennas, `g` for the grid. -/
structure OCfg.Moved (a b e f g : ℝ) (S T : OSim) : Prop where
  species : T.sim.species = c.base.shiftAll a b S.sim.species
  ants : T.ants = S.ants.map (slide e f)
  zmin : T.sim.zmin = S.sim.zmin + c.base.drift g
  zmax : T.sim.zmax = S.sim.zmax + c.base.drift g
  zminG : T.zminG = S.zminG + c.base.drift g
  time : T.sim.time = S.sim.time
  iteration : T.sim.iteration = S.sim.iteration
  win : T.win = S.win
  inj : T.inj = S.inj

theorem OCfg.Moved.trans {a b e f g a' b' e' f' g' : ℝ} {S T U : OSim} (h : c.Moved a b e f g S T) (h' : c.Moved a' b' e' f' g' T U) :
    c.Moved (a + a') (b + b') (e + e') (f + f') (g + g') S U where
  species := by rw [h'.species, h.species, shiftAll_add]
  ants := by rw [h'.ants, h.ants, slides_add]
  zmin := by rw [h'.zmin, h.zmin, add_assoc, drift_add]
  zmax := by rw [h'.zmax, h.zmax, add_assoc, drift_add]
  zminG := by rw [h'.zminG, h.zminG, add_assoc, drift_add]
  time := h'.time.trans h.time
  iteration := h'.iteration.trans h.iteration
  win := h'.win.trans h.win
  inj := h'.inj.trans h.inj

theorem OCfg.Moved.of_eq {S T : OSim} (h1 : T.sim.species = S.sim.species) (h2 : T.ants = S.ants) (h3 : T.sim.zmin = S.sim.zmin)
    (h4 : T.sim.zmax = S.sim.zmax) (h5 : T.zminG = S.zminG) (h6 : T.sim.time = S.sim.time) (h7 : T.sim.iteration = S.sim.iteration)
    (h8 : T.win = S.win) (h9 : T.inj = S.inj) : c.Moved 0 0 0 0 0 S T :=
  ⟨by rw [h1, shiftAll_zero], by rw [h2, slides_zero], by rw [h3, drift_zero, add_zero], by rw [h4, drift_zero, add_zero],
    by rw [h5, drift_zero, add_zero], h6, h7, h8, h9⟩

/-- Push and shift of the grid. -/
noncomputable def OCfg.movePush (move : Bool) (dt px pz dtg : ℝ) (S : OSim) : OSim :=
  c.shiftGalilean dtg (c.pushX move dt px px pz S)

theorem movePush_sim (move : Bool) (dt px pz dtg : ℝ) (S : OSim) :
    (c.movePush move dt px pz dtg S).sim = c.base.movePush move dt px px pz dtg S.sim := by
  unfold OCfg.movePush OCfg.shiftGalilean OCfg.pushX Cfg.movePush Cfg.shiftGalilean
  cases c.base.galilean <;> rfl

theorem moved_push (move : Bool) (dt px pz dtg : ℝ) (S : OSim) :
    c.Moved (if move then dt * px else 0) (if move then dt * pz else 0) (dt * px) (dt * pz) dtg S (c.movePush move dt px pz dtg S) := by
  have e := movePush_sim c move dt px pz dtg S
  obtain ⟨h1, h2, h3, h4⟩ := movePush_zmin c.base move dt px px pz dtg S.sim
  refine ⟨by rw [e, movePush_species], ?_, by rw [e, h1], by rw [e, h2], ?_, by rw [e, h3], by rw [e, h4], ?_, ?_⟩
  · unfold OCfg.movePush OCfg.shiftGalilean OCfg.pushX
    cases c.base.galilean <;> rfl
  · unfold OCfg.movePush OCfg.shiftGalilean OCfg.pushX Cfg.drift
    cases c.base.galilean
    · simp
    · rfl
  · unfold OCfg.movePush OCfg.shiftGalilean OCfg.pushX
    cases c.base.galilean <;> rfl
  · unfold OCfg.movePush OCfg.shiftGalilean OCfg.pushX
    cases c.base.galilean <;> rfl

theorem emb_push (hc : c.base.k.c ≠ 0) (move : Bool) (dt px pz dtg : ℝ) {S : OSim} {s : Sim} (hm : move = true ∨ S.ants = [])
    (h : c.Emb S s) : c.Emb (c.movePush move dt px pz dtg S) (c.base.movePush move dt px px pz dtg s) := by
  have e := movePush_sim c move dt px pz dtg S
  have k := moved_push c move dt px pz dtg S
  obtain ⟨h1, h2, h3, h4⟩ := movePush_zmin c.base move dt px px pz dtg s
  refine ⟨by rw [h1, k.zmin, h.zmin], by rw [h2, k.zmax, h.zmax], by rw [h3, k.time, h.time], by rw [h4, k.iteration, h.iteration],
    ?_, ?_, ?_⟩
  · rw [movePush_interp, e, movePush_interp, h.interp]
  · rw [movePush_spect, e, movePush_spect, h.spect]
  · rw [movePush_species, h.species]
    refine (charges_slide c hc k.species ?_).symm
    rcases hm with rfl | hm
    · simpa using k.ants
    · rw [k.ants, hm]; rfl

theorem emb_rho (n : RhoName) {S T : OSim} {s : Sim} (h : c.Emb S s) (hd : c.depositRho n S = .ok T) :
    ∃ t, c.base.depositRho n s = .ok t ∧ c.Emb T t ∧ c.Moved 0 0 0 0 0 S T := by
  unfold OCfg.depositRho at hd
  obtain ⟨A, hA, hd⟩ := (except_bind_ok _ _ _).1 hd
  have hT := Except.ok.inj hd
  rw [depositModes_charges c .rho h.zmin h.species] at hA
  refine ⟨_, (except_bind_ok _ _ _).2 ⟨A, hA, rfl⟩, ?_, ?_⟩
  · rw [← hT]
    refine ⟨h.zmin, h.zmax, h.time, h.iteration, ?_, ?_, h.species⟩
    · dsimp only; rw [h.interp]
    · dsimp only; rw [h.interp, h.spect]
  · rw [← hT]
    exact .of_eq c rfl rfl rfl rfl rfl rfl rfl rfl rfl

theorem emb_J {S T : OSim} {s : Sim} (h : c.Emb S s) (hd : c.depositJ S = .ok T) :
    ∃ t, c.base.depositJ s = .ok t ∧ c.Emb T t ∧ c.Moved 0 0 0 0 0 S T := by
  unfold OCfg.depositJ at hd
  obtain ⟨A, hA, hd⟩ := (except_bind_ok _ _ _).1 hd
  obtain ⟨A', hA', hd⟩ := (except_bind_ok _ _ _).1 hd
  obtain ⟨A'', hA'', hd⟩ := (except_bind_ok _ _ _).1 hd
  have hT := Except.ok.inj hd
  rw [depositModes_charges c _ h.zmin h.species] at hA hA' hA''
  refine ⟨_, (except_bind_ok _ _ _).2 ⟨A, hA, (except_bind_ok _ _ _).2 ⟨A', hA', (except_bind_ok _ _ _).2 ⟨A'', hA'', rfl⟩⟩⟩, ?_, ?_⟩
  · rw [← hT]
    refine ⟨h.zmin, h.zmax, h.time, h.iteration, ?_, ?_, h.species⟩
    · dsimp only; rw [h.interp]
    · dsimp only; rw [h.interp, h.spect]
  · rw [← hT]
    exact .of_eq c rfl rfl rfl rfl rfl rfl rfl rfl rfl

/-- The cross-deposition if it is needed. -/
noncomputable def OCfg.maybeCross (o : Opts) (S : OSim) : Except PyErr OSim :=
  match o.correctCurrents, c.base.correction with
  | true, .crossDeposition => c.crossDeposit o.movePositions S
  | _, _ => pure S

theorem oiterDeposit_eq (o : Opts) (S : OSim) : c.iterDeposit o S =
    (c.depositJ S >>= fun S => c.maybeCross o S >>= fun S =>
      c.depositRho .next (c.movePush o.movePositions (0.5 * c.base.dt) 1 1 (0.5 * c.base.dt) S)) := rfl

theorem ocrossDeposit_eq (move : Bool) (S : OSim) : c.crossDeposit move S =
    (c.depositRho .nextXY (c.movePush move (0.5 * c.base.dt) 1 (-1) (-0.5 * c.base.dt) S) >>= fun S =>
      c.depositRho .nextZ (c.movePush move c.base.dt (-1) 1 c.base.dt S) >>= fun S =>
      pure (c.movePush move (0.5 * c.base.dt) 1 (-1) (-0.5 * c.base.dt) S)) := rfl

/-- What the depositions do to the particles, the antennas and the grid. -/
theorem deposit_moved (o : Opts) {S T : OSim} (h : c.iterDeposit o S = .ok T) :
    c.Moved (if o.movePositions then 0.5 * c.base.dt else 0) (if o.movePositions then 0.5 * c.base.dt else 0)
      (0.5 * c.base.dt) (0.5 * c.base.dt) (0.5 * c.base.dt) S T := by
  rw [oiterDeposit_eq] at h
  obtain ⟨S1, h1, h⟩ := (except_bind_ok _ _ _).1 h
  obtain ⟨S2, h2, h⟩ := (except_bind_ok _ _ _).1 h
  obtain ⟨-, -, -, m1⟩ := emb_J c (emb_charges c S) h1
  obtain ⟨-, -, -, m3⟩ := emb_rho c _ (emb_charges c _) h
  have m4 := moved_push c o.movePositions (0.5 * c.base.dt) 1 1 (0.5 * c.base.dt) S2
  have m2 : c.Moved 0 0 0 0 0 S1 S2 := by
    unfold OCfg.maybeCross at h2
    split at h2
    · rw [ocrossDeposit_eq] at h2
      obtain ⟨X, hX, h2⟩ := (except_bind_ok _ _ _).1 h2
      obtain ⟨Z, hZ, h2⟩ := (except_bind_ok _ _ _).1 h2
      obtain ⟨-, -, -, mX⟩ := emb_rho c _ (emb_charges c _) hX
      obtain ⟨-, -, -, mZ⟩ := emb_rho c _ (emb_charges c _) hZ
      rw [← Except.ok.inj h2]
      have n1 := moved_push c o.movePositions (0.5 * c.base.dt) 1 (-1) (-0.5 * c.base.dt) S1
      have n2 := moved_push c o.movePositions c.base.dt (-1) 1 c.base.dt X
      have n3 := moved_push c o.movePositions (0.5 * c.base.dt) 1 (-1) (-0.5 * c.base.dt) Z
      have := ((((n1.trans c mX).trans c n2).trans c mZ).trans c n3)
      convert this using 1 <;> (try split_ifs) <;> ring
    · rw [← Except.ok.inj h2]
      exact .of_eq c rfl rfl rfl rfl rfl rfl rfl rfl rfl
  have := ((m1.trans c m2).trans c m4).trans c m3
  convert this using 1 <;> (try split_ifs) <;> ring

theorem emb_deposit (hc : c.base.k.c ≠ 0) (o : Opts) {S T : OSim} {s : Sim} (hm : o.movePositions = true ∨ S.ants = []) (h : c.Emb S s)
    (hd : c.iterDeposit o S = .ok T) : ∃ t, c.base.iterDeposit o s = .ok t ∧ c.Emb T t := by
  rw [oiterDeposit_eq] at hd
  obtain ⟨S1, h1, hd⟩ := (except_bind_ok _ _ _).1 hd
  obtain ⟨S2, h2, hd⟩ := (except_bind_ok _ _ _).1 hd
  have step : ∀ {a b e f g : ℝ} {A B : OSim}, c.Moved a b e f g A B → (o.movePositions = true ∨ A.ants = []) →
      (o.movePositions = true ∨ B.ants = []) := by
    intro a b e f g A B k hA
    refine hA.imp id fun hA => ?_
    rw [k.ants, hA]; rfl
  obtain ⟨t1, e1, i1, m1⟩ := emb_J c h h1
  have hm1 := step m1 hm
  have key : ∃ t2, c.base.maybeCross o t1 = .ok t2 ∧ c.Emb S2 t2 ∧ (o.movePositions = true ∨ S2.ants = []) := by
    unfold OCfg.maybeCross at h2
    unfold Cfg.maybeCross
    split at h2
    · rename_i hcc hco
      rw [ocrossDeposit_eq] at h2
      obtain ⟨X, hX, h2⟩ := (except_bind_ok _ _ _).1 h2
      obtain ⟨Z, hZ, h2⟩ := (except_bind_ok _ _ _).1 h2
      have hS2 := Except.ok.inj h2
      have pX := emb_push c hc o.movePositions (0.5 * c.base.dt) 1 (-1) (-0.5 * c.base.dt) hm1 i1
      have n1 := moved_push c o.movePositions (0.5 * c.base.dt) 1 (-1) (-0.5 * c.base.dt) S1
      obtain ⟨x, ex, iX, mX⟩ := emb_rho c _ pX hX
      have hmX := step mX (step n1 hm1)
      have pZ := emb_push c hc o.movePositions c.base.dt (-1) 1 c.base.dt hmX iX
      have n2 := moved_push c o.movePositions c.base.dt (-1) 1 c.base.dt X
      obtain ⟨z, ez, iZ, mZ⟩ := emb_rho c _ pZ hZ
      have hmZ := step mZ (step n2 hmX)
      have pE := emb_push c hc o.movePositions (0.5 * c.base.dt) 1 (-1) (-0.5 * c.base.dt) hmZ iZ
      have n3 := moved_push c o.movePositions (0.5 * c.base.dt) 1 (-1) (-0.5 * c.base.dt) Z
      rw [hcc, hco]
      simp only
      rw [crossDeposit_eq]
      refine ⟨_, (except_bind_ok _ _ _).2 ⟨x, ex, (except_bind_ok _ _ _).2 ⟨z, ez, rfl⟩⟩, ?_, ?_⟩
      · rw [← hS2]; exact pE
      · rw [← hS2]; exact step n3 hmZ
    · rename_i hne
      refine ⟨t1, ?_, ?_, ?_⟩
      · split
        · rename_i h3 h4; exact absurd h4 (fun h4 => hne h3 h4)
        · rfl
      · rw [← Except.ok.inj h2]; exact i1
      · rw [← Except.ok.inj h2]; exact hm1
  obtain ⟨t2, e2, i2, hm2⟩ := key
  have p3 := emb_push c hc o.movePositions (0.5 * c.base.dt) 1 1 (0.5 * c.base.dt) hm2 i2
  obtain ⟨t3, e3, i3, -⟩ := emb_rho c _ p3 hd
  rw [iterDeposit_eq]
  exact ⟨t3, (except_bind_ok _ _ _).2 ⟨t1, e1, (except_bind_ok _ _ _).2 ⟨t2, e2, e3⟩⟩, i3⟩

end Fbpic.Pic
