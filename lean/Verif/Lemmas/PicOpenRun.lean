import Verif.Lemmas.PicOpen

/-!
# Lemmas: one iteration with open boundaries, particles and antennas
-/

namespace Fbpic.Pic

open Transform ExternalField Step
open Spec (Paired Wrapped pairPtcl pairSpecies charges earlier back ChargeOf CurrentOf Sources Exchanged Entered injected NewOf
  Swings)

variable (c : OCfg) [NeZero c.base.Nz]

/-! ### Exchange -/

theorem newOf_all (f : ℕ → NewPtcl ℝ → ℝ × ElecMom × ℕ) (l : List (NewPtcl ℝ)) :
    List.Forall₂ NewOf l (l.zipIdx.map (newPtcl f)) := by
  rw [List.forall₂_map_right_iff]
  have : ∀ n, List.Forall₂ (fun a b => NewOf a (newPtcl f b)) l (l.zipIdx n) := by
    induction l with
    | nil => intro n; exact .nil
    | cons a l ih =>
      intro n
      rw [List.zipIdx_cons]
      refine .cons ⟨rfl, rfl, ?_⟩ (ih _)
      simp only [newPtcl]
      have := Real.cos_sq_add_sin_sq (f n a).1
      linear_combination a.r ^ 2 * this
  exact this 0

/-- The injector of a species after an exchange. -/
noncomputable def OCfg.injAfter (S : OSim) (id : ℕ) : Option (Injector ℝ) :=
  if c.comm.nGuard = 0 then S.inj.getD id none
  else
    match S.win, S.inj.getD id none with
    | some _, some ⟨some d, v, some p⟩ => some ⟨some d, v, some (generateParticles d v (c.plasma id) S.sim.time p).2⟩
    | _, i => i

theorem exchangeSpecies_ok (S : OSim) (id : ℕ) (sp : Species) (r : Species × Option (Injector ℝ))
    (h : c.exchangeSpecies S id sp = .ok r) :
    { r.1 with ptcl := sp.ptcl } = sp ∧ Exchanged c S id sp.ptcl r.1.ptcl ∧ r.2 = c.injAfter S id := by
  unfold OCfg.exchangeSpecies at h
  unfold OCfg.injAfter
  dsimp only at h
  have hf : ∀ l : List Ptcl, (l.filter fun p => !decide (p.push.z < S.sim.zmin + c.comm.nGuard * c.dz) &&
      !decide (p.push.z > S.sim.zmax - c.comm.nGuard * c.dz)) =
      l.filter (fun p => decide (S.sim.zmin + c.comm.nGuard * c.dz ≤ p.push.z ∧ p.push.z ≤ S.sim.zmax - c.comm.nGuard * c.dz)) := by
    intro l
    refine List.filter_congr fun p _ => ?_
    rw [Bool.eq_iff_iff]
    simp
  by_cases hg : c.comm.nGuard = 0
  · rw [if_pos hg] at h ⊢
    obtain ⟨l, hl, h⟩ := (except_bind_ok _ _ _).1 h
    have hr := Except.ok.inj h
    have hl := (mapM_ok _ _ _).1 hl
    rw [← hr]
    refine ⟨rfl, ⟨fun _ => ?_, fun h => absurd hg h⟩, rfl⟩
    exact hl.imp fun p p' hw => by
      obtain ⟨z, hz, e⟩ := wrap_spec c.base hw
      exact ⟨z, hz, e⟩
  · rw [if_neg hg] at h ⊢
    rw [hf] at h
    have none_case : (S.win = none ∨ S.inj.getD id none = none) → injected c S id = [] := by
      intro hh
      unfold injected
      rcases hh with hh | hh
      · rw [hh]
      · rw [hh]; cases S.win <;> rfl
    cases hw : S.win with
    | none =>
      rw [hw] at h
      have hr := Except.ok.inj h
      rw [← hr]
      refine ⟨rfl, ⟨fun h => absurd h hg, fun _ => ⟨[], by simp, ?_⟩⟩, rfl⟩
      rw [none_case (Or.inl hw)]; exact .nil
    | some w =>
      rw [hw] at h
      cases hi : S.inj.getD id none with
      | none =>
        rw [hi] at h
        have hr := Except.ok.inj h
        rw [← hr]
        refine ⟨rfl, ⟨fun h => absurd h hg, fun _ => ⟨[], by simp, ?_⟩⟩, rfl⟩
        rw [none_case (Or.inr hi)]; exact .nil
      | some i =>
        rw [hi] at h
        obtain ⟨dzp, v, pos⟩ := i
        cases dzp with
        | none => cases h
        | some d =>
          cases pos with
          | none => cases h
          | some p =>
            have hr := Except.ok.inj h
            rw [← hr]
            refine ⟨rfl, ⟨fun h => absurd h hg, fun _ => ⟨_, rfl, ?_⟩⟩, rfl⟩
            have : injected c S id = (generateParticles d v (c.plasma id) S.sim.time p).1 := by
              unfold injected
              rw [hw, hi]
            rw [this]
            exact newOf_all _ _

/-- What an exchange leaves as it is. -/
theorem exchange_ok {S U : OSim} (h : c.exchange S = .ok U) :
    { U.sim with species := S.sim.species } = S.sim ∧ U.zminG = S.zminG ∧ U.win = S.win ∧
    U.sim.species.length = S.sim.species.length ∧ U.inj = (List.range S.sim.species.length).map (c.injAfter S) ∧
    (∀ (id : ℕ) (sp sp' : Species), S.sim.species[id]? = some sp → U.sim.species[id]? = some sp' →
      { sp' with ptcl := sp.ptcl } = sp ∧ Exchanged c S id sp.ptcl sp'.ptcl) ∧
    List.Forall₂ (fun a a' => Antenna.updateCurrentRank a c.comm S.zminG c.dz 0 = .ok a') S.ants U.ants := by
  unfold OCfg.exchange at h
  obtain ⟨r, hr, h⟩ := (except_bind_ok _ _ _).1 h
  obtain ⟨as, ha, h⟩ := (except_bind_ok _ _ _).1 h
  have hU := Except.ok.inj h
  have hr := (mapM_ok _ _ _).1 hr
  have ha := (mapM_ok _ _ _).1 ha
  have hlen : r.length = S.sim.species.length := by rw [← hr.length_eq]; simp
  have get : ∀ (id : ℕ) (x : Species × Option (Injector ℝ)) (sp : Species), S.sim.species[id]? = some sp → r[id]? = some x →
      c.exchangeSpecies S id sp = .ok x := by
    intro id x sp h1 h2
    obtain ⟨h3, e3⟩ := List.getElem?_eq_some_iff.1 h2
    obtain ⟨h4, e4⟩ := List.getElem?_eq_some_iff.1 h1
    have := (List.forall₂_iff_get.1 hr).2 id (by simpa using h4) h3
    simp only [List.get_eq_getElem, List.getElem_zipIdx, zero_add, e3, e4] at this
    exact this
  rw [← hU]
  refine ⟨rfl, rfl, rfl, by simpa using hlen, ?_, fun id sp sp' h1 h2 => ?_, ha⟩
  · refine List.ext_getElem (by simp [hlen]) fun id h1 h2 => ?_
    simp only [List.length_map] at h1
    simp only [List.getElem_map, List.getElem_range]
    have h3 : id < S.sim.species.length := by rw [← hlen]; exact h1
    exact (exchangeSpecies_ok c S id _ _ (get id _ _ (List.getElem?_eq_getElem h3) (List.getElem?_eq_getElem h1))).2.2
  · simp only [List.getElem?_map, Option.map_eq_some_iff] at h2
    obtain ⟨x, hx, rfl⟩ := h2
    obtain ⟨e1, e2, -⟩ := exchangeSpecies_ok c S id sp x (get id x sp h1 hx)
    exact ⟨e1, e2⟩

/-! ### Start -/

theorem gather_ptcl (b : Cfg) [NeZero b.Nz] {s t : Sim} (h : b.gatherAll s = .ok t) :
    Paired (b.Ready Eq s) s (b.applyExts t) ∧ b.Clock 0 0 0 s (b.applyExts t) ∧ (b.applyExts t).interp = s.interp ∧
    (b.applyExts t).spect = s.spect := by
  obtain ⟨l4, f4, e4⟩ := (mapPtclM_ok _ _ _).1 h
  have p4 : Paired (fun _ sp p p' => b.gatherPtcl s sp p = .ok p') s t := by
    refine (Paired.of_forall₂ (s := s.record) (t := t) (P := fun sp p p' => b.gatherPtcl s sp p = .ok p') (by rw [e4]; exact f4)).of_eq rfl rfl
  have p5 := Paired.exts b t
  refine ⟨(p4.trans p5).mono ?_, ?_, ?_, ?_⟩
  · rintro id sp p p' ⟨p2, hg, l', he⟩
    have htime : t.time = s.time := by rw [e4]; rfl
    rw [htime] at he
    obtain ⟨g1, g2, g3⟩ := gather_fields b s id sp hg he
    exact ⟨p.push.z, rfl, g2, g1, g3⟩
  · exact .of_eq b (by show t.zmin = _; rw [e4]; rfl) (by show t.zmax = _; rw [e4]; rfl) (by show t.time = _; rw [e4]; rfl)
      (by show t.iteration = _; rw [e4]; rfl)
  · show t.interp = _; rw [e4]; rfl
  · show t.spect = _; rw [e4]; rfl

theorem ostart_eq (i : ℕ) (S : OSim) : c.iterStart i S =
    ((if c.exchanges i S then c.exchange S >>= c.depositRho .prev else pure S) >>= fun S =>
      (if i = 0 then c.depositJ S else pure S) >>= fun S => c.base.gatherAll S.sim >>= fun s =>
      pure { S with sim := c.base.applyExts s }) := rfl

/-- What two states have in common before and after the start. -/
structure OCfg.SameFrame (S T : OSim) : Prop where
  zmin : T.sim.zmin = S.sim.zmin
  zmax : T.sim.zmax = S.sim.zmax
  time : T.sim.time = S.sim.time
  iteration : T.sim.iteration = S.sim.iteration
  zminG : T.zminG = S.zminG
  win : T.win = S.win
  eb : c.base.SameEB S.sim T.sim


theorem OCfg.SameFrame.trans {S T U : OSim} (h : c.SameFrame S T) (h' : c.SameFrame T U) : c.SameFrame S U :=
  ⟨h'.zmin.trans h.zmin, h'.zmax.trans h.zmax, h'.time.trans h.time, h'.iteration.trans h.iteration, h'.zminG.trans h.zminG,
    h'.win.trans h.win, h.eb.trans c.base h'.eb⟩

theorem rho_frame (hn : 0 < c.base.nthreads) (n : RhoName) {S T : OSim} (h : c.depositRho n S = .ok T) :
    c.SameFrame S T ∧ T.sim.species = S.sim.species ∧ T.ants = S.ants ∧ T.inj = S.inj ∧ c.base.depOk .rho (charges c S) ∧
    T.sim.spect = (c.base.withRho n (charges c S)).spect := by
  obtain ⟨t, e, i, m⟩ := emb_rho c n (emb_charges c S) h
  obtain ⟨d, rfl⟩ := (depositRho_ok c.base hn _ _ _).1 e
  refine ⟨⟨i.zmin.symm, i.zmax.symm, i.time.symm, i.iteration.symm, ?_, m.win, ?_⟩, ?_, ?_, m.inj, d, i.spect.symm⟩
  · rw [m.zminG, drift_zero, add_zero]
  · have := withRho_sameEB c.base n (charges c S)
    intro k hk
    rw [← i.interp]
    exact this k hk
  · rw [m.species, shiftAll_zero]
  · rw [m.ants, slides_zero]

theorem J_frame (hn : 0 < c.base.nthreads) {S T : OSim} (h : c.depositJ S = .ok T) :
    c.SameFrame S T ∧ T.sim.species = S.sim.species ∧ T.ants = S.ants ∧ T.inj = S.inj ∧
    T.sim.spect = (c.base.withJ (charges c S)).spect := by
  obtain ⟨t, e, i, m⟩ := emb_J c (emb_charges c S) h
  obtain ⟨d, rfl⟩ := (depositJ_ok c.base hn _ _).1 e
  refine ⟨⟨i.zmin.symm, i.zmax.symm, i.time.symm, i.iteration.symm, ?_, m.win, ?_⟩, ?_, ?_, m.inj, i.spect.symm⟩
  · rw [m.zminG, drift_zero, add_zero]
  · have := withJ_sameEB c.base (charges c S)
    intro k hk
    rw [← i.interp]
    exact this k hk
  · rw [m.species, shiftAll_zero]
  · rw [m.ants, slides_zero]

/-- The first part of an iteration. -/
theorem ostart (hn : 0 < c.base.nthreads) (i : ℕ) {S A : OSim} (h : c.iterStart i S = .ok A) :
    ∃ U : OSim, (c.exchanges i S → c.exchange S = .ok U) ∧ (¬ c.exchanges i S → U = S) ∧ c.SameFrame S U ∧ c.SameFrame U A ∧
      Paired (c.base.Ready Eq S.sim) U.sim A.sim ∧ A.ants = U.ants ∧ A.inj = U.inj ∧ U.sim.spect = S.sim.spect ∧
      (c.exchanges i S → c.base.depOk .rho (charges c U)) ∧
      (c.base.Sized S.sim → c.base.Keeps (fun n => n = .prev ∧ ¬ c.exchanges i S) S.sim A.sim ∧
        (c.exchanges i S → c.base.Holds .prev (c.base.rhoHat (charges c U)) A.sim)) := by
  rw [ostart_eq] at h
  obtain ⟨S2, h2, h⟩ := (except_bind_ok _ _ _).1 h
  obtain ⟨S3, h3, h⟩ := (except_bind_ok _ _ _).1 h
  obtain ⟨s4, h4, h⟩ := (except_bind_ok _ _ _).1 h
  have hA := Except.ok.inj h
  obtain ⟨p4, k4, i4, q4⟩ := gather_ptcl c.base h4
  have start : ∃ U : OSim, (c.exchanges i S → c.exchange S = .ok U) ∧ (¬ c.exchanges i S → U = S) ∧ c.SameFrame S U ∧
      c.SameFrame U S2 ∧ S2.sim.species = U.sim.species ∧ S2.ants = U.ants ∧ S2.inj = U.inj ∧ U.sim.spect = S.sim.spect ∧
      (c.exchanges i S → c.base.depOk .rho (charges c U)) ∧ (¬ c.exchanges i S → S2.sim.spect = S.sim.spect) ∧
      (c.exchanges i S → S2.sim.spect = (c.base.withRho .prev (charges c U)).spect) := by
    by_cases hx : c.exchanges i S
    · rw [if_pos hx] at h2
      obtain ⟨U, hU, h2⟩ := (except_bind_ok _ _ _).1 h2
      obtain ⟨f, e1, e2, e3, d, e4⟩ := rho_frame c hn .prev h2
      obtain ⟨x1, x2, x3, -⟩ := exchange_ok c hU
      have xe : U.sim.spect = S.sim.spect := by rw [← x1]
      refine ⟨U, fun _ => hU, fun h => absurd hx h, ⟨by rw [← x1], by rw [← x1], by rw [← x1], by rw [← x1], x2, x3,
        .of_eq c.base (by rw [← x1])⟩, f, e1, e2, e3, xe, fun _ => d, fun h => absurd hx h, fun _ => e4⟩
    · rw [if_neg hx] at h2
      have e := Except.ok.inj h2
      subst e
      have r : c.SameFrame S S := ⟨rfl, rfl, rfl, rfl, rfl, rfl, .of_eq c.base rfl⟩
      exact ⟨S, fun h => absurd h hx, fun _ => rfl, r, r, rfl, rfl, rfl, rfl, fun h => absurd h hx, fun _ => rfl,
        fun h => absurd h hx⟩
  obtain ⟨U, u1, u2, u3, u4, u5, u6, u7, u8, u9, u10, u11⟩ := start
  have mid : c.SameFrame S2 S3 ∧ S3.sim.species = S2.sim.species ∧ S3.ants = S2.ants ∧ S3.inj = S2.inj ∧
      c.base.Keeps (fun _ => True) S2.sim S3.sim := by
    by_cases hi : i = 0
    · rw [if_pos hi] at h3
      obtain ⟨f, e1, e2, e3, e4⟩ := J_frame c hn h3
      refine ⟨f, e1, e2, e3, ?_⟩
      have := withJ_keeps c.base (charges c S2)
      intro m hm
      rw [e4]
      exact this m hm
    · rw [if_neg hi] at h3
      have e := Except.ok.inj h3
      subst e
      exact ⟨⟨rfl, rfl, rfl, rfl, rfl, rfl, .of_eq c.base rfl⟩, rfl, rfl, rfl, .of_eq c.base _ rfl⟩
  obtain ⟨v1, v2, v3, v4, v5⟩ := mid
  have a4 : c.SameFrame S3 A := by
    rw [← hA]
    have z := k4.zmin
    have z' := k4.zmax
    rw [drift_zero, add_zero] at z z'
    exact ⟨z, z', by simpa using k4.time, by simpa using k4.iteration, rfl, rfl, .of_eq c.base i4⟩
  have fUA := (u4.trans c v1).trans c a4
  have fS3 := ((u3.trans c u4).trans c v1)
  refine ⟨U, u1, u2, u3, fUA, ?_, ?_, ?_, u8, u9, fun hs => ?_⟩
  · have := p4.of_eq (s' := U.sim) (t' := A.sim) (by rw [v2, u5]) (by rw [← hA])
    refine this.mono ?_
    rintro id sp p p' ⟨z, hz, hw, hp, hF⟩
    exact ⟨z, hz, hw, hp, fun hq => FieldsAt_congr c.base fS3.eb fS3.zmin fS3.time (hF hq)⟩
  · rw [← hA]; exact v3.trans u6
  · rw [← hA]; exact v4.trans u7
  · have kA : c.base.Keeps (fun _ => True) S3.sim A.sim := .of_eq c.base _ (by rw [← hA]; exact q4)
    have kk := v5.trans c.base kA
    by_cases hx : c.exchanges i S
    · have zU : c.base.Sized (charges c U) := fun m hm => by
        show (U.sim.spect m).Nz = _ ∧ (U.sim.spect m).Nr = _
        rw [u8]; exact hs m hm
      obtain ⟨w1, w2⟩ := withRho_keeps c.base .prev (charges c U) zU
      have w1' : c.base.Keeps (fun _ => False) S.sim S2.sim := by
        intro m hm
        rw [u11 hx, ← u8]
        exact ⟨(w1 m hm).1, fun iz hz ir hr => ⟨((w1 m hm).2 iz hz ir hr).1, fun _ h => h.elim⟩⟩
      have w2' : c.base.Holds .prev (c.base.rhoHat (charges c U)) S2.sim := by
        intro m hm
        rw [u11 hx]
        exact w2 m hm
      exact ⟨(w1'.trans c.base kk).mono c.base fun n h => absurd hx h.2, fun _ => kk.holds c.base ⟨trivial, trivial⟩ w2'⟩
    · have w1 : c.base.Keeps (fun _ => True) S.sim S2.sim := .of_eq c.base _ (u10 hx)
      exact ⟨(w1.trans c.base kk).mono c.base fun n _ => ⟨trivial, trivial, trivial⟩, fun h => absurd h hx⟩

theorem entered_of {i : ℕ} {S U : OSim} (h1 : c.exchanges i S → c.exchange S = .ok U) (h2 : ¬ c.exchanges i S → U = S) :
    Entered c i S U.sim := by
  by_cases hx : c.exchanges i S
  · obtain ⟨x1, -, -, x4, -, x6, -⟩ := exchange_ok c (h1 hx)
    refine ⟨x1, x4, fun id sp sp' g1 g2 => ?_⟩
    obtain ⟨y1, y2⟩ := x6 id sp sp' g1 g2
    exact ⟨y1, fun _ => y2, fun h => absurd hx h⟩
  · have := h2 hx
    subst this
    refine ⟨rfl, rfl, fun id sp sp' g1 g2 => ?_⟩
    have : sp' = sp := Option.some.inj (g2.symm.trans g1)
    subst this
    exact ⟨rfl, fun h => absurd h hx, fun _ => rfl⟩

/-! ### Half -/

theorem half_sim (o : Opts) {S T : OSim} (h : c.iterHalf o S = .ok T) : c.base.iterHalf o S.sim = .ok T.sim := by
  unfold OCfg.iterHalf at h
  obtain ⟨s, hs, h⟩ := (except_bind_ok _ _ _).1 h
  have hT := Except.ok.inj h
  rw [iterHalf_eq]
  refine (except_bind_ok _ _ _).2 ⟨s, hs, ?_⟩
  rw [← hT]
  unfold OCfg.shiftGalilean Cfg.movePush Cfg.shiftGalilean
  cases c.base.galilean <;> rfl

theorem half_rest (o : Opts) {S T : OSim} (h : c.iterHalf o S = .ok T) :
    T.ants = S.ants.map (fun a => slide (0.5 * c.base.dt) (0.5 * c.base.dt)
      (Antenna.updateV c.ak a (S.sim.time + 0.5 * c.base.dt) c.base.dt)) ∧
    T.zminG = S.zminG + c.base.drift (0.5 * c.base.dt) ∧ T.win = S.win ∧ T.inj = S.inj := by
  unfold OCfg.iterHalf at h
  obtain ⟨s, hs, h⟩ := (except_bind_ok _ _ _).1 h
  have hT := Except.ok.inj h
  have ht : s.time = S.sim.time := by
    split_ifs at hs
    · rw [mapPtclM_rest _ _ _ hs]
    · rw [← Except.ok.inj hs]
  rw [← hT]
  unfold OCfg.shiftGalilean Cfg.drift
  refine ⟨?_, ?_, ?_, ?_⟩
  · have : ∀ a : Antenna.Ant, Antenna.pushX a (0.5 * c.base.dt) 1 1 1 = slide (0.5 * c.base.dt) (0.5 * c.base.dt) a := by
      intro a
      rw [antPush_slide, mul_one]
    simp only [this, ht]
    cases c.base.galilean <;> rfl
  · cases c.base.galilean
    · simp
    · rfl
  · cases c.base.galilean <;> rfl
  · cases c.base.galilean <;> rfl

theorem swings_of (a : Antenna.Ant) (t : ℝ) : List.Forall₂ (Swings c a t) a.parts
    (slide c.base.dt c.base.dt (Antenna.updateV c.ak a (t + 0.5 * c.base.dt) c.base.dt)).parts := by
  have h5 : t + 0.5 * c.base.dt = t + c.base.dt / 2 := by norm_num; ring
  unfold slide Antenna.updateV
  dsimp only
  rw [List.map_map, List.forall₂_map_right_iff]
  refine List.forall₂_same.2 fun p _ => ?_
  unfold Swings
  have hc : c.ak.c = c.base.k.c := rfl
  have hh : ∀ v : ℝ, v * (1 / 2) * c.base.dt = v * c.base.dt / 2 := fun v => by ring
  dsimp only [Function.comp]
  cases hb : a.boost with
  | none =>
    refine ⟨p.z + p.vz * c.base.dt / 2, t + c.base.dt / 2, fun _ => ⟨rfl, rfl⟩, (fun b h => nomatch h), ?_⟩
    dsimp only
    rw [h5, hh, hh, hh]
  | some b =>
    refine ⟨b.gamma0 * (p.z + p.vz * c.base.dt / 2 + b.beta0 * c.base.k.c * (t + c.base.dt / 2)),
      b.gamma0 * (t + c.base.dt / 2 + b.beta0 * (p.z + p.vz * c.base.dt / 2) / c.base.k.c), (fun h => nomatch h), ?_, ?_⟩
    · intro b' h
      rw [← Option.some.inj h]
      exact ⟨rfl, rfl⟩
    dsimp only
    rw [h5, hh, hh, hh, hc]
    have e1 : p.z + p.vz * c.base.dt / 2 + c.base.k.c * b.beta0 * (t + c.base.dt / 2) =
        p.z + p.vz * c.base.dt / 2 + b.beta0 * c.base.k.c * (t + c.base.dt / 2) := by ring
    have e2 : t + c.base.dt / 2 + 1 / c.base.k.c * b.beta0 * (p.z + p.vz * c.base.dt / 2) =
        t + c.base.dt / 2 + b.beta0 * (p.z + p.vz * c.base.dt / 2) / c.base.k.c := by ring
    rw [e1, e2]

end Fbpic.Pic
