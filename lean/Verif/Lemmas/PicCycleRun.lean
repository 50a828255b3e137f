import Verif.Lemmas.PicCycle

/-!
# Lemmas: the particles and the counters in one iteration
-/

namespace Fbpic.Pic

open Transform ExternalField Step
open Spec (Paired Wrapped external FieldsAt chargeOf Feels velocity Leap back NewtonLorentz)

variable (c : Cfg) [NeZero c.Nz]

/-- The counters and the grid of two states. -/
structure Cfg.Clock (g dt : ℝ) (n : ℕ) (s t : Sim) : Prop where
  zmin : t.zmin = s.zmin + c.drift g
  zmax : t.zmax = s.zmax + c.drift g
  time : t.time = s.time + dt
  iteration : t.iteration = s.iteration + n

theorem Cfg.Clock.trans {g g' dt dt' : ℝ} {n n' : ℕ} {s t u : Sim} (h : c.Clock g dt n s t) (h' : c.Clock g' dt' n' t u) :
    c.Clock (g + g') (dt + dt') (n + n') s u where
  zmin := by rw [h'.zmin, h.zmin, ← drift_add]; ring
  zmax := by rw [h'.zmax, h.zmax, ← drift_add]; ring
  time := by rw [h'.time, h.time]; ring
  iteration := by rw [h'.iteration, h.iteration]; ring

theorem drift_zero : c.drift 0 = 0 := by unfold Cfg.drift; simp

theorem Cfg.Clock.of_eq {s t : Sim} (h1 : t.zmin = s.zmin) (h2 : t.zmax = s.zmax) (h3 : t.time = s.time)
    (h4 : t.iteration = s.iteration) : c.Clock 0 0 0 s t :=
  ⟨by rw [h1, drift_zero, add_zero], by rw [h2, drift_zero, add_zero], by rw [h3, add_zero], by rw [h4, add_zero]⟩

theorem clock_move (move : Bool) (dt px py pz dtg : ℝ) (s : Sim) :
    c.Clock dtg 0 0 s (c.movePush move dt px py pz dtg s) := by
  obtain ⟨h1, h2, h3, h4⟩ := movePush_zmin c move dt px py pz dtg s
  exact ⟨h1, h2, by rw [h3, add_zero], by rw [h4, add_zero]⟩

/-- The fields `E` and `B` on the grid are the same. -/
def Cfg.SameEB (s t : Sim) : Prop := ∀ m < c.Nm, (t.interp m).E = (s.interp m).E ∧ (t.interp m).B = (s.interp m).B

theorem Cfg.SameEB.trans {s t u : Sim} (h : c.SameEB s t) (h' : c.SameEB t u) : c.SameEB s u :=
  fun m hm => ⟨(h' m hm).1.trans (h m hm).1, (h' m hm).2.trans (h m hm).2⟩

theorem Cfg.SameEB.of_eq {s t : Sim} (h : t.interp = s.interp) : c.SameEB s t := fun m _ => by rw [h]; exact ⟨rfl, rfl⟩

theorem withRho_sameEB (n : RhoName) (s : Sim) : c.SameEB s (c.withRho n s) := by
  intro m hm
  have : (c.withRho n s).interp m = { s.interp m with rho := c.depArr .rho s m } := if_pos hm
  rw [this]
  exact ⟨rfl, rfl⟩

theorem withJ_sameEB (s : Sim) : c.SameEB s (c.withJ s) := by
  intro m hm
  have : (c.withJ s).interp m = { s.interp m with J := ⟨c.depArr .Jr s m, c.depArr .Jt s m, c.depArr .Jz s m⟩ } :=
    if_pos hm
  rw [this]
  exact ⟨rfl, rfl⟩

theorem FieldsAt_congr {s t : Sim} (h : c.SameEB s t) (hz : t.zmin = s.zmin) (ht : t.time = s.time) {id : ℕ}
    {sp : Species} {x y z : ℝ} {F : Comp → ℝ} (hF : FieldsAt c t id sp x y z F) : FieldsAt c s id sp x y z F := by
  unfold FieldsAt at hF ⊢
  rw [hz, ht] at hF
  have e : (List.range c.Nm).map (fun m => (t.interp m).E) = (List.range c.Nm).map (fun m => (s.interp m).E) :=
    List.map_congr_left fun m hm => (h m (List.mem_range.1 hm)).1
  have e' : (List.range c.Nm).map (fun m => (t.interp m).B) = (List.range c.Nm).map (fun m => (s.interp m).B) :=
    List.map_congr_left fun m hm => (h m (List.mem_range.1 hm)).2
  rw [e, e'] at hF
  exact hF

/-- A particle before the momentum push; `W` says from where it starts. -/
def Cfg.Ready (W : ℝ → ℝ → Prop) (s : Sim) (id : ℕ) (sp : Species) (p p' : Ptcl) : Prop :=
  ∃ z, W p.push.z z ∧ p'.w = p.w ∧ p'.push = { p.push with z := z } ∧
    (sp.q ≠ 0 → FieldsAt c s id sp p.push.x p.push.y z p'.F)

theorem start_ptcl (hn : 0 < c.nthreads) {s t : Sim} (h : c.iterStart 0 s = .ok t) :
    ∃ w, c.wrapAll s = .ok w ∧ Paired (c.Ready (Wrapped s.zmin s.zmax) s) s t ∧ c.Clock 0 0 0 s t ∧ c.SameEB s t := by
  rw [iterStart_eq] at h
  rw [if_pos (Or.inr rfl)] at h
  obtain ⟨s2, h2, h⟩ := (except_bind_ok _ _ _).1 h
  obtain ⟨s1, h1, h2⟩ := (except_bind_ok _ _ _).1 h2
  obtain ⟨s3, h3, h⟩ := (except_bind_ok _ _ _).1 h
  obtain ⟨s4, h4, h⟩ := (except_bind_ok _ _ _).1 h
  have ht : c.applyExts s4 = t := Except.ok.inj h
  rw [if_pos rfl] at h3
  obtain ⟨-, rfl⟩ := (depositRho_ok c hn _ _ _).1 h2
  obtain ⟨-, rfl⟩ := (depositJ_ok c hn _ _).1 h3
  obtain ⟨l1, f1, e1⟩ := (mapPtclM_ok _ _ _).1 h1
  obtain ⟨l4, f4, e4⟩ := (mapPtclM_ok _ _ _).1 h4
  set s3 := c.withJ (c.withRho .prev s1) with hs3
  have k1 : c.Clock 0 0 0 s s1 := by rw [e1]; exact .of_eq c rfl rfl rfl rfl
  have k3 : c.Clock 0 0 0 s s3 := by
    have := k1.trans c (Cfg.Clock.of_eq c (s := s1) (t := s3) rfl rfl rfl rfl)
    simpa using this
  have k4 : c.Clock 0 0 0 s s4 := by
    have := k3.trans c (Cfg.Clock.of_eq c (s := s3) (t := s4) (by rw [e4]; rfl) (by rw [e4]; rfl) (by rw [e4]; rfl) (by rw [e4]; rfl))
    simpa using this
  have k5 : c.Clock 0 0 0 s t := by
    have := k4.trans c (Cfg.Clock.of_eq c (s := s4) (t := t) (by rw [← ht]; rfl) (by rw [← ht]; rfl) (by rw [← ht]; rfl) (by rw [← ht]; rfl))
    simpa using this
  have q1 : c.SameEB s s1 := .of_eq c (by rw [e1])
  have q3 : c.SameEB s s3 := (q1.trans c (withRho_sameEB c _ s1)).trans c (withJ_sameEB c _)
  have q5 : c.SameEB s t := q3.trans c (.of_eq c (by rw [← ht]; show s4.interp = _; rw [e4]; rfl))
  refine ⟨s1, h1, ?_, k5, q5⟩
  have p1 : Paired (fun _ _ p p' => c.wrap s.zmin s.zmax p = .ok p') s s1 := Paired.of_forall₂ (by rw [e1]; exact f1)
  have p4 : Paired (fun _ sp p p' => c.gatherPtcl s3 sp p = .ok p') s1 s4 := by
    refine (Paired.of_forall₂ (s := s3.record) (t := s4) (P := fun sp p p' => c.gatherPtcl s3 sp p = .ok p') (by rw [e4]; exact f4)).of_eq rfl rfl
  have p5 := Paired.exts c s4
  rw [ht] at p5
  refine ((p1.trans p4).trans p5).mono ?_
  rintro id sp p p' ⟨p2, ⟨p1, hw, l, hg⟩, l', he⟩
  obtain ⟨z, hz, rfl⟩ := wrap_spec c hw
  have htime : s4.time = s3.time := by rw [e4]; rfl
  rw [htime] at he
  obtain ⟨g1, g2, g3⟩ := gather_fields c s3 id { sp with ptcl := l } hg he
  refine ⟨z, hz, g2, g1, fun hq => ?_⟩
  have := g3 hq
  exact FieldsAt_congr c q3 (by simpa [drift_zero] using k3.zmin) (by simpa using k3.time) this

/-- A particle in the middle of the step. -/
def Cfg.Midst (W : ℝ → ℝ → Prop) (o : Opts) (s : Sim) (id : ℕ) (sp : Species) (p p' : Ptcl) : Prop :=
  p.push.mom.ok → ∃ p1, (p1.w = p.w ∧ p1.push.level = p.push.level ∧ p1.push.x = p.push.x ∧ p1.push.y = p.push.y ∧
    p1.push.mom.ok ∧ W p.push.z p1.push.z ∧
    (sp.q ≠ 0 → FieldsAt c s id sp p.push.x p.push.y p1.push.z p1.F) ∧
    (o.moveMomenta = true ∧ Feels c s sp p1.push.z →
      NewtonLorentz (chargeOf c sp p * c.dt / (sp.m * c.k.c)) (chargeOf c sp p * c.dt / (2 * sp.m))
        ⟨p1.F .Ex, p1.F .Ey, p1.F .Ez⟩ ⟨p1.F .Bx, p1.F .By, p1.F .Bz⟩ p.push.mom p1.push.mom) ∧
    (¬ (o.moveMomenta = true ∧ Feels c s sp p1.push.z) → p1.push.mom = p.push.mom)) ∧
    p' = c.shiftP (if o.movePositions then 0.5 * c.dt else 0) (if o.movePositions then 0.5 * c.dt else 0) p1

theorem half_ptcl (W : ℝ → ℝ → Prop) (o : Opts) {s s₀ a b : Sim} (hp : Paired (c.Ready W s) s₀ a) (hk : c.Clock 0 0 0 s a)
    (h : c.iterHalf o a = .ok b) : Paired (c.Midst W o s) s₀ b ∧ c.Clock (0.5 * c.dt) 0 0 a b ∧ b.interp = a.interp := by
  rw [iterHalf_eq] at h
  obtain ⟨a1, h1, h⟩ := (except_bind_ok _ _ _).1 h
  have hb : c.movePush o.movePositions (0.5 * c.dt) 1 1 1 (0.5 * c.dt) a1 = b := Except.ok.inj h
  have htime : a.time = s.time := by simpa using hk.time
  have key : Paired (fun _ sp p p' => if o.moveMomenta then c.pushP (s.time + 0.5 * c.dt) sp p = .ok p' else p' = p) a a1 ∧
      c.Clock 0 0 0 a a1 ∧ a1.interp = a.interp := by
    by_cases hm : o.moveMomenta = true
    · simp only [if_pos hm] at h1 ⊢
      obtain ⟨l1, f1, e1⟩ := (mapPtclM_ok _ _ _).1 h1
      rw [htime] at f1
      refine ⟨Paired.of_forall₂ (P := fun sp p p' => c.pushP (s.time + 0.5 * c.dt) sp p = .ok p') (by rw [e1]; exact f1), ?_, ?_⟩
      · rw [e1]; exact .of_eq c rfl rfl rfl rfl
      · rw [e1]
    · simp only [if_neg hm] at h1 ⊢
      rw [← Except.ok.inj h1]
      exact ⟨Paired.refl a, .of_eq c rfl rfl rfl rfl, rfl⟩
  obtain ⟨k1, k2, k3⟩ := key
  have mv : b.species = c.shiftAll (if o.movePositions then 0.5 * c.dt else 0) (if o.movePositions then 0.5 * c.dt else 0)
      a1.species := by
    rw [← hb, movePush_species]; simp
  have k4 := shiftAll_paired c mv
  refine ⟨?_, ?_, ?_⟩
  · refine ((hp.trans k1).trans k4).mono ?_
    rintro id sp p p' ⟨p2, ⟨p1, ⟨z, hz, hw, hpush, hF⟩, l, hm⟩, l', rfl⟩ hok
    refine ⟨p2, ?_, rfl⟩
    have hok1 : p1.push.mom.ok := by rw [hpush]; exact hok
    by_cases ho : o.moveMomenta = true
    · rw [if_pos ho] at hm
      obtain ⟨b1, b2, b3, b4, b5, b6, b7, b8, b9⟩ := pushP_spec c s { sp with ptcl := l } hok1 hm
      have hz2 : p2.push.z = z := by rw [b6, hpush]
      have hz1 : p1.push.z = z := by rw [hpush]
      have hm1 : p1.push.mom = p.push.mom := by rw [hpush]
      have hq1 : chargeOf c { sp with ptcl := l } p1 = chargeOf c sp p := by
        unfold chargeOf; rw [hpush]
      refine ⟨b1.trans hw, by rw [b3, hpush], by rw [b4, hpush], by rw [b5, hpush], b7, by rw [hz2]; exact hz, ?_, ?_, ?_⟩
      · rw [hz2, b2]; exact hF
      · intro hf
        rw [hz2] at hf
        rw [hz1] at b8
        have := b8 hf.2
        rw [hq1, hm1] at this
        rw [b2]
        exact this
      · intro hf
        rw [hz2] at hf
        rw [hz1] at b9
        exact (b9 fun hh => hf ⟨ho, hh⟩).trans hm1
    · rw [if_neg ho] at hm
      subst hm
      have hz1 : p2.push.z = z := by rw [hpush]
      refine ⟨hw, by rw [hpush], by rw [hpush], by rw [hpush], hok1, by rw [hz1]; exact hz, by rw [hz1]; exact hF,
        fun hf => absurd hf.1 ho, fun _ => by rw [hpush]⟩
  · have := k2.trans c (clock_move c o.movePositions (0.5 * c.dt) 1 1 1 (0.5 * c.dt) a1)
    rw [hb] at this
    simpa using this
  · rw [← hb, movePush_interp, k3]

/-- The depositions and the second half of the way. -/
theorem deposit_ptcl (hn : 0 < c.nthreads) (o : Opts) {b d : Sim} (h : c.iterDeposit o b = .ok d) :
    d.species = c.shiftAll (if o.movePositions then 0.5 * c.dt else 0) (if o.movePositions then 0.5 * c.dt else 0) b.species ∧
    c.Clock (0.5 * c.dt) 0 0 b d ∧ c.SameEB b d := by
  rw [iterDeposit_eq] at h
  obtain ⟨s2, h2, h⟩ := (except_bind_ok _ _ _).1 h
  obtain ⟨-, rfl⟩ := (depositJ_ok c hn _ _).1 h2
  obtain ⟨s3, h3, h⟩ := (except_bind_ok _ _ _).1 h
  obtain ⟨d4, rfl⟩ := (depositRho_ok c hn _ _ _).1 h
  have key : s3.species = b.species ∧ c.Clock 0 0 0 b s3 ∧ c.SameEB b s3 := by
    unfold Cfg.maybeCross at h3
    split at h3
    · rw [crossDeposit_eq] at h3
      obtain ⟨sX, hX, h3⟩ := (except_bind_ok _ _ _).1 h3
      obtain ⟨sZ, hZ, h3⟩ := (except_bind_ok _ _ _).1 h3
      have h3 : c.movePush o.movePositions (0.5 * c.dt) 1 1 (-1) (-0.5 * c.dt) sZ = s3 := Except.ok.inj h3
      obtain ⟨dX, rfl⟩ := (depositRho_ok c hn _ _ _).1 hX
      obtain ⟨dZ, rfl⟩ := (depositRho_ok c hn _ _ _).1 hZ
      set a := c.movePush o.movePositions (0.5 * c.dt) 1 1 (-1) (-0.5 * c.dt) (c.withJ b) with ha
      set e := c.movePush o.movePositions c.dt (-1) (-1) 1 c.dt (c.withRho .nextXY a) with he
      refine ⟨?_, ?_, ?_⟩
      · rw [← h3, movePush_species, show (c.withRho .nextZ e).species = e.species from rfl, he, movePush_species,
          show (c.withRho .nextXY a).species = a.species from rfl, ha, movePush_species,
          show (c.withJ b).species = b.species from rfl, shiftAll_add, shiftAll_add]
        conv_rhs => rw [← shiftAll_zero c b.species]
        cases o.movePositions
        · simp
        · simp only [if_true]
          congr 1 <;> ring
      · have c1 := clock_move c o.movePositions (0.5 * c.dt) 1 1 (-1) (-0.5 * c.dt) (c.withJ b)
        have c2 := clock_move c o.movePositions c.dt (-1) (-1) 1 c.dt (c.withRho .nextXY a)
        have c3 := clock_move c o.movePositions (0.5 * c.dt) 1 1 (-1) (-0.5 * c.dt) (c.withRho .nextZ e)
        rw [← ha] at c1
        rw [← he] at c2
        rw [h3] at c3
        have d0 : c.Clock 0 0 0 b (c.withJ b) := .of_eq c rfl rfl rfl rfl
        have d1 : c.Clock 0 0 0 a (c.withRho .nextXY a) := .of_eq c rfl rfl rfl rfl
        have d2 : c.Clock 0 0 0 e (c.withRho .nextZ e) := .of_eq c rfl rfl rfl rfl
        have := (((((d0.trans c c1).trans c d1).trans c c2).trans c d2).trans c c3)
        have e0 : 0 + -0.5 * c.dt + 0 + c.dt + 0 + -0.5 * c.dt = 0 := by ring
        rw [e0] at this
        simpa using this
      · have e1 : c.SameEB (c.withJ b) a := .of_eq c (movePush_interp c _ _ _ _ _ _ _)
        have e2 : c.SameEB (c.withRho .nextXY a) e := .of_eq c (movePush_interp c _ _ _ _ _ _ _)
        have e3 : c.SameEB (c.withRho .nextZ e) s3 := .of_eq c (by rw [← h3]; exact movePush_interp c _ _ _ _ _ _ _)
        exact (((((withJ_sameEB c b).trans c e1).trans c (withRho_sameEB c _ a)).trans c e2).trans c
          (withRho_sameEB c _ e)).trans c e3
    · rw [← Except.ok.inj h3]
      exact ⟨rfl, .of_eq c rfl rfl rfl rfl, withJ_sameEB c b⟩
  obtain ⟨k1, k2, k3⟩ := key
  set s4 := c.movePush o.movePositions (0.5 * c.dt) 1 1 1 (0.5 * c.dt) s3 with hs4
  refine ⟨?_, ?_, ?_⟩
  · show s4.species = _
    rw [hs4, movePush_species, k1]; simp
  · have c1 := clock_move c o.movePositions (0.5 * c.dt) 1 1 1 (0.5 * c.dt) s3
    rw [← hs4] at c1
    have := (k2.trans c c1).trans c (Cfg.Clock.of_eq c (s := s4) (t := c.withRho .next s4) rfl rfl rfl rfl)
    simpa using this
  · exact (k3.trans c (.of_eq c (movePush_interp c _ _ _ _ _ _ _))).trans c (withRho_sameEB c _ s4)

end Fbpic.Pic
