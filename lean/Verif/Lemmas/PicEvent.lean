import Verif.Lemmas.PicIonize
import Verif.Lemmas.PicCloud

/-!
# Elementary processes in the middle of an iteration

A process is *neutral* if it changes only the particles, conserves the charge at every place (and momentum) and creates
no particle where there was none. Such a process changes no deposited density; runs with neutral processes never leave
their arrays, and keep Gauss' law.
-/

namespace Fbpic.Pic

open Transform ExternalField Step Spec

/-- A neutral process. -/
structure Neutral (a b : List Species) : Prop where
  head : b.map Species.head = a.map Species.head
  charge : ∀ φ, chargeSum φ b = chargeSum φ a
  places : ∀ sp' ∈ b, ∀ p' ∈ sp'.ptcl, ∃ sp ∈ a, sp.shape = sp'.shape ∧ sp.isTracer = sp'.isTracer ∧
    (sp'.q ≠ 0 → sp.q ≠ 0) ∧ ∃ p ∈ sp.ptcl, p'.place = p.place

theorem IonRelS.neutral {ionizers : ℕ → Option Ionizer} {a b : List Species} (h : IonRelS ionizers a b) : Neutral a b :=
  ⟨h.head, h.charge, h.places⟩

/-! ### Deposition -/

theorem addsOf_unit (sh : Shape) (f : DepField) (cc q : ℝ) (g : CylGrid) (beta : List ℝ) (m : ℕ) (p : DepPtcl) :
    addsOf sh f cc q g beta m p
      = (addsOf sh f cc 1 g beta m { p with w := 1 }).map fun a => (a.1, a.2.1, ((q * p.w : ℝ) : ℂ) * a.2.2) := by
  have hs : scalOf f cc q m p = ((q * p.w : ℝ) : ℂ) * scalOf f cc 1 m { p with w := 1 } := by
    have h0 : ((f.scal0 cc q p : ℝ) : ℂ) = ((q * p.w : ℝ) : ℂ) * ((f.scal0 cc 1 { p with w := 1 } : ℝ) : ℂ) := by
      rw [← Complex.ofReal_mul]
      congr 1
      cases f <;> simp only [DepField.scal0] <;> ring
    have hm : ∀ (a b : ℂ) (x y : ℝ) (k : ℂ), a = k * b → ∀ m, modeScal a x y m = k * modeScal b x y m := by
      intro a b x y k h m
      induction m with
      | zero => exact h
      | succ m ih => show _ * modeScal a x y m = k * (_ * modeScal b x y m); rw [ih]; ring
    unfold scalOf
    exact hm _ _ _ _ _ h0 m
  unfold addsOf
  rw [hs]
  show ptclAdds sh g (betaOf g beta p) _ _ (cylR p.x p.y) p.z
    = (ptclAdds sh g (betaOf g beta p) _ _ (cylR p.x p.y) p.z).map _
  simp only [ptclAdds, List.map_flatMap, List.map_map]
  refine congrArg (fun g => List.flatMap g _) ?_
  funext a
  refine congrArg (fun g => List.map g _) ?_
  funext b
  simp only [Function.comp]
  refine Prod.ext rfl (Prod.ext rfl ?_)
  show _ = ((q * p.w : ℝ) : ℂ) * _
  rw [mul_left_comm]

/-- What a unit charge at a place adds. -/
noncomputable def placeBuf (sh : Shape) (f : DepField) (cc : ℝ) (g : CylGrid) (beta : List ℝ) (m : ℕ) (p : PushPtcl) :
    Buf :=
  ptclBuf sh f cc 1 g beta m ⟨p.x, p.y, p.z, 1, p.mom.ux, p.mom.uy, p.mom.uz, p.mom.invGamma⟩

theorem ptclBuf_place (sh : Shape) (f : DepField) (cc q : ℝ) (g : CylGrid) (beta : List ℝ) (m : ℕ) (ion : Bool)
    (p : Ptcl) : ptclBuf sh f cc q g beta m (p.dep ion)
      = scaleB ((q * if ion then p.w * p.push.level else p.w : ℝ) : ℂ) (placeBuf sh f cc g beta m p.place) := by
  unfold placeBuf
  unfold ptclBuf
  rw [addsOf_unit]
  exact addBuf_scale _ _ _ _

theorem place_fields {p p' : Ptcl} (e : p'.place = p.place) : p'.push.x = p.push.x ∧ p'.push.y = p.push.y ∧
    p'.push.z = p.push.z ∧ p'.push.mom = p.push.mom := by
  have h1 := congrArg PushPtcl.x e
  have h2 := congrArg PushPtcl.y e
  have h3 := congrArg PushPtcl.z e
  have h4 := congrArg PushPtcl.mom e
  exact ⟨h1, h2, h3, h4⟩

theorem ptclOk_place (sh : Shape) (f : DepField) (cc q q' : ℝ) (g : CylGrid) (beta : List ℝ) (m : ℕ) (ion ion' : Bool)
    {p p' : Ptcl} (e : p'.place = p.place) (h : ptclOk sh f cc q g beta m (p.dep ion)) :
    ptclOk sh f cc q' g beta m (p'.dep ion') := by
  obtain ⟨ex, ey, ez, em⟩ := place_fields e
  have e1 : ({ (p'.dep ion') with w := 1 } : DepPtcl) = { (p.dep ion) with w := 1 } := by
    unfold Ptcl.dep
    simp only [ex, ey, ez, em]
  refine ⟨?_, ?_⟩
  · have := h.1
    unfold betaIdx Ptcl.dep at *
    simp only [ex, ey] at *
    exact this
  · have h2 := h.2
    rw [addsOf_unit] at h2 ⊢
    rw [e1]
    intro a ha
    obtain ⟨b, hb, rfl⟩ := List.mem_map.1 ha
    exact h2 (b.1, b.2.1, ((q * (p.dep ion).w : ℝ) : ℂ) * b.2.2) (List.mem_map.2 ⟨b, hb, rfl⟩)

theorem species_place (f : DepField) (cc : ℝ) (g : CylGrid) (beta : Shape → ℕ → List ℝ) (m : ℕ) (sp : Species)
    (i j : ℕ) : speciesBuf f cc g beta m sp.dep i j = (sp.ptcl.map fun p => (macroCharge sp p : ℂ) *
      placeBuf sp.shape f cc g (beta sp.shape (min m 1)) m p.place i j).sum := by
  unfold speciesBuf
  by_cases hq : sp.q = 0
  · rw [if_pos (show sp.dep.q = 0 from hq)]
    unfold macroCharge
    rw [hq]
    simp
  · rw [if_neg (show ¬ sp.dep.q = 0 from hq)]
    rw [show sp.dep.ptcls = sp.ptcl.map (Ptcl.dep sp.ionizable) from rfl, List.map_map, list_sum_apply,
      list_sum_apply, List.map_map, List.map_map]
    refine congrArg List.sum (List.map_congr_left fun p _ => ?_)
    show ptclBuf sp.shape f cc sp.q g (beta sp.shape (min m 1)) m (p.dep sp.ionizable) i j = _
    rw [ptclBuf_place]
    rfl

variable {Old : Seen → Prop}
variable (c : Cfg)

/-- The deposited array is a sum over all charges. -/
theorem depositing_charge (sps : List Species) (f : DepField) (cc : ℝ) (g : CylGrid) (m i j : ℕ) :
    (((sps.filter fun sp => !sp.isTracer).map Species.dep).map (speciesBuf f cc g c.beta m)).sum i j
      = chargeSum (fun sh tr p => if tr then 0 else placeBuf sh f cc g (c.beta sh (min m 1)) m p i j) sps := by
  induction sps with
  | nil => rfl
  | cons sp sps ih =>
    have e : chargeSum (fun sh tr p => if tr then 0 else placeBuf sh f cc g (c.beta sh (min m 1)) m p i j) (sp :: sps)
        = (sp.ptcl.map fun p => (macroCharge sp p : ℂ) * (if sp.isTracer then 0 else
            placeBuf sp.shape f cc g (c.beta sp.shape (min m 1)) m p.place i j)).sum
          + chargeSum (fun sh tr p => if tr then 0 else placeBuf sh f cc g (c.beta sh (min m 1)) m p i j) sps := rfl
    rw [e, ← ih]
    cases ht : sp.isTracer with
    | true =>
      rw [List.filter_cons_of_neg (by simp [ht])]
      simp
    | false =>
      rw [List.filter_cons_of_pos (by simp [ht])]
      simp only [List.map_cons, List.sum_cons, Pi.add_apply, species_place, Bool.false_eq_true, if_false]

theorem Neutral.depArr {s t : Sim} (h : Neutral s.species t.species) (hz : t.zmin = s.zmin) (f : DepField) (m : ℕ) :
    c.depArr f t m = c.depArr f s m := by
  unfold Cfg.depArr
  have : (t.depositing.map (speciesBuf f c.k.c (c.grid t.zmin) c.beta m)).sum
      = (s.depositing.map (speciesBuf f c.k.c (c.grid s.zmin) c.beta m)).sum := by
    funext i j
    unfold Sim.depositing
    rw [depositing_charge, depositing_charge, hz, h.charge]
  rw [this]

theorem Neutral.depOk {s t : Sim} (h : Neutral s.species t.species) (hz : t.zmin = s.zmin) {f : DepField}
    (hd : c.depOk f s) : c.depOk f t := by
  intro m hm sp hsp hq p hp
  obtain ⟨sp', h1, rfl⟩ := List.mem_map.1 hsp
  obtain ⟨h1, h2⟩ := List.mem_filter.1 h1
  obtain ⟨p', hp', rfl⟩ := List.mem_map.1 hp
  obtain ⟨sp0, g1, g2, g3, g4, p0, g5, g6⟩ := h.places sp' h1 p' hp'
  have hin : sp0.dep ∈ s.depositing := List.mem_map.2 ⟨sp0, List.mem_filter.2 ⟨g1, by rw [g3]; exact h2⟩, rfl⟩
  have := hd m hm sp0.dep hin (g4 hq) (p0.dep sp0.ionizable) (List.mem_map_of_mem g5)
  rw [hz]
  show ptclOk sp'.shape f c.k.c sp'.q (c.grid s.zmin) (c.beta sp'.shape (min m 1)) m (p'.dep sp'.ionizable)
  rw [← g2]
  exact ptclOk_place _ _ _ _ _ _ _ _ _ _ g6 this

/-! ### Motion -/

/-- All particles moved in the same way. -/
def mapPush (g : PushPtcl → PushPtcl) (sps : List Species) : List Species :=
  sps.map fun sp => { sp with ptcl := sp.ptcl.map fun p => { p with push := g p.push } }

theorem Neutral.map {a b : List Species} (h : Neutral a b) (g : PushPtcl → PushPtcl)
    (hg : ∀ p l, g { p with level := l } = { g p with level := l }) (hl : ∀ p, (g p).level = p.level) :
    Neutral (mapPush g a) (mapPush g b) := by
  have hh : ∀ l : List Species, (mapPush g l).map Species.head = l.map Species.head := by
    intro l
    unfold mapPush
    rw [List.map_map]
    rfl
  have hc : ∀ φ (l : List Species), chargeSum φ (mapPush g l) = chargeSum (fun sh tr p => φ sh tr (g p)) l := by
    intro φ l
    unfold chargeSum mapPush
    rw [List.map_map]
    refine congrArg List.sum (List.map_congr_left fun sp _ => ?_)
    show ((sp.ptcl.map _).map _).sum = _
    rw [List.map_map]
    refine congrArg List.sum (List.map_congr_left fun p _ => ?_)
    show ((sp.q * if sp.ionizable then p.w * (g p.push).level else p.w : ℝ) : ℂ)
      * φ sp.shape sp.isTracer { g p.push with level := 0 } = _
    rw [hl, show ({ g p.push with level := 0 } : PushPtcl) = g { p.push with level := 0 } from (hg p.push 0).symm]
    rfl
  refine ⟨by rw [hh, hh, h.head], fun φ => by rw [hc, hc, h.charge], ?_⟩
  intro sp' hsp' p' hp'
  obtain ⟨sp1, h1, rfl⟩ := List.mem_map.1 hsp'
  obtain ⟨p1, h2, rfl⟩ := List.mem_map.1 hp'
  obtain ⟨sp0, g1, g2, g3, g4, p0, g5, g6⟩ := h.places sp1 h1 p1 h2
  refine ⟨_, List.mem_map.2 ⟨sp0, g1, rfl⟩, g2, g3, g4, _, List.mem_map.2 ⟨p0, g5, rfl⟩, ?_⟩
  show ({ g p1.push with level := 0 } : PushPtcl) = { g p0.push with level := 0 }
  rw [show ({ g p1.push with level := 0 } : PushPtcl) = g { p1.push with level := 0 } from (hg p1.push 0).symm,
    show ({ g p0.push with level := 0 } : PushPtcl) = g { p0.push with level := 0 } from (hg p0.push 0).symm]
  exact congrArg g g6

theorem Neutral.move [NeZero c.Nz] {s t : Sim} (h : Neutral s.species t.species) (move : Bool) (dt px py pz dtg : ℝ) :
    Neutral (c.movePush move dt px py pz dtg s).species (c.movePush move dt px py pz dtg t).species := by
  unfold Cfg.movePush
  rw [shift_species, shift_species]
  cases move
  · exact h
  · exact h.map (Fbpic.pushX c.k.c dt px py pz) (fun _ _ => rfl) fun _ => rfl

theorem movePush_frame (move : Bool) (dt px py pz dtg : ℝ) {s t : Sim} (h : t.zmin = s.zmin) :
    (c.movePush move dt px py pz dtg t).zmin = (c.movePush move dt px py pz dtg s).zmin := by
  have e : ∀ s : Sim, (c.movePush move dt px py pz dtg s).zmin
      = if c.galilean then s.zmin + c.V.getD 0 * dtg else s.zmin := by
    intro s
    unfold Cfg.movePush Cfg.shiftGalilean
    cases move <;> cases c.galilean <;> rfl
  rw [e, e, h]

/-- The particles stay where they were. -/
theorem Neutral.inv {a b rho : ℝ} {s : Sim} (h : SInv c Old a b rho s) {sps : List Species} (hn : Neutral s.species sps) :
    SInv c Old a b rho { s with species := sps } where
  box := h.box
  sp := by
    intro sp' hsp'
    obtain ⟨i, hi⟩ := List.mem_iff_getElem?.1 hsp'
    obtain ⟨sp, h1, h2⟩ := head_get hn.head.symm hi
    obtain ⟨-, -, e1, -, e2, e3⟩ := head_iff.1 h2
    have := h.sp sp (List.mem_of_getElem? h1)
    exact ⟨fun hp => e2.symm.trans (this.plane (by rwa [← e3] at hp)), by rw [← e1]; exact this.reach⟩
  ptcl := by
    intro sp' hsp' p' hp'
    obtain ⟨sp, g1, -, -, -, p, g5, g6⟩ := hn.places sp' hsp' p' hp'
    have hP := h.ptcl sp g1 p g5
    obtain ⟨ex, ey, ez, em⟩ := place_fields g6
    have ev : c.vz p' = c.vz p := by unfold Cfg.vz; rw [em]
    exact ⟨by rw [em]; exact hP.mom, by rw [ez, ev]; exact hP.lo, by rw [ez, ev]; exact hP.hi,
      by rw [ex, ey]; exact hP.far⟩
  seen := h.seen

/-! ### What stays the same outside the process -/

/-- The same species with the same weights and levels. -/
def Moved (a b : List Species) : Prop :=
  List.Forall₂ (SpRel fun _ p p' => p'.w = p.w ∧ p'.push.level = p.push.level) a b

theorem Moved.refl (a : List Species) : Moved a a :=
  List.forall₂_same.2 fun _ _ => ⟨rfl, rfl, rfl, rfl, rfl, rfl, List.forall₂_same.2 fun _ _ => ⟨rfl, rfl⟩⟩

theorem Moved.trans {a b d : List Species} (h : Moved a b) (h' : Moved b d) : Moved a d := by
  refine forall₂_trans h h' fun x y z hxy hyz => ?_
  refine ⟨hyz.q.trans hxy.q, hyz.m.trans hxy.m, hyz.shape.trans hxy.shape, hyz.tracer.trans hxy.tracer,
    hyz.ionizable.trans hxy.ionizable, hyz.plane.trans hxy.plane, ?_⟩
  exact forall₂_trans hxy.ptcl hyz.ptcl fun p q r h1 h2 => ⟨h2.1.trans h1.1, h2.2.trans h1.2⟩

theorem Cfg.TX.moved {a : ℝ} {s t : Sim} (h : c.TX a s t) : Moved s.species t.species :=
  h.imp fun _ _ h => ⟨h.q, h.m, h.shape, h.tracer, h.ionizable, h.plane, h.ptcl.imp fun _ _ h => ⟨h.w, h.level⟩⟩

theorem moved_move [NeZero c.Nz] (move : Bool) (dt px pz dtg : ℝ) (s : Sim) :
    Moved s.species (c.movePush move dt px px pz dtg s).species :=
  ((Cfg.TX.refl c s).move c move).moved c

section
variable [NeZero c.Nz]

theorem start_moved (hn : 0 < c.nthreads) (i : ℕ) {s t : Sim} (h : c.iterStart i s = .ok t) :
    Moved s.species t.species := by
  rw [iterStart_eq] at h
  obtain ⟨s2, h2, h⟩ := (except_bind_ok _ _ _).1 h
  obtain ⟨s3, h3, h⟩ := (except_bind_ok _ _ _).1 h
  obtain ⟨s4, h4, h⟩ := (except_bind_ok _ _ _).1 h
  rw [← (Except.ok.inj h : c.applyExts s4 = t)]
  have q2 : Moved s.species s2.species := by
    split_ifs at h2
    · obtain ⟨s1, h1, h2⟩ := (except_bind_ok _ _ _).1 h2
      obtain ⟨-, rfl⟩ := (depositRho_ok c hn _ _ _).1 h2
      exact ((Cfg.TX.refl c s).wrap c h1).moved c
    · rw [← Except.ok.inj h2]; exact .refl _
  have q3 : Moved s2.species s3.species := by
    split_ifs at h3
    · obtain ⟨-, rfl⟩ := (depositJ_ok c hn _ _).1 h3
      exact .refl _
    · rw [← Except.ok.inj h3]; exact .refl _
  exact (q2.trans q3).trans ((((Cfg.TX.refl c s3).gather c h4).exts c).moved c)

theorem half_moved (o : Opts) {s t : Sim} (h : c.iterHalf o s = .ok t) : Moved s.species t.species :=
  (half_fields c o (Cfg.TX.refl c s) h).2.moved c

theorem evDeposit_moved (hn : 0 < c.nthreads) (o : Opts) {s t : Sim} (h : c.iterDeposit o s = .ok t) :
    Moved s.species t.species := by
  rw [iterDeposit_eq] at h
  obtain ⟨s2, h2, h⟩ := (except_bind_ok _ _ _).1 h
  obtain ⟨-, rfl⟩ := (depositJ_ok c hn _ _).1 h2
  obtain ⟨s3, h3, h⟩ := (except_bind_ok _ _ _).1 h
  obtain ⟨-, rfl⟩ := (depositRho_ok c hn _ _ _).1 h
  have q3 : Moved (c.withJ s).species s3.species := by
    unfold Cfg.maybeCross at h3
    split at h3
    · rw [crossDeposit_eq] at h3
      obtain ⟨sX, hX, h3⟩ := (except_bind_ok _ _ _).1 h3
      obtain ⟨sZ, hZ, h3⟩ := (except_bind_ok _ _ _).1 h3
      rw [← Except.ok.inj h3]
      obtain ⟨-, rfl⟩ := (depositRho_ok c hn _ _ _).1 hX
      obtain ⟨-, rfl⟩ := (depositRho_ok c hn _ _ _).1 hZ
      exact ((moved_move c _ _ _ _ _ _).trans (moved_move c _ _ _ _ _ (c.withRho .nextXY _))).trans
        (moved_move c _ _ _ _ _ (c.withRho .nextZ _))
    · rw [← Except.ok.inj h3]; exact .refl _
  exact Moved.trans (b := s3.species) q3 (moved_move c _ _ _ _ _ s3)

/-! ### Whole iterations -/

/-- A process that is neutral as long as `Q` holds, which it keeps. -/
structure NeutralEvent (Q : List Species → Prop) (ev : Sim → Except PyErr Sim) : Prop where
  run : ∀ s, Q s.species → ∃ sps, ev s = .ok { s with species := sps } ∧ Neutral s.species sps ∧ Q sps
  moved : ∀ a b, Moved a b → Q a → Q b

theorem iterEv_eq (ev : Sim → Except PyErr Sim) (o : Opts) (i : ℕ) (s : Sim) (hp : c.exchangePeriod ≠ 0) :
    c.iterEv ev o i s = (do
      let s ← c.iterStart i s
      let s ← c.iterHalf o s
      let s ← ev s
      let s ← c.iterDeposit o s
      c.iterEnd o s) := if_neg hp

theorem half_inv (hs : Sane c) {rho : ℝ} (o : Opts) (i : ℕ) {s : Sim} (h : Loose c Old rho s) :
    ∃ s1 s2, c.iterStart i s = .ok s1 ∧ c.iterHalf o s1 = .ok s2 ∧
      SInv c Old (if o.movePositions then 0.5 * c.dt else 0) (0.5 * c.dt) (rho - c.k.c * c.dt / 2) s2 := by
  have hdt := hs.dt_pos
  have hz : |(0 : ℝ)| ≤ c.dt := by rw [abs_zero]; exact hdt.le
  have ah : |(0.5 : ℝ) * c.dt| = c.dt / 2 := by rw [abs_of_pos (by linarith)]; ring
  have hmod : s.iteration % c.exchangePeriod = 0 := by rw [hs.period]; exact Nat.mod_one _
  have hstart : ∃ t, c.iterStart i s = .ok t ∧ SInv c Old 0 0 rho t := by
    rw [iterStart_eq]
    simp only [if_pos (Or.inl hmod : s.iteration % c.exchangePeriod = 0 ∨ i = 0)]
    obtain ⟨s1, e1, h1⟩ := h.wrap c hs
    obtain ⟨s2, e2, h2⟩ := h1.rho c hs hz hz .prev
    have hJ : ∃ s3, (if i = 0 then c.depositJ s2 else pure s2) = .ok s3 ∧ SInv c Old 0 0 rho s3 := by
      by_cases hi : i = 0
      · rw [if_pos hi]; exact h2.J c hs hz hz
      · rw [if_neg hi]; exact ⟨s2, rfl, h2⟩
    obtain ⟨s3, e3, h3⟩ := hJ
    obtain ⟨s4, e4, h4⟩ := h3.gather c hs
    exact ⟨_, (except_bind_ok _ _ _).2 ⟨s2, (except_bind_ok _ _ _).2 ⟨s1, e1, e2⟩, (except_bind_ok _ _ _).2 ⟨s3, e3,
      (except_bind_ok _ _ _).2 ⟨s4, e4, rfl⟩⟩⟩, h4.exts c⟩
  obtain ⟨s1, e1, h1⟩ := hstart
  have hP : ∃ s2, (if o.moveMomenta then c.pushPAll s1 else pure s1) = .ok s2 ∧ SInv c Old 0 0 rho s2 := by
    by_cases hi : o.moveMomenta = true
    · rw [if_pos hi]; exact h1.pushP c
    · rw [if_neg hi]; exact ⟨s1, rfl, h1⟩
  obtain ⟨s2, e2, h2⟩ := hP
  refine ⟨s1, _, e1, by rw [iterHalf_eq]; exact (except_bind_ok _ _ _).2 ⟨s2, e2, rfl⟩, ?_⟩
  have := h2.move c hs (dt := 0.5 * c.dt) (px := 1) (pz := 1) (dtg := 0.5 * c.dt) o.movePositions (by norm_num)
  rw [ah, zero_add, zero_add, mul_one, show rho - c.k.c * (c.dt / 2) = rho - c.k.c * c.dt / 2 by ring] at this
  exact this

theorem deposit_inv (hs : Sane c) {rho : ℝ} (o : Opts) {s : Sim}
    (h : SInv c Old (if o.movePositions then 0.5 * c.dt else 0) (0.5 * c.dt) (rho - c.k.c * c.dt / 2) s) :
    ∃ t, c.iterDeposit o s = .ok t ∧
      SInv c Old (if o.movePositions then c.dt else 0) c.dt (rho - 3 * (c.k.c * c.dt)) t := by
  have hdt := hs.dt_pos
  have hcd : 0 < c.k.c * c.dt := mul_pos hs.c_pos hdt
  have hz : |(0 : ℝ)| ≤ c.dt := by rw [abs_zero]; exact hdt.le
  have ah : |(0.5 : ℝ) * c.dt| = c.dt / 2 := by rw [abs_of_pos (by linarith)]; ring
  have ad : |c.dt| = c.dt := abs_of_pos hdt
  set A : ℝ := if o.movePositions then 0.5 * c.dt else 0 with hA
  have hAb : |A| ≤ c.dt := by rw [hA]; split_ifs <;> [(rw [ah]; linarith); exact hz]
  have hHb : |0.5 * c.dt| ≤ c.dt := by rw [ah]; linarith
  rw [iterDeposit_eq]
  obtain ⟨s3, e3, h3⟩ := h.J c hs hAb hHb
  have hcross : ∃ s4, c.maybeCross o s3 = .ok s4 ∧ SInv c Old A (0.5 * c.dt) (rho - 5 / 2 * (c.k.c * c.dt)) s4 := by
    unfold Cfg.maybeCross
    split
    · rw [crossDeposit_eq]
      have g1 := h3.move c hs (dt := 0.5 * c.dt) (px := 1) (pz := -1) (dtg := -0.5 * c.dt) o.movePositions (by norm_num)
      have A1 : (if o.movePositions = true then A + 0.5 * c.dt * -1 else A) = 0 := by
        rw [hA]; split_ifs <;> ring
      rw [A1, ah, show 0.5 * c.dt + -0.5 * c.dt = 0 by ring] at g1
      obtain ⟨s5, e5, h5⟩ := g1.rho c hs hz hz .nextXY
      have g2 := h5.move c hs (dt := c.dt) (px := -1) (pz := 1) (dtg := c.dt) o.movePositions (by norm_num)
      rw [ad, zero_add, zero_add, mul_one] at g2
      have hD : |if o.movePositions = true then c.dt else 0| ≤ c.dt := by
        split_ifs <;> [rw [ad]; exact hz]
      obtain ⟨s6, e6, h6⟩ := g2.rho c hs hD (by rw [ad]) .nextZ
      have g3 := h6.move c hs (dt := 0.5 * c.dt) (px := 1) (pz := -1) (dtg := -0.5 * c.dt) o.movePositions (by norm_num)
      have A3 : (if o.movePositions = true then (if o.movePositions = true then c.dt else 0) + 0.5 * c.dt * -1
          else (if o.movePositions = true then c.dt else 0)) = A := by
        rw [hA]; split_ifs <;> ring
      rw [A3, ah, show c.dt + -0.5 * c.dt = 0.5 * c.dt by ring] at g3
      exact ⟨_, (except_bind_ok _ _ _).2 ⟨s5, e5, (except_bind_ok _ _ _).2 ⟨s6, e6, rfl⟩⟩, g3.mono c (by linarith)⟩
    · exact ⟨s3, rfl, h3.mono c (by linarith)⟩
  obtain ⟨s4, e4, h4⟩ := hcross
  have g := h4.move c hs (dt := 0.5 * c.dt) (px := 1) (pz := 1) (dtg := 0.5 * c.dt) o.movePositions (by norm_num)
  have A5 : (if o.movePositions = true then A + 0.5 * c.dt * 1 else A) = if o.movePositions = true then c.dt else 0 := by
    rw [hA]; split_ifs <;> ring
  rw [A5, ah, show 0.5 * c.dt + 0.5 * c.dt = c.dt by ring] at g
  have hD : |if o.movePositions = true then c.dt else 0| ≤ c.dt := by
    split_ifs <;> [rw [ad]; exact hz]
  obtain ⟨s5, e5, h5⟩ := g.rho c hs hD (by rw [ad]) .next
  exact ⟨s5, (except_bind_ok _ _ _).2 ⟨s3, e3, (except_bind_ok _ _ _).2 ⟨s4, e4, e5⟩⟩, h5.mono c (by linarith)⟩

variable {Q : List Species → Prop} {ev : Sim → Except PyErr Sim}

/-- One iteration with a process in the middle: all states of the iteration. -/
theorem iterEv_run (hs : Sane c) (hev : NeutralEvent Q ev) {rho : ℝ} (o : Opts)
    (ho : o.correctDivE = true → c.correction = .curlFree) (i : ℕ) {s : Sim} (h : Loose c Old rho s) (hQ : Q s.species) :
    ∃ a b sps d t, c.iterStart i s = .ok a ∧ c.iterHalf o a = .ok b ∧ Q b.species ∧
      ev b = .ok { b with species := sps } ∧ Neutral b.species sps ∧ c.iterDeposit o { b with species := sps } = .ok d ∧
      c.iterEnd o d = .ok t ∧ c.iterEv ev o i s = .ok t ∧
      SInv c Old (if o.movePositions then 0.5 * c.dt else 0) (0.5 * c.dt) (rho - c.k.c * c.dt / 2) b ∧
      SInv c Old (if o.movePositions then c.dt else 0) c.dt (rho - 3 * (c.k.c * c.dt)) t ∧ Q t.species := by
  obtain ⟨a, b, ha, hb, hib⟩ := half_inv c hs o i h
  have hQb : Q b.species := hev.moved _ _ ((start_moved c hs.threads i ha).trans (half_moved c o hb)) hQ
  obtain ⟨sps, hev1, hev2, hev3⟩ := hev.run b hQb
  obtain ⟨d, hd, hid⟩ := deposit_inv c hs (rho := rho) o (hev2.inv c hib)
  obtain ⟨t, ht, hit⟩ := hid.iterEnd c o ho
  refine ⟨a, b, sps, d, t, ha, hb, hQb, hev1, hev2, hd, ht, ?_, hib, hit, ?_⟩
  · rw [iterEv_eq c ev o i s (by rw [hs.period]; exact one_ne_zero)]
    exact (except_bind_ok _ _ _).2 ⟨a, ha, (except_bind_ok _ _ _).2 ⟨b, hb, (except_bind_ok _ _ _).2 ⟨_, hev1,
      (except_bind_ok _ _ _).2 ⟨d, hd, ht⟩⟩⟩⟩
  · rw [(iterEnd_ok c o ht).2.1]
    exact hev.moved _ _ (evDeposit_moved c hs.threads o hd) hev3

/-- Relations that hold along a run. -/
structure Along (Q : List Species → Prop) (ev : Sim → Except PyErr Sim) (R : List Species → List Species → Prop) :
    Prop where
  trans : ∀ a b d, R a b → R b d → R a d
  moved : ∀ a b, Moved a b → R a b
  ev : ∀ s t, Q s.species → ev s = .ok t → R s.species t.species

theorem callsEv_run (hs : Sane c) (hev : NeutralEvent Q ev) {R : List Species → List Species → Prop}
    (hR : Along Q ev R) (L : List (ℕ × Opts)) : ∀ (rho : ℝ) (s : Sim),
      (∀ x ∈ L, x.2.correctDivE = true → c.correction = .curlFree) → Loose c Old rho s → Q s.species →
      ∃ t, c.callsEv ev L s = .ok t ∧ Loose c Old (rho - (L.map Prod.fst).sum * (3 * (c.k.c * c.dt))) t ∧ Q t.species ∧
        R s.species t.species := by
  have hloop : ∀ (o : Opts), (o.correctDivE = true → c.correction = .curlFree) → ∀ (n i : ℕ) (rho : ℝ) (s : Sim),
      Loose c Old rho s → Q s.species → ∃ t, c.loopEv ev o i n s = .ok t ∧
        Loose c Old (rho - n * (3 * (c.k.c * c.dt))) t ∧ Q t.species ∧ R s.species t.species := by
    intro o ho n
    induction n with
    | zero => intro i rho s h hQ; exact ⟨s, rfl, by simpa using h, hQ, hR.moved _ _ (.refl _)⟩
    | succ n ih =>
      intro i rho s h hQ
      obtain ⟨a, b, sps, d, u, ha, hb, hQb, he, hne, hd, hu, e1, -, h1, hQ1⟩ := iterEv_run c hs hev o ho i h hQ
      have hdt := hs.dt_pos
      have hl : Loose c Old (rho - 3 * (c.k.c * c.dt)) u := by
        refine h1.loose c hs ?_ (by rw [abs_of_pos hdt])
        split_ifs
        · rw [abs_of_pos hdt]
        · rw [abs_zero]; exact hdt.le
      obtain ⟨t, e2, h2, hQ2, hR2⟩ := ih (i + 1) _ u hl hQ1
      refine ⟨t, (except_bind_ok _ _ _).2 ⟨u, e1, e2⟩, ?_, hQ2, ?_⟩
      · push_cast
        rw [show rho - ((n : ℝ) + 1) * (3 * (c.k.c * c.dt)) = rho - 3 * (c.k.c * c.dt) - n * (3 * (c.k.c * c.dt)) by ring]
        exact h2
      · refine hR.trans _ _ _ ?_ hR2
        rw [(iterEnd_ok c o hu).2.1]
        refine hR.trans _ _ _ (hR.moved _ _ ((start_moved c hs.threads i ha).trans (half_moved c o hb))) ?_
        exact hR.trans _ _ _ (hR.ev _ _ hQb he) (hR.moved _ _ (evDeposit_moved c hs.threads o hd))
  induction L with
  | nil => intro rho s _ h hQ; exact ⟨s, rfl, by simpa using h, hQ, hR.moved _ _ (.refl _)⟩
  | cons x L ih =>
    obtain ⟨n, o⟩ := x
    intro rho s ho h hQ
    have h0 : Loose c Old rho (c.startFields s) := ⟨h.box, h.sp, h.ptcl, h.seen⟩
    obtain ⟨s1, e1, h1, hQ1, hR1⟩ := hloop o (ho (n, o) (by simp)) n 0 rho _ h0 hQ
    have h1' : Loose c Old (rho - n * (3 * (c.k.c * c.dt))) (c.endFields s1) := ⟨h1.box, h1.sp, h1.ptcl, h1.seen⟩
    obtain ⟨t, e2, h2, hQ2, hR2⟩ := ih _ _ (fun x hx => ho x (by simp [hx])) h1' hQ1
    refine ⟨t, (except_bind_ok _ _ _).2 ⟨_, (except_bind_ok _ _ _).2 ⟨s1, e1, rfl⟩, e2⟩, ?_, hQ2,
      hR.trans _ _ _ hR1 hR2⟩
    rw [List.map_cons, List.sum_cons, Nat.cast_add]
    rw [show rho - ((n : ℝ) + ((L.map Prod.fst).sum : ℕ)) * (3 * (c.k.c * c.dt))
      = rho - n * (3 * (c.k.c * c.dt)) - ((L.map Prod.fst).sum : ℕ) * (3 * (c.k.c * c.dt)) by ring]
    exact h2

end

end Fbpic.Pic
