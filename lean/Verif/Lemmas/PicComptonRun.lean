import Verif.Lemmas.PicCompton

/-!
# Lemmas: runs in which electrons may be kicked

After a recoil the stored `inv_gamma` of an electron is too large, so that it moves faster than light, by a bounded
factor, until its momentum is pushed. The invariant follows the distance of the particles to the box.
-/

namespace Fbpic.Pic

open Transform ExternalField Step Spec

theorem forall₂_right {α β : Type} {R : α → β → Prop} {l : List α} {l' : List β} (h : List.Forall₂ R l l') :
    ∀ b ∈ l', ∃ a ∈ l, R a b := by
  induction h with
  | nil => simp
  | cons hab _ ih =>
    intro b hb
    rcases List.mem_cons.1 hb with rfl | hb
    · exact ⟨_, by simp, hab⟩
    · obtain ⟨a, h1, h2⟩ := ih b hb
      exact ⟨a, by simp [h1], h2⟩

theorem map_total (f : Species → Ptcl → Except PyErr Ptcl) (s : Sim) (Q : Species → Ptcl → Ptcl → Prop)
    (hf : ∀ sp ∈ s.species, ∀ p ∈ sp.ptcl, ∃ p', f sp p = .ok p' ∧ Q sp p p') :
    ∃ sps, s.mapPtclM f = .ok { s with species := sps } ∧ List.Forall₂ (SpRel Q) s.species sps := by
  have key : ∀ L : List Species, (∀ sp ∈ L, ∀ p ∈ sp.ptcl, ∃ p', f sp p = .ok p' ∧ Q sp p p') →
      ∃ sps, List.Forall₂ (SpRel fun sp p p' => f sp p = .ok p') L sps ∧ List.Forall₂ (SpRel Q) L sps := by
    intro L
    induction L with
    | nil => intro _; exact ⟨[], List.Forall₂.nil, List.Forall₂.nil⟩
    | cons a L ih =>
      intro h1
      obtain ⟨sps, hs1, hs2⟩ := ih fun sp h => h1 sp (by simp [h])
      have hl : ∀ l : List Ptcl, (∀ p ∈ l, ∃ p', f a p = .ok p' ∧ Q a p p') →
          ∃ l', List.Forall₂ (fun p p' => f a p = .ok p') l l' ∧ List.Forall₂ (Q a) l l' := by
        intro l
        induction l with
        | nil => intro _; exact ⟨[], List.Forall₂.nil, List.Forall₂.nil⟩
        | cons p l ih =>
          intro h
          obtain ⟨l', e1, e2⟩ := ih fun p hp => h p (by simp [hp])
          obtain ⟨p', e3, e4⟩ := h p (by simp)
          exact ⟨p' :: l', List.Forall₂.cons e3 e1, List.Forall₂.cons e4 e2⟩
      obtain ⟨l', e1, e2⟩ := hl a.ptcl (h1 a (by simp))
      exact ⟨{ a with ptcl := l' } :: sps, List.Forall₂.cons ⟨rfl, rfl, rfl, rfl, rfl, rfl, e1⟩ hs1,
        List.Forall₂.cons ⟨rfl, rfl, rfl, rfl, rfl, rfl, e2⟩ hs2⟩
  obtain ⟨sps, h1, h2⟩ := key s.species hf
  exact ⟨sps, (mapPtclM_ok _ _ _).2 ⟨sps, h1, rfl⟩, h2⟩

theorem SpRel.kickable {P : Species → Ptcl → Ptcl → Prop} {a b : Species} (h : SpRel P a b) :
    Kickable b ↔ Kickable a := by
  unfold Kickable
  rw [h.q, h.plane, h.ionizable]

variable (c : Cfg)

/-- The largest distance to the box, for particles that move at `c` and then at `V c` for half a step each. -/
noncomputable def Cfg.slack (V : ℝ) : ℝ := (c.k.c * ((1 + V) / 2) + |c.vg|) * c.dt

/-- What is asked from the species. -/
structure NearSp (V : ℝ) (sp : Species) : Prop where
  plane : sp.plane ≠ none → sp.ionizable = false
  reach : c.slack V * c.invdz < sp.shape.reach

/-- Speed and position of a particle. -/
structure PNear (v d zmin zmax : ℝ) (kick : Prop) (p : Ptcl) : Prop where
  fast : velocity2 p.push.mom ≤ v ^ 2
  calm : ¬ kick → velocity2 p.push.mom ≤ 1
  lo : zmin - d ≤ p.push.z
  hi : p.push.z < zmax + d

/-- The invariant: speeds of at most `v` (in units of `c`), and all particles within `d` of the box. -/
structure Near (V v d : ℝ) (s : Sim) : Prop where
  box : c.invdz * (s.zmax - s.zmin) = c.Nz
  sp : ∀ sp ∈ s.species, NearSp c V sp
  ptcl : ∀ sp ∈ s.species, ∀ p ∈ sp.ptcl, PNear v d s.zmin s.zmax (Kickable sp) p

variable {c}

theorem Near.of_rel {V v d v' d' : ℝ} {s : Sim} (h : Near c V v d s) {sps : List Species}
    (hr : List.Forall₂ (SpRel fun sp _ p' => PNear v' d' s.zmin s.zmax (Kickable sp) p') s.species sps) :
    Near c V v' d' { s with species := sps } where
  box := h.box
  sp := by
    intro sp' hsp'
    obtain ⟨sp, h1, h2⟩ := forall₂_right hr sp' hsp'
    have := h.sp sp h1
    exact ⟨fun hp => h2.ionizable.trans (this.plane (by rwa [h2.plane] at hp)), by rw [h2.shape]; exact this.reach⟩
  ptcl := by
    intro sp' hsp' p' hp'
    obtain ⟨sp, h1, h2⟩ := forall₂_right hr sp' hsp'
    obtain ⟨p, h3, h4⟩ := forall₂_right h2.ptcl p' hp'
    exact ⟨h4.fast, fun hk => h4.calm (fun h => hk (h2.kickable.2 h)), h4.lo, h4.hi⟩

variable (c)

theorem Near.mono {V v d v' d' : ℝ} {s : Sim} (h : Near c V v d s) (hv0 : 0 ≤ v) (hv : v ≤ v') (hd : d ≤ d') :
    Near c V v' d' s where
  box := h.box
  sp := h.sp
  ptcl := fun sp hsp p hp => by
    have := h.ptcl sp hsp p hp
    exact ⟨this.fast.trans (pow_le_pow_left₀ hv0 hv 2), this.calm, by linarith [this.lo], by linarith [this.hi]⟩

/-! ### Deposition -/

theorem Near.depOk (hs : Sane c) {V v d : ℝ} {s : Sim} (h : Near c V v d s) (hd : d ≤ c.slack V) (f : DepField) :
    c.depOk f s := by
  intro m _ sp hsp
  have := (depositAll_ok f c.k.c (c.grid s.zmin) c.beta m 1 one_pos [sp] _).1
    (C24_deposit_partial f c.k.c (c.grid s.zmin) c.beta m 1 one_pos [sp] hs.beta hs.invdr rfl ?_).choose_spec
  · exact this.1 sp (by simp)
  · intro sp' hsp' p hp
    rw [List.mem_singleton.1 hsp'] at hp ⊢
    obtain ⟨sp0, h0, rfl⟩ := List.mem_map.1 hsp
    obtain ⟨p0, hp0, rfl⟩ := List.mem_map.1 hp
    have hsp0 := (List.mem_filter.1 h0).1
    have hP := h.ptcl sp0 hsp0 p0 hp0
    have hr := (h.sp sp0 hsp0).reach
    show -sp0.shape.reach < c.invdz * (p0.push.z - s.zmin) ∧ c.invdz * (p0.push.z - s.zmin) ≤ c.Nz + sp0.shape.reach
    have hlo := mul_le_mul_of_nonneg_left (show -c.slack V ≤ p0.push.z - s.zmin by linarith [hP.lo]) hs.invdz.le
    have hhi := mul_le_mul_of_nonneg_left (show p0.push.z - s.zmin ≤ (s.zmax - s.zmin) + c.slack V by linarith [hP.hi])
      hs.invdz.le
    rw [mul_add, h.box] at hhi
    constructor <;> nlinarith

theorem Near.record {V v d : ℝ} {s : Sim} (h : Near c V v d s) : Near c V v d s.record := ⟨h.box, h.sp, h.ptcl⟩

section
variable [NeZero c.Nz]

theorem Near.rho (hs : Sane c) {V v d : ℝ} {s : Sim} (h : Near c V v d s) (hd : d ≤ c.slack V) (n : RhoName) :
    c.depositRho n s = .ok (c.withRho n s) ∧ Near c V v d (c.withRho n s) :=
  ⟨(depositRho_ok c hs.threads n s _).2 ⟨h.depOk c hs hd _, rfl⟩, h.box, h.sp, h.ptcl⟩

theorem Near.J (hs : Sane c) {V v d : ℝ} {s : Sim} (h : Near c V v d s) (hd : d ≤ c.slack V) :
    c.depositJ s = .ok (c.withJ s) ∧ Near c V v d (c.withJ s) :=
  ⟨(depositJ_ok c hs.threads s _).2 ⟨⟨h.depOk c hs hd _, h.depOk c hs hd _, h.depOk c hs hd _⟩, rfl⟩,
    h.box, h.sp, h.ptcl⟩

/-! ### Particles -/

theorem Near.box_le (hs : Sane c) {V v d : ℝ} {s : Sim} (h : Near c V v d s) {sp : Species} (hsp : sp ∈ s.species) :
    c.slack V ≤ s.zmax - s.zmin := by
  have h2 : (2 : ℝ) ≤ c.Nz := by exact_mod_cast hs.Nz
  have h3 : sp.shape.reach ≤ 3 / 2 := by cases sp.shape <;> norm_num [Shape.reach]
  have h4 : c.invdz * c.slack V ≤ c.invdz * (s.zmax - s.zmin) := by
    rw [h.box]; linarith [(h.sp sp hsp).reach]
  exact le_of_mul_le_mul_left h4 hs.invdz

/-- Bringing the particles into the box. -/
theorem Near.wrap (hs : Sane c) {V v : ℝ} {s : Sim} (h : Near c V v (s.zmax - s.zmin) s) :
    ∃ t, c.wrapAll s = .ok t ∧ Near c V v 0 t := by
  obtain ⟨sps, h1, h2⟩ := map_total (fun _ p => c.wrap s.zmin s.zmax p) s
    (fun sp _ p' => PNear v 0 s.zmin s.zmax (Kickable sp) p') (by
      intro sp hsp p hp
      have hP := h.ptcl sp hsp p hp
      obtain ⟨z', ez, hl, hh⟩ := wrapZ_two s.zmin s.zmax p.push.z c.fuel hs.fuel (box_pos c hs h.box) hP.lo hP.hi
      refine ⟨{ p with push := { p.push with z := z' } }, ?_, hP.fast, hP.calm, ?_, ?_⟩
      · unfold Cfg.wrap; rw [ez]
      · simpa using hl
      · simpa using hh)
  exact ⟨_, h1, h.of_rel h2⟩

theorem Near.gather (hs : Sane c) {V v : ℝ} {s : Sim} (h : Near c V v 0 s) :
    ∃ t, c.gatherAll s = .ok t ∧ Near c V v 0 t := by
  obtain ⟨sps, h1, h2⟩ := map_total (c.gatherPtcl s) s.record
    (fun sp _ p' => PNear v 0 s.zmin s.zmax (Kickable sp) p') (by
      intro sp hsp p hp
      have hP := h.ptcl sp hsp p hp
      unfold Cfg.gatherPtcl
      by_cases hq : sp.q = 0
      · rw [if_pos hq]; exact ⟨p, rfl, hP⟩
      · rw [if_neg hq]
        have hlo := hP.lo
        have hhi := hP.hi
        simp only [sub_zero, add_zero] at hlo hhi
        have hz0 : 0 ≤ c.invdz * (p.push.z - s.zmin) := mul_nonneg hs.invdz.le (by linarith)
        have hz1 : c.invdz * (p.push.z - s.zmin) ≤ c.Nz := by
          rw [← h.box]; exact mul_le_mul_of_nonneg_left (by linarith) hs.invdz.le
        have hr : 0 ≤ c.invdr * (cylR p.push.x p.push.y - 0) :=
          mul_nonneg hs.invdr.le (by rw [sub_zero]; exact Real.sqrt_nonneg _)
        obtain ⟨E, hE⟩ := gatherField_total sp.shape (c.grid s.zmin) c.rmaxGather
          ((List.range c.Nm).map fun m => (s.interp m).E) p.push.x p.push.y p.push.z hs.Nz hs.Nr hz0 hz1 hr
        obtain ⟨B, hB⟩ := gatherField_total sp.shape (c.grid s.zmin) c.rmaxGather
          ((List.range c.Nm).map fun m => (s.interp m).B) p.push.x p.push.y p.push.z hs.Nz hs.Nr hz0 hz1 hr
        exact ⟨_, (except_bind_ok _ _ _).2 ⟨E, hE, (except_bind_ok _ _ _).2 ⟨B, hB, rfl⟩⟩, hP.fast, hP.calm,
          hP.lo, hP.hi⟩)
  exact ⟨_, h1, (h.record c).of_rel h2⟩

theorem Near.exts {V v d : ℝ} {s : Sim} (h : Near c V v d s) : Near c V v d (c.applyExts s) := by
  have hr : List.Forall₂ (SpRel fun sp _ p' => PNear v d s.zmin s.zmax (Kickable sp) p') s.species
      (c.applyExts s).species := by
    rw [List.forall₂_iff_get]
    refine ⟨by simp [Cfg.applyExts], fun i h1 h2 => ?_⟩
    simp only [Cfg.applyExts, List.get_eq_getElem, List.getElem_mapIdx]
    refine ⟨rfl, rfl, rfl, rfl, rfl, rfl, ?_⟩
    rw [List.forall₂_map_right_iff]
    refine List.forall₂_same.2 fun p hp => ?_
    have hP := h.ptcl _ (List.getElem_mem h1) p hp
    refine ⟨?_, ?_, ?_, ?_⟩ <;> rw [applyExts_push]
    · exact hP.fast
    · exact hP.calm
    · exact hP.lo
    · exact hP.hi
  exact h.of_rel hr

/-- The momentum push makes all electrons consistent. -/
theorem Near.pushP {V v : ℝ} {s : Sim} (h : Near c V v 0 s) :
    ∃ t, c.pushPAll s = .ok t ∧ Near c V 1 0 t ∧ Oks t.species := by
  obtain ⟨sps, h1, h2⟩ := map_total (c.pushP (s.time + 0.5 * c.dt)) s
    (fun sp _ p' => PNear 1 0 s.zmin s.zmax (Kickable sp) p' ∧ (Kickable sp → p'.push.mom.ok)) (by
      intro sp hsp p hp
      have hP := h.ptcl sp hsp p hp
      have mk : ∀ e : ElecMom, e.ok → PNear 1 0 s.zmin s.zmax (Kickable sp) { p with push := { p.push with mom := e } } ∧
          (Kickable sp → e.ok) := by
        intro e he
        have := velocity2_ok he
        exact ⟨⟨by rw [one_pow]; exact this, fun _ => this, hP.lo, hP.hi⟩, fun _ => he⟩
      have stay : ¬ Kickable sp → PNear 1 0 s.zmin s.zmax (Kickable sp) p ∧ (Kickable sp → p.push.mom.ok) := by
        intro hk
        exact ⟨⟨by rw [one_pow]; exact hP.calm hk, hP.calm, hP.lo, hP.hi⟩, fun h => absurd h hk⟩
      unfold Cfg.pushP
      by_cases hq : sp.q = 0
      · rw [if_pos hq]; exact ⟨p, rfl, stay fun h => h.1 hq⟩
      rw [if_neg hq]
      cases hpl : sp.plane with
      | some b =>
        have := (h.sp sp hsp).plane (by rw [hpl]; simp)
        simp only [this, Bool.false_eq_true, if_false]
        refine ⟨_, rfl, ?_⟩
        unfold pushPAfterPlane
        split_ifs
        · exact mk _ (C27_consistent _ _ _ _ _)
        · refine stay fun h => ?_
          have := h.2.1
          rw [hpl] at this
          cases this
      | none =>
        simp only
        by_cases hi : sp.ionizable = true
        · rw [if_pos hi]
          refine ⟨_, rfl, ?_⟩
          unfold pushPIoniz
          split_ifs
          · refine stay fun h => ?_
            have := h.2.2
            rw [hi] at this
            cases this
          · exact mk _ (C27_consistent _ _ _ _ _)
        · rw [if_neg hi]
          exact ⟨_, rfl, mk _ (C27_consistent _ _ _ _ _)⟩)
  refine ⟨_, h1, h.of_rel (h2.imp fun a b hab => ⟨hab.q, hab.m, hab.shape, hab.tracer, hab.ionizable, hab.plane,
    hab.ptcl.imp fun _ _ h => h.1⟩), ?_⟩
  intro sp' hsp' hk p' hp'
  obtain ⟨sp, g1, g2⟩ := forall₂_right h2 sp' hsp'
  obtain ⟨p, g3, g4⟩ := forall₂_right g2.ptcl p' hp'
  exact g4.2 (g2.kickable.1 hk)

theorem vz_le (hc : 0 < c.k.c) {v : ℝ} (hv : 0 ≤ v) {e : ElecMom} (h : velocity2 e ≤ v ^ 2) (dt pz : ℝ) (hpz : pz ^ 2 = 1) :
    |c.k.c * dt * e.invGamma * pz * e.uz| ≤ v * c.k.c * |dt| := by
  have h1 : |e.uz * e.invGamma| ≤ v := by
    apply abs_le_of_sq_le_sq _ hv
    unfold velocity2 at h
    nlinarith [sq_nonneg (e.ux * e.invGamma), sq_nonneg (e.uy * e.invGamma)]
  have h2 : |pz| = 1 := by
    exact (pow_eq_one_iff_of_nonneg (abs_nonneg pz) two_ne_zero).1 (by rw [sq_abs, hpz])
  rw [show c.k.c * dt * e.invGamma * pz * e.uz = (c.k.c * dt) * pz * (e.uz * e.invGamma) by ring, abs_mul, abs_mul,
    abs_mul, h2, abs_of_pos hc, mul_one]
  have : 0 ≤ c.k.c * |dt| := mul_nonneg hc.le (abs_nonneg _)
  nlinarith

theorem Near.move (hs : Sane c) {V v d dt px pz dtg : ℝ} (move : Bool) {s : Sim} (h : Near c V v d s) (hv : 0 ≤ v)
    (hpz : pz ^ 2 = 1) : Near c V v (d + v * c.k.c * |dt| + |c.vg| * |dtg|) (c.movePush move dt px px pz dtg s) := by
  have hn : 0 ≤ v * c.k.c * |dt| := mul_nonneg (mul_nonneg hv hs.c_pos.le) (abs_nonneg _)
  have h1 : Near c V v (d + v * c.k.c * |dt|) (if move then c.pushX dt px px pz s else s) := by
    cases move
    · exact h.mono c hv le_rfl (by linarith)
    · refine ⟨h.box, ?_, ?_⟩
      · intro sp hsp
        obtain ⟨sp', h', rfl⟩ := List.mem_map.1 hsp
        exact ⟨(h.sp sp' h').plane, (h.sp sp' h').reach⟩
      · intro sp hsp p hp
        obtain ⟨sp', h', rfl⟩ := List.mem_map.1 hsp
        obtain ⟨p', hp', rfl⟩ := List.mem_map.1 hp
        have hP := h.ptcl sp' h' p' hp'
        have hb := abs_le.1 (vz_le c hs.c_pos hv hP.fast dt pz hpz)
        refine ⟨hP.fast, hP.calm, ?_, ?_⟩
        · have := hP.lo
          simp only [Fbpic.pushX]
          show s.zmin - _ ≤ _
          linarith [hb.1]
        · have := hP.hi
          simp only [Fbpic.pushX]
          show _ < s.zmax + _
          linarith [hb.2]
  unfold Cfg.movePush Cfg.shiftGalilean
  set u := if move = true then c.pushX dt px px pz s else s with hu
  by_cases hg : c.galilean = true
  · rw [if_pos hg]
    have hvg : c.vg = c.V.getD 0 := by unfold Cfg.vg; rw [if_pos hg]
    have hab : |c.V.getD 0 * dtg| ≤ |c.vg| * |dtg| := by rw [abs_mul, hvg]
    obtain ⟨e1, e2⟩ := abs_le.1 hab
    refine ⟨?_, h1.sp, ?_⟩
    · show c.invdz * (u.zmax + _ - (u.zmin + _)) = _
      rw [← h1.box]; ring
    · intro sp hsp p hp
      have hP := h1.ptcl sp hsp p hp
      refine ⟨hP.fast, hP.calm, ?_, ?_⟩
      · have := hP.lo
        show u.zmin + c.V.getD 0 * dtg - _ ≤ _
        linarith
      · have := hP.hi
        show _ < u.zmax + c.V.getD 0 * dtg + _
        linarith
  · rw [if_neg hg]
    exact h1.mono c hv le_rfl (by linarith [mul_nonneg (abs_nonneg c.vg) (abs_nonneg dtg)])

theorem Oks.move {move : Bool} {dt px pz dtg : ℝ} {s : Sim} (h : Oks s.species) :
    Oks (c.movePush move dt px px pz dtg s).species := by
  unfold Cfg.movePush
  rw [shift_species]
  cases move
  · exact h
  · intro sp hsp hk p hp
    obtain ⟨sp', h', rfl⟩ := List.mem_map.1 hsp
    obtain ⟨p', hp', rfl⟩ := List.mem_map.1 hp
    exact h sp' h' hk p' hp'

theorem Near.iterEnd {V v d : ℝ} (o : Opts) (ho : o.correctDivE = true → c.correction = .curlFree) {s : Sim}
    (h : Near c V v d s) : ∃ t, c.iterEnd o s = .ok t ∧ Near c V v d t := by
  unfold Cfg.iterEnd
  by_cases hd : o.correctDivE = true
  · simp only [if_pos hd]
    have : ∀ sp, ∃ r, c.correctDivE sp = .ok r := by
      intro sp
      unfold Cfg.correctDivE
      rw [ho hd]
      exact ⟨_, rfl⟩
    obtain ⟨r, hr⟩ := this (onModes c.Nm (fun _ g => g.push c.k c.dt c.V c.galilean false o.useTrueRho)
      (if o.correctCurrents then onModes c.Nm (fun _ g => g.correctCurrents c.k c.correction c.dt c.V c.galilean) s.spect
        else s.spect))
    exact ⟨_, (except_bind_ok _ _ _).2 ⟨r, hr, rfl⟩, h.box, h.sp, h.ptcl⟩
  · simp only [if_neg hd]
    exact ⟨_, rfl, h.box, h.sp, h.ptcl⟩

/-! ### What happens to the species -/

theorem forall₂_mem {α β : Type} {R : α → β → Prop} {l : List α} {l' : List β} (h : List.Forall₂ R l l') :
    List.Forall₂ (fun a b => a ∈ l ∧ R a b) l l' := by
  induction h with
  | nil => exact .nil
  | cons hab _ ih =>
    exact .cons ⟨by simp, hab⟩ (ih.imp fun a b h => ⟨by simp [h.1], h.2⟩)

omit [NeZero c.Nz] in
theorem FreeFlight.rfl' {cl len : ℝ} (p : Ptcl) : FreeFlight cl len 0 p p :=
  ⟨rfl, rfl, by ring, by ring, 0, by push_cast; ring⟩

omit [NeZero c.Nz] in
theorem FreeFlight.trans' {cl len T T' : ℝ} {p p' p'' : Ptcl} (h : FreeFlight cl len T p p')
    (h' : FreeFlight cl len T' p' p'') : FreeFlight cl len (T + T') p p'' := by
  obtain ⟨n, hn⟩ := h.z
  obtain ⟨n', hn'⟩ := h'.z
  refine ⟨h'.w.trans h.w, h'.mom.trans h.mom, ?_, ?_, n + n', ?_⟩
  · rw [h'.x, h.x, h.mom]; ring
  · rw [h'.y, h.y, h.mom]; ring
  · rw [hn', hn, h.mom]; push_cast; ring

/-- A macroparticle in a part of an iteration without elementary processes. -/
structure PGlide (len T : ℝ) (sp : Species) (p p' : Ptcl) : Prop where
  w : p'.w = p.w
  level : p'.push.level = p.push.level
  free : sp.q = 0 → FreeFlight c.k.c len T p p'

/-- All macroparticles. -/
def Glides (len T : ℝ) (a b : List Species) : Prop := List.Forall₂ (SpRel (PGlide c len T)) a b

omit [NeZero c.Nz] in
theorem Glides.refl (len : ℝ) (a : List Species) : Glides c len 0 a a :=
  List.forall₂_same.2 fun _ _ => ⟨rfl, rfl, rfl, rfl, rfl, rfl,
    List.forall₂_same.2 fun p _ => ⟨rfl, rfl, fun _ => FreeFlight.rfl' p⟩⟩

omit [NeZero c.Nz] in
theorem Glides.trans {len T T' : ℝ} {a b d : List Species} (h : Glides c len T a b) (h' : Glides c len T' b d) :
    Glides c len (T + T') a d :=
  forall₂_trans h h' fun x y z hxy hyz => ⟨hyz.q.trans hxy.q, hyz.m.trans hxy.m, hyz.shape.trans hxy.shape,
    hyz.tracer.trans hxy.tracer, hyz.ionizable.trans hxy.ionizable, hyz.plane.trans hxy.plane,
    forall₂_trans hxy.ptcl hyz.ptcl fun _ _ _ e f => ⟨f.w.trans e.w, f.level.trans e.level,
      fun hq => FreeFlight.trans' (e.free hq) (f.free (hxy.q.trans hq))⟩⟩

omit [NeZero c.Nz] in
theorem Glides.mapM {len T : ℝ} {s t : Sim} {f : Species → Ptcl → Except PyErr Ptcl} (h : s.mapPtclM f = .ok t)
    (hf : ∀ sp ∈ s.species, ∀ p ∈ sp.ptcl, ∀ p', f sp p = .ok p' → PGlide c len T sp p p') :
    Glides c len T s.species t.species := by
  obtain ⟨sps, h1, rfl⟩ := (mapPtclM_ok _ _ _).1 h
  exact (forall₂_mem h1).imp fun a b hab => ⟨hab.2.q, hab.2.m, hab.2.shape, hab.2.tracer, hab.2.ionizable, hab.2.plane,
    (forall₂_mem hab.2.ptcl).imp fun p p' hp => hf a hab.1 p hp.1 p' hp.2⟩

omit [NeZero c.Nz] in
theorem Glides.head {len T : ℝ} {a b : List Species} (h : Glides c len T a b) :
    b.map Species.head = a.map Species.head := by
  induction h with
  | nil => rfl
  | cons hab _ ih =>
    simp only [List.map_cons, ih]
    rw [head_iff.2 ⟨hab.q, hab.m, hab.shape, hab.tracer, hab.ionizable, hab.plane⟩]

theorem Near.wrap_glides (hs : Sane c) {V v : ℝ} {s t : Sim} (h : Near c V v (s.zmax - s.zmin) s)
    (hw : c.wrapAll s = .ok t) : Glides c (s.zmax - s.zmin) 0 s.species t.species := by
  refine Glides.mapM c hw fun sp hsp p hp p' hp' => ?_
  have hP := h.ptcl sp hsp p hp
  obtain ⟨z', ez, -, -⟩ := wrapZ_two s.zmin s.zmax p.push.z c.fuel hs.fuel (box_pos c hs h.box) hP.lo hP.hi
  have hcases := wrapZ_cases s.zmin s.zmax p.push.z z' c.fuel hs.fuel (box_pos c hs h.box) hP.lo hP.hi ez
  unfold Cfg.wrap at hp'
  rw [ez] at hp'
  rw [← Except.ok.inj hp']
  refine ⟨rfl, rfl, fun _ => ⟨rfl, rfl, by ring, by ring, ?_⟩⟩
  show ∃ n : ℤ, z' = _
  rcases hcases with ⟨-, h⟩ | ⟨-, h⟩ | h
  · exact ⟨-1, by rw [h]; push_cast; ring⟩
  · exact ⟨1, by rw [h]; push_cast; ring⟩
  · exact ⟨0, by rw [h]; push_cast; ring⟩

omit [NeZero c.Nz] in
theorem gather_glides (len : ℝ) {s t : Sim} (h : c.gatherAll s = .ok t) : Glides c len 0 s.species t.species := by
  refine Glides.mapM c (s := s.record) h fun sp _ p _ p' hp' => ?_
  unfold Cfg.gatherPtcl at hp'
  by_cases hq : sp.q = 0
  · rw [if_pos hq] at hp'
    rw [← Except.ok.inj hp']
    exact ⟨rfl, rfl, fun _ => FreeFlight.rfl' p⟩
  · rw [if_neg hq] at hp'
    obtain ⟨E, -, hp'⟩ := (except_bind_ok _ _ _).1 hp'
    obtain ⟨B, -, hp'⟩ := (except_bind_ok _ _ _).1 hp'
    rw [← Except.ok.inj hp']
    exact ⟨rfl, rfl, fun h => absurd h hq⟩

theorem extsKeep_w (L : List Ext) (tm : ℝ) (id : ℕ) : ∀ p : Ptcl,
    (L.foldl (fun p e => applyExt e tm id p) p).w = p.w := by
  induction L with
  | nil => intro p; rfl
  | cons e L ih =>
    intro p
    rw [List.foldl_cons, ih]
    unfold applyExt; split_ifs <;> rfl

omit [NeZero c.Nz] in
theorem exts_glides (len : ℝ) (s : Sim) : Glides c len 0 s.species (c.applyExts s).species := by
  unfold Glides
  rw [List.forall₂_iff_get]
  refine ⟨by simp [Cfg.applyExts], fun i h1 h2 => ?_⟩
  simp only [Cfg.applyExts, List.get_eq_getElem, List.getElem_mapIdx]
  refine ⟨rfl, rfl, rfl, rfl, rfl, rfl, ?_⟩
  rw [List.forall₂_map_right_iff]
  refine List.forall₂_same.2 fun p _ => ?_
  have hp := applyExts_push c.ext s.time i p
  have hw := extsKeep_w c.ext s.time i p
  have : ∀ p' : Ptcl, p'.push = p.push → p'.w = p.w → PGlide c len 0 s.species[i] p p' := by
    intro p' h1 h2
    exact ⟨h2, by rw [h1], fun _ => ⟨h2, by rw [h1], by rw [h1]; ring, by rw [h1]; ring, 0, by rw [h1]; push_cast; ring⟩⟩
  exact this _ hp hw

omit [NeZero c.Nz] in
theorem pushP_glides (len : ℝ) {s t : Sim} (h : c.pushPAll s = .ok t) : Glides c len 0 s.species t.species := by
  refine Glides.mapM c h fun sp _ p _ p' hp' => ?_
  unfold Cfg.pushP at hp'
  by_cases hq : sp.q = 0
  · rw [if_pos hq] at hp'
    rw [← Except.ok.inj hp']
    exact ⟨rfl, rfl, fun _ => FreeFlight.rfl' p⟩
  · rw [if_neg hq] at hp'
    have key : p'.w = p.w ∧ p'.push.level = p.push.level := by
      cases hpl : sp.plane with
      | some b =>
        rw [hpl] at hp'
        simp only at hp'
        by_cases hi : sp.ionizable = true
        · rw [if_pos hi] at hp'; cases hp'
        · rw [if_neg hi] at hp'
          rw [← Except.ok.inj hp']
          refine ⟨rfl, ?_⟩
          simp only [pushPAfterPlane]
          split_ifs <;> rfl
      | none =>
        rw [hpl] at hp'
        simp only at hp'
        by_cases hi : sp.ionizable = true
        · rw [if_pos hi] at hp'
          rw [← Except.ok.inj hp']
          refine ⟨rfl, ?_⟩
          simp only [pushPIoniz]
          split_ifs <;> rfl
        · rw [if_neg hi] at hp'
          rw [← Except.ok.inj hp']
          exact ⟨rfl, rfl⟩
    exact ⟨key.1, key.2, fun h => absurd h hq⟩

theorem move_glides (len : ℝ) (move : Bool) (dt dtg : ℝ) (s : Sim) :
    Glides c len (if move then dt else 0) s.species (c.movePush move dt 1 1 1 dtg s).species := by
  unfold Cfg.movePush
  rw [shift_species]
  cases move
  · exact Glides.refl c len _
  · show List.Forall₂ _ s.species (s.species.map _)
    rw [List.forall₂_map_right_iff]
    refine List.forall₂_same.2 fun sp _ => ⟨rfl, rfl, rfl, rfl, rfl, rfl, ?_⟩
    show List.Forall₂ _ sp.ptcl (sp.ptcl.map _)
    rw [List.forall₂_map_right_iff]
    refine List.forall₂_same.2 fun p _ => ⟨rfl, rfl, fun _ => ⟨rfl, rfl, ?_, ?_, 0, ?_⟩⟩
    · simp only [Fbpic.pushX, if_true]; ring
    · simp only [Fbpic.pushX, if_true]; ring
    · simp only [Fbpic.pushX, if_true]; push_cast; ring

/-! ### Outcomes -/

omit [NeZero c.Nz] in
theorem same_of_head {a b : Species} (h : b.head = a.head) : { b with ptcl := a.ptcl } = a := by
  cases a; cases b
  simpa [Species.head] using h

omit [NeZero c.Nz] in
theorem head_of_same {a b : Species} (h : { b with ptcl := a.ptcl } = a) : b.head = a.head := by
  rw [← h]; rfl

omit [NeZero c.Nz] in
theorem outcome_trans {cl len T T' : ℝ} {a b d : Species} (h : Outcome cl len T a b) (h' : Outcome cl len T' b d) :
    Outcome cl len (T + T') a d := by
  have hq : b.q = a.q := (head_iff.1 (head_of_same h.same)).1
  refine ⟨same_of_head ((head_of_same h'.same).trans (head_of_same h.same)), fun hc => ?_, fun hc => ?_⟩
  · exact forall₂_trans (h.charged hc) (h'.charged (by rwa [hq])) fun _ _ _ e f => ⟨f.1.trans e.1, f.2.trans e.2⟩
  · obtain ⟨old, new, e1, e2, e3⟩ := h.neutral hc
    obtain ⟨old', new', f1, f2, f3⟩ := h'.neutral (by rwa [hq])
    rw [e1] at f2
    have g1 := List.forall₂_take_append _ _ _ f2.flip
    have g2 := List.forall₂_drop_append _ _ _ f2.flip
    refine ⟨old'.take old.length, old'.drop old.length ++ new', ?_, ?_, ?_⟩
    · rw [f1, ← List.append_assoc, List.take_append_drop]
    · exact forall₂_trans e2 g1.flip fun _ _ _ e f => FreeFlight.trans' e f
    · intro p hp
      rcases List.mem_append.1 hp with hp | hp
      · obtain ⟨p0, hp0, hff⟩ := forall₂_right g2.flip p hp
        have := e3 p0 hp0
        unfold AtLightSpeed at this ⊢
        rw [(show FreeFlight cl len T' p0 p from hff).mom]
        exact this
      · exact f3 p hp

theorem outcomes_trans {cl len T T' : ℝ} {a b d : List Species} (h : List.Forall₂ (Outcome cl len T) a b)
    (h' : List.Forall₂ (Outcome cl len T') b d) : List.Forall₂ (Outcome cl len (T + T')) a d :=
  forall₂_trans h h' fun _ _ _ => outcome_trans

omit [NeZero c.Nz] in
theorem Glides.outcome {len T : ℝ} {a b : List Species} (h : Glides c len T a b) :
    List.Forall₂ (Outcome c.k.c len T) a b :=
  h.imp fun x y hxy => ⟨same_of_head (head_iff.2 ⟨hxy.q, hxy.m, hxy.shape, hxy.tracer, hxy.ionizable, hxy.plane⟩),
    fun _ => hxy.ptcl.imp fun _ _ e => ⟨e.w, e.level⟩,
    fun hq => ⟨y.ptcl, [], by simp, hxy.ptcl.imp fun _ _ e => e.free hq, by simp⟩⟩

theorem kicked_outcome {cl len V : ℝ} {all : List Species} {a b : Species} (h : KickedSp V all a b) :
    Outcome cl len 0 a b := by
  obtain ⟨l, extra, e1, e2, e3, e4⟩ := h.ptcl
  refine ⟨same_of_head h.head, fun hq => ?_, fun hq => ⟨l, extra, e1, ?_, fun p hp => (e4 p hp).1⟩⟩
  · have : extra = [] := by
      by_contra hne
      exact hq (e3 hne)
    rw [e1, this, List.append_nil]
    exact e2.imp fun _ _ e => ⟨e.w, e.level⟩
  · refine e2.imp fun p p' e => ⟨e.w, e.still fun hk => hk.1 hq, ?_, ?_, 0, ?_⟩
    · rw [e.x]; ring
    · rw [e.y]; ring
    · rw [e.z]; push_cast; ring

/-- The net charge of the species. -/
theorem outcome_charge {cl len T : ℝ} {a b : Species} (h : Outcome cl len T a b) :
    (b.ptcl.map (macroCharge b)).sum = (a.ptcl.map (macroCharge a)).sum := by
  obtain ⟨hq, -, -, -, hi, -⟩ := head_iff.1 (head_of_same h.same)
  have hm : macroCharge b = macroCharge a := by funext p; unfold macroCharge; rw [hq, hi]
  rw [hm]
  by_cases h0 : a.q = 0
  · have : ∀ l : List Ptcl, (l.map (macroCharge a)).sum = 0 := by
      intro l
      apply List.sum_eq_zero
      intro x hx
      obtain ⟨p, -, rfl⟩ := List.mem_map.1 hx
      unfold macroCharge
      rw [h0, zero_mul]
    rw [this, this]
  · have := h.charged h0
    generalize a.ptcl = l at this
    generalize b.ptcl = l' at this
    induction this with
    | nil => rfl
    | cons e _ ih =>
      rw [List.map_cons, List.map_cons, List.sum_cons, List.sum_cons, ih]
      unfold macroCharge
      rw [e.1, e.2]

/-! ### Scattering -/

variable {scat : ℕ → Option Scatterer} {ch : Luck} {k : ℝ}

theorem compton_event (hch : CosinesOk ch) (hk0 : 0 ≤ k) (hk : HardnessLe scat k) (cl dt : ℝ) {s : Sim}
    (hok : Oks s.species) (hS : ScatterersOk scat s.species) :
    ∃ sps, comptonAll scat cl dt ch s = .ok { s with species := sps } ∧
      List.Forall₂ (KickedSp (1 + k) s.species) s.species sps := by
  obtain ⟨sps, h1, h2, h3⟩ := compton_fold (scat := scat) (cl := cl) (dt := dt) (t := s.time + 0.5 * dt)
    (D := ch.draws s.iteration) (junk := ch.junk s.iteration) (fun id i j => hch _ id i j) hk0 hk hok hS
    s.species.length le_rfl
  refine ⟨sps, ?_, ?_⟩
  · unfold comptonAll
    exact (except_bind_ok _ _ _).2 ⟨sps, h1, rfl⟩
  · rw [List.forall₂_iff_get]
    refine ⟨h2.symm, fun i hi hi' => ?_⟩
    obtain ⟨sp', g1, g2, -⟩ := h3 i s.species[i] (List.getElem?_eq_getElem hi)
    rw [List.getElem?_eq_getElem hi'] at g1
    rw [List.get_eq_getElem, List.get_eq_getElem, Option.some.inj g1]
    exact g2

omit [NeZero c.Nz] in
theorem Near.event {d : ℝ} (hk0 : 0 ≤ k) {s : Sim} (h : Near c (1 + k) 1 d s) {sps : List Species}
    (hk : List.Forall₂ (KickedSp (1 + k) s.species) s.species sps) :
    Near c (1 + k) (1 + k) d { s with species := sps } where
  box := h.box
  sp := by
    intro sp' hsp'
    obtain ⟨sp, h1, h2⟩ := forall₂_right hk sp' hsp'
    obtain ⟨-, -, e3, -, e5, e6⟩ := head_iff.1 h2.head
    have := h.sp sp h1
    exact ⟨fun hp => e5.trans (this.plane (by rwa [e6] at hp)), by rw [e3]; exact this.reach⟩
  ptcl := by
    intro sp' hsp' p' hp'
    obtain ⟨sp, h1, h2⟩ := forall₂_right hk sp' hsp'
    obtain ⟨l, extra, e1, e2, e3, e4⟩ := h2.ptcl
    have hV : (1 : ℝ) ≤ (1 + k) ^ 2 := by nlinarith
    have hkk := kickable_head h2.head
    rw [e1] at hp'
    rcases List.mem_append.1 hp' with hp' | hp'
    · obtain ⟨p, g1, g2⟩ := forall₂_right e2 p' hp'
      have hP := h.ptcl sp h1 p g1
      have hslow : ¬ Kickable sp → velocity2 p'.push.mom ≤ 1 := by
        intro hn
        rw [g2.still hn]
        exact hP.calm hn
      refine ⟨?_, fun hn => hslow fun h => hn (hkk.2 h), by rw [g2.z]; exact hP.lo, by rw [g2.z]; exact hP.hi⟩
      by_cases hn : Kickable sp
      · exact g2.fast hn
      · exact (hslow hn).trans hV
    · obtain ⟨⟨-, hv⟩, sp0, g1, p0, g2, -, -, g3⟩ := e4 p' hp'
      have hP := h.ptcl sp0 g1 p0 g2
      exact ⟨by rw [hv]; exact hV, fun _ => hv.le, by rw [g3]; exact hP.lo, by rw [g3]; exact hP.hi⟩

theorem kicked_heads {V : ℝ} {all a b : List Species} (h : List.Forall₂ (KickedSp V all) a b) :
    b.map Species.head = a.map Species.head := by
  induction h with
  | nil => rfl
  | cons hab _ ih => simp only [List.map_cons, ih, hab.head]

/-! ### One iteration -/

theorem Near.loose (hs : Sane c) {V v d : ℝ} {s : Sim} (h : Near c V v d s) (hd : d ≤ c.slack V) :
    Near c V v (s.zmax - s.zmin) s where
  box := h.box
  sp := h.sp
  ptcl := fun sp hsp p hp => by
    have hP := h.ptcl sp hsp p hp
    have hb := h.box_le c hs hsp
    exact ⟨hP.fast, hP.calm, by linarith [hP.lo], by linarith [hP.hi]⟩

/-- The beginning of an iteration, and the first half of the motion. -/
theorem near_half (hs : Sane c) (hk0 : 0 ≤ k) (o : Opts) (hm : o.moveMomenta = true) (i : ℕ) {s : Sim}
    (h : Near c (1 + k) (1 + k) (s.zmax - s.zmin) s) :
    ∃ s1 s2, c.iterStart i s = .ok s1 ∧ c.iterHalf o s1 = .ok s2 ∧
      Near c (1 + k) 1 (c.k.c * (c.dt / 2) + |c.vg| * (c.dt / 2)) s2 ∧ Oks s2.species ∧
      Glides c (s.zmax - s.zmin) (if o.movePositions then 0.5 * c.dt else 0) s.species s2.species := by
  have hdt := hs.dt_pos
  have ah : |(0.5 : ℝ) * c.dt| = c.dt / 2 := by rw [abs_of_pos (by linarith)]; ring
  have hmod : s.iteration % c.exchangePeriod = 0 := by rw [hs.period]; exact Nat.mod_one _
  have hsl : 0 ≤ c.slack (1 + k) := by
    unfold Cfg.slack
    have := hs.c_pos
    have := abs_nonneg c.vg
    positivity
  have hstart : ∃ t, c.iterStart i s = .ok t ∧ Near c (1 + k) (1 + k) 0 t ∧
      Glides c (s.zmax - s.zmin) 0 s.species t.species := by
    rw [iterStart_eq]
    simp only [if_pos (Or.inl hmod : s.iteration % c.exchangePeriod = 0 ∨ i = 0)]
    obtain ⟨s1, e1, h1⟩ := h.wrap c hs
    obtain ⟨e2, h2⟩ := h1.rho c hs hsl .prev
    have g1 := h.wrap_glides c hs e1
    have hJ : ∃ s3, (if i = 0 then c.depositJ (c.withRho .prev s1) else pure (c.withRho .prev s1)) = .ok s3 ∧
        Near c (1 + k) (1 + k) 0 s3 ∧ s3.species = s1.species := by
      by_cases hi : i = 0
      · rw [if_pos hi]
        obtain ⟨a, b⟩ := h2.J c hs hsl
        exact ⟨_, a, b, rfl⟩
      · rw [if_neg hi]; exact ⟨_, rfl, h2, rfl⟩
    obtain ⟨s3, e3, h3, q3⟩ := hJ
    obtain ⟨s4, e4, h4⟩ := h3.gather c hs
    have g4 := gather_glides c (s.zmax - s.zmin) e4
    have g5 := exts_glides c (s.zmax - s.zmin) s4
    refine ⟨_, (except_bind_ok _ _ _).2 ⟨_, (except_bind_ok _ _ _).2 ⟨s1, e1, e2⟩, (except_bind_ok _ _ _).2 ⟨s3, e3,
      (except_bind_ok _ _ _).2 ⟨s4, e4, rfl⟩⟩⟩, h4.exts c, ?_⟩
    rw [← q3] at g1
    have := g1.trans c (g4.trans c g5)
    rwa [add_zero, add_zero] at this
  obtain ⟨s1, e1, h1, g1⟩ := hstart
  obtain ⟨s2, e2, h2, h2'⟩ := h1.pushP c
  refine ⟨s1, _, e1, by rw [iterHalf_eq, if_pos hm]; exact (except_bind_ok _ _ _).2 ⟨s2, e2, rfl⟩, ?_, h2'.move c, ?_⟩
  · have := h2.move c hs (dt := 0.5 * c.dt) (px := 1) (pz := 1) (dtg := 0.5 * c.dt) o.movePositions zero_le_one (by norm_num)
    rwa [ah, zero_add, one_mul] at this
  · have := g1.trans c ((pushP_glides c (s.zmax - s.zmin) e2).trans c
      (move_glides c (s.zmax - s.zmin) o.movePositions (0.5 * c.dt) (0.5 * c.dt) s2))
    rwa [zero_add, zero_add] at this

/-- The rest of the iteration. -/
theorem near_deposit (hs : Sane c) (hk0 : 0 ≤ k) (hcor : c.correction = .curlFree) (o : Opts) (len : ℝ) {s : Sim}
    (h : Near c (1 + k) (1 + k) (c.k.c * (c.dt / 2) + |c.vg| * (c.dt / 2)) s) :
    ∃ t, c.iterDeposit o s = .ok t ∧ Near c (1 + k) (1 + k) (c.slack (1 + k)) t ∧
      Glides c len (if o.movePositions then 0.5 * c.dt else 0) s.species t.species := by
  have hdt := hs.dt_pos
  have hcp := hs.c_pos
  have hvg := abs_nonneg c.vg
  have ah : |(0.5 : ℝ) * c.dt| = c.dt / 2 := by rw [abs_of_pos (by linarith)]; ring
  have hle : c.k.c * (c.dt / 2) + |c.vg| * (c.dt / 2) ≤ c.slack (1 + k) := by
    unfold Cfg.slack
    have : 0 ≤ c.k.c * c.dt * (1 + k) := by positivity
    have := mul_nonneg hvg hdt.le
    nlinarith
  rw [iterDeposit_eq]
  obtain ⟨e3, h3⟩ := h.J c hs hle
  have e4 : c.maybeCross o (c.withJ s) = .ok (c.withJ s) := by
    unfold Cfg.maybeCross
    rw [hcor]
    cases o.correctCurrents <;> rfl
  have g := h3.move c hs (dt := 0.5 * c.dt) (px := 1) (pz := 1) (dtg := 0.5 * c.dt) o.movePositions (by linarith) (by norm_num)
  rw [ah, show c.k.c * (c.dt / 2) + |c.vg| * (c.dt / 2) + (1 + k) * c.k.c * (c.dt / 2) + |c.vg| * (c.dt / 2)
    = c.slack (1 + k) by unfold Cfg.slack; ring] at g
  obtain ⟨e5, h5⟩ := g.rho c hs le_rfl .next
  refine ⟨_, (except_bind_ok _ _ _).2 ⟨_, e3, (except_bind_ok _ _ _).2 ⟨_, e4, e5⟩⟩, h5, ?_⟩
  exact move_glides c len o.movePositions (0.5 * c.dt) (0.5 * c.dt) (c.withJ s)

/-- One iteration: all of its states. -/
theorem iterCompton_run (hs : Sane c) (hcor : c.correction = .curlFree) (hch : CosinesOk ch) (hk0 : 0 ≤ k)
    (hk : HardnessLe scat k) (o : Opts) (hm : o.moveMomenta = true) (i : ℕ) {s : Sim}
    (h : Near c (1 + k) (1 + k) (s.zmax - s.zmin) s) (hS : ScatterersOk scat s.species) :
    ∃ a b sps d t, c.iterStart i s = .ok a ∧ c.iterHalf o a = .ok b ∧
      comptonAll scat c.k.c c.dt ch b = .ok { b with species := sps } ∧
      Near c (1 + k) (1 + k) (c.k.c * (c.dt / 2) + |c.vg| * (c.dt / 2)) { b with species := sps } ∧
      c.iterDeposit o { b with species := sps } = .ok d ∧ c.iterEnd o d = .ok t ∧
      c.iterEv (comptonAll scat c.k.c c.dt ch) o i s = .ok t ∧ Near c (1 + k) (1 + k) (c.slack (1 + k)) t ∧
      ScatterersOk scat t.species ∧
      List.Forall₂ (Outcome c.k.c (s.zmax - s.zmin) (if o.movePositions then c.dt else 0)) s.species t.species := by
  obtain ⟨a, b, ha, hb, hnb, hob, gb⟩ := near_half c hs hk0 o hm i h
  have hSb := ScatterersOk_head gb.head hS
  obtain ⟨sps, he, hke⟩ := compton_event hch hk0 hk c.k.c c.dt hob hSb
  have hne := hnb.event c hk0 hke
  obtain ⟨d, hd, hnd, gd⟩ := near_deposit c hs hk0 hcor o (s.zmax - s.zmin) hne
  obtain ⟨t, ht, hnt⟩ := hnd.iterEnd c o fun _ => hcor
  have hts : t.species = d.species := (iterEnd_ok c o ht).2.1
  refine ⟨a, b, sps, d, t, ha, hb, he, hne, hd, ht, ?_, hnt, ?_, ?_⟩
  · rw [iterEv_eq c _ o i s (by rw [hs.period]; exact one_ne_zero)]
    exact (except_bind_ok _ _ _).2 ⟨a, ha, (except_bind_ok _ _ _).2 ⟨b, hb, (except_bind_ok _ _ _).2 ⟨_, he,
      (except_bind_ok _ _ _).2 ⟨d, hd, ht⟩⟩⟩⟩
  · rw [hts]
    exact ScatterersOk_head (gd.head.trans (kicked_heads hke)) hSb
  · rw [hts]
    have := outcomes_trans (gb.outcome c) (outcomes_trans
      (hke.imp fun _ _ e => kicked_outcome (cl := c.k.c) (len := s.zmax - s.zmin) e) (gd.outcome c))
    rwa [show (if o.movePositions = true then 0.5 * c.dt else 0) + (0 + if o.movePositions = true then 0.5 * c.dt else 0)
      = if o.movePositions = true then c.dt else 0 by split_ifs <;> ring] at this

theorem Near.size {V v d : ℝ} {s : Sim} (hs : Sane c) (h : Near c V v d s) : s.zmax - s.zmin = c.Nz / c.invdz := by
  rw [eq_div_iff hs.invdz.ne', mul_comm]; exact h.box

/-- Gauss' law after an iteration. -/
theorem iterCompton_gauss (hc : Sane c) (hcor : c.correction = .curlFree) (hk0 : 0 ≤ k) (o : Opts) (i : ℕ)
    {s a b d t : Sim} {sps : List Species} (ha : c.iterStart i s = .ok a) (hb : c.iterHalf o a = .ok b)
    (hne : Near c (1 + k) (1 + k) (c.k.c * (c.dt / 2) + |c.vg| * (c.dt / 2)) { b with species := sps })
    (hd : c.iterDeposit o { b with species := sps } = .ok d) (h : c.iterEnd o d = .ok t) (hs : SolverOk c s) :
    (∀ m < c.Nm, (s.spect m).SameShape (t.spect m)) ∧ c.Synced t ∧
    ((o.correctDivE = true ∨ (o.correctCurrents = true ∧ ∃ w, c.wrapAll s = .ok w ∧ c.Gauss (c.rhoHat w) s)) →
      c.Gauss (c.rhoHat t) t) := by
  have hn := hc.threads
  have hdt := hc.dt_pos
  obtain ⟨s₁, hw, ka, ra, ta, d1, za⟩ := start_fields c hn i (Or.inl hc.period) (sized_of c hs) ha
  obtain ⟨eb, tb⟩ := half_fields c o ta hb
  have kb : c.Keeps (fun _ => True) a b := .of_eq c _ eb
  set e : Sim := { b with species := sps } with he
  have ke : c.Keeps (fun _ => True) b e := .of_eq c _ rfl
  set e0 := c.movePush o.movePositions (0.5 * c.dt) (-1) (-1) (-1) (-0.5 * c.dt) e with he0
  have hde : c.depOk .rho e0 := by
    have ah : |(0.5 : ℝ) * c.dt| = c.dt / 2 := by rw [abs_of_pos (by linarith)]; ring
    have ah' : |-(0.5 : ℝ) * c.dt| = c.dt / 2 := by rw [neg_mul, abs_neg, ah]
    have := hne.move c hc (dt := 0.5 * c.dt) (px := -1) (pz := -1) (dtg := -0.5 * c.dt) o.movePositions (by linarith)
      (by norm_num)
    rw [ah, ah', show c.k.c * (c.dt / 2) + |c.vg| * (c.dt / 2) + (1 + k) * c.k.c * (c.dt / 2) + |c.vg| * (c.dt / 2)
      = c.slack (1 + k) by unfold Cfg.slack; ring] at this
    exact this.depOk c hc le_rfl _
  have te : c.TX (if o.movePositions then 0.5 * c.dt else 0) e0 e := TX_back c o.movePositions e
  obtain ⟨kd, rd, cd⟩ := deposit_fields c hn o (ke.sized c (kb.sized c za)) te hde hd
  have kall := ((ka.trans c kb).trans c ke).trans c kd
  have hsd := SolverOk_of c hs fun m hm => (kall m hm).1
  have rp : c.Holds .prev (c.rhoHat s₁) d := kd.holds c rfl (ke.holds c trivial (kb.holds c trivial ra))
  obtain ⟨hcd, -, -, -, hsp, hsync⟩ := iterEnd_ok c o h
  have shp : ∀ m < c.Nm, (s.spect m).SameShape (t.spect m) := by
    intro m hm
    obtain ⟨a1, a2, a3, a4⟩ := (kall m hm).1
    obtain ⟨b1, b2, b3, b4⟩ := endGrid_shape c o (d.spect m)
    rw [hsp m hm]
    exact ⟨b1.trans a1, b2.trans a2, b3.trans a3, b4.trans a4⟩
  refine ⟨shp, hsync, fun ho => ?_⟩
  refine end_gauss c o hc.Nz hc.Nr hn hsd rp rd (fun h1 h2 => by rw [hcor] at h2; cases h2) ?_ h
  refine ho.imp id fun ⟨h1, w, hw', hG⟩ => ⟨h1, ?_⟩
  have : w = s₁ := Except.ok.inj (hw'.symm.trans hw)
  subst this
  intro m hm iz hz ir hr
  rw [((kall m hm).2 iz hz ir hr).1, (kall m hm).1.2.2.1, (kall m hm).1.2.2.2]
  exact hG m hm iz hz ir hr

theorem Near.wrap_dep (hs : Sane c) {V v : ℝ} {s w : Sim} (h : Near c V v (c.slack V) s) (hw : c.wrapAll s = .ok w)
    (f : DepField) (m : ℕ) : c.depArr f w m = c.depArr f s m := by
  refine wrap_dep_of c hs h.box (fun sp hsp p hp => ?_) hw f m
  have hP := h.ptcl sp hsp p hp
  have hr := (h.sp sp hsp).reach
  have hb := h.box_le c hs hsp
  have h1 := mul_le_mul_of_nonneg_left (show -c.slack V ≤ p.push.z - s.zmin by linarith [hP.lo]) hs.invdz.le
  have h2 := mul_le_mul_of_nonneg_left (show p.push.z - s.zmax ≤ c.slack V by linarith [hP.hi]) hs.invdz.le
  refine ⟨by nlinarith, by nlinarith, by linarith [hP.lo], by linarith [hP.hi]⟩

/-- Gauss' law may be kept by the loop of a call. -/
def GaussWill (o : Opts) (n : ℕ) (P : Prop) : Prop :=
  o.correctDivE = true ∧ n ≠ 0 ∨ (o.correctDivE = true ∨ o.correctCurrents = true) ∧ P

variable (scat ch k) in
/-- What is kept by a run: the particles are near the box, the scatterers fit the species. -/
structure Kept (s t : Sim) (T : ℝ) : Prop where
  near : Near c (1 + k) (1 + k) (t.zmax - t.zmin) t
  scat : ScatterersOk scat t.species
  out : List.Forall₂ (Outcome c.k.c (c.Nz / c.invdz) T) s.species t.species

/-- The loop of a call. -/
theorem loopCompton (hc : Sane c) (hcor : c.correction = .curlFree) (hch : CosinesOk ch) (hk0 : 0 ≤ k)
    (hk : HardnessLe scat k) (o : Opts) (hm : o.moveMomenta = true) (n : ℕ) :
    ∀ (i : ℕ) (s : Sim), Near c (1 + k) (1 + k) (s.zmax - s.zmin) s → ScatterersOk scat s.species →
      ∃ t, c.loopEv (comptonAll scat c.k.c c.dt ch) o i n s = .ok t ∧
        Kept c scat k s t (if o.movePositions then n * c.dt else 0) ∧
        (SolverOk c s → GaussWill o n (GW c s) → SolverOk c t ∧ GW c t ∧ (t = s ∨ c.Synced t)) := by
  induction n with
  | zero =>
    intro i s h hS
    refine ⟨s, rfl, ⟨h, hS, ?_⟩, fun h1 h2 => ⟨h1, (h2.resolve_left fun h => h.2 rfl).2, Or.inl rfl⟩⟩
    have := (Glides.refl c (c.Nz / c.invdz) s.species).outcome c
    simpa using this
  | succ n ih =>
    intro i s h hS
    obtain ⟨a, b, sps, d, s1, ha, hb, he, hne, hd, ht, hrun, hn1, hS1, ho1⟩ :=
      iterCompton_run c hc hcor hch hk0 hk o hm i h hS
    have hl1 := hn1.loose c hc le_rfl
    obtain ⟨t, e2, k2, g2⟩ := ih (i + 1) s1 hl1 hS1
    refine ⟨t, (except_bind_ok _ _ _).2 ⟨s1, hrun, e2⟩, ⟨k2.near, k2.scat, ?_⟩, fun hs hg => ?_⟩
    · rw [h.size c hc] at ho1
      have := outcomes_trans ho1 k2.out
      rwa [show (if o.movePositions = true then c.dt else 0) + (if o.movePositions = true then (n : ℝ) * c.dt else 0)
        = if o.movePositions = true then ((n + 1 : ℕ) : ℝ) * c.dt else 0 by
          split_ifs <;> push_cast <;> ring] at this
    · obtain ⟨i1, i2, i4⟩ := iterCompton_gauss c hc hcor hk0 o i ha hb hne hd ht hs
      obtain ⟨w, hw, -⟩ := hl1.wrap c hc
      have hG : c.Gauss (c.rhoHat s1) s1 := by
        apply i4
        rcases hg with h | ⟨h | h, h'⟩
        · exact Or.inl h.1
        · exact Or.inl h
        · exact Or.inr ⟨h, h'⟩
      have hGW : GW c s1 := by
        refine ⟨w, hw, ?_⟩
        rw [rhoHat_congr c fun m => hn1.wrap_dep c hc hw .rho m]
        exact hG
      have hopt : o.correctDivE = true ∨ o.correctCurrents = true := by
        rcases hg with h | h
        · exact Or.inl h.1
        · exact h.1
      obtain ⟨g3, g4, g5⟩ := g2 (SolverOk_of c hs i1) (Or.inr ⟨hopt, hGW⟩)
      refine ⟨g3, g4, Or.inr ?_⟩
      rcases g5 with rfl | h
      · exact i2
      · exact h

/-- One call. -/
theorem stepCompton (hc : Sane c) (hcor : c.correction = .curlFree) (hch : CosinesOk ch) (hk0 : 0 ≤ k)
    (hk : HardnessLe scat k) (o : Opts) (hm : o.moveMomenta = true) (n : ℕ) (s : Sim)
    (h : Near c (1 + k) (1 + k) (s.zmax - s.zmin) s) (hS : ScatterersOk scat s.species) :
    ∃ t, c.stepEv (comptonAll scat c.k.c c.dt ch) n o s = .ok t ∧
      Kept c scat k s t (if o.movePositions then n * c.dt else 0) ∧
      (SolverOk c s → GaussWill o n (GaussLaw c s) → SolverOk c t ∧ GaussLaw c t) := by
  have hsl : 0 ≤ c.slack (1 + k) := by
    unfold Cfg.slack
    have := hc.c_pos
    have := hc.dt_pos
    have := abs_nonneg c.vg
    positivity
  have law : ∀ u : Sim, Near c (1 + k) (1 + k) (u.zmax - u.zmin) u → SolverOk c u →
      (GaussLaw c u ↔ GW c (c.startFields u)) := by
    intro u hu hsu
    obtain ⟨w, hw, hi⟩ := hu.wrap c hc
    exact gaussLaw_iff c hc.threads hsu hw (hi.depOk c hc hsl _)
  have h0 : Near c (1 + k) (1 + k) ((c.startFields s).zmax - (c.startFields s).zmin) (c.startFields s) :=
    ⟨h.box, h.sp, h.ptcl⟩
  obtain ⟨t, e1, k1, g⟩ := loopCompton c hc hcor hch hk0 hk o hm n 0 _ h0 hS
  have l2 : Near c (1 + k) (1 + k) ((c.endFields t).zmax - (c.endFields t).zmin) (c.endFields t) :=
    ⟨k1.near.box, k1.near.sp, k1.near.ptcl⟩
  refine ⟨c.endFields t, (except_bind_ok _ _ _).2 ⟨t, e1, rfl⟩, ⟨l2, k1.scat, k1.out⟩, fun hs hg => ?_⟩
  have hs0 : SolverOk c (c.startFields s) := SolverOk_of c hs fun m hm => start_shape c s hm
  obtain ⟨s1, g1, g2⟩ := g hs0 (hg.imp id fun h' => ⟨h'.1, (law s h hs).1 h'.2⟩)
  have s2 : SolverOk c (c.endFields t) := SolverOk_of c s1 fun m _ => ⟨rfl, rfl, rfl, rfl⟩
  refine ⟨s2, (law _ l2 s2).2 ?_⟩
  obtain ⟨w, hw, hG⟩ := g1
  obtain ⟨w', hw', hr'⟩ := wrap_congr c (s' := c.startFields (c.endFields t)) hw rfl rfl rfl
  refine ⟨w', hw', ?_⟩
  rw [hr']
  have hi : ∀ m, m < c.Nm → ((c.endFields t).interp m).E = (t.interp m).E ∧
      ((c.endFields t).interp m).B = (t.interp m).B := by
    intro m hm
    have : (c.endFields t).interp m = c.interpSources m (t.spect m) (t.interp m) := if_pos hm
    rw [this]
    exact ⟨rfl, rfl⟩
  rcases g2 with rfl | hy
  · intro m hm iz hz ir hr
    have e := start_em c (s := s) (s' := c.endFields (c.startFields s)) hm hz hr (hi m hm).1 (hi m hm).2
    rw [e]
    have hsh : (c.endFields (c.startFields s)).spect m = (c.startFields s).spect m := rfl
    rw [(start_shape c _ hm).2.2.1, (start_shape c _ hm).2.2.2, hsh]
    exact hG m hm iz hz ir hr
  · intro m hm iz hz ir hr
    have := synced_gauss c s1 hy hc.Nr w hG m hm iz hz ir hr
    rw [start_em c (s := t) hm hz hr (hi m hm).1 (hi m hm).2]
    rw [(start_shape c _ hm).2.2.1, (start_shape c _ hm).2.2.2] at this ⊢
    exact this

/-- Several calls. -/
theorem callsCompton_run (hc : Sane c) (hcor : c.correction = .curlFree) (hch : CosinesOk ch) (hk0 : 0 ≤ k)
    (hk : HardnessLe scat k) (L : List (ℕ × Opts)) : ∀ (s : Sim), (∀ x ∈ L, x.2.moveMomenta = true) →
      Near c (1 + k) (1 + k) (s.zmax - s.zmin) s → ScatterersOk scat s.species →
      ∃ t, c.callsCompton scat ch L s = .ok t ∧ Kept c scat k s t (movedTime c.dt L) ∧
        ((∀ x ∈ L, x.2.correctDivE = true ∨ x.2.correctCurrents = true) → SolverOk c s → GaussLaw c s →
          SolverOk c t ∧ GaussLaw c t) := by
  unfold Cfg.callsCompton
  induction L with
  | nil =>
    intro s _ h hS
    exact ⟨s, rfl, ⟨h, hS, by simpa [movedTime] using (Glides.refl c (c.Nz / c.invdz) s.species).outcome c⟩,
      fun _ h1 h2 => ⟨h1, h2⟩⟩
  | cons x L ih =>
    obtain ⟨n, o⟩ := x
    intro s hm h hS
    obtain ⟨s1, e1, k1, g1⟩ := stepCompton c hc hcor hch hk0 hk o (hm (n, o) (by simp)) n s h hS
    obtain ⟨t, e2, k2, g2⟩ := ih s1 (fun x hx => hm x (by simp [hx])) k1.near k1.scat
    refine ⟨t, (except_bind_ok _ _ _).2 ⟨s1, e1, e2⟩, ⟨k2.near, k2.scat, ?_⟩, fun ho hs hg => ?_⟩
    · have := outcomes_trans k1.out k2.out
      simpa [movedTime] using this
    · obtain ⟨a1, a2⟩ := g1 hs (Or.inr ⟨ho (n, o) (by simp), hg⟩)
      exact g2 (fun x hx => ho x (by simp [hx])) a1 a2

end

end Fbpic.Pic
