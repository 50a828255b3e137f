import Verif.Lemmas.Pic
import Verif.Props.Deposit
import Verif.Props.FieldGather
import Verif.Props.Push
import Verif.Props.ParticleWrap

/-!
# A simulation whose particles cannot cross half a cell per step never leaves its arrays

The invariant follows the position of every particle relative to the grid through the half steps of the cycle:
`a` is the time by which the particles have been moved since they were wrapped into the box, `b` the time by
which the grid has been moved.
-/

namespace Fbpic.Pic

open Transform ExternalField Step

variable (c : Cfg)

/-- The velocity of the grid. -/
noncomputable def Cfg.vg : ℝ := if c.galilean then c.V.getD 0 else 0

/-- The velocity along z. -/
noncomputable def Cfg.vz (p : Ptcl) : ℝ := c.k.c * p.push.mom.invGamma * p.push.mom.uz

/-- What is asked from the configuration. -/
structure Sane : Prop where
  c_pos : 0 < c.k.c
  dt_pos : 0 < c.dt
  invdz : 0 < c.invdz
  invdr : 0 < c.invdr
  Nz : 2 ≤ c.Nz
  Nr : 2 ≤ c.Nr
  threads : 0 < c.nthreads
  period : c.exchangePeriod = 1
  fuel : 2 ≤ c.fuel
  beta : ∀ sh k, (c.beta sh k).length = c.Nr + 1

/-- What is asked from the attributes of a species. -/
structure SpSane (sp : Species) : Prop where
  plane : sp.plane ≠ none → sp.ionizable = false
  reach : (c.k.c + |c.vg|) * c.dt * c.invdz ≤ sp.shape.reach

/-- Where a particle may be. -/
structure PInv (zmin zmax a b rho : ℝ) (p : Ptcl) : Prop where
  mom : p.push.mom.ok
  lo : zmin - b * c.vg ≤ p.push.z - a * c.vz p
  hi : p.push.z - a * c.vz p < zmax - b * c.vg
  far : rho < cylR p.push.x p.push.y

/-- How far from the box the particles may be during a time step. -/
def InRange (q : Seen) : Prop :=
  -((c.k.c + |c.vg|) * c.dt) < q.z - q.zmin ∧
    c.invdz * (q.z - q.zmin) < c.Nz + c.invdz * ((c.k.c + |c.vg|) * c.dt)

/-- The invariant of a simulation; `Old` are the positions recorded before. -/
structure SInv (Old : Seen → Prop) (a b rho : ℝ) (s : Sim) : Prop where
  box : c.invdz * (s.zmax - s.zmin) = c.Nz
  sp : ∀ sp ∈ s.species, SpSane c sp
  ptcl : ∀ sp ∈ s.species, ∀ p ∈ sp.ptcl, PInv c s.zmin s.zmax a b rho p
  seen : ∀ q ∈ s.seen, rho < cylR q.x q.y ∧ (Old q ∨ InRange c q)

/-- At the beginning of an iteration: at most one box length outside. -/
structure Loose (Old : Seen → Prop) (rho : ℝ) (s : Sim) : Prop where
  box : c.invdz * (s.zmax - s.zmin) = c.Nz
  sp : ∀ sp ∈ s.species, SpSane c sp
  ptcl : ∀ sp ∈ s.species, ∀ p ∈ sp.ptcl, p.push.mom.ok ∧ rho < cylR p.push.x p.push.y ∧
    s.zmin - (s.zmax - s.zmin) ≤ p.push.z ∧ p.push.z < s.zmax + (s.zmax - s.zmin)
  seen : ∀ q ∈ s.seen, rho < cylR q.x q.y ∧ (Old q ∨ InRange c q)

variable {Old : Seen → Prop}

theorem mom_lt (e : ElecMom) (h : e.ok) : |e.invGamma * e.uz| < 1 ∧ (e.invGamma * e.ux) ^ 2 + (e.invGamma * e.uy) ^ 2 ≤ 1 := by
  unfold ElecMom.ok ElecMom.gamma at h
  have hp : 0 < 1 + e.ux ^ 2 + e.uy ^ 2 + e.uz ^ 2 := by positivity
  have hs : e.invGamma ^ 2 * (1 + e.ux ^ 2 + e.uy ^ 2 + e.uz ^ 2) = 1 := by
    rw [h, div_pow, Real.sq_sqrt hp.le]; field_simp
  have hi : 0 < e.invGamma ^ 2 := by
    rcases (sq_nonneg e.invGamma).lt_or_eq with h | h
    · exact h
    · rw [← h] at hs; norm_num at hs
  constructor
  · rw [← sq_lt_one_iff_abs_lt_one]
    nlinarith [sq_nonneg (e.invGamma * e.ux), sq_nonneg (e.invGamma * e.uy)]
  · nlinarith [sq_nonneg (e.invGamma * e.uz)]

theorem vz_lt (hs : Sane c) (p : Ptcl) (h : p.push.mom.ok) : |c.vz p| < c.k.c := by
  unfold Cfg.vz
  rw [mul_assoc, abs_mul, abs_of_pos hs.c_pos]
  have := (mom_lt _ h).1
  nlinarith [hs.c_pos]

/-! ### Deposition -/

theorem SInv.inRange (hs : Sane c) {a b rho : ℝ} {s : Sim} (h : SInv c Old a b rho s) (ha : |a| ≤ c.dt)
    (hb : |b| ≤ c.dt) {sp : Species} (hsp : sp ∈ s.species) {p : Ptcl} (hp : p ∈ sp.ptcl) :
    InRange c ⟨p.push.x, p.push.y, p.push.z, s.zmin⟩ := by
  have hP := h.ptcl sp hsp p hp
  have hv := vz_lt c hs p hP.mom
  have e1 : |a * c.vz p| < c.k.c * c.dt := by
    rw [abs_mul]
    nlinarith [abs_nonneg a, abs_nonneg (c.vz p), hs.dt_pos]
  have e2 : |b * c.vg| ≤ |c.vg| * c.dt := by
    rw [abs_mul]; nlinarith [abs_nonneg (c.vg)]
  obtain ⟨e1l, e1h⟩ := abs_lt.1 e1
  obtain ⟨e2l, e2h⟩ := abs_le.1 e2
  have hlo : -((c.k.c + |c.vg|) * c.dt) < p.push.z - s.zmin := by linarith [hP.lo]
  have hhi : p.push.z - s.zmin < (s.zmax - s.zmin) + (c.k.c + |c.vg|) * c.dt := by linarith [hP.hi]
  refine ⟨hlo, ?_⟩
  have := mul_lt_mul_of_pos_left hhi hs.invdz
  rwa [mul_add, h.box] at this

theorem SInv.depOk (hs : Sane c) {a b rho : ℝ} {s : Sim} (h : SInv c Old a b rho s) (ha : |a| ≤ c.dt) (hb : |b| ≤ c.dt)
    (f : DepField) : c.depOk f s := by
  intro m _ sp hsp
  have := (depositAll_ok f c.k.c (c.grid s.zmin) c.beta m 1 one_pos [sp] _).1
    (C24_deposit_partial f c.k.c (c.grid s.zmin) c.beta m 1 one_pos [sp] hs.beta hs.invdr rfl ?_).choose_spec
  · exact this.1 sp (by simp)
  · intro sp' hsp' p hp
    rw [List.mem_singleton.1 hsp'] at hp ⊢
    obtain ⟨sp0, h0, rfl⟩ := List.mem_map.1 hsp
    obtain ⟨p0, hp0, rfl⟩ := List.mem_map.1 hp
    have hsp0 := (List.mem_filter.1 h0).1
    have hr := (h.sp sp0 hsp0).reach
    obtain ⟨hlo, hhi⟩ := h.inRange c hs ha hb hsp0 hp0
    show -sp0.shape.reach < c.invdz * (p0.push.z - s.zmin) ∧ c.invdz * (p0.push.z - s.zmin) ≤ c.Nz + sp0.shape.reach
    constructor
    · have := mul_lt_mul_of_pos_left hlo hs.invdz
      dsimp only at this
      linarith
    · dsimp only at hhi
      linarith

theorem SInv.record (hs : Sane c) {a b rho : ℝ} {s : Sim} (h : SInv c Old a b rho s) (ha : |a| ≤ c.dt)
    (hb : |b| ≤ c.dt) : SInv c Old a b rho s.record where
  box := h.box
  sp := h.sp
  ptcl := h.ptcl
  seen := by
    intro q hq
    rcases List.mem_append.1 hq with hq | hq
    · exact h.seen q hq
    · obtain ⟨sp, hsp, hq⟩ := List.mem_flatMap.1 hq
      obtain ⟨p, hp, rfl⟩ := List.mem_map.1 hq
      exact ⟨(h.ptcl sp hsp p hp).far, Or.inr (h.inRange c hs ha hb hsp hp)⟩

/-- Weakening of the distance to the axis. -/
theorem SInv.mono {a b rho rho' : ℝ} {s : Sim} (h : SInv c Old a b rho s) (hr : rho' ≤ rho) : SInv c Old a b rho' s where
  box := h.box
  sp := h.sp
  ptcl := fun sp hsp p hp => ⟨(h.ptcl sp hsp p hp).mom, (h.ptcl sp hsp p hp).lo, (h.ptcl sp hsp p hp).hi,
    lt_of_le_of_lt hr (h.ptcl sp hsp p hp).far⟩
  seen := fun q hq => ⟨lt_of_le_of_lt hr (h.seen q hq).1, (h.seen q hq).2⟩

section
variable [NeZero c.Nz]

theorem SInv.rho (hs : Sane c) {a b rho : ℝ} {s : Sim} (h : SInv c Old a b rho s) (ha : |a| ≤ c.dt) (hb : |b| ≤ c.dt)
    (n : RhoName) : ∃ t, c.depositRho n s = .ok t ∧ SInv c Old a b rho t :=
  ⟨_, (depositRho_ok c hs.threads n s _).2 ⟨h.depOk c hs ha hb _, rfl⟩, (h.record c hs ha hb).box,
    (h.record c hs ha hb).sp, (h.record c hs ha hb).ptcl, (h.record c hs ha hb).seen⟩

theorem SInv.J (hs : Sane c) {a b rho : ℝ} {s : Sim} (h : SInv c Old a b rho s) (ha : |a| ≤ c.dt) (hb : |b| ≤ c.dt) :
    ∃ t, c.depositJ s = .ok t ∧ SInv c Old a b rho t :=
  ⟨_, (depositJ_ok c hs.threads s _).2 ⟨⟨h.depOk c hs ha hb _, h.depOk c hs ha hb _, h.depOk c hs ha hb _⟩, rfl⟩,
    (h.record c hs ha hb).box, (h.record c hs ha hb).sp, (h.record c hs ha hb).ptcl, (h.record c hs ha hb).seen⟩

/-! ### Particles -/

/-- Particle by particle. -/
theorem mapPtclM_total (f : Species → Ptcl → Except PyErr Ptcl) (s : Sim) (Q : Ptcl → Prop)
    (hf : ∀ sp ∈ s.species, ∀ p ∈ sp.ptcl, ∃ p', f sp p = .ok p' ∧ Q p')
    (hsp : ∀ sp ∈ s.species, SpSane c sp) :
    ∃ sps, s.mapPtclM f = .ok { s with species := sps } ∧ (∀ sp ∈ sps, SpSane c sp) ∧
      ∀ sp ∈ sps, ∀ p ∈ sp.ptcl, Q p := by
  have key : ∀ L : List Species, (∀ sp ∈ L, ∀ p ∈ sp.ptcl, ∃ p', f sp p = .ok p' ∧ Q p') →
      (∀ sp ∈ L, SpSane c sp) → ∃ sps, List.Forall₂ (SpRel fun sp p p' => f sp p = .ok p') L sps ∧
        (∀ sp ∈ sps, SpSane c sp) ∧ ∀ sp ∈ sps, ∀ p ∈ sp.ptcl, Q p := by
    intro L
    induction L with
    | nil => intro _ _; exact ⟨[], List.Forall₂.nil, by simp, by simp⟩
    | cons a L ih =>
      intro h1 h2
      obtain ⟨sps, hs1, hs2, hs3⟩ := ih (fun sp h => h1 sp (by simp [h])) fun sp h => h2 sp (by simp [h])
      have hl : ∀ l : List Ptcl, (∀ p ∈ l, ∃ p', f a p = .ok p' ∧ Q p') →
          ∃ l', List.Forall₂ (fun p p' => f a p = .ok p') l l' ∧ ∀ p ∈ l', Q p := by
        intro l
        induction l with
        | nil => intro _; exact ⟨[], List.Forall₂.nil, by simp⟩
        | cons p l ih =>
          intro h
          obtain ⟨l', e1, e2⟩ := ih fun p hp => h p (by simp [hp])
          obtain ⟨p', e3, e4⟩ := h p (by simp)
          refine ⟨p' :: l', List.Forall₂.cons e3 e1, ?_⟩
          intro x hx
          rcases List.mem_cons.1 hx with rfl | hx
          · exact e4
          · exact e2 x hx
      obtain ⟨l', e1, e2⟩ := hl a.ptcl (h1 a (by simp))
      refine ⟨{ a with ptcl := l' } :: sps, List.Forall₂.cons ⟨rfl, rfl, rfl, rfl, rfl, rfl, e1⟩ hs1, ?_, ?_⟩
      · intro x hx
        rcases List.mem_cons.1 hx with rfl | hx
        · exact ⟨(h2 a (by simp)).plane, (h2 a (by simp)).reach⟩
        · exact hs2 x hx
      · intro x hx
        rcases List.mem_cons.1 hx with rfl | hx
        · exact e2
        · exact hs3 x hx
  obtain ⟨sps, h1, h2, h3⟩ := key s.species hf hsp
  exact ⟨sps, (mapPtclM_ok _ _ _).2 ⟨sps, h1, rfl⟩, h2, h3⟩

theorem box_pos (hs : Sane c) {s : Sim} (h : c.invdz * (s.zmax - s.zmin) = c.Nz) : 0 < s.zmax - s.zmin := by
  have h2 : (2 : ℝ) ≤ c.Nz := by exact_mod_cast hs.Nz
  have h3 := hs.invdz
  by_contra hneg
  have := mul_nonpos_of_nonneg_of_nonpos h3.le (not_lt.1 hneg)
  linarith

theorem wrapZ_two (zmin zmax z : ℝ) (fuel : ℕ) (hf : 2 ≤ fuel) (hb : 0 < zmax - zmin)
    (h1 : zmin - (zmax - zmin) ≤ z) (h2 : z < zmax + (zmax - zmin)) :
    ∃ z', wrapZ zmin zmax fuel z = some z' ∧ zmin ≤ z' ∧ z' < zmax := by
  obtain ⟨n, rfl⟩ := Nat.exists_eq_add_of_le hf
  rw [show 2 + n = n + 1 + 1 by ring]
  unfold wrapZ
  by_cases hd : zmax ≤ z
  · refine ⟨z - (zmax - zmin), ?_, by linarith, by linarith⟩
    unfold loopDown
    rw [if_pos hd]
    unfold loopDown
    rw [if_neg (by linarith)]
    show loopUp _ _ _ _ = _
    unfold loopUp
    rw [if_neg (by linarith)]
  · have e : loopDown zmax (zmax - zmin) (n + 1 + 1) z = some z := by
      unfold loopDown
      rw [if_neg hd]
    rw [e]
    show ∃ z', loopUp _ _ _ _ = _ ∧ _
    by_cases hu : z < zmin
    · refine ⟨z + (zmax - zmin), ?_, by linarith, by linarith⟩
      unfold loopUp
      rw [if_pos hu]
      unfold loopUp
      rw [if_neg (by linarith)]
    · refine ⟨z, ?_, by linarith, by linarith⟩
      unfold loopUp
      rw [if_neg hu]

theorem Loose.wrap (hs : Sane c) {rho : ℝ} {s : Sim} (h : Loose c Old rho s) :
    ∃ t, c.wrapAll s = .ok t ∧ SInv c Old 0 0 rho t := by
  have hf : ∀ sp ∈ s.species, ∀ p ∈ sp.ptcl, ∃ p', c.wrap s.zmin s.zmax p = .ok p' ∧ PInv c s.zmin s.zmax 0 0 rho p' := by
    intro sp hsp p hp
    obtain ⟨e1, e2, e3, e4⟩ := h.ptcl sp hsp p hp
    obtain ⟨z', ez, hl, hh⟩ := wrapZ_two s.zmin s.zmax p.push.z c.fuel hs.fuel (box_pos c hs h.box) e3 e4
    refine ⟨{ p with push := { p.push with z := z' } }, ?_, e1, ?_, ?_, e2⟩
    · unfold Cfg.wrap; rw [ez]
    · simpa using hl
    · simpa using hh
  obtain ⟨sps, h1, h2, h3⟩ := mapPtclM_total c (fun _ p => c.wrap s.zmin s.zmax p) s
    (PInv c s.zmin s.zmax 0 0 rho) hf h.sp
  exact ⟨_, h1, h.box, h2, h3, h.seen⟩


theorem SInv.gather (hs : Sane c) {rho : ℝ} {s : Sim} (h : SInv c Old 0 0 rho s) :
    ∃ t, c.gatherAll s = .ok t ∧ SInv c Old 0 0 rho t := by
  have hf : ∀ sp ∈ s.species, ∀ p ∈ sp.ptcl, ∃ p', c.gatherPtcl s sp p = .ok p' ∧ PInv c s.zmin s.zmax 0 0 rho p' := by
    intro sp hsp p hp
    have hP := h.ptcl sp hsp p hp
    unfold Cfg.gatherPtcl
    by_cases hq : sp.q = 0
    · rw [if_pos hq]; exact ⟨p, rfl, hP⟩
    · rw [if_neg hq]
      have hlo := hP.lo
      have hhi := hP.hi
      simp only [zero_mul, sub_zero] at hlo hhi
      have hz0 : 0 ≤ c.invdz * (p.push.z - s.zmin) := mul_nonneg hs.invdz.le (by linarith)
      have hz1 : c.invdz * (p.push.z - s.zmin) ≤ c.Nz := by
        rw [← h.box]; exact mul_le_mul_of_nonneg_left (by linarith) hs.invdz.le
      have hr : 0 ≤ c.invdr * (cylR p.push.x p.push.y - 0) :=
        mul_nonneg hs.invdr.le (by rw [sub_zero]; exact Real.sqrt_nonneg _)
      obtain ⟨E, hE⟩ := gatherField_total sp.shape (c.grid s.zmin) c.rmaxGather
        ((List.range c.Nm).map fun m => (s.interp m).E) p.push.x p.push.y p.push.z hs.Nz hs.Nr hz0 hz1 hr
      obtain ⟨B, hB⟩ := gatherField_total sp.shape (c.grid s.zmin) c.rmaxGather
        ((List.range c.Nm).map fun m => (s.interp m).B) p.push.x p.push.y p.push.z hs.Nz hs.Nr hz0 hz1 hr
      refine ⟨_, (except_bind_ok _ _ _).2 ⟨E, hE, (except_bind_ok _ _ _).2 ⟨B, hB, rfl⟩⟩, hP.mom, ?_, ?_, hP.far⟩
      · exact hP.lo
      · exact hP.hi
  obtain ⟨sps, h1, h2, h3⟩ := mapPtclM_total c (c.gatherPtcl s) s.record (PInv c s.zmin s.zmax 0 0 rho) hf h.sp
  exact ⟨_, h1, h.box, h2, h3, (h.record c hs (by rw [abs_zero]; exact hs.dt_pos.le) (by rw [abs_zero]; exact hs.dt_pos.le)).seen⟩


theorem applyExt_push (e : Ext) (t : ℝ) (id : ℕ) (p : Ptcl) : (applyExt e t id p).push = p.push := by
  unfold applyExt; split_ifs <;> rfl

theorem applyExts_push (L : List Ext) (t : ℝ) (id : ℕ) : ∀ p : Ptcl,
    (L.foldl (fun p e => applyExt e t id p) p).push = p.push := by
  induction L with
  | nil => intro p; rfl
  | cons e L ih => intro p; rw [List.foldl_cons, ih, applyExt_push]

theorem PInv.push_eq {zmin zmax a b rho : ℝ} {p p' : Ptcl} (h : PInv c zmin zmax a b rho p) (e : p'.push = p.push) :
    PInv c zmin zmax a b rho p' := by
  obtain ⟨h1, h2, h3, h4⟩ := h
  unfold Cfg.vz at *
  refine ⟨?_, ?_, ?_, ?_⟩ <;> (try unfold Cfg.vz) <;> rw [e] <;> assumption

theorem SInv.exts {a b rho : ℝ} {s : Sim} (h : SInv c Old a b rho s) : SInv c Old a b rho (c.applyExts s) where
  box := h.box
  sp := by
    intro sp hsp
    obtain ⟨i, hi, rfl⟩ := List.mem_iff_getElem.1 hsp
    have hi' : i < s.species.length := by simpa [Cfg.applyExts] using hi
    have := h.sp s.species[i] (List.getElem_mem hi')
    simp only [Cfg.applyExts, List.getElem_mapIdx]
    exact ⟨this.plane, this.reach⟩
  ptcl := by
    intro sp hsp p hp
    obtain ⟨i, hi, rfl⟩ := List.mem_iff_getElem.1 hsp
    have hi' : i < s.species.length := by simpa [Cfg.applyExts] using hi
    simp only [Cfg.applyExts, List.getElem_mapIdx] at hp
    obtain ⟨p0, hp0, rfl⟩ := List.mem_map.1 hp
    exact (h.ptcl s.species[i] (List.getElem_mem hi') p0 hp0).push_eq c (applyExts_push _ _ _ _)
  seen := h.seen

theorem SInv.pushP {rho : ℝ} {s : Sim} (h : SInv c Old 0 0 rho s) :
    ∃ t, c.pushPAll s = .ok t ∧ SInv c Old 0 0 rho t := by
  have hf : ∀ sp ∈ s.species, ∀ p ∈ sp.ptcl, ∃ p', c.pushP (s.time + 0.5 * c.dt) sp p = .ok p' ∧ PInv c s.zmin s.zmax 0 0 rho p' := by
    intro sp hsp p hp
    have hP := h.ptcl sp hsp p hp
    have hlo := hP.lo
    have hhi := hP.hi
    simp only [zero_mul, sub_zero] at hlo hhi
    have mk : ∀ e : ElecMom, e.ok → PInv c s.zmin s.zmax 0 0 rho { p with push := { p.push with mom := e } } := by
      intro e he
      refine ⟨he, ?_, ?_, hP.far⟩
      · simpa using hlo
      · simpa using hhi
    unfold Cfg.pushP
    by_cases hq : sp.q = 0
    · rw [if_pos hq]; exact ⟨p, rfl, hP⟩
    rw [if_neg hq]
    cases hpl : sp.plane with
    | some b =>
      have := (h.sp sp hsp).plane (by rw [hpl]; simp)
      simp only [this, Bool.false_eq_true, if_false]
      refine ⟨_, rfl, ?_⟩
      unfold pushPAfterPlane
      split_ifs
      · exact mk _ (C27_consistent _ _ _ _ _)
      · exact hP
    | none =>
      simp only
      by_cases hi : sp.ionizable = true
      · rw [if_pos hi]
        refine ⟨_, rfl, ?_⟩
        unfold pushPIoniz
        split_ifs
        · exact hP
        · exact mk _ (C27_consistent _ _ _ _ _)
      · rw [if_neg hi]
        exact ⟨_, rfl, mk _ (C27_consistent _ _ _ _ _)⟩
  obtain ⟨sps, h1, h2, h3⟩ := mapPtclM_total c (c.pushP (s.time + 0.5 * c.dt)) s (PInv c s.zmin s.zmax 0 0 rho) hf h.sp
  exact ⟨_, h1, h.box, h2, h3, h.seen⟩


theorem cylR_norm (x y : ℝ) : cylR x y = ‖(x : ℂ) + y * Complex.I‖ := (Complex.norm_add_mul_I x y).symm

theorem cylR_push (x y dx dy : ℝ) : cylR x y - cylR dx dy ≤ cylR (x + dx) (y + dy) := by
  rw [cylR_norm, cylR_norm, cylR_norm]
  have := norm_sub_norm_le ((x : ℂ) + y * Complex.I) (-((dx : ℂ) + dy * Complex.I))
  rw [norm_neg] at this
  refine this.trans (le_of_eq ?_)
  congr 1
  push_cast; ring

theorem SInv.pushX (hs : Sane c) {a b rho dt px pz : ℝ} {s : Sim} (h : SInv c Old a b rho s) (hpx : px ^ 2 = 1) :
    SInv c Old (a + dt * pz) b (rho - c.k.c * |dt|) (c.pushX dt px px pz s) where
  box := h.box
  sp := by
    intro sp hsp
    obtain ⟨sp', h', rfl⟩ := List.mem_map.1 hsp
    exact ⟨(h.sp sp' h').plane, (h.sp sp' h').reach⟩
  ptcl := by
    intro sp hsp p hp
    obtain ⟨sp', h', rfl⟩ := List.mem_map.1 hsp
    obtain ⟨p', hp', rfl⟩ := List.mem_map.1 hp
    have hP := h.ptcl sp' h' p' hp'
    refine ⟨hP.mom, ?_, ?_, ?_⟩
    · have := hP.lo
      unfold Cfg.vz at *
      simp only [Fbpic.pushX]
      show s.zmin - b * c.vg ≤ _
      linarith
    · have := hP.hi
      unfold Cfg.vz at *
      simp only [Fbpic.pushX]
      show _ < s.zmax - b * c.vg
      linarith
    · have h1 := cylR_push p'.push.x p'.push.y (c.k.c * dt * p'.push.mom.invGamma * px * p'.push.mom.ux)
        (c.k.c * dt * p'.push.mom.invGamma * px * p'.push.mom.uy)
      have h2 : cylR (c.k.c * dt * p'.push.mom.invGamma * px * p'.push.mom.ux)
          (c.k.c * dt * p'.push.mom.invGamma * px * p'.push.mom.uy) ≤ c.k.c * |dt| := by
        unfold cylR
        have hcn : 0 ≤ c.k.c * |dt| := mul_nonneg hs.c_pos.le (abs_nonneg _)
        rw [Real.sqrt_le_left hcn, mul_pow c.k.c |dt|, sq_abs]
        have h3 := (mom_lt _ hP.mom).2
        have e : (c.k.c * dt * p'.push.mom.invGamma * px * p'.push.mom.ux) ^ 2
            + (c.k.c * dt * p'.push.mom.invGamma * px * p'.push.mom.uy) ^ 2
            = (c.k.c ^ 2 * dt ^ 2) * ((p'.push.mom.invGamma * p'.push.mom.ux) ^ 2
              + (p'.push.mom.invGamma * p'.push.mom.uy) ^ 2) := by
          linear_combination (c.k.c ^ 2 * dt ^ 2) * ((p'.push.mom.invGamma * p'.push.mom.ux) ^ 2
              + (p'.push.mom.invGamma * p'.push.mom.uy) ^ 2) * hpx
        rw [e]
        exact mul_le_of_le_one_right (by positivity) h3
      have := hP.far
      show _ < cylR (p'.push.x + _) (p'.push.y + _)
      linarith
  seen := by
    intro q hq
    obtain ⟨h1, h2⟩ := h.seen q hq
    have : 0 ≤ c.k.c * |dt| := mul_nonneg hs.c_pos.le (abs_nonneg _)
    exact ⟨by linarith, h2⟩

theorem SInv.shift {a b rho : ℝ} (dt : ℝ) {s : Sim} (h : SInv c Old a b rho s) :
    SInv c Old a (b + dt) rho (c.shiftGalilean dt s) := by
  unfold Cfg.shiftGalilean
  by_cases hg : c.galilean = true
  · rw [if_pos hg]
    have hv : c.vg = c.V.getD 0 := by unfold Cfg.vg; rw [if_pos hg]
    refine ⟨?_, h.sp, ?_, h.seen⟩
    · show c.invdz * (s.zmax + _ - (s.zmin + _)) = _
      rw [← h.box]; ring
    · intro sp hsp p hp
      have hP := h.ptcl sp hsp p hp
      refine ⟨hP.mom, ?_, ?_, hP.far⟩
      · have := hP.lo
        rw [← hv]; linarith
      · have := hP.hi
        rw [← hv]; linarith
  · rw [if_neg hg]
    have hv : c.vg = 0 := by unfold Cfg.vg; rw [if_neg hg]
    refine ⟨h.box, h.sp, ?_, h.seen⟩
    intro sp hsp p hp
    have hP := h.ptcl sp hsp p hp
    have h1 := hP.lo
    have h2 := hP.hi
    rw [hv, mul_zero] at h1 h2
    exact ⟨hP.mom, by rw [hv, mul_zero]; exact h1, by rw [hv, mul_zero]; exact h2, hP.far⟩

/-- One of the moves of the cycle: the particles if they are moved, then the grid. -/
theorem SInv.move (hs : Sane c) {a b rho dt px pz dtg : ℝ} (move : Bool) {s : Sim} (h : SInv c Old a b rho s)
    (hpx : px ^ 2 = 1) :
    SInv c Old (if move then a + dt * pz else a) (b + dtg) (rho - c.k.c * |dt|) (c.movePush move dt px px pz dtg s) := by
  unfold Cfg.movePush
  apply SInv.shift
  cases move
  · exact h.mono c (by linarith [mul_nonneg hs.c_pos.le (abs_nonneg dt)])
  · exact h.pushX c hs hpx

theorem SInv.loose (hs : Sane c) {a b rho : ℝ} {s : Sim} (h : SInv c Old a b rho s) (ha : |a| ≤ c.dt) (hb : |b| ≤ c.dt) :
    Loose c Old rho s where
  box := h.box
  sp := h.sp
  ptcl := by
    intro sp hsp p hp
    have hP := h.ptcl sp hsp p hp
    have hr := (h.sp sp hsp).reach
    have hv := vz_lt c hs p hP.mom
    have e1 : |a * c.vz p| < c.k.c * c.dt := by
      rw [abs_mul]
      nlinarith [abs_nonneg a, abs_nonneg (c.vz p), hs.dt_pos]
    have e2 : |b * c.vg| ≤ |c.vg| * c.dt := by
      rw [abs_mul]; nlinarith [abs_nonneg (c.vg)]
    obtain ⟨e1l, e1h⟩ := abs_lt.1 e1
    obtain ⟨e2l, e2h⟩ := abs_le.1 e2
    have hbox : (c.k.c + |c.vg|) * c.dt ≤ s.zmax - s.zmin := by
      have h2 : (2 : ℝ) ≤ c.Nz := by exact_mod_cast hs.Nz
      have h3 : sp.shape.reach ≤ 3 / 2 := by cases sp.shape <;> norm_num [Shape.reach]
      have h4 : c.invdz * ((c.k.c + |c.vg|) * c.dt) ≤ c.invdz * (s.zmax - s.zmin) := by
        rw [h.box]; linarith
      exact le_of_mul_le_mul_left h4 hs.invdz
    refine ⟨hP.mom, hP.far, ?_, ?_⟩
    · linarith [hP.lo]
    · linarith [hP.hi]
  seen := h.seen

/-! ### The cycle -/

theorem SInv.iterEnd {a b rho : ℝ} (o : Opts) (ho : o.correctDivE = true → c.correction = .curlFree) {s : Sim}
    (h : SInv c Old a b rho s) : ∃ t, c.iterEnd o s = .ok t ∧ SInv c Old a b rho t := by
  unfold Cfg.iterEnd
  by_cases hd : o.correctDivE = true
  · simp only [if_pos hd]
    have : ∀ sp, ∃ r, c.correctDivE sp = .ok r := by
      intro sp
      unfold Cfg.correctDivE
      rw [ho hd]
      exact ⟨_, rfl⟩
    obtain ⟨r, hr⟩ := this (onModes c.Nm (fun _ g => g.push c.k c.dt c.V c.galilean false o.useTrueRho)
      (if o.correctCurrents then onModes c.Nm (fun _ g => g.correctCurrents c.k c.correction c.dt c.V c.galilean) s.spect
        else s.spect))
    exact ⟨_, (except_bind_ok _ _ _).2 ⟨r, hr, rfl⟩, h.box, h.sp, h.ptcl, h.seen⟩
  · simp only [if_neg hd]
    exact ⟨_, rfl, h.box, h.sp, h.ptcl, h.seen⟩

theorem Loose.iterInv (hs : Sane c) {rho : ℝ} (o : Opts) (ho : o.correctDivE = true → c.correction = .curlFree) (i : ℕ)
    {s : Sim} (h : Loose c Old rho s) : ∃ t, c.iter o i s = .ok t ∧
      SInv c Old (if o.movePositions then c.dt else 0) c.dt (rho - 3 * (c.k.c * c.dt)) t := by
  have hdt := hs.dt_pos
  have hcd : 0 < c.k.c * c.dt := mul_pos hs.c_pos hdt
  have hz : |(0 : ℝ)| ≤ c.dt := by rw [abs_zero]; exact hdt.le
  have ah : |(0.5 : ℝ) * c.dt| = c.dt / 2 := by rw [abs_of_pos (by linarith)]; ring
  have ad : |c.dt| = c.dt := abs_of_pos hdt
  have hp0 : ¬ c.exchangePeriod = 0 := by rw [hs.period]; norm_num
  have hmod : s.iteration % c.exchangePeriod = 0 := by rw [hs.period]; exact Nat.mod_one _
  rw [iter_eq, if_neg hp0]
  -- start
  have hstart : ∃ t, c.iterStart i s = .ok t ∧ SInv c Old 0 0 rho t := by
    rw [iterStart_eq]
    simp only [if_pos (Or.inl hmod : s.iteration % c.exchangePeriod = 0 ∨ i = 0)]
    obtain ⟨s1, e1, h1⟩ := h.wrap c hs
    obtain ⟨s2, e2, h2⟩ := h1.rho c hs hz hz .prev
    have hJ : ∃ s3, (if i = 0 then c.depositJ s2 else pure s2) = .ok s3 ∧ SInv c Old 0 0 rho s3 := by
      by_cases hi : i = 0
      · rw [if_pos hi]; exact h2.J c hs hz hz
      · rw [if_neg hi]; exact ⟨s2, rfl, h2⟩
    obtain ⟨s3, e3, h3⟩ := hJ
    obtain ⟨s4, e4, h4⟩ := h3.gather c hs
    exact ⟨_, (except_bind_ok _ _ _).2 ⟨s2, (except_bind_ok _ _ _).2 ⟨s1, e1, e2⟩, (except_bind_ok _ _ _).2 ⟨s3, e3,
      (except_bind_ok _ _ _).2 ⟨s4, e4, rfl⟩⟩⟩, h4.exts c⟩
  obtain ⟨s1, e1, h1⟩ := hstart
  -- half
  have hhalf : ∃ t, c.iterHalf o s1 = .ok t ∧
      SInv c Old (if o.movePositions then 0.5 * c.dt else 0) (0.5 * c.dt) (rho - c.k.c * c.dt / 2) t := by
    rw [iterHalf_eq]
    have hP : ∃ s2, (if o.moveMomenta then c.pushPAll s1 else pure s1) = .ok s2 ∧ SInv c Old 0 0 rho s2 := by
      by_cases hi : o.moveMomenta = true
      · rw [if_pos hi]; exact h1.pushP c
      · rw [if_neg hi]; exact ⟨s1, rfl, h1⟩
    obtain ⟨s2, e2, h2⟩ := hP
    refine ⟨_, (except_bind_ok _ _ _).2 ⟨s2, e2, rfl⟩, ?_⟩
    have := h2.move c hs (dt := 0.5 * c.dt) (px := 1) (pz := 1) (dtg := 0.5 * c.dt) o.movePositions (by norm_num)
    rw [ah, zero_add, zero_add, mul_one, show rho - c.k.c * (c.dt / 2) = rho - c.k.c * c.dt / 2 by ring] at this
    exact this
  obtain ⟨s2, e2, h2⟩ := hhalf
  set A : ℝ := if o.movePositions then 0.5 * c.dt else 0 with hA
  have hAb : |A| ≤ c.dt := by rw [hA]; split_ifs <;> [(rw [ah]; linarith); exact hz]
  have hHb : |0.5 * c.dt| ≤ c.dt := by rw [ah]; linarith
  -- deposit
  have hdep : ∃ t, c.iterDeposit o s2 = .ok t ∧
      SInv c Old (if o.movePositions then c.dt else 0) c.dt (rho - 3 * (c.k.c * c.dt)) t := by
    rw [iterDeposit_eq]
    obtain ⟨s3, e3, h3⟩ := h2.J c hs hAb hHb
    have hcross : ∃ s4, c.maybeCross o s3 = .ok s4 ∧ SInv c Old A (0.5 * c.dt) (rho - 5 / 2 * (c.k.c * c.dt)) s4 := by
      unfold Cfg.maybeCross
      split
      · rw [crossDeposit_eq]
        have g1 := h3.move c hs (dt := 0.5 * c.dt) (px := 1) (pz := -1) (dtg := -0.5 * c.dt) o.movePositions (by norm_num)
        have A1 : (if o.movePositions = true then A + 0.5 * c.dt * -1 else A) = 0 := by
          rw [hA]; split_ifs <;> ring
        rw [A1, ah, show 0.5 * c.dt + -0.5 * c.dt = 0 by ring] at g1
        obtain ⟨s5, e5, h5⟩ := g1.rho c hs hz hz .nextXY
        have g2 := h5.move c hs (dt := c.dt) (px := -1) (pz := 1) (dtg := c.dt) o.movePositions (by norm_num)
        rw [ad, zero_add, zero_add, mul_one] at g2
        have hD : |if o.movePositions = true then c.dt else 0| ≤ c.dt := by
          split_ifs <;> [rw [ad]; exact hz]
        obtain ⟨s6, e6, h6⟩ := g2.rho c hs hD (by rw [ad]) .nextZ
        have g3 := h6.move c hs (dt := 0.5 * c.dt) (px := 1) (pz := -1) (dtg := -0.5 * c.dt) o.movePositions (by norm_num)
        have A3 : (if o.movePositions = true then (if o.movePositions = true then c.dt else 0) + 0.5 * c.dt * -1
            else (if o.movePositions = true then c.dt else 0)) = A := by
          rw [hA]; split_ifs <;> ring
        rw [A3, ah, show c.dt + -0.5 * c.dt = 0.5 * c.dt by ring] at g3
        exact ⟨_, (except_bind_ok _ _ _).2 ⟨s5, e5, (except_bind_ok _ _ _).2 ⟨s6, e6, rfl⟩⟩, g3.mono c (by linarith)⟩
      · exact ⟨s3, rfl, h3.mono c (by linarith)⟩
    obtain ⟨s4, e4, h4⟩ := hcross
    have g := h4.move c hs (dt := 0.5 * c.dt) (px := 1) (pz := 1) (dtg := 0.5 * c.dt) o.movePositions (by norm_num)
    have A5 : (if o.movePositions = true then A + 0.5 * c.dt * 1 else A) = if o.movePositions = true then c.dt else 0 := by
      rw [hA]; split_ifs <;> ring
    rw [A5, ah, show 0.5 * c.dt + 0.5 * c.dt = c.dt by ring] at g
    have hD : |if o.movePositions = true then c.dt else 0| ≤ c.dt := by
      split_ifs <;> [rw [ad]; exact hz]
    obtain ⟨s5, e5, h5⟩ := g.rho c hs hD (by rw [ad]) .next
    exact ⟨s5, (except_bind_ok _ _ _).2 ⟨s3, e3, (except_bind_ok _ _ _).2 ⟨s4, e4, e5⟩⟩, h5.mono c (by linarith)⟩
  obtain ⟨s3, e3, h3⟩ := hdep
  obtain ⟨t, e4, h4⟩ := h3.iterEnd c o ho
  exact ⟨t, (except_bind_ok _ _ _).2 ⟨s1, e1, (except_bind_ok _ _ _).2 ⟨s2, e2, (except_bind_ok _ _ _).2 ⟨s3, e3,
    e4⟩⟩⟩, h4⟩

theorem Loose.iter (hs : Sane c) {rho : ℝ} (o : Opts) (ho : o.correctDivE = true → c.correction = .curlFree) (i : ℕ)
    {s : Sim} (h : Loose c Old rho s) : ∃ t, c.iter o i s = .ok t ∧ Loose c Old (rho - 3 * (c.k.c * c.dt)) t := by
  obtain ⟨t, e, ht⟩ := h.iterInv c hs o ho i
  have hd := hs.dt_pos
  refine ⟨t, e, ht.loose c hs ?_ (by rw [abs_of_pos hd])⟩
  split_ifs
  · rw [abs_of_pos hd]
  · rw [abs_zero]; exact hd.le

theorem Loose.loop (hs : Sane c) (o : Opts) (ho : o.correctDivE = true → c.correction = .curlFree) (n : ℕ) :
    ∀ (i : ℕ) (rho : ℝ) (s : Sim), Loose c Old rho s →
      ∃ t, c.loop o i n s = .ok t ∧ Loose c Old (rho - n * (3 * (c.k.c * c.dt))) t := by
  induction n with
  | zero => intro i rho s h; exact ⟨s, rfl, by simpa using h⟩
  | succ n ih =>
    intro i rho s h
    obtain ⟨s1, e1, h1⟩ := h.iter c hs o ho i
    obtain ⟨t, e2, h2⟩ := ih (i + 1) _ s1 h1
    refine ⟨t, (except_bind_ok _ _ _).2 ⟨s1, e1, e2⟩, ?_⟩
    push_cast
    rw [show rho - ((n : ℝ) + 1) * (3 * (c.k.c * c.dt)) = rho - 3 * (c.k.c * c.dt) - n * (3 * (c.k.c * c.dt)) by ring]
    exact h2

theorem Loose.calls (hs : Sane c) (L : List (ℕ × Opts)) :
    ∀ (rho : ℝ) (s : Sim), (∀ x ∈ L, x.2.correctDivE = true → c.correction = .curlFree) → Loose c Old rho s →
      ∃ t, c.calls L s = .ok t ∧ Loose c Old (rho - (L.map Prod.fst).sum * (3 * (c.k.c * c.dt))) t := by
  induction L with
  | nil => intro rho s _ h; exact ⟨s, rfl, by simpa using h⟩
  | cons x L ih =>
    obtain ⟨n, o⟩ := x
    intro rho s ho h
    have h0 : Loose c Old rho (c.startFields s) := ⟨h.box, h.sp, h.ptcl, h.seen⟩
    obtain ⟨s1, e1, h1⟩ := h0.loop c hs o (ho (n, o) (by simp)) n 0 rho _
    have h1' : Loose c Old (rho - n * (3 * (c.k.c * c.dt))) (c.endFields s1) := ⟨h1.box, h1.sp, h1.ptcl, h1.seen⟩
    obtain ⟨t, e2, h2⟩ := ih _ _ (fun x hx => ho x (by simp [hx])) h1'
    refine ⟨t, (except_bind_ok _ _ _).2 ⟨_, (except_bind_ok _ _ _).2 ⟨s1, e1, rfl⟩, e2⟩, ?_⟩
    rw [List.map_cons, List.sum_cons, Nat.cast_add]
    rw [show rho - ((n : ℝ) + ((L.map Prod.fst).sum : ℕ)) * (3 * (c.k.c * c.dt))
      = rho - n * (3 * (c.k.c * c.dt)) - ((L.map Prod.fst).sum : ℕ) * (3 * (c.k.c * c.dt)) by ring]
    exact h2

end

end Fbpic.Pic
