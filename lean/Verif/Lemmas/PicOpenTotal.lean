import Verif.Spec.PicOpenTotal
import Verif.Lemmas.PicOpenStep
import Verif.Lemmas.PicTotal

/-!
# Lemmas: a simulation with open boundaries never leaves its arrays
-/

namespace Fbpic.Pic

open Transform ExternalField Step
open Spec (charges pairSpecies pairPtcl OneProcess Healthy Placed PlaneAntenna frameVelocity)

variable {c : OCfg}

/-- Particles and emitting antennas are between `lo` and `hi`. -/
structure OCfg.Within (c : OCfg) (lo hi : ℝ) (S : OSim) : Prop where
  plane : ∀ sp ∈ S.sim.species, sp.plane ≠ none → sp.ionizable = false
  ptcl : ∀ sp ∈ S.sim.species, ∀ p ∈ sp.ptcl, p.push.mom.ok ∧ lo ≤ p.push.z ∧ p.push.z ≤ hi
  ants : ∀ a ∈ S.ants, PlaneAntenna c.base.k.c a ∧ (a.onRank = true → ∀ p ∈ a.parts, lo ≤ p.z ∧ p.z ≤ hi)

/-- What does not change during a run. -/
structure OCfg.Fit (c : OCfg) : Prop where
  one : OneProcess c
  dt : 0 < c.base.dt
  invdz : c.base.invdz * c.dz = 1
  invdr : 0 < c.base.invdr
  Nr : 2 ≤ c.base.Nr
  beta : ∀ sh k, (c.base.beta sh k).length = c.base.Nr + 1
  period : 1 ≤ c.comm.exchangePeriod
  guard : (c.comm.exchangePeriod : ℝ) * (2 * (c.base.k.c * c.base.dt)) ≤ ((c.comm.nGuard : ℝ) / 2 - 3) * c.dz
  frame : |frameVelocity c.base| ≤ c.base.k.c

theorem OCfg.Fit.cpos (h : c.Fit) : 0 < c.base.k.c := h.one.consts.c_pos

theorem OCfg.Fit.invdz_pos (h : c.Fit) : 0 < c.base.invdz := by
  have := h.invdz
  by_contra hn
  have := mul_nonpos_of_nonpos_of_nonneg (not_lt.1 hn) h.one.dz.le
  linarith

theorem OCfg.Fit.nGuard (h : c.Fit) : 7 ≤ c.comm.nGuard := by
  have h1 := h.guard
  have h2 : (1 : ℝ) ≤ c.comm.exchangePeriod := by exact_mod_cast h.period
  have h3 : 0 < c.base.k.c * c.base.dt := mul_pos h.cpos h.dt
  have h4 : 0 < ((c.comm.nGuard : ℝ) / 2 - 3) * c.dz := lt_of_lt_of_le (by positivity) h1
  have h5 := (mul_pos_iff_of_pos_right h.one.dz).1 h4
  have h6 : (6 : ℝ) < c.comm.nGuard := by linarith
  have : 6 < c.comm.nGuard := by exact_mod_cast h6
  omega

theorem OCfg.Fit.Nz (h : c.Fit) : 14 ≤ c.base.Nz := by
  have := h.nGuard
  have := h.one.cells
  omega

theorem OCfg.Fit.drift_le (h : c.Fit) (t : ℝ) : |c.base.drift t| ≤ c.base.k.c * |t| := by
  have := h.frame
  unfold Cfg.drift
  unfold frameVelocity at this
  split_ifs with hg
  · rw [if_pos hg] at this
    rw [abs_mul]
    exact mul_le_mul_of_nonneg_right this (abs_nonneg _)
  · rw [abs_zero]
    exact mul_nonneg h.cpos.le (abs_nonneg _)

/-! ### Motion -/

theorem vz_lt' (hc : 0 < c.base.k.c) (p : Ptcl) (h : p.push.mom.ok) :
    |c.base.k.c * p.push.mom.invGamma * p.push.mom.uz| ≤ c.base.k.c := by
  rw [mul_assoc, abs_mul, abs_of_pos hc]
  have := (mom_lt _ h).1
  nlinarith

theorem planeAnt_slide {a : Antenna.Ant} (h : PlaneAntenna c.base.k.c a) (e f : ℝ) : PlaneAntenna c.base.k.c (slide e f a) := by
  obtain ⟨h1, z, v, h2, h3⟩ := h
  refine ⟨by unfold slide; simpa using h1, z + f * v, v, h2, ?_⟩
  intro p hp
  obtain ⟨q, hq, rfl⟩ := List.mem_map.1 hp
  obtain ⟨g1, g2⟩ := h3 q hq
  exact ⟨by simp only; rw [g1, g2], g2⟩

theorem planeAnt_update {a : Antenna.Ant} (h : PlaneAntenna c.base.k.c a) (t dt : ℝ) :
    PlaneAntenna c.base.k.c (Antenna.updateV c.ak a t dt) := by
  obtain ⟨h1, z, v, h2, h3⟩ := h
  refine ⟨by unfold Antenna.updateV; simpa using h1, z, v, h2, ?_⟩
  intro p hp
  obtain ⟨q, hq, rfl⟩ := List.mem_map.1 hp
  exact h3 q hq

theorem slide_within {a : Antenna.Ant} {lo hi τ e f : ℝ} (hc : 0 < c.base.k.c) (h : PlaneAntenna c.base.k.c a) (hf : |f| ≤ τ)
    (hr : ∀ p ∈ a.parts, lo ≤ p.z ∧ p.z ≤ hi) : ∀ p ∈ (slide e f a).parts, lo - c.base.k.c * τ ≤ p.z ∧ p.z ≤ hi + c.base.k.c * τ := by
  obtain ⟨h1, z, v, h2, h3⟩ := h
  intro p hp
  obtain ⟨q, hq, rfl⟩ := List.mem_map.1 hp
  obtain ⟨-, g2⟩ := h3 q hq
  obtain ⟨k1, k2⟩ := hr q hq
  have : |f * q.vz| ≤ c.base.k.c * τ := by
    rw [abs_mul, g2, mul_comm]
    exact mul_le_mul h2 hf (abs_nonneg _) hc.le
  obtain ⟨m1, m2⟩ := abs_le.1 this
  constructor <;> simp only <;> linarith

theorem OCfg.Within.moved (hc : 0 < c.base.k.c) {lo hi a b e f g τ : ℝ} {S T : OSim} (h : c.Within lo hi S)
    (m : c.Moved a b e f g S T) (hb : |b| ≤ τ) (hf : |f| ≤ τ) : c.Within (lo - c.base.k.c * τ) (hi + c.base.k.c * τ) T where
  plane := by
    rw [m.species]
    intro sp hsp
    obtain ⟨sp0, h0, rfl⟩ := List.mem_map.1 hsp
    exact h.plane sp0 h0
  ptcl := by
    rw [m.species]
    intro sp hsp p hp
    obtain ⟨sp0, h0, rfl⟩ := List.mem_map.1 hsp
    obtain ⟨p0, hp0, rfl⟩ := List.mem_map.1 hp
    obtain ⟨k0, k1, k2⟩ := h.ptcl sp0 h0 p0 hp0
    have hv := vz_lt' hc p0 k0
    have : |b * (c.base.k.c * p0.push.mom.invGamma * p0.push.mom.uz)| ≤ c.base.k.c * τ := by
      rw [abs_mul, mul_comm]
      exact mul_le_mul hv hb (abs_nonneg _) hc.le
    obtain ⟨m1, m2⟩ := abs_le.1 this
    refine ⟨k0, ?_, ?_⟩ <;> unfold Cfg.shiftP <;> dsimp only <;> linarith
  ants := by
    rw [m.ants]
    intro A hA
    obtain ⟨A0, h0, rfl⟩ := List.mem_map.1 hA
    obtain ⟨k1, k2⟩ := h.ants A0 h0
    exact ⟨planeAnt_slide k1 e f, fun ho => slide_within hc k1 hf (k2 ho)⟩

theorem OCfg.Within.mono {lo hi lo' hi' : ℝ} {S : OSim} (h : c.Within lo hi S) (h1 : lo' ≤ lo) (h2 : hi ≤ hi') : c.Within lo' hi' S where
  plane := h.plane
  ptcl := fun sp hsp p hp => by
    obtain ⟨k0, k1, k2⟩ := h.ptcl sp hsp p hp
    exact ⟨k0, h1.trans k1, k2.trans h2⟩
  ants := fun a ha => ⟨(h.ants a ha).1, fun ho p hp => ⟨h1.trans ((h.ants a ha).2 ho p hp).1, ((h.ants a ha).2 ho p hp).2.trans h2⟩⟩

theorem OCfg.Within.of_eq {lo hi : ℝ} {S T : OSim} (h : c.Within lo hi S) (h1 : T.sim.species = S.sim.species) (h2 : T.ants = S.ants) :
    c.Within lo hi T where
  plane := by rw [h1]; exact h.plane
  ptcl := by rw [h1]; exact h.ptcl
  ants := by rw [h2]; exact h.ants

/-! ### Depositions -/

/-- The grid has the right length. -/
def OCfg.Box (c : OCfg) (S : OSim) : Prop := S.sim.zmax = S.sim.zmin + c.base.Nz * c.dz

theorem OCfg.Fit.cell (hs : c.Fit) {S : OSim} (hb : c.Box S) {z : ℝ} (h1 : S.sim.zmin ≤ z) (h2 : z ≤ S.sim.zmax) :
    0 ≤ c.base.invdz * (z - S.sim.zmin) ∧ c.base.invdz * (z - S.sim.zmin) ≤ c.base.Nz := by
  constructor
  · exact mul_nonneg hs.invdz_pos.le (by linarith)
  · have h3 : z - S.sim.zmin ≤ c.base.Nz * c.dz := by
      have : S.sim.zmax = S.sim.zmin + c.base.Nz * c.dz := hb
      linarith
    have h4 := mul_le_mul_of_nonneg_left h3 hs.invdz_pos.le
    have h5 : c.base.invdz * (c.base.Nz * c.dz) = c.base.Nz := by
      linear_combination (c.base.Nz : ℝ) * hs.invdz
    linarith

theorem OCfg.Within.depOk (hs : c.Fit) {S : OSim} (hb : c.Box S) (h : c.Within S.sim.zmin S.sim.zmax S) (f : DepField) :
    c.base.depOk f (charges c S) := by
  have hr : ∀ s : Shape, 0 < s.reach := by intro s; cases s <;> norm_num [Shape.reach]
  intro m _ sp hsp
  have := (depositAll_ok f c.base.k.c (c.base.grid (charges c S).zmin) c.base.beta m 1 one_pos [sp] _).1
    (C24_deposit_partial f c.base.k.c (c.base.grid (charges c S).zmin) c.base.beta m 1 one_pos [sp] hs.beta hs.invdr rfl ?_).choose_spec
  · exact this.1 sp (by simp)
  · intro sp' hsp' p hp
    rw [List.mem_singleton.1 hsp'] at hp ⊢
    obtain ⟨sp0, h0, rfl⟩ := List.mem_map.1 hsp
    obtain ⟨p0, hp0, rfl⟩ := List.mem_map.1 hp
    have hsp0 := (List.mem_filter.1 h0).1
    show -sp0.shape.reach < c.base.invdz * (p0.push.z - S.sim.zmin) ∧
      c.base.invdz * (p0.push.z - S.sim.zmin) ≤ c.base.Nz + sp0.shape.reach
    have hz : S.sim.zmin ≤ p0.push.z ∧ p0.push.z ≤ S.sim.zmax := by
      rcases List.mem_append.1 hsp0 with h1 | h1
      · exact (h.ptcl sp0 h1 p0 hp0).2
      · obtain ⟨a, ha, h2⟩ := List.mem_flatMap.1 h1
        by_cases ho : a.onRank = true
        · rw [if_pos ho] at h2
          have : ∃ q, sp0 = pairSpecies c.base.k.c q a := by
            rcases List.mem_cons.1 h2 with h3 | h3
            · exact ⟨_, h3⟩
            · exact ⟨_, List.mem_singleton.1 h3⟩
          obtain ⟨q, rfl⟩ := this
          obtain ⟨v, hv, rfl⟩ := List.mem_map.1 hp0
          exact (h.ants a ha).2 ho v hv
        · rw [if_neg ho] at h2; cases h2
    obtain ⟨k1, k2⟩ := hs.cell hb hz.1 hz.2
    have := hr sp0.shape
    constructor <;> linarith

variable [NeZero c.base.Nz]

theorem OCfg.Within.rho (hs : c.Fit) {S : OSim} (hb : c.Box S) (h : c.Within S.sim.zmin S.sim.zmax S) (n : RhoName) :
    ∃ T, c.depositRho n S = .ok T ∧ c.Moved 0 0 0 0 0 S T := by
  have e := (depositModes_ok c.base hs.one.threads .rho (charges c S) _).2 ⟨h.depOk hs hb .rho, rfl⟩
  rw [← depositModes_charges c .rho (S := S) (s := charges c S) rfl rfl] at e
  have : ∃ T, c.depositRho n S = .ok T := ⟨_, (except_bind_ok _ _ _).2 ⟨_, e, rfl⟩⟩
  obtain ⟨T, hT⟩ := this
  obtain ⟨-, -, -, m⟩ := emb_rho c n (emb_charges c S) hT
  exact ⟨T, hT, m⟩

theorem OCfg.Within.J (hs : c.Fit) {S : OSim} (hb : c.Box S) (h : c.Within S.sim.zmin S.sim.zmax S) :
    ∃ T, c.depositJ S = .ok T ∧ c.Moved 0 0 0 0 0 S T := by
  have e : ∀ f, ∃ A, c.depositModes f S = .ok A := by
    intro f
    have e := (depositModes_ok c.base hs.one.threads f (charges c S) _).2 ⟨h.depOk hs hb f, rfl⟩
    rw [← depositModes_charges c f (S := S) (s := charges c S) rfl rfl] at e
    exact ⟨_, e⟩
  obtain ⟨A1, e1⟩ := e .Jr
  obtain ⟨A2, e2⟩ := e .Jt
  obtain ⟨A3, e3⟩ := e .Jz
  have : ∃ T, c.depositJ S = .ok T :=
    ⟨_, (except_bind_ok _ _ _).2 ⟨_, e1, (except_bind_ok _ _ _).2 ⟨_, e2, (except_bind_ok _ _ _).2 ⟨_, e3, rfl⟩⟩⟩⟩
  obtain ⟨T, hT⟩ := this
  obtain ⟨-, -, -, m⟩ := emb_J c (emb_charges c S) hT
  exact ⟨T, hT, m⟩

theorem OCfg.Box.moved {a b e f g : ℝ} {S T : OSim} (h : c.Box S) (m : c.Moved a b e f g S T) : c.Box T := by
  unfold OCfg.Box at *
  rw [m.zmin, m.zmax, h]; ring

/-- The depositions of an iteration, from the middle of the step. -/
theorem deposit_total (hs : c.Fit) (o : Opts) {lo hi : ℝ} {B : OSim} (hb : c.Box B) (h : c.Within lo hi B)
    (h1 : B.sim.zmin + c.base.k.c * c.base.dt ≤ lo) (h2 : hi ≤ B.sim.zmax - c.base.k.c * c.base.dt) :
    ∃ D, c.iterDeposit o B = .ok D := by
  have hc := hs.cpos
  have hd := hs.dt
  have hcd : 0 < c.base.k.c * c.base.dt := mul_pos hc hd
  have ah : |(0.5 : ℝ) * c.base.dt| = c.base.dt / 2 := by rw [abs_of_pos (by linarith)]; ring
  -- any state on the way
  have ok : ∀ {a b e f g : ℝ} {X : OSim}, c.Moved a b e f g B X → |b| ≤ c.base.dt / 2 → |f| ≤ c.base.dt / 2 → |g| ≤ c.base.dt / 2 →
      c.Box X ∧ c.Within X.sim.zmin X.sim.zmax X := by
    intro a b e f g X m hb' hf hg
    refine ⟨hb.moved m, (h.moved hc m hb' hf).mono ?_ ?_⟩
    · rw [m.zmin]
      have := (abs_le.1 (hs.drift_le g)).2
      have : c.base.k.c * |g| ≤ c.base.k.c * (c.base.dt / 2) := mul_le_mul_of_nonneg_left hg hc.le
      linarith
    · rw [m.zmax]
      have := (abs_le.1 (hs.drift_le g)).1
      have : c.base.k.c * |g| ≤ c.base.k.c * (c.base.dt / 2) := mul_le_mul_of_nonneg_left hg hc.le
      linarith
  have z0 : |(0 : ℝ)| ≤ c.base.dt / 2 := by rw [abs_zero]; linarith
  have bnd : ∀ (x y : ℝ) (p : Bool), |x| ≤ c.base.dt / 2 → |y| ≤ c.base.dt / 2 → |if p then x else y| ≤ c.base.dt / 2 := by
    intro x y p hx hy; split_ifs <;> assumption
  have hid : c.Moved 0 0 0 0 0 B B := .of_eq c rfl rfl rfl rfl rfl rfl rfl rfl rfl
  obtain ⟨b0, w0⟩ := ok hid z0 z0 z0
  obtain ⟨S1, e1, m1⟩ := w0.J hs b0
  have cross : ∃ S2, c.maybeCross o S1 = .ok S2 ∧ c.Moved 0 0 0 0 0 B S2 := by
    unfold OCfg.maybeCross
    split
    · rw [ocrossDeposit_eq]
      have n1 := m1.trans c (moved_push c o.movePositions (0.5 * c.base.dt) 1 (-1) (-0.5 * c.base.dt) S1)
      obtain ⟨bX, wX⟩ := ok n1 (by
          rw [zero_add]; refine bnd _ _ _ ?_ z0
          rw [abs_mul, abs_neg, abs_one, mul_one, ah]) (by
          rw [zero_add, abs_mul, abs_neg, abs_one, mul_one, ah]) (by
          rw [zero_add, neg_mul, abs_neg, ah])
      obtain ⟨X, eX, mX⟩ := wX.rho hs bX .nextXY
      have n2 := (n1.trans c mX).trans c (moved_push c o.movePositions c.base.dt (-1) 1 c.base.dt X)
      have hh : ∀ x : ℝ, x = c.base.dt / 2 → |x| ≤ c.base.dt / 2 := by
        rintro x rfl; rw [abs_of_pos (by linarith)]
      obtain ⟨bZ, wZ⟩ := ok n2 (by
          cases o.movePositions
          · simp; linarith
          · refine hh _ ?_; simp only [if_true]; ring) (hh _ (by ring)) (hh _ (by ring))
      obtain ⟨Z, eZ, mZ⟩ := wZ.rho hs bZ .nextZ
      have n3 := (n2.trans c mZ).trans c (moved_push c o.movePositions (0.5 * c.base.dt) 1 (-1) (-0.5 * c.base.dt) Z)
      refine ⟨_, (except_bind_ok _ _ _).2 ⟨X, eX, (except_bind_ok _ _ _).2 ⟨Z, eZ, rfl⟩⟩, ?_⟩
      convert n3 using 1 <;> (try split_ifs) <;> ring
    · exact ⟨S1, rfl, m1⟩
  obtain ⟨S2, e2, m2⟩ := cross
  have n := m2.trans c (moved_push c o.movePositions (0.5 * c.base.dt) 1 1 (0.5 * c.base.dt) S2)
  obtain ⟨bE, wE⟩ := ok n (by
      rw [zero_add]; refine bnd _ _ _ ?_ z0
      rw [mul_one, ah]) (by rw [zero_add, mul_one, ah]) (by rw [zero_add, ah])
  obtain ⟨D, eD, -⟩ := wE.rho hs bE .next
  rw [oiterDeposit_eq]
  exact ⟨D, (except_bind_ok _ _ _).2 ⟨S1, e1, (except_bind_ok _ _ _).2 ⟨S2, e2, eD⟩⟩⟩


/-! ### Particles -/

theorem OCfg.Within.same {lo hi : ℝ} {S T : OSim} (h : c.Within lo hi S) (m : c.Moved 0 0 0 0 0 S T) : c.Within lo hi T :=
  h.of_eq (by rw [m.species, shiftAll_zero]) (by rw [m.ants, slides_zero])

/-- Particle by particle. -/
theorem each_total (c : OCfg) (f : Species → Ptcl → Except PyErr Ptcl) (s : Sim) (Q : Ptcl → Prop)
    (hf : ∀ sp ∈ s.species, ∀ p ∈ sp.ptcl, ∃ p', f sp p = .ok p' ∧ Q p')
    (hsp : ∀ sp ∈ s.species, sp.plane ≠ none → sp.ionizable = false) :
    ∃ sps, s.mapPtclM f = .ok { s with species := sps } ∧ (∀ sp ∈ sps, sp.plane ≠ none → sp.ionizable = false) ∧
      ∀ sp ∈ sps, ∀ p ∈ sp.ptcl, Q p := by
  have : NeZero ({ c.base with dt := 0, Nz := 1 } : Cfg).Nz := ⟨one_ne_zero⟩
  obtain ⟨sps, h1, h2, h3⟩ := mapPtclM_total { c.base with dt := 0, Nz := 1 } f s Q hf fun sp h => ⟨hsp sp h, by
    have : (0 : ℝ) ≤ sp.shape.reach := by cases sp.shape <;> norm_num [Shape.reach]
    simpa using this⟩
  exact ⟨sps, h1, fun sp h => (h2 sp h).plane, h3⟩

theorem OCfg.Within.gather (hs : c.Fit) {lo hi : ℝ} {S : OSim} (hb : c.Box S) (h : c.Within lo hi S) (h1 : S.sim.zmin ≤ lo)
    (h2 : hi ≤ S.sim.zmax) : ∃ t, c.base.gatherAll S.sim = .ok t ∧ c.Within lo hi { S with sim := c.base.applyExts t } ∧
      (c.base.applyExts t).zmin = S.sim.zmin ∧ (c.base.applyExts t).zmax = S.sim.zmax ∧ (c.base.applyExts t).time = S.sim.time ∧
      (c.base.applyExts t).iteration = S.sim.iteration := by
  have hf : ∀ sp ∈ S.sim.species, ∀ p ∈ sp.ptcl, ∃ p', c.base.gatherPtcl S.sim sp p = .ok p' ∧
      (p'.push.mom.ok ∧ lo ≤ p'.push.z ∧ p'.push.z ≤ hi) := by
    intro sp hsp p hp
    have hP := h.ptcl sp hsp p hp
    unfold Cfg.gatherPtcl
    by_cases hq : sp.q = 0
    · rw [if_pos hq]; exact ⟨p, rfl, hP⟩
    · rw [if_neg hq]
      obtain ⟨hz0, hz1⟩ := hs.cell hb (h1.trans hP.2.1) (hP.2.2.trans h2)
      have hr : 0 ≤ c.base.invdr * (cylR p.push.x p.push.y - 0) :=
        mul_nonneg hs.invdr.le (by rw [sub_zero]; exact Real.sqrt_nonneg _)
      have hN : 2 ≤ c.base.Nz := by have := hs.Nz; omega
      obtain ⟨E, hE⟩ := gatherField_total sp.shape (c.base.grid S.sim.zmin) c.base.rmaxGather
        ((List.range c.base.Nm).map fun m => (S.sim.interp m).E) p.push.x p.push.y p.push.z hN hs.Nr hz0 hz1 hr
      obtain ⟨B, hB⟩ := gatherField_total sp.shape (c.base.grid S.sim.zmin) c.base.rmaxGather
        ((List.range c.base.Nm).map fun m => (S.sim.interp m).B) p.push.x p.push.y p.push.z hN hs.Nr hz0 hz1 hr
      exact ⟨_, (except_bind_ok _ _ _).2 ⟨E, hE, (except_bind_ok _ _ _).2 ⟨B, hB, rfl⟩⟩, hP⟩
  obtain ⟨sps, e1, e2, e3⟩ := each_total c (c.base.gatherPtcl S.sim) S.sim.record _ hf h.plane
  refine ⟨_, e1, ⟨?_, ?_, h.ants⟩, rfl, rfl, rfl, rfl⟩
  · intro sp hsp
    obtain ⟨i, hi, rfl⟩ := List.mem_iff_getElem.1 hsp
    have hi' : i < sps.length := by simpa [Cfg.applyExts] using hi
    simp only [Cfg.applyExts, List.getElem_mapIdx]
    exact e2 _ (List.getElem_mem hi')
  · intro sp hsp p hp
    obtain ⟨i, hi, rfl⟩ := List.mem_iff_getElem.1 hsp
    have hi' : i < sps.length := by simpa [Cfg.applyExts] using hi
    simp only [Cfg.applyExts, List.getElem_mapIdx] at hp
    obtain ⟨p0, hp0, rfl⟩ := List.mem_map.1 hp
    rw [applyExts_push]
    exact e3 _ (List.getElem_mem hi') p0 hp0

theorem half_total (hs : c.Fit) (o : Opts) {lo hi : ℝ} {A : OSim} (h : c.Within lo hi A) :
    ∃ B, c.iterHalf o A = .ok B ∧ c.Within (lo - c.base.k.c * (c.base.dt / 2)) (hi + c.base.k.c * (c.base.dt / 2)) B ∧
      B.sim.zmin = A.sim.zmin + c.base.drift (0.5 * c.base.dt) ∧ B.sim.zmax = A.sim.zmax + c.base.drift (0.5 * c.base.dt) ∧
      B.sim.time = A.sim.time ∧ B.sim.iteration = A.sim.iteration := by
  have hc := hs.cpos
  have ah : |(0.5 : ℝ) * c.base.dt| ≤ c.base.dt / 2 := by rw [abs_of_pos (by linarith [hs.dt])]; linarith
  have hP : ∃ s, (if o.moveMomenta then A.sim.mapPtclM (c.base.pushP (A.sim.time + 0.5 * c.base.dt)) else pure A.sim) = .ok s ∧
      c.Within lo hi { A with sim := s } ∧ s.zmin = A.sim.zmin ∧ s.zmax = A.sim.zmax ∧ s.time = A.sim.time ∧
      s.iteration = A.sim.iteration := by
    by_cases hm : o.moveMomenta = true
    · rw [if_pos hm]
      have hf : ∀ sp ∈ A.sim.species, ∀ p ∈ sp.ptcl, ∃ p', c.base.pushP (A.sim.time + 0.5 * c.base.dt) sp p = .ok p' ∧
          (p'.push.mom.ok ∧ lo ≤ p'.push.z ∧ p'.push.z ≤ hi) := by
        intro sp hsp p hp
        have hP := h.ptcl sp hsp p hp
        unfold Cfg.pushP
        by_cases hq : sp.q = 0
        · rw [if_pos hq]; exact ⟨p, rfl, hP⟩
        rw [if_neg hq]
        cases hpl : sp.plane with
        | some b =>
          have := h.plane sp hsp (by rw [hpl]; simp)
          simp only [this, Bool.false_eq_true, if_false]
          refine ⟨_, rfl, ?_⟩
          unfold pushPAfterPlane
          split_ifs
          · exact ⟨C27_consistent _ _ _ _ _, hP.2⟩
          · exact hP
        | none =>
          simp only
          by_cases hi : sp.ionizable = true
          · rw [if_pos hi]
            refine ⟨_, rfl, ?_⟩
            unfold pushPIoniz
            split_ifs
            · exact hP
            · exact ⟨C27_consistent _ _ _ _ _, hP.2⟩
          · rw [if_neg hi]
            exact ⟨_, rfl, C27_consistent _ _ _ _ _, hP.2⟩
      obtain ⟨sps, e1, e2, e3⟩ := each_total c _ A.sim _ hf h.plane
      exact ⟨_, e1, ⟨e2, e3, h.ants⟩, rfl, rfl, rfl, rfl⟩
    · rw [if_neg hm]
      exact ⟨A.sim, rfl, h, rfl, rfl, rfl, rfl⟩
  obtain ⟨s, e, w, z1, z2, z3, z4⟩ := hP
  have : ∃ B, c.iterHalf o A = .ok B := ⟨_, (except_bind_ok _ _ _).2 ⟨s, e, rfl⟩⟩
  obtain ⟨B, hB⟩ := this
  obtain ⟨r1, r2, r3, r4⟩ := half_rest c o hB
  have hsim : B.sim = c.base.movePush o.movePositions (0.5 * c.base.dt) 1 1 1 (0.5 * c.base.dt) s := by
    have := half_sim c o hB
    rw [iterHalf_eq] at this
    obtain ⟨s', e', this⟩ := (except_bind_ok _ _ _).1 this
    have hss : s' = s := Except.ok.inj (e'.symm.trans e)
    rw [← Except.ok.inj this, hss]
  obtain ⟨g1, g2, g3, g4⟩ := movePush_zmin c.base o.movePositions (0.5 * c.base.dt) 1 1 1 (0.5 * c.base.dt) s
  have hspec : B.sim.species = c.base.shiftAll (if o.movePositions then 0.5 * c.base.dt * 1 else 0)
      (if o.movePositions then 0.5 * c.base.dt * 1 else 0) s.species := by rw [hsim, movePush_species]
  refine ⟨B, hB, ⟨?_, ?_, ?_⟩, by rw [hsim, g1, z1], by rw [hsim, g2, z2], by rw [hsim, g3, z3], by rw [hsim, g4, z4]⟩
  · rw [hspec]
    intro sp hsp
    obtain ⟨sp0, h0, rfl⟩ := List.mem_map.1 hsp
    exact w.plane sp0 h0
  · -- as a displacement of a state with the same particles
    have hh := (OCfg.Within.moved hc (T := { B with ants := A.ants.map (slide 0 0), zminG := A.zminG + c.base.drift (0.5 * c.base.dt), win := A.win, inj := A.inj })
      (S := { A with sim := s }) (a := if o.movePositions then 0.5 * c.base.dt * 1 else 0)
      (b := if o.movePositions then 0.5 * c.base.dt * 1 else 0) (e := 0) (f := 0) (g := 0.5 * c.base.dt) (τ := c.base.dt / 2) w
      ⟨hspec, rfl, by rw [hsim, g1], by rw [hsim, g2], rfl, by rw [hsim, g3], by rw [hsim, g4], rfl, rfl⟩ (by
        split_ifs
        · rw [mul_one]; exact ah
        · rw [abs_zero]; linarith [hs.dt]) (by rw [abs_zero]; linarith [hs.dt])).ptcl
    exact hh
  · rw [r1]
    intro a ha
    obtain ⟨a0, h0, rfl⟩ := List.mem_map.1 ha
    obtain ⟨k1, k2⟩ := h.ants a0 h0
    have k3 := planeAnt_update k1 (A.sim.time + 0.5 * c.base.dt) c.base.dt
    refine ⟨planeAnt_slide k3 _ _, fun ho => slide_within hc k3 ah ?_⟩
    intro p hp
    obtain ⟨q, hq, rfl⟩ := List.mem_map.1 hp
    exact k2 ho q hq

/-! ### End of the iteration -/

theorem mapM_total {α β : Type} (f : α → Except PyErr β) (l : List α) (h : ∀ a ∈ l, ∃ b, f a = .ok b) :
    ∃ r, l.mapM f = .ok r := by
  have : ∃ r, List.Forall₂ (fun a b => f a = .ok b) l r := by
    induction l with
    | nil => exact ⟨[], .nil⟩
    | cons a l ih =>
      obtain ⟨r, hr⟩ := ih fun a ha => h a (by simp [ha])
      obtain ⟨b, hb⟩ := h a (by simp)
      exact ⟨b :: r, .cons hb hr⟩
  obtain ⟨r, hr⟩ := this
  exact ⟨r, (mapM_ok _ _ _).2 hr⟩

theorem pushFields_total (o : Opts) (ho : o.correctDivE = true → c.base.correction = .curlFree) (D : OSim) :
    ∃ P, c.pushFields o D = .ok P := by
  unfold OCfg.pushFields
  by_cases hd : o.correctDivE = true
  · simp only [if_pos hd]
    have : ∀ sp, ∃ r, c.base.correctDivE sp = .ok r := by
      intro sp
      unfold Cfg.correctDivE
      rw [ho hd]
      exact ⟨_, rfl⟩
    obtain ⟨r, hr⟩ := this (onModes c.base.Nm (fun _ g => g.push c.base.k c.base.dt c.base.V c.base.galilean false o.useTrueRho)
      (if o.correctCurrents then onModes c.base.Nm (fun _ g => g.correctCurrents c.base.k c.base.correction c.base.dt c.base.V c.base.galilean)
        D.sim.spect else D.sim.spect))
    exact ⟨_, (except_bind_ok _ _ _).2 ⟨r, hr, rfl⟩⟩
  · simp only [if_neg hd]
    exact ⟨_, rfl⟩

theorem moveWindow_total {D : OSim} (h : ∀ w, D.win = some w → ∀ i, some i ∈ D.inj → ∃ d v p, i = ⟨some d, v, some p⟩) :
    ∃ T, c.moveWindow D = .ok T := by
  unfold OCfg.moveWindow
  cases hw : D.win with
  | none => exact ⟨_, rfl⟩
  | some w =>
    obtain ⟨n, -, e⟩ := moveGrids_eq c.comm c.dz (c.world D) w hw D.sim.time
    obtain ⟨r, hr⟩ := mapM_total (advanceInj w.v (D.sim.time - w.tLast)) D.inj (by
      intro x hx
      cases x with
      | none => exact ⟨_, rfl⟩
      | some i =>
        obtain ⟨d, v, p, rfl⟩ := h w hw i hx
        exact ⟨_, rfl⟩)
    exact ⟨_, (except_bind_ok _ _ _).2 ⟨_, e, (except_bind_ok _ _ _).2 ⟨r, hr, rfl⟩⟩⟩

theorem damp_total (hc : OneProcess c) (f : ℕ → EBGrid) :
    ∀ m ∈ List.range c.base.Nm, ∃ g, dampOpenBoundary c.comm 0 c.base.Nz false (f m) = .ok g := by
  intro m _
  obtain ⟨g, h, -⟩ := C37_applied c.comm 0 (by rw [hc.size]; omega) false (f m) c.base.Nz _ (nziz hc)
  exact ⟨g, h⟩

theorem boundaries_total (hc : OneProcess c) {W : OSim} (hp : Placed c W) : ∃ X, c.boundaries W = .ok X := by
  obtain ⟨gs, hgs⟩ := mapM_total (fun m => do
    let g ← dampOpenBoundary c.comm 0 c.base.Nz false (c.partialInterp (W.sim.spect m))
    pure (ebMirror g)) (List.range c.base.Nm) (by
      intro m hm
      obtain ⟨g, h⟩ := damp_total hc (fun m => c.partialInterp (W.sim.spect m)) m hm
      exact ⟨_, (except_bind_ok _ _ _).2 ⟨g, h, rfl⟩⟩)
  have hu : ∀ g ∈ gs, g.usePml = false := by
    have h2 := (mapM_ok _ _ _).1 hgs
    intro g hg
    obtain ⟨j, hj, rfl⟩ := List.mem_iff_getElem.1 hg
    have hl := h2.length_eq
    have h3 := (List.forall₂_iff_get.1 h2).2 j (by omega) hj
    obtain ⟨g', -, h4⟩ := (except_bind_ok _ _ _).1 h3
    have := Except.ok.inj h4
    simp only [List.get_eq_getElem] at this
    rw [← this]
    rfl
  obtain ⟨gs', hgs', -⟩ := mirrors_all c hc.dz hp W.sim.time c.mirrors gs hu
  exact ⟨_, (except_bind_ok _ _ _).2 ⟨gs, hgs, (except_bind_ok _ _ _).2 ⟨gs', hgs', rfl⟩⟩⟩

theorem end_total (hc : OneProcess c) (o : Opts) (ho : o.correctDivE = true → c.base.correction = .curlFree) {D : OSim}
    (hp : Placed c D) (hi : ∀ w, D.win = some w → ∀ i, some i ∈ D.inj → ∃ d v p, i = ⟨some d, v, some p⟩) :
    ∃ T, c.iterEnd o D = .ok T := by
  obtain ⟨P, hP⟩ := pushFields_total (c := c) o ho D
  obtain ⟨-, -, p3⟩ := pushFields_ok c o hP
  have e1 : P.sim.zmin = D.sim.zmin := by rw [p3]
  have e2 : P.sim.zmax = D.sim.zmax := by rw [p3]
  have e3 : P.zminG = D.zminG := by rw [p3]
  have e5 : P.win = D.win := by rw [p3]
  have e6 : P.inj = D.inj := by rw [p3]
  obtain ⟨W, hW⟩ := moveWindow_total (c := c) (D := P) (by rw [e5, e6]; exact hi)
  have w := moveWindow_ok c hW
  have hpW : Placed c W := placed_shift c (nziz hc) hp (c.windowCells P * c.dz) (by rw [w.zminG, e3]) (by rw [w.zmin, e1])
    (by rw [w.zmax, e2])
  obtain ⟨X, hX⟩ := boundaries_total hc hpW
  exact ⟨_, (except_bind_ok _ _ _).2 ⟨P, hP, (except_bind_ok _ _ _).2 ⟨W, hW, (except_bind_ok _ _ _).2 ⟨X, hX, rfl⟩⟩⟩⟩

theorem startFields_total (hc : OneProcess c) (S : OSim) : ∃ T, c.startFields S = .ok T := by
  obtain ⟨gs, hgs⟩ := mapM_total (fun m => dampOpenBoundary c.comm 0 c.base.Nz false (S.sim.interp m).eb) (List.range c.base.Nm)
    (damp_total hc fun m => (S.sim.interp m).eb)
  exact ⟨_, (except_bind_ok _ _ _).2 ⟨gs, hgs, rfl⟩⟩

end Fbpic.Pic
