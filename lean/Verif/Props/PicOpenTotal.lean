import Verif.Lemmas.PicOpenInv
import Verif.Props.Stretch
import Verif.Props.Pic

/-!
# C95: a simulation with open boundaries runs, and its particles stay on the grid
-/

namespace Fbpic.Pic

open Transform ExternalField Step
open Spec (OneProcess Healthy PlaneAntenna FreshInjector Sensible Inside frameVelocity)

variable {c : OCfg}

private theorem good_mono {w : MovWin ℝ} {k : ℕ} {d v : ℝ} {p : InjPos ℝ} (hs : c.Fit) (h : c.InjGood w 0 d v p) : c.InjGood w k d v p := by
  have hcd : 0 < c.base.k.c * c.base.dt := mul_pos hs.cpos hs.dt
  refine ⟨h.dpos, h.dle, h.speed, h.slower, h.low, ?_, h.wait, h.front, h.back⟩
  have := h.start
  have : 0 ≤ 2 * (k : ℝ) * (c.base.k.c * c.base.dt) := by positivity
  push_cast at *
  linarith

/-- What holds between two calls. -/
structure OCfg.BetweenCalls (c : OCfg) (k : ℕ) (S : OSim) : Prop where
  healthy : Healthy c S
  plane : ∀ sp ∈ S.sim.species, sp.plane ≠ none → sp.ionizable = false
  ants : ∀ a ∈ S.ants, PlaneAntenna c.base.k.c a
  window : ∀ w, S.win = some w → |w.v| ≤ c.base.k.c ∧ w.tLast = S.sim.time - c.base.dt ∧ |w.zmin - S.zminG| < c.dz
  inj : ∀ w, S.win = some w → ∀ (id : ℕ) sp i, S.sim.species[id]? = some sp → S.inj.getD id none = some i →
    FreshInjector c S w sp i ∨ ∃ d v p, i = ⟨some d, v, some p⟩ ∧ c.InjGood w k d v p
  count : (k : ℤ) ≤ S.sim.iteration % c.comm.exchangePeriod ∨
    ((S.sim.iteration : ℤ) % c.comm.exchangePeriod = 0 ∧ (k : ℤ) ≤ c.comm.exchangePeriod)

private theorem startInj_total (hs : c.Fit) {k : ℕ} {S : OSim} (h : c.BetweenCalls k S) :
    ∃ U, c.startInj S = .ok U ∧ { U with inj := S.inj } = S ∧ c.Inv k U := by
  unfold OCfg.startInj
  cases hw : S.win with
  | none => exact ⟨S, rfl, rfl, h.healthy, h.plane, h.ants, h.window, fun w h => (by rw [hw] at h; cases h), h.count⟩
  | some w =>
    dsimp only
    have one : ∀ x ∈ S.sim.species.zipIdx, ∃ b, (match S.inj.getD x.2 none with
        | none => pure none
        | some i => (do
          let i ← i.initialize c.comm S.zminG c.dz 0 w.v (x.1.ptcl.map fun p => p.push.z) c.base.dt
          pure (some i)) : Except PyErr (Option (Injector ℝ))) = .ok b ∧
        ∀ i', b = some i' → ∃ d v p, i' = ⟨some d, v, some p⟩ ∧ c.InjGood w k d v p := by
      intro x hx
      have hx' : S.sim.species[x.2]? = some x.1 := by
        rw [List.mem_zipIdx_iff_getElem?] at hx
        exact hx
      cases hi : S.inj.getD x.2 none with
      | none => exact ⟨none, rfl, fun i' h => by cases h⟩
      | some i =>
        dsimp only
        rcases h.inj w hw x.2 x.1 i hx' hi with hf | ⟨d, v, p, rfl, g⟩
        · obtain ⟨i', e, d, v, p, e', g⟩ := initialize_good hs (h.window w hw).2.2 hf
          exact ⟨some i', (except_bind_ok _ _ _).2 ⟨i', e, rfl⟩, fun j hj => ⟨d, v, p, by rw [← Option.some.inj hj, e'], good_mono hs g⟩⟩
        · refine ⟨some ⟨some d, v, some p⟩, (except_bind_ok _ _ _).2 ⟨⟨some d, v, some p⟩, ?_, rfl⟩, fun j hj => ⟨d, v, p, (Option.some.inj hj).symm, g⟩⟩
          unfold Injector.initialize
          rw [if_neg (by rw [hs.one.size]; simp), if_pos (by rfl)]
    obtain ⟨l, hl⟩ := mapM_total _ _ fun x hx => (⟨(one x hx).choose, (one x hx).choose_spec.1⟩ : ∃ b, _ = Except.ok b)
    rw [← hw]
    refine ⟨_, (except_bind_ok _ _ _).2 ⟨l, hl, rfl⟩, rfl, ⟨h.healthy.sized, h.healthy.regular, h.healthy.zmin, h.healthy.zmax, h.healthy.mom⟩,
      h.plane, h.ants, h.window, fun w' hw' i hi => ?_, h.count⟩
    have hww : w = w' := Option.some.inj (hw.symm.trans hw')
    subst hww
    have f := (mapM_ok _ _ _).1 hl
    obtain ⟨r, hr, hri⟩ := List.mem_iff_getElem.1 hi
    have hlen := f.length_eq
    have hr' : r < l.length := hr
    have f := (List.forall₂_iff_get.1 f).2 r (by omega) hr'
    simp only [List.get_eq_getElem] at f
    obtain ⟨b, e, g⟩ := one _ (List.getElem_mem (by omega : r < S.sim.species.zipIdx.length))
    have hb := Except.ok.inj (e.symm.trans f)
    exact g i (by rw [hb]; exact hri)

variable [NeZero c.base.Nz]

/-- The beginning of a call. -/
theorem start_inv (hs : c.Fit) {k : ℕ} {S : OSim} (h : c.BetweenCalls k S) : ∃ S1 S2, c.startInj S = .ok S1 ∧
    { S1 with inj := S.inj } = S ∧ c.startFields S1 = .ok S2 ∧ c.Inv k S2 ∧
    ∃ sp it, S2 = { S1 with sim := { S1.sim with spect := sp, interp := it } } := by
  obtain ⟨S1, e1, q1, h1⟩ := startInj_total hs h
  obtain ⟨S2, e2⟩ := startFields_total hs.one S1
  have r2 : ∃ sp it, S2 = { S1 with sim := { S1.sim with spect := sp, interp := it } } ∧
      ∀ m < c.base.Nm, (sp m).Nz = (S1.sim.spect m).Nz ∧ (sp m).Nr = (S1.sim.spect m).Nr ∧ (sp m).kz = (S1.sim.spect m).kz := by
    obtain ⟨gs, -, h⟩ := (except_bind_ok _ _ _).1 e2
    have := Except.ok.inj h
    refine ⟨_, _, this.symm, fun m hm => ?_⟩
    dsimp only [onModes]
    rw [if_pos hm]
    exact ⟨rfl, rfl, rfl⟩
  obtain ⟨sp, it, r2, r3⟩ := r2
  have h2 : c.Inv k S2 := by
    rw [r2]
    refine ⟨⟨fun m hm => ?_, fun m hm iz hz => ?_, h1.healthy.zmin, h1.healthy.zmax, h1.healthy.mom⟩, h1.plane, h1.ants, h1.window, h1.inj, h1.count⟩
    · obtain ⟨a1, a2, -⟩ := r3 m hm
      obtain ⟨b1, b2⟩ := h1.healthy.sized m hm
      exact ⟨a1.trans b1, a2.trans b2⟩
    · show Regular _ ((sp m).kz iz) _ _
      rw [(r3 m hm).2.2]
      exact h1.healthy.regular m hm iz hz
  exact ⟨S1, S2, e1, q1, e2, h2, sp, it, r2⟩

/-- The end of a call. -/
theorem end_between {k : ℕ} {S : OSim} (h3 : c.Inv k S) : c.BetweenCalls k { S with sim := c.base.endFields S.sim } :=
  ⟨⟨h3.healthy.sized, h3.healthy.regular, h3.healthy.zmin, h3.healthy.zmax, h3.healthy.mom⟩, h3.plane, h3.ants, h3.window,
    fun w hw id sp i _ hi => Or.inr (h3.inj w hw i (mem_of_getD hi)), h3.count⟩

private theorem step_total (hs : c.Fit) (o : Opts) (ho : o.correctDivE = true → c.base.correction = .curlFree) (n : ℕ) {k : ℕ} {S : OSim}
    (h : c.BetweenCalls k S) : ∃ T k', c.step n o S = .ok T ∧ c.BetweenCalls k' T ∧ (0 < n → c.Within (c.lo k' T) (c.hi k' T) T) ∧
      (n = 0 → k' = k ∧ refPos T = refPos S ∧ T.sim.species = S.sim.species ∧ T.ants = S.ants) := by
  obtain ⟨S1, S2, e1, q1, e2, h2, sp, it, r2⟩ := start_inv hs h
  obtain ⟨S3, k', e3, h3, w3, z3⟩ := loop_total hs o ho n 0 k S2 h2 fun hx => absurd (Or.inr rfl) hx
  refine ⟨{ S3 with sim := c.base.endFields S3.sim }, k', ?_, ?_, fun hn => ?_, fun hn => ?_⟩
  · exact (except_bind_ok _ _ _).2 ⟨S1, e1, (except_bind_ok _ _ _).2 ⟨S2, e2, (except_bind_ok _ _ _).2 ⟨S3, e3, rfl⟩⟩⟩
  · exact end_between h3
  · exact (w3 hn).of_eq rfl rfl
  · obtain ⟨a, b⟩ := z3 hn
    rw [a, r2, ← q1]
    exact ⟨b, rfl, rfl, rfl⟩

omit [NeZero c.base.Nz] in
/-- The beginning of a run. -/
theorem between_of {L : List (ℕ × Opts)} {S : OSim} (h : Sensible c L S) : c.BetweenCalls 0 S := by
  have hp := h.period
  exact ⟨h.healthy, h.plane, h.ants, h.window, fun w hw id sp i h1 h2 => Or.inl (h.inj w hw id sp i h1 h2),
    Or.inl (by simpa using Int.emod_nonneg _ (by omega))⟩

/-- **C95**: a run with open boundaries never fails: no particle, and no virtual particle of an antenna, is ever outside
of the arrays when it deposits or gathers, whatever the calls, the fields and the velocities are, with or without
moving window, continuous injection, Galilean frame, antennas and mirrors, and wherever the particles are at the
beginning. After at least one iteration everything that carries charge is on the grid. -/
theorem C95_total (L : List (ℕ × Opts)) (S : OSim) (h : Sensible c L S) :
    ∃ T, c.calls L S = .ok T ∧ Healthy c T ∧ (0 < (L.map Prod.fst).sum → Inside T) := by
  have hs : c.Fit := ⟨h.one, h.dt, h.invdz, h.invdr, h.Nr, h.beta, h.period, h.guard, h.frame⟩
  have hp := h.period
  have main : ∀ (L : List (ℕ × Opts)) (S : OSim) (k : ℕ), (∀ x ∈ L, x.2.correctDivE = true → c.base.correction = .curlFree) →
      c.BetweenCalls k S → ∃ T k', c.calls L S = .ok T ∧ c.BetweenCalls k' T ∧
      ((0 < (L.map Prod.fst).sum ∨ c.Within (c.lo k S) (c.hi k S) S) → c.Within (c.lo k' T) (c.hi k' T) T) := by
    intro L
    induction L with
    | nil => exact fun S k _ hb => ⟨S, k, rfl, hb, fun hh => by simpa using hh⟩
    | cons x L ih =>
      intro S k ho hb
      obtain ⟨n, o⟩ := x
      obtain ⟨A, k1, eA, bA, wA, zA⟩ := step_total hs o (ho (n, o) (by simp)) n hb
      obtain ⟨T, k2, eT, bT, wT⟩ := ih A k1 (fun x hx => ho x (by simp [hx])) bA
      refine ⟨T, k2, (except_bind_ok _ _ _).2 ⟨A, eA, eT⟩, bT, fun hh => wT ?_⟩
      rcases Nat.eq_zero_or_pos n with hn | hn
      · obtain ⟨z1, z2, z3, z4⟩ := zA hn
        rcases hh with hh | hh
        · left
          simp only [List.map_cons, List.sum_cons] at hh
          omega
        · right
          refine OCfg.Within.of_eq ?_ z3 z4
          unfold OCfg.lo OCfg.hi at hh ⊢
          rw [z1, z2]
          exact hh
      · exact Or.inr (wA hn)
  obtain ⟨T, k, e, b, w⟩ := main L S 0 h.opts (between_of h)
  refine ⟨T, e, b.healthy, fun hL => ?_⟩
  have wT := w (Or.inl hL)
  -- the bounds are in the grid
  have hkP : (k : ℤ) ≤ c.comm.exchangePeriod := by
    have := Int.emod_lt_of_pos (T.sim.iteration : ℤ) (by omega : 0 < c.comm.exchangePeriod)
    rcases b.count with h | h
    · omega
    · exact h.2
  have hk' : (k : ℝ) ≤ c.comm.exchangePeriod := by exact_mod_cast hkP
  have hcd : 0 < c.base.k.c * c.base.dt := mul_pos hs.cpos hs.dt
  have hg := hs.guard
  have hdz := hs.one.dz
  have hg2 : (k : ℝ) * (2 * (c.base.k.c * c.base.dt)) ≤ ((c.comm.nGuard : ℝ) / 2 - 3) * c.dz :=
    (mul_le_mul_of_nonneg_right hk' (by linarith)).trans hg
  have hr : |refPos T - T.zminG| ≤ c.dz := by
    unfold refPos
    cases hw : T.win with
    | none => simpa using hdz.le
    | some w => exact (b.window w hw).2.2.le
  obtain ⟨r1, r2⟩ := abs_le.1 hr
  have lo : T.sim.zmin ≤ c.lo k T := by
    rw [b.healthy.zmin]
    unfold OCfg.lo
    nlinarith
  have hi : c.hi k T ≤ T.sim.zmax := by
    rw [b.healthy.zmax, b.healthy.zmin, hs.one.cells]
    unfold OCfg.hi
    push_cast
    nlinarith
  exact ⟨fun sp hsp p hp => ⟨lo.trans (wT.ptcl sp hsp p hp).2.1, (wT.ptcl sp hsp p hp).2.2.trans hi⟩,
    fun a ha ho p hp => ⟨lo.trans ((wT.ants a ha).2 ho p hp).1, ((wT.ants a ha).2 ho p hp).2.trans hi⟩⟩

omit [NeZero c.base.Nz] in
/-- **C95** (the period): the exchange period that the code chooses, if it accepts the simulation, is one for which
`C95_total` holds. -/
theorem C95_accepted (a : CommArgs ℝ) (hm : mkComm a = .ok c.comm) (hauto : a.exchangePeriod = none) (hopen : c.comm.bz = .opened)
    (hc : 0 < c.base.k.c) (hdt : 0 < c.base.dt) (hdz : 0 < c.dz) (h1 : a.cdt = c.base.k.c * c.base.dt) (h2 : a.dz = c.dz) :
    1 ≤ c.comm.exchangePeriod ∧
      (c.comm.exchangePeriod : ℝ) * (2 * (c.base.k.c * c.base.dt)) ≤ ((c.comm.nGuard : ℝ) / 2 - 3) * c.dz := by
  have := accepted_period hm hauto (by rw [h1]; positivity) (by rw [h2]; exact hdz) (by rw [hopen]; simp)
  rw [h1, h2] at this
  exact this

/-! ### An example -/

/-- A grid of 64 cells, of which 8 are the physical domain, with a time step `c dt = dz`, a mirror and plasma. -/
noncomputable def openCfg : OCfg where
  base := { cubicCfg with Nz := 64 }
  comm := ⟨8, 1, 16, 4, 8, .opened, .reflective, 2⟩
  dz := 1
  re := 1
  mirrors := [⟨5, 10, none, none⟩]
  plasma := fun _ => ⟨1, 0, 1, 4, 1, 2 * Real.pi, fun _ _ _ => 1⟩
  fill := fun _ _ _ _ => (0, ⟨0, 0, 0, 1⟩, 0)

instance : NeZero openCfg.base.Nz := ⟨by show (64 : ℕ) ≠ 0; norm_num⟩

/-- An electron near the end of the physical domain, in front of which plasma is injected by a moving window, and an
antenna in the middle. -/
noncomputable def openSim : OSim where
  sim := { cubicSim ⟨1, 0, 7.9, ⟨0, 0, 4 / 3, 3 / 5⟩, 0⟩ .cubic with
    zmin := -28
    zmax := 36
    spect := fun _ => ⟨64, 4, fun _ => 0, fun _ => 0, fun _ _ => ⟨0, 0, 0, 0, 0, 0, 0, 0, 0, 0, 0, 0, 0, 0, 0, 0, 0⟩⟩ }
  zminG := 0
  win := some ⟨1, -1, 0⟩
  inj := [some ⟨some (1 / 2), 0, none⟩]
  ants := [⟨fun _ _ z t => (Real.cos (z - t), 0), none, 1, [⟨1, 0, 3, 1, 0, 0, 0, 0, 0⟩, ⟨0, 1, 3, 1, 0, 0, 0, 0, 0⟩], false⟩]

theorem open_one : OneProcess openCfg where
  threads := one_pos
  consts := ⟨one_pos, one_pos, one_pos, by norm_num [openCfg, cubicCfg]⟩
  size := rfl
  cells := rfl
  dz := one_pos
  fill := by
    intro id t n x
    norm_num [openCfg, ElecMom.ok, ElecMom.gamma]

theorem open_healthy : Healthy openCfg openSim where
  sized := fun _ _ => ⟨rfl, rfl⟩
  regular := fun _ _ _ _ => ⟨one_ne_zero, fun v hv => by simp [openCfg, cubicCfg] at hv⟩
  zmin := by norm_num [openCfg, openSim]
  zmax := by norm_num [openCfg, openSim]
  mom := by
    intro sp hsp p hp
    rw [List.mem_singleton.1 hsp] at hp
    rw [List.mem_singleton.1 hp]
    norm_num [ElecMom.ok, ElecMom.gamma]
    rw [show (9 : ℝ) = 3 ^ 2 by norm_num, show (25 : ℝ) = 5 ^ 2 by norm_num, Real.sqrt_sq (by norm_num),
      Real.sqrt_sq (by norm_num)]

theorem open_sensible (L : List (ℕ × Opts)) : Sensible openCfg L openSim where
  one := open_one
  healthy := open_healthy
  dt := one_pos
  invdz := by norm_num [openCfg, cubicCfg]
  invdr := one_pos
  Nr := by norm_num [openCfg, cubicCfg]
  beta := fun _ _ => rfl
  period := by norm_num [openCfg]
  guard := by norm_num [openCfg, cubicCfg]
  opts := fun _ _ _ => rfl
  frame := by norm_num [openCfg, cubicCfg, frameVelocity]
  plane := by
    intro sp hsp
    rw [List.mem_singleton.1 hsp]
    exact fun h => absurd rfl h
  ants := by
    intro a ha
    rw [List.mem_singleton.1 ha]
    refine ⟨by simp, 3, 0, by norm_num [openCfg, cubicCfg], fun p hp => ?_⟩
    simp only [List.mem_cons, List.not_mem_nil, or_false] at hp
    rcases hp with rfl | rfl <;> exact ⟨rfl, rfl⟩
  window := by
    intro w hw
    rw [← Option.some.inj hw]
    norm_num [openCfg, cubicCfg, openSim, cubicSim]
  inj := by
    intro w hw id sp i h1 h2
    have hid : id < 1 := (List.getElem?_eq_some_iff.1 h1).1
    interval_cases id
    rw [← Option.some.inj hw]
    have h1 := Option.some.inj h1
    have h2 := Option.some.inj h2
    refine ⟨by rw [← h2], ⟨1 / 2, by rw [← h2], by norm_num, by norm_num [openCfg]⟩, by rw [← h2]; norm_num [openCfg, cubicCfg],
      by rw [← h2]; norm_num, Or.inr ⟨_, by rw [← h1]; exact List.mem_singleton.2 rfl, by norm_num [openCfg, openSim]⟩⟩

example : ∃ T, openCfg.calls [(1000, {}), (7, { movePositions := false })] openSim = .ok T ∧ Inside T := by
  obtain ⟨T, e, -, h⟩ := C95_total _ _ (open_sensible _)
  exact ⟨T, e, h (by norm_num)⟩

/-- This period of two iterations is the one that the code chooses. -/
example : mkComm (⟨8, 1, .str "open", -1, some 16, 4, none, none, 0, 1, 1⟩ : CommArgs ℝ) = .ok openCfg.comm := by
  have : pyInt ((((16 : ℕ) : ℝ) / 2 - 3) / (2 * 1 / 1)) = 2 := by
    rw [pyInt_of_nonneg (by norm_num), Int.floor_eq_iff]
    norm_num
  simp [mkComm, parseBoundaries, checkBoundaryValues, initialGuard, initExchangePeriod, openCfg, bind, Except.bind, pure, Except.pure]
  norm_num at this ⊢
  simp [this]

/-- The hypotheses of the theorems C94 are met in every iteration of such a run. -/
example (N : ℕ) : OneProcess openCfg ∧ ∃ σ : ℕ → OSim, ∀ j < N, Healthy openCfg (σ j) ∧ openCfg.iter {} j (σ j) = .ok (σ (j + 1)) := by
  obtain ⟨T, e, -⟩ := C95_total _ _ (open_sensible [(N, {})])
  obtain ⟨A, e1, -⟩ := (except_bind_ok _ _ _).1 e
  obtain ⟨σ, -, h, -⟩ := C94_run open_one {} N openSim A open_healthy e1
  exact ⟨open_one, σ, h⟩

end Fbpic.Pic
