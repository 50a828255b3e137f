import Verif.Lemmas.PicOpenSplitRun
import Verif.Props.PicOpenTotal
import Verif.Props.PicGauss

/-!
# C109: what a run with open boundaries depends on, and its division into calls of `step`
-/

namespace Fbpic.Pic

open Transform ExternalField Step
open Spec (SamePtcl SameSpecies' SameStored SameSeen SolverOk TransOk Placed OneProcess SameOpen SeenOpen OpenResult Undamped Healthy
  Sensible Entered Exchanged Paired LeapFrom)

variable {c : OCfg} [NeZero c.base.Nz] {S S' T T' X Y : OSim}

private theorem sameOpen_symm (h : SameOpen c S S') : SameOpen c S' S where
  stored :=
    { zmin := h.stored.zmin.symm, zmax := h.stored.zmax.symm, time := h.stored.time.symm, iteration := h.stored.iteration.symm
      species := h.stored.species.flip.imp fun _ _ => SameSpecies'.symm
      E := fun m hm => (h.stored.E m hm).symm, B := fun m hm => (h.stored.B m hm).symm
      Nz := fun m hm => (h.stored.Nz m hm).symm, Nr := fun m hm => (h.stored.Nr m hm).symm
      kz := fun m hm => (h.stored.kz m hm).symm, kr := fun m hm => (h.stored.kr m hm).symm }
  zminG := h.zminG.symm
  win := h.win.symm
  inj := h.inj.symm
  ants := h.ants.symm

private theorem seenOpen_symm (h : SeenOpen c S S') : SeenOpen c S' S :=
  { sameOpen_symm h.toSameOpen with seen := SameSeen.symm h.seen }

private theorem seenOpen_trans (h : SeenOpen c S T) (h' : SeenOpen c T X) : SeenOpen c S X where
  stored := (SameSeen.trans h.seen h'.seen).toSameStored
  zminG := h'.zminG.trans h.zminG
  win := h'.win.trans h.win
  inj := h'.inj.trans h.inj
  ants := h'.ants.trans h.ants
  seen := SameSeen.trans h.seen h'.seen

private theorem openResult_trans {x y z : Except PyErr OSim} (h : OpenResult c x y) (h' : OpenResult c y z) : OpenResult c x z := by
  constructor
  · intro a ha
    obtain ⟨b, hb, h1⟩ := h.1 a ha
    obtain ⟨d, hd, h2⟩ := h'.1 b hb
    exact ⟨d, hd, seenOpen_trans h1 h2⟩
  · intro a ha
    obtain ⟨b, hb, h1⟩ := h'.2 a ha
    obtain ⟨d, hd, h2⟩ := h.2 b hb
    exact ⟨d, hd, seenOpen_trans h2 h1⟩

private theorem start_placed (hp : Placed c S) (h1 : c.startInj S = .ok T) (h2 : c.startFields T = .ok X) : Placed c X := by
  have e := startInj_ok h1
  unfold OCfg.startFields at h2
  obtain ⟨gs, -, h2⟩ := (except_bind_ok _ _ _).1 h2
  rw [← Except.ok.inj h2]
  have hT : Placed c T := by rw [← e] at hp; exact hp
  exact hT

private theorem blindF : c.base.Blind fun _ _ => False := fun _ _ _ _ h => h.elim

/-- One direction of one call. -/
private theorem stored_one (hc : OneProcess c) (n : ℕ) (o : Opts) (hp : Placed c S) (h : SameOpen c S S')
    (ht : c.step (n + 1) o S = .ok T) : ∃ T', c.step (n + 1) o S' = .ok T' ∧ SeenOpen c T T' ∧ Placed c T := by
  unfold OCfg.step at ht
  obtain ⟨A, hA, ht⟩ := (except_bind_ok _ _ _).1 ht
  obtain ⟨B, hB, ht⟩ := (except_bind_ok _ _ _).1 ht
  obtain ⟨D, hD, ht⟩ := (except_bind_ok _ _ _).1 ht
  have ht := Except.ok.inj ht
  obtain ⟨A', hA', h1⟩ := startInj_same h hA
  obtain ⟨B', hB', h2, -⟩ := startFields_same h1 hB
  have hpB := start_placed hp hA hB
  obtain ⟨D', hD', h3, h4, -⟩ := OTwin.loop hc blindF o n 0 0 _ _ _ _ B B' D h2
    ⟨fun _ => Or.inr rfl, fun _ => Or.inr rfl⟩ (fun h => absurd (Or.inr rfl) h) hpB (fun _ _ _ _ h => h.elim) hD
  refine ⟨{ D' with sim := c.base.endFields D'.sim }, ?_, ?_, ?_⟩
  · unfold OCfg.step
    exact (except_bind_ok _ _ _).2 ⟨A', hA', (except_bind_ok _ _ _).2 ⟨B', hB', (except_bind_ok _ _ _).2 ⟨D', hD', rfl⟩⟩⟩
  · rw [← ht]; exact h3.finish
  · rw [← ht]; exact h4

private theorem placed_same (h : SameOpen c S S') (hp : Placed c S) : Placed c S' := by
  unfold Placed at hp ⊢
  rw [h.zminG, h.stored.zmin, h.stored.zmax]
  exact hp

/-- Both directions of one call. -/
private theorem stored_two (hc : OneProcess c) {n : ℕ} (hn : 0 < n) (o : Opts) (hp : Placed c S) (h : SameOpen c S S') :
    Both (fun T T' => SeenOpen c T T' ∧ Placed c T) (c.step n o S) (c.step n o S') := by
  obtain ⟨k, rfl⟩ : ∃ k, n = k + 1 := ⟨n - 1, by omega⟩
  constructor
  · intro T ht
    exact stored_one hc k o hp h ht
  · intro T' ht'
    obtain ⟨T, ht, h1, h2⟩ := stored_one hc k o (placed_same h hp) (sameOpen_symm h) ht'
    exact ⟨T, ht, seenOpen_symm h1, placed_same h1.toSameOpen h2⟩

/-- **C109** (what a run depends on): position of the grid and of the window, injectors, antennas, time, particles, and the
fields E and B on the grid are all that matters in a run with open boundaries, also with an exchange period of several
iterations. Two states that agree on these lead to the same results, or to an exception in both cases, whatever the other
arrays hold: the spectral grids, J, rho, and the fields on the particles. -/
theorem C109_stored (hc : OneProcess c) (L : List (ℕ × Opts)) (hL : L ≠ []) (hpos : ∀ x ∈ L, 0 < x.1) (S S' : OSim)
    (hp : Placed c S) (h : SameOpen c S S') : OpenResult c (c.calls L S) (c.calls L S') := by
  suffices H : Both (SeenOpen c) (c.calls L S) (c.calls L S') from H
  induction L generalizing S S' with
  | nil => exact absurd rfl hL
  | cons x L ih =>
    obtain ⟨n, o⟩ := x
    refine (stored_two hc (hpos (n, o) (by simp)) o hp h).bind fun a b hab => ?_
    by_cases hl : L = []
    · subst hl
      exact Both.pure hab.1
    · exact ih hl (fun x hx => hpos x (by simp [hx])) a b hab.2 hab.1.toSameOpen

/-- The state between two parts of a call, and the state at the beginning of the next call. -/
private theorem junction (hc : OneProcess c) (hT : ∀ m < c.base.Nm, TransOk m (c.base.trans m)) (hy : c.base.Synced X.sim)
    (hs : c.base.Sized X.sim) (hI : OCfg.InjSet X) (hU : Undamped c { X with sim := c.base.endFields X.sim }) :
    c.startInj { X with sim := c.base.endFields X.sim } = .ok { X with sim := c.base.endFields X.sim } ∧
    ∃ Y, c.startFields { X with sim := c.base.endFields X.sim } = .ok Y ∧
      OTwin c Low True (fun n => n = .prev) False False X Y := by
  refine ⟨startInj_again hI, _, startFields_again hc hU, ?_, rfl, rfl, rfl, rfl⟩
  have r := (OTwin.refl (c := c) (S := X) hs).twin
  have a := ((r.mono (A' := fun n => n = RhoName.prev) (fun _ _ => trivial) id id).endFields).symm
  have b := ((synced_end hy).twin (s := c.base.endFields X.sim) hs hT).mono (A' := fun n => n = .prev) (j' := False) (r' := False)
    (fun _ _ => trivial) (fun h => h.elim) (fun h => h.elim)
  exact (a.widen fun _ _ h => h.elim).trans b

private theorem start_kept (h1 : c.startInj S = .ok T) (h2 : c.startFields T = .ok X) (hI : OCfg.InjSet T) :
    OCfg.InjSet X ∧ X.sim.iteration = S.sim.iteration ∧ ∀ m < c.base.Nm, (S.sim.spect m).SameShape (X.sim.spect m) := by
  have e := congrArg OSim.sim (startInj_ok h1)
  change T.sim = S.sim at e
  obtain ⟨s, h3, h4, h5⟩ : ∃ s : Sim, s.spect = T.sim.spect ∧ s.iteration = T.sim.iteration ∧
      X = { T with sim := c.base.startFields { s with species := T.sim.species } } := by
    unfold OCfg.startFields at h2
    obtain ⟨gs, -, h2⟩ := (except_bind_ok _ _ _).1 h2
    exact ⟨{ T.sim with interp := onModes c.base.Nm (fun m i => i.setEB (gs.getD m i.eb)) T.sim.interp }, rfl, rfl,
      (Except.ok.inj h2).symm⟩
  refine ⟨by rw [h5]; exact hI, by rw [h5, ← e, ← h4]; rfl, fun m hm => ?_⟩
  rw [← e, ← h3, h5]
  exact start_shape c.base { s with species := T.sim.species } hm

private theorem rest_of_call (hc : OneProcess c) (hT : ∀ m < c.base.Nm, TransOk m (c.base.trans m)) (o : Opts) (n k : ℕ)
    (hI : OCfg.InjSet X) (hp : Placed c X) (hy : c.base.Synced X.sim) (hs : c.base.Sized X.sim) (hx : c.exchanges (n + 1) X)
    (hU : Undamped c { X with sim := c.base.endFields X.sim })
    (hk : ∀ m < c.base.Nm, ∀ ir < c.base.Nr, Low m ir → (X.sim.spect m).kr ir = 0) :
    Both (fun T T' => SeenOpen c T T' ∧ Placed c T)
      (c.loop o (n + 1) (k + 1) X >>= fun S => Except.ok { S with sim := c.base.endFields S.sim })
      (c.step (k + 1) o { X with sim := c.base.endFields X.sim }) := by
  obtain ⟨j1, Y, j2, j3⟩ := junction hc hT hy hs hI hU
  have b := OTwin.both hc (blind_low hT) o k (n + 1) 0 j3 ⟨fun _ => Or.inr rfl, fun _ => hx⟩ (fun h => absurd hx h) hp hk
  have e : c.step (k + 1) o { X with sim := c.base.endFields X.sim } =
      c.loop o 0 (k + 1) Y >>= fun S => Except.ok { S with sim := c.base.endFields S.sim } := by
    unfold OCfg.step
    rw [j1]
    show (c.startFields { X with sim := c.base.endFields X.sim } >>= _) = _
    rw [j2]
    rfl
  rw [e]
  constructor
  · intro T hT
    obtain ⟨Q, hQ, hT⟩ := (except_bind_ok _ _ _).1 hT
    obtain ⟨Q', hQ', q⟩ := b.1 Q hQ
    refine ⟨_, (except_bind_ok _ _ _).2 ⟨Q', hQ', rfl⟩, ?_, ?_⟩
    · rw [← Except.ok.inj hT]; exact q.finish
    · rw [← Except.ok.inj hT]; exact (loop_inj hc o (k + 1) (n + 1) X Q hp hI hQ).2.1
  · intro T hT
    obtain ⟨Q', hQ', hT⟩ := (except_bind_ok _ _ _).1 hT
    obtain ⟨Q, hQ, q⟩ := b.2 Q' hQ'
    refine ⟨_, (except_bind_ok _ _ _).2 ⟨Q, hQ, rfl⟩, ?_, ?_⟩
    · rw [← Except.ok.inj hT]; exact q.finish
    · exact (loop_inj hc o (k + 1) (n + 1) X Q hp hI hQ).2.1

/-- **C109** (interruption), part: to make `N + M` iterations in one call, or `N` and then `M`, and then any further calls,
gives the same results, or an exception in both cases. It is assumed that the iteration in which the run is interrupted is
one of those where the particles are exchanged anyway, and that the fields vanish in the cells where they are damped at the
beginning of the second call (or that there are none). See `C109_violated` and
`C109_damped_violated` for what happens otherwise. -/
theorem C109_split_partial (hc : OneProcess c) (N M : ℕ) (hN : 0 < N) (hM : 0 < M) (o : Opts) (L : List (ℕ × Opts))
    (hpos : ∀ x ∈ L, 0 < x.1) (S : OSim) (hs : SolverOk c.base S.sim) (hp : Placed c S)
    (hper : ((S.sim.iteration + N : ℕ) : ℤ) % c.comm.exchangePeriod = 0)
    (hU : ∀ X, c.step N o S = .ok X → Undamped c X) :
    OpenResult c (c.calls ((N + M, o) :: L) S) (c.calls ((N, o) :: (M, o) :: L) S) := by
  suffices H : Both (fun T T' => SeenOpen c T T' ∧ Placed c T) (c.step (N + M) o S) (c.step N o S >>= c.step M o) by
    have e : c.calls ((N, o) :: (M, o) :: L) S = (c.step N o S >>= c.step M o) >>= c.calls L := by
      show (c.step N o S).bind (fun x => (c.step M o x).bind (c.calls L)) = ((c.step N o S).bind (c.step M o)).bind (c.calls L)
      cases c.step N o S <;> rfl
    rw [e]
    suffices H' : Both (SeenOpen c) (c.step (N + M) o S >>= c.calls L) ((c.step N o S >>= c.step M o) >>= c.calls L) from H'
    refine H.bind fun a b hab => ?_
    by_cases hl : L = []
    · subst hl
      exact Both.pure hab.1
    · exact C109_stored hc L hl hpos a b hab.2 hab.1.toSameOpen
  have hT := hs.trans
  obtain ⟨k, rfl⟩ : ∃ k, M = k + 1 := ⟨M - 1, by omega⟩
  obtain ⟨n, rfl⟩ : ∃ n, N = n + 1 := ⟨N - 1, by omega⟩
  have eS : ∀ N, c.step N o S = c.startInj S >>= fun S => c.startFields S >>= fun S => c.loop o 0 N S >>= fun S =>
    Except.ok { S with sim := c.base.endFields S.sim } := fun _ => rfl
  rw [eS] at hU
  rw [eS, eS]
  cases hA : c.startInj S with
  | error e => constructor <;> intro T hT <;> cases hT
  | ok A =>
    rw [hA] at hU
    change ∀ X, (c.startFields A >>= fun S => c.loop o 0 (n + 1) S >>= fun S => Except.ok { S with sim := c.base.endFields S.sim }) =
        .ok X → Undamped c X at hU
    show Both _ (c.startFields A >>= _) ((c.startFields A >>= _) >>= _)
    cases hB : c.startFields A with
    | error e => constructor <;> intro T hT <;> cases hT
    | ok B =>
      rw [hB] at hU
      change ∀ X, (c.loop o 0 (n + 1) B >>= fun S => Except.ok { S with sim := c.base.endFields S.sim }) =
        .ok X → Undamped c X at hU
      show Both _ (c.loop o 0 (n + 1 + (k + 1)) B >>= fun S => Except.ok { S with sim := c.base.endFields S.sim })
        ((c.loop o 0 (n + 1) B >>= fun S => Except.ok { S with sim := c.base.endFields S.sim }) >>= c.step (k + 1) o)
      rw [loop_split, Nat.zero_add]
      cases hX : c.loop o 0 (n + 1) B with
      | error e => constructor <;> intro T hT <;> cases hT
      | ok X =>
        have hpB := start_placed hp hA hB
        obtain ⟨hI, hit, hsh⟩ := start_kept hA hB (startInj_set hc hA)
        have hzB : c.base.Sized B.sim := fun m hm => ⟨(hsh m hm).1.trans (hs.Nz m hm), (hsh m hm).2.1.trans (hs.Nr m hm)⟩
        obtain ⟨i1, i2, i3⟩ := loop_inj hc o (n + 1) 0 B X hpB hI hX
        obtain ⟨X', hX', t1, -, t3, t4⟩ := OTwin.loop hc blindF o n 0 0 _ _ _ _ B B X (OTwin.refl hzB)
          ⟨fun _ => Or.inr rfl, fun _ => Or.inr rfl⟩ (fun h => absurd (Or.inr rfl) h) hpB (fun _ _ _ _ h => h.elim) hX
        refine rest_of_call hc hT o n k i1 i2 t4 t1.twin.sized (Or.inl ?_)
          (hU _ ((except_bind_ok _ _ _).2 ⟨X, hX, rfl⟩)) ?_
        · rw [i3, hit]
          exact hper
        · intro m hm ir hr hl
          rw [t3 m hm, (hsh m hm).2.2.2]
          exact (hs.kr m hm ir hr).2 hl

/-- **C109** (empty calls): a call of `step` without iterations multiplies the fields on the grid by the profile of the
damping, once more at every such call. -/
theorem C109_empty_calls (hc : OneProcess c) (n : ℕ) (o : Opts) (S T : OSim) (hS : Healthy c S)
    (h : c.calls (List.replicate n (0, o)) S = .ok T) : Healthy c T ∧ ∀ m < c.base.Nm, ∀ iz < c.base.Nz, ∀ ir < c.base.Nr,
      let d : ℂ := (openDamping c.comm 0 c.base.Nz iz : ℝ)
      (T.sim.interp m).E.r iz ir = d ^ n * (S.sim.interp m).E.r iz ir ∧
      (T.sim.interp m).E.t iz ir = d ^ n * (S.sim.interp m).E.t iz ir ∧
      (T.sim.interp m).E.z iz ir = d ^ n * (S.sim.interp m).E.z iz ir ∧
      (T.sim.interp m).B.r iz ir = d ^ n * (S.sim.interp m).B.r iz ir ∧
      (T.sim.interp m).B.t iz ir = d ^ n * (S.sim.interp m).B.t iz ir ∧
      (T.sim.interp m).B.z iz ir = d ^ n * (S.sim.interp m).B.z iz ir := by
  induction n generalizing S with
  | zero =>
    have h := Except.ok.inj h
    subst h
    exact ⟨hS, fun m _ iz _ ir _ => by simp⟩
  | succ n ih =>
    rw [List.replicate_succ] at h
    obtain ⟨X, hX, h⟩ := (except_bind_ok _ _ _).1 h
    obtain ⟨σ, st, -, hhX, -, hXE⟩ := C94_run hc o 0 S X hS hX
    obtain ⟨hT, ih⟩ := ih X hhX h
    refine ⟨hT, fun m hm iz hz ir hr => ?_⟩
    obtain ⟨i1, i2, i3, i4, i5, i6⟩ := ih m hm iz hz ir hr
    have e0 : Spec.rowAfter c.base.Nz 0 iz = iz := by
      unfold Spec.rowAfter
      rw [add_zero, Int.emod_eq_of_lt (by positivity) (by exact_mod_cast hz)]
      rfl
    have eE := st.E m hm
    have eB := st.B m hm
    rw [← (hXE m hm).1] at eE
    rw [← (hXE m hm).2.1] at eB
    dsimp only at i1 i2 i3 i4 i5 i6 ⊢
    rw [i1, i2, i3, i4, i5, i6, eE.r iz hz ir hr, eE.t iz hz ir hr, eE.z iz hz ir hr, eB.r iz hz ir hr, eB.t iz hz ir hr,
      eB.z iz hz ir hr]
    simp only [Spec.movedVec, Spec.movedArr, e0]
    refine ⟨?_, ?_, ?_, ?_, ?_, ?_⟩ <;> ring

/-! ### Counterexamples -/

/-- A simulation with `openCfg` (exchange every two iterations) without fields, window and antennas, with one neutral
particle, which has almost reached the end of the physical domain and of the cells for damping and injection. -/
noncomputable def leavingSim : OSim :=
  { openSim with
    sim := { openSim.sim with species := [⟨0, 1, .linear, false, false, none, [⟨⟨1, 0, 19.9, ⟨0, 0, 4 / 3, 3 / 5⟩, 0⟩, 1, fun _ => 0⟩]⟩] }
    win := none
    inj := [none]
    ants := [] }

private theorem leaving_mom : (⟨0, 0, 4 / 3, 3 / 5⟩ : ElecMom).ok ∧ (⟨0, 0, 4 / 3, 3 / 5⟩ : ElecMom).gamma = 5 / 3 := by
  have : (⟨0, 0, 4 / 3, 3 / 5⟩ : ElecMom).gamma = 5 / 3 := by
    norm_num [ElecMom.gamma]
    rw [show (9 : ℝ) = 3 ^ 2 by norm_num, show (25 : ℝ) = 5 ^ 2 by norm_num, Real.sqrt_sq (by norm_num),
      Real.sqrt_sq (by norm_num)]
  exact ⟨by unfold ElecMom.ok; rw [this]; norm_num, this⟩

theorem leaving_sensible (L : List (ℕ × Opts)) : Sensible openCfg L leavingSim where
  one := open_one
  healthy :=
    { sized := fun _ _ => ⟨rfl, rfl⟩
      regular := open_healthy.regular
      zmin := open_healthy.zmin
      zmax := open_healthy.zmax
      mom := by
        intro sp hsp p hp
        rw [List.mem_singleton.1 hsp] at hp
        rw [List.mem_singleton.1 hp]
        exact leaving_mom.1 }
  dt := one_pos
  invdz := by norm_num [openCfg, cubicCfg]
  invdr := one_pos
  Nr := by norm_num [openCfg, cubicCfg]
  beta := fun _ _ => rfl
  period := by norm_num [openCfg]
  guard := by norm_num [openCfg, cubicCfg]
  opts := fun _ _ _ => rfl
  frame := by norm_num [openCfg, cubicCfg, Spec.frameVelocity]
  plane := by
    intro sp hsp
    rw [List.mem_singleton.1 hsp]
    exact fun h => absurd rfl h
  ants := fun a ha => absurd ha List.not_mem_nil
  window := fun w hw => nomatch hw
  inj := fun w hw => nomatch hw

/-- One iteration of a simulation with one neutral species. -/
private theorem neutral_iter (i : ℕ) (S T : OSim) (sp : Species) (hS : Healthy openCfg S) (hw : S.win = none) (hz : S.zminG = 0)
    (hsp : S.sim.species = [sp]) (hq : sp.q = 0) (hm : ∀ p ∈ sp.ptcl, p.push.mom = ⟨0, 0, 4 / 3, 3 / 5⟩) (h : openCfg.iter {} i S = .ok T) :
    Healthy openCfg T ∧ T.win = none ∧ T.zminG = 0 ∧ T.sim.iteration = S.sim.iteration + 1 ∧
    ∃ (sp' : Species) (l : List Ptcl), T.sim.species = [sp'] ∧ sp'.q = 0 ∧
      ((S.sim.iteration : ℤ) % 2 = 0 ∨ i = 0 → l = sp.ptcl.filter fun p => decide (-12 ≤ p.push.z ∧ p.push.z ≤ 20)) ∧
      (¬ ((S.sim.iteration : ℤ) % 2 = 0 ∨ i = 0) → l = sp.ptcl) ∧
      List.Forall₂ (fun p p' => p'.push.mom = ⟨0, 0, 4 / 3, 3 / 5⟩ ∧ p'.push.z = p.push.z + 4 / 5) l sp'.ptcl := by
  obtain ⟨u, hu, pr⟩ := C94_particles open_one {} i S T hS h
  obtain ⟨-, w2, n, w3, w4, -⟩ := C94_window open_one {} i S T hS h
  obtain ⟨rfl, w5⟩ := w4 hw
  have hT := C94_healthy open_one {} i S T hS h
  have hzT : T.zminG = 0 := by
    rw [w3, hz]
    norm_num [openCfg, cubicCfg]
  refine ⟨hT, w5, hzT, w2, ?_⟩
  obtain ⟨su, hsu⟩ : ∃ su, u.species = [su] := List.length_eq_one_iff.1 (by rw [hu.count, hsp]; rfl)
  obtain ⟨sT, hsT⟩ : ∃ sT, T.sim.species = [sT] := List.length_eq_one_iff.1 (by rw [pr.count, hsu]; rfl)
  obtain ⟨e1, e2, e3⟩ := hu.species 0 sp su (by rw [hsp]; rfl) (by rw [hsu]; rfl)
  obtain ⟨f1, f2⟩ := pr.same 0 su sT (by rw [hsu]; rfl) (by rw [hsT]; rfl)
  have hqu : su.q = 0 := by rw [← hq, ← e1]
  have hqT : sT.q = 0 := by rw [← hqu, ← f1]
  have hzmin : S.sim.zmin = -28 := by rw [hS.zmin, hz]; norm_num [openCfg]
  have hzmax : S.sim.zmax = 36 := by rw [hS.zmax, hzmin]; norm_num [openCfg, cubicCfg]
  have ex : (S.sim.iteration : ℤ) % 2 = 0 ∨ i = 0 → su.ptcl = sp.ptcl.filter fun p => decide (-12 ≤ p.push.z ∧ p.push.z ≤ 20) := by
    intro hx
    obtain ⟨new, a1, a2⟩ := (e2 hx).opened (by norm_num [openCfg])
    have hn : new = [] := by
      have : Spec.injected openCfg S 0 = [] := by unfold Spec.injected; rw [hw]
      rw [this] at a2
      exact List.forall₂_nil_left_iff.1 a2
    rw [a1, hn, List.append_nil]
    refine List.filter_congr fun p _ => ?_
    rw [hzmin, hzmax]
    norm_num [openCfg]
  have noex : ¬ ((S.sim.iteration : ℤ) % 2 = 0 ∨ i = 0) → su.ptcl = sp.ptcl := e3
  have sub : ∀ p ∈ su.ptcl, p.push.mom = ⟨0, 0, 4 / 3, 3 / 5⟩ := by
    intro p hp
    by_cases hx : (S.sim.iteration : ℤ) % 2 = 0 ∨ i = 0
    · rw [ex hx] at hp
      exact hm p (List.mem_filter.1 hp).1
    · rw [noex hx] at hp
      exact hm p hp
  refine ⟨sT, su.ptcl, hsT, hqT, ex, noex, List.forall₂_iff_get.2 ⟨f2.symm, fun k h1 h2 => ?_⟩⟩
  have hp1 := sub _ (List.get_mem su.ptcl ⟨k, h1⟩)
  have L := pr.ptcl 0 su sT (by rw [hsu]; rfl) (by rw [hsT]; rfl) k _ _ (List.getElem?_eq_getElem h1) (List.getElem?_eq_getElem h2)
    (by rw [List.get_eq_getElem] at hp1; rw [hp1]; exact leaving_mom.1)
  have hf := L.free (fun hh => hh.2.1 hqu)
  simp only [List.get_eq_getElem] at hp1 ⊢
  refine ⟨hf.trans hp1, ?_⟩
  rw [(L.moves rfl).2.2, hf, hp1]
  norm_num [Spec.velocity, leaving_mom.2, openCfg, cubicCfg]

/-- **C109, not true in general.** In a simulation for which everything is reasonable (C95), with the exchange period of two
iterations that the code chooses, a particle that flies out of the box is still there after `step(2)`, but not after
`step(1)` and `step(1)`. -/
theorem C109_violated : Sensible openCfg [(2, {})] leavingSim ∧ ∃ T T', openCfg.calls [(1 + 1, {})] leavingSim = .ok T ∧
    openCfg.calls [(1, {}), (1, {})] leavingSim = .ok T' ∧
    (T.sim.species.map fun sp => sp.ptcl.length) = [1] ∧ (T'.sim.species.map fun sp => sp.ptcl.length) = [0] ∧
    ¬ OpenResult openCfg (openCfg.calls [(1 + 1, {})] leavingSim) (openCfg.calls [(1, {}), (1, {})] leavingSim) := by
  refine ⟨leaving_sensible _, ?_⟩
  obtain ⟨T, hT, -⟩ := C95_total _ _ (leaving_sensible [(1 + 1, {})])
  obtain ⟨T', hT', -⟩ := C95_total _ _ (leaving_sensible [(1, {}), (1, {})])
  have h0 := (leaving_sensible []).healthy
  have hT2 : openCfg.step 2 {} leavingSim = .ok T := by
    obtain ⟨X, hX, e⟩ := (except_bind_ok _ _ _).1 hT
    rw [← Except.ok.inj e]
    exact hX
  -- the particle after the first iteration of a call that begins at `leavingSim`
  have first : ∀ (A B : OSim), Spec.Started openCfg leavingSim A → Healthy openCfg A → openCfg.iter {} 0 A = .ok B →
      Healthy openCfg B ∧ B.win = none ∧ B.zminG = 0 ∧ B.sim.iteration = 1 ∧
      ∃ (sp : Species) (p : Ptcl), B.sim.species = [sp] ∧ sp.q = 0 ∧ sp.ptcl = [p] ∧
        p.push.mom = ⟨0, 0, 4 / 3, 3 / 5⟩ ∧ p.push.z = 20.7 := by
    intro A B st hA hB
    obtain ⟨b1, b2, b3, b4, sp, l, b5, b6, b7, -, b8⟩ := neutral_iter 0 A B _ hA st.win st.zminG st.species rfl
      (fun p hp => by rw [List.mem_singleton.1 hp]) hB
    have hl := b7 (Or.inr rfl)
    rw [List.filter_cons_of_pos (by norm_num), List.filter_nil] at hl
    rw [hl] at b8
    obtain ⟨p, l', b9, b10, b11⟩ := List.forall₂_cons_left_iff.1 b8
    rw [List.forall₂_nil_left_iff] at b10
    rw [b10] at b11
    refine ⟨b1, b2, b3, by rw [b4, st.iteration]; rfl, sp, p, b5, b6, b11, b9.1, ?_⟩
    rw [b9.2]
    norm_num
  -- one call
  have cT : (T.sim.species.map fun sp => sp.ptcl.length) = [1] := by
    obtain ⟨σ, st, hσ, -, eT, -⟩ := C94_run open_one {} 2 leavingSim T h0 hT2
    obtain ⟨a1, a2, a3, a4, sp, p, a5, a6, a7, a8, -⟩ := first _ _ st (hσ 0 (by norm_num)).1 (hσ 0 (by norm_num)).2
    obtain ⟨-, -, -, -, sp', l, b5, -, -, b7, b8⟩ := neutral_iter 1 _ _ sp a1 a2 a3 a5 a6
      (fun q hq => by rw [a7] at hq; rw [List.mem_singleton.1 hq]; exact a8) (hσ 1 (by norm_num)).2
    have hl := b7 (by rw [a4]; norm_num)
    have : T.sim.species = [sp'] := by rw [eT]; exact b5
    rw [this, List.map_singleton, ← b8.length_eq, hl, a7]
    rfl
  -- two calls
  have cT' : (T'.sim.species.map fun sp => sp.ptcl.length) = [0] := by
    obtain ⟨X, hX, h2⟩ := (except_bind_ok _ _ _).1 hT'
    obtain ⟨Y, hY, e⟩ := (except_bind_ok _ _ _).1 h2
    have e : Y = T' := Except.ok.inj e
    subst e
    obtain ⟨σ, st, hσ, hhX, eX, -⟩ := C94_run open_one {} 1 leavingSim X h0 hX
    obtain ⟨a1, a2, a3, a4, sp, p, a5, a6, a7, a8, a9⟩ := first _ _ st (hσ 0 (by norm_num)).1 (hσ 0 (by norm_num)).2
    obtain ⟨τ, st', hτ, -, eY, -⟩ := C94_run open_one {} 1 X Y hhX hY
    have x1 : X.sim.species = [sp] := by rw [eX]; exact a5
    have x2 : X.win = none := by rw [eX]; exact a2
    have x3 : X.zminG = 0 := by rw [eX]; exact a3
    obtain ⟨-, -, -, -, sp', l, b5, -, b6, -, b8⟩ := neutral_iter 0 _ _ sp (hτ 0 (by norm_num)).1 (st'.win.trans x2) (st'.zminG.trans x3)
      (st'.species.trans x1) a6 (fun q hq => by rw [a7] at hq; rw [List.mem_singleton.1 hq]; exact a8) (hτ 0 (by norm_num)).2
    have hl := b6 (Or.inr rfl)
    rw [a7, List.filter_cons_of_neg (by rw [a9]; norm_num), List.filter_nil] at hl
    have : Y.sim.species = [sp'] := by rw [eY]; exact b5
    rw [this, List.map_singleton, ← b8.length_eq, hl]
    rfl
  refine ⟨T, T', hT, hT', cT, cT', fun hr => ?_⟩
  obtain ⟨T2, h1, h2⟩ := hr.1 T hT
  have e : T2 = T' := Except.ok.inj (h1.symm.trans hT')
  rw [e] at h2
  have := map_forall₂ h2.stored.species (f := fun sp => sp.ptcl.length) (g := fun sp => sp.ptcl.length)
    fun _ _ _ h => h.ptcl.length_eq
  rw [cT, cT'] at this
  simp at this

/-- **C109, not true in general** (damping): the fields in the cells for the damping are damped once more at the beginning of
every call. After `step(0)` the field in such a cell is half of the initial one, after `step(0)` and `step(0)` a
quarter. -/
theorem C109_damped_violated : ∃ S, Sensible openCfg [(0, {})] S ∧ ∃ T T', openCfg.calls [(0 + 0, {})] S = .ok T ∧
    openCfg.calls [(0, {}), (0, {})] S = .ok T' ∧
    (S.sim.interp 0).E.r 25 0 = 1 ∧ (T.sim.interp 0).E.r 25 0 = 1 / 2 ∧ (T'.sim.interp 0).E.r 25 0 = 1 / 4 := by
  have hS : ∀ L, Sensible openCfg L { leavingSim with sim := { leavingSim.sim with
      interp := fun _ => ⟨⟨fun _ _ => 1, 0, 0⟩, ⟨0, 0, 0⟩, ⟨0, 0, 0⟩, 0⟩ } } := fun L =>
    { leaving_sensible L with
      healthy := { (leaving_sensible L).healthy with mom := (leaving_sensible L).healthy.mom }
      inj := fun w hw => nomatch hw }
  refine ⟨_, hS _, ?_⟩
  obtain ⟨T, hT, -⟩ := C95_total _ _ (hS [(0, {})])
  obtain ⟨T', hT', -⟩ := C95_total _ _ (hS [(0, {}), (0, {})])
  have a := ((C109_empty_calls open_one 1 {} _ T (hS []).healthy hT).2 0 (by norm_num [openCfg, cubicCfg]) 25
    (by norm_num [openCfg, cubicCfg]) 0 (by norm_num [openCfg, cubicCfg])).1
  have b := ((C109_empty_calls open_one 2 {} _ T' (hS []).healthy hT').2 0 (by norm_num [openCfg, cubicCfg]) 25
    (by norm_num [openCfg, cubicCfg]) 0 (by norm_num [openCfg, cubicCfg])).1
  have d : openDamping openCfg.comm 0 openCfg.base.Nz 25 = 1 / 2 := by
    norm_num [openDamping, openCfg, cubicCfg, dampArray]
    rw [div_pow, Real.sq_sqrt (by norm_num)]
    norm_num
  rw [d] at a b
  refine ⟨T, T', hT, hT', rfl, ?_, ?_⟩
  · rw [a]; norm_num
  · rw [b]; norm_num

/-! ### The hypotheses of the theorems can be met -/

/-- A grid of 64 cells without damping, with two modes and discrete transforms that have the required properties. -/
noncomputable def splitCfg : OCfg :=
  { openCfg with base := { gaussCfg .curlFree with Nz := 64 }, comm := ⟨8, 1, 16, 0, 12, .opened, .reflective, 2⟩, mirrors := [] }

instance : NeZero splitCfg.base.Nz := ⟨by show (64 : ℕ) ≠ 0; norm_num⟩

/-- The simulation of `openSim`, with a moving window, injection and an antenna. -/
noncomputable def splitSim : OSim :=
  { openSim with
    sim := { openSim.sim with
      spect := fun m => ⟨64, 2, fun iz => iz, fun ir => if m ≠ 0 ∧ ir = 0 then 0 else 1,
        fun _ _ => ⟨0, 0, 0, 0, 0, 0, 0, 0, 0, 0, 0, 0, 0, 0, 0, 0, 0⟩⟩ } }

theorem split_sensible (L : List (ℕ × Opts)) : Sensible splitCfg L splitSim where
  one :=
    { threads := one_pos, consts := ⟨one_pos, one_pos, one_pos, by norm_num [splitCfg, gaussCfg, cubicCfg]⟩, size := rfl, cells := rfl
      dz := one_pos, fill := open_one.fill }
  healthy :=
    { sized := fun _ _ => ⟨rfl, rfl⟩
      regular := fun _ _ _ _ => ⟨one_ne_zero, fun v hv => by simp [splitCfg, gaussCfg, cubicCfg] at hv⟩
      zmin := by norm_num [splitCfg, splitSim, openCfg, openSim]
      zmax := by norm_num [splitCfg, splitSim, openCfg, openSim]
      mom := open_healthy.mom }
  dt := one_pos
  invdz := by norm_num [splitCfg, gaussCfg, openCfg, cubicCfg]
  invdr := one_pos
  Nr := le_rfl
  beta := fun _ _ => rfl
  period := by norm_num [splitCfg]
  guard := by norm_num [splitCfg, gaussCfg, openCfg, cubicCfg]
  opts := fun _ _ _ => rfl
  frame := by norm_num [splitCfg, gaussCfg, cubicCfg, Spec.frameVelocity]
  plane := (open_sensible L).plane
  ants := (open_sensible L).ants
  window := (open_sensible L).window
  inj := by
    intro w hw id sp i h1 h2
    obtain ⟨a1, ⟨d, a2, a3, a4⟩, a5, a6, a7⟩ := (open_sensible L).inj w hw id sp i h1 h2
    refine ⟨a1, ⟨d, a2, a3, a4⟩, a5, a6, a7.imp_right fun ⟨p, hp, h⟩ => ⟨p, hp, ?_⟩⟩
    norm_num [splitCfg, splitSim, openCfg, openSim] at h ⊢
    exact h

theorem split_solver : SolverOk splitCfg.base splitSim.sim where
  consts := (gauss_solver .curlFree).consts
  Nz := fun _ _ => rfl
  Nr := fun _ _ => rfl
  trans := fun m hm => by
    obtain ⟨-, h2, h3, h4⟩ := (gauss_solver .curlFree).trans m hm
    exact ⟨covers_loop2d 64 2, h2, h3, h4⟩
  regular := fun _ _ _ _ => ⟨one_ne_zero, fun v hv => by simp [splitCfg, gaussCfg, cubicCfg] at hv⟩
  kr := (gauss_solver .curlFree).kr
  kz := fun h => nomatch h

/-- A run with moving window, injection, an antenna and an electron, interrupted after four iterations. -/
example : ∃ T T', splitCfg.calls [(4 + 3, {}), (2, {})] splitSim = .ok T ∧
    splitCfg.calls [(4, {}), (3, {}), (2, {})] splitSim = .ok T' ∧ SeenOpen splitCfg T T' := by
  have hs := split_sensible []
  obtain ⟨T, hT, -⟩ := C95_total _ _ (split_sensible [(4 + 3, {}), (2, {})])
  have hU : ∀ X, Undamped splitCfg X := fun X m _ iz _ => Or.inl (by simp [openDamping, splitCfg])
  obtain ⟨T', hT', h⟩ := (C109_split_partial hs.one 4 3 (by norm_num) (by norm_num) {} [(2, {})] (by simp) splitSim split_solver
    (hs.healthy.placed hs.one) (by norm_num [splitCfg, splitSim, openSim, cubicSim]) fun X _ => hU X).1 T hT
  exact ⟨T, T', hT, hT', h⟩

/-- Two different states that agree on what is stored. -/
example : ∃ S', SameOpen openCfg openSim S' ∧ (S'.sim.interp 0).rho ≠ (openSim.sim.interp 0).rho ∧
    OpenResult openCfg (openCfg.calls [(1000, {}), (7, {})] openSim) (openCfg.calls [(1000, {}), (7, {})] S') := by
  have h : SameOpen openCfg openSim { openSim with sim := { openSim.sim with
      interp := fun m => { openSim.sim.interp m with rho := fun _ _ => 1 } } } :=
    { stored :=
        { zmin := rfl, zmax := rfl, time := rfl, iteration := rfl, species := species_refl _ _
          E := fun _ _ => rfl, B := fun _ _ => rfl, Nz := fun m hm => ⟨rfl, rfl⟩, Nr := fun m hm => ⟨rfl, rfl⟩
          kz := fun _ _ => rfl, kr := fun _ _ => rfl }
      zminG := rfl, win := rfl, inj := rfl, ants := rfl }
  refine ⟨_, h, fun h => ?_, C109_stored open_one _ (by simp) (by simp) _ _ (open_healthy.placed open_one) h⟩
  exact one_ne_zero (congrFun (congrFun h 0) 0)

end Fbpic.Pic
