import Verif.Lemmas.Step

/-!
# C40–C42: the PIC cycle, splitting of runs, output schedule

main.py:346-717, fields/fields.py:247-302, openpmd_diag/generic_diag.py:66-140.
-/

namespace Fbpic

open Step Spec StepLemmas

variable {K : Type} [Field K] [CharZero K]

omit [CharZero K] in
private theorem move_ite (o : Opts) (x v : Vec K) (h : K) :
    (if o.movePositions then move x v h else x) = move x (ifMoving o v) h := by
  cases hm : o.movePositions <;> simp [ifMoving, hm, move]

omit [CharZero K] in
private theorem logs_split {w w' : World K} {l : List (Ev K)} {L : Logs K} (h : w'.log = w.log ++ l)
    (hl : logsOf l = L) : pushes w'.log = pushes w.log ++ L.pushes ∧
      corrections w'.log = corrections w.log ++ L.corrections ∧
      momentumPushes w'.log = momentumPushes w.log ++ L.momentum ∧
      diagWrites w'.log = diagWrites w.log ++ L.diags ∧
      checkpointWrites w'.log = checkpointWrites w.log ++ L.checkpoints := by
  subst hl
  rw [h]
  have := logsOf_append w.log l
  simp only [logsOf, Logs.append, Logs.mk.injEq] at this ⊢
  exact this

/-- **C40**, one round of the loop: it raises no exception (in particular no assertion on exchanged
sources fails) and does what `Cycle` says; the next round finds its sources ready. -/
theorem C40_cycle (c : Cfg K) (o : Opts) (d : Dynamics K) (i : ℕ) (w : World K)
    (hp : c.exchangePeriod ≠ 0) (ha : Accepted c o) (hw : i = 0 ∨ Ready c o w) :
    ∃ w', w.iter c o d i = .ok w' ∧ Cycle c o d (i == 0) w w' ∧ Ready c o w' := by
  have hr : c.size > 1 → o.useTrueRho = true → o.correctCurrents = false := by
    intro h1 h2
    by_contra h3
    exact (ha h1).2 ⟨h2, by simpa using h3⟩
  have hx0 : (if w.iteration % c.exchangePeriod = 0 ∨ i = 0 then d.exchange w.time w.pos else w.pos)
      = startPos c d (i == 0) w := by
    unfold startPos
    by_cases h : i = 0 <;> simp [h]
  unfold World.iter
  rw [if_neg hp]
  obtain ⟨l1, hl1, hg1⟩ := start_log c o d i w
  obtain ⟨a1, a2, a3, a4, a5, a6, a7, a8, a9, a10, a11⟩ := start_facts c o d i w
  generalize w.iterStart c o d i = w1 at *
  obtain ⟨l2, hl2, hg2⟩ := half_log c o d w1
  obtain ⟨b1, b2, b3, b4, b5, b6, b7, b8, b9⟩ := half_facts c o d w1
  generalize w1.iterHalf c o d = w2 at *
  obtain ⟨l3, hl3, hg3⟩ := deposit_phase_log c o w2
  obtain ⟨c1, c2, c3, c4, c5, c6, c7, c8, c9, c10, c11, c12, c13, c14⟩ := deposit_facts c o w2
  generalize w2.iterDeposit c o = w3 at *
  rw [hx0] at a3 a8 a10
  have hrp : w1.src.rhoPrev = some ⟨startPos c d (i == 0) w, w.apos, w.grid, o.useTrueRho⟩ ∧
      w1.flags.rhoPrev = o.useTrueRho := by
    rw [a8, a9]
    by_cases h : w.iteration % c.exchangePeriod = 0 ∨ i = 0
    · simp [h]
    · have hi : i ≠ 0 := fun h' => h (Or.inr h')
      have hready := hw.resolve_left hi
      rw [if_neg h, if_neg h, hready.rhoPrev, ← hx0, if_neg h]
      exact ⟨rfl, hready.flagRho⟩
  have hJ : ∃ j, w1.src.J = some j ∧ w1.flags.J = true ∧ (c.size > 1 → j.exchanged = true) := by
    rw [a10, a11]
    by_cases h : i = 0
    · simp [h]
    · obtain ⟨j, hj, hj'⟩ := (hw.resolve_left h).J
      exact ⟨j, by simp [h, hj], by simp [h, (hw.resolve_left h).flagJ], hj'⟩
  obtain ⟨w', l4, hok, hl4, hg4, e1, e2, e3, e4, e5, e6, e7, e8, e9⟩ := end_facts c o w3 _ hr
    (c9.trans ((congrArg Flags.rhoPrev b9).trans hrp.2)) c13 c11 (fun h h' => (c14 h h').2.2) c10
  have hlog : w'.log = w.log ++ (l1 ++ (l2 ++ (l3 ++ l4))) := by
    rw [hl4, hl3, hl2, hl1]; simp
  have hlogs := logs_split hlog rfl
  simp only [logsOf_append, hg1, hg2, hg3, hg4, Logs.append, List.nil_append, List.append_nil] at hlogs
  obtain ⟨g1, g2, g3, g4, g5⟩ := hlogs
  have e : w1.time + 1 / 2 * c.dt = w.time + c.dt / 2 := by rw [a2]; ring
  rw [e] at b3 b4 b5 b6 g3
  rw [a3, a4] at b3 b4
  rw [move_ite] at b3 b4
  have hu : (if o.moveMomenta = true then d.pushP (w.time + c.dt / 2) (startPos c d (i == 0) w) w.vel
      else w.vel) = pushedVel c o d (startPos c d (i == 0) w) w := rfl
  rw [hu] at b3 b4
  have hv2 : (if o.movePositions = true then w2.vel else ⟨0, 0, 0⟩) = ifMoving o w'.vel := by
    rw [e6, c4]; rfl
  have hv : w2.vel = w'.vel := by rw [e6, c4]
  have hav : w2.avel = w'.avel := by rw [e8, c6]
  rw [hv2] at c3 c12 c14
  rw [hv] at b4 c10
  rw [hav] at c5 c10 c12 c14 b6
  rw [a5, ← b6] at b5
  rw [a7] at b7
  generalize hX : startPos c d (i == 0) w = x0 at *
  generalize hv1 : ifMoving o (pushedVel c o d x0 w) = v1 at *
  have hamove : move (move w.apos w'.avel (c.dt / 2)) w'.avel (c.dt / 2) = move w.apos w'.avel c.dt := by
    ext <;> simp [move] <;> ring
  have hgrid : w.grid + gridVelocity c * (c.dt / 2) + gridVelocity c * (c.dt / 2) =
      w.grid + gridVelocity c * c.dt := by ring
  rw [b3, b5, b7, hamove, hgrid] at c12
  rw [b5, hamove] at c5
  rw [b7, hgrid] at c7
  rw [b3, b5, b7] at c10
  rw [b3] at c3
  rw [b8, hrp.1] at c8
  have hcent : ∀ s : Sources K, s.rhoPrev = w3.src.rhoPrev → s.rhoNext = w3.src.rhoNext →
      (∃ b, s.J = some ⟨w2.pos, w'.vel, w2.apos, w'.avel, w2.grid, b⟩) →
      Centred o.useTrueRho c.dt x0 v1 (ifMoving o w'.vel) w'.vel w.apos w'.avel w.grid (gridVelocity c) s := by
    intro s h1 h2 h3
    refine ⟨h1.trans c8, h2.trans c12, ?_⟩
    rw [b3, b5, b7] at h3
    exact h3
  refine ⟨w', hok, ?_, ?_⟩
  · refine ⟨by rw [e3, c1, b1, a1], by rw [e4, c2, b2, a2], ?_, ⟨b6, by rw [e7, c5]⟩, by rw [e9, c7],
      ?_, ?_, g3, ?_, by rw [g5, c1, b1, a1]⟩
    · simp only [hX, hv1]
      exact ⟨by rw [e5, c3], b4.symm ▸ rfl⟩
    · rw [hX, hv1]
      refine ⟨_, g1, hcent _ rfl rfl ⟨_, by rw [← hv, ← hav]⟩, ?_, by rw [e1]⟩
      intro hs
      refine ⟨_, rfl, ?_⟩
      cases o.correctCurrents <;> simp [hs]
    · rw [hX, hv1]
      cases hc : o.correctCurrents
      · simpa [hc] using g2
      · simp only [hc, if_true] at g2 ⊢
        refine ⟨_, g2, hcent _ rfl rfl ⟨_, by rw [c10, b3, b5, b7]⟩, ⟨_, c10, by simp [hc]⟩, ?_⟩
        intro h4 hvv
        obtain ⟨q1, q2, -, -⟩ := c14 hc h4
        rw [b3, b5, b7, hvv] at q1 q2
        refine ⟨⟨false, q1.trans ?_⟩, ⟨false, q2.trans ?_⟩⟩
        · refine congrArg some ?_
          ext <;> simp [move] <;> ring
        · refine congrArg some ?_
          ext <;> simp [move] <;> ring
    · obtain ⟨j, hj1, hj2, hj3⟩ := hJ
      exact ⟨_, j, _, g4, by rw [hrp.1, hrp.2, hX], hj1, hj2, hj3⟩
  · refine ⟨by rw [e1]; simp only; rw [c12, e5, c3, e7, c5, e9, c7], ?_, by rw [e2], ⟨_, by rw [e1], ?_⟩⟩
    · rw [e2]; simp only
      rw [c9, b9, hrp.2]
    · intro hs
      cases o.correctCurrents <;> simp [hs]

/-- One cycle as a run. -/
private theorem cycle_run {c : Cfg K} {o : Opts} {d : Dynamics K} {i : ℕ} {w w' : World K}
    (h : Cycle c o d (i == 0) w w') (hw : i = 0 ∨ Ready c o w) (hr : Ready c o w') :
    Run c d (fun k => k = 0 ∧ (i = 0 ∨ w.iteration % c.exchangePeriod = 0))
      (if o.moveMomenta then [w.time + c.dt / 2] else []) 1 w w' := by
  obtain ⟨s, hs1, hs2, hs3, hs4⟩ := h.pushed
  obtain ⟨r, j, f, hd, -⟩ := h.diags
  refine ⟨h.iteration, by rw [h.time]; simp, h.momentum, ⟨[s], hs1, rfl, ?_, ?_, ?_⟩, by simp, ?_, ?_⟩
  · intro s' hs'
    obtain rfl : s = s' := by simpa using hs'
    refine ⟨_, hs2.rhoPrev, ?_, rfl, rfl, ?_⟩
    · rintro ⟨-, h⟩
      simp [startPos, h]
    · intro hne
      have hi : i ≠ 0 := fun h' => hne ⟨rfl, Or.inl h'⟩
      have h2 : w.iteration % c.exchangePeriod ≠ 0 := fun h' => hne ⟨rfl, Or.inr h'⟩
      rw [(hw.resolve_left hi).rhoPrev]
      simp [startPos, hi, h2]
  · intro k s s' _ hs'
    simp at hs'
  · intro s' hs'
    obtain rfl : s = s' := by simpa using hs'
    exact ⟨hs4.symm, _, hr.rhoPrev⟩
  · simp [hd]
  · simp [h.checkpoints]

/-- Runs one after the other. -/
private theorem run_append {c : Cfg K} {d : Dynamics K} {ex ex' ex'' : ℕ → Prop} {mom mom' : List K}
    {n m : ℕ} {w w' w'' : World K} (h : Run c d ex mom n w w') (h' : Run c d ex' mom' m w' w'')
    (e1 : ∀ k, k < n → (ex'' k ↔ ex k)) (e2 : ∀ k, ex'' (n + k) ↔ ex' k) :
    Run c d ex'' (mom ++ mom') (n + m) w w'' := by
  obtain ⟨ps, p1, p2, p3, p4, p5⟩ := h.pushed
  obtain ⟨qs, q1, q2, q3, q4, q5⟩ := h'.pushed
  refine ⟨by rw [h'.iteration, h.iteration, Nat.add_assoc], ?_, ?_,
    ⟨ps ++ qs, by rw [q1, p1, List.append_assoc], by simp [p2, q2], ?_, ?_, ?_⟩, ?_, ?_, ?_⟩
  · rw [h'.time, h.time]; push_cast; ring
  · rw [h'.momentum, h.momentum, List.append_assoc]
  · intro s hs
    by_cases hn : n = 0
    · subst hn
      obtain rfl : ps = [] := List.length_eq_zero_iff.mp p2
      obtain ⟨b1, b2, b3, b4⟩ := h.still rfl
      obtain ⟨r, r1, r2, r3, r4, r5⟩ := q3 s (by simpa using hs)
      have e0 := e2 0
      simp only [Nat.add_zero] at e0
      refine ⟨r, r1, fun he => ?_, by rw [r3, b2], by rw [r4, b3], fun he => ?_⟩
      · rw [r2 (e0.mp he), h.time, b1]; simp
      · rw [← b4]; exact r5 (fun hh => he (e0.mpr hh))
    · rw [List.getElem?_append_left (by omega)] at hs
      obtain ⟨r, r1, r2, r3, r4, r5⟩ := p3 s hs
      have e0 := e1 0 (by omega)
      exact ⟨r, r1, fun he => r2 (e0.mp he), r3, r4, fun he => r5 (fun hh => he (e0.mpr hh))⟩
  · intro k s s' hs hs'
    by_cases hk : k + 1 < n
    · rw [List.getElem?_append_left (by omega)] at hs hs'
      have e0 := e1 (k + 1) hk
      obtain ⟨r, r', r1, r2, r3, r4, r5, r6⟩ := p4 k s s' hs hs'
      exact ⟨r, r', r1, r2, fun he => r3 (e0.mp he), r4, r5, fun he => r6 (fun hh => he (e0.mpr hh))⟩
    · by_cases hk' : k + 1 = n
      · rw [List.getElem?_append_left (by omega)] at hs
        rw [List.getElem?_append_right (by omega)] at hs'
        have hz : k + 1 - ps.length = 0 := by omega
        rw [hz] at hs'
        obtain ⟨g1, b, g2⟩ := p5 s (by rwa [← hk', Nat.add_sub_cancel])
        obtain ⟨r, r1, r2, r3, r4, r5⟩ := q3 s' hs'
        have e0 := e2 0
        rw [Nat.add_zero, ← hk'] at e0
        refine ⟨_, r, g1.trans g2, r1, fun he => ?_, r3, r4, fun he => ?_⟩
        · rw [r2 (e0.mp he), h.time, ← hk']; push_cast; rfl
        · have := r5 (fun hh => he (e0.mpr hh))
          rw [g2] at this
          exact (Option.some.inj this).symm
      · rw [List.getElem?_append_right (by omega)] at hs hs'
        obtain ⟨k', rfl⟩ : ∃ k', k = n + k' := ⟨k - n, by omega⟩
        have hz : n + k' - ps.length = k' := by omega
        have hz' : n + k' + 1 - ps.length = k' + 1 := by omega
        rw [hz] at hs
        rw [hz'] at hs'
        have e0 := e2 (k' + 1)
        obtain ⟨r, r', r1, r2, r3, r4, r5, r6⟩ := q4 k' s s' hs hs'
        refine ⟨r, r', r1, r2, fun he => ?_, r4, r5, fun he => r6 (fun hh => he (e0.mpr hh))⟩
        rw [r3 (e0.mp he), h.time]
        congr 1
        push_cast; ring
  · intro s hs
    by_cases hm : m = 0
    · subst hm
      obtain ⟨b1, b2, b3, b4⟩ := h'.still rfl
      obtain rfl : qs = [] := List.length_eq_zero_iff.mp q2
      rw [b1, b2, b3, b4]
      exact p5 s (by simpa using hs)
    · rw [List.getElem?_append_right (by omega)] at hs
      exact q5 s (by rw [show m - 1 = n + m - 1 - ps.length by omega]; exact hs)
  · intro hz
    obtain ⟨b1, b2, b3, b4⟩ := h.still (by omega)
    obtain ⟨g1, g2, g3, g4⟩ := h'.still (by omega)
    exact ⟨g1.trans b1, g2.trans b2, g3.trans b3, g4.trans b4⟩
  · rw [h'.diags, h.diags, h.iteration, List.append_assoc, List.range'_append_1]
  · rw [h'.checkpoints, h.checkpoints, h.iteration, List.append_assoc, Nat.add_right_comm,
      List.range'_append_1]

private theorem run_nil (c : Cfg K) (d : Dynamics K) (ex : ℕ → Prop) (w : World K) :
    Run c d ex [] 0 w w :=
  ⟨rfl, by simp, by simp, ⟨[], by simp, rfl, by simp, by simp, by simp⟩, by simp, by simp, by simp⟩

private theorem loop_run (c : Cfg K) (o : Opts) (d : Dynamics K) (hp : c.exchangePeriod ≠ 0)
    (ha : Accepted c o) (n : ℕ) : ∀ (i : ℕ) (w : World K), i = 0 ∨ Ready c o w →
    ∃ w', World.loop c o d i n w = .ok w' ∧
      Run c d (fun k => k < n ∧ (i + k = 0 ∨ (w.iteration + k) % c.exchangePeriod = 0))
        (if o.moveMomenta then (List.range n).map fun k : ℕ => w.time + k * c.dt + c.dt / 2 else []) n w w' := by
  induction n with
  | zero => exact fun i w _ => ⟨w, rfl, by simpa using run_nil c d _ w⟩
  | succ n ih =>
    intro i w hw
    obtain ⟨w1, h1, h2, h3⟩ := C40_cycle c o d i w hp ha hw
    obtain ⟨w2, g1, g2⟩ := ih (i + 1) w1 (Or.inr h3)
    refine ⟨w2, by simp [World.loop, h1, g1, bind, Except.bind], ?_⟩
    have := run_append (cycle_run h2 hw h3) g2
      (ex'' := fun k => k < n + 1 ∧ (i + k = 0 ∨ (w.iteration + k) % c.exchangePeriod = 0)) ?_ ?_
    · rw [Nat.add_comm 1 n] at this
      convert this using 1
      cases o.moveMomenta
      · simp
      · simp only [if_true, List.range_succ_eq_map, List.map_cons, List.map_map, List.singleton_append]
        simp only [h2.time]
        refine congrArg₂ List.cons (by simp) (List.map_congr_left fun k _ => ?_)
        simp only [Function.comp]
        push_cast; ring
    · intro k hk
      obtain rfl : k = 0 := by omega
      simp
    · intro k
      rw [h2.iteration, Nat.add_assoc w.iteration 1 k, Nat.add_assoc i 1 k]
      refine and_congr ⟨fun h => by omega, fun h => by omega⟩ Iff.rfl

/-- Events other than the ones considered do not change a run. -/
private theorem run_emit_right {c : Cfg K} {d : Dynamics K} {ex : ℕ → Prop} {mom : List K} {n : ℕ}
    {w w' : World K} (h : Run c d ex mom n w w') (a b : Bool) :
    Run c d ex mom n w (w'.emit (.endFields a b)) := by
  refine ⟨h.iteration, h.time, ?_, ?_, h.still, ?_, ?_⟩
  · rw [← h.momentum]; simp [momentumPushes]
  · obtain ⟨ps, h1, h2⟩ := h.pushed
    exact ⟨ps, by rw [← h1]; simp [pushes], h2⟩
  · rw [← h.diags]; simp [diagWrites]
  · rw [← h.checkpoints]; simp [checkpointWrites]

private theorem run_emit_left {c : Cfg K} {d : Dynamics K} {ex : ℕ → Prop} {mom : List K} {n : ℕ}
    {w w' : World K} (h : Run c d ex mom n (w.emit .startFields) w') : Run c d ex mom n w w' := by
  refine ⟨h.iteration, h.time, ?_, ?_, h.still, ?_, ?_⟩
  · rw [h.momentum]; simp [momentumPushes]
  · obtain ⟨ps, h1, h2⟩ := h.pushed
    exact ⟨ps, by rw [h1]; simp [pushes], h2⟩
  · rw [h.diags]; simp [diagWrites]
  · rw [h.checkpoints]; simp [checkpointWrites]

private theorem step_eq {c : Cfg K} {o : Opts} (d : Dynamics K) (ha : Accepted c o) (n : ℕ) (w : World K) :
    World.step c d n o w = (World.loop c o d 0 n (w.emit .startFields)).bind fun w =>
      .ok (w.emit (.endFields (!w.flags.J && decide (c.size > 1)) (!w.flags.rhoPrev && decide (c.size > 1)))) := by
  unfold World.step
  have h1 : ¬ (c.size > 1 ∧ o.correctDivE = true) := by
    rintro ⟨h, h'⟩
    rw [(ha h).1] at h'
    exact absurd h' (by simp)
  have h2 : ¬ (c.size > 1 ∧ o.useTrueRho = true ∧ o.correctCurrents = true) := fun ⟨h, h'⟩ => (ha h).2 h'
  rw [if_neg h1, if_neg h2]
  rfl

/-- **C40**: any number of calls to `step`, with any number of steps and any accepted options, goes
through without any exception (in particular no assertion on exchanged sources fails), keeps time
and iteration in step, pushes momenta and fields once per iteration, and chains the charge
densities. -/
theorem C40_calls (c : Cfg K) (d : Dynamics K) (hp : c.exchangePeriod ≠ 0) (L : List (ℕ × Opts))
    (ha : ∀ x ∈ L, Accepted c x.2) (w : World K) :
    ∃ w', World.calls c d L w = .ok w' ∧
      Run c d (exchangesAt c w.iteration L) (momentumTimes c w.time L) (L.map Prod.fst).sum w w' := by
  induction L generalizing w with
  | nil => exact ⟨w, rfl, run_nil c d _ w⟩
  | cons x L ih =>
    obtain ⟨n, o⟩ := x
    have hao : Accepted c o := ha _ (List.mem_cons_self ..)
    obtain ⟨w1, h1, h2⟩ := loop_run c o d hp hao n 0 (w.emit .startFields) (Or.inl rfl)
    have h3 := run_emit_right (run_emit_left h2) (!w1.flags.J && decide (c.size > 1))
      (!w1.flags.rhoPrev && decide (c.size > 1))
    obtain ⟨w2, g1, g2⟩ := ih (fun y hy => ha y (List.mem_cons_of_mem _ hy)) _
    refine ⟨w2, ?_, ?_⟩
    · unfold World.calls
      rw [step_eq d hao, h1]
      exact g1
    · have := run_append h3 g2 (ex'' := exchangesAt c w.iteration ((n, o) :: L)) ?_ ?_
      · convert this using 1
        · rw [h3.time, momentumTimes]
          rfl
        · simp
      · intro k hk
        simp [exchangesAt, hk, Nat.not_le.mpr hk]
      · intro k
        rw [h3.iteration]
        simp [exchangesAt]

/-- **C40**, one call, cycle by cycle: every cycle is a `Cycle`, so every particle gets one momentum
push and two half position pushes, and the sources handed to the field solver are centred. -/
theorem C40_step (c : Cfg K) (o : Opts) (d : Dynamics K) (hp : c.exchangePeriod ≠ 0)
    (ha : Accepted c o) (n : ℕ) (w : World K) : ∃ W : ℕ → World K, W 0 = w.emit .startFields ∧
      (∀ k < n, Cycle c o d (k == 0) (W k) (W (k + 1))) ∧
      ∃ a b, World.step c d n o w = .ok ((W n).emit (.endFields a b)) := by
  have key : ∀ (n i : ℕ) (w : World K), i = 0 ∨ Ready c o w → ∃ W : ℕ → World K, W 0 = w ∧
      (∀ k < n, Cycle c o d (i + k == 0) (W k) (W (k + 1))) ∧ World.loop c o d i n w = .ok (W n) := by
    intro n
    induction n with
    | zero => exact fun i w _ => ⟨fun _ => w, rfl, by simp, rfl⟩
    | succ n ih =>
      intro i w hw
      obtain ⟨w1, h1, h2, h3⟩ := C40_cycle c o d i w hp ha hw
      obtain ⟨W, g1, g2, g3⟩ := ih (i + 1) w1 (Or.inr h3)
      refine ⟨fun k => if k = 0 then w else W (k - 1), rfl, ?_, ?_⟩
      · intro k hk
        by_cases h : k = 0
        · subst h; simpa [g1] using h2
        · obtain ⟨k', rfl⟩ : ∃ k', k = k' + 1 := ⟨k - 1, by omega⟩
          have := g2 k' (by omega)
          rw [show i + (k' + 1) = i + 1 + k' by omega]
          simpa using this
      · simp [World.loop, h1, g3, bind, Except.bind]
  obtain ⟨W, g1, g2, g3⟩ := key n 0 (w.emit .startFields) (Or.inl rfl)
  exact ⟨W, g1, fun k hk => by simpa using g2 k hk, _, _, by rw [step_eq d ha, g3]; rfl⟩

/-- **C40**: the only exceptions `step` can raise are the announced ones and a zero exchange
period. -/
theorem C40_errors (c : Cfg K) (o : Opts) (d : Dynamics K) (n : ℕ) (w : World K) :
    (∃ e, World.step c d n o w = .error e) ↔ ¬ Accepted c o ∨ (n ≠ 0 ∧ c.exchangePeriod = 0) := by
  by_cases ha : Accepted c o
  · by_cases hp : c.exchangePeriod = 0
    · rw [step_eq d ha]
      cases n with
      | zero => simp [ha, World.loop, Except.bind]
      | succ n => simp [ha, World.loop, World.iter, hp, bind, Except.bind]
    · obtain ⟨W, -, -, a, b, h⟩ := C40_step c o d hp ha n w
      simp [h, ha, hp]
  · refine ⟨fun _ => Or.inl ha, fun _ => ?_⟩
    unfold World.step
    by_cases h1 : c.size > 1 ∧ o.correctDivE = true
    · rw [if_pos h1]; exact ⟨_, rfl⟩
    · by_cases h2 : c.size > 1 ∧ o.useTrueRho = true ∧ o.correctCurrents = true
      · rw [if_neg h1, if_pos h2]; exact ⟨_, rfl⟩
      · exact absurd (fun hs => ⟨by simpa using fun h => h1 ⟨hs, h⟩, fun h => h2 ⟨hs, h⟩⟩) ha

/-- **C41**: which iterations are offered to the diagnostics and to the checkpoints only depends on
the total number of steps, so that `step(a); step(b)` and `step(a+b)` write the same outputs at the
same iterations. -/
theorem C41_schedule (c : Cfg K) (d : Dynamics K) (hp : c.exchangePeriod ≠ 0) (L L' : List (ℕ × Opts))
    (ha : ∀ x ∈ L, Accepted c x.2) (ha' : ∀ x ∈ L', Accepted c x.2)
    (hsum : (L.map Prod.fst).sum = (L'.map Prod.fst).sum) (w : World K) :
    ∃ w1 w2, World.calls c d L w = .ok w1 ∧ World.calls c d L' w = .ok w2 ∧
      (∀ D : Diag, ((diagWrites w1.log).map Prod.fst).filter D.writes =
        ((diagWrites w2.log).map Prod.fst).filter D.writes) ∧
      (∀ D : Diag, (checkpointWrites w1.log).filter D.writes =
        (checkpointWrites w2.log).filter D.writes) ∧
      w1.iteration = w2.iteration ∧ w1.time = w2.time := by
  obtain ⟨w1, h1, h2⟩ := C40_calls c d hp L ha w
  obtain ⟨w2, g1, g2⟩ := C40_calls c d hp L' ha' w
  refine ⟨w1, w2, h1, g1, fun D => ?_, fun D => ?_, ?_, ?_⟩
  · rw [h2.diags, g2.diags, hsum]
  · rw [h2.checkpoints, g2.checkpoints, hsum]
  · rw [h2.iteration, g2.iteration, hsum]
  · rw [h2.time, g2.time, hsum]

/-- **C41**: a run of `n` steps from iteration `it` offers `it, …, it+n-1` to the diagnostics and
`it+1, …, it+n` to the checkpoints, each once and in this order. -/
theorem C41_iterations (c : Cfg K) (d : Dynamics K) (hp : c.exchangePeriod ≠ 0) (L : List (ℕ × Opts))
    (ha : ∀ x ∈ L, Accepted c x.2) (w : World K) : ∃ w', World.calls c d L w = .ok w' ∧
      (diagWrites w'.log).map Prod.fst =
        (diagWrites w.log).map Prod.fst ++ List.range' w.iteration (L.map Prod.fst).sum ∧
      checkpointWrites w'.log =
        checkpointWrites w.log ++ List.range' (w.iteration + 1) (L.map Prod.fst).sum := by
  obtain ⟨w1, h1, h2⟩ := C40_calls c d hp L ha w
  exact ⟨w1, h1, h2.diags, h2.checkpoints⟩

omit [CharZero K] in
private theorem roundHalfEven_spec (x : ℚ) : |x - roundHalfEven x| ≤ 1 / 2 := by
  unfold roundHalfEven
  have h1 := Int.floor_le x
  have h2 := Int.lt_floor_add_one x
  rw [abs_le]
  simp only
  by_cases a : x - ⌊x⌋ < 1 / 2
  · rw [if_pos a]
    constructor <;> linarith
  · rw [if_neg a]
    by_cases b : x - ⌊x⌋ > 1 / 2
    · rw [if_pos b]
      push_cast
      constructor <;> linarith
    · rw [if_neg b]
      split_ifs <;> push_cast <;> constructor <;> linarith

omit [CharZero K] in
private theorem roundHalfEven_int (n : ℤ) : roundHalfEven n = n := by
  simp [roundHalfEven]

/-- **C42**: a diagnostic is written at iteration `i` iff `i` is a multiple of its period within the
bounds. The period is at least one, an integer `period` is taken as it is, and in general the period
is the given one (or `dt_period / dt`) rounded to a nearest integer. Any other way to pass the
arguments is refused. -/
theorem C42_schedule (period dtPeriod : Option ℚ) (dtSim : ℚ) (imin : ℤ) (imax : Option ℤ) :
    ((period.isSome = dtPeriod.isSome ∧
        ∃ m, mkDiag period dtPeriod dtSim imin imax = .error (.valueError m)) ∨
      (∃ p D, (period = some p ∧ dtPeriod = none ∨
          ∃ dp, period = none ∧ dtPeriod = some dp ∧ p = dp / dtSim) ∧
        mkDiag period dtPeriod dtSim imin imax = .ok D ∧ 1 ≤ D.period ∧
        (1 / 2 ≤ p → |p - D.period| ≤ 1 / 2) ∧ (p ≤ 1 / 2 → D.period = 1) ∧
        (∀ n : ℕ, 1 ≤ n → p = n → D.period = n) ∧
        ∀ i : ℕ, D.writes i = true ↔
          (∃ k : ℕ, i = k * D.period) ∧ imin ≤ i ∧ ∀ m, imax = some m → (i : ℤ) < m)) := by
  have key : ∀ p : ℚ, ∃ D : Diag, D = ⟨(max 1 (roundHalfEven p)).toNat, imin, imax⟩ ∧ 1 ≤ D.period ∧
        (1 / 2 ≤ p → |p - D.period| ≤ 1 / 2) ∧ (p ≤ 1 / 2 → D.period = 1) ∧
        (∀ n : ℕ, 1 ≤ n → p = n → D.period = n) ∧
        ∀ i : ℕ, D.writes i = true ↔
          (∃ k : ℕ, i = k * D.period) ∧ imin ≤ i ∧ ∀ m, imax = some m → (i : ℤ) < m := by
    intro p
    refine ⟨_, rfl, ?_, ?_, ?_, ?_, ?_⟩
    · have := le_max_left 1 (roundHalfEven p)
      simp only
      omega
    · intro hp
      simp only
      have hs := abs_le.mp (roundHalfEven_spec p)
      by_cases h1 : 1 ≤ roundHalfEven p
      · rw [max_eq_right h1]
        have e : ((roundHalfEven p).toNat : ℚ) = roundHalfEven p := by
          have : (((roundHalfEven p).toNat : ℤ) : ℚ) = roundHalfEven p := by
            rw [Int.toNat_of_nonneg (by omega)]
          exact_mod_cast this
        rw [e]
        exact roundHalfEven_spec p
      · have h0 : roundHalfEven p ≤ 0 := by omega
        have h0' : (roundHalfEven p : ℚ) ≤ 0 := by exact_mod_cast h0
        have : p = 1 / 2 := by linarith [hs.2]
        rw [max_eq_left (by omega), this]
        norm_num
    · intro hp
      simp only
      have : roundHalfEven p ≤ 1 := by
        have hs := abs_le.mp (roundHalfEven_spec p)
        have : (roundHalfEven p : ℚ) ≤ 1 := by linarith [hs.1]
        exact_mod_cast this
      rw [max_eq_left this]
      rfl
    · intro n hn hp
      simp only
      have : roundHalfEven p = n := by
        rw [hp]; exact_mod_cast roundHalfEven_int n
      rw [this]
      omega
    · intro i
      simp only [Diag.writes, Bool.and_eq_true, beq_iff_eq, decide_eq_true_eq, and_assoc]
      refine and_congr ?_ (and_congr Iff.rfl ?_)
      · rw [← Nat.dvd_iff_mod_eq_zero]
        exact ⟨fun ⟨k, hk⟩ => ⟨k, by rw [hk, Nat.mul_comm]⟩, fun ⟨k, hk⟩ => ⟨k, by rw [hk, Nat.mul_comm]⟩⟩
      · cases imax <;> simp
  cases period with
  | none =>
    cases dtPeriod with
    | none => exact Or.inl ⟨rfl, _, rfl⟩
    | some dp =>
      obtain ⟨D, hD, h⟩ := key (dp / dtSim)
      exact Or.inr ⟨_, D, Or.inr ⟨dp, rfl, rfl, rfl⟩, by rw [hD]; rfl, h⟩
  | some p =>
    cases dtPeriod with
    | none =>
      obtain ⟨D, hD, h⟩ := key p
      exact Or.inr ⟨_, D, Or.inl ⟨rfl, rfl⟩, by rw [hD]; rfl, h⟩
    | some dp => exact Or.inl ⟨rfl, _, rfl⟩

/-- **C42**, with C41: the outputs of a run, each written once. -/
theorem C42_run (c : Cfg K) (d : Dynamics K) (hp : c.exchangePeriod ≠ 0) (L : List (ℕ × Opts))
    (ha : ∀ x ∈ L, Accepted c x.2) (w : World K) (hlog : w.log = []) (D : Diag) :
    ∃ w', World.calls c d L w = .ok w' ∧
      (((diagWrites w'.log).map Prod.fst).filter D.writes).Nodup ∧
      (∀ i, i ∈ ((diagWrites w'.log).map Prod.fst).filter D.writes ↔
        (w.iteration ≤ i ∧ i < w.iteration + (L.map Prod.fst).sum) ∧ D.period ∣ i ∧
          D.iterationMin ≤ i ∧ ∀ m, D.iterationMax = some m → (i : ℤ) < m) ∧
      ((checkpointWrites w'.log).filter D.writes).Nodup ∧
      (∀ i, i ∈ (checkpointWrites w'.log).filter D.writes ↔
        (w.iteration + 1 ≤ i ∧ i < w.iteration + 1 + (L.map Prod.fst).sum) ∧ D.period ∣ i ∧
          D.iterationMin ≤ i ∧ ∀ m, D.iterationMax = some m → (i : ℤ) < m) := by
  have hw : ∀ i : ℕ, D.writes i = true ↔ D.period ∣ i ∧
          D.iterationMin ≤ i ∧ ∀ m, D.iterationMax = some m → (i : ℤ) < m := by
    intro i
    simp only [Diag.writes, Bool.and_eq_true, beq_iff_eq, decide_eq_true_eq, and_assoc,
      ← Nat.dvd_iff_mod_eq_zero]
    refine and_congr Iff.rfl (and_congr Iff.rfl ?_)
    cases D.iterationMax <;> simp
  obtain ⟨w', h1, h2, h3⟩ := C41_iterations c d hp L ha w
  rw [hlog] at h2 h3
  simp only [diagWrites, checkpointWrites, List.filterMap_nil, List.map_nil, List.nil_append] at h2 h3
  refine ⟨w', h1, ?_, ?_, ?_, ?_⟩
  · rw [diagWrites, h2]; exact List.Nodup.filter _ List.nodup_range'
  · intro i
    rw [diagWrites, h2, List.mem_filter, hw, List.mem_range'_1]
  · rw [checkpointWrites, h3]; exact List.Nodup.filter _ List.nodup_range'
  · intro i
    rw [checkpointWrites, h3, List.mem_filter, hw, List.mem_range'_1]

/-! ### Concrete cases -/

/-- A multi-rank run with cross-deposition and the Galilean scheme. -/
def exStepCfg : Cfg ℚ :=
  { dt := 1 / 2, size := 2, exchangePeriod := 3, crossDep := true, useGalilean := true, vComoving := -1 / 3,
    movingWin := true }

def exStepDyn : Dynamics ℚ :=
  { pushP := fun t x v => ⟨v.x + t, v.y, v.z + x.x⟩, elementary := fun _ _ v => v,
    exchange := fun t x => ⟨x.x, x.y, if x.z > t + 10 then x.z - 10 else x.z⟩,
    antenna := fun t => ⟨t, 0, 0⟩ }

def exStepWorld : World ℚ :=
  { iteration := 2, time := 1, pos := ⟨1, 0, 0⟩, vel := ⟨0, 1 / 2, 1⟩, apos := ⟨0, 0, 0⟩, avel := ⟨0, 0, 0⟩,
    grid := 0, src := {}, flags := {}, log := [] }

example : ∀ x ∈ [(2, ({} : Opts)), (3, { correctCurrents := false, useTrueRho := true, moveMomenta := false })],
    Accepted exStepCfg x.2 := by
  simp [Accepted]

example : exStepCfg.exchangePeriod ≠ 0 := by simp [exStepCfg]

def exStepRun : Option (World ℚ) :=
  (World.calls exStepCfg exStepDyn [(2, {}),
    (3, { correctCurrents := false, useTrueRho := true, moveMomenta := false })] exStepWorld).toOption

example : (exStepRun.map fun w => (w.iteration, (pushes w.log).length, (diagWrites w.log).map Prod.fst,
    checkpointWrites w.log)) = some (7, 5, [2, 3, 4, 5, 6], [3, 4, 5, 6, 7]) := by
  decide +kernel

example : (exStepRun.map fun w => w.time :: momentumPushes w.log) = some [7 / 2, 5 / 4, 7 / 4] := by
  decide +kernel

/-- The options that the sanity checks refuse would make an assertion fail. -/
example : ((exStepWorld.iter exStepCfg { useTrueRho := true } exStepDyn 0).toOption.isSome) = false := by
  decide +kernel

example : (mkDiag (some 50) none 1 0 (some 200)).toOption.map
    (fun D => (List.range 300).filter D.writes) = some [0, 50, 100, 150] := by
  decide +kernel

end Fbpic
