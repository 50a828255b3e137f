import Verif.Model.SortFlag
import Verif.Lemmas.Tactics

/-! Lemmas on the flag `sorted` along the PIC cycle. -/

namespace Fbpic.Step

variable {K : Type} [Field K] (E : SortEnv K)

/-- Every deposition so far used a prefix sum computed for the grid it deposits onto. -/
def SortState.Good (s : SortState) : Prop := ∀ u ∈ s.used, u.1 = u.2

/-- The next deposition will. -/
def SortState.Fresh (s : SortState) : Prop := s.sorted = true → s.sortedFor = s.grid

theorem replay_snoc (l : List (Ev K)) (e : Ev K) :
    SortState.replay E (l ++ [e]) = SortState.ev E (SortState.replay E l) e := by
  simp [SortState.replay, List.foldl_append]

theorem ev_elementary (s : SortState) (t : K) : SortState.ev E s (.elementary t)
    = if E.creates t then { s with sorted := false } else s := rfl

theorem ev_moveGrids (s : SortState) (t : K) : SortState.ev E s (.moveGrids t)
    = if E.moves t then { s with grid := s.grid + 1 } else s := rfl

theorem ev_exchange (s : SortState) (t : K) : SortState.ev E s (.exchangeParticles t)
    = if E.buffers then { s with sorted := false } else s := rfl

theorem ev_diagWrite (s : SortState) (i : ℕ) (x : Sources K) (y : Flags) :
    SortState.ev E s (.diagWrite i x y) = if E.sorts i then s.sort else s := rfl

theorem good_sort (s : SortState) (h : s.Good) : s.sort.Good := by
  unfold SortState.sort; split_ifs <;> exact h

/-- The state of the flag in a world. -/
def World.st (w : World K) : SortState := SortState.replay E w.log

theorem st_emit (w : World K) (e : Ev K) : (w.emit e).st E = SortState.ev E (w.st E) e :=
  replay_snoc E w.log e

theorem st_deposit (w : World K) (f : Src) (x : Bool) :
    (w.deposit f x).st E = SortState.ev E (w.st E) (.deposit f x) := by
  cases f <;> exact replay_snoc E w.log _

theorem st_pushX (w : World K) (dt x y z : K) :
    (w.pushX dt x y z).st E = { w.st E with sorted := false } := replay_snoc E w.log _

theorem st_antennaX (w : World K) (dt x y z : K) : (w.antennaX dt x y z).st E = w.st E :=
  replay_snoc E w.log _

theorem st_shiftIf (c : Cfg K) (w : World K) (dt : K) : (w.shiftIf c dt).st E
    = if c.useGalilean then { w.st E with grid := (w.st E).grid + 1 } else w.st E := by
  unfold World.shiftIf
  by_cases h : c.useGalilean = true
  · rw [if_pos h, if_pos h]; exact replay_snoc E w.log _
  · rw [if_neg h, if_neg h]

/-- A deposition with fresh arrays. -/
theorem good_deposit (s : SortState) (f : Src) (x : Bool) (hg : s.Good) (hf : s.Fresh) :
    (SortState.ev E s (.deposit f x)).Good ∧ (SortState.ev E s (.deposit f x)).Fresh := by
  unfold SortState.Good SortState.Fresh SortState.ev SortState.sort at *
  cases hs : s.sorted
  · simp only [Bool.false_eq_true, if_false, List.mem_append, List.mem_singleton]
    refine ⟨?_, fun _ => by trivial⟩
    rintro u (hu | rfl)
    · exact hg u hu
    · simp
  · simp only [if_true, List.mem_append, List.mem_singleton]
    have h := hf hs
    refine ⟨?_, fun _ => h⟩
    rintro u (hu | rfl)
    · exact hg u hu
    · exact h.symm

/-- Position push, displacement of the grid and antenna: the arrays will be sorted again. -/
theorem good_move (c : Cfg K) (w : World K) (hg : (w.st E).Good) (a1 a2 a3 a4 b1 b2 b3 b4 d : K) :
    ((((w.pushX a1 a2 a3 a4).antennaX b1 b2 b3 b4).shiftIf c d).st E).Good ∧
    ((((w.pushX a1 a2 a3 a4).antennaX b1 b2 b3 b4).shiftIf c d).st E).sorted = false := by
  rw [st_shiftIf, st_antennaX, st_pushX]
  split_ifs <;> exact ⟨hg, rfl⟩

theorem fresh_of_unsorted {s : SortState} (h : s.sorted = false) : s.Fresh := by
  intro h'; rw [h] at h'; cases h'

theorem good_crossDeposit (c : Cfg K) (w : World K) (hg : (w.st E).Good) :
    ((w.crossDeposit c true).st E).Good := by
  unfold World.crossDeposit
  simp only [if_true]
  obtain ⟨h1, h2⟩ := good_move E c w hg (1 / 2 * c.dt) 1 1 (-1) (1 / 2 * c.dt) 1 1 (-1) (-(1 / 2) * c.dt)
  have h3 := (good_deposit E _ .rhoNextXY false h1 (fresh_of_unsorted h2)).1
  rw [← st_deposit] at h3
  obtain ⟨h4, h5⟩ := good_move E c _ h3 c.dt (-1) (-1) 1 c.dt (-1) (-1) 1 c.dt
  have h6 := (good_deposit E _ .rhoNextZ false h4 (fresh_of_unsorted h5)).1
  rw [← st_deposit] at h6
  exact (good_move E c _ h6 (1 / 2 * c.dt) 1 1 (-1) (1 / 2 * c.dt) 1 1 (-1) (-(1 / 2) * c.dt)).1

theorem good_iterDeposit (c : Cfg K) (o : Opts) (ho : o.movePositions = true) (w : World K)
    (hg : (w.st E).Good) (hf : (w.st E).Fresh) :
    ((w.iterDeposit c o).st E).Good ∧ ((w.iterDeposit c o).st E).Fresh := by
  unfold World.iterDeposit
  simp only [ho, if_true]
  have h1 := (good_deposit E _ .J (!o.correctCurrents) hg hf).1
  rw [← st_deposit] at h1
  have h2 : ((if (o.correctCurrents && c.crossDep) = true
      then (w.deposit .J (!o.correctCurrents)).crossDeposit c true
      else w.deposit .J (!o.correctCurrents)).st E).Good := by
    split_ifs
    · exact good_crossDeposit E c _ h1
    · exact h1
  obtain ⟨h3, h4⟩ := good_move E c _ h2 (1 / 2 * c.dt) 1 1 1 (1 / 2 * c.dt) 1 1 1 (1 / 2 * c.dt)
  have h5 := good_deposit E _ .rhoNext o.useTrueRho h3 (fresh_of_unsorted h4)
  rw [← st_deposit] at h5
  exact h5

theorem good_iterHalf (c : Cfg K) (o : Opts) (ho : o.movePositions = true) (d : Dynamics K)
    (w : World K) (hg : (w.st E).Good) :
    ((w.iterHalf c o d).st E).Good ∧ ((w.iterHalf c o d).st E).Fresh := by
  unfold World.iterHalf
  simp only [ho, if_true]
  set tHalf := w.time + 1 / 2 * c.dt
  set w1 : World K := if o.moveMomenta then
      { w with vel := d.pushP tHalf w.pos w.vel }.emit (.pushP tHalf) else w with hw1
  have e1 : w1.st E = w.st E := by
    rw [hw1]; split_ifs
    · exact replay_snoc E w.log _
    · rfl
  set w2 := w1.pushX (1 / 2 * c.dt) 1 1 1 with hw2
  have e2 : w2.st E = { w.st E with sorted := false } := by rw [hw2, st_pushX, e1]
  set w3 : World K := { w2 with avel := d.antenna tHalf }.emit (.antennaV tHalf) with hw3
  have e3 : w3.st E = { w.st E with sorted := false } := by
    rw [← e2]; exact replay_snoc E w2.log _
  set w4 := (w3.antennaX (1 / 2 * c.dt) 1 1 1).shiftIf c (1 / 2 * c.dt) with hw4
  have e4 : (w4.st E).Good ∧ (w4.st E).sorted = false := by
    rw [hw4, st_shiftIf, st_antennaX, e3]
    split_ifs <;> exact ⟨hg, rfl⟩
  have e5 : ({ w4 with vel := d.elementary tHalf w4.pos w4.vel }.emit (.elementary tHalf)).st E
      = SortState.ev E (w4.st E) (.elementary tHalf) := replay_snoc E w4.log _
  rw [e5, ev_elementary]
  split_ifs
  · exact ⟨e4.1, fresh_of_unsorted rfl⟩
  · exact ⟨e4.1, fresh_of_unsorted e4.2⟩

theorem good_iterStart (c : Cfg K) (o : Opts) (d : Dynamics K) (i : ℕ) (w : World K)
    (hwin : c.movingWin = true → E.buffers = true) (hg : (w.st E).Good)
    (hf : c.movingWin = false → (w.st E).Fresh) : ((w.iterStart c o d i).st E).Good := by
  have tail : ∀ w : World K, (w.st E).Good →
      ((((w.emit .gather).emit (.externalFields (w.emit .gather).time)).emit
        (.diagWrite ((w.emit .gather).emit (.externalFields (w.emit .gather).time)).iteration
          ((w.emit .gather).emit (.externalFields (w.emit .gather).time)).src
          ((w.emit .gather).emit (.externalFields (w.emit .gather).time)).flags)).st E).Good := by
    intro w hw
    rw [st_emit, ev_diagWrite, st_emit, st_emit]
    split_ifs
    · exact good_sort _ hw
    · exact hw
  unfold World.iterStart
  simp only []
  apply tail
  have hex : ((({ w with pos := d.exchange w.time w.pos } : World K).emit
      (.exchangeParticles w.time)).deposit .rhoPrev o.useTrueRho |>.st E).Good ∧
      ((({ w with pos := d.exchange w.time w.pos } : World K).emit
      (.exchangeParticles w.time)).deposit .rhoPrev o.useTrueRho |>.st E).Fresh := by
    rw [st_deposit, st_emit]
    have e : ({ w with pos := d.exchange w.time w.pos } : World K).st E = w.st E := rfl
    rw [e]
    apply good_deposit
    · rw [ev_exchange]; split_ifs <;> exact hg
    · rw [ev_exchange]
      by_cases hb : E.buffers = true
      · simp only [hb, if_true]
        exact fresh_of_unsorted rfl
      · simp only [hb, if_false]
        apply hf
        cases hm : c.movingWin
        · rfl
        · exact absurd (hwin hm) hb
  by_cases hi : i = 0
  · rw [if_pos hi, if_pos (Or.inr hi)]
    have := (good_deposit E _ .J true hex.1 hex.2).1
    rw [← st_deposit] at this
    exact this
  · rw [if_neg hi]
    split_ifs
    · exact hex.1
    · exact hg

theorem good_iterEnd (c : Cfg K) (o : Opts) (w w' : World K) (h : w.iterEnd c o = .ok w')
    (hg : (w.st E).Good) (hf : (w.st E).Fresh) :
    (w'.st E).Good ∧ (c.movingWin = false → (w'.st E).Fresh) := by
  -- the correction of the currents and the push do not touch the flag
  have hcc : ∀ (b : Bool) (w w' : World K), w.correctCurrents c b = .ok w' → w'.st E = w.st E := by
    intro b w w' h
    have : w' = w.emit (.correctCurrents w.src) := by
      unfold World.correctCurrents World.assert World.rhoNextFlag at h
      simp only [bind, Except.bind, pure, Except.pure] at h
      revert h
      repeat' split
      all_goals intro h
      all_goals first
        | (cases h; rfl)
        | (simp_all; try (exact h.symm))
    rw [this, st_emit]; rfl
  have hpu : ∀ (a b : Bool) (w w' : World K), w.push a b = .ok w' → w'.st E = w.st E := by
    intro a b w w' h
    have : w'.log = w.log ++ [.push w.src] := by
      unfold World.push World.assert World.rhoNextFlag at h
      simp only [bind, Except.bind, pure, Except.pure] at h
      revert h
      repeat' split
      all_goals intro h
      all_goals first
        | (cases h; rfl)
        | (simp_all; try (rw [← h]; rfl))
    unfold World.st
    rw [this, replay_snoc]; rfl
  have hbind : ∀ {α β : Type} (x : Except PyErr α) (f : α → Except PyErr β) (b : β),
      (x >>= f) = .ok b → ∃ a, x = .ok a ∧ f a = .ok b := by
    intro α β x f b h
    cases x with
    | error e => cases h
    | ok a => exact ⟨a, rfl, h⟩
  unfold World.iterEnd at h
  obtain ⟨w1, h1, h⟩ := hbind _ _ _ h
  obtain ⟨w2, h2, h⟩ := hbind _ _ _ h
  have e1 : w1.st E = w.st E := by
    by_cases hc : o.correctCurrents = true
    · rw [if_pos hc] at h1
      obtain ⟨w3, h3, h4⟩ := hbind _ _ _ h1
      rw [← hcc _ _ _ h3]
      cases h4
      by_cases hs : c.size > 1
      · simp only [hs, if_true]
        exact replay_snoc E w3.log _
      · simp only [hs, if_false]
        rfl
    · rw [if_neg hc] at h1
      cases h1
      rfl
  have e2 : w2.st E = w.st E := (hpu _ _ _ _ h2).trans e1
  simp only [] at h
  cases h
  set w3 := if o.correctDivE = true then w2.emit .correctDivE else w2 with hw3
  have e3 : w3.st E = w.st E := by
    rw [hw3, ← e2]
    split_ifs
    · exact replay_snoc E w2.log _
    · rfl
  set w4 := if c.movingWin = true then w3.emit (.moveGrids w3.time) else w3 with hw4
  have e4 : (w4.st E).Good ∧ (c.movingWin = false → (w4.st E).Fresh) := by
    rw [hw4]
    by_cases hm : c.movingWin = true
    · rw [if_pos hm, st_emit, e3, ev_moveGrids]
      refine ⟨by split_ifs <;> exact hg, ?_⟩
      intro h; rw [hm] at h; cases h
    · rw [if_neg hm, e3]
      exact ⟨hg, fun _ => hf⟩
  set w5 := w4.emit .exchangeAndDampEB with hw5
  have e5 : w5.st E = w4.st E := replay_snoc E w4.log _
  rw [← e5] at e4
  have e6 : ∀ (v : World K) (k : ℕ), v.log = w5.log → (v.emit (.checkpointWrite k)).st E = w5.st E := by
    intro v k hv
    rw [st_emit]
    unfold World.st
    rw [hv]; rfl
  have e7 := e6 { w5 with time := w5.time + c.dt, iteration := w5.iteration + 1 } (w5.iteration + 1) rfl
  refine ⟨?_, fun hm => ?_⟩
  · exact e7 ▸ e4.1
  · exact e7 ▸ e4.2 hm

theorem good_loop (c : Cfg K) (o : Opts) (ho : o.movePositions = true) (d : Dynamics K)
    (hwin : c.movingWin = true → E.buffers = true) :
    ∀ (n i : ℕ) (w w' : World K), World.loop c o d i n w = .ok w' → (w.st E).Good →
      (c.movingWin = false → (w.st E).Fresh) →
      (w'.st E).Good ∧ (c.movingWin = false → (w'.st E).Fresh) := by
  intro n
  induction n with
  | zero =>
    intro i w w' h hg hf
    cases h
    exact ⟨hg, hf⟩
  | succ n ih =>
    intro i w w' h hg hf
    unfold World.loop at h
    cases h1 : w.iter c o d i with
    | error e => rw [h1] at h; cases h
    | ok w1 =>
      rw [h1] at h
      have h2 : World.loop c o d (i + 1) n w1 = .ok w' := h
      unfold World.iter at h1
      by_cases hp : c.exchangePeriod = 0
      · rw [if_pos hp] at h1; cases h1
      · rw [if_neg hp] at h1
        have g1 := good_iterStart E c o d i w hwin hg hf
        have g2 := good_iterHalf E c o ho d _ g1
        have g3 := good_iterDeposit E c o ho _ g2.1 g2.2
        have g4 := good_iterEnd E c o _ _ h1 g3.1 g3.2
        exact ih _ _ _ h2 g4.1 g4.2

theorem good_step (c : Cfg K) (o : Opts) (ho : o.movePositions = true) (d : Dynamics K)
    (hwin : c.movingWin = true → E.buffers = true) (N : ℕ) (w w' : World K)
    (h : World.step c d N o w = .ok w') (hg : (w.st E).Good) (hf : c.movingWin = false → (w.st E).Fresh) :
    (w'.st E).Good ∧ (c.movingWin = false → (w'.st E).Fresh) := by
  unfold World.step at h
  split_ifs at h
  simp only [] at h
  cases h1 : World.loop c o d 0 N (w.emit .startFields) with
  | error e => rw [h1] at h; cases h
  | ok w1 =>
    rw [h1] at h
    cases h
    have e : (w.emit .startFields).st E = w.st E := replay_snoc E w.log _
    have := good_loop E c o ho d hwin N 0 _ _ h1 (by rw [e]; exact hg) (by rw [e]; exact hf)
    rw [st_emit]
    exact this

theorem good_calls (c : Cfg K) (d : Dynamics K) (hwin : c.movingWin = true → E.buffers = true) :
    ∀ (L : List (ℕ × Opts)), (∀ x ∈ L, x.2.movePositions = true) → ∀ (w w' : World K),
      World.calls c d L w = .ok w' → (w.st E).Good → (c.movingWin = false → (w.st E).Fresh) →
      (w'.st E).Good := by
  intro L
  induction L with
  | nil => intro _ w w' h hg _; cases h; exact hg
  | cons x L ih =>
    intro hL w w' h hg hf
    obtain ⟨n, o⟩ := x
    unfold World.calls at h
    cases h1 : World.step c d n o w with
    | error e => rw [h1] at h; cases h
    | ok w1 =>
      rw [h1] at h
      have g := good_step E c o (hL (n, o) (by simp)) d hwin n w w1 h1 hg hf
      exact ih (fun x hx => hL x (by simp [hx])) w1 w' h g.1 g.2

end Fbpic.Step
