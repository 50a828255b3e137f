import Verif.Lemmas.MovingWindow
import Verif.Props.GridPosition

/-!
# C11: the moving window follows its prescribed motion
-/

namespace Fbpic

variable {K : Type} [Field K] [LinearOrder K] [IsStrictOrderedRing K] [FloorRing K]

/-- **C11.** Set a window of speed `v` at time `t0`, let any history of `move_grids` calls (any
times) and Galilean shifts follow; right after a `move_grids` call at time `t` the global domain
starts, on every rank, within less than one cell of `z_start + v*(t - t0 + dt)`. -/
theorem C11_within_one_cell (c : Comm) (z0 dz : K) (hdz : 0 < dz) (g : ℕ → InterpGrid K)
    (hinit : ∀ r < c.size, initGrid c z0 dz r = .ok (g r))
    (pre : List (PosOp K)) (w w2 : World K)
    (hpre : World.run c dz (World.start z0 g) pre = .ok w)
    (v t0 dt t : K) (ops : List (PosOp K)) (hops : ∀ o ∈ ops, o.notSet)
    (hrun : World.run c dz w (.setWindow v t0 dt :: (ops ++ [.move t])) = .ok w2) (r : ℕ) :
    |w2.zminG r - (w.zminG r + v * (t - t0 + dt))| < dz := by
  -- state after `set_moving_window`
  simp only [World.run, bind, Except.bind] at hrun
  cases hs : w.step c dz (.setWindow v t0 dt) with
  | error e => simp [hs] at hrun
  | ok w1 =>
    simp only [hs] at hrun
    have hw1 := step_setWindow hs
    have hw1' : ∃ win, w1.win = some win ∧ win.v = v ∧
        win.zmin = w.zminG 0 + v * (win.tLast - (t0 - dt)) := by
      rw [hw1]; exact ⟨_, rfl, rfl, by simp⟩
    rw [World.run_append] at hrun
    cases hm : World.run c dz w1 ops with
    | error e => simp [hm, Except.bind] at hrun
    | ok w3 =>
      simp only [hm, Except.bind] at hrun
      obtain ⟨win, e1, e2, e3⟩ := World.run_win hops hw1' hm
      obtain ⟨n, hn, hmv⟩ := moveGrids_eq c dz w3 win e1 t
      simp only [World.run, World.step, e1, hmv, Option.isNone_some, Bool.false_eq_true, if_false,
        bind, Except.bind, pure, Except.pure, Except.ok.injEq] at hrun
      have inv : w.Inv c dz := World.inv_run (World.inv_start hinit) hpre
      have inv1 : w1.Inv c dz := World.inv_step inv hs
      obtain ⟨Z3, hZ3, _⟩ := World.inv_run inv1 hm
      obtain ⟨Z, hZ, _⟩ := inv
      subst hrun
      simp only
      rw [hZ3 r, hn, hZ3 0, hZ r]
      have key := abs_sub_shift_lt hdz (win.zmin + win.v * (t - win.tLast)) Z3
      have e : win.zmin + win.v * (t - win.tLast) = Z + v * (t - t0 + dt) := by
        rw [e3, e2, hZ 0]; ring
      rw [e] at key ⊢
      exact key

/-- **C11** (whole cells): without Galilean shifts the global domain and the grids of all ranks and
modes are displaced by the same whole number of cells. -/
theorem C11_whole_cells (c : Comm) (z0 dz : K) (g : ℕ → InterpGrid K)
    (hinit : ∀ r < c.size, initGrid c z0 dz r = .ok (g r))
    (pre : List (PosOp K)) (w w2 : World K)
    (hpre : World.run c dz (World.start z0 g) pre = .ok w)
    (ops : List (PosOp K)) (hops : ∀ o ∈ ops, o.isMove)
    (hrun : World.run c dz w ops = .ok w2) :
    ∃ n : ℤ, (∀ r, w2.zminG r = w.zminG r + n * dz) ∧
      ∀ r < c.size, ∀ m, (w2.interp r m).zmin = (w.interp r m).zmin + n * dz ∧
        (w2.interp r m).zmax = (w.interp r m).zmax + n * dz := by
  have inv : w.Inv c dz := World.inv_run (World.inv_start hinit) hpre
  clear hpre
  induction ops generalizing w with
  | nil => cases hrun; exact ⟨0, by simp⟩
  | cons o os ih =>
    simp only [World.run, bind, Except.bind] at hrun
    cases hs : w.step c dz o with
    | error e => simp [hs] at hrun
    | ok w1 =>
      simp only [hs] at hrun
      obtain ⟨n1, hn1, hn2⟩ := ih w1 (fun o h => hops o (List.mem_cons_of_mem _ h)) hrun
        (World.inv_step inv hs)
      cases o with
      | setWindow v t dt => exact absurd (hops _ List.mem_cons_self) (by simp [PosOp.isMove])
      | galilean v dt => exact absurd (hops _ List.mem_cons_self) (by simp [PosOp.isMove])
      | move t =>
        cases hw : w.win with
        | none =>
          simp only [World.step, hw, Option.isNone_none, if_true, pure, Except.pure,
            Except.ok.injEq] at hs
          subst hs; exact ⟨n1, hn1, hn2⟩
        | some win =>
          obtain ⟨n, _, hmv⟩ := moveGrids_eq c dz w win hw t
          simp only [World.step, hw, hmv, Option.isNone_some, Bool.false_eq_true, if_false,
            bind, Except.bind, pure, Except.pure, Except.ok.injEq] at hs
          obtain ⟨Z, hZ, hI⟩ := inv
          subst hs
          refine ⟨n + n1, fun r => ?_, fun r hr m => ?_⟩
          · rw [hn1]; push_cast; ring
          · obtain ⟨N, iz, h1, h2, h3⟩ := hI r hr m
            obtain ⟨q1, q2⟩ := hn2 r hr m
            simp only [h3] at q1 q2 ⊢
            rw [q1, q2]; push_cast
            constructor <;> ring

/-- **C11** (never backwards): with `v ≥ 0` and `move_grids` called at non-decreasing times not
before `t0 - dt`, the window never moves backwards. -/
theorem C11_monotone (c : Comm) (dz : K) (hdz : 0 < dz) (w w1 : World K)
    (v t0 dt : K) (hv : 0 ≤ v) (hset : w.step c dz (.setWindow v t0 dt) = .ok w1)
    (times : List K) (hmono : ((t0 - dt) :: times).IsChain (· ≤ ·)) (t : K)
    (ht : (((t0 - dt) :: times).getLast (by simp)) ≤ t) (w2 w3 : World K)
    (hrun : World.run c dz w1 (times.map .move) = .ok w2)
    (hnext : w2.step c dz (.move t) = .ok w3) (r : ℕ) : w2.zminG r ≤ w3.zminG r := by
  -- invariant: the continuous position is ahead of the grid
  have key : ∀ (times : List K) (a : K) (wa wb : World K) (win : MovWin K),
      wa.win = some win → win.v = v → win.tLast = a → wa.zminG 0 ≤ win.zmin →
      (a :: times).IsChain (· ≤ ·) → World.run c dz wa (times.map .move) = .ok wb →
      ∃ win', wb.win = some win' ∧ win'.v = v ∧
        win'.tLast = (a :: times).getLast (by simp) ∧ wb.zminG 0 ≤ win'.zmin := by
    intro times
    induction times with
    | nil =>
      intro a wa wb win h1 h2 h3 h4 _ h6
      cases h6; exact ⟨win, h1, h2, by simpa using h3, h4⟩
    | cons b bs ih =>
      intro a wa wb win h1 h2 h3 h4 h5 h6
      obtain ⟨n, hn, hmv⟩ := moveGrids_eq c dz wa win h1 b
      simp only [List.map_cons, World.run, World.step, h1, hmv, Option.isNone_some,
        Bool.false_eq_true, if_false, bind, Except.bind, pure, Except.pure] at h6
      have hab : a ≤ b := by
        rw [List.isChain_cons_cons] at h5; exact h5.1
      have hch : (b :: bs).IsChain (· ≤ ·) := by
        rw [List.isChain_cons_cons] at h5; exact h5.2
      have hge : 0 ≤ (win.zmin + win.v * (b - win.tLast) - wa.zminG 0) / dz := by
        apply div_nonneg _ hdz.le
        have : 0 ≤ v * (b - a) := mul_nonneg hv (by linarith)
        rw [h2, h3]; linarith
      have hle : (n : K) * dz ≤ win.zmin + win.v * (b - win.tLast) - wa.zminG 0 := by
        rw [hn, pyInt_of_nonneg hge]
        have := Int.floor_le ((win.zmin + win.v * (b - win.tLast) - wa.zminG 0) / dz)
        rwa [le_div_iff₀ hdz] at this
      have := ih b _ wb ⟨win.v, b, win.zmin + win.v * (b - win.tLast)⟩ rfl h2 rfl
        (by simp only; linarith) hch h6
      simpa using this
  have hw1 := step_setWindow hset
  obtain ⟨win, e1, e2, e3, e4⟩ := key times (t0 - dt) w1 w2 ⟨v, t0 - dt, w.zminG 0⟩
    (by rw [hw1]) rfl rfl (by rw [hw1]) hmono hrun
  obtain ⟨n, hn, hmv⟩ := moveGrids_eq c dz w2 win e1 t
  simp only [World.step, e1, hmv, Option.isNone_some, Bool.false_eq_true, if_false,
    bind, Except.bind, pure, Except.pure, Except.ok.injEq] at hnext
  subst hnext
  simp only
  have : 0 ≤ n := by
    rw [hn]; apply pyInt_nonneg
    apply div_nonneg _ hdz.le
    have : 0 ≤ v * (t - win.tLast) := mul_nonneg hv (by rw [e3]; linarith)
    rw [e2]; linarith
  have : (0 : K) ≤ (n : K) * dz := mul_nonneg (by exact_mod_cast this) hdz.le
  linarith

/-- **C11** (total): with open boundaries no operation of a history raises. -/
theorem C11_total (c : Comm) (hopen : c.bz = .opened) (dz : K) (ops : List (PosOp K)) :
    ∀ w : World K, ∃ w', World.run c dz w ops = .ok w' := by
  induction ops with
  | nil => intro w; exact ⟨w, rfl⟩
  | cons o os ih =>
    intro w
    have : ∃ w1, w.step c dz o = .ok w1 := by
      cases o with
      | setWindow v t dt =>
        simp only [World.step, mkMovWin, movWin_open c hopen, Comm.getZminZmax_phys, bind,
          Except.bind, pure, Except.pure, Bool.false_eq_true, if_false]
        exact ⟨_, rfl⟩
      | galilean v dt => exact World.step_notSet_ok c dz w _ (by simp [PosOp.notSet])
      | move t => exact World.step_notSet_ok c dz w _ (by simp [PosOp.notSet])
    obtain ⟨w1, h1⟩ := this
    obtain ⟨w2, h2⟩ := ih w1
    exact ⟨w2, by simp [World.run, h1, bind, Except.bind, h2]⟩

/-- **C11** (rejection): a moving window with periodic boundaries raises a `ValueError`. -/
theorem C11_periodic_rejected (c : Comm) (hs : 0 < c.size) (hp : c.bz = .periodic) (dz : K)
    (w : World K) (v t0 dt : K) : ∃ m, w.step c dz (.setWindow v t0 dt) = .error (.valueError m) := by
  have : (List.range c.size).any (movWinRaises c) = true := by
    rw [List.any_eq_true]
    exact ⟨0, by simpa using hs, by simp [movWinRaises, Comm.leftProc, hp]⟩
  simp [World.step, mkMovWin, this, bind, Except.bind, throw, throwThe, MonadExceptOf.throw]

/-- Non-vacuity of the C11 hypotheses: after a Galilean shift, the window of speed 3 set at time 0
with dt = 1 is moved at times 1 and 5/2; ideal start -> 1/2 + 3*(5/2 + 1) = 11, grid at 10.5. -/
example : (∀ r < exComm.size, initGrid exComm (0 : ℚ) 1 r = .ok (exGrid r)) ∧
    ((World.run exComm (1 : ℚ) (World.start 0 exGrid) [.galilean (1/2) 1]).bind (fun w =>
      World.run exComm (1 : ℚ) w (.setWindow 3 0 1 :: ([.move 1] ++ [.move (5/2)])))).map
        (fun w => w.zminG 1) = .ok (1/2 + 10) := by
  refine ⟨?_, by decide +kernel⟩
  intro r hr
  have : r = 0 ∨ r = 1 := by simp [exComm] at hr; omega
  rcases this with rfl | rfl <;> decide +kernel

end Fbpic
