import Verif.Spec.Stretch
import Verif.Lemmas.MovingWindow
import Verif.Props.MovingWindow
import Verif.Props.Deposit

/-!
# C54: between two exchanges the particles stay in the guard region
-/

namespace Fbpic

open Spec
open _root_.Spec

variable {K : Type} [Field K] [LinearOrder K] [IsStrictOrderedRing K] [FloorRing K]

private theorem pyInt_lt_one_iff (x : K) : pyInt x < 1 ↔ x < 1 := by
  by_cases h : 0 ≤ x
  · rw [pyInt_of_nonneg h, Int.floor_lt]; simp
  · have h := not_le.mp h
    rw [pyInt_of_neg h]
    have : ⌈x⌉ ≤ 0 := Int.ceil_le.mpr (by simpa using h.le)
    exact ⟨fun _ => by linarith, fun _ => by omega⟩

/-! ### Accepted parameters -/

/-- **C54** (rejection): without a user-given period the constructor raises exactly if a particle could cross, in a
single time step, half of the guard region minus 3 cells (or if the other arguments are wrong); never for a
single-process periodic box, which has no guard cells. -/
theorem C54_rejected (a : CommArgs K) (bz : ZB) (br : RB) (n : ℕ) (hb : parseBoundaries a.boundaries = .ok (bz, br))
    (hn : initialGuard a = .ok n) (hauto : a.exchangePeriod = none) (hcdt : 0 < a.cdt) (hdz : 0 < a.dz) :
    (∃ msg, mkComm a = .error (.valueError msg)) ↔
      (¬(bz = .periodic ∧ a.size = 1) ∧ ((n : K) / 2 - 3) * a.dz < 2 * a.cdt) := by
  have hq : 0 < 2 * a.cdt / a.dz := by positivity
  simp only [mkComm, hb, hn, initExchangePeriod, hauto, bind, Except.bind, pure, Except.pure]
  by_cases hs : bz = .periodic ∧ a.size = 1
  · simp [hs.1, hs.2]
  · have hs' : ¬ (a.size = 1 ∧ bz = .periodic) := fun h => hs ⟨h.2, h.1⟩
    simp only [hs, hs', if_false, not_false_iff, true_and]
    have key : pyInt (((n : K) / 2 - 3) / (2 * a.cdt / a.dz)) < 1 ↔ ((n : K) / 2 - 3) * a.dz < 2 * a.cdt := by
      rw [pyInt_lt_one_iff, div_lt_one hq, lt_div_iff₀ hdz]
    by_cases hk : ((n : K) / 2 - 3) * a.dz < 2 * a.cdt
    · rw [if_pos (key.2 hk)]
      simp [hk]
    · rw [if_neg (fun h => hk (key.1 h))]
      simp [hk]

/-- What acceptance means: `n_guard/2 - 3` cells are not crossed in `exchange_period` time steps at twice the
speed of light. -/
theorem accepted_period {a : CommArgs K} {c : Comm} (h : mkComm a = .ok c) (hauto : a.exchangePeriod = none)
    (hcdt : 0 < a.cdt) (hdz : 0 < a.dz) (hm : ¬(c.bz = .periodic ∧ c.size = 1)) :
    1 ≤ c.exchangePeriod ∧ (c.exchangePeriod : K) * (2 * a.cdt) ≤ ((c.nGuard : K) / 2 - 3) * a.dz := by
  have hq : 0 < 2 * a.cdt / a.dz := by positivity
  simp only [mkComm, bind, Except.bind, pure, Except.pure] at h
  cases hb : parseBoundaries a.boundaries with
  | error e => simp [hb] at h
  | ok b =>
    cases hn : initialGuard a with
    | error e => simp [hb, hn] at h
    | ok n =>
      simp only [hb, hn, initExchangePeriod, hauto] at h
      generalize hng : (if b.1 = .periodic ∧ a.size = 1 then 0 else n) = ng at h
      split at h
      · simp at h
      · rename_i p hp
        simp only [Except.ok.injEq] at h
        subst h
        simp only at hm ⊢
        have hm' : ¬(a.size = 1 ∧ b.1 = .periodic) := fun h => hm ⟨h.2, h.1⟩
        rw [if_neg hm'] at hp
        split at hp
        · simp at hp
        · rename_i hlt
          simp only [Except.ok.injEq] at hp
          rw [← hp]
          refine ⟨not_lt.mp hlt, ?_⟩
          have h0 : 0 ≤ ((ng : K) / 2 - 3) / (2 * a.cdt / a.dz) := by
            by_contra hneg
            exact hlt ((pyInt_lt_one_iff _).2 (lt_trans (not_le.mp hneg) one_pos))
          rw [pyInt_of_nonneg h0]
          have := Int.floor_le (((ng : K) / 2 - 3) / (2 * a.cdt / a.dz))
          rw [le_div_iff₀ hq] at this
          have e : (2 * a.cdt) = 2 * a.cdt / a.dz * a.dz := by field_simp
          generalize ⌊((ng : K) / 2 - 3) / (2 * a.cdt / a.dz)⌋ = q at this ⊢
          rw [e, ← mul_assoc]
          exact mul_le_mul_of_nonneg_right this hdz.le

/-- **C54** (at least 7 guard cells are needed). -/
theorem C54_enough_cells {a : CommArgs K} {c : Comm} (h : mkComm a = .ok c) (hauto : a.exchangePeriod = none)
    (hcdt : 0 < a.cdt) (hdz : 0 < a.dz) (hm : ¬(c.bz = .periodic ∧ c.size = 1)) : 7 ≤ c.nGuard := by
  obtain ⟨h1, h2⟩ := accepted_period h hauto hcdt hdz hm
  have : (0 : K) < (c.exchangePeriod : K) * (2 * a.cdt) := by
    have : (0 : K) < c.exchangePeriod := by exact_mod_cast (by omega : 0 < c.exchangePeriod)
    positivity
  have h3 : (0 : K) < (c.nGuard : K) / 2 - 3 := by
    by_contra hneg
    have := mul_nonpos_of_nonpos_of_nonneg (not_lt.mp hneg) hdz.le
    linarith
  have h4 : (6 : K) < (c.nGuard : K) := by linarith
  have : 6 < c.nGuard := by exact_mod_cast h4
  omega

/-! ### Displacement of the grid -/

private theorem run_galilean (c : Comm) (dz : K) (vGal : Option K) (dt t : K) (j : ℕ) (cl : K) (hdt : 0 ≤ dt)
    (hcl : 0 ≤ cl) (hv : ∀ v, vGal = some v → |v| ≤ cl) (w : World K) (hj : j < (iterOps vGal dt t).length) :
    ∃ w', World.run c dz w ((iterOps vGal dt t).take j) = .ok w' ∧ w'.win = w.win ∧
      |w'.zminG 0 - w.zminG 0| ≤ cl * dt := by
  have h0 : 0 ≤ cl * dt := mul_nonneg hcl hdt
  cases vGal with
  | none =>
    simp only [iterOps, List.nil_append, List.length_singleton, Nat.lt_one_iff] at hj ⊢
    subst hj
    exact ⟨w, rfl, rfl, by simpa using h0⟩
  | some v =>
    have hvl := hv v rfl
    have hb : |v| * dt ≤ cl * dt := mul_le_mul_of_nonneg_right hvl hdt
    simp only [iterOps] at hj ⊢
    have : j = 0 ∨ j = 1 ∨ j = 2 := by simp at hj; omega
    rcases this with rfl | rfl | rfl
    · exact ⟨w, rfl, rfl, by simpa using h0⟩
    · refine ⟨_, rfl, rfl, ?_⟩
      simp only [shiftGalilean, Comm.shiftGlobalDomainPositions, add_sub_cancel_left, abs_mul]
      rw [abs_of_nonneg (by linarith : 0 ≤ dt / 2)]
      have : 0 ≤ |v| * dt := mul_nonneg (abs_nonneg _) hdt
      linarith
    · refine ⟨_, rfl, rfl, ?_⟩
      simp only [shiftGalilean, Comm.shiftGlobalDomainPositions]
      have : w.zminG 0 + v * (dt / 2) + v * (dt / 2) - w.zminG 0 = v * dt := by ring
      rw [this, abs_mul, abs_of_nonneg hdt]
      exact hb

/-- One iteration. -/
private theorem run_iter (c : Comm) (dz : K) (hdz : 0 < dz) (vGal : Option K) (dt t : K) (cl : K) (hdt : 0 ≤ dt)
    (hcl : 0 ≤ cl) (hv : ∀ v, vGal = some v → |v| ≤ cl) (w : World K) (hs : Synced cl dz dt w t) :
    ∃ w', World.run c dz w (iterOps vGal dt t) = .ok w' ∧ Synced cl dz dt w' (t + dt) ∧
      (w.win = none → w'.win = none ∧ |w'.zminG 0 - w.zminG 0| ≤ cl * dt) ∧
      (∀ win, w.win = some win → ∃ win', w'.win = some win' ∧ win'.v = win.v ∧
        win'.zmin = win.zmin + win.v * dt) := by
  obtain ⟨L, hL⟩ : ∃ L : List (PosOp K), iterOps vGal dt t = L ++ [.move t] := ⟨_, rfl⟩
  have htake : (iterOps vGal dt t).take L.length = L := by rw [hL]; simp
  obtain ⟨w1, h1, h2, h3⟩ := run_galilean c dz vGal dt t L.length cl hdt hcl hv w (by rw [hL]; simp)
  rw [htake] at h1
  rw [hL, World.run_append, h1]
  simp only [Except.bind]
  cases hw : w.win with
  | none =>
    rw [hw] at h2
    refine ⟨w1, ?_, ?_, fun _ => ⟨h2, h3⟩, fun win h => by cases h⟩
    · simp [World.run, World.step, h2, bind, Except.bind, pure, Except.pure]
    · intro win h; rw [h2] at h; cases h
  | some win =>
    rw [hw] at h2
    obtain ⟨e1, e2, e3⟩ := hs win hw
    obtain ⟨n, hn, hmv⟩ := moveGrids_eq c dz w1 win h2 t
    generalize hw2 : (⟨_, _, _⟩ : World K) = w2 at hmv
    have hrun : World.run c dz w1 [.move t] = .ok w2 := by
      simp only [World.run, World.step, h2, hmv, Option.isNone_some, Bool.false_eq_true, if_false, bind,
        Except.bind, pure, Except.pure]
    subst hw2
    refine ⟨_, hrun, ?_, fun h => absurd h (by simp), ?_⟩
    · intro win' h'
      simp only [Option.some.injEq] at h'
      subst h'
      refine ⟨e1, by ring, ?_⟩
      simp only []
      rw [hn]
      exact abs_sub_shift_lt hdz _ _
    · intro win' h'
      simp only [Option.some.injEq] at h'
      subst h'
      refine ⟨_, rfl, rfl, ?_⟩
      simp only [e2]
      ring

/-- `k` iterations. -/
private theorem run_stretch (c : Comm) (dz : K) (hdz : 0 < dz) (vGal : Option K) (dt t : K) (cl : K) (hdt : 0 ≤ dt)
    (hcl : 0 ≤ cl) (hv : ∀ v, vGal = some v → |v| ≤ cl) (w : World K) (hs : Synced cl dz dt w t) (k : ℕ) :
    ∃ w', World.run c dz w (stretchOps vGal dt t k) = .ok w' ∧ Synced cl dz dt w' (t + (k : K) * dt) ∧
      (w.win = none → w'.win = none ∧ |w'.zminG 0 - w.zminG 0| ≤ (k : K) * (cl * dt)) ∧
      (∀ win, w.win = some win → ∃ win', w'.win = some win' ∧ win'.v = win.v ∧
        win'.zmin = win.zmin + win.v * ((k : K) * dt)) := by
  induction k with
  | zero =>
    refine ⟨w, rfl, by simpa using hs, fun h => ⟨h, by simp⟩, fun win h => ⟨win, h, rfl, by simp⟩⟩
  | succ k ih =>
    obtain ⟨w1, h1, h2, h3, h4⟩ := ih
    obtain ⟨w2, g1, g2, g3, g4⟩ := run_iter c dz hdz vGal dt (t + (k : K) * dt) cl hdt hcl hv w1 h2
    refine ⟨w2, ?_, ?_, ?_, ?_⟩
    · rw [stretchOps, List.range_succ, List.flatMap_append, World.run_append]
      change (World.run c dz w (stretchOps vGal dt t k)).bind _ = _
      rw [h1]
      simpa [Except.bind] using g1
    · have : t + ((k + 1 : ℕ) : K) * dt = t + (k : K) * dt + dt := by push_cast; ring
      rw [this]; exact g2
    · intro h
      obtain ⟨a1, a2⟩ := h3 h
      obtain ⟨b1, b2⟩ := g3 a1
      refine ⟨b1, ?_⟩
      have := abs_sub_le (w2.zminG 0) (w1.zminG 0) (w.zminG 0)
      push_cast
      linarith
    · intro win h
      obtain ⟨win1, a1, a2, a3⟩ := h4 win h
      obtain ⟨win2, b1, b2, b3⟩ := g4 win1 a1
      refine ⟨win2, b1, b2.trans a2, ?_⟩
      rw [b3, a3, a2]; push_cast; ring

/-- The grid moves by less than `k` steps at the speed of light plus two cells. -/
private theorem stretch_shift (c : Comm) (dz : K) (hdz : 0 < dz) (vGal : Option K) (dt t : K) (cl : K) (hdt : 0 ≤ dt)
    (hcl : 0 ≤ cl) (hv : ∀ v, vGal = some v → |v| ≤ cl) (w : World K) (hs : Synced cl dz dt w t) (k : ℕ)
    (w' : World K) (hrun : World.run c dz w (stretchOps vGal dt t k) = .ok w') :
    |w'.zminG 0 - w.zminG 0| < (k : K) * (cl * dt) + 2 * dz := by
  obtain ⟨w1, h1, h2, h3, h4⟩ := run_stretch c dz hdz vGal dt t cl hdt hcl hv w hs k
  rw [hrun] at h1; cases h1
  cases hw : w.win with
  | none => have := (h3 hw).2; linarith
  | some win =>
    obtain ⟨win', a1, a2, a3⟩ := h4 win hw
    obtain ⟨b1, -, b3⟩ := hs win hw
    obtain ⟨-, -, c3⟩ := h2 win' a1
    have e : |win'.zmin - win.zmin| ≤ (k : K) * (cl * dt) := by
      rw [a3, add_sub_cancel_left, abs_mul, abs_of_nonneg (by positivity : 0 ≤ (k : K) * dt)]
      have := mul_le_mul_of_nonneg_right b1 (by positivity : 0 ≤ (k : K) * dt)
      linarith
    rw [abs_lt] at *
    rw [abs_le] at e
    constructor <;> linarith

/-- The same at any moment within the iteration that follows. -/
private theorem stretch_shift' (c : Comm) (dz : K) (hdz : 0 < dz) (vGal : Option K) (dt t : K) (cl : K) (hdt : 0 ≤ dt)
    (hcl : 0 ≤ cl) (hv : ∀ v, vGal = some v → |v| ≤ cl) (w : World K) (hs : Synced cl dz dt w t) (k j : ℕ)
    (w' : World K) (hrun : World.run c dz w
      (stretchOps vGal dt t k ++ (iterOps vGal dt (t + (k : K) * dt)).take j) = .ok w') :
    |w'.zminG 0 - w.zminG 0| < ((k : K) + 1) * (cl * dt) + 2 * dz := by
  by_cases hj : j < (iterOps vGal dt (t + (k : K) * dt)).length
  · obtain ⟨w1, h1, h2, h3, h4⟩ := run_stretch c dz hdz vGal dt t cl hdt hcl hv w hs k
    obtain ⟨w2, g1, g2, g3⟩ := run_galilean c dz vGal dt (t + (k : K) * dt) j cl hdt hcl hv w1 hj
    rw [World.run_append, h1] at hrun
    simp only [Except.bind] at hrun
    rw [g1] at hrun; cases hrun
    have a := stretch_shift c dz hdz vGal dt t cl hdt hcl hv w hs k w1 h1
    have := abs_sub_le (w'.zminG 0) (w1.zminG 0) (w.zminG 0)
    linarith
  · rw [List.take_of_length_le (not_lt.mp hj)] at hrun
    have : stretchOps vGal dt t k ++ iterOps vGal dt (t + (k : K) * dt) = stretchOps vGal dt t (k + 1) := by
      rw [stretchOps, stretchOps, List.range_succ, List.flatMap_append]; simp
    rw [this] at hrun
    have := stretch_shift c dz hdz vGal dt t cl hdt hcl hv w hs (k + 1) w' hrun
    push_cast at this
    exact this

/-! ### Particles stay in the guard region -/

theorem Reached.append {a : CommArgs K} {c : Comm} {dz : K} {w w' : World K} (h : Reached a c dz w)
    (ops : List (PosOp K)) (hrun : World.run c dz w ops = .ok w') : Reached a c dz w' := by
  obtain ⟨z0, g, ops0, h1, h2⟩ := h.run
  refine ⟨h.made, h.pos, h.dz_pos, z0, g, ops0 ++ ops, h1, ?_⟩
  rw [World.run_append, h2]
  exact hrun

/-- **C54.** A particle is inside the sub-domain of its rank at an exchange. At any moment before the next
exchange (`k` full iterations and `j` grid displacements of the next one, `k + 1 ≤ exchange_period`), however the
particle moved (not faster than light), whatever Galilean velocity (if any) and moving window (if any), it is
less than `n_guard/2 - 1` cells outside of the sub-domain, which has moved meanwhile. -/
theorem C54_guard_partial {a : CommArgs K} {c : Comm} {dz : K} {w w' : World K} (h : Reached a c dz w) (hdz : a.dz = dz)
    (cl dt : K) (hcl : 0 < cl) (hdt : 0 < dt) (hcdt : a.cdt = cl * dt) (hauto : a.exchangePeriod = none)
    (hm : ¬(c.bz = .periodic ∧ c.size = 1)) (vGal : Option K) (hv : ∀ v, vGal = some v → |v| ≤ cl) (t : K)
    (hs : Synced cl dz dt w t) (k j : ℕ) (hk : (k : ℤ) + 1 ≤ c.exchangePeriod)
    (hrun : World.run c dz w (stretchOps vGal dt t k ++ (iterOps vGal dt (t + (k : K) * dt)).take j) = .ok w')
    (r : ℕ) (lo hi lo' hi' : K)
    (e : c.getZminZmax (w.zminG r) dz true true false (some r) = .ok (lo, hi))
    (e' : c.getZminZmax (w'.zminG r) dz true true false (some r) = .ok (lo', hi'))
    (z z' : K) (hz : lo ≤ z ∧ z ≤ hi) (hmove : |z' - z| ≤ ((k : K) + 1) * (cl * dt)) :
    lo' - ((c.nGuard : K) / 2 - 1) * dz < z' ∧ z' < hi' + ((c.nGuard : K) / 2 - 1) * dz := by
  have hdz0 := h.dz_pos
  obtain ⟨p1, p2⟩ := accepted_period h.made hauto (by rw [hcdt]; positivity) (by rw [hdz]; exact hdz0) hm
  have hsh := stretch_shift' c dz hdz0 vGal dt t cl hdt.le hcl.le hv w hs k j w' hrun
  obtain ⟨z0, g, ops, hinit, hr0⟩ := h.run
  have inv : w.Inv c dz := World.inv_run (World.inv_start hinit) hr0
  obtain ⟨Z', hZ', -⟩ := World.inv_run inv hrun
  obtain ⟨Z, hZ, -⟩ := inv
  rw [Comm.getZminZmax_of (Comm.getNzIz_local c true false r), hZ] at e
  rw [Comm.getZminZmax_of (Comm.getNzIz_local c true false r), hZ'] at e'
  rw [hZ, hZ'] at hsh
  simp only [Except.ok.injEq, Prod.mk.injEq] at e e'
  have d1 : lo' - lo = Z' - Z := by rw [← e.1, ← e'.1]; ring
  have d2 : hi' - hi = Z' - Z := by rw [← e.2, ← e'.2]; ring
  have hp : ((k : K) + 1) * (cl * dt) ≤ (c.exchangePeriod : K) * (cl * dt) := by
    apply mul_le_mul_of_nonneg_right _ (by positivity)
    exact_mod_cast hk
  rw [hcdt, hdz] at p2
  rw [abs_lt] at hsh
  rw [abs_le] at hmove
  constructor <;> nlinarith [hz.1, hz.2]

/-- **C54** (grid indices): so the position in cells, counted from the first guard cell of the array, is more than
`n_guard/2 + 1` and less than `Nz - n_guard/2 - 1`, and all the cells that a particle of linear or cubic shape
touches are cells of the array. -/
theorem C54_cells_partial {a : CommArgs K} {c : Comm} {dz : K} {w w' : World K} (h : Reached a c dz w) (hdz : a.dz = dz)
    (cl dt : K) (hcl : 0 < cl) (hdt : 0 < dt) (hcdt : a.cdt = cl * dt) (hauto : a.exchangePeriod = none)
    (hm : ¬(c.bz = .periodic ∧ c.size = 1)) (vGal : Option K) (hv : ∀ v, vGal = some v → |v| ≤ cl) (t : K)
    (hs : Synced cl dz dt w t) (k j : ℕ) (hk : (k : ℤ) + 1 ≤ c.exchangePeriod)
    (hrun : World.run c dz w (stretchOps vGal dt t k ++ (iterOps vGal dt (t + (k : K) * dt)).take j) = .ok w')
    (r m : ℕ) (hr : r < c.size) (lo hi : K)
    (e : c.getZminZmax (w.zminG r) dz true true false (some r) = .ok (lo, hi))
    (z z' : K) (hz : lo ≤ z ∧ z ≤ hi) (hmove : |z' - z| ≤ ((k : K) + 1) * (cl * dt)) (x : K)
    (hx : x = 1 / (w'.interp r m).dz * (z' - (w'.interp r m).zmin)) :
    ((c.nGuard : K) / 2 + 1 < x ∧ x < ((w'.interp r m).Nz : K) - (c.nGuard : K) / 2 - 1) ∧
    ∀ i : ℤ, -2 ≤ i → i ≤ 1 → 0 ≤ ⌈x - 1 / 2⌉ + i ∧ ⌈x - 1 / 2⌉ + i < (w'.interp r m).Nz := by
  have hdz0 := h.dz_pos
  have hng := C54_enough_cells h.made hauto (by rw [hcdt]; positivity) (by rw [hdz]; exact hdz0) hm
  obtain ⟨z0, g, ops, hinit, hr0⟩ := h.run
  have inv : w.Inv c dz := World.inv_run (World.inv_start hinit) hr0
  obtain ⟨Z', hZ', hI⟩ := World.inv_run inv hrun
  obtain ⟨N, iz, q1, q2, q3⟩ := hI r hr m
  have e' := Comm.getZminZmax_of (Comm.getNzIz_local c true false r) (w'.zminG r) dz
  obtain ⟨g1, g2⟩ := C54_guard_partial h hdz cl dt hcl hdt hcdt hauto hm vGal hv t hs k j hk hrun r lo hi _ _ e e' z z' hz hmove
  rw [Comm.getNzIz_local] at q1
  simp only [Except.ok.injEq, Prod.mk.injEq, if_true] at q1
  have hb : (c.nGuard : K) / 2 + 1 < x ∧ x < ((w'.interp r m).Nz : K) - (c.nGuard : K) / 2 - 1 := by
    rw [hx, q3]
    simp only []
    rw [one_div, inv_mul_eq_div, lt_div_iff₀ hdz0, div_lt_iff₀ hdz0, ← q1.1, ← q1.2]
    rw [hZ'] at g1 g2
    simp only [Bool.false_eq_true, if_false, add_zero, sub_zero] at g1 g2
    push_cast
    constructor
    · linarith
    · linarith
  refine ⟨hb, fun i hi1 hi2 => ?_⟩
  have hng' : (7 : K) ≤ (c.nGuard : K) := by exact_mod_cast hng
  have c1 : (2 : ℤ) < ⌈x - 1 / 2⌉ := by rw [Int.lt_ceil]; push_cast; linarith [hb.1]
  have c2 : ⌈x - 1 / 2⌉ ≤ ((w'.interp r m).Nz : ℤ) - 2 := by
    rw [Int.ceil_le]; push_cast; linarith [hb.2]
  omega

/-! ### Particles are always on the right rank after an exchange -/

private theorem size_of_domain {a : CommArgs K} {c : Comm} {dz : K} {w : World K} (h : Reached a c dz w) (r : ℕ)
    (hr : r < c.size) : 2 * c.nGuard ≤ c.nzLoc true r := by
  obtain ⟨z0, g, ops, hinit, -⟩ := h.run
  have := hinit r hr
  unfold initGrid Comm.divideIntoDomain at this
  rw [Comm.getZminZmax_of (Comm.getNzIz_local c true true r), Comm.getNzIz_local] at this
  simp only [bind, Except.bind, if_true] at this
  by_contra hlt
  rw [if_pos (by omega)] at this
  simp [throw, throwThe, MonadExceptOf.throw] at this

/-- **C54** (all runs): in every run, with any number of exchanges at intervals up to the chosen period, any motion
not faster than light in between, particles created and removed, every particle is after each exchange inside the
sub-domain of the rank that holds it (so that `C54_guard_partial` applies to the next stretch), i.e. the exchange with
the direct neighbours is always sufficient. -/
theorem C54_history_partial {a : CommArgs K} {c : Comm} {dz : K} (hdz : a.dz = dz)
    (cl dt : K) (hcl : 0 < cl) (hdt : 0 < dt) (hcdt : a.cdt = cl * dt) (hauto : a.exchangePeriod = none)
    (hm : ¬(c.bz = .periodic ∧ c.size = 1)) (vGal : Option K) (hv : ∀ v, vGal = some v → |v| ≤ cl)
    (w : World K) (t : K)
    (P : ℕ → List (Ptcl K)) (H : History a c cl dz dt vGal w t P) :
    Reached a c dz w ∧ Synced cl dz dt w t ∧ AllInside c dz w P := by
  induction H with
  | start w t P hw hs hP => exact ⟨hw, hs, hP⟩
  | next w w' t P Q P' k tr io inj fuel _ hk hk' hrun hd hinj hin hx ih =>
    obtain ⟨hR, hS, hA⟩ := ih
    have hR' := hR.append _ hrun
    refine ⟨hR', ?_, ?_⟩
    · obtain ⟨w1, h1, h2, -, -⟩ := run_stretch c dz hR.dz_pos vGal dt t cl hdt.le hcl.le hv w hS k
      rw [hrun] at h1; cases h1
      exact h2
    · have hng : c.nGuard ≠ 0 := by
        have := C54_enough_cells hR.made hauto (by rw [hcdt]; positivity) (by rw [hdz]; exact hR.dz_pos) hm
        omega
      -- the edges
      have eL := fun (u : World K) (r : ℕ) => Comm.getZminZmax_of (Comm.getNzIz_local c true false r) (u.zminG r) dz
      have eG := Comm.getZminZmax_of (Comm.getNzIz_global c true false none) (w'.zminG 0) dz
      have E : Edges c dz w' (fun r => w'.zminG r + ((c.izLoc true r - if false = true then (c.nGuard : ℤ) else 0 : ℤ) : K) * dz)
          (fun r => w'.zminG r + ((c.izLoc true r - if false = true then (c.nGuard : ℤ) else 0 : ℤ) : K) * dz +
            ((c.nzLoc true r + if false = true then 2 * c.nGuard else 0 : ℕ) : K) * dz) _ _ :=
        ⟨fun r _ => eL w' r, eG⟩
      obtain ⟨P1, x1, -, x3⟩ := C07_exchange hR' E hng tr io fuel Q inj hinj
      -- bounds at the end of the stretch
      obtain ⟨k, rfl⟩ : ∃ n, k = n + 1 := ⟨k - 1, by omega⟩
      have hops : stretchOps vGal dt t (k + 1) = stretchOps vGal dt t k ++
          (iterOps vGal dt (t + (k : K) * dt)).take (iterOps vGal dt (t + (k : K) * dt)).length := by
        rw [List.take_length, stretchOps, stretchOps, List.range_succ, List.flatMap_append]; simp
      rw [hops] at hrun
      have B : ∀ r < c.size, ∀ q ∈ Q r, _ ∧ _ := fun r hr q hq => by
        obtain ⟨p, hp, hpq⟩ := hd r hr q hq
        exact C54_guard_partial hR hdz cl dt hcl hdt hcdt hauto hm vGal hv t hS k _ (by push_cast at hk'; omega) hrun r _ _ _ _
          (eL w r) (eL w' r) p.z q.z (hA r hr _ _ (eL w r) p hp) (by push_cast at hpq; exact hpq)
      have hz := hR.dz_pos
      have hwide : ∀ l : ℕ, l < c.size → ((c.nGuard : K) / 2 - 1) * dz ≤
          ((c.nzLoc true l + if false = true then 2 * c.nGuard else 0 : ℕ) : K) * dz := by
        intro l hl
        apply mul_le_mul_of_nonneg_right _ hz.le
        have h2 : (2 : K) * c.nGuard ≤ c.nzLoc true l := by exact_mod_cast size_of_domain hR l hl
        have h0 : (0 : K) ≤ c.nGuard := Nat.cast_nonneg _
        simp only [Bool.false_eq_true, if_false, add_zero]
        linarith
      have hin1 := x3 ?_ ?_
      · intro r hr lo hi e p hp
        have e2 := hx r hr
        rw [x1 r hr] at e2
        have e3 := congrArg Species.z (Option.some.inj e2)
        simp only [Species.ofList] at e3
        have : p.z ∈ (P1 r).map Ptcl.z := by rw [e3]; exact List.mem_map_of_mem hp
        obtain ⟨p1, hp1, hp1z⟩ := List.mem_map.mp this
        have := hin1 r hr p1 hp1
        rw [eL w' r] at e
        simp only [Except.ok.injEq, Prod.mk.injEq] at e
        rw [← e.1, ← e.2, ← hp1z]
        exact this
      · intro r hr p hp
        obtain ⟨b1, b2⟩ := B r hr p hp
        constructor
        · intro l hl
          have hls : l < c.size := by
            unfold Comm.leftProc at hl
            cases hbz : c.bz <;> rw [hbz] at hl <;> simp only [] at hl <;> split at hl <;>
              simp only [Option.some.injEq, reduceCtorEq] at hl <;> omega
          have := hwide l hls
          rw [add_sub_cancel_left]
          linarith
        · intro l hl
          have hls : l < c.size := by
            unfold Comm.rightProc at hl
            cases hbz : c.bz <;> rw [hbz] at hl <;> simp only [] at hl <;> split at hl <;>
              simp only [Option.some.injEq, reduceCtorEq] at hl <;> omega
          have := hwide l hls
          rw [add_sub_cancel_left]
          linarith
      · intro p hp
        have hpos := hR.pos
        have hlast : c.size - 1 + 1 = c.size := by omega
        have := hin (c.size - 1) (by omega) _ _ (eL w' (c.size - 1)) p
        simp only [hlast, if_true] at this
        exact this hp

/-! ### Deposition -/

/-- **C54** (deposition): with the particles as in `C54_cells_partial`, on any rank, the deposition of charge and current
raises no index error, for linear and cubic shapes. -/
theorem C54_deposit_partial {a : CommArgs ℝ} {c : Comm} {dz : ℝ} {w w' : World ℝ} (h : Reached a c dz w) (hdz : a.dz = dz)
    (cl dt : ℝ) (hcl : 0 < cl) (hdt : 0 < dt) (hcdt : a.cdt = cl * dt) (hauto : a.exchangePeriod = none)
    (hm : ¬(c.bz = .periodic ∧ c.size = 1)) (vGal : Option ℝ) (hv : ∀ v, vGal = some v → |v| ≤ cl) (t : ℝ)
    (hs : Synced cl dz dt w t) (k j : ℕ) (hk : (k : ℤ) + 1 ≤ c.exchangePeriod)
    (hrun : World.run c dz w (stretchOps vGal dt t k ++ (iterOps vGal dt (t + (k : ℝ) * dt)).take j) = .ok w')
    (r m : ℕ) (hr : r < c.size) (lo hi : ℝ)
    (e : c.getZminZmax (w.zminG r) dz true true false (some r) = .ok (lo, hi))
    (f : DepField) (invdr : ℝ) (hinv : 0 < invdr) (Nr : ℕ) (beta : Shape → ℕ → List ℝ)
    (hbeta : ∀ s k, (beta s k).length = Nr + 1) (mode n : ℕ) (hn : 0 < n) (sps : List DepSpecies)
    (hsps : ∀ sp ∈ sps, ∀ p ∈ sp.ptcls, ∃ z, (lo ≤ z ∧ z ≤ hi) ∧ |p.z - z| ≤ ((k : ℝ) + 1) * (cl * dt)) :
    ∃ A, depositAll f cl
      ⟨1 / (w'.interp r m).dz, (w'.interp r m).zmin, (w'.interp r m).Nz, invdr, 0, Nr⟩ beta mode n sps = .ok A := by
  apply C24_deposit_partial f cl _ beta mode n hn sps hbeta hinv rfl
  intro sp hsp p hp
  obtain ⟨z, hz, hmove⟩ := hsps sp hsp p hp
  obtain ⟨⟨h1, h2⟩, -⟩ := C54_cells_partial h hdz cl dt hcl hdt hcdt hauto hm vGal hv t hs k j hk hrun r m hr lo hi e z p.z hz
    hmove _ rfl
  have h0 : (0 : ℝ) ≤ c.nGuard := Nat.cast_nonneg _
  have h3 : (0 : ℝ) ≤ sp.shape.reach := by cases sp.shape <;> norm_num [Shape.reach]
  constructor
  · simp only []
    linarith
  · simp only []
    linarith

/-! ### A period given by the user is not checked -/

/-- **C54 fails** for a period given by the user: 8 guard cells, 2 ranks of 32 cells, a time step of 1/8 of a cell and
an exchange every 1000 iterations are accepted, and a particle at the speed of light is, well before the next
exchange, beyond the array of its rank. (The documentation of `exchange_period` says to choose carefully.) -/
theorem C54_violated : ∃ (a : CommArgs ℚ) (c : Comm) (w w' : World ℚ) (k : ℕ) (z z' : ℚ),
    Reached a c 1 w ∧ a.dz = 1 ∧ a.cdt = 1 * (1 / 8) ∧ c.nGuard = 8 ∧ (k : ℤ) + 1 ≤ c.exchangePeriod ∧
    World.run c 1 w (stretchOps none (1 / 8) 0 k) = .ok w' ∧ (w.interp 0 0).zmin + 8 ≤ z ∧ z ≤ (w.interp 0 0).zmax - 8 ∧
    |z' - z| ≤ (k : ℚ) * (1 * (1 / 8)) ∧ (w'.interp 0 0).zmax < z' := by
  let a : CommArgs ℚ := ⟨64, 2, .str "periodic", 32, some 8, 0, none, some 1000, 0, 1 / 8, 1⟩
  let c : Comm := ⟨64, 2, 8, 0, 0, .periodic, .reflective, 1000⟩
  let g : ℕ → InterpGrid ℚ := fun r => if r = 0 then ⟨48, -8, 40, 1⟩ else ⟨48, 24, 72, 1⟩
  have hrun : ∀ k, World.run c 1 (World.start 0 g) (stretchOps none (1 / 8) 0 k) = .ok (World.start 0 g) := by
    intro k
    induction k with
    | zero => rfl
    | succ k ih =>
      rw [stretchOps, List.range_succ, List.flatMap_append, World.run_append]
      change (World.run c 1 (World.start 0 g) (stretchOps none (1 / 8) 0 k)).bind _ = _
      rw [ih]
      rfl
  refine ⟨a, c, World.start 0 g, World.start 0 g, 999, 32, 41, ?_, rfl, by norm_num [a], rfl, by norm_num [c], hrun _,
    by norm_num [World.start, g], by norm_num [World.start, g], by norm_num, by norm_num [World.start, g]⟩
  refine ⟨by decide +kernel, by decide, by norm_num, 0, g, [], fun r hr => ?_, rfl⟩
  have : r = 0 ∨ r = 1 := by simp [c] at hr; omega
  rcases this with rfl | rfl <;> decide +kernel

/-! ### The hypotheses can be met -/

/-- Two ranks with 32 cells each, 8 guard cells, a time step of 1/8 of a cell. -/
def exArgsS : CommArgs ℚ := ⟨64, 2, .str "open", 32, some 8, 0, some 0, none, 0, 1 / 8, 1⟩

/-- Particles are exchanged every 4 iterations. -/
def exCommS : Comm := ⟨64, 2, 8, 0, 0, .opened, .reflective, 4⟩

/-- With a moving window at the speed of light. -/
example : ∃ w, Reached exArgsS exCommS 1 w ∧ Synced 1 1 (1 / 8) w 0 ∧ (∃ win, w.win = some win ∧ win.v = 1) := by
  let g : ℕ → InterpGrid ℚ := fun r => if r = 0 then ⟨48, -8, 40, 1⟩ else ⟨48, 24, 72, 1⟩
  obtain ⟨w, hw⟩ := C11_total exCommS rfl 1 [.setWindow 1 0 (1 / 8)] (World.start (0 : ℚ) g)
  have hstep : (World.start (0 : ℚ) g).step exCommS 1 (.setWindow 1 0 (1 / 8)) = .ok w := by
    simp only [World.run, bind, Except.bind] at hw
    split at hw
    · cases hw
    · rename_i heq; cases hw; exact heq
  have hwin := step_setWindow hstep
  refine ⟨w, ⟨by decide +kernel, by decide, by norm_num, 0, g, _, fun r hr => ?_, hw⟩, ?_, ?_⟩
  · have : r = 0 ∨ r = 1 := by simp [exCommS] at hr; omega
    rcases this with rfl | rfl <;> decide +kernel
  · intro win h
    rw [hwin] at h
    simp only [Option.some.injEq] at h
    subst h
    rw [hwin]
    norm_num [World.start]
  · rw [hwin]; exact ⟨_, rfl, rfl⟩

end Fbpic
