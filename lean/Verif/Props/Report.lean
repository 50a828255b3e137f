import Verif.Spec.Report
import Mathlib.Tactic.Linarith
import Mathlib.Tactic.Ring
import Mathlib.Tactic.FieldSimp
import Mathlib.Tactic.NormNum
import Mathlib.Tactic.Positivity

/-!
# C121: what a run reports
-/

namespace Fbpic.Report

open Spec (Clock)

private theorem bar_const (N : ℕ) (start : ℚ) (now : ℕ → ℚ) (k : ℕ) :
    (barAt N start now k).N = N ∧ (barAt N start now k).nAvg = 20 ∧ (barAt N start now k).nBars = 35 ∧
      (barAt N start now k).iStep = k ∧ (barAt N start now k).start = start ∧ (barAt N start now k).prev = now k ∧
      (barAt N start now k).total = now k - start := by
  induction k with
  | zero => exact ⟨rfl, rfl, rfl, rfl, rfl, rfl, rfl⟩
  | succ k ih =>
    obtain ⟨h1, h2, h3, h4, h5, h6, h7⟩ := ih
    refine ⟨h1, h2, h3, rfl, h5, rfl, ?_⟩
    change now (k + 1) - (barAt N start now k).start = _
    rw [h5]

private theorem hms_clock (t : ℚ) : Clock t (hms t) := by
  unfold hms Clock
  simp only
  set m : ℤ := ⌊t / 60⌋ with hm
  set h : ℤ := ⌊(m : ℚ) / 60⌋ with hh
  have m1 : (m : ℚ) ≤ t / 60 := Int.floor_le _
  have m2 : t / 60 < m + 1 := Int.lt_floor_add_one _
  have h1 : (h : ℚ) ≤ m / 60 := Int.floor_le _
  have h2 : (m : ℚ) / 60 < h + 1 := Int.lt_floor_add_one _
  have h1' : 60 * h ≤ m := by
    have : (60 : ℚ) * h ≤ m := by linarith
    exact_mod_cast this
  have h2' : m < 60 * h + 60 := by
    have : (m : ℚ) < 60 * h + 60 := by linarith
    exact_mod_cast this
  have s1 : ((⌊t - 60 * m⌋ : ℤ) : ℚ) ≤ t - 60 * m := Int.floor_le _
  have s2 : t - 60 * m < (⌊t - 60 * m⌋ : ℤ) + 1 := Int.lt_floor_add_one _
  have s0 : 0 ≤ ⌊t - 60 * m⌋ := Int.floor_nonneg.2 (by linarith)
  have s3 : ⌊t - 60 * m⌋ < 60 := Int.floor_lt.2 (by push_cast; linarith)
  refine ⟨by omega, by omega, s0, s3, ?_, ?_⟩ <;> push_cast <;> linarith

/-- The line shown in iteration `i`: the number of the iteration, a bar of 35 characters whose filled part is the part of the iterations
including this one (rounded below), and the time of the last iteration. -/
theorem C121_bar (N : ℕ) (start : ℚ) (now : ℕ → ℚ) (i : ℕ) (h0 : 0 < i) (hN : i < N) :
    ∃ full blank left, (barAt N start now i).line = .bar full blank (i + 1) N left ⌊(now i - now (i - 1)) * 1000⌋ ∧
      full + blank = 35 ∧ (full : ℚ) ≤ 35 * ((i + 1 : ℕ) : ℚ) / N ∧ 35 * ((i + 1 : ℕ) : ℚ) / N < full + 1 ∧
      (full = 35 ↔ i + 1 = N) := by
  obtain ⟨e1, e2, e3, e4, e5, e6, e7⟩ := bar_const N start now i
  have htps : (barAt N start now i).tps = now i - now (i - 1) := by
    obtain ⟨k, rfl⟩ : ∃ k, i = k + 1 := ⟨i - 1, by omega⟩
    change now (k + 1) - (barAt N start now k).prev = _
    rw [(bar_const N start now k).2.2.2.2.2.1]; rfl
  unfold Bar.line
  rw [e4, if_neg (by omega), e1, e3, htps]
  have hN' : (0 : ℚ) < N := by exact_mod_cast (by omega : 0 < N)
  have hi : ((i : ℚ) + 1) ≤ N := by exact_mod_cast hN
  set q : ℚ := ((i : ℚ) + 1) * 1 / N * (35 : ℕ) with hq
  have q0 : 0 ≤ q := by positivity
  have qe : 35 * ((i + 1 : ℕ) : ℚ) / N = q := by rw [hq]; push_cast; ring
  have q1 : q ≤ 35 := by
    rw [← qe, div_le_iff₀ hN']; push_cast; linarith
  have f0 : 0 ≤ ⌊q⌋ := Int.floor_nonneg.2 q0
  have fc : ((⌊q⌋.toNat : ℕ) : ℚ) = (⌊q⌋ : ℤ) := by exact_mod_cast congrArg (Int.cast : ℤ → ℚ) (Int.toNat_of_nonneg f0)
  have f1 : ((⌊q⌋ : ℤ) : ℚ) ≤ q := Int.floor_le q
  have f2 : q < (⌊q⌋ : ℤ) + 1 := Int.lt_floor_add_one q
  have f3 : ⌊q⌋.toNat ≤ 35 := by
    have : ((⌊q⌋.toNat : ℕ) : ℚ) ≤ 35 := by rw [fc]; linarith
    exact_mod_cast this
  refine ⟨_, _, _, rfl, by omega, by rw [fc, qe]; exact f1, by rw [fc, qe]; exact f2, ?_⟩
  constructor
  · intro h
    have : (35 : ℚ) ≤ q := by
      have : ((⌊q⌋.toNat : ℕ) : ℚ) = 35 := by exact_mod_cast h
      rw [fc] at this; linarith
    rw [← qe, le_div_iff₀ hN'] at this
    have : (N : ℚ) ≤ ((i + 1 : ℕ) : ℚ) := by linarith
    have : N ≤ i + 1 := by exact_mod_cast this
    omega
  · intro h
    have : q = 35 := by rw [← qe, h]; field_simp
    rw [this]; norm_num; rfl

/-- The bar never goes back. -/
theorem C121_monotone (N : ℕ) (start : ℚ) (now : ℕ → ℚ) (i j : ℕ) (h0 : 0 < i) (hij : i ≤ j) (hN : j < N) :
    ∃ f b l m f' b' l' m', (barAt N start now i).line = .bar f b (i + 1) N l m ∧
      (barAt N start now j).line = .bar f' b' (j + 1) N l' m' ∧ f ≤ f' := by
  obtain ⟨f, b, l, e, -, h1, -, -⟩ := C121_bar N start now i h0 (by omega)
  obtain ⟨f', b', l', e', -, -, h2, -⟩ := C121_bar N start now j (by omega) hN
  refine ⟨f, b, l, _, f', b', l', _, e, e', ?_⟩
  have hN' : (0 : ℚ) < N := by exact_mod_cast (by omega : 0 < N)
  have hle : 35 * ((i + 1 : ℕ) : ℚ) / N ≤ 35 * ((j + 1 : ℕ) : ℚ) / N := by
    have : ((i + 1 : ℕ) : ℚ) ≤ ((j + 1 : ℕ) : ℚ) := by exact_mod_cast (by omega : i + 1 ≤ j + 1)
    gcongr
  have : (f : ℚ) < f' + 1 := by linarith
  have : f < f' + 1 := by exact_mod_cast this
  omega

private theorem avg_bounds (N : ℕ) (start : ℚ) (now : ℕ → ℚ) (a b : ℚ) : ∀ k, 2 ≤ k →
    (∀ j, 2 ≤ j → j ≤ k → a ≤ now j - now (j - 1) ∧ now j - now (j - 1) ≤ b) →
    a ≤ (barAt N start now k).avg ∧ (barAt N start now k).avg ≤ b := by
  intro k hk h
  induction k, hk using Nat.le_induction with
  | base =>
    have : (barAt N start now 2).avg = now 2 - now 1 := rfl
    rw [this]
    exact h 2 le_rfl le_rfl
  | succ k hk ih =>
    obtain ⟨i1, i2⟩ := ih fun j h1 h2 => h j h1 (by omega)
    obtain ⟨-, e2, -, -, -, e6, -⟩ := bar_const N start now k
    have : (barAt N start now (k + 1)).avg =
        (barAt N start now k).avg + (now (k + 1) - now k - (barAt N start now k).avg) / 20 := by
      change (if k + 1 ≤ 2 then _ else _ + (now (k + 1) - (barAt N start now k).prev - _) / ((barAt N start now k).nAvg : ℚ)) = _
      rw [if_neg (by omega), e6, e2]; norm_num
    rw [this]
    obtain ⟨j1, j2⟩ := h (k + 1) (by omega) le_rfl
    rw [Nat.add_sub_cancel] at j1 j2
    constructor <;> linarith

/-- The remaining time is shown from iteration 20 on. It is the number of the iterations that are left times an average: if all iterations
since the second (the first one includes the compilation) have taken between `a` and `b`, it lies between `a` and `b` times this number. -/
theorem C121_eta (N : ℕ) (start : ℚ) (now : ℕ → ℚ) (i : ℕ) (h0 : 0 < i) (hN : i < N) :
    ∃ full blank left ms, (barAt N start now i).line = .bar full blank (i + 1) N left ms ∧
      (i < 20 → left = .none) ∧
      (20 ≤ i → ∃ t c, left = some c ∧ Clock t c ∧ ∀ a b : ℚ,
        (∀ j, 2 ≤ j → j ≤ i → a ≤ now j - now (j - 1) ∧ now j - now (j - 1) ≤ b) →
        a * (N - i : ℕ) ≤ t ∧ t ≤ b * (N - i : ℕ)) := by
  obtain ⟨k, rfl⟩ : ∃ k, i = k + 1 := ⟨i - 1, by omega⟩
  obtain ⟨e1, e2, -, e4, -, -, -⟩ := bar_const N start now (k + 1)
  obtain ⟨d1, d2, -, -, -, -, -⟩ := bar_const N start now k
  have heta : (barAt N start now (k + 1)).eta = if k + 1 < 20 then .none else some ((barAt N start now (k + 1)).avg * (N - (k + 1 : ℕ))) := by
    change (if k + 1 < (barAt N start now k).nAvg then Option.none else
      some ((barAt N start now (k + 1)).avg * ((barAt N start now k).N - (k + 1 : ℕ)))) = _
    rw [d1, d2]
  unfold Bar.line
  rw [e4, if_neg (by omega), e1, heta]
  refine ⟨_, _, _, _, rfl, fun h => ?_, fun h => ?_⟩
  · simp [h]
  · rw [if_neg (by omega)]
    refine ⟨_, _, rfl, hms_clock _, fun a b hab => ?_⟩
    obtain ⟨h1, h2⟩ := avg_bounds N start now a b (k + 1) (by omega) hab
    have hp : (0 : ℚ) ≤ ((N - (k + 1) : ℕ) : ℚ) := by positivity
    rw [← Nat.cast_sub (by omega)]
    exact ⟨mul_le_mul_of_nonneg_right h1 hp, mul_le_mul_of_nonneg_right h2 hp⟩

/-- The summary of a run of at least one iteration: the time until the beginning of the last iteration, and this time divided by the number
of all iterations. -/
theorem C121_summary_partial (n : ℕ) (start : ℚ) (now : ℕ → ℚ) :
    ∃ c, stepSummary (n + 1) start now = .ok (c, ⌊(now n - start) / (n + 1 : ℕ) * 1000⌋) ∧ Clock (now n - start) c := by
  obtain ⟨e1, -, -, -, -, -, e7⟩ := bar_const (n + 1) start now n
  unfold stepSummary Bar.summary
  simp only
  rw [e1, if_neg (by omega), e7]
  exact ⟨_, rfl, hms_clock _⟩

/-- So the total time is not the time that the run has taken: the last iteration is missing. A run of one iteration that takes one hour (or
any time, until `now 1`) is reported with 0 seconds. -/
theorem C121_summary_violated : ∃ (start : ℚ) (now : ℕ → ℚ), now 1 - start = 3600 ∧
    stepSummary 1 start now = .ok ((0, 0, 0), 0) ∧ ¬ Clock (now 1 - start) (0, 0, 0) :=
  ⟨0, fun i => if i = 0 then 0 else 3600, by norm_num, by decide +kernel, by unfold Clock; norm_num⟩

/-- `step(0)` ends with `ZeroDivisionError`. -/
theorem C121_zero_violated (start : ℚ) (now : ℕ → ℚ) : stepSummary 0 start now = .error (.runtimeError "ZeroDivisionError") := rfl

/-- With cupy, the handling of memory errors changes neither results nor other exceptions; without memory the exception goes on in a run of
one process, and with several processes the whole job is ended, so that no process waits for one that has failed. -/
theorem C121_guard {α : Type} (size : ℕ) (f : End α) :
    (f ≠ .raises .outOfMemory → catchMemoryError true size f = f) ∧
      (size ≤ 1 → catchMemoryError true size f = f) ∧
      (1 < size → f = .raises .outOfMemory → catchMemoryError true size f = .aborted) := by
  refine ⟨fun h => ?_, fun h => ?_, fun h e => ?_⟩
  · cases f with
    | raises e => unfold catchMemoryError; simp only [if_true]; exact if_neg fun e' => h (by rw [e'])
    | returns a => rfl
    | aborted => rfl
  · cases f with
    | raises e =>
      unfold catchMemoryError handleMemoryError
      simp only [if_true]
      split
      · exact if_neg (by omega)
      · rfl
    | returns a => rfl
    | aborted => rfl
  · subst e
    unfold catchMemoryError handleMemoryError
    simp only [if_true]
    exact if_pos h

/-- Without cupy results are unchanged as well. -/
theorem C121_guard_cpu {α : Type} (size : ℕ) (a : α) : catchMemoryError false size (.returns a) = .returns a := rfl

/-- But without cupy every exception, even the interruption by the user, is replaced by `NameError`, since the name in the clause `except`
does not exist: who calls the function cannot tell what has happened. -/
theorem C121_name_violated {α : Type} (size : ℕ) (e : Exc) :
    catchMemoryError (α := α) false size (.raises e) = .raises (.nameError "OutOfMemoryError") := rfl

/-! A run of 30 iterations: one hundred seconds of compilation, then one second per iteration. -/

/-- The times of the examples. -/
private def clock (i : ℕ) : ℚ := if i = 0 then 0 else 99 + i

example : (barAt 30 0 clock 0).line = .compiling := by decide +kernel

example : (barAt 30 0 clock 14).line = .bar 17 18 15 30 .none 1000 := by decide +kernel

example : (barAt 30 0 clock 24).line = .bar 29 6 25 30 (some (0, 0, 6)) 1000 := by decide +kernel

example : hms 7325 = (2, 2, 5) := by decide +kernel

example : ∃ full blank left ms, (barAt 30 0 clock 24).line = .bar full blank 25 30 left ms ∧ ∃ t c, left = some c ∧ Clock t c ∧ t = 6 := by
  obtain ⟨f, b, l, m, e, -, h⟩ := C121_eta 30 0 clock 24 (by decide) (by decide)
  obtain ⟨t, c, e1, e2, e3⟩ := h (by decide)
  obtain ⟨h1, h2⟩ := e3 1 1 fun j hj _ => by
    have hc : ((j - 1 : ℕ) : ℚ) = j - 1 := by rw [Nat.cast_sub (by omega)]; norm_num
    unfold clock
    rw [if_neg (by omega), if_neg (by omega), hc]
    constructor <;> linarith
  exact ⟨f, b, l, m, e, t, c, e1, e2, le_antisymm (by norm_num at h2; exact h2) (by norm_num at h1; exact h1)⟩

example : ∃ f b l, (barAt 30 0 clock 29).line = .bar f b 30 30 l 1000 ∧ f = 35 := by
  obtain ⟨f, b, l, e, -, -, -, h⟩ := C121_bar 30 0 clock 29 (by decide) (by decide)
  exact ⟨f, b, l, by rw [e]; congr 1; decide +kernel, h.2 rfl⟩

example : catchMemoryError (α := Unit) true 4 (.raises .outOfMemory) = .aborted := (C121_guard 4 _).2.2 (by decide) rfl

example : catchMemoryError (α := Unit) true 4 (.raises (.other (.valueError "a"))) = .raises (.other (.valueError "a")) :=
  (C121_guard 4 _).1 (by decide)

end Fbpic.Report
