import Verif.Spec.LabRuns
import Verif.Props.PtclDiag

/-!
# C124: lab-frame particle snapshots over several runs
-/

namespace Fbpic

open PtclDiag LabRuns Spec.LabRuns

variable {A R : Type} [Zero A]

/-! ### One run -/

private theorem ok_bind {α β : Type} (x : α) (g : α → Except PyErr β) : ((Except.ok x : Except PyErr α) >>= g) = g x := rfl

private theorem known_eq : known = supported := rfl

private theorem forM_ok (f : String → Except PyErr Unit) (Q : List String) (h : ∀ q ∈ Q, f q = .ok ()) :
    Q.forM f = .ok () := by
  induction Q with
  | nil => rfl
  | cons q Q ih =>
    change (f q >>= fun _ => Q.forM f) = _
    rw [h q (by simp)]
    exact ih fun q' hq => h q' (by simp [hq])

omit [Zero A] in
private theorem openFile_ok (Q : List String) (hQ : ∀ q ∈ Q, q ∈ supported) (old : Option (Slice A)) :
    openFile false Q old = .ok (old.getD fun _ => []) := by
  unfold openFile
  rw [forM_ok]
  · cases old <;> rfl
  · intro q hq
    unfold requireDataset
    rw [known_eq, if_pos (hQ q hq)]
    cases old <;> simp

private theorem one_run (comm : Bool) (size : ℕ) (Q : List String) (hQ : ∀ q ∈ Q, q ∈ supported) (period a : ℕ)
    (old : Option (Slice A)) (new : ℕ → ℕ → Option (Slice A)) (k : ℕ) (l : Lab A)
    (h : Lab.run comm size Q period a new k = .ok l) :
    ∃ l', one false comm size Q period old a new k = .ok l' ∧ l'.buf = l.buf ∧
      ∀ q ∈ Q, l'.file q = (old.getD fun _ => []) q ++ l.file q := by
  induction k generalizing l with
  | zero =>
    simp only [Lab.run, Except.ok.injEq] at h
    subst h
    refine ⟨⟨fun _ => [], old.getD fun _ => []⟩, ?_, rfl, fun q _ => by simp⟩
    rw [one, openFile_ok Q hQ]
    rfl
  | succ k ih =>
    rw [Lab.run] at h
    cases hk : Lab.run comm size Q period a new k with
    | error e => rw [hk] at h; exact absurd h (by intro h; cases h)
    | ok m =>
      rw [hk] at h
      obtain ⟨m', h1, h2, h3⟩ := ih m hk
      rw [one, h1]
      change m.write comm size Q period (a + k) (new (a + k)) = .ok l at h
      change ∃ l', m'.write comm size Q period (a + k) (new (a + k)) = .ok l' ∧ _
      have hb : (m'.store (new (a + k))).buf = (m.store (new (a + k))).buf := by
        unfold Lab.store; simp only [h2]
      unfold Lab.write at h ⊢
      by_cases hp : (a + k) % period = 0
      · simp only [if_pos hp] at h ⊢
        unfold Lab.flush at h ⊢
        simp only [hb] at h ⊢
        cases hd : collect comm size Q fun k_1 => compactSlices ((m.store (new (a + k))).buf k_1) with
        | error e => rw [hd] at h; exact absurd h (by intro h; cases h)
        | ok d =>
          rw [hd] at h
          simp only [ok_bind] at h ⊢
          cases h
          refine ⟨_, rfl, rfl, fun q hq => ?_⟩
          simp only [if_pos hq]
          change m'.file q ++ d q = _ ++ (m.file q ++ d q)
          rw [h3 q hq, List.append_assoc]
      · simp only [if_neg hp] at h ⊢
        cases h
        exact ⟨_, rfl, hb, fun q hq => h3 q hq⟩

/-- Between two iterations at which the buffers are written the file does not change. -/
private theorem run_idle (comm : Bool) (size : ℕ) (Q : List String) (period a : ℕ)
    (new : ℕ → ℕ → Option (Slice A)) (j k : ℕ) (l : Lab A) (h : Lab.run comm size Q period a new j = .ok l)
    (hn : ∀ n, a + j ≤ n → n < a + (j + k) → n % period ≠ 0) :
    ∃ l', Lab.run comm size Q period a new (j + k) = .ok l' ∧ l'.file = l.file := by
  induction k with
  | zero => exact ⟨l, h, rfl⟩
  | succ k ih =>
    obtain ⟨m, h1, h2⟩ := ih fun n ha hb => hn n ha (by omega)
    rw [← Nat.add_assoc, Lab.run, h1]
    change ∃ l', m.write comm size Q period (a + (j + k)) (new (a + (j + k))) = .ok l' ∧ _
    unfold Lab.write
    simp only [if_neg (hn (a + (j + k)) (by omega) (by omega))]
    exact ⟨_, rfl, h2⟩

omit [Zero A] in
private theorem crossed_eq (size : ℕ) (rows : ℕ → ℕ → Option (List R)) (a m : ℕ) :
    Spec.allRows size a (m - a) (fun n k => (rows n k).getD []) = crossed size rows a m := by
  unfold Spec.allRows crossed
  rw [List.range'_eq_map_range, List.flatMap_map]

private theorem part_run (comm : Bool) (size : ℕ) (h0 : 0 < size) (hc : comm = false → size = 1) (Q : List String)
    (hne : Q ≠ []) (hQ : ∀ q ∈ Q, q ∈ supported) (period : ℕ) (col : String → R → A) (r : Run R) (m : ℕ)
    (hm : LastWrite period r.first r.stop m) (old : Option (Slice A)) :
    ∃ (l : Lab A) (L : List R), one false comm size Q period old (r.part col).first (r.part col).new (r.part col).count = .ok l ∧
      (∀ q ∈ Q, l.file q = (old.getD fun _ => []) q ++ L.map (col q)) ∧
      L.Perm (crossed size r.rows r.first m) := by
  obtain ⟨ha, hb, hw, hi⟩ := hm
  obtain ⟨l0, h1, L, h2, h3⟩ := C60_lab_file comm size h0 hc Q hne period r.first col (r.part col).new
    (fun n k => (r.rows n k).getD [])
    (by
      intro n k s hs q _
      simp only [Run.part, Option.map_eq_some_iff] at hs
      obtain ⟨x, hx, rfl⟩ := hs
      simp [hx])
    (by
      intro n k hs
      simp only [Run.part, Option.map_eq_none_iff] at hs
      simp [hs]) (m - r.first)
  obtain ⟨l1, h4, h5⟩ := run_idle comm size Q period r.first _ (m - r.first) (r.stop - m) l0 h1
    (fun n hx hy => hi n (by omega) (by omega))
  rw [show m - r.first + (r.stop - m) = r.stop - r.first by omega] at h4
  obtain ⟨l, h6, -, h7⟩ := one_run comm size Q hQ period r.first old _ _ l1 h4
  by_cases hlt : r.first < m
  · refine ⟨l, L, h6, fun q hq => ?_, ?_⟩
    · rw [h7 q hq, h5, h2 q hq]
    · rw [← crossed_eq]
      apply h3 (by omega)
      rw [show r.first + (m - r.first) - 1 = m - 1 by omega]
      exact hw hlt
  · have e : m = r.first := by omega
    subst e
    simp only [Nat.sub_self, Lab.run, Except.ok.injEq] at h1
    refine ⟨l, [], h6, fun q hq => ?_, by simp [crossed]⟩
    rw [h7 q hq, h5, ← h1]
    rfl

private theorem runs_from (comm : Bool) (size : ℕ) (h0 : 0 < size) (hc : comm = false → size = 1) (Q : List String)
    (hne : Q ≠ []) (hQ : ∀ q ∈ Q, q ∈ supported) (period : ℕ) (col : String → R → A) (upto : Run R → ℕ) (rs : List (Run R))
    (hm : ∀ r ∈ rs, LastWrite period r.first r.stop (upto r)) (f0 : Slice A) (L0 : List R) (h : Holds Q col f0 L0) :
    ∃ (f : Slice A) (L : List R), runs false comm size Q period (rs.map (Run.part col)) (some f0) = .ok (some f) ∧ Holds Q col f L ∧
      L.Perm (L0 ++ rs.flatMap fun r => crossed size r.rows r.first (upto r)) := by
  induction rs generalizing f0 L0 with
  | nil => exact ⟨f0, L0, rfl, h, by simp⟩
  | cons r rs ih =>
    obtain ⟨l, L, h1, h2, h3⟩ := part_run comm size h0 hc Q hne hQ period col r _ (hm r (by simp)) (some f0)
    obtain ⟨f, L', h4, h5, h6⟩ := ih (fun r hr => hm r (by simp [hr])) l.file (L0 ++ L) (by
      intro q hq
      rw [h2 q hq, List.map_append, ← h q hq]
      rfl)
    refine ⟨f, L', ?_, h5, h6.trans ?_⟩
    · rw [List.map_cons, runs, h1]
      exact h4
    · rw [List.flatMap_cons, List.append_assoc]
      exact (h3.append_right _).append_left _

private theorem runs_append (comm : Bool) (size : ℕ) (h0 : 0 < size) (hc : comm = false → size = 1) (Q : List String)
    (hne : Q ≠ []) (hQ : ∀ q ∈ Q, q ∈ supported) (period : ℕ) (col : String → R → A) (rs : List (Run R))
    (hrs : ∀ r ∈ rs, r.first ≤ r.stop) (hlast : ∀ a b : ℕ, a ≤ b → ∃ m, LastWrite period a b m) (f : Slice A) :
    ∃ (f' : Slice A) (L : List R), runs false comm size Q period (rs.map (Run.part col)) (some f) = .ok (some f') ∧
      ∀ q ∈ Q, f' q = f q ++ L.map (col q) := by
  induction rs generalizing f with
  | nil => exact ⟨f, [], rfl, fun q _ => by simp⟩
  | cons r rs ih =>
    obtain ⟨m, hm⟩ := hlast _ _ (hrs r (by simp))
    obtain ⟨l, L, h1, h2, -⟩ := part_run comm size h0 hc Q hne hQ period col r m hm (some f)
    obtain ⟨f', L', h3, h4⟩ := ih (fun r hr => hrs r (by simp [hr])) l.file
    refine ⟨f', L ++ L', ?_, fun q hq => ?_⟩
    · rw [List.map_cons, runs, h1]
      exact h3
    · rw [h4 q hq, h2 q hq, List.map_append, List.append_assoc]
      rfl

/-! ### The file after several runs -/

/-- Every run has such a last iteration. -/
theorem exists_lastWrite (period a b : ℕ) (h : a ≤ b) : ∃ m, LastWrite period a b m := by
  induction b, h using Nat.le_induction with
  | base => exact ⟨a, by simp [LastWrite]; omega⟩
  | succ b hb ih =>
    obtain ⟨m, h1, h2, h3, h4⟩ := ih
    by_cases hp : b % period = 0
    · exact ⟨b + 1, by omega, by omega, fun _ => by simpa using hp, fun n _ _ => by omega⟩
    · refine ⟨m, h1, by omega, h3, fun n hn hn' => ?_⟩
      rcases Nat.lt_succ_iff_lt_or_eq.1 hn' with h | h
      · exact h4 n hn h
      · rw [h]; exact hp

/-- **C124** (content): after any runs in the same directory, stopped at any iterations, with a recent version of h5py,
the file of a snapshot holds, with the same order for all quantities, the particles that each run found up to its last
multiple of the period, once for each run that found them, and nothing else. -/
theorem C124_runs (comm : Bool) (size : ℕ) (h0 : 0 < size) (hc : comm = false → size = 1) (Q : List String) (hne : Q ≠ [])
    (hQ : ∀ q ∈ Q, q ∈ supported) (period : ℕ) (col : String → R → A) (upto : Run R → ℕ) (rs : List (Run R)) (hrs : rs ≠ [])
    (hm : ∀ r ∈ rs, LastWrite period r.first r.stop (upto r)) :
    ∃ (f : Slice A) (L : List R), runs false comm size Q period (rs.map (Run.part col)) none = .ok (some f) ∧ Holds Q col f L ∧
      L.Perm (rs.flatMap fun r => crossed size r.rows r.first (upto r)) := by
  cases rs with
  | nil => exact absurd rfl hrs
  | cons r rs =>
    obtain ⟨l, L, h1, h2, h3⟩ := part_run comm size h0 hc Q hne hQ period col r _ (hm r (by simp)) none
    obtain ⟨f, L', h4, h5, h6⟩ := runs_from comm size h0 hc Q hne hQ period col upto rs
      (fun r hr => hm r (by simp [hr])) l.file L (fun q hq => by simpa using h2 q hq)
    refine ⟨f, L', ?_, h5, h6.trans ?_⟩
    · rw [List.map_cons, runs, h1]
      exact h4
    · rw [List.flatMap_cons]
      exact h3.append_right _

/-- Two runs of three iterations: both are cut at their last even iteration. -/
example : (runs false true 2 ["x", "w"] 2
    [Run.part (fun q (r : ℤ) => if q = "x" then r else 7) ⟨0, 4, fun n k => some [(10 * n + k : ℤ)]⟩,
     Run.part (fun q (r : ℤ) => if q = "x" then r else 7) ⟨3, 6, fun n k => if k = 0 then some [(10 * n : ℤ)] else none⟩]
    none).toOption.join.map (fun f => (f "x", f "w")) =
    some ([0, 1, 10, 20, 11, 21, 30, 40], [7, 7, 7, 7, 7, 7, 7, 7]) := by decide +kernel

private theorem crossed_append (size : ℕ) (rows : ℕ → ℕ → Option (List R)) (a b c : ℕ) (h : a ≤ b) (h' : b ≤ c) :
    crossed size rows a b ++ crossed size rows b c = crossed size rows a c := by
  unfold crossed
  rw [← List.flatMap_append]
  congr 1
  rw [show c - a = (b - a) + (c - b) by omega, ← List.range'_append_1]
  congr 2
  omega

/-- **C124** (restart): a run is stopped before iteration `N1` and continued from the checkpoint of iteration `N0 ≤ N1`
until iteration `N`. The snapshot then holds each particle found until the last multiple of the period once, whatever the
particles are, if and only if the last iteration at which the first run wrote its buffers is the one just before the
checkpoint. -/
theorem C124_restart_iff (comm : Bool) (size : ℕ) (h0 : 0 < size) (hc : comm = false → size = 1) (Q : List String)
    (hne : Q ≠ []) (hQ : ∀ q ∈ Q, q ∈ supported) (period : ℕ) (col : String → R → A) [Nonempty R] (N1 N0 N m1 m2 : ℕ)
    (hm1 : LastWrite period 0 N1 m1) (hm2 : LastWrite period N0 N m2) :
    (∀ rows : ℕ → ℕ → Option (List R), ∃ (f : Slice A) (L : List R), runs false comm size Q period
        [Run.part col ⟨0, N1, rows⟩, Run.part col ⟨N0, N, rows⟩] none = .ok (some f) ∧ Holds Q col f L ∧
        L.Perm (crossed size rows 0 m2)) ↔ m1 = N0 := by
  -- content of the file for any particles
  have H : ∀ rows : ℕ → ℕ → Option (List R), ∃ (f : Slice A) (L : List R), runs false comm size Q period
        [Run.part col ⟨0, N1, rows⟩, Run.part col ⟨N0, N, rows⟩] none = .ok (some f) ∧ Holds Q col f L ∧
        L.Perm (crossed size rows 0 m1 ++ crossed size rows N0 m2) := by
    intro rows
    obtain ⟨l, L, h1, h2, h3⟩ := part_run comm size h0 hc Q hne hQ period col ⟨0, N1, rows⟩ m1 hm1 none
    obtain ⟨f, L', h4, h5, h6⟩ := runs_from comm size h0 hc Q hne hQ period col (fun _ => m2) [⟨N0, N, rows⟩]
      (by simpa using hm2) l.file L (fun q hq => by simpa using h2 q hq)
    refine ⟨f, L', ?_, h5, h6.trans ?_⟩
    · rw [runs, h1]
      exact h4
    · simpa using h3.append_right _
  constructor
  · intro h
    obtain ⟨r⟩ := ‹Nonempty R›
    obtain ⟨f, L, h1, h2, h3⟩ := h fun _ k => if k = 0 then some [r] else none
    obtain ⟨f', L', h1', h2', h3'⟩ := H fun _ k => if k = 0 then some [r] else none
    rw [h1] at h1'
    simp only [Except.ok.injEq, Option.some.injEq] at h1'
    subst h1'
    obtain ⟨q, hq⟩ := List.exists_mem_of_ne_nil Q hne
    have e : L.length = L'.length := by
      have := congrArg List.length ((h2 q hq).symm.trans (h2' q hq))
      simpa using this
    have c : ∀ a b, (crossed size (fun _ k => if k = 0 then some [r] else none) a b).length = b - a := by
      intro a b
      obtain ⟨s, rfl⟩ : ∃ s, size = s + 1 := ⟨size - 1, by omega⟩
      have : ((List.range (s + 1)).flatMap fun k => (if k = 0 then some [r] else none).getD []) = [r] := by
        rw [List.range_succ_eq_map, List.flatMap_cons, List.flatMap_map]
        simp
      unfold crossed
      simp only [this]
      simp
    rw [h3.length_eq, h3'.length_eq, List.length_append, c, c, c] at e
    have := hm2.1
    omega
  · rintro rfl rows
    obtain ⟨f, L, h1, h2, h3⟩ := H rows
    exact ⟨f, L, h1, h2, by rwa [crossed_append _ _ _ _ _ (by omega) hm2.1] at h3⟩

/-- Period 5, first run stopped at its end at iteration 6, checkpoint of iteration 6: the restart fits. -/
example : LastWrite 5 0 6 6 ∧ LastWrite 5 6 20 16 := by
  refine ⟨⟨by omega, by omega, by omega, fun n _ _ => by omega⟩, ⟨by omega, by omega, by omega, fun n _ _ => by omega⟩⟩

/-- **C124** (usual checkpoints): if checkpoints are written at multiples of the period (period at least 2) and the first
run ends with the checkpoint, the restart never fits. -/
theorem C124_multiple_violated (comm : Bool) (size : ℕ) (h0 : 0 < size) (hc : comm = false → size = 1) (Q : List String)
    (hne : Q ≠ []) (hQ : ∀ q ∈ Q, q ∈ supported) (period : ℕ) (hp : 2 ≤ period) (col : String → R → A) [Nonempty R]
    (N0 N m2 : ℕ) (hN : 0 < N0) (hd : N0 % period = 0) (hm2 : LastWrite period N0 N m2) :
    ∃ rows : ℕ → ℕ → Option (List R), ¬ ∃ (f : Slice A) (L : List R), runs false comm size Q period
        [Run.part col ⟨0, N0, rows⟩, Run.part col ⟨N0, N, rows⟩] none = .ok (some f) ∧ Holds Q col f L ∧
        L.Perm (crossed size rows 0 m2) := by
  by_contra hcon
  push Not at hcon
  obtain ⟨m1, hm1⟩ := exists_lastWrite period 0 N0 (by omega)
  have h := (C124_restart_iff comm size h0 hc Q hne hQ period col N0 N0 N m1 m2 hm1 hm2).1 hcon
  subst h
  have h1 := hm1.2.2.1 hN
  have h2 : (m1 - 1 + 1) % period = 0 := by rwa [Nat.sub_add_cancel hN]
  rw [Nat.add_mod, h1, Nat.zero_add, Nat.mod_mod, Nat.mod_eq_of_lt (by omega)] at h2
  omega

/-- Period 2, checkpoint at 4: what is found at iteration 3 is lost. Checkpoint at 2, first run killed after iteration 4:
what is found at iterations 2, 3 and 4 is there twice. -/
example : (let col := fun (_ : String) (r : ℤ) => r
    let rows := fun (n k : ℕ) => if k = 0 then some [(n : ℤ)] else none
    ((runs false false 1 ["x"] 2 [Run.part col ⟨0, 4, rows⟩, Run.part col ⟨4, 7, rows⟩] none).toOption.join.map
        fun f => f "x",
     (runs false false 1 ["x"] 2 [Run.part col ⟨0, 5, rows⟩, Run.part col ⟨2, 7, rows⟩] none).toOption.join.map
        fun f => f "x")) =
    (some [0, 1, 2, 4, 5, 6], some [0, 1, 2, 3, 4, 2, 3, 4, 5, 6]) := by decide +kernel

/-- **C124** (repetition): repeating a simulation in the same directory doubles every particle of the snapshot. -/
theorem C124_repeat_violated (comm : Bool) (size : ℕ) (h0 : 0 < size) (hc : comm = false → size = 1) (Q : List String)
    (hne : Q ≠ []) (hQ : ∀ q ∈ Q, q ∈ supported) (period : ℕ) (col : String → R → A) (N m : ℕ)
    (hm : LastWrite period 0 N m) (rows : ℕ → ℕ → Option (List R)) :
    ∃ (f : Slice A) (L : List R), runs false comm size Q period [Run.part col ⟨0, N, rows⟩, Run.part col ⟨0, N, rows⟩] none = .ok (some f) ∧
      Holds Q col f L ∧ L.Perm (crossed size rows 0 m ++ crossed size rows 0 m) := by
  obtain ⟨f, L, h1, h2, h3⟩ := C124_runs comm size h0 hc Q hne hQ period col (fun _ => m)
    [⟨0, N, rows⟩, ⟨0, N, rows⟩] (by simp) (by simpa using hm)
  exact ⟨f, L, h1, h2, by simpa using h3⟩

/-- The first two iterations, twice. -/
example : LastWrite 1 0 2 2 ∧ crossed 1 (fun n _ => some [(n : ℤ)]) 0 2 = [0, 1] :=
  ⟨⟨by omega, by omega, by omega, fun n _ _ => by omega⟩, by decide +kernel⟩

/-- **C124** (killed while writing): if a run is killed when some, but not all quantities of a snapshot with new particles have
been appended, the datasets do not belong together any more, whatever runs follow in the same directory. -/
theorem C124_killed_violated (comm : Bool) (size : ℕ) (h0 : 0 < size) (hc : comm = false → size = 1) (Q : List String)
    (hne : Q ≠ []) (hQ : ∀ q ∈ Q, q ∈ supported) (period : ℕ) (col : String → R → A) (rows : ℕ → ℕ → Option (List R))
    (a k m : ℕ) (hp : (a + k) % period = 0) (hm : LastWrite period a (a + k) m)
    (hnew : crossed size rows m (a + k + 1) ≠ []) (j : ℕ) (q q' : String) (hq : q ∈ Q.take j) (hq' : q' ∈ Q)
    (hq'' : q' ∉ Q.take j) (rs : List (Run R)) (hrs : ∀ r ∈ rs, r.first ≤ r.stop) :
    ∃ (l : Lab A) (f f' : Slice A),
      one false comm size Q period none a (Run.part col ⟨a, a + k, rows⟩).new k = .ok l ∧
      killed comm size Q j (l.store ((Run.part col ⟨a, a + k, rows⟩).new (a + k))) = .ok f ∧
      runs false comm size Q period (rs.map (Run.part col)) (some f) = .ok (some f') ∧
      ¬ ∃ L : List R, Holds Q col f' L := by
  obtain ⟨l, L, h1, h2, h3⟩ := part_run comm size h0 hc Q hne hQ period col ⟨a, a + k, rows⟩ m hm none
  obtain ⟨l', L', h1', h2', h3'⟩ := part_run comm size h0 hc Q hne hQ period col ⟨a, a + k + 1, rows⟩ (a + k + 1)
    ⟨by simp only; omega, le_refl _, fun _ => by simpa using hp, fun n _ _ => by simp only at *; omega⟩ none
  have h1 : one false comm size Q period none a (Run.part col ⟨a, a + k, rows⟩).new k = .ok l := by
    have e : (Run.part col ⟨a, a + k, rows⟩).count = k := by simp [Run.part]
    rwa [e] at h1
  have h1' : one false comm size Q period none a (Run.part col ⟨a, a + k, rows⟩).new (k + 1) = .ok l' := by
    have e : (Run.part col ⟨a, a + k + 1, rows⟩).count = k + 1 := by simp [Run.part]; omega
    rwa [e] at h1'
  rw [one, h1] at h1'
  change l.write comm size Q period (a + k) _ = _ at h1'
  unfold Lab.write at h1'
  simp only [if_pos hp] at h1'
  unfold Lab.flush at h1'
  dsimp only at h1'
  cases hd : collect comm size Q fun i =>
      compactSlices ((l.store ((Run.part col ⟨a, a + k, rows⟩).new (a + k))).buf i) with
  | error e => rw [hd] at h1'; exact absurd h1' (by intro h; cases h)
  | ok d =>
    rw [hd] at h1'
    simp only [ok_bind] at h1'
    cases h1'
    obtain ⟨f', L2, h4, h5⟩ := runs_append comm size h0 hc Q hne hQ period col rs hrs (exists_lastWrite period)
      (fun q => if q ∈ Q.take j then l.file q ++ d q else l.file q)
    refine ⟨l, _, f', h1, ?_, h4, ?_⟩
    · unfold killed
      rw [hd]
      rfl
    · rintro ⟨L3, h6⟩
      have hqQ := List.mem_of_mem_take hq
      have e1 := congrArg List.length ((h5 q hqQ).symm.trans (h6 q hqQ))
      have e2 := congrArg List.length ((h5 q' hq').symm.trans (h6 q' hq'))
      simp only [if_pos hq, if_neg hq''] at e1 e2
      have e3 := h2' q hqQ
      simp only [if_pos hqQ] at e3
      have e4 := congrArg List.length e3
      have e5 := congrArg List.length (h2 q' hq')
      have e6 := h3.length_eq
      have e7 := h3'.length_eq
      have e8 := congrArg List.length (crossed_append size rows a m (a + k + 1) hm.1 (by have := hm.2.1; omega))
      have e9 := List.length_pos_iff.2 hnew
      simp only [Option.getD_none, List.length_append, List.length_map, List.length_nil] at *
      have e10 : ((l.store ((Run.part col ⟨a, a + k, rows⟩).new (a + k))).file q).length = (l.file q).length := rfl
      omega

/-- Killed at iteration 2 after the positions `x`: the restart from iteration 1 appends to both, and the rows differ. -/
example : (let col := fun (q : String) (r : ℤ) => if q = "x" then r else 100 + r
    let rows := fun (n k : ℕ) => if k = 0 then some [(n : ℤ)] else none
    ((do
      let l ← one false false 1 ["x", "w"] 2 none 0 (Run.part col ⟨0, 2, rows⟩).new 2
      let f ← killed false 1 ["x", "w"] 1 (l.store ((Run.part col ⟨0, 2, rows⟩).new 2))
      runs false false 1 ["x", "w"] 2 [Run.part col ⟨1, 5, rows⟩] (some f)).toOption.join.map
        fun (f : Slice ℤ) => (f "x", f "w"))) = some ([0, 1, 2, 1, 2, 3, 4], [100, 101, 102, 103, 104]) := by decide +kernel

/-- **C124** (older h5py): a run in a directory whose file has particles already ends with an exception in the constructor,
and a run in a directory with empty datasets does not. -/
theorem C124_old_h5py_iff (Q : List String) (hQ : ∀ q ∈ Q, q ∈ supported) (f : Slice A) :
    (openFile true Q (some f) = .error (.typeError "Shapes do not match") ↔ ∃ q ∈ Q, f q ≠ []) ∧
      (openFile true Q (some f) = .ok f ↔ ∀ q ∈ Q, f q = []) := by
  by_cases h : ∀ q ∈ Q, f q = []
  · have e : openFile true Q (some f) = .ok f := by
      unfold openFile
      rw [forM_ok]
      · rfl
      · intro q hq
        unfold requireDataset
        rw [known_eq, if_pos (hQ q hq)]
        simp [h q hq]
    rw [e]
    refine ⟨⟨fun hh => by simp at hh, ?_⟩, ⟨fun _ => h, fun _ => rfl⟩⟩
    rintro ⟨q, hq, hf⟩
    exact absurd (h q hq) hf
  · have e : openFile true Q (some f) = .error (.typeError "Shapes do not match") := by
      have : Q.forM (requireDataset true (some f)) = .error (.typeError "Shapes do not match") := by
        induction Q with
        | nil => exact absurd (by simp) h
        | cons q Q ih =>
          change (requireDataset true (some f) q >>= fun _ => Q.forM (requireDataset true (some f))) = _
          by_cases hq : f q = []
          · have e1 : requireDataset true (some f) q = .ok () := by
              unfold requireDataset
              rw [known_eq, if_pos (hQ q (by simp))]
              simp [hq]
            rw [e1]
            exact ih (fun q' h' => hQ q' (by simp [h'])) (fun h' => h (by
              intro q' hq'
              rcases List.mem_cons.1 hq' with rfl | hq'
              · exact hq
              · exact h' q' hq'))
          · have e1 : requireDataset true (some f) q = .error (.typeError "Shapes do not match") := by
              unfold requireDataset
              rw [known_eq, if_pos (hQ q (by simp))]
              simp [hq]
            rw [e1]
            rfl
      unfold openFile
      rw [this]
      rfl
    rw [e]
    push Not at h
    refine ⟨⟨fun _ => h, fun _ => rfl⟩, ⟨fun hh => by simp at hh, fun hh => ?_⟩⟩
    obtain ⟨q, hq, hf⟩ := h
    exact absurd (hh q hq) hf

/-- A file with one particle, and one without. -/
example : (openFile true ["x"] (some fun _ => [(1 : ℤ)]) matches .error _) = true ∧
    (openFile true ["x"] (some fun _ => ([] : List ℤ)) matches .ok _) = true := by decide +kernel

/-- **C124** (quantities): fields, Lorentz factor and other names are refused by the constructor, before anything is
written to a dataset. -/
theorem C124_quantities (strict : Bool) (Q : List String) (q : String) (h : q ∈ Q) (hq : q ∉ supported) (old : Option (Slice A)) :
    ∃ e, openFile strict Q old = .error e := by
  have : ∃ e, Q.forM (requireDataset strict old) = .error e := by
    induction Q with
    | nil => simp at h
    | cons q' Q ih =>
      change ∃ e, (requireDataset strict old q' >>= fun _ => Q.forM (requireDataset strict old)) = .error e
      cases h1 : requireDataset strict old q' with
      | error e => exact ⟨e, rfl⟩
      | ok u =>
        rcases List.mem_cons.1 h with rfl | h'
        · unfold requireDataset at h1
          rw [known_eq, if_neg hq] at h1
          simp at h1
        · exact ih h'
  obtain ⟨e, he⟩ := this
  exact ⟨e, by unfold openFile; rw [he]; rfl⟩

/-- The Lorentz factor. -/
example : "gamma" ∉ supported ∧ "Ex" ∉ supported := by decide

end Fbpic
