import Verif.Spec.LabPtclSplit
import Verif.Props.LabSplit
import Verif.Props.LabRuns

/-!
# C127: selection of the lab-frame particle snapshots
-/

namespace Fbpic

open PtclDiag LabRuns Spec.LabRuns Spec.LabPtclSplit
open LabSplit (Series)
open LabPtclSplit (simulate simulateAll)

variable {K : Type} [Field K] [LinearOrder K] {A R : Type} [Zero A]

omit [Zero A] in
private theorem selects_iff (s : Series K) (col : String → R → A) (m : Sim K R) (i : ℕ) :
    i ∈ s.list (m.simul col).toSimul ↔ m.Selects s i := Series.mem_list s _ i

open scoped Classical in
/-- The runs that one file sees. -/
private noncomputable def fileRuns (s : Series K) (l : List (Sim K R)) (i : ℕ) : List (Run R) :=
  (l.filter fun m => m.Selects s i).map (Sim.run i)

private theorem all_files (comm : Bool) (size : ℕ) (Q : List String) (period : ℕ) (s : Series K) (col : String → R → A)
    (l : List (Sim K R)) (dir : ℕ → Option (Slice A))
    (h : ∀ i, ∃ o, runs false comm size Q period ((fileRuns s l i).map (Run.part col)) (dir i) = .ok o) :
    ∃ dir', simulateAll false comm size Q period s (l.map (Sim.simul col)) dir = .ok dir' ∧
      ∀ i, runs false comm size Q period ((fileRuns s l i).map (Run.part col)) (dir i) = .ok (dir' i) := by
  induction l generalizing dir with
  | nil => exact ⟨dir, rfl, fun i => rfl⟩
  | cons m l ih =>
    have hpos : ∀ i, m.Selects s i → fileRuns s (m :: l) i = m.run i :: fileRuns s l i := by
      intro i hi
      unfold fileRuns
      rw [List.filter_cons_of_pos (by simpa using hi), List.map_cons]
    have hneg : ∀ i, ¬ m.Selects s i → fileRuns s (m :: l) i = fileRuns s l i := by
      intro i hi
      unfold fileRuns
      rw [List.filter_cons_of_neg (by simpa using hi)]
    -- the file of a snapshot that is selected
    have key : ∀ i, m.Selects s i → ∃ l1, one false comm size Q period (dir i) (m.simul col).first ((m.simul col).new i)
        (m.simul col).count = .ok l1 ∧ runs false comm size Q period ((fileRuns s (m :: l) i).map (Run.part col)) (dir i) =
          runs false comm size Q period ((fileRuns s l i).map (Run.part col)) (some l1.file) := by
      intro i hi
      obtain ⟨o, ho⟩ := h i
      rw [hpos i hi, List.map_cons, runs] at ho ⊢
      cases h1 : one false comm size Q period (dir i) ((m.run i).part col).first ((m.run i).part col).new
          ((m.run i).part col).count with
      | error e => rw [h1] at ho; exact absurd ho (by intro h; cases h)
      | ok l1 => exact ⟨l1, h1, rfl⟩
    obtain ⟨dir1, h1, h2, h3⟩ := fold_update_dir
      (fun i o => do
        let l1 ← one false comm size Q period o (m.simul col).first ((m.simul col).new i) (m.simul col).count
        return l1.file)
      (s.list (m.simul col).toSimul) (List.nodup_range.filter _) dir (fun i hi => by
        obtain ⟨l1, h4, -⟩ := key i ((selects_iff s col m i).1 hi)
        exact ⟨l1.file, by rw [h4]; rfl⟩)
    have hstep : ∀ i, runs false comm size Q period ((fileRuns s (m :: l) i).map (Run.part col)) (dir i) =
        runs false comm size Q period ((fileRuns s l i).map (Run.part col)) (dir1 i) := by
      intro i
      by_cases hi : m.Selects s i
      · obtain ⟨d, h4, h5⟩ := h2 i ((selects_iff s col m i).2 hi)
        obtain ⟨l1, h6, h7⟩ := key i hi
        rw [h6] at h4
        cases h4
        rw [h7, h5]
      · rw [hneg i hi, h3 i fun hm => hi ((selects_iff s col m i).1 hm)]
    obtain ⟨dir2, h4, h5⟩ := ih dir1 fun i => by
      obtain ⟨o, ho⟩ := h i
      exact ⟨o, by rw [← hstep, ho]⟩
    refine ⟨dir2, ?_, fun i => by rw [hstep]; exact h5 i⟩
    have hs : simulate false comm size Q period s (m.simul col) dir = .ok dir1 := by
      rw [← h1]
      unfold simulate
      congr 1
      funext dir i
      cases one false comm size Q period (dir i) (m.simul col).first ((m.simul col).new i) (m.simul col).count <;> rfl
    unfold simulateAll at h4 ⊢
    rw [List.map_cons, List.foldlM_cons, hs]
    exact h4

omit [Zero A] in
private theorem fileRuns_nil (s : Series K) (l : List (Sim K R)) (i : ℕ) : fileRuns s l i = [] ↔ ∀ m ∈ l, ¬ m.Selects s i := by
  unfold fileRuns
  rw [List.map_eq_nil_iff, List.filter_eq_nil_iff]
  simp

private theorem lastWrite_unique (period a b m m' : ℕ) (h : LastWrite period a b m) (h' : LastWrite period a b m') : m = m' := by
  obtain ⟨h1, h2, h3, h4⟩ := h
  obtain ⟨g1, g2, g3, g4⟩ := h'
  rcases lt_trichotomy m m' with hl | he | hl
  · exact absurd (g3 (by omega)) (h4 (m' - 1) (by omega) (by omega))
  · exact he
  · exact absurd (h3 (by omega)) (g4 (m - 1) (by omega) (by omega))

private theorem file_ok (comm : Bool) (size : ℕ) (h0 : 0 < size) (hc : comm = false → size = 1) (Q : List String)
    (hne : Q ≠ []) (hQ : ∀ q ∈ Q, q ∈ supported) (period : ℕ) (s : Series K) (col : String → R → A) (upto : Sim K R → ℕ)
    (l : List (Sim K R)) (hm : ∀ m ∈ l, LastWrite period m.first m.stop (upto m)) (i : ℕ) :
    ∃ o, runs false comm size Q period ((fileRuns s l i).map (Run.part col)) none = .ok o ∧
      (o = none ↔ ∀ m ∈ l, ¬ m.Selects s i) ∧
      ∀ f, o = some f → ∃ L : List R, Holds Q col f L ∧ L.Perm (found s size upto l i) := by
  classical
  by_cases hn : fileRuns s l i = []
  · refine ⟨none, by rw [hn]; rfl, ⟨fun _ => (fileRuns_nil s l i).1 hn, fun _ => rfl⟩, fun f hf => by cases hf⟩
  · -- the last iteration of a run that is written
    have hu : ∃ u : Run R → ℕ, ∀ m ∈ l, u (m.run i) = upto m := by
      refine ⟨fun r => if h : r.first ≤ r.stop then (exists_lastWrite period r.first r.stop h).choose else 0, fun m hml => ?_⟩
      have hle : (m.run i).first ≤ (m.run i).stop := (hm m hml).1.trans (hm m hml).2.1
      simp only [dif_pos hle]
      exact lastWrite_unique _ _ _ _ _ (exists_lastWrite period _ _ hle).choose_spec (hm m hml)
    obtain ⟨u, hu⟩ := hu
    obtain ⟨f, L, h1, h2, h3⟩ := C124_runs comm size h0 hc Q hne hQ period col u (fileRuns s l i) hn (by
      intro r hr
      unfold fileRuns at hr
      obtain ⟨m, hml, rfl⟩ := List.mem_map.1 hr
      have hml := List.mem_of_mem_filter hml
      rw [hu m hml]
      exact hm m hml)
    refine ⟨some f, h1, ⟨fun h => by (cases h), fun h => absurd ((fileRuns_nil s l i).2 h) hn⟩, fun f' hf => ?_⟩
    cases hf
    refine ⟨L, h2, h3.trans (List.Perm.of_eq ?_)⟩
    unfold fileRuns found
    rw [List.flatMap_map]
    refine List.flatMap_congr fun m hml => ?_
    rw [hu m (List.mem_of_mem_filter hml)]
    rfl

/-- **C127** (files): after any simulations in one directory, there is a file for exactly the snapshots whose lab time is in the
range of some simulation, and it holds, with the same order for all quantities, the particles that each of these simulations
found up to its last multiple of the period, once for each simulation, and nothing else. -/
theorem C127_files (comm : Bool) (size : ℕ) (h0 : 0 < size) (hc : comm = false → size = 1) (Q : List String)
    (hne : Q ≠ []) (hQ : ∀ q ∈ Q, q ∈ supported) (period : ℕ) (s : Series K) (col : String → R → A) (upto : Sim K R → ℕ)
    (l : List (Sim K R)) (hm : ∀ m ∈ l, LastWrite period m.first m.stop (upto m)) :
    ∃ dir, simulateAll false comm size Q period s (l.map (Sim.simul col)) (fun _ => none) = .ok dir ∧
      (∀ i, dir i = none ↔ ∀ m ∈ l, ¬ m.Selects s i) ∧
      ∀ i f, dir i = some f → ∃ L : List R, Holds Q col f L ∧ L.Perm (found s size upto l i) := by
  have H := file_ok comm size h0 hc Q hne hQ period s col upto l hm
  obtain ⟨dir, h1, h2⟩ := all_files comm size Q period s col l (fun _ => none) fun i => by
    obtain ⟨o, ho, -⟩ := H i
    exact ⟨o, ho⟩
  refine ⟨dir, h1, fun i => ?_, fun i f hf => ?_⟩
  · obtain ⟨o, ho, h3, -⟩ := H i
    rw [h2 i] at ho
    cases ho
    exact h3
  · obtain ⟨o, ho, -, h3⟩ := H i
    rw [h2 i] at ho
    cases ho
    exact h3 f hf

/-- Snapshots at the lab times 0, 12 and 24; the first simulation writes the first two, the second one the last two. -/
example : ((simulateAll false false 1 ["x"] 2 (⟨1, 100, 0, 12, 3⟩ : Series ℚ)
    ([⟨0, some 24, 0, 3, fun i n _ => some [(10 * i + n : ℤ)]⟩, ⟨12, none, 2, 5, fun i n _ => some [(10 * i + n : ℤ)]⟩].map
      (Sim.simul fun _ r => r)) fun _ => none).toOption.map fun dir => (List.range 4).map fun i => (dir i).map fun f => f "x") =
    some [some [0, 1, 2], some [10, 11, 12, 12, 13, 14], some [22, 23, 24], none] := by
  decide +kernel

/-- **C127** (splitting): writing the snapshots before the lab time `T` with one simulation and those from `T` on with another one
that finds the same particles gives the same directory as one simulation that writes all of them. -/
theorem C127_split (comm : Bool) (size : ℕ) (h0 : 0 < size) (hc : comm = false → size = 1) (Q : List String)
    (hne : Q ≠ []) (hQ : ∀ q ∈ Q, q ∈ supported) (period : ℕ) (s : Series K) (col : String → R → A) (t0 T : K) (ht : t0 ≤ T)
    (t1 : Option K) (ht1 : ∀ t, t1 = some t → T ≤ t) (a b : ℕ) (hab : a ≤ b) (rows : ℕ → ℕ → ℕ → Option (List R)) :
    simulateAll false comm size Q period s [Sim.simul col ⟨t0, some T, a, b, rows⟩, Sim.simul col ⟨T, t1, a, b, rows⟩]
        (fun _ => none) =
      simulateAll false comm size Q period s [Sim.simul col ⟨t0, t1, a, b, rows⟩] (fun _ => none) := by
  obtain ⟨u, hu⟩ := exists_lastWrite period a b hab
  have H1 := file_ok comm size h0 hc Q hne hQ period s col (fun _ => u) [⟨t0, some T, a, b, rows⟩, ⟨T, t1, a, b, rows⟩]
    (by simpa using hu)
  have H2 := file_ok comm size h0 hc Q hne hQ period s col (fun _ => u) [⟨t0, t1, a, b, rows⟩] (by simpa using hu)
  obtain ⟨dir, h1, h2⟩ := all_files comm size Q period s col [⟨t0, some T, a, b, rows⟩, ⟨T, t1, a, b, rows⟩] (fun _ => none)
    fun i => (H1 i).imp fun _ h => h.1
  obtain ⟨dir', h1', h2'⟩ := all_files comm size Q period s col [⟨t0, t1, a, b, rows⟩] (fun _ => none)
    fun i => (H2 i).imp fun _ h => h.1
  have hr : ∀ i, fileRuns s [⟨t0, some T, a, b, rows⟩, ⟨T, t1, a, b, rows⟩] i = fileRuns s [⟨t0, t1, a, b, rows⟩] i := by
    intro i
    unfold fileRuns
    rcases lt_or_ge ((i : K) * s.dt) T with h | h
    · have e1 : ¬ (⟨T, t1, a, b, rows⟩ : Sim K R).Selects s i := fun hs => absurd hs.2.1 (not_le.2 h)
      have e2 : (⟨t0, some T, a, b, rows⟩ : Sim K R).Selects s i ↔ (⟨t0, t1, a, b, rows⟩ : Sim K R).Selects s i :=
        ⟨fun hs => ⟨hs.1, hs.2.1, fun t e => lt_of_lt_of_le h (ht1 t e)⟩,
          fun hs => ⟨hs.1, hs.2.1, fun t e => by cases e; exact h⟩⟩
      by_cases hs : (⟨t0, t1, a, b, rows⟩ : Sim K R).Selects s i
      · simp [e1, e2.2 hs, hs, Sim.run]
      · simp [e1, mt e2.1 hs, hs]
    · have e1 : ¬ (⟨t0, some T, a, b, rows⟩ : Sim K R).Selects s i := fun hs => absurd (hs.2.2 T rfl) (not_lt.2 h)
      have e2 : (⟨T, t1, a, b, rows⟩ : Sim K R).Selects s i ↔ (⟨t0, t1, a, b, rows⟩ : Sim K R).Selects s i :=
        ⟨fun hs => ⟨hs.1, ht.trans h, hs.2.2⟩, fun hs => ⟨hs.1, h, hs.2.2⟩⟩
      by_cases hs : (⟨t0, t1, a, b, rows⟩ : Sim K R).Selects s i
      · simp [e1, e2.2 hs, hs, Sim.run]
      · simp [e1, mt e2.1 hs, hs]
  have e : dir = dir' := by
    funext i
    have := h2 i
    rw [hr i, h2' i] at this
    exact (Except.ok.inj this).symm
  simp only [List.map_cons, List.map_nil] at h1 h1'
  rw [h1, h1', e]

/-- **C127** (overlapping ranges): a snapshot in the ranges of two simulations that find the same particles holds each particle
twice, whereas the ranges of the field snapshots may overlap (C126). -/
theorem C127_overlap_violated (comm : Bool) (size : ℕ) (h0 : 0 < size) (hc : comm = false → size = 1) (Q : List String)
    (hne : Q ≠ []) (hQ : ∀ q ∈ Q, q ∈ supported) (period : ℕ) (s : Series K) (col : String → R → A) (t0 t0' : K)
    (t1 t1' : Option K) (a b u : ℕ) (hu : LastWrite period a b u) (rows : ℕ → ℕ → ℕ → Option (List R)) (i : ℕ)
    (hs : (⟨t0, t1, a, b, rows⟩ : Sim K R).Selects s i) (hs' : (⟨t0', t1', a, b, rows⟩ : Sim K R).Selects s i) :
    ∃ dir f, simulateAll false comm size Q period s [Sim.simul col ⟨t0, t1, a, b, rows⟩, Sim.simul col ⟨t0', t1', a, b, rows⟩]
        (fun _ => none) = .ok dir ∧ dir i = some f ∧
      ∃ L : List R, Holds Q col f L ∧ L.Perm (crossed size (rows i) a u ++ crossed size (rows i) a u) := by
  obtain ⟨dir, h1, h2, h3⟩ := C127_files comm size h0 hc Q hne hQ period s col (fun _ => u)
    [⟨t0, t1, a, b, rows⟩, ⟨t0', t1', a, b, rows⟩] (by simpa using hu)
  cases hd : dir i with
  | none => exact absurd hs ((h2 i).1 hd _ (by simp))
  | some f =>
    obtain ⟨L, h4, h5⟩ := h3 i f hd
    refine ⟨dir, f, h1, hd, L, h4, ?_⟩
    simpa [found, hs, hs'] using h5

/-- The snapshot at the lab time 12 is in both ranges, and particles cross its plane. -/
example : (⟨0, some 24, 0, 3, fun i n _ => some [(10 * i + n : ℤ)]⟩ : Sim ℚ ℤ).Selects ⟨1, 100, 0, 12, 3⟩ 1 ∧
    (⟨12, none, 0, 3, fun i n _ => some [(10 * i + n : ℤ)]⟩ : Sim ℚ ℤ).Selects ⟨1, 100, 0, 12, 3⟩ 1 ∧ LastWrite 2 0 3 3 ∧
    crossed 1 (fun n _ => some [(10 + n : ℤ)]) 0 3 = [10, 11, 12] := by
  refine ⟨⟨by norm_num, by norm_num, fun t h => ?_⟩, ⟨by norm_num, by norm_num, fun t h => ?_⟩,
    ⟨by omega, by omega, by omega, fun n _ _ => by omega⟩, by decide +kernel⟩
  · cases h; norm_num
  · cases h

end Fbpic
