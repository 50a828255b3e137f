import Verif.Spec.LabSplit
import Verif.Props.LabFieldRuns

/-!
# C126: selection of the lab-frame snapshots
-/

namespace Fbpic

open BackTransform Spec Spec.LabFieldRuns Spec.LabSplit
open LabFieldRuns (Dataset)
open LabSplit (Series Simul simulate simulateAll)

variable {K : Type} [Field K] [LinearOrder K] [IsStrictOrderedRing K] [FloorRing K] {α : Type} [Zero α]

omit [IsStrictOrderedRing K] [FloorRing K] in
/-- The list of the constructor and the English form of the range. -/
theorem Series.mem_list (s : Series K) (m : Simul K) (i : ℕ) : i ∈ s.list m ↔ Selects s m i := by
  unfold Series.list Selects
  rw [List.mem_filter, List.mem_range, Bool.and_eq_true, decide_eq_true_eq]
  cases m.tMax <;> simp

/-- Loop over the files of a directory, each of which is changed on its own. -/
theorem fold_update_dir {D : Type} (f : ℕ → Option D → Except PyErr D) (l : List ℕ) (hl : l.Nodup) (dir : ℕ → Option D)
    (h : ∀ i ∈ l, ∃ d, f i (dir i) = .ok d) :
    ∃ dir', l.foldlM (fun dir i => do
        let d ← f i (dir i)
        return Function.update dir i (some d)) dir = .ok dir' ∧
      (∀ i ∈ l, ∃ d, f i (dir i) = .ok d ∧ dir' i = some d) ∧ ∀ i, i ∉ l → dir' i = dir i := by
  induction l generalizing dir with
  | nil => exact ⟨dir, rfl, by simp, fun _ _ => rfl⟩
  | cons j l ih =>
    obtain ⟨d, hd⟩ := h j (by simp)
    rw [List.nodup_cons] at hl
    have hne : ∀ i ∈ l, i ≠ j := fun i hi e => hl.1 (e ▸ hi)
    obtain ⟨dir', h1, h2, h3⟩ := ih hl.2 (Function.update dir j (some d)) (fun i hi => by
      rw [Function.update_of_ne (hne i hi)]
      exact h i (by simp [hi]))
    refine ⟨dir', ?_, ?_, ?_⟩
    · rw [List.foldlM_cons, hd]
      exact h1
    · intro i hi
      rcases List.mem_cons.1 hi with rfl | hi
      · exact ⟨d, hd, by rw [h3 i hl.1, Function.update_self]⟩
      · obtain ⟨e, h4, h5⟩ := h2 i hi
        rw [Function.update_of_ne (hne i hi)] at h4
        exact ⟨e, h4, h5⟩
    · intro i hi
      rw [List.mem_cons, not_or] at hi
      rw [h3 i hi.2, Function.update_of_ne hi.1]

omit [LinearOrder K] [IsStrictOrderedRing K] [FloorRing K] in
private theorem snap_eq (s : Series K) (i : ℕ) (p : Snap K) (h : SnapshotOf s i p) : s.snap i = p := by
  obtain ⟨t, a, c⟩ := p
  obtain ⟨rfl, h2, h3⟩ := h
  simp only at h2 h3
  subst h2 h3
  rfl

private theorem snap_Nz (b : Boost K) (dt : K) (s : Series K) (i : ℕ) :
    (s.snap i).Nz b dt = Snap.Nz ⟨0, s.zmin, s.zmax⟩ b dt := by
  unfold Snap.Nz Series.snap
  simp only [add_sub_add_right_eq_sub]

/-- State of the file of snapshot `i`. -/
private def FileOk (b : Boost K) (dt : K) (s : Series K) (w : ℕ → World K α) (lab : α → α) (period size : ℕ) (l : List (Simul K))
    (i : ℕ) (o : Option (Dataset α)) : Prop :=
  (o = none ∧ ∀ m ∈ l, ¬ Selects s m i) ∨
    ∃ disk, o = some ((s.snap i).Nz b dt, disk) ∧ (∃ m ∈ l, Selects s m i) ∧
      Slices b dt (s.snap i) (w i) lab size (WrittenTo s period l i) disk

private theorem simulate_ok (b : Boost K) (hb : IsBoost b) (dt : K) (hdt : 0 < dt) (s : Series K) (w : ℕ → World K α) (lab : α → α)
    (size period : ℕ) (hslow : ∀ i, SlowEdges b dt size (w i)) (hdis : ∀ i, Spec.Disjoint size (w i)) (l : List (Simul K))
    (m : Simul K) (dir : ℕ → Option (Dataset α)) (h : ∀ i, FileOk b dt s w lab period size l i (dir i)) :
    ∃ dir', simulate b dt s w lab period size m dir = .ok dir' ∧
      ∀ i, FileOk b dt s w lab period size (l ++ [m]) i (dir' i) := by
  -- the file of one snapshot that is selected
  have key : ∀ i, ∃ st, LabFieldRuns.one b dt (s.snap i) (w i) lab period size (dir i) m.first m.count = .ok st ∧
      Slices b dt (s.snap i) (w i) lab size
        (fun n => WrittenTo s period l i n ∨ Written period [(m.first, m.count)] n) st.disk := by
    intro i
    rcases h i with ⟨h1, h2⟩ | ⟨disk, h1, -, h3⟩
    · obtain ⟨st, h4, h5⟩ := fieldRun_more b hb dt hdt (s.snap i) (w i) lab size period (hslow i) (hdis i) none
        (WrittenTo s period l i) (Or.inl ⟨rfl, fun n => by rintro ⟨m, hm, hs, -⟩; exact h2 m hm hs⟩) m.first m.count
      exact ⟨st, by rw [h1]; exact h4, h5⟩
    · obtain ⟨st, h4, h5⟩ := fieldRun_more b hb dt hdt (s.snap i) (w i) lab size period (hslow i) (hdis i) (dir i)
        (WrittenTo s period l i) (Or.inr ⟨disk, h1, h3⟩) m.first m.count
      exact ⟨st, h4, h5⟩
  obtain ⟨dir', h1, h2, h3⟩ := fold_update_dir
    (fun i o => do
      let st ← LabFieldRuns.one b dt (s.snap i) (w i) lab period size o m.first m.count
      return ((s.snap i).Nz b dt, st.disk))
    (s.list m) (List.nodup_range.filter _) dir (fun i _ => by
      obtain ⟨st, h4, -⟩ := key i
      exact ⟨_, by rw [h4]; rfl⟩)
  refine ⟨dir', ?_, fun i => ?_⟩
  · rw [← h1]
    unfold simulate
    congr 1
    funext dir i
    cases LabFieldRuns.one b dt (s.snap i) (w i) lab period size (dir i) m.first m.count <;> rfl
  · by_cases hi : i ∈ s.list m
    · obtain ⟨d, h4, h5⟩ := h2 i hi
      obtain ⟨st, h6, h7⟩ := key i
      rw [h6] at h4
      cases h4
      have hs := (Series.mem_list s m i).1 hi
      refine Or.inr ⟨st.disk, h5, ⟨m, by simp, hs⟩, Slices.congr h7 fun n => ?_⟩
      constructor
      · rintro (⟨m', hm', hn⟩ | hn)
        · exact ⟨m', by simp [hm'], hn⟩
        · exact ⟨m, by simp, hs, hn⟩
      · rintro ⟨m', hm', hn⟩
        rcases List.mem_append.1 hm' with hm' | hm'
        · exact Or.inl ⟨m', hm', hn⟩
        · obtain rfl := List.mem_singleton.1 hm'
          exact Or.inr hn.2
    · rw [h3 i hi]
      have hs : ¬ Selects s m i := fun hs => hi ((Series.mem_list s m i).2 hs)
      rcases h i with ⟨g1, g2⟩ | ⟨disk, g1, ⟨m', hm', hs'⟩, g3⟩
      · refine Or.inl ⟨g1, fun m' hm' => ?_⟩
        rcases List.mem_append.1 hm' with hm' | hm'
        · exact g2 m' hm'
        · obtain rfl := List.mem_singleton.1 hm'
          exact hs
      · refine Or.inr ⟨disk, g1, ⟨m', by simp [hm'], hs'⟩, Slices.congr g3 fun n => ?_⟩
        constructor
        · rintro ⟨m', hm', hn⟩
          exact ⟨m', by simp [hm'], hn⟩
        · rintro ⟨m', hm', hn⟩
          rcases List.mem_append.1 hm' with hm' | hm'
          · exact ⟨m', hm', hn⟩
          · obtain rfl := List.mem_singleton.1 hm'
            exact absurd hn.1 hs

/-- **C126** (files): after any simulations in one directory, there is a file for exactly the snapshots whose lab time is in the
range of some simulation, and it holds the slices of the iterations written by these simulations, in the cells of the window
at that lab time. All files have the same number of cells. -/
theorem C126_files (b : Boost K) (hb : IsBoost b) (dt : K) (hdt : 0 < dt) (s : Series K) (w : ℕ → World K α) (lab : α → α)
    (size period : ℕ) (hslow : ∀ i, SlowEdges b dt size (w i)) (hdis : ∀ i, Spec.Disjoint size (w i)) (l : List (Simul K)) :
    ∃ dir, simulateAll b dt s w lab period size l (fun _ => none) = .ok dir ∧
      (∀ i, dir i = none ↔ ∀ m ∈ l, ¬ Selects s m i) ∧
      ∀ i d, dir i = some d → d.1 = Snap.Nz ⟨0, s.zmin, s.zmax⟩ b dt ∧ ∀ p, SnapshotOf s i p →
        Slices b dt p (w i) lab size (WrittenTo s period l i) d.2 := by
  suffices H : ∀ (l0 : List (Simul K)) (dir : ℕ → Option (Dataset α)), (∀ i, FileOk b dt s w lab period size l0 i (dir i)) →
      ∃ dir', simulateAll b dt s w lab period size l dir = .ok dir' ∧
        ∀ i, FileOk b dt s w lab period size (l0 ++ l) i (dir' i) by
    obtain ⟨dir, h1, h2⟩ := H [] (fun _ => none) (fun i => Or.inl ⟨rfl, by simp⟩)
    refine ⟨dir, h1, fun i => ?_, fun i d hd => ?_⟩
    · rcases h2 i with ⟨g1, g2⟩ | ⟨disk, g1, ⟨m, hm, hs⟩, -⟩
      · exact ⟨fun _ => g2, fun _ => g1⟩
      · exact ⟨fun h => (by rw [g1] at h; cases h), fun h => absurd hs (h m hm)⟩
    · rcases h2 i with ⟨g1, -⟩ | ⟨disk, g1, -, g3⟩
      · rw [g1] at hd; cases hd
      · rw [g1] at hd; cases hd
        exact ⟨snap_Nz b dt s i, fun p hp => snap_eq s i p hp ▸ g3⟩
  induction l with
  | nil => exact fun l0 dir h => ⟨dir, rfl, by simpa using h⟩
  | cons m l ih =>
    intro l0 dir h
    obtain ⟨dir1, h1, h2⟩ := simulate_ok b hb dt hdt s w lab size period hslow hdis l0 m dir h
    obtain ⟨dir2, h3, h4⟩ := ih (l0 ++ [m]) dir1 h2
    refine ⟨dir2, ?_, by simpa using h4⟩
    unfold simulateAll at h3 ⊢
    rw [List.foldlM_cons, h1]
    exact h3

/-- **C126** (splitting): writing the snapshots before the lab time `T` with one simulation and those from `T` on with another one
gives the same directory as one simulation that writes all of them. -/
theorem C126_split (b : Boost K) (hb : IsBoost b) (dt : K) (hdt : 0 < dt) (s : Series K) (w : ℕ → World K α) (lab : α → α)
    (size period : ℕ) (hslow : ∀ i, SlowEdges b dt size (w i)) (hdis : ∀ i, Spec.Disjoint size (w i)) (t0 T : K) (ht : t0 ≤ T)
    (t1 : Option K) (ht1 : ∀ t, t1 = some t → T ≤ t) (first count : ℕ) :
    simulateAll b dt s w lab period size [⟨t0, some T, first, count⟩, ⟨T, t1, first, count⟩] (fun _ => none) =
      simulateAll b dt s w lab period size [⟨t0, t1, first, count⟩] (fun _ => none) := by
  obtain ⟨dir, h1, h2, h3⟩ := C126_files b hb dt hdt s w lab size period hslow hdis
    [⟨t0, some T, first, count⟩, ⟨T, t1, first, count⟩]
  obtain ⟨dir', h1', h2', h3'⟩ := C126_files b hb dt hdt s w lab size period hslow hdis [⟨t0, t1, first, count⟩]
  have hsel : ∀ i, (Selects s ⟨t0, some T, first, count⟩ i ∨ Selects s ⟨T, t1, first, count⟩ i) ↔
      Selects s ⟨t0, t1, first, count⟩ i := by
    intro i
    unfold Selects
    constructor
    · rintro (⟨a1, a2, a3⟩ | ⟨a1, a2, a3⟩)
      · exact ⟨a1, a2, fun t h => lt_of_lt_of_le (a3 T rfl) (ht1 t h)⟩
      · exact ⟨a1, ht.trans a2, a3⟩
    · rintro ⟨a1, a2, a3⟩
      rcases lt_or_ge ((i : K) * s.dt) T with h | h
      · exact Or.inl ⟨a1, a2, fun t e => by cases e; exact h⟩
      · exact Or.inr ⟨a1, h, a3⟩
  have hw : ∀ i n, WrittenTo s period [⟨t0, some T, first, count⟩, ⟨T, t1, first, count⟩] i n ↔
      WrittenTo s period [⟨t0, t1, first, count⟩] i n := by
    intro i n
    unfold WrittenTo
    simp only [List.mem_cons, List.not_mem_nil, or_false, exists_eq_or_imp, exists_eq_left]
    rw [← hsel i]
    tauto
  rw [h1, h1']
  congr 1
  funext i
  have hnone : dir i = none ↔ dir' i = none := by
    rw [h2 i, h2' i]
    simp only [List.mem_cons, List.not_mem_nil, or_false, forall_eq_or_imp, forall_eq]
    rw [← hsel i, not_or]
  cases hd : dir i with
  | none => exact (hnone.1 hd).symm
  | some d =>
    cases hd' : dir' i with
    | none => rw [hnone.2 hd'] at hd; cases hd
    | some d' =>
      obtain ⟨e1, e2⟩ := h3 i d hd
      obtain ⟨e1', e2'⟩ := h3' i d' hd'
      congr 1
      exact Prod.ext (e1.trans e1'.symm) (Slices.unique (Slices.congr (e2 (s.snap i) ⟨rfl, rfl, rfl⟩) (hw i))
        (e2' (s.snap i) ⟨rfl, rfl, rfl⟩))

/-- Three snapshots at the lab times 0, 12 and 24, split at 12: the first simulation writes the first one. -/
example : (⟨1, 100, 0, 12, 3⟩ : Series ℚ).list ⟨0, some 12, 0, 13⟩ = [0] ∧
    (⟨1, 100, 0, 12, 3⟩ : Series ℚ).list ⟨12, none, 0, 13⟩ = [1, 2] ∧
    ((simulateAll exBoost 1 ⟨1, 100, 0, 12, 3⟩ (fun _ => exWorld) (fun x => -x) 4 2 [⟨0, some 12, 0, 13⟩, ⟨12, none, 0, 13⟩]
      fun _ => none).toOption.map fun dir => ((dir 1).map fun d => (List.range 6).map fun (i : ℕ) => d.2 (5 + i))) =
      some (some [-10, -9, -8, -7, -6, -5]) := by
  decide +kernel

end Fbpic
