import Verif.Spec.LabFieldRuns
import Verif.Props.BackTransform
import Verif.Props.LabRuns

/-!
# C125: lab-frame field snapshots over several runs
-/

namespace Fbpic

open BackTransform Spec Spec.LabFieldRuns
open Spec.LabRuns (LastWrite)
open LabFieldRuns (openMeshes Dataset)

variable {K : Type} [Field K] [LinearOrder K] [IsStrictOrderedRing K] [FloorRing K] {α : Type} [Zero α]

omit [IsStrictOrderedRing K] [FloorRing K] in
private theorem HoldsOn.congr {size : ℕ} {S T : ℕ → Prop} {rec : ℕ → ℕ → Prop} {zmin dz : K} {zlab : ℕ → K}
    {value : ℕ → ℕ → α} {disk : ℤ → α} (h : HoldsOn size S rec zmin dz zlab value disk) (hST : ∀ n, S n ↔ T n) :
    HoldsOn size T rec zmin dz zlab value disk :=
  ⟨fun n r i hn => h.written n r i ((hST n).2 hn), fun i hi => h.empty i fun n r hn => hi n r ((hST n).1 hn)⟩

/-- The dataset is determined by what it holds. -/
private theorem part_unique {β : Type} [Zero β] {π : α → β} {b : Boost K} {dt : K} {s : Snap K} {w : World K α} {lab : α → α}
    {size : ℕ} {S : ℕ → Prop} {d d' : ℤ → α} (h : SlicesOf π b dt s w lab size S d)
    (h' : SlicesOf π b dt s w lab size S d') (i : ℤ) : π (d i) = π (d' i) := by
  by_cases hex : ∃ n r, S n ∧ r < size ∧ crosses b dt s w n r ∧ InCell s.zminLab (b.dzLab dt) i (s.zLab b (n * dt))
  · obtain ⟨n, r, g1, g2, g3, g4⟩ := hex
    rw [h.written n r i g1 g2 g3 g4, h'.written n r i g1 g2 g3 g4]
  · rw [h.empty i fun n r g1 g2 g3 g4 => hex ⟨n, r, g1, g2, g3, g4⟩,
      h'.empty i fun n r g1 g2 g3 g4 => hex ⟨n, r, g1, g2, g3, g4⟩]

private theorem slices_unique {b : Boost K} {dt : K} {s : Snap K} {w : World K α} {lab : α → α} {size : ℕ} {S : ℕ → Prop}
    {d d' : ℤ → α} (h : Slices b dt s w lab size S d) (h' : Slices b dt s w lab size S d') : d = d' :=
  funext fun i => part_unique (π := id) h h' i

private theorem lastWrite_unique {period a c m m' : ℕ} (h : LastWrite period a c m) (h' : LastWrite period a c m') : m = m' := by
  obtain ⟨h1, h2, h3, h4⟩ := h
  obtain ⟨h1', h2', h3', h4'⟩ := h'
  by_contra hne
  rcases Nat.lt_or_gt_of_ne hne with hlt | hlt
  · exact h4 (m' - 1) (by omega) (by omega) (h3' (by omega))
  · exact h4' (m - 1) (by omega) (by omega) (h3 (by omega))

private theorem one_ok (b : Boost K) (hb : IsBoost b) (dt : K) (hdt : 0 < dt) (s : Snap K) (w : World K α) (lab : α → α)
    (size period : ℕ) (hslow : SlowEdges b dt size w) (hdis : Spec.Disjoint size w) (old : Option (Dataset α)) (d0 : ℤ → α)
    (hopen : openMeshes (s.Nz b dt) old = .ok d0) (a k : ℕ) :
    ∃ m disk, LastWrite period a (a + k) m ∧
      LabFieldRuns.one b dt s w lab period size old a k = .ok ⟨(List.range size).map (bufOf b dt s w m (a + k)), disk⟩ ∧
      ∀ {β : Type} [Zero β] (π : α → β) (_ : π 0 = 0) (S : ℕ → Prop), SlicesOf π b dt s w lab size S d0 →
        SlicesOf π b dt s w lab size (fun n => S n ∨ (a ≤ n ∧ n < m)) disk := by
  induction k with
  | zero =>
    refine ⟨a, d0, ⟨le_refl _, le_refl _, by omega, fun n _ _ => by omega⟩, ?_, fun π _ S h0 =>
      HoldsOn.congr h0 fun n => ⟨Or.inl, fun h => h.resolve_right (by omega)⟩⟩
    rw [LabFieldRuns.one, hopen]
    change Except.ok _ = Except.ok _
    congr 2
    refine List.ext_getElem (by simp) fun r h1 h2 => ?_
    simp [bufOf, iters]
  | succ k ih =>
    obtain ⟨m, disk, ⟨h1, h2, h3, h4⟩, h5, h6⟩ := ih
    rw [LabFieldRuns.one, h5]
    simp only [bind, Except.bind, write]
    rw [store_ok hb hdt s w hslow h2]
    by_cases hp : (a + k) % period = 0
    · rw [if_pos hp]
      obtain ⟨disk', g1, g2⟩ := flush_parts (L := m) (n := a + k + 1) hb hdt s w lab hslow hdis disk
      refine ⟨a + k + 1, disk', ⟨by omega, by omega, fun _ => by simpa using hp, fun n _ _ => by omega⟩, g1, fun π hπ S h0 =>
        HoldsOn.congr (g2 π hπ _ (h6 π hπ S h0)) fun n => ?_⟩
      constructor
      · rintro ((h | h) | h)
        · exact Or.inl h
        · exact Or.inr (by omega)
        · exact Or.inr (by omega)
      · rintro (h | h)
        · exact Or.inl (Or.inl h)
        · by_cases hn : n < m
          · exact Or.inl (Or.inr ⟨h.1, hn⟩)
          · exact Or.inr (by omega)
    · rw [if_neg hp]
      refine ⟨m, disk, ⟨h1, by omega, h3, fun n hn hn' => ?_⟩, rfl, h6⟩
      by_cases hm : n < a + k
      · exact h4 n hn hm
      · obtain rfl : n = a + k := by omega
        exact hp

private theorem runs_ok (b : Boost K) (hb : IsBoost b) (dt : K) (hdt : 0 < dt) (s : Snap K) (w : World K α) (lab : α → α)
    (size period : ℕ) (hslow : SlowEdges b dt size w) (hdis : Spec.Disjoint size w) (l : List (ℕ × ℕ)) (d0 : ℤ → α) :
    ∃ disk, LabFieldRuns.runs b dt s w lab period size l (some (s.Nz b dt, d0)) = .ok (some (s.Nz b dt, disk)) ∧
      ∀ {β : Type} [Zero β] (π : α → β) (_ : π 0 = 0) (S : ℕ → Prop), SlicesOf π b dt s w lab size S d0 →
        SlicesOf π b dt s w lab size (fun n => S n ∨ Written period l n) disk := by
  induction l generalizing d0 with
  | nil => exact ⟨d0, rfl, fun π _ S h0 => HoldsOn.congr h0 fun n => by simp [Written]⟩
  | cons r l ih =>
    obtain ⟨m, d1, h1, h2, h3⟩ := one_ok b hb dt hdt s w lab size period hslow hdis (some (s.Nz b dt, d0)) d0
      (by simp [openMeshes]) r.1 r.2
    obtain ⟨d2, h4, h5⟩ := ih d1
    refine ⟨d2, ?_, fun π hπ S h0 => HoldsOn.congr (h5 π hπ _ (h3 π hπ S h0)) fun n => ?_⟩
    · rw [LabFieldRuns.runs, h2]
      exact h4
    · constructor
      · rintro ((h | h) | ⟨r', hr', m', hm'⟩)
        · exact Or.inl h
        · exact Or.inr ⟨r, by simp, m, h1, h⟩
        · exact Or.inr ⟨r', by simp [hr'], m', hm'⟩
      · rintro (h | ⟨r', hr', m', hm', hn⟩)
        · exact Or.inl (Or.inl h)
        · rcases List.mem_cons.1 hr' with rfl | hr'
          · rw [lastWrite_unique hm' h1] at hn
            exact Or.inl (Or.inr hn)
          · exact Or.inr ⟨r', hr', m', hm', hn⟩

/-- **C125** (content): after any runs of the same simulation in the same directory, stopped at any iterations, the dataset holds
the slices of all iterations that some run has written (those up to its last multiple of the period), each in its cell, and zero
elsewhere. No error is raised. -/
theorem C125_runs (b : Boost K) (hb : IsBoost b) (dt : K) (hdt : 0 < dt) (s : Snap K) (w : World K α) (lab : α → α)
    (size period : ℕ) (hslow : SlowEdges b dt size w) (hdis : Spec.Disjoint size w) (l : List (ℕ × ℕ)) (hl : l ≠ []) :
    ∃ disk, LabFieldRuns.runs b dt s w lab period size l none = .ok (some (s.Nz b dt, disk)) ∧
      Slices b dt s w lab size (Written period l) disk := by
  cases l with
  | nil => exact absurd rfl hl
  | cons r l =>
    obtain ⟨m, d1, h1, h2, h3⟩ := one_ok b hb dt hdt s w lab size period hslow hdis none (fun _ => 0)
      (by simp [openMeshes]) r.1 r.2
    obtain ⟨d2, h4, h5⟩ := runs_ok b hb dt hdt s w lab size period hslow hdis l d1
    refine ⟨d2, ?_, HoldsOn.congr (h5 id rfl _ (h3 id rfl (fun _ => False) ⟨fun n r i h => h.elim, fun i _ => rfl⟩))
      fun n => ?_⟩
    · rw [LabFieldRuns.runs, h2]
      exact h4
    · constructor
      · rintro ((h | h) | ⟨r', hr', m', hm'⟩)
        · exact h.elim
        · exact ⟨r, by simp, m, h1, h⟩
        · exact ⟨r', by simp [hr'], m', hm'⟩
      · rintro ⟨r', hr', m', hm', hn⟩
        rcases List.mem_cons.1 hr' with rfl | hr'
        · rw [lastWrite_unique hm' h1] at hn
          exact Or.inl (Or.inr hn)
        · exact Or.inr ⟨r', hr', m', hm', hn⟩

/-- One more run, in an empty directory or with a dataset of the same shape. -/
theorem fieldRun_more (b : Boost K) (hb : IsBoost b) (dt : K) (hdt : 0 < dt) (s : Snap K) (w : World K α) (lab : α → α)
    (size period : ℕ) (hslow : SlowEdges b dt size w) (hdis : Spec.Disjoint size w) (old : Option (Dataset α)) (S : ℕ → Prop)
    (h : (old = none ∧ ∀ n, ¬ S n) ∨ ∃ d0, old = some (s.Nz b dt, d0) ∧ Slices b dt s w lab size S d0) (a k : ℕ) :
    ∃ st, LabFieldRuns.one b dt s w lab period size old a k = .ok st ∧
      Slices b dt s w lab size (fun n => S n ∨ Written period [(a, k)] n) st.disk := by
  obtain ⟨d0, ho, h0⟩ : ∃ d0, openMeshes (s.Nz b dt) old = .ok d0 ∧ Slices b dt s w lab size S d0 := by
    rcases h with ⟨rfl, h⟩ | ⟨d0, rfl, h⟩
    · exact ⟨fun _ => 0, rfl, fun n r i hn => absurd hn (h n), fun i _ => rfl⟩
    · exact ⟨d0, by simp [openMeshes], h⟩
  obtain ⟨m, disk, h1, h2, h3⟩ := one_ok b hb dt hdt s w lab size period hslow hdis old d0 ho a k
  refine ⟨_, h2, HoldsOn.congr (h3 id rfl S h0) fun n => ?_⟩
  constructor
  · rintro (hn | hn)
    · exact Or.inl hn
    · exact Or.inr ⟨(a, k), by simp, m, h1, hn⟩
  · rintro (hn | ⟨r, hr, m', hm', hn⟩)
    · exact Or.inl hn
    · obtain rfl := List.mem_singleton.1 hr
      rw [lastWrite_unique hm' h1] at hn
      exact Or.inr hn

theorem Slices.congr {b : Boost K} {dt : K} {s : Snap K} {w : World K α} {lab : α → α} {size : ℕ} {S T : ℕ → Prop}
    {d : ℤ → α} (h : Slices b dt s w lab size S d) (hST : ∀ n, S n ↔ T n) : Slices b dt s w lab size T d :=
  HoldsOn.congr h hST

theorem Slices.unique {b : Boost K} {dt : K} {s : Snap K} {w : World K α} {lab : α → α} {size : ℕ} {S : ℕ → Prop}
    {d d' : ℤ → α} (h : Slices b dt s w lab size S d) (h' : Slices b dt s w lab size S d') : d = d' := slices_unique h h'

/-- Cells `0, ..., 19` of the dataset after the runs. -/
def exCells (r : Except PyErr (Option (Dataset ℚ))) : List ℚ :=
  match r with
  | .ok (some d) => (List.range 20).map fun i => d.2 i
  | _ => []

/-- The runs of the example of `C45_run`, stopped after iteration 8 and continued from the checkpoint of iteration 8 or 6. -/
example : exCells (LabFieldRuns.runs exBoost 1 ⟨12, 1, 100⟩ exWorld (fun x => -x) 4 2 [(0, 9), (8, 5)] none) =
      [0, 0, 0, 0, 0, -10, -9, -8, -7, -6, -5, -104, -103, -102, -101, 0, 0, 0, 0, 0] ∧
    exCells (LabFieldRuns.runs exBoost 1 ⟨12, 1, 100⟩ exWorld (fun x => -x) 4 2 [(0, 9), (6, 7)] none) =
      [0, 0, 0, 0, 0, -10, -9, -8, -7, -6, -5, -104, -103, -102, -101, 0, 0, 0, 0, 0] := by decide +kernel

/-- **C125** (restart): a run is stopped before iteration `N1` and continued from the checkpoint of iteration `N0` for `k`
iterations. If the first run had written the slices of all iterations before the checkpoint, the snapshot is the one of the
simulation without interruption. -/
theorem C125_restart (b : Boost K) (hb : IsBoost b) (dt : K) (hdt : 0 < dt) (s : Snap K) (w : World K α) (lab : α → α)
    (size period : ℕ) (hslow : SlowEdges b dt size w) (hdis : Spec.Disjoint size w) (N1 N0 k m1 : ℕ)
    (hm1 : LastWrite period 0 N1 m1) (h : N0 ≤ m1) (hk : N1 ≤ N0 + k) :
    LabFieldRuns.runs b dt s w lab period size [(0, N1), (N0, k)] none =
      LabFieldRuns.runs b dt s w lab period size [(0, N0 + k)] none := by
  obtain ⟨d, h1, h2⟩ := C125_runs b hb dt hdt s w lab size period hslow hdis [(0, N1), (N0, k)] (by simp)
  obtain ⟨d', h1', h2'⟩ := C125_runs b hb dt hdt s w lab size period hslow hdis [(0, N0 + k)] (by simp)
  obtain ⟨m2, hm2⟩ := exists_lastWrite period N0 (N0 + k) (by omega)
  have hm : LastWrite period 0 (N0 + k) (max m1 m2) := by
    obtain ⟨g1, g2, g3, g4⟩ := hm1
    obtain ⟨g1', g2', g3', g4'⟩ := hm2
    refine ⟨by omega, by omega, fun _ => ?_, fun n hn hn' => g4' n (by omega) hn'⟩
    rcases le_total m1 m2 with hle | hle
    · rw [max_eq_right hle]
      by_cases hlt : N0 < m2
      · exact g3' hlt
      · obtain rfl : m2 = N0 := by omega
        obtain rfl : m1 = m2 := by omega
        exact g3 (by omega)
    · rw [max_eq_left hle]
      exact g3 (by omega)
  rw [h1, h1']
  congr 3
  refine slices_unique (HoldsOn.congr h2 fun n => ?_) h2'
  constructor
  · rintro ⟨r, hr, m, hr1, hr2, hr3⟩
    refine ⟨(0, N0 + k), by simp, max m1 m2, by simpa using hm, Nat.zero_le _, ?_⟩
    simp only [List.mem_cons, List.not_mem_nil, or_false] at hr
    rcases hr with rfl | rfl
    · rw [Nat.zero_add] at hr1
      have := lastWrite_unique hr1 hm1
      omega
    · have := lastWrite_unique hr1 hm2
      omega
  · rintro ⟨r, hr, m, hr1, hr2, hr3⟩
    simp only [List.mem_singleton] at hr
    subst hr
    rw [Nat.zero_add] at hr1
    have := lastWrite_unique hr1 hm
    by_cases hn : n < m1
    · exact ⟨(0, N1), by simp, m1, by simpa using hm1, Nat.zero_le _, hn⟩
    · exact ⟨(N0, k), by simp, m2, hm2, by simp only; omega, by omega⟩

/-- Period 4, first run killed after iteration 8, checkpoint of iteration 8. -/
example : LastWrite 4 0 9 9 ∧ 8 ≤ 9 ∧ 9 ≤ 8 + 5 := ⟨⟨by omega, by omega, by omega, fun n _ _ => by omega⟩, by omega, by omega⟩

/-- **C125** (killed while writing): a run is killed at iteration `n`, a multiple of the period, when `j` of the quantities of the
snapshot have been written. If it is continued from a checkpoint whose earlier iterations had all been written before, until after
iteration `n`, all quantities are those of the simulation without interruption. -/
theorem C125_killed {β : Type} [Zero β] (b : Boost K) (hb : IsBoost b) (dt : K) (hdt : 0 < dt) (s : Snap K)
    (w : World K (String → β)) (lab : (String → β) → String → β) (size period : ℕ) (hslow : SlowEdges b dt size w)
    (hdis : Spec.Disjoint size w) (Q : List String) (j n N0 k m1 : ℕ) (hp : n % period = 0) (hm1 : LastWrite period 0 n m1)
    (h : N0 ≤ m1) (hk : n < N0 + k) :
    ∃ st d, LabFieldRuns.one b dt s w lab period size none 0 n = .ok st ∧
      LabFieldRuns.killed lab (s.Nz b dt) Q j { st with bufs := store b dt s w n st.bufs } = .ok d ∧
      LabFieldRuns.runs b dt s w lab period size [(N0, k)] (some (s.Nz b dt, d)) =
        LabFieldRuns.runs b dt s w lab period size [(0, N0 + k)] none := by
  obtain ⟨m, disk, g1, g2, g3⟩ := one_ok b hb dt hdt s w lab size period hslow hdis none (fun _ => 0) (by simp [openMeshes]) 0 n
  rw [Nat.zero_add] at g1 g2
  obtain rfl := lastWrite_unique g1 hm1
  obtain ⟨disk', g4, g5⟩ := flush_parts (L := m) (n := n + 1) hb hdt s w lab hslow hdis disk
  obtain ⟨m2, hm2⟩ := exists_lastWrite period N0 (N0 + k) (by omega)
  have hn2 : n < m2 := by
    by_contra hcon
    exact hm2.2.2.2 n (by omega) hk hp
  have hmle := hm1.2.1
  obtain ⟨d2, h4, h5⟩ := runs_ok b hb dt hdt s w lab size period hslow hdis [(N0, k)]
    (fun i q => if q ∈ Q.take j then disk' i q else disk i q)
  obtain ⟨d3, h6, h7⟩ := C125_runs b hb dt hdt s w lab size period hslow hdis [(0, N0 + k)] (by simp)
  refine ⟨_, fun i q => if q ∈ Q.take j then disk' i q else disk i q, g2, ?_, ?_⟩
  · unfold LabFieldRuns.killed
    dsimp only
    rw [store_ok hb hdt s w hslow hmle, g4]
    rfl
  · rw [h4, h6]
    congr 3
    funext i q
    -- what the dataset of one quantity holds before the second run
    have hq : ∃ c, m ≤ c ∧ c ≤ n + 1 ∧ SlicesOf (fun f : String → β => f q) b dt s w lab size (fun i => i < c)
        (fun i q => if q ∈ Q.take j then disk' i q else disk i q) := by
      have e0 := g3 (fun f : String → β => f q) rfl (fun _ => False) ⟨fun n r i h => h.elim, fun i _ => rfl⟩
      by_cases hqj : q ∈ Q.take j
      · refine ⟨n + 1, by omega, le_refl _, ?_⟩
        have e := g5 (fun f : String → β => f q) rfl _ e0
        unfold SlicesOf
        simp only [if_pos hqj]
        refine HoldsOn.congr e fun i => ?_
        simp only [false_or]
        omega
      · refine ⟨m, le_refl _, by omega, ?_⟩
        unfold SlicesOf
        simp only [if_neg hqj]
        exact HoldsOn.congr e0 fun i => by simp
    obtain ⟨c, hc1, hc2, hc⟩ := hq
    have h0 : LastWrite period 0 (N0 + k) m2 := by
      obtain ⟨a1, a2, a3, a4⟩ := hm2
      exact ⟨Nat.zero_le _, a2, fun _ => a3 (by omega), a4⟩
    refine part_unique (π := fun f : String → β => f q) (b := b) (dt := dt) (s := s) (w := w) (lab := lab) (size := size)
      (S := fun i => i < m2) (HoldsOn.congr (h5 _ rfl _ hc) fun i => ?_) ?_ i
    · constructor
      · rintro (hi | ⟨r, hr, m', hr1, hr2, hr3⟩)
        · omega
        · simp only [List.mem_singleton] at hr
          subst hr
          have := lastWrite_unique hr1 hm2
          omega
      · intro hi
        by_cases hi' : i < c
        · exact Or.inl hi'
        · exact Or.inr ⟨(N0, k), by simp, m2, hm2, by simp only; omega, hi⟩
    · have h8 := HoldsOn.congr (T := fun i => i < m2) h7 fun i => by
        constructor
        · rintro ⟨r, hr, m', hr1, hr2, hr3⟩
          simp only [List.mem_singleton] at hr
          subst hr
          rw [Nat.zero_add] at hr1
          have := lastWrite_unique hr1 h0
          omega
        · intro hi
          exact ⟨(0, N0 + k), by simp, m2, by simpa using h0, Nat.zero_le _, hi⟩
      exact ⟨fun n r i a1 a2 a3 a4 => congrFun (h8.written n r i a1 a2 a3 a4) q, fun i a => congrFun (h8.empty i a) q⟩

/-- Period 4, killed at iteration 8, checkpoint of iteration 5. -/
example : 8 % 4 = 0 ∧ LastWrite 4 0 8 5 ∧ 5 ≤ 5 ∧ 8 < 5 + 8 :=
  ⟨by omega, ⟨by omega, by omega, by omega, fun n _ _ => by omega⟩, by omega, by omega⟩

/-- The two ranks of `exWorld` with two fields, killed between them: `Bz` lacks the iterations 5 to 8, and has them after the
restart. -/
example : (let w : World ℚ (String → ℚ) := ⟨exWorld.zmin, exWorld.zmax, fun n _ q => if q = "Ez" then 1 + n else 101 + n⟩
    let s : Snap ℚ := ⟨12, 1, 100⟩
    let show' := fun (d : ℤ → String → ℚ) (q : String) => (List.range 11).map fun (i : ℕ) => d (5 + i) q
    ((do
      let st ← LabFieldRuns.one exBoost 1 s w id 4 2 none 0 8
      let d ← LabFieldRuns.killed id (s.Nz exBoost 1) ["Ez", "Bz"] 1 { st with bufs := store exBoost 1 s w 8 st.bufs }
      let d' ← LabFieldRuns.runs exBoost 1 s w id 4 2 [(5, 8)] (some (s.Nz exBoost 1, d))
      return (show' d "Ez", show' d "Bz", d'.map fun (x : Dataset (String → ℚ)) => show' x.2 "Bz")).toOption)) =
    some ([0, 9, 8, 7, 6, 5, 4, 3, 2, 1, 0], [0, 0, 0, 0, 0, 105, 104, 103, 102, 101, 0],
      some [110, 109, 108, 107, 106, 105, 104, 103, 102, 101, 0]) := by decide +kernel

/-- **C125** (repetition): repeating the simulation in the same directory leaves the snapshot as it is. -/
theorem C125_repeat (b : Boost K) (hb : IsBoost b) (dt : K) (hdt : 0 < dt) (s : Snap K) (w : World K α) (lab : α → α)
    (size period : ℕ) (hslow : SlowEdges b dt size w) (hdis : Spec.Disjoint size w) (N : ℕ) :
    LabFieldRuns.runs b dt s w lab period size [(0, N), (0, N)] none =
      LabFieldRuns.runs b dt s w lab period size [(0, N)] none := by
  obtain ⟨m, hm⟩ := exists_lastWrite period 0 N (by omega)
  have := C125_restart b hb dt hdt s w lab size period hslow hdis N 0 N m hm (by omega) (by omega)
  rwa [Nat.zero_add] at this

/-- **C125** (lost slices): if the run is stopped with slices in memory that are older than the checkpoint, they are missing
in the snapshot: the cell of such an iteration holds zero for ever. -/
theorem C125_lost_violated (b : Boost K) (hb : IsBoost b) (dt : K) (hdt : 0 < dt) (s : Snap K) (w : World K α) (lab : α → α)
    (size period : ℕ) (hslow : SlowEdges b dt size w) (hdis : Spec.Disjoint size w) (N1 N0 k m1 n r : ℕ)
    (hm1 : LastWrite period 0 N1 m1) (hn : m1 ≤ n) (hn' : n < N0) (hr : r < size) (hc : crosses b dt s w n r) :
    ∃ disk i, LabFieldRuns.runs b dt s w lab period size [(0, N1), (N0, k)] none = .ok (some (s.Nz b dt, disk)) ∧
      0 ≤ i ∧ i < s.Nz b dt ∧ InCell s.zminLab (b.dzLab dt) i (s.zLab b (n * dt)) ∧ disk i = 0 := by
  obtain ⟨d, h1, h2⟩ := C125_runs b hb dt hdt s w lab size period hslow hdis [(0, N1), (N0, k)] (by simp)
  have hd := dzLab_pos hb hdt
  have hcell : ∀ (i : ℤ) (m : ℕ), InCell s.zminLab (b.dzLab dt) i (s.zLab b (m * dt)) ↔ i = cell0 b dt s - m := by
    intro i m; rw [inCell_iff hd, floor_cell hb hdt]
  have hin := (hcell (cell0 b dt s - n) n).2 rfl
  obtain ⟨c1, c2, -⟩ := C45_cells b hb dt hdt s w n r _ hc hin
  refine ⟨d, cell0 b dt s - n, h1, c1, c2, hin, h2.empty _ ?_⟩
  rintro n' r' ⟨q, hq, m, hq1, hq2, hq3⟩ - - hi
  rw [hcell] at hi
  obtain rfl : n' = n := by omega
  simp only [List.mem_cons, List.not_mem_nil, or_false] at hq
  rcases hq with rfl | rfl
  · rw [Nat.zero_add] at hq1
    have := lastWrite_unique hq1 hm1
    omega
  · simp only at hq2
    omega

/-- Period 4, the first run ends at iteration 8 with the checkpoint: the slices of the iterations 5, 6 and 7 are missing. -/
example : LastWrite 4 0 8 5 ∧ crosses exBoost 1 ⟨12, 1, 100⟩ exWorld 6 0 ∧
    exCells (LabFieldRuns.runs exBoost 1 ⟨12, 1, 100⟩ exWorld (fun x => -x) 4 2 [(0, 8), (8, 5)] none) =
      [0, 0, 0, 0, 0, -10, -9, 0, 0, 0, -5, -104, -103, -102, -101, 0, 0, 0, 0, 0] := by
  refine ⟨⟨by omega, by omega, by omega, fun n _ _ => by omega⟩, by decide +kernel, by decide +kernel⟩

/-- **C125** (other simulation): a directory with a snapshot of another number of cells is refused by the constructor. -/
theorem C125_shape (b : Boost K) (dt : K) (s : Snap K) (w : World K α) (lab : α → α) (size period : ℕ)
    (d : Dataset α) (h : d.1 ≠ s.Nz b dt) (k a : ℕ) :
    LabFieldRuns.one b dt s w lab period size (some d) a k = .error (.typeError "Shapes do not match") := by
  induction k with
  | zero => rw [LabFieldRuns.one, openMeshes, if_neg h]; rfl
  | succ k ih => rw [LabFieldRuns.one, ih]; rfl

/-- A dataset of three cells. -/
example : ((3 : ℤ), fun _ : ℤ => (0 : ℚ)).1 ≠ (⟨12, 1, 100⟩ : Snap ℚ).Nz exBoost 1 := by decide +kernel

end Fbpic
