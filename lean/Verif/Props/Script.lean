import Verif.Spec.Script

/-!
# C120: the input script in the files
-/

namespace Fbpic.Script

open Spec (Due Represents Holds)

private theorem setItems_other (k : String) : ∀ (l : List (String × Val)) (a : Attrs), k ∉ l.map Prod.fst → setItems a l k = a k
  | [], _, _ => rfl
  | (k', v) :: l, a, h => by
    simp only [List.map_cons, List.mem_cons, not_or] at h
    rw [setItems, setItems_other k l _ h.2, setAttr, if_neg h.1]

private theorem setItems_mem (k : String) (v : Val) : ∀ (l : List (String × Val)) (a : Attrs), (l.map Prod.fst).Nodup → (k, v) ∈ l →
    setItems a l k = some (stored v)
  | [], _, _, h => by simp at h
  | (k', v') :: l, a, hn, h => by
    simp only [List.map_cons, List.nodup_cons] at hn
    rw [setItems]
    rcases List.mem_cons.1 h with h | h
    · cases h
      rw [setItems_other k l _ hn.1, setAttr, if_pos rfl]
    · exact setItems_mem k v l _ hn.2 h

private theorem stored_repr : ∀ v : Val, Represents v (stored v)
  | .str _ => rfl
  | .seq _ => rfl
  | .num _ => rfl

private theorem holds_again {text : String} {l : List (String × Val)} {o : Option Attrs} {a b : Attrs} (h1 : Holds text l o a)
    (h2 : Holds text l (some a) b) : Holds text l o b :=
  ⟨h2.1, h2.2.1, fun k hk hl => by rw [h2.2.2 k hk hl, ← h1.2.2 k hk hl]; rfl⟩

/-- One call. -/
private theorem write_spec (d : ScriptDiag) {text : String} (ht : d.script = some text) (h0 : d.rank = 0)
    (hn : ((d.params.getD []).map Prod.fst).Nodup) (hi : "inputScript" ∉ (d.params.getD []).map Prod.fst) (dir : Dir) (it j : ℕ) :
    ((j = it ∧ Due d it) → ∃ a, write d it dir j = some a ∧ Holds text (d.params.getD []) (dir j) a) ∧
      (¬ (j = it ∧ Due d it) → write d it dir j = dir j) := by
  have hdue : (it % d.period = 0 ∧ it ≥ d.itMin ∧ (∀ m, d.itMax = some m → it < m)) ↔ Due d it := by
    unfold Due; rw [Nat.dvd_iff_mod_eq_zero]
  unfold write
  constructor
  · rintro ⟨rfl, hd⟩
    rw [if_pos (hdue.2 hd)]
    unfold writeHdf5
    rw [ht]
    simp only [h0, if_true]
    refine ⟨_, rfl, ?_⟩
    have key : ∀ l : List (String × Val), (l.map Prod.fst).Nodup → "inputScript" ∉ l.map Prod.fst →
        Holds text l (dir j) (setItems (setAttr ((dir j).getD fun _ => .none) "inputScript" (.bytes text)) l) := fun l hn hi => by
      refine ⟨by rw [setItems_other _ _ _ hi, setAttr, if_pos rfl], fun k v hv => ⟨_, setItems_mem k v l _ hn hv, stored_repr v⟩,
        fun k hk hl => ?_⟩
      rw [setItems_other _ _ _ hl, setAttr, if_neg hk]
      cases dir j <;> rfl
    rcases e : d.params with _ | l
    · exact key [] (by simp) (by simp)
    · rw [e] at hn hi; exact key l hn hi
  · intro h
    by_cases hd : Due d it
    · rw [if_pos (hdue.2 hd)]
      unfold writeHdf5
      rw [ht]
      simp only [h0, if_true]
      rw [if_neg fun e => h ⟨e, hd⟩]
    · rw [if_neg (mt hdue.1 hd)]

/-- Over a run, whatever the directory held before: the file of each iteration that is due holds the script and the parameters, and all it
held before; all other files are as before. (The keys of the parameters are different, as in any dictionary, and none of them is the name
under which the script is stored.) -/
theorem C120_run (d : ScriptDiag) {text : String} (ht : d.script = some text) (h0 : d.rank = 0)
    (hn : ((d.params.getD []).map Prod.fst).Nodup) (hi : "inputScript" ∉ (d.params.getD []).map Prod.fst) (its : List ℕ) (dir : Dir) (j : ℕ) :
    (j ∈ its → Due d j → ∃ a, runWrites d its dir j = some a ∧ Holds text (d.params.getD []) (dir j) a) ∧
      (¬ (j ∈ its ∧ Due d j) → runWrites d its dir j = dir j) := by
  induction its generalizing dir with
  | nil => exact ⟨fun h => by simp at h, fun _ => rfl⟩
  | cons it its ih =>
    have hw := write_spec d ht h0 hn hi dir it j
    obtain ⟨i1, i2⟩ := ih (write d it dir)
    change (_ → _ → ∃ a, runWrites d its (write d it dir) j = some a ∧ _) ∧ (_ → runWrites d its (write d it dir) j = _)
    constructor
    · intro hj hd
      by_cases e : j = it
      · obtain ⟨a, ha, hh⟩ := hw.1 ⟨e, e ▸ hd⟩
        by_cases hm : j ∈ its
        · obtain ⟨b, hb, hb'⟩ := i1 hm hd
          rw [ha] at hb'
          exact ⟨b, hb, holds_again hh hb'⟩
        · exact ⟨a, by rw [i2 (fun h => hm h.1), ha], hh⟩
      · rcases List.mem_cons.1 hj with h | h
        · exact absurd h e
        · obtain ⟨b, hb, hb'⟩ := i1 h hd
          rw [hw.2 fun h => e h.1] at hb'
          exact ⟨b, hb, hb'⟩
    · intro h
      rw [i2 fun hh => h ⟨List.mem_cons_of_mem _ hh.1, hh.2⟩]
      exact hw.2 fun hh => h ⟨by simp [hh.1], hh.1 ▸ hh.2⟩

/-- The other processes of a simulation write nothing. -/
theorem C120_ranks (d : ScriptDiag) (h : d.rank ≠ 0) (its : List ℕ) (dir : Dir) : runWrites d its dir = dir := by
  have h1 : ∀ it dir, write d it dir = dir := fun it dir => by
    unfold write writeHdf5
    split
    · split <;> first | rfl | simp [h]
    · rfl
  induction its with
  | nil => rfl
  | cons it its ih => change runWrites d its (write d it dir) = dir; rw [h1, ih]

/-- The text is that of the program of the command line: of the first argument with the extension `.py`, if no argument before it has `.py`
inside its name. It is read when the diagnostic is created; changes of the file during the run have no effect. -/
theorem C120_text (pre post : List String) (f text : String) (read : String → Option String) (hpre : ∀ g ∈ pre, hasPy g = false)
    (hf : ".py".toList <:+ f.toList) (hr : read f = some text) :
    getInputScript (pre ++ f :: post) read = .ok (some text) := by
  unfold getInputScript
  rw [List.filter_append, List.filter_eq_nil_iff.2 fun g hg => by simp [hpre g hg],
    List.filter_cons_of_pos (by unfold hasPy; exact decide_eq_true hf.isInfix)]
  simp only [List.nil_append, hr]

/-- A program whose path contains `.py` elsewhere is taken for the input script: the text saved is that of a file without the extension
`.py`, although an argument with this extension follows. -/
theorem C120_path_violated : ∃ (f : String) (read : String → Option String), ¬ ".py".toList <:+ f.toList ∧
    read "run.py" = some "the simulation" ∧ getInputScript [f, "run.py"] read = .ok (some "another program") :=
  ⟨"/home/me/.pyenv/bin/batch", fun g => if g = "run.py" then some "the simulation" else some "another program", by decide +kernel, rfl,
    by decide +kernel⟩

/-- The parameters are to be written to each file, but nothing is written if no script is found (as in an interactive session). -/
theorem C120_params_violated : ∃ d : ScriptDiag, Due d 0 ∧ d.rank = 0 ∧ d.params = some [("laserA0", .num 4)] ∧
    getInputScript [""] (fun _ => .none) = .ok d.script ∧ ∀ its dir, runWrites d its dir = dir := by
  refine ⟨⟨0, 1, 0, .none, .none, some [("laserA0", .num 4)]⟩, ⟨by simp, by simp, by simp⟩, rfl, rfl, by decide +kernel, fun its dir => ?_⟩
  have h1 : ∀ it dir, write ⟨0, 1, 0, .none, .none, some [("laserA0", .num 4)]⟩ it dir = dir := fun it dir => by
    unfold write writeHdf5
    split <;> rfl
  induction its with
  | nil => rfl
  | cons it its ih => change runWrites _ its (write _ it dir) = dir; rw [h1, ih]

/-! A run of five iterations, period 2, into a directory with a file of iteration 2. -/

/-- The diagnostic of the examples. -/
private def diag : ScriptDiag := ⟨0, 2, 1, some 4, some "import fbpic", some [("author", .str "A"), ("runs", .seq [1, 2])]⟩

/-- The file of another diagnostic. -/
private def before : Dir := fun j => if j = 2 then some fun k => if k = "openPMD" then some (.bytes "1.0.0") else .none else .none

example : ∃ a, runWrites diag [0, 1, 2, 3, 4] before 2 = some a ∧ a "inputScript" = some (.bytes "import fbpic") ∧
    a "runs" = some (.array [1, 2]) ∧ a "openPMD" = some (.bytes "1.0.0") := by
  obtain ⟨a, ha, h1, h2, h3⟩ := (C120_run diag rfl rfl (by decide) (by decide) [0, 1, 2, 3, 4] before 2).1 (by simp)
    ⟨by decide, by decide, fun m h => by cases h; decide⟩
  obtain ⟨h, e1, e2⟩ := h2 "runs" (.seq [1, 2]) (by decide)
  exact ⟨a, ha, h1, e1.trans (congrArg some e2), (h3 "openPMD" (by decide) (by decide)).trans rfl⟩

example : runWrites diag [0, 1, 2, 3, 4] before 0 = .none ∧ runWrites diag [0, 1, 2, 3, 4] before 4 = .none :=
  ⟨((C120_run diag rfl rfl (by decide) (by decide) _ before 0).2 fun h => absurd h.2.2.1 (by decide)).trans rfl,
    ((C120_run diag rfl rfl (by decide) (by decide) _ before 4).2 fun h => absurd (h.2.2.2 4 rfl) (by decide)).trans rfl⟩

example : getInputScript ["-c", "run.py", "out.py"] (fun f => if f = "run.py" then some "a" else .none) = .ok (some "a") :=
  C120_text ["-c"] ["out.py"] "run.py" "a" _ (by decide +kernel) (by decide +kernel) rfl

example : runWrites { diag with rank := 3 } [0, 1, 2] before = before := C120_ranks _ (by decide) _ _

end Fbpic.Script
