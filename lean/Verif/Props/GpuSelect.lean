import Verif.Lemmas.GpuSelect

/-!
# C114: which GPU each MPI process uses
-/

namespace Fbpic

open GpuSel Spec

/-! ### The test of the distribution of the processes -/

/-- The distribution of the processes over the nodes is found to be standard exactly if the processes of
each node have consecutive ranks. -/
theorem C114_standard (M : Machine) : stdDecomp M = true ↔ Consecutive M.p M.node := stdDecomp_iff M

/-! ### The share of each GPU -/

/-- With the same number of GPUs everywhere, every process selects a GPU of its node, and no GPU is
selected by more processes than the rounded-up share `⌈processes of the node / GPUs⌉`. (If the processes
of a node do not have consecutive ranks: provided that different nodes have different colours.) -/
theorem C114_balanced (M : Machine) (g : ℕ) (hg : Uniform M g)
    (hM : Consecutive M.p M.node ∨ ColoursDiffer M) (r : ℕ) :
    (r < M.p → ∃ d, d < g ∧ device M r = some d) ∧
    ∀ d, (users M r d).card ≤ ((sameNode M r).card + g - 1) / g := by
  classical
  refine ⟨fun hr => ⟨commRank M r % g, Nat.mod_lt _ hg.1, ?_⟩, fun d => ?_⟩
  · rw [device_eq M r (by rw [hg.2 r hr]; exact hg.1), hg.2 r hr]
  · obtain ⟨hinj, a, ha⟩ := commRank_node M (hM.imp_left (stdDecomp_iff M).2) r
    have e : users M r d = (sameNode M r).filter fun s => commRank M s % g = d := by
      unfold users
      refine Finset.filter_congr fun s hs => ?_
      have hsp := Finset.mem_range.1 (Finset.mem_filter.1 hs).1
      rw [device_eq M s (by rw [hg.2 s hsp]; exact hg.1), hg.2 s hsp, Option.some.injEq]
    rw [e]
    exact card_mod_le _ _ g d a hg.1 hinj ha

/-- In particular, if no node has more processes than GPUs, no two processes share a GPU. -/
theorem C114_distinct (M : Machine) (g : ℕ) (hg : Uniform M g)
    (hM : Consecutive M.p M.node ∨ ColoursDiffer M) (r s : ℕ) (hr : r < M.p) (hs : s < M.p)
    (hn : M.node r = M.node s) (hrs : r ≠ s) (hfew : (sameNode M r).card ≤ g) :
    device M r ≠ device M s := by
  classical
  intro he
  obtain ⟨⟨d, -, hd⟩, -⟩ := (C114_balanced M g hg hM r).imp_left fun h => h hr
  have h := (C114_balanced M g hg hM r).2 d
  have hle : ((sameNode M r).card + g - 1) / g ≤ 1 := by
    have := hg.1
    rw [← Nat.lt_succ_iff, Nat.div_lt_iff_lt_mul this]
    omega
  have hr' : r ∈ users M r d := by simp [users, sameNode, hr, hd]
  have hs' : s ∈ users M r d := by simp [users, sameNode, hs, hn, ← he, hd]
  have := Finset.card_le_one.1 (h.trans hle) r hr' s hs'
  exact hrs this

/-! ### How the selection ends -/

/-- If the processes of each node have consecutive ranks, the selection ends for every process; only rank
0 can warn, and if the UUIDs are known it does so exactly if two processes have selected GPUs with the
same UUID. -/
theorem C114_standard_ends (M : Machine) (g : ℕ) (hg : Uniform M g) (hM : Consecutive M.p M.node)
    (u : ℕ → ℕ) (hu : ∀ i, i < M.p → (device M i).bind (M.uuid i) = some (u i)) (r : ℕ) (hr : r < M.p) :
    ∃ w, select M r = .done w ∧
      (w = true ↔ r = 0 ∧ ∃ i j, i < j ∧ j < M.p ∧ u i = u j) := by
  have hc : commRank M r = r := by unfold commRank; rw [if_pos ((stdDecomp_iff M).2 hM)]
  have hd := device_eq M r (by rw [hg.2 r hr]; exact hg.1)
  unfold select
  rw [not_stuck M hg hr]
  simp only [Bool.false_eq_true, if_false, hd, hc]
  by_cases h0 : r = 0
  · rw [if_pos h0]
    have e : ((List.range M.p).map fun i => (device M i).bind (M.uuid i))
        = (List.range M.p).map fun i => some (u i) := by
      refine List.map_congr_left fun i hi => hu i (List.mem_range.1 hi)
    simp only [gathered, h0, if_true, e]
    refine ⟨_, rfl, ?_⟩
    rw [decide_eq_true_iff]
    constructor
    · rintro ⟨-, h⟩
      refine ⟨trivial, ?_⟩
      by_contra hh
      refine h ?_
      rw [List.nodup_map_iff_inj_on List.nodup_range]
      intro i hi j hj hij
      rw [List.mem_range] at hi hj
      have hij' : u i = u j := Option.some.inj hij
      rcases Nat.lt_trichotomy i j with h1 | h1 | h1
      · exact absurd ⟨i, j, h1, hj, hij'⟩ hh
      · exact h1
      · exact absurd ⟨j, i, h1, hi, hij'.symm⟩ hh
    · rintro ⟨-, i, j, hij, hj, he⟩
      refine ⟨by simp, fun h => ?_⟩
      rw [List.nodup_map_iff_inj_on List.nodup_range] at h
      have := h i (List.mem_range.2 (by omega)) j (List.mem_range.2 hj) (by rw [he])
      omega
  · rw [if_neg h0]
    exact ⟨false, rfl, by simp [h0]⟩

/-- **Violation.** If the processes of the nodes do not have consecutive ranks, one of the processes
stops with a `TypeError`: the first process of another node than that of rank 0 looks into the list of the
UUIDs, which only rank 0 has. -/
theorem C114_split_violated (M : Machine) (g : ℕ) (hg : Uniform M g) (hc : ColoursDiffer M)
    (hM : ¬ Consecutive M.p M.node) :
    ∃ r, r < M.p ∧ select M r = .raised (.typeError "argument of type 'NoneType' is not iterable") := by
  classical
  have hs : stdDecomp M = false := by
    rw [← Bool.not_eq_true, stdDecomp_iff]; exact hM
  -- some process is on another node than rank 0
  have hex : ∃ r, r < M.p ∧ M.node r ≠ M.node 0 := by
    by_contra hh
    push Not at hh
    refine hM fun i j k hij hjk hk _ => ?_
    rw [hh j (by omega), hh i (by omega)]
  let r := Nat.find hex
  obtain ⟨hr, hne⟩ := Nat.find_spec hex
  have hmin : ∀ i, i < r → M.node i = M.node 0 := by
    intro i hi
    by_contra h
    exact Nat.find_min hex hi ⟨lt_trans hi hr, h⟩
  have hr0 : r ≠ 0 := by
    intro h
    apply hne
    show M.node r = _
    rw [h]
  refine ⟨r, hr, ?_⟩
  have hk : commRank M r = 0 := by
    rw [commRank_split M hc hs hr, Finset.card_eq_zero, Finset.filter_eq_empty_iff]
    intro i hi hir
    have := (Finset.mem_filter.1 hi).2
    exact hne (this.symm.trans (hmin i hir))
  unfold select
  rw [not_stuck M hg hr]
  simp only [Bool.false_eq_true, if_false, device_eq M r (by rw [hg.2 r hr]; exact hg.1), hk, if_true,
    gathered, if_neg hr0]

/-! ### Concrete distributions -/

/-- The bytes of `nid03040`. -/
def nid03040 : NodeName := [110, 105, 100, 48, 51, 48, 52, 48]

/-- The bytes of `nid10204`. -/
def nid10204 : NodeName := [110, 105, 100, 49, 48, 50, 48, 52]

/-- Four processes on two nodes with two GPUs each: two and two in the order of the ranks. -/
def blockMachine : Machine where
  p := 4
  node := fun r => if r < 2 then nid03040 else nid10204
  nGpus := fun _ => 2
  uuid := fun r d => some (10 * (r / 2) + d)

/-- The same machine with the processes dealt out in turns. -/
def cyclicMachine (a b : NodeName) : Machine where
  p := 4
  node := fun r => if r % 2 = 0 then a else b
  nGpus := fun _ => 2
  uuid := fun r d => some (10 * (r % 2) + d)

example : Uniform blockMachine 2 ∧ Consecutive blockMachine.p blockMachine.node := by
  refine ⟨⟨by decide, fun _ _ => rfl⟩, (stdDecomp_iff _).1 (by decide +kernel)⟩

/-- All four GPUs are used and nobody warns. -/
example : (List.range 4).map (fun r => (device blockMachine r, select blockMachine r)) =
    [(some 0, .done false), (some 1, .done false), (some 0, .done false), (some 1, .done false)] := by
  decide +kernel

example : Uniform (cyclicMachine [97] [98]) 2 ∧ ColoursDiffer (cyclicMachine [97] [98]) ∧
    ¬ Consecutive (cyclicMachine [97] [98]).p (cyclicMachine [97] [98]).node := by
  refine ⟨⟨by decide, fun _ _ => rfl⟩, ?_, ?_⟩
  · intro i j _ _ h
    simp only [cyclicMachine] at h ⊢
    by_cases h1 : i % 2 = 0 <;> by_cases h2 : j % 2 = 0 <;> simp_all [color, fromBytes]
  · rw [← stdDecomp_iff]
    decide +kernel

/-- Here the GPUs are shared out well, but process 1 stops with the `TypeError`. -/
example : (List.range 4).map (fun r => (device (cyclicMachine [97] [98]) r, select (cyclicMachine [97] [98]) r)) =
    [(some 0, .done false), (some 0, .raised (.typeError "argument of type 'NoneType' is not iterable")),
      (some 1, .done false), (some 1, .done false)] := by
  decide +kernel

/-- **Violation.** The colours of different nodes can be equal: the names `nid03040` and `nid10204` have
the same colour. Both nodes then have as many GPUs as processes, and still the two processes of each node
share one GPU, and the other GPU of the node is idle. -/
theorem C114_colour_violated :
    color nid03040 = color nid10204 ∧ nid03040 ≠ nid10204 ∧
    Uniform (cyclicMachine nid03040 nid10204) 2 ∧
    (sameNode (cyclicMachine nid03040 nid10204) 0).card = 2 ∧
    device (cyclicMachine nid03040 nid10204) 0 = device (cyclicMachine nid03040 nid10204) 2 ∧
    users (cyclicMachine nid03040 nid10204) 0 1 = ∅ := by
  refine ⟨by decide +kernel, by decide +kernel, ⟨by decide, fun _ _ => rfl⟩, by decide +kernel,
    by decide +kernel, by decide +kernel⟩

/-- Two nodes with one process each and with different numbers of GPUs. -/
def unequalMachine : Machine where
  p := 2
  node := fun r => [97 + r]
  nGpus := fun r => r + 1
  uuid := fun r d => some (10 * r + d)

/-- **Violation.** If the numbers of GPUs differ between the processes, they wait at different barriers,
and the selection (hence the import of the code) does not end, for any number of processes and nodes. -/
theorem C114_unequal_violated (M : Machine) (r s : ℕ) (hr : r < M.p) (hs : s < M.p)
    (hne : M.nGpus r ≠ M.nGpus s) : ∀ i, i < M.p → select M i = .stuck := by
  have hcalls : ∀ i, (calls M i).count .barrier = M.nGpus i := by
    intro i
    unfold calls
    rw [List.count_append, List.count_append, List.count_append, List.count_replicate]
    have h1 : List.count Coll.barrier (if M.p = 1 then [] else [.gatherNames, .bcastStd]) = 0 := by
      split <;> decide
    have h2 : List.count Coll.barrier (if stdDecomp M then [] else [.split]) = 0 := by
      split <;> decide
    have h3 : List.count Coll.barrier (if device M i = none then [] else [.gatherUuid]) = 0 := by
      split <;> decide
    rw [h1, h2, h3]
    simp
  have hne' : calls M r ≠ calls M s := fun h => hne (by rw [← hcalls r, ← hcalls s, h])
  intro i hi
  unfold select
  rw [if_pos]
  rw [List.any_eq_true]
  by_cases h : calls M r = calls M i
  · exact ⟨s, List.mem_range.2 hs, by simpa using fun h' => hne' (h.trans h'.symm)⟩
  · exact ⟨r, List.mem_range.2 hr, by simpa using h⟩

example : unequalMachine.nGpus 0 ≠ unequalMachine.nGpus 1 ∧ stdDecomp unequalMachine = true := by
  decide +kernel

end Fbpic
