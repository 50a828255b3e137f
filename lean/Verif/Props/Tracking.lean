import Verif.Lemmas.Tracking

/-!
# C14, C15: uniqueness of particle ids
-/

namespace Fbpic

/-- The ids that all ranks hold initially, rank by rank. -/
def allIds (size : ℕ) (ids : ℕ → List ℕ) : List ℕ := (List.range size).flatMap ids

/-- **C14.** `size` ranks start tracking a species with `N r` particles on rank `r`; then any history
of creations on any ranks follows. All the ids ever attributed, on all ranks, are pairwise
different. -/
theorem C14_unique (size : ℕ) (N : ℕ → ℕ) (os : List IdOp) (hos : ∀ o ∈ os, o.rank < size) :
    (allIds size (fun r => (mkTracker size r (N r)).id)
      ++ (runIds (fun r => mkTracker size r (N r)) os).1).Nodup := by
  rcases Nat.eq_zero_or_pos size with rfl | hsize
  · cases os with
    | nil => simp [allIds, runIds]
    | cons o os => exact absurd (hos o (by simp)) (by omega)
  obtain ⟨h1, h2, _⟩ := runIds_spec size hsize os (fun r => mkTracker size r (N r)) hos
    (fun r hr => ⟨rfl, by simp [mkTracker, Nat.mod_eq_of_lt hr]⟩)
  have hmod : ∀ r < size, ∀ i ∈ (mkTracker size r (N r)).id, i % size = r := by
    intro r hr i hi
    obtain ⟨k, hk, rfl⟩ := mem_arangeIds.mp hi
    rw [Nat.add_mul_mod_self_right, Nat.mod_eq_of_lt hr]
  rw [List.nodup_append]
  refine ⟨?_, h1, ?_⟩
  · unfold allIds
    rw [List.nodup_flatMap]
    refine ⟨fun r _ => nodup_arangeIds hsize, ?_⟩
    refine List.Pairwise.imp_of_mem ?_ (List.nodup_range (n := size))
    intro a b ha hb hab i hia hib
    exact hab ((hmod a (List.mem_range.mp ha) i hia).symm.trans (hmod b (List.mem_range.mp hb) i hib))
  · rintro a ha b hb rfl
    unfold allIds at ha
    obtain ⟨r, hr, ha⟩ := List.mem_flatMap.mp ha
    have := h2 a hb
    rw [hmod r (List.mem_range.mp hr) a ha] at this
    obtain ⟨k, hk, rfl⟩ := mem_arangeIds.mp ha
    simp only [mkTracker] at this
    have : N r * size ≤ k * size := by omega
    exact absurd (Nat.le_of_mul_le_mul_right this hsize) (by omega)

/-- **C14** (ionization and Compton scattering): appending created particles to a tracked species, on
CPU or on GPU, keeps the ids of the existing particles and gives the new slots exactly the ids that
`generate_new_ids` attributes, whatever the uninitialised memory contained. -/
theorem C14_extend (t : Tracker) (useCuda : Bool) (junk : List ℕ) :
    (t.extend useCuda junk).id = t.id ++ (t.generate junk.length).1 ∧
      (t.extend useCuda junk).next = (t.generate junk.length).2.next := by
  cases useCuda
  · simp [Tracker.extend, Tracker.generate]
  · constructor
    · apply List.ext_getElem
      · simp [Tracker.extend, Tracker.generateGpu, Tracker.generate, arangeIds]
      · intro n h1 h2
        simp only [Tracker.extend, Tracker.generateGpu, Tracker.generate, if_true,
          List.getElem_mapIdx, Nat.add_sub_cancel_left]
        by_cases hn : n < t.id.length
        · rw [if_neg (by omega), List.getElem_append_left hn, List.getElem_append_left hn]
        · have hlen : n < t.id.length + junk.length := by
            simpa [Tracker.generate, arangeIds] using h2
          rw [if_pos (by omega), List.getElem_append_right (by omega)]
          simp [arangeIds]
    · simp [Tracker.extend, Tracker.generateGpu, Tracker.generate]

/-- Two ranks, three and one particles, then creations in an arbitrary order. -/
example : allIds 2 (fun r => (mkTracker 2 r (if r = 0 then 3 else 1)).id) = [0, 2, 4, 1] ∧
    (runIds (fun r => mkTracker 2 r (if r = 0 then 3 else 1)) [⟨1, 2⟩, ⟨0, 1⟩, ⟨1, 1⟩]).1
      = [3, 5, 6, 7] := by decide

/-- **C15 is violated.** One rank starts tracking three particles (ids 0, 1, 2); the first one leaves
the box; the checkpoint therefore holds the ids 1 and 2. After the restart, the first particle that
is created gets the id 2, which a particle already has. -/
theorem C15_violated :
    ∃ (pid : ℕ → List ℕ), (∀ i ∈ pid 0, i ∈ (mkTracker 1 0 3).id) ∧ (pid 0).Nodup ∧
      ∃ i ∈ (runIds (fun r => restartTracker 1 r pid) [⟨0, 1⟩]).1, i ∈ pid 0 :=
  ⟨fun _ => [1, 2], by decide, by decide, 2, by decide, by decide⟩

/-- **C15_partial.** Exactly when the ids attributed after a restart can collide with a reloaded one:
they stay different for every later history of creations if and only if every reloaded id `i` is
below the counter `r + Ntot_r * size` of the rank `r = i mod size` that creates ids of its class
(where `Ntot_r` is the number of particles reloaded on rank `r`). What is missing for C15 is that
this condition need not hold, see `C15_violated`. -/
theorem C15_iff_partial (size : ℕ) (hsize : 0 < size) (pid : ℕ → List ℕ) :
    (∀ os : List IdOp, (∀ o ∈ os, o.rank < size) →
        (runIds (fun r => restartTracker size r pid) os).1.Nodup ∧
        ∀ i ∈ (runIds (fun r => restartTracker size r pid) os).1, ∀ r < size, i ∉ pid r) ↔
      ∀ r < size, ∀ i ∈ pid r, i < i % size + (pid (i % size)).length * size := by
  constructor
  · intro h r hr i hi
    by_contra hcon
    push Not at hcon
    have hm : i % size < size := Nat.mod_lt _ hsize
    obtain ⟨k, hk⟩ : ∃ k, i = i % size + k * size :=
      ⟨i / size, by rw [Nat.mul_comm]; exact (Nat.mod_add_div i size).symm⟩
    have hle : (pid (i % size)).length ≤ k := by
      by_contra hlt
      push Not at hlt
      have : k * size < (pid (i % size)).length * size := Nat.mul_lt_mul_of_pos_right hlt hsize
      omega
    obtain ⟨_, h2⟩ := h [⟨i % size, k - (pid (i % size)).length + 1⟩] (by simpa using hm)
    refine h2 i ?_ r hr hi
    simp only [runIds, Tracker.generate, List.append_nil]
    rw [mem_arangeIds]
    refine ⟨k - (pid (i % size)).length, by omega, ?_⟩
    simp only [restartTracker, Tracker.overwrite, mkTracker]
    have : (pid (i % size)).length * size + (k - (pid (i % size)).length) * size = k * size := by
      rw [← Nat.add_mul]; congr 1; omega
    omega
  · intro h os hos
    obtain ⟨h1, h2, _⟩ := runIds_spec size hsize os (fun r => restartTracker size r pid) hos
      (fun r hr => ⟨rfl, by simp [restartTracker, Tracker.overwrite, mkTracker, Nat.mod_eq_of_lt hr]⟩)
    refine ⟨h1, fun i hi r hr hir => ?_⟩
    have a := h2 i hi
    have b := h r hr i hir
    simp only [restartTracker, Tracker.overwrite, mkTracker] at a
    omega

/-- **C15** would hold if the value computed by `overwrite_ids` were stored in the right attribute:
then ids attributed after the restart never collide with reloaded ones, on any rank. -/
theorem C15_intended (size : ℕ) (hsize : 0 < size) (pid : ℕ → List ℕ) (os : List IdOp)
    (hos : ∀ o ∈ os, o.rank < size) :
    (runIds (fun r => restartTrackerIntended size r pid) os).1.Nodup ∧
      ∀ i ∈ (runIds (fun r => restartTrackerIntended size r pid) os).1, ∀ r < size, i ∉ pid r := by
  have hnext : ∀ r < size, ∃ m : ℕ, (restartTrackerIntended size r pid).next = r + m * size ∧
      globalIdMax size pid < r + m * size := by
    intro r hr
    obtain ⟨m, h1, h2⟩ := restartId_spec (g := globalIdMax size pid) hsize hr
    refine ⟨m, ?_, h2⟩
    simp only [restartTrackerIntended, Tracker.overwriteIntended, mkTracker, h1, Int.toNat_natCast]
  obtain ⟨h1, h2, _⟩ := runIds_spec size hsize os (fun r => restartTrackerIntended size r pid) hos
    (fun r hr => ⟨rfl, by
      obtain ⟨m, hm, _⟩ := hnext r hr
      rw [hm, Nat.add_mul_mod_self_right, Nat.mod_eq_of_lt hr]⟩)
  refine ⟨h1, fun i hi r hr hir => ?_⟩
  have a := h2 i hi
  obtain ⟨m, hm, hlt⟩ := hnext (i % size) (Nat.mod_lt _ hsize)
  rw [hm] at a
  have := globalIdMax_ge hr hir
  omega

/-- The condition of `C15_iff_partial` holds for a checkpoint from which no particle was lost … -/
example : ∀ r < 2, ∀ i ∈ (if r = 0 then [0, 2, 4] else [1]),
    i < i % 2 + (if i % 2 = 0 then [0, 2, 4] else [1]).length * 2 := by decide

end Fbpic
