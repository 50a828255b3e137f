import Verif.Lemmas.PicCheckpoint
import Verif.Props.Checkpoint
import Verif.Props.PicSplit
import Verif.Props.PicReal
import Verif.Props.PicCycle

/-!
# Lemmas: runs with checkpoints, and restarts
-/

namespace Fbpic.Pic

open Transform ExternalField Step
open Spec (SameStored SameSeen SameResult SameSpecies' perIteration cut SetUpLike Fresh Crash RunHistory)
open Checkpoint (File)

/-! ### Calls -/

theorem perIteration_cut (j : ℕ) (L : List (ℕ × Opts)) : perIteration (cut j L) = (perIteration L).take j := by
  induction L generalizing j with
  | nil => simp [cut, perIteration]
  | cons x L ih =>
    obtain ⟨n, o⟩ := x
    unfold cut
    by_cases h : j ≤ n
    · rw [if_pos h]
      simp [perIteration, List.take_append, Nat.sub_eq_zero_of_le h, Nat.min_eq_left h]
    · rw [if_neg h]
      have e : perIteration ((n, o) :: cut (j - n) L) = List.replicate n o ++ perIteration (cut (j - n) L) := rfl
      have e' : perIteration ((n, o) :: L) = List.replicate n o ++ perIteration L := rfl
      rw [e, e', ih, List.take_append, List.length_replicate, List.take_replicate, Nat.min_eq_right (by omega)]

theorem perIteration_append (L L' : List (ℕ × Opts)) : perIteration (L ++ L') = perIteration L ++ perIteration L' := by
  simp [perIteration]

theorem length_perIteration (L : List (ℕ × Opts)) : (perIteration L).length = (L.map Prod.fst).sum := by
  induction L with
  | nil => rfl
  | cons x L ih =>
    have e : perIteration (x :: L) = List.replicate x.1 x.2 ++ perIteration L := rfl
    rw [e, List.length_append, ih]
    simp

variable {c : Cfg} [NeZero c.Nz]

theorem calls_app (L L' : List (ℕ × Opts)) (s : Sim) : c.calls (L ++ L') s = (c.calls L s).bind (c.calls L') := by
  induction L generalizing s with
  | nil => rfl
  | cons x L ih =>
    obtain ⟨n, o⟩ := x
    show (c.step n o s).bind (c.calls (L ++ L')) = ((c.step n o s).bind (c.calls L)).bind _
    cases c.step n o s with
    | error e => rfl
    | ok a => exact ih a

theorem calls_iteration (hn : 0 < c.nthreads) {L : List (ℕ × Opts)} {s t : Sim} (h : c.calls L s = .ok t) :
    t.iteration = s.iteration + (perIteration L).length := by
  rw [length_perIteration]
  exact (C93_counters c hn L s t h).1

/-! ### The directory -/

theorem mem_store {f g : File} {D : List File} (h : f ∈ storeFile g D) : f = g ∨ f ∈ D := by
  induction D with
  | nil => exact Or.inl (by simpa [storeFile] using h)
  | cons d D ih =>
    unfold storeFile at h
    split_ifs at h
    · simpa using h
    · rcases List.mem_cons.1 h with h | h
      · exact Or.inl h
      · exact Or.inr (List.mem_cons_of_mem _ h)
    · rcases List.mem_cons.1 h with h | h
      · exact Or.inr (by rw [h]; exact List.mem_cons_self)
      · rcases ih h with h | h
        · exact Or.inl h
        · exact Or.inr (List.mem_cons_of_mem _ h)

theorem store_self (g : File) (D : List File) : g ∈ storeFile g D := by
  induction D with
  | nil => simp [storeFile]
  | cons d D ih =>
    unfold storeFile
    split_ifs
    · simp
    · simp
    · exact List.mem_cons_of_mem _ ih

theorem store_mem {f g : File} {D : List File} (h : f ∈ D) : f ∈ storeFile g D ∨ f.iteration = g.iteration := by
  induction D with
  | nil => cases h
  | cons d D ih =>
    unfold storeFile
    split_ifs with h1 h2
    · exact Or.inl (List.mem_cons_of_mem _ h)
    · rcases List.mem_cons.1 h with h | h
      · exact Or.inr (by rw [h, h2])
      · exact Or.inl (List.mem_cons_of_mem _ h)
    · rcases List.mem_cons.1 h with h | h
      · exact Or.inl (by rw [h]; exact List.mem_cons_self)
      · exact (ih h).imp (List.mem_cons_of_mem _) id

/-- The files are in the order of their iterations. -/
def Ordered (D : List File) : Prop := D.Pairwise fun f g => f.iteration < g.iteration

theorem Ordered.store {g : File} {D : List File} (h : Ordered D) : Ordered (storeFile g D) := by
  induction D with
  | nil => simp [storeFile, Ordered]
  | cons d D ih =>
    obtain ⟨h1, h2⟩ := List.pairwise_cons.1 h
    unfold storeFile
    split_ifs with ha hb
    · refine List.pairwise_cons.2 ⟨fun x hx => ?_, h⟩
      rcases List.mem_cons.1 hx with rfl | hx
      · exact ha
      · exact ha.trans (h1 x hx)
    · exact List.pairwise_cons.2 ⟨fun x hx => by rw [hb]; exact h1 x hx, h2⟩
    · refine List.pairwise_cons.2 ⟨fun x hx => ?_, ih h2⟩
      rcases mem_store hx with rfl | hx
      · omega
      · exact h1 x hx

theorem Ordered.nodup {D : List File} (h : Ordered D) : (D.map fun (f : File) => f.iteration).Nodup := by
  unfold List.Nodup
  rw [List.pairwise_map]
  exact h.imp fun h => Nat.ne_of_lt h

/-! ### Runs with checkpoints -/

section
variable {k : Checkpoint.Consts} {period : ℕ}

theorem loopSaving_fst (hp : 0 < period) (o : Opts) (n : ℕ) : ∀ (i : ℕ) (s : Sim) (D : List File),
    (c.loopSaving k period o i n s D).1 = c.loop o i n s := by
  induction n with
  | zero => intro i s D; rfl
  | succ n ih =>
    intro i s D
    unfold Cfg.loopSaving Cfg.loop
    cases h : c.iter o i s with
    | error e => rfl
    | ok a =>
      dsimp only
      rw [if_neg hp.ne', ih]
      rfl

theorem stepSaving_fst (hp : 0 < period) (n : ℕ) (o : Opts) (s : Sim) (D : List File) :
    (c.stepSaving k period n o s D).1 = c.step n o s := by
  have h := loopSaving_fst (c := c) (k := k) hp o n 0 (c.startFields s) D
  unfold Cfg.stepSaving Cfg.step
  rw [← h]
  generalize c.loopSaving k period o 0 n (c.startFields s) D = x
  obtain ⟨r, D'⟩ := x
  cases r <;> rfl

theorem callsSaving_fst (hp : 0 < period) (L : List (ℕ × Opts)) : ∀ (s : Sim) (D : List File),
    (c.callsSaving k period L s D).1 = c.calls L s := by
  induction L with
  | nil => intro s D; rfl
  | cons x L ih =>
    obtain ⟨n, o⟩ := x
    intro s D
    have h := stepSaving_fst (c := c) (k := k) hp n o s D
    unfold Cfg.callsSaving Cfg.calls
    rw [← h]
    generalize c.stepSaving k period n o s D = x
    obtain ⟨r, D'⟩ := x
    cases r with
    | error e => rfl
    | ok a => exact ih a D'

theorem file_end (s : Sim) : c.file k (c.endFields s) = c.file k s := by
  have h : c.arrays (c.endFields s) = c.arrays s := by
    unfold Cfg.arrays
    have e : ∀ m, m < c.Nm → ((c.endFields s).interp m).E = (s.interp m).E ∧ ((c.endFields s).interp m).B = (s.interp m).B :=
      fun m hm => end_EB s hm
    congr 1
    funext a m iz ir
    by_cases hm : m < c.Nm ∧ iz < c.Nz ∧ ir < c.Nr
    · rw [if_pos hm, if_pos hm, (e m hm.1).1, (e m hm.1).2]
    · rw [if_neg hm, if_neg hm]
  unfold Cfg.file
  rw [h]

theorem loop_files (o : Opts) (n : ℕ) : ∀ (i : ℕ) (s : Sim) (D : List File) (f : File),
    f ∈ (c.loopSaving k period o i n s D).2 →
    f ∈ D ∨ ∃ j v, 1 ≤ j ∧ j ≤ n ∧ c.loop o i j s = .ok v ∧ f = c.file k v := by
  induction n with
  | zero => intro i s D f h; exact Or.inl h
  | succ n ih =>
    intro i s D f h
    unfold Cfg.loopSaving at h
    cases hi : c.iter o i s with
    | error e => rw [hi] at h; exact Or.inl h
    | ok a =>
      rw [hi] at h
      dsimp only at h
      by_cases hp : period = 0
      · rw [if_pos hp] at h; exact Or.inl h
      rw [if_neg hp] at h
      rcases ih _ _ _ _ h with h | ⟨j, v, h1, h2, h3, h4⟩
      · have : f = c.file k a ∨ f ∈ D := by
          split_ifs at h
          · exact mem_store h
          · exact Or.inr h
        rcases this with h | h
        · exact Or.inr ⟨1, a, le_rfl, by omega, (except_bind_ok _ _ _).2 ⟨a, hi, rfl⟩, h⟩
        · exact Or.inl h
      · exact Or.inr ⟨j + 1, v, by omega, by omega, (except_bind_ok _ _ _).2 ⟨a, hi, h3⟩, h4⟩

theorem step_files (n : ℕ) (o : Opts) (s : Sim) (D : List File) (f : File) (h : f ∈ (c.stepSaving k period n o s D).2) :
    f ∈ D ∨ ∃ j v, 1 ≤ j ∧ j ≤ n ∧ c.step j o s = .ok v ∧ f = c.file k v := by
  have h' : f ∈ (c.loopSaving k period o 0 n (c.startFields s) D).2 := by
    revert h
    unfold Cfg.stepSaving
    generalize c.loopSaving k period o 0 n (c.startFields s) D = x
    obtain ⟨r, D'⟩ := x
    cases r <;> exact id
  rcases loop_files o n 0 _ D f h' with h | ⟨j, v, h1, h2, h3, h4⟩
  · exact Or.inl h
  · exact Or.inr ⟨j, c.endFields v, h1, h2, (except_bind_ok _ _ _).2 ⟨v, h3, rfl⟩, by rw [file_end]; exact h4⟩

theorem calls_one (n : ℕ) (o : Opts) (s : Sim) : c.calls [(n, o)] s = c.step n o s := by
  show (c.step n o s).bind (fun s => Except.ok s) = _
  cases c.step n o s <;> rfl

theorem calls_files (L : List (ℕ × Opts)) : ∀ (s : Sim) (D : List File) (f : File), f ∈ (c.callsSaving k period L s D).2 →
    0 < period →
    f ∈ D ∨ ∃ j v, 1 ≤ j ∧ j ≤ (perIteration L).length ∧ c.calls (cut j L) s = .ok v ∧ f = c.file k v := by
  induction L with
  | nil => intro s D f h _; exact Or.inl h
  | cons x L ih =>
    obtain ⟨n, o⟩ := x
    intro s D f h hp
    have hl : (perIteration ((n, o) :: L)).length = n + (perIteration L).length := by
      have e : perIteration ((n, o) :: L) = List.replicate n o ++ perIteration L := rfl
      rw [e, List.length_append, List.length_replicate]
    have hstep : ∀ f ∈ (c.stepSaving k period n o s D).2, f ∈ D ∨ ∃ j v, 1 ≤ j ∧ j ≤ (perIteration ((n, o) :: L)).length ∧
        c.calls (cut j ((n, o) :: L)) s = .ok v ∧ f = c.file k v := by
      intro f hf
      rcases step_files n o s D f hf with h | ⟨j, v, h1, h2, h3, h4⟩
      · exact Or.inl h
      · refine Or.inr ⟨j, v, h1, by omega, ?_, h4⟩
        unfold cut
        rw [if_pos h2, calls_one]
        exact h3
    have h1 := stepSaving_fst (c := c) (k := k) hp n o s D
    unfold Cfg.callsSaving at h
    revert h hstep h1
    generalize c.stepSaving k period n o s D = x
    obtain ⟨r, D'⟩ := x
    intro hstep h1 h
    cases r with
    | error e => exact hstep f h
    | ok a =>
      rcases ih a D' f h hp with h | ⟨j, v, g1, g2, g3, g4⟩
      · exact hstep f h
      · refine Or.inr ⟨n + j, v, by omega, by omega, ?_, g4⟩
        unfold cut
        rw [if_neg (by omega), Nat.add_sub_cancel_left]
        exact (except_bind_ok _ _ _).2 ⟨a, h1.symm, g3⟩

theorem loop_ordered (o : Opts) (n : ℕ) : ∀ (i : ℕ) (s : Sim) (D : List File), Ordered D →
    Ordered (c.loopSaving k period o i n s D).2 := by
  induction n with
  | zero => intro i s D h; exact h
  | succ n ih =>
    intro i s D h
    unfold Cfg.loopSaving
    cases hi : c.iter o i s with
    | error e => exact h
    | ok a =>
      dsimp only
      by_cases hp : period = 0
      · rw [if_pos hp]; exact h
      rw [if_neg hp]
      refine ih _ _ _ ?_
      split_ifs
      · exact h.store
      · exact h

theorem calls_ordered (L : List (ℕ × Opts)) : ∀ (s : Sim) (D : List File), Ordered D → Ordered (c.callsSaving k period L s D).2 := by
  induction L with
  | nil => intro s D h; exact h
  | cons x L ih =>
    obtain ⟨n, o⟩ := x
    intro s D h
    have h1 : Ordered (c.stepSaving k period n o s D).2 := by
      have := loop_ordered (c := c) (k := k) (period := period) o n 0 (c.startFields s) D h
      revert this
      unfold Cfg.stepSaving
      generalize c.loopSaving k period o 0 n (c.startFields s) D = x
      obtain ⟨r, D'⟩ := x
      cases r <;> exact id
    unfold Cfg.callsSaving
    revert h1
    generalize c.stepSaving k period n o s D = x
    obtain ⟨r, D'⟩ := x
    intro h1
    cases r with
    | error e => exact h1
    | ok a => exact ih a D' h1

end

/-! ### Which checkpoints are there -/

/-- There is a file of the iteration `N`, with `S` species. -/
def Has (S N : ℕ) (D : List File) : Prop := ∃ f ∈ D, f.iteration = N ∧ f.species.length = S

theorem Has.store {S N : ℕ} {D : List File} (h : Has S N D) {g : File} (hg : g.species.length = S) : Has S N (storeFile g D) := by
  obtain ⟨f, h1, h2, h3⟩ := h
  rcases store_mem (g := g) h1 with h | h
  · exact ⟨f, h, h2, h3⟩
  · exact ⟨g, store_self _ _, h.symm.trans h2, hg⟩

theorem iter_length (hn : 0 < c.nthreads) {o : Opts} {i : ℕ} {s t : Sim} (h : c.iter o i s = .ok t) :
    t.species.length = s.species.length := by
  obtain ⟨t', -, rfl, ht⟩ := (keptSim hn s).iter o i s s ⟨rfl, .refl _⟩ t h fun _ _ => trivial
  exact ht.species.length_eq.symm

section
variable {k : Checkpoint.Consts} {period S : ℕ}

theorem file_length (s : Sim) : (c.file k s).species.length = s.species.length := by
  show ((s.species.map _).map _).length = _
  rw [List.length_map, List.length_map]

theorem loop_has (hn : 0 < c.nthreads) {N : ℕ} (o : Opts) (n : ℕ) : ∀ (i : ℕ) (s : Sim) (D : List File), s.species.length = S →
    Has S N D → Has S N (c.loopSaving k period o i n s D).2 := by
  induction n with
  | zero => intro i s D _ h; exact h
  | succ n ih =>
    intro i s D hS h
    unfold Cfg.loopSaving
    cases hi : c.iter o i s with
    | error e => exact h
    | ok a =>
      dsimp only
      by_cases hp : period = 0
      · rw [if_pos hp]; exact h
      rw [if_neg hp]
      have ha := (iter_length hn hi).trans hS
      refine ih _ _ _ ha ?_
      split_ifs
      · exact h.store ((file_length a).trans ha)
      · exact h

theorem loop_written (hn : 0 < c.nthreads) (hper : 0 < period) {N : ℕ} (hN : N % period = 0) (o : Opts) (n : ℕ) :
    ∀ (i : ℕ) (s t : Sim) (D : List File), s.species.length = S → c.loop o i n s = .ok t → s.iteration < N → N ≤ t.iteration →
    Has S N (c.loopSaving k period o i n s D).2 := by
  induction n with
  | zero =>
    intro i s t D _ h h1 h2
    obtain rfl := Except.ok.inj h
    omega
  | succ n ih =>
    intro i s t D hS h h1 h2
    obtain ⟨a, hi, h⟩ := (except_bind_ok _ _ _).1 h
    have ha := (iter_length hn hi).trans hS
    have hit := (iter_clock c hn o i hi).iteration
    unfold Cfg.loopSaving
    rw [hi]
    dsimp only
    rw [if_neg hper.ne']
    by_cases hNa : a.iteration = N
    · rw [if_pos (by rw [hNa]; exact hN)]
      exact loop_has hn o n _ _ _ ha ⟨_, store_self _ _, hNa, (file_length a).trans ha⟩
    · exact ih _ _ _ _ ha h (by omega) h2

theorem stepSaving_snd (n : ℕ) (o : Opts) (s : Sim) (D : List File) : (c.stepSaving k period n o s D).2 =
    (c.loopSaving k period o 0 n (c.startFields s) D).2 := by
  unfold Cfg.stepSaving
  generalize c.loopSaving k period o 0 n (c.startFields s) D = x
  obtain ⟨r, D'⟩ := x
  cases r <;> rfl

theorem calls_has (hn : 0 < c.nthreads) (hper : 0 < period) {N : ℕ} (L : List (ℕ × Opts)) : ∀ (s : Sim) (D : List File),
    s.species.length = S → Has S N D → Has S N (c.callsSaving k period L s D).2 := by
  induction L with
  | nil => intro s D _ h; exact h
  | cons x L ih =>
    obtain ⟨n, o⟩ := x
    intro s D hS h
    have h1 : Has S N (c.stepSaving k period n o s D).2 := by
      rw [stepSaving_snd]
      exact loop_has hn o n 0 (c.startFields s) D hS h
    have h2 := stepSaving_fst (c := c) (k := k) hper n o s D
    unfold Cfg.callsSaving
    revert h1 h2
    generalize c.stepSaving k period n o s D = x
    obtain ⟨r, D'⟩ := x
    intro h1 h2
    cases r with
    | error e => exact h1
    | ok a =>
      refine ih a D' ?_ h1
      have := kept_calls hn ((calls_one n o s).trans h2.symm)
      exact this.species.length_eq.symm.trans hS

theorem calls_written (hn : 0 < c.nthreads) (hper : 0 < period) {N : ℕ} (hN : N % period = 0) (L : List (ℕ × Opts)) :
    ∀ (s t : Sim) (D : List File), s.species.length = S → c.calls L s = .ok t → s.iteration < N → N ≤ t.iteration →
    Has S N (c.callsSaving k period L s D).2 := by
  induction L with
  | nil =>
    intro s t D _ h h1 h2
    obtain rfl := Except.ok.inj h
    omega
  | cons x L ih =>
    obtain ⟨n, o⟩ := x
    intro s t D hS h h1 h2
    obtain ⟨a, ha, h⟩ := (except_bind_ok _ _ _).1 h
    have hka := kept_calls hn ((calls_one n o s).trans ha)
    have hla : a.species.length = S := hka.species.length_eq.symm.trans hS
    have e1 := stepSaving_fst (c := c) (k := k) hper n o s D
    have e2 := stepSaving_snd (c := c) (k := k) (period := period) n o s D
    have hw : N ≤ a.iteration → Has S N (c.stepSaving k period n o s D).2 := by
      intro hNa
      rw [e2]
      obtain ⟨b, hb, hab⟩ := (except_bind_ok _ _ _).1 ha
      obtain rfl := Except.ok.inj hab
      exact loop_written hn hper hN o n 0 (c.startFields s) b D hS hb h1 hNa
    unfold Cfg.callsSaving
    rw [ha] at e1
    revert e1 hw
    generalize c.stepSaving k period n o s D = x
    obtain ⟨r, D'⟩ := x
    intro e1 hw
    obtain rfl : r = .ok a := e1
    by_cases hNa : N ≤ a.iteration
    · exact calls_has hn hper L a D' hla (hw hNa)
    · exact ih a t D' hla h (by omega) h2

end

end Fbpic.Pic
