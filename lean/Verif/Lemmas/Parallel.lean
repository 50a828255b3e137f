import Verif.Spec.Parallel
import Verif.Lemmas.Tactics
import Verif.Lemmas.Shapes
import Mathlib.Data.List.ProdSigma

namespace Fbpic.Parallel

open Spec

section
variable {τ ι ρ σ : Type} [DecidableEq τ] [DecidableEq ι]

/-- Sequential execution of the statements of one thread. -/
def execCode : List (Stmt ι ρ σ) → ρ → (ι → σ) → (ι → σ)
  | [], _, m => m
  | s :: rest, r, m =>
    execCode rest (s.run r (m s.cell)).1 (Function.update m s.cell (s.run r (m s.cell)).2)

theorem execCode_congr (S : ι → Prop) (code : List (Stmt ι ρ σ)) (h : ∀ s ∈ code, S s.cell) (r : ρ)
    (m m' : ι → σ) (hm : ∀ i, S i → m i = m' i) (i : ι) (hi : S i) :
    execCode code r m i = execCode code r m' i := by
  induction code generalizing r m m' with
  | nil => exact hm i hi
  | cons s rest ih =>
    have hs : S s.cell := h s (by simp)
    simp only [execCode]
    rw [hm _ hs]
    refine ih (fun s' hs' => h s' (by simp [hs'])) _ _ _ ?_
    intro j hj
    by_cases hjs : j = s.cell
    · subst hjs; simp
    · simp [Function.update_of_ne hjs, hm j hj]

theorem execCode_other (code : List (Stmt ι ρ σ)) (r : ρ) (m : ι → σ) (i : ι)
    (h : ∀ s ∈ code, s.cell ≠ i) : execCode code r m i = m i := by
  induction code generalizing r m with
  | nil => rfl
  | cons s rest ih =>
    simp only [execCode]
    rw [ih _ _ (fun s' hs' => h s' (by simp [hs']))]
    exact Function.update_of_ne (Ne.symm (h s (by simp))) _ _

/-- `i` is a cell on which thread `t` works. -/
def Owned (M : Machine τ ι ρ σ) (t : τ) (i : ι) : Prop := ∃ s ∈ (M.thread t).code, s.cell = i

theorem run_inv (M : Machine τ ι ρ σ) (h : RaceFree M) (sched : List τ) :
    (∀ t, ∀ s ∈ ((M.run sched).thread t).code, s ∈ (M.thread t).code) ∧
    (∀ t i, Owned M t i →
      execCode ((M.run sched).thread t).code ((M.run sched).thread t).reg (M.run sched).mem i =
        execCode (M.thread t).code (M.thread t).reg M.mem i) ∧
    (∀ i, (∀ t, ¬ Owned M t i) → (M.run sched).mem i = M.mem i) := by
  induction sched using List.reverseRecOn with
  | nil => exact ⟨fun t s hs => hs, fun t i _ => rfl, fun i _ => rfl⟩
  | append_singleton sched t ih =>
    obtain ⟨h1, h2, h3⟩ := ih
    have e : M.run (sched ++ [t]) = (M.run sched).step t := by simp [Machine.run]
    rw [e]
    generalize M.run sched = N at h1 h2 h3
    unfold Machine.step
    split
    · exact ⟨h1, h2, h3⟩
    · rename_i s rest hc
      have hst : s ∈ (M.thread t).code := h1 t s (by rw [hc]; simp)
      refine ⟨?_, ?_, ?_⟩
      · intro t' s' hs'
        by_cases ht : t' = t
        · subst ht
          simp only [Function.update_self] at hs'
          exact h1 _ s' (by rw [hc]; simp [hs'])
        · simp only [Function.update_of_ne ht] at hs'
          exact h1 t' s' hs'
      · intro t' i hi
        by_cases ht : t' = t
        · subst ht
          have := h2 _ i hi
          rw [hc] at this
          simpa [execCode] using this
        · simp only [Function.update_of_ne ht]
          rw [← h2 t' i hi]
          refine execCode_congr (Owned M t') _ (fun s' hs' => ⟨s', h1 t' s' hs', rfl⟩) _ _ _ ?_ i hi
          rintro j ⟨s', hs', rfl⟩
          exact Function.update_of_ne (h t' t ht s' hs' s hst) _ _
      · intro i hi
        rw [← h3 i hi]
        refine Function.update_of_ne ?_ _ _
        rintro rfl
        exact hi t ⟨s, hst, rfl⟩

theorem run_mem (M : Machine τ ι ρ σ) (h : RaceFree M) (sched : List τ) (hc : Complete M sched) (t : τ)
    (i : ι) (hi : Owned M t i) :
    (M.run sched).mem i = execCode (M.thread t).code (M.thread t).reg M.mem i := by
  rw [← (run_inv M h sched).2.1 t i hi, hc t]; rfl

theorem run_mem_other (M : Machine τ ι ρ σ) (h : RaceFree M) (sched : List τ) (i : ι)
    (hi : ∀ t, ¬ Owned M t i) : (M.run sched).mem i = M.mem i := (run_inv M h sched).2.2 i hi

/-! ### A complete schedule exists -/

theorem step_other (M : Machine τ ι ρ σ) (t t' : τ) (h : t' ≠ t) :
    (M.step t).thread t' = M.thread t' := by
  unfold Machine.step
  split
  · rfl
  · exact Function.update_of_ne h _ _

theorem step_self (M : Machine τ ι ρ σ) (t : τ) :
    ((M.step t).thread t).code = (M.thread t).code.tail := by
  unfold Machine.step
  split
  · rename_i h; simp [h]
  · rename_i s rest h; simp [h]

theorem run_finish (M : Machine τ ι ρ σ) (t : τ) :
    ∃ s, ((M.run s).thread t).code = [] ∧ ∀ t', t' ≠ t → (M.run s).thread t' = M.thread t' := by
  induction hn : (M.thread t).code.length generalizing M with
  | zero => exact ⟨[], by simpa [Machine.run] using hn, fun _ _ => rfl⟩
  | succ n ih =>
    obtain ⟨s, h1, h2⟩ := ih (M.step t) (by rw [step_self]; simp [hn])
    exact ⟨t :: s, h1, fun t' ht => (h2 t' ht).trans (step_other M t t' ht)⟩

theorem run_append (M : Machine τ ι ρ σ) (s s' : List τ) : M.run (s ++ s') = (M.run s).run s' := by
  simp [Machine.run]

theorem complete_exists (M : Machine τ ι ρ σ) (ts : List τ) (h : ∀ t, t ∉ ts → (M.thread t).code = []) :
    ∃ s, Complete M s := by
  induction ts generalizing M with
  | nil => exact ⟨[], fun t => h t (by simp)⟩
  | cons t ts ih =>
    obtain ⟨s, h1, h2⟩ := run_finish M t
    obtain ⟨s', h3⟩ := ih (M.run s) (by
      intro t' ht'
      by_cases e : t' = t
      · subst e; exact h1
      · rw [h2 t' e]; exact h t' (by simp [e, ht']))
    exact ⟨s ++ s', fun t' => by rw [run_append]; exact h3 t'⟩

/-! ### Loops whose iterations work on their own cells -/

/-- The statements of one cell, on its content. -/
def runBody (code : List (ρ → σ → ρ × σ)) (r : ρ) (s : σ) : ρ × σ :=
  code.foldl (fun p f => f p.1 p.2) (r, s)

/-- Whatever the registers contain at the start, the statements compute `f`. -/
def Computes (code : List (ρ → σ → ρ × σ)) (f : σ → σ) : Prop := ∀ r s, (runBody code r s).2 = f s

theorem execCode_append (a b : List (Stmt ι ρ σ)) (r : ρ) (m : ι → σ) :
    ∃ r', execCode (a ++ b) r m = execCode b r' (execCode a r m) := by
  induction a generalizing r m with
  | nil => exact ⟨r, rfl⟩
  | cons s a ih => exact ih _ _

theorem execCode_atCell (i : ι) (code : List (ρ → σ → ρ × σ)) (r : ρ) (m : ι → σ) :
    execCode (atCell i code) r m = Function.update m i (runBody code r (m i)).2 := by
  induction code generalizing r m with
  | nil => simp [atCell, execCode, runBody]
  | cons f code ih =>
    have e : atCell i (f :: code) = ⟨i, f⟩ :: atCell i code := rfl
    rw [e]
    simp only [execCode]
    rw [ih]
    simp [runBody]

theorem execCode_own (own : List ι) (hn : own.Nodup) (body : ι → List (ρ → σ → ρ × σ))
    (f : ι → σ → σ) (hf : ∀ i ∈ own, Computes (body i) (f i)) (r : ρ) (m : ι → σ) (i : ι) (hi : i ∈ own) :
    execCode (own.flatMap fun i => atCell i (body i)) r m i = f i (m i) := by
  induction own generalizing r m with
  | nil => simp at hi
  | cons j own ih =>
    rw [List.flatMap_cons]
    obtain ⟨r', e⟩ := execCode_append (atCell j (body j)) (own.flatMap fun i => atCell i (body i)) r m
    rw [e, execCode_atCell]
    rw [List.nodup_cons] at hn
    by_cases h : i = j
    · subst h
      rw [execCode_other]
      · simp [hf i (by simp) r (m i)]
      · intro s hs
        simp only [List.mem_flatMap, atCell, List.mem_map] at hs
        obtain ⟨k, hk, _, _, rfl⟩ := hs
        rintro rfl
        exact hn.1 hk
    · have hi' : i ∈ own := by simpa [h] using hi
      rw [ih hn.2 (fun k hk => hf k (by simp [hk])) r' _ hi']
      rw [Function.update_of_ne h]

theorem owned_own (own : List ι) (body : ι → List (ρ → σ → ρ × σ)) (s : Stmt ι ρ σ)
    (hs : s ∈ own.flatMap fun i => atCell i (body i)) : s.cell ∈ own := by
  simp only [List.mem_flatMap, atCell, List.mem_map] at hs
  obtain ⟨k, hk, _, _, rfl⟩ := hs
  exact hk

/-- The general result: thread `t` works on its own cells `own t`, and computes `f t i` in cell `i`. -/
theorem outcome_own (L : Launch τ ι ρ σ) (own : τ → List ι) (hn : ∀ t, (own t).Nodup)
    (hd : ∀ t t' i, i ∈ own t → i ∈ own t' → t = t') (ts : List τ) (hts : ∀ t, t ∉ ts → own t = [])
    (body : τ → ι → List (ρ → σ → ρ × σ)) (f : τ → ι → σ → σ)
    (hf : ∀ t, ∀ i ∈ own t, Computes (body t i) (f t i))
    (hL : ∀ m junk, (L m junk).mem = m ∧
      ∀ t, ((L m junk).thread t).code = (own t).flatMap fun i => atCell i (body t i))
    (g : (ι → σ) → (ι → σ)) (hg : ∀ m t, ∀ i ∈ own t, g m i = f t i (m i))
    (hg' : ∀ m i, (∀ t, i ∉ own t) → g m i = m i) [Nonempty ρ] : Result L g := by
  have hrace : ∀ m junk, RaceFree (L m junk) := by
    intro m junk t t' ht s hs s' hs' e
    rw [(hL m junk).2] at hs hs'
    have h1 := owned_own _ _ s hs
    have h2 := owned_own _ _ s' hs'
    rw [e] at h1
    exact ht (hd t t' _ h1 h2)
  have key : ∀ m junk sched, Complete (L m junk) sched → ((L m junk).run sched).mem = g m := by
    intro m junk sched hc
    funext i
    by_cases hi : ∃ t, i ∈ own t
    · obtain ⟨t, ht⟩ := hi
      rw [hg m t i ht]
      by_cases ho : Owned (L m junk) t i
      · rw [run_mem _ (hrace m junk) sched hc t i ho, (hL m junk).2, (hL m junk).1]
        exact execCode_own (own t) (hn t) (body t) (f t) (hf t) _ _ i ht
      · rw [run_mem_other _ (hrace m junk), (hL m junk).1]
        · have hb : body t i = [] := by
            by_contra hb
            obtain ⟨c, cs, hcs⟩ := List.exists_cons_of_ne_nil hb
            refine ho ⟨⟨i, c⟩, ?_, rfl⟩
            rw [(hL m junk).2]
            simp only [List.mem_flatMap, atCell, List.mem_map]
            exact ⟨i, ht, c, by simp [hcs], rfl⟩
          have := hf t i ht (Classical.arbitrary ρ) (m i)
          rw [hb] at this
          exact this
        · rintro t' ⟨s, hs, rfl⟩
          rw [(hL m junk).2] at hs
          have := hd t t' _ ht (owned_own _ _ s hs)
          subst this
          exact ho ⟨s, by rw [(hL m junk).2]; exact hs, rfl⟩
    · push Not at hi
      rw [hg' m i hi, run_mem_other _ (hrace m junk), (hL m junk).1]
      rintro t ⟨s, hs, rfl⟩
      rw [(hL m junk).2] at hs
      exact hi t (owned_own _ _ s hs)
  intro m m'
  constructor
  · rintro ⟨junk, sched, hc, rfl⟩
    exact key m junk sched hc
  · rintro rfl
    let junk : τ → ρ := fun _ => Classical.arbitrary ρ
    obtain ⟨sched, hc⟩ := complete_exists (L m junk) ts (fun t ht => by
      rw [(hL m junk).2, hts t ht]; rfl)
    exact ⟨junk, sched, hc, key m junk sched hc⟩

theorem results_cons (L : Launch τ ι ρ σ) (Ls : List (Launch τ ι ρ σ)) (f g : (ι → σ) → (ι → σ))
    (h : Result L f) (h' : Results Ls g) : Results (L :: Ls) (fun m => g (f m)) := by
  intro m m'
  simp only [Outcomes]
  constructor
  · rintro ⟨m1, h1, h2⟩
    rw [(h m m1).1 h1] at h2
    exact (h' _ _).1 h2
  · rintro rfl
    exact ⟨f m, (h m _).2 rfl, (h' _ _).2 rfl⟩

theorem results_nil : Results ([] : List (Launch τ ι ρ σ)) (fun m => m) := fun _ _ => Iff.rfl

end

/-! ### The launches -/

theorem gid_lt {x TPB i : ℕ} (h : 0 < TPB) (hi : i < x) : i / TPB < blocks x TPB ∧ i % TPB < TPB :=
  ⟨Nat.lt_succ_of_le (Nat.div_le_div_right hi.le), Nat.mod_lt _ h⟩

theorem gid_inj {TPB b t b' t' : ℕ} (ht : t < TPB) (ht' : t' < TPB)
    (h : b * TPB + t = b' * TPB + t') : b = b' ∧ t = t' := by
  have h1 : (b * TPB + t) / TPB = b := by
    rw [mul_comm, Nat.mul_add_div (by omega), Nat.div_eq_of_lt ht]; simp
  have h2 : (b' * TPB + t') / TPB = b' := by
    rw [mul_comm, Nat.mul_add_div (by omega), Nat.div_eq_of_lt ht']; simp
  have hb : b = b' := by rw [← h1, ← h2, h]
  subst hb
  exact ⟨rfl, by omega⟩

section
variable {ρ σ : Type} [Nonempty ρ]

theorem result_cellKernel (Nz Nr TPBx TPBy : ℕ) (hx : 0 < TPBx) (hy : 0 < TPBy)
    (code : ℕ → ℕ → List (ρ → σ → ρ × σ)) (f : ℕ → ℕ → σ → σ)
    (hf : ∀ iz ir, iz < Nz → ir < Nr → Computes (code iz ir) (f iz ir)) :
    Result (launch2d Nz Nr TPBx TPBy (cellKernel Nz Nr code)) (onGrid Nz Nr f) := by
  let gid : (ℕ × ℕ) × (ℕ × ℕ) → ℕ × ℕ := fun t => (t.1.1 * TPBx + t.2.1, t.1.2 * TPBy + t.2.2)
  let act : (ℕ × ℕ) × (ℕ × ℕ) → Prop := fun t =>
    (t.1.1 < blocks Nz TPBx ∧ t.2.1 < TPBx) ∧ (t.1.2 < blocks Nr TPBy ∧ t.2.2 < TPBy)
  let own : (ℕ × ℕ) × (ℕ × ℕ) → List (ℕ × ℕ) := fun t =>
    if act t ∧ (gid t).1 < Nz ∧ (gid t).2 < Nr then [gid t] else []
  have hown : ∀ t i, i ∈ own t ↔ act t ∧ i = gid t ∧ i.1 < Nz ∧ i.2 < Nr := by
    intro t i
    simp only [own]
    split
    · rename_i h
      simp only [List.mem_singleton]
      constructor
      · rintro rfl; exact ⟨h.1, rfl, h.2⟩
      · rintro ⟨_, e, _⟩; exact e
    · rename_i h
      simp only [List.not_mem_nil, false_iff]
      rintro ⟨h1, rfl, h2⟩
      exact h ⟨h1, h2⟩
  have hcov : ∀ i : ℕ × ℕ, i.1 < Nz → i.2 < Nr →
      i ∈ own ((i.1 / TPBx, i.2 / TPBy), (i.1 % TPBx, i.2 % TPBy)) := by
    intro i h1 h2
    rw [hown]
    refine ⟨⟨gid_lt hx h1, gid_lt hy h2⟩, ?_, h1, h2⟩
    simp only [gid]
    rw [Nat.div_add_mod', Nat.div_add_mod']
  refine outcome_own _ own ?_ ?_
    ((List.range (blocks Nz TPBx) ×ˢ List.range (blocks Nr TPBy)) ×ˢ
      (List.range TPBx ×ˢ List.range TPBy)) ?_ (fun _ i => code i.1 i.2) (fun _ i => f i.1 i.2) ?_ ?_ _ ?_ ?_
  · intro t; simp only [own]; split <;> simp
  · intro t t' i h h'
    rw [hown] at h h'
    obtain ⟨⟨⟨_, a1⟩, ⟨_, a2⟩⟩, e, _⟩ := h
    obtain ⟨⟨⟨_, b1⟩, ⟨_, b2⟩⟩, e', _⟩ := h'
    rw [e] at e'
    simp only [gid, Prod.mk.injEq] at e'
    obtain ⟨c1, c2⟩ := gid_inj a1 b1 e'.1
    obtain ⟨d1, d2⟩ := gid_inj a2 b2 e'.2
    ext <;> assumption
  · intro t ht
    have : ¬ act t := by
      intro h
      refine ht ?_
      obtain ⟨⟨a, b⟩, ⟨c, d⟩⟩ := t
      simp only [List.mem_product, List.mem_range]
      exact ⟨⟨h.1.1, h.2.1⟩, ⟨h.1.2, h.2.2⟩⟩
    simp [own, this]
  · intro t i hi
    rw [hown] at hi
    exact hf _ _ hi.2.2.1 hi.2.2.2
  · intro m junk
    refine ⟨rfl, fun t => ?_⟩
    simp only [launch2d, cellKernel, own]
    by_cases h : act t
    · rw [if_pos h]
      by_cases h2 : (gid t).1 < Nz ∧ (gid t).2 < Nr
      · rw [if_pos h2, if_pos ⟨h, h2⟩]; simp [gid]
      · rw [if_neg h2, if_neg (fun h3 => h2 h3.2)]; rfl
    · rw [if_neg h, if_neg (fun h3 => h h3.1)]; rfl
  · intro m t i hi
    rw [hown] at hi
    simp only [onGrid]
    rw [if_pos hi.2.2]
  · intro m i hi
    simp only [onGrid]
    rw [if_neg]
    rintro ⟨h1, h2⟩
    exact hi _ (hcov i h1 h2)

theorem result_rowLoop (Nz Nr : ℕ) (code : ℕ → ℕ → List (ρ → σ → ρ × σ)) (f : ℕ → ℕ → σ → σ)
    (hf : ∀ iz ir, iz < Nz → ir < Nr → Computes (code iz ir) (f iz ir)) :
    Result (prangeLoop Nz (rowLoop Nr code)) (onGrid Nz Nr f) := by
  let own : ℕ → List (ℕ × ℕ) := fun iz => if iz < Nz then (List.range Nr).map (fun ir => (iz, ir)) else []
  have hown : ∀ t i, i ∈ own t ↔ t = i.1 ∧ i.1 < Nz ∧ i.2 < Nr := by
    rintro t ⟨a, b⟩
    simp only [own]
    split
    · simp only [List.mem_map, List.mem_range, Prod.mk.injEq]
      constructor
      · rintro ⟨ir, h, rfl, rfl⟩; exact ⟨rfl, by assumption, h⟩
      · rintro ⟨rfl, _, h⟩; exact ⟨b, h, rfl, rfl⟩
    · rename_i h
      simp only [List.not_mem_nil, false_iff]
      rintro ⟨rfl, h2, _⟩
      exact h h2
  refine outcome_own _ own ?_ ?_ (List.range Nz) ?_ (fun _ i => code i.1 i.2) (fun _ i => f i.1 i.2)
    ?_ ?_ _ ?_ ?_
  · intro t
    simp only [own]
    split
    · exact List.nodup_range.map (fun a b h => by simpa using h)
    · simp
  · intro t t' i h h'
    rw [hown] at h h'
    rw [h.1, h'.1]
  · intro t ht
    simp only [List.mem_range] at ht
    simp [own, ht]
  · intro t i hi
    rw [hown] at hi
    exact hf _ _ hi.2.1 hi.2.2
  · intro m junk
    refine ⟨rfl, fun t => ?_⟩
    simp only [prangeLoop, own]
    split
    · simp [rowLoop, List.flatMap_map]
    · rfl
  · intro m t i hi
    rw [hown] at hi
    simp only [onGrid]
    rw [if_pos hi.2]
  · intro m i hi
    simp only [onGrid]
    rw [if_neg]
    intro h
    exact hi i.1 ((hown _ _).2 ⟨rfl, h⟩)

theorem result_ptclKernel (N TPB : ℕ) (h : 0 < TPB) (code : ℕ → List (ρ → σ → ρ × σ)) (f : ℕ → σ → σ)
    (hf : ∀ i, i < N → Computes (code i) (f i)) :
    Result (launch1d N TPB (ptclKernel N code)) (onPtcls N f) := by
  let own : ℕ × ℕ → List ℕ := fun t =>
    if (t.1 < blocks N TPB ∧ t.2 < TPB) ∧ t.1 * TPB + t.2 < N then [t.1 * TPB + t.2] else []
  have hown : ∀ t i, i ∈ own t ↔ (t.1 < blocks N TPB ∧ t.2 < TPB) ∧ i = t.1 * TPB + t.2 ∧ i < N := by
    intro t i
    simp only [own]
    split
    · rename_i h
      simp only [List.mem_singleton]
      constructor
      · rintro rfl; exact ⟨h.1, rfl, h.2⟩
      · rintro ⟨_, e, _⟩; exact e
    · rename_i h
      simp only [List.not_mem_nil, false_iff]
      rintro ⟨h1, rfl, h2⟩
      exact h ⟨h1, h2⟩
  refine outcome_own _ own ?_ ?_ (List.range (blocks N TPB) ×ˢ List.range TPB) ?_ (fun _ i => code i)
    (fun _ i => f i) ?_ ?_ _ ?_ ?_
  · intro t; simp only [own]; split <;> simp
  · intro t t' i h h'
    rw [hown] at h h'
    obtain ⟨c1, c2⟩ := gid_inj h.1.2 h'.1.2 (h.2.1.symm.trans h'.2.1)
    ext <;> assumption
  · intro t ht
    have : ¬ (t.1 < blocks N TPB ∧ t.2 < TPB) := by
      intro h
      refine ht ?_
      obtain ⟨a, b⟩ := t
      simp only [List.mem_product, List.mem_range]
      exact h
    simp [own, this]
  · intro t i hi
    rw [hown] at hi
    exact hf _ hi.2.2
  · intro m junk
    refine ⟨rfl, fun t => ?_⟩
    simp only [launch1d, ptclKernel, own]
    by_cases h : t.1 < blocks N TPB ∧ t.2 < TPB
    · rw [if_pos h]
      by_cases h2 : t.1 * TPB + t.2 < N
      · rw [if_pos h2, if_pos ⟨h, h2⟩]; simp
      · rw [if_neg h2, if_neg (fun h3 => h2 h3.2)]; rfl
    · rw [if_neg h, if_neg (fun h3 => h h3.1)]; rfl
  · intro m t i hi
    rw [hown] at hi
    simp only [onPtcls]
    rw [if_pos hi.2.2]
  · intro m i hi
    simp only [onPtcls]
    rw [if_neg]
    intro h1
    refine hi (i / TPB, i % TPB) ((hown _ _).2 ⟨gid_lt h h1, ?_, h1⟩)
    exact (Nat.div_add_mod' _ _).symm

theorem result_ptclLoop (N : ℕ) (code : ℕ → List (ρ → σ → ρ × σ)) (f : ℕ → σ → σ)
    (hf : ∀ i, i < N → Computes (code i) (f i)) :
    Result (prangeLoop N fun i => atCell i (code i)) (onPtcls N f) := by
  let own : ℕ → List ℕ := fun t => if t < N then [t] else []
  have hown : ∀ t i, i ∈ own t ↔ i = t ∧ i < N := by
    intro t i
    simp only [own]
    split
    · rename_i h
      simp only [List.mem_singleton]
      constructor
      · rintro rfl; exact ⟨rfl, h⟩
      · exact And.left
    · rename_i h
      simp only [List.not_mem_nil, false_iff]
      rintro ⟨rfl, h2⟩
      exact h h2
  refine outcome_own _ own ?_ ?_ (List.range N) ?_ (fun _ i => code i) (fun _ i => f i) ?_ ?_ _ ?_ ?_
  · intro t; simp only [own]; split <;> simp
  · intro t t' i h h'
    rw [hown] at h h'
    rw [← h.1, h'.1]
  · intro t ht
    simp only [List.mem_range] at ht
    simp [own, ht]
  · intro t i hi
    rw [hown] at hi
    exact hf _ hi.2
  · intro m junk
    refine ⟨rfl, fun t => ?_⟩
    simp only [prangeLoop, own]
    split
    · simp
    · rfl
  · intro m t i hi
    rw [hown] at hi
    simp only [onPtcls]
    rw [if_pos hi.2]
  · intro m i hi
    simp only [onPtcls]
    rw [if_neg]
    intro h1
    exact hi i ((hown _ _).2 ⟨rfl, h1⟩)

theorem result_chunkLoop (N nthreads : ℕ) (hn : 0 < nthreads) (code : ℕ → List (ρ → σ → ρ × σ))
    (f : ℕ → σ → σ) (hf : ∀ i, i < N → Computes (code i) (f i)) :
    Result (prangeLoop nthreads (chunkLoop N nthreads code)) (onPtcls N f) := by
  have hall := chunkOf_flatMap (List.range N) nthreads hn
  have hnd : ((List.range nthreads).flatMap (chunkOf (List.range N) nthreads)).Nodup := by
    rw [hall]; exact List.nodup_range
  rw [List.nodup_flatMap] at hnd
  have hmem : ∀ i, i < N ↔ ∃ t, t < nthreads ∧ i ∈ chunkOf (List.range N) nthreads t := by
    intro i
    have := congrArg (fun l => i ∈ l) hall
    simp only [List.mem_flatMap, List.mem_range, eq_iff_iff] at this
    exact this.symm
  let own : ℕ → List ℕ := fun t => if t < nthreads then chunkOf (List.range N) nthreads t else []
  have hown : ∀ t i, i ∈ own t ↔ t < nthreads ∧ i ∈ chunkOf (List.range N) nthreads t := by
    intro t i
    simp only [own]
    split <;> simp_all
  have hlt : ∀ t i, i ∈ own t → i < N := fun t i h => (hmem i).2 ⟨t, (hown t i).1 h⟩
  refine outcome_own _ own ?_ ?_ (List.range nthreads) ?_ (fun _ i => code i) (fun _ i => f i) ?_ ?_ _ ?_ ?_
  · intro t
    simp only [own]
    split
    · exact hnd.1 t (by simpa)
    · simp
  · intro t t' i h h'
    by_contra hne
    rw [hown] at h h'
    have := hnd.2
    have hp := (List.pairwise_iff_getElem.1 this)
    rcases Nat.lt_or_gt_of_ne hne with hlt | hlt
    · have := hp t t' (by simpa using h.1) (by simpa using h'.1) hlt
      simp only [List.getElem_range] at this
      exact this h.2 h'.2
    · have := hp t' t (by simpa using h'.1) (by simpa using h.1) hlt
      simp only [List.getElem_range] at this
      exact this h'.2 h.2
  · intro t ht
    simp only [List.mem_range] at ht
    simp [own, ht]
  · intro t i hi
    exact hf _ (hlt t i hi)
  · intro m junk
    refine ⟨rfl, fun t => ?_⟩
    simp only [prangeLoop, own, chunkLoop]
    split <;> rfl
  · intro m t i hi
    simp only [onPtcls]
    rw [if_pos (hlt t i hi)]
  · intro m i hi
    simp only [onPtcls]
    rw [if_neg]
    intro h1
    obtain ⟨t, h2, h3⟩ := (hmem i).1 h1
    exact hi t ((hown t i).2 ⟨h2, h3⟩)

theorem result_launch2d {ι : Type} [DecidableEq ι] (X Y TPBx TPBy : ℕ) (hx : 0 < TPBx) (hy : 0 < TPBy)
    (kernel : ℕ → ℕ → List (Stmt ι ρ σ)) (own : ℕ → ℕ → List ι) (hn : ∀ a b, (own a b).Nodup)
    (hin : ∀ a b i, i ∈ own a b → a < X ∧ b < Y)
    (hd : ∀ a b a' b' i, i ∈ own a b → i ∈ own a' b' → a = a' ∧ b = b')
    (body : ℕ → ℕ → ι → List (ρ → σ → ρ × σ)) (f : ℕ → ℕ → ι → σ → σ)
    (hf : ∀ a b, ∀ i ∈ own a b, Computes (body a b i) (f a b i))
    (hk : ∀ a b, kernel a b = (own a b).flatMap fun i => atCell i (body a b i))
    (g : (ι → σ) → (ι → σ)) (hg : ∀ m a b, ∀ i ∈ own a b, g m i = f a b i (m i))
    (hg' : ∀ m i, (∀ a b, i ∉ own a b) → g m i = m i) :
    Result (launch2d X Y TPBx TPBy kernel) g := by
  let gx : (ℕ × ℕ) × (ℕ × ℕ) → ℕ := fun t => t.1.1 * TPBx + t.2.1
  let gy : (ℕ × ℕ) × (ℕ × ℕ) → ℕ := fun t => t.1.2 * TPBy + t.2.2
  let act : (ℕ × ℕ) × (ℕ × ℕ) → Prop := fun t =>
    (t.1.1 < blocks X TPBx ∧ t.2.1 < TPBx) ∧ (t.1.2 < blocks Y TPBy ∧ t.2.2 < TPBy)
  let own' : (ℕ × ℕ) × (ℕ × ℕ) → List ι := fun t => if act t then own (gx t) (gy t) else []
  have hown : ∀ t i, i ∈ own' t ↔ act t ∧ i ∈ own (gx t) (gy t) := by
    intro t i
    simp only [own']
    split <;> simp_all
  refine outcome_own _ own' ?_ ?_
    ((List.range (blocks X TPBx) ×ˢ List.range (blocks Y TPBy)) ×ˢ
      (List.range TPBx ×ˢ List.range TPBy)) ?_ (fun t i => body (gx t) (gy t) i)
      (fun t i => f (gx t) (gy t) i) ?_ ?_ _ ?_ ?_
  · intro t; simp only [own']; split
    · exact hn _ _
    · simp
  · intro t t' i h h'
    rw [hown] at h h'
    obtain ⟨⟨⟨_, a1⟩, ⟨_, a2⟩⟩, e⟩ := h
    obtain ⟨⟨⟨_, b1⟩, ⟨_, b2⟩⟩, e'⟩ := h'
    obtain ⟨e1, e2⟩ := hd _ _ _ _ i e e'
    obtain ⟨c1, c2⟩ := gid_inj a1 b1 e1
    obtain ⟨d1, d2⟩ := gid_inj a2 b2 e2
    ext <;> assumption
  · intro t ht
    have : ¬ act t := by
      intro h
      refine ht ?_
      obtain ⟨⟨a, b⟩, ⟨c, d⟩⟩ := t
      simp only [List.mem_product, List.mem_range]
      exact ⟨⟨h.1.1, h.2.1⟩, ⟨h.1.2, h.2.2⟩⟩
    simp [own', this]
  · intro t i hi
    rw [hown] at hi
    exact hf _ _ i hi.2
  · intro m junk
    refine ⟨rfl, fun t => ?_⟩
    simp only [launch2d, own']
    by_cases h : act t
    · rw [if_pos h, if_pos h]; exact hk _ _
    · rw [if_neg h, if_neg h]; rfl
  · intro m t i hi
    rw [hown] at hi
    exact hg m _ _ i hi.2
  · intro m i hi
    refine hg' m i fun a b hab => ?_
    obtain ⟨h1, h2⟩ := hin a b i hab
    refine hi ((a / TPBx, b / TPBy), (a % TPBx, b % TPBy)) ((hown _ _).2 ⟨⟨gid_lt hx h1, gid_lt hy h2⟩, ?_⟩)
    simp only [gx, gy]
    rw [Nat.div_add_mod', Nat.div_add_mod']
    exact hab

end

end Fbpic.Parallel
