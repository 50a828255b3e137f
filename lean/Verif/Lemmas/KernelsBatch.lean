import Verif.Lemmas.Kernels
import Verif.Lemmas.Ionization
import Verif.Lemmas.Deposit
import Verif.Model.KernelsBatch

namespace Fbpic.Parallel

open Spec

section
variable {τ ι ρ σ : Type} [DecidableEq τ] [DecidableEq ι]

theorem run_finish_mem (M : Machine τ ι ρ σ) (t : τ) :
    ∃ s, ((M.run s).thread t).code = [] ∧ (∀ t', t' ≠ t → (M.run s).thread t' = M.thread t') ∧
      (M.run s).mem = execCode (M.thread t).code (M.thread t).reg M.mem := by
  induction hn : (M.thread t).code.length generalizing M with
  | zero =>
    rw [List.length_eq_zero_iff] at hn
    exact ⟨[], hn, fun _ _ => rfl, by rw [hn]; rfl⟩
  | succ n ih =>
    obtain ⟨s, h1, h2, h3⟩ := ih (M.step t) (by rw [step_self]; simp [hn])
    refine ⟨t :: s, h1, fun t' ht => (h2 t' ht).trans (step_other M t t' ht), ?_⟩
    refine h3.trans ?_
    unfold Machine.step
    cases hc : (M.thread t).code with
    | nil => rw [hc] at hn; simp at hn
    | cons x rest => simp [execCode]

/-- Executing the threads one after the other is one of the schedules. -/
theorem run_seq (M : Machine τ ι ρ σ) (ts : List τ) (hnd : ts.Nodup)
    (hts : ∀ t, t ∉ ts → (M.thread t).code = []) :
    ∃ s, Complete M s ∧
      (M.run s).mem = ts.foldl (fun m t => execCode (M.thread t).code (M.thread t).reg m) M.mem := by
  induction ts generalizing M with
  | nil => exact ⟨[], fun t => hts t (by simp), rfl⟩
  | cons t ts ih =>
    rw [List.nodup_cons] at hnd
    obtain ⟨s, h1, h2, h3⟩ := run_finish_mem M t
    obtain ⟨s', h4, h5⟩ := ih (M.run s) hnd.2 (by
      intro t' ht'
      by_cases e : t' = t
      · subst e; exact h1
      · rw [h2 t' e]; exact hts t' (by simp [e, ht']))
    refine ⟨s ++ s', fun t' => by rw [run_append]; exact h4 t', ?_⟩
    rw [run_append, h5, h3, List.foldl_cons]
    have : ∀ (l : List τ) (m : ι → σ), t ∉ l →
        l.foldl (fun m t => execCode ((M.run s).thread t).code ((M.run s).thread t).reg m) m =
        l.foldl (fun m t => execCode (M.thread t).code (M.thread t).reg m) m := by
      intro l
      induction l with
      | nil => intro m _; rfl
      | cons a l ihl =>
        intro m hl
        simp only [List.mem_cons, not_or] at hl
        simp only [List.foldl_cons]
        rw [h2 a (Ne.symm hl.1)]
        exact ihl _ hl.2
    exact this ts _ hnd.1

theorem schedule_indep (M : Machine τ ι ρ σ) (h : RaceFree M) (s s' : List τ) (hs : Complete M s)
    (hs' : Complete M s') : (M.run s).mem = (M.run s').mem := by
  funext i
  by_cases hi : ∃ t, Owned M t i
  · obtain ⟨t, ht⟩ := hi
    rw [run_mem M h s hs t i ht, run_mem M h s' hs' t i ht]
  · push Not at hi
    rw [run_mem_other M h s i hi, run_mem_other M h s' i hi]

/-- A loop without races gives the result of its iterations one after the other. -/
theorem result_seq {S : Type} [Nonempty ρ] (L : Launch τ ι ρ σ) (code : τ → List (Stmt ι ρ σ))
    (hL : ∀ m junk, (L m junk).mem = m ∧ ∀ t, (L m junk).thread t = ⟨junk t, code t⟩)
    (hrace : ∀ t t', t ≠ t' → ∀ s ∈ code t, ∀ s' ∈ code t', s.cell ≠ s'.cell)
    (ts : List τ) (hnd : ts.Nodup) (hts : ∀ t, t ∉ ts → code t = [])
    (rep : S → ι → σ) (exec : τ → S → S)
    (hexec : ∀ t ∈ ts, ∀ r s, execCode (code t) r (rep s) = rep (exec t s)) (s : S) (m' : ι → σ) :
    Outcome L (rep s) m' ↔ m' = rep (ts.foldl (fun s t => exec t s) s) := by
  have hfold : ∀ (junk : τ → ρ) (l : List τ), (∀ t ∈ l, t ∈ ts) → ∀ s,
      l.foldl (fun m t => execCode (code t) (junk t) m) (rep s) = rep (l.foldl (fun s t => exec t s) s) := by
    intro junk l
    induction l with
    | nil => intro _ s; rfl
    | cons a l ih =>
      intro hl s
      simp only [List.foldl_cons]
      rw [hexec a (hl a (by simp))]
      exact ih (fun t ht => hl t (by simp [ht])) _
  have key : ∀ junk sched, Complete (L (rep s) junk) sched →
      ((L (rep s) junk).run sched).mem = rep (ts.foldl (fun s t => exec t s) s) := by
    intro junk sched hc
    obtain ⟨h1, h2⟩ := hL (rep s) junk
    obtain ⟨s0, h3, h4⟩ := run_seq (L (rep s) junk) ts hnd (fun t ht => by rw [h2, hts t ht])
    rw [schedule_indep _ (by
      intro t t' ht st hst st' hst'
      rw [h2] at hst hst'
      exact hrace t t' ht st hst st' hst') sched s0 hc h3, h4, h1]
    simp only [h2]
    exact hfold junk ts (fun _ h => h) s
  constructor
  · rintro ⟨junk, sched, hc, rfl⟩
    exact key junk sched hc
  · rintro rfl
    let junk : τ → ρ := fun _ => Classical.arbitrary ρ
    obtain ⟨s0, h3, _⟩ := run_seq (L (rep s) junk) ts hnd (fun t ht => by rw [(hL _ _).2, hts t ht])
    exact ⟨junk, s0, h3, key junk s0 h3⟩

end

section
variable {ι ρ σ S : Type} [DecidableEq ι] [Nonempty ρ]

/-- `prange`. -/
theorem prange_seq (N : ℕ) (body : ℕ → List (Stmt ι ρ σ))
    (hrace : ∀ t t', t < N → t' < N → t ≠ t' → ∀ s ∈ body t, ∀ s' ∈ body t', s.cell ≠ s'.cell)
    (rep : S → ι → σ) (exec : S → ℕ → S)
    (hexec : ∀ t < N, ∀ r s, execCode (body t) r (rep s) = rep (exec s t)) (s : S) (m' : ι → σ) :
    Outcome (prangeLoop N body) (rep s) m' ↔ m' = rep ((List.range N).foldl exec s) := by
  refine result_seq (prangeLoop N body) (fun t => if t < N then body t else []) (fun m junk => ⟨rfl, fun t => rfl⟩)
    ?_ (List.range N) List.nodup_range ?_ rep (fun t s => exec s t) ?_ s m'
  · intro t t' ht s hs s' hs'
    by_cases h1 : t < N
    · by_cases h2 : t' < N
      · rw [if_pos h1] at hs
        rw [if_pos h2] at hs'
        exact hrace t t' h1 h2 ht s hs s' hs'
      · rw [if_neg h2] at hs'; simp at hs'
    · rw [if_neg h1] at hs; simp at hs
  · intro t ht
    rw [if_neg (by simpa using ht)]
  · intro t ht r s
    have ht' : t < N := by simpa using ht
    rw [if_pos ht']
    exact hexec t ht' r s

/-- A one-dimensional GPU launch of a kernel `if i < N: body(i)`. -/
theorem launch1d_seq (N TPB : ℕ) (hT : 0 < TPB) (body : ℕ → List (Stmt ι ρ σ))
    (hrace : ∀ t t', t < N → t' < N → t ≠ t' → ∀ s ∈ body t, ∀ s' ∈ body t', s.cell ≠ s'.cell)
    (rep : S → ι → σ) (exec : S → ℕ → S)
    (hexec : ∀ t < N, ∀ r s, execCode (body t) r (rep s) = rep (exec s t)) (s : S) (m' : ι → σ) :
    Outcome (launch1d N TPB fun b => if b < N then body b else []) (rep s) m' ↔
      m' = rep ((List.range N).foldl exec s) := by
  have hgid : ∀ i, i < N → (i / TPB) * TPB + i % TPB = i := fun i _ => Nat.div_add_mod' i TPB
  have e : ((List.range N).map fun i => (i / TPB, i % TPB)).foldl
      (fun s (t : ℕ × ℕ) => exec s (t.1 * TPB + t.2)) s = (List.range N).foldl exec s := by
    rw [List.foldl_map]
    congr 1
    funext s i
    rw [Nat.div_add_mod']
  rw [← e]
  refine result_seq _ (fun t : ℕ × ℕ => if t.1 < blocks N TPB ∧ t.2 < TPB then
      (if t.1 * TPB + t.2 < N then body (t.1 * TPB + t.2) else []) else []) (fun m junk => ⟨rfl, fun t => rfl⟩)
    ?_ _ ?_ ?_ rep (fun t s => exec s (t.1 * TPB + t.2)) ?_ s m'
  · intro t t' ht s hs s' hs'
    beta_reduce at hs hs'
    split at hs
    · rename_i h1
      split at hs
      · rename_i h2
        split at hs'
        · rename_i h3
          split at hs'
          · rename_i h4
            refine hrace _ _ h2 h4 ?_ s hs s' hs'
            intro hh
            obtain ⟨e1, e2⟩ := gid_inj h1.2 h3.2 hh
            exact ht (Prod.ext e1 e2)
          · simp at hs'
        · simp at hs'
      · simp at hs
    · simp at hs
  · refine List.Nodup.map_on ?_ List.nodup_range
    intro a ha b hb hh
    simp only [Prod.mk.injEq] at hh
    rw [← Nat.div_add_mod' a TPB, ← Nat.div_add_mod' b TPB, hh.1, hh.2]
  · intro t ht
    beta_reduce
    split
    · rename_i h1
      split
      · rename_i h2
        exfalso
        apply ht
        rw [List.mem_map]
        obtain ⟨a, b⟩ := gid_inj (Nat.mod_lt (t.1 * TPB + t.2) hT) h1.2
          (Nat.div_add_mod' (t.1 * TPB + t.2) TPB)
        exact ⟨t.1 * TPB + t.2, by simpa using h2, Prod.ext a b⟩
      · rfl
    · rfl
  · intro t ht r s
    rw [List.mem_map] at ht
    obtain ⟨i, hi, rfl⟩ := ht
    have hi' : i < N := by simpa using hi
    beta_reduce
    rw [if_pos (gid_lt hT hi')]
    simp only [Nat.div_add_mod']
    rw [if_pos hi']
    exact hexec i hi' r s

end


/-! ### Statements that follow a sequential program -/

section
variable {ι ρ σ S : Type} [DecidableEq ι]

/-- The statements do to the memory what `f` does to the state, whatever the registers contain. -/
def Sim (rep : S → ι → σ) (code : List (Stmt ι ρ σ)) (f : S → S) : Prop :=
  ∀ r s, execCode code r (rep s) = rep (f s)

theorem sim_append {rep : S → ι → σ} {a b : List (Stmt ι ρ σ)} {f g : S → S} (ha : Sim rep a f)
    (hb : Sim rep b g) : Sim rep (a ++ b) (fun s => g (f s)) := by
  intro r s
  obtain ⟨r', e⟩ := execCode_append a b r (rep s)
  rw [e, ha, hb]

theorem sim_flatMap {X : Type} {rep : S → ι → σ} (l : List X) (code : X → List (Stmt ι ρ σ)) (F : S → X → S)
    (h : ∀ x ∈ l, Sim rep (code x) (fun s => F s x)) : Sim rep (l.flatMap code) (fun s => l.foldl F s) := by
  induction l with
  | nil => intro r s; rfl
  | cons x l ih =>
    rw [List.flatMap_cons]
    exact sim_append (h x (by simp)) (ih fun y hy => h y (by simp [hy]))

theorem execCode_atCell_append (i : ι) (code : List (ρ → σ → ρ × σ)) (rest : List (Stmt ι ρ σ)) (r : ρ)
    (m : ι → σ) :
    execCode (atCell i code ++ rest) r m =
      execCode rest (runBody code r (m i)).1 (Function.update m i (runBody code r (m i)).2) := by
  induction code generalizing r m with
  | nil => simp [atCell, runBody]
  | cons f code ih =>
    have e : atCell i (f :: code) ++ rest = ⟨i, f⟩ :: (atCell i code ++ rest) := rfl
    rw [e]
    simp only [execCode]
    rw [ih]
    simp [runBody]

end

/-! ### Additions -/

theorem sim_plusEq (i j : ℕ) (v : ℂ) : Sim (ρ := ℂ) bufMem (plusEq (i, j) v) (fun A => addAt A i j v) := by
  intro r A
  rw [plusEq, execCode_atCell]
  funext k
  obtain ⟨a, b⟩ := k
  by_cases h : a = i ∧ b = j
  · obtain ⟨rfl, rfl⟩ := h
    simp [bufMem, addAt, runBody, assign, store]
  · rw [Function.update_of_ne (by simpa using h)]
    simp [bufMem, addAt, h]

theorem sim_reduceSlice (Nr nthreads : ℕ) (G : ℕ → Buf) (iz izg : ℕ) :
    Sim bufMem (reduceSliceCode Nr nthreads G iz izg) (fun A => reduceSlice Nr nthreads A iz G izg) := by
  unfold reduceSliceCode reduceSlice
  refine sim_flatMap _ _ _ fun t _ => ?_
  exact sim_append (sim_append (sim_append (sim_append (sim_plusEq _ _ _) (sim_plusEq _ _ _))
    (sim_flatMap _ _ _ fun ir _ => sim_plusEq _ _ _)) (sim_plusEq _ _ _)) (sim_plusEq _ _ _)

theorem cell_reduceSlice (Nr nthreads : ℕ) (G : ℕ → Buf) (iz izg : ℕ) (s : Stmt (ℕ × ℕ) ℂ ℂ)
    (h : s ∈ reduceSliceCode Nr nthreads G iz izg) : s.cell.1 = iz := by
  simp only [reduceSliceCode, plusEq, atCell, List.mem_flatMap, List.mem_append, List.mem_map] at h
  obtain ⟨t, _, h⟩ := h
  rcases h with (((⟨_, _, rfl⟩ | ⟨_, _, rfl⟩) | ⟨_, _, _, _, rfl⟩) | ⟨_, _, rfl⟩) | ⟨_, _, rfl⟩ <;> rfl

section
variable {ι : Type} [DecidableEq ι]

theorem execCode_plus (l : List (ι × ℂ)) (r : ℂ) (m : ι → ℂ) :
    execCode (l.flatMap fun a => plusEq a.1 a.2) r m =
      fun i => m i + (l.map fun a => if a.1 = i then a.2 else 0).sum := by
  induction l generalizing r m with
  | nil => funext i; simp [execCode]
  | cons a l ih =>
    rw [List.flatMap_cons, plusEq, execCode_atCell_append, ih]
    funext i
    by_cases h : a.1 = i
    · subst h
      simp [runBody, assign, store, add_assoc]
    · rw [Function.update_of_ne (Ne.symm h)]
      simp [h]

theorem execCode_zero {ρ : Type} (l : List ι) (r : ρ) (m : ι → ℂ) :
    execCode (l.flatMap fun i => atCell i [store fun _ _ => 0]) r m = fun i => if i ∈ l then 0 else m i := by
  induction l generalizing r m with
  | nil => funext i; simp [execCode]
  | cons a l ih =>
    rw [List.flatMap_cons, execCode_atCell_append, ih]
    funext i
    by_cases h : i = a
    · subst h; simp [runBody, store]
    · rw [Function.update_of_ne h]; simp [h]

end

theorem sum_flatMap {X Y M : Type} [AddCommMonoid M] (l : List X) (g : X → List Y) (h : Y → M) :
    ((l.flatMap g).map h).sum = (l.map fun x => ((g x).map h).sum).sum := by
  induction l with
  | nil => rfl
  | cons a l ih => simp [ih]

theorem sum_pick {X M : Type} [DecidableEq X] [AddCommMonoid M] (l : List X) (hl : l.Nodup) (y : X) (c : X → M) :
    (l.map fun x => if x = y then c x else 0).sum = if y ∈ l then c y else 0 := by
  induction l with
  | nil => simp
  | cons a l ih =>
    rw [List.nodup_cons] at hl
    simp only [List.map_cons, List.sum_cons, ih hl.2, List.mem_cons]
    by_cases h : a = y
    · subst h; simp [hl.1]
    · simp [h, Ne.symm h]

/-! ### Deposition -/

section
variable (fs : List DepField) (c : ℝ) (g : CylGrid) (beta : Shape → ℕ → List ℝ) (Nm : ℕ)

/-- The additions of one particle, as pairs (entry, value). -/
noncomputable def ptclList (s : Shape) (q : ℝ) (t : ℕ) (p : DepPtcl) : List (DepIdx × ℂ) :=
  (List.range Nm).flatMap fun m => fs.flatMap fun f =>
    (addsOf s f c q g (beta s (min m 1)) m p).map fun a =>
      (⟨f, t, m, wrapIdx (g.Nz + 4) a.1, wrapIdx (g.Nr + 4) a.2.1⟩, a.2.2)

theorem depositPtclCode_eq (s : Shape) (q : ℝ) (t : ℕ) (p : DepPtcl) :
    depositPtclCode fs s c q g beta Nm t p = (ptclList fs c g beta Nm s q t p).flatMap fun a => plusEq a.1 a.2 := by
  unfold depositPtclCode ptclList
  simp only [List.flatMap_assoc, List.flatMap_map]
  rfl

theorem ptclList_sum (hfs : fs.Nodup) (s : Shape) (q : ℝ) (t : ℕ) (p : DepPtcl) (i : DepIdx) :
    ((ptclList fs c g beta Nm s q t p).map fun a => if a.1 = i then a.2 else 0).sum =
      if i.t = t ∧ i.m < Nm ∧ i.f ∈ fs then ptclBuf s i.f c q g (beta s (min i.m 1)) i.m p i.iz i.ir else 0 := by
  unfold ptclList
  simp only [sum_flatMap, List.map_map]
  have h1 : ∀ m f, ((addsOf s f c q g (beta s (min m 1)) m p).map
      ((fun a : DepIdx × ℂ => if a.1 = i then a.2 else 0) ∘ fun a =>
        ((⟨f, t, m, wrapIdx (g.Nz + 4) a.1, wrapIdx (g.Nr + 4) a.2.1⟩ : DepIdx), a.2.2))).sum =
      if f = i.f then (if m = i.m then
        (if t = i.t then ptclBuf s f c q g (beta s (min m 1)) m p i.iz i.ir else 0) else 0) else 0 := by
    intro m f
    obtain ⟨f', t', m', iz, ir⟩ := i
    by_cases h : f = f' ∧ m = m' ∧ t = t'
    · obtain ⟨rfl, rfl, rfl⟩ := h
      simp only [if_true, ptclBuf]
      rw [list_sum_apply, list_sum_apply, List.map_map, List.map_map]
      congr 1
      refine List.map_congr_left fun a _ => ?_
      simp only [Function.comp, DepIdx.mk.injEq, true_and, addBuf, cellBuf]
      by_cases e : wrapIdx (g.Nz + 4) a.1 = iz ∧ wrapIdx (g.Nr + 4) a.2.1 = ir
      · obtain ⟨rfl, rfl⟩ := e; simp
      · rw [if_neg e, if_neg (by rintro ⟨rfl, rfl⟩; exact e ⟨rfl, rfl⟩)]
    · have hz : ∀ a ∈ addsOf s f c q g (beta s (min m 1)) m p,
          ((fun a : DepIdx × ℂ => if a.1 = (⟨f', t', m', iz, ir⟩ : DepIdx) then a.2 else 0) ∘ fun a =>
            ((⟨f, t, m, wrapIdx (g.Nz + 4) a.1, wrapIdx (g.Nr + 4) a.2.1⟩ : DepIdx), a.2.2)) a = 0 := by
        intro a _
        simp only [Function.comp, DepIdx.mk.injEq]
        rw [if_neg]
        rintro ⟨rfl, rfl, rfl, _, _⟩
        exact h ⟨rfl, rfl, rfl⟩
      rw [List.map_congr_left hz]
      have : ((addsOf s f c q g (beta s (min m 1)) m p).map fun _ => (0 : ℂ)).sum = 0 := by simp
      rw [this]
      by_cases e1 : f = f'
      · by_cases e2 : m = m'
        · have e3 : t ≠ t' := fun e => h ⟨e1, e2, e⟩
          simp [e3]
        · simp [e2]
      · simp [e1]
  simp only [h1]
  have h2 : ∀ m, (fs.map fun f => if f = i.f then (if m = i.m then
        (if t = i.t then ptclBuf s f c q g (beta s (min m 1)) m p i.iz i.ir else 0) else 0) else 0).sum =
      if m = i.m then (if i.f ∈ fs then
        (if t = i.t then ptclBuf s i.f c q g (beta s (min m 1)) m p i.iz i.ir else 0) else 0) else 0 := by
    intro m
    rw [sum_pick fs hfs i.f (fun f => if m = i.m then
        (if t = i.t then ptclBuf s f c q g (beta s (min m 1)) m p i.iz i.ir else 0) else 0)]
    by_cases e : m = i.m <;> simp [e]
  simp only [h2]
  rw [sum_pick (List.range Nm) List.nodup_range i.m (fun m => if i.f ∈ fs then
        (if t = i.t then ptclBuf s i.f c q g (beta s (min m 1)) m p i.iz i.ir else 0) else 0)]
  by_cases e1 : i.t = t
  · by_cases e2 : i.m < Nm
    · by_cases e3 : i.f ∈ fs
      · simp [e1, e2, e3]
      · simp [e3]
    · simp [e2]
  · simp [e1, Ne.symm e1]

/-- What thread `t` adds. -/
noncomputable def threadBuf (sp : DepSpecies) (n t : ℕ) (f : DepField) (m : ℕ) : Buf :=
  ((chunkOf sp.ptcls n t).map (ptclBuf sp.shape f c sp.q g (beta sp.shape (min m 1)) m)).sum

theorem sum_ite_const {X : Type} (l : List X) (P : Prop) [Decidable P] (v : X → ℂ) :
    (l.map fun x => if P then v x else 0).sum = if P then (l.map v).sum else 0 := by
  by_cases h : P <;> simp [h]

theorem execCode_thread (hfs : fs.Nodup) (sp : DepSpecies) (n t : ℕ) (r : ℂ) (M : DepIdx → ℂ) :
    execCode ((chunkOf sp.ptcls n t).flatMap (depositPtclCode fs sp.shape c sp.q g beta Nm t)) r M =
      fun i => M i + if i.t = t ∧ i.m < Nm ∧ i.f ∈ fs then threadBuf c g beta sp n t i.f i.m i.iz i.ir else 0 := by
  have e : (chunkOf sp.ptcls n t).flatMap (depositPtclCode fs sp.shape c sp.q g beta Nm t) =
      ((chunkOf sp.ptcls n t).flatMap (ptclList fs c g beta Nm sp.shape sp.q t)).flatMap
        fun a => plusEq a.1 a.2 := by
    rw [List.flatMap_assoc]
    congr 1
    funext p
    exact depositPtclCode_eq fs c g beta Nm sp.shape sp.q t p
  rw [e, execCode_plus]
  funext i
  rw [sum_flatMap]
  simp only [ptclList_sum fs c g beta Nm hfs, sum_ite_const]
  unfold threadBuf
  rw [list_sum_apply, list_sum_apply, List.map_map, List.map_map]
  rfl

theorem cell_depositPtcl (s : Shape) (q : ℝ) (t : ℕ) (p : DepPtcl) (st : Stmt DepIdx ℂ ℂ)
    (h : st ∈ depositPtclCode fs s c q g beta Nm t p) : st.cell.t = t := by
  simp only [depositPtclCode, List.mem_flatMap, plusEq, atCell, List.mem_map] at h
  obtain ⟨m, _, f, _, a, _, _, _, rfl⟩ := h
  rfl

theorem fold_threads (C : ℕ → DepIdx → ℂ) (n : ℕ) (M : DepIdx → ℂ) (i : DepIdx) :
    (List.range n).foldl (fun (M : DepIdx → ℂ) t => fun i => M i + if i.t = t then C t i else 0) M i =
      M i + if i.t < n then C i.t i else 0 := by
  induction n with
  | zero => simp
  | succ n ih =>
    rw [List.range_succ, List.foldl_append]
    simp only [List.foldl_cons, List.foldl_nil]
    rw [ih]
    by_cases h : i.t = n
    · simp [h]
    · by_cases h' : i.t < n
      · simp [h, h', Nat.lt_succ_of_lt h']
      · have : ¬ i.t < n + 1 := by omega
        simp [h, h', this]

theorem speciesGlob_apply (f : DepField) (m n : ℕ) (sp : DepSpecies) (hq : sp.q ≠ 0) (t : ℕ) :
    speciesGlob f c g beta m n sp t = if t < n then threadBuf c g beta sp n t f m else 0 := by
  unfold speciesGlob
  rw [if_neg hq, list_sum_apply, List.map_map]
  have : ((fun x : ℕ → Buf => x t) ∘ fun t' => Pi.single t' (threadBuf c g beta sp n t' f m)) =
      fun t' => if t' = t then threadBuf c g beta sp n t' f m else 0 := by
    funext t'
    simp only [Function.comp, Pi.single_apply, eq_comm]
  refine (congrArg (fun h => ((List.range n).map h).sum) this).trans ?_
  rw [sum_pick _ List.nodup_range]
  simp

end

/-! ### Ionization -/

section
variable (P : IonParams) (Ntot : ℕ) (w : ℕ → ℝ) (dec : ℕ → ℕ → Bool)

theorem sim_reset (b : ℕ) : Sim ionMem (resetCode P b) (fun s =>
    { s with nIonized := fun l b' => if l < P.nLevels ∧ b' = b then 0 else s.nIonized l b' }) := by
  intro r s
  rw [resetCode, execCode_atCell]
  have h : ∀ n, (runBody ((List.range n).map fun l =>
      store fun (_ : IonRegs) (s : IonCell) => { s with n := Function.update s.n l 0 }) r (ionMem s (.batch b))) =
      (r, ⟨0, 0, 0, fun l => if l < n then 0 else s.nIonized l b⟩) := by
    intro n
    induction n with
    | zero => simp [runBody, ionMem]
    | succ n ih =>
      rw [List.range_succ, List.map_append, runBody_append, ih]
      simp only [List.map_cons, List.map_nil, runBody, List.foldl_cons, List.foldl_nil, store]
      congr 2
      funext l
      by_cases e : l = n
      · subst e; simp
      · rw [Function.update_of_ne e]
        by_cases h' : l < n
        · simp [h', Nat.lt_succ_of_lt h']
        · rw [if_neg h', if_neg (by omega)]
  rw [h]
  funext i
  cases i with
  | ion ip => simp [ionMem]
  | batch b' =>
    by_cases e : b' = b
    · subst e; simp [ionMem]
    · rw [Function.update_of_ne (by simpa using e)]
      simp [ionMem, e]

theorem sim_ionizeOne (b ip : ℕ) : Sim ionMem (ionizeCode P w dec b ip) (fun s => ionizeOne P w dec b s ip) := by
  intro r s
  funext i
  unfold ionizeCode ionizeOne
  simp only [execCode, assign, store]
  by_cases h1 : P.levelMax ≤ s.level ip
  · cases i with
    | ion j =>
      by_cases e : j = ip
      · subst e; simp [ionMem, h1]
      · simp [ionMem, h1, e, Function.update_of_ne]
    | batch j =>
      by_cases e : j = b
      · subst e; simp [ionMem, h1]
      · simp [ionMem, h1, e, Function.update_of_ne]
  · by_cases h2 : dec ip (s.level ip)
    · cases i with
      | ion j =>
        by_cases e : j = ip
        · subst e; simp [ionMem, h1, h2]
        · simp [ionMem, h1, h2, e, Function.update_of_ne]
      | batch j =>
        by_cases e : j = b
        · subst e
          simp [ionMem, h1, h2]
          funext l
          by_cases e : l = P.slot (s.level ip)
          · subst e; simp
          · simp [Function.update_of_ne e]
        · simp [ionMem, h1, h2, e, Function.update_of_ne]
          funext l
          by_cases e' : l = P.slot (s.level ip)
          · subst e'; simp [Function.update_of_ne e]
          · simp [Function.update_of_ne e']
    · cases i with
      | ion j =>
        by_cases e : j = ip
        · subst e; simp [ionMem, h1, h2]
        · simp [ionMem, h1, h2, e, Function.update_of_ne]
      | batch j =>
        by_cases e : j = b
        · subst e; simp [ionMem, h1, h2]
        · simp [ionMem, h1, h2, e, Function.update_of_ne]

theorem sim_batch (b : ℕ) : Sim ionMem (batchCode P Ntot w dec b) (fun s => ionizeBatch P Ntot w dec s b) :=
  sim_append (sim_reset P b) (sim_flatMap _ _ _ fun ip _ => sim_ionizeOne P w dec b ip)

theorem chunk_disjoint {b b' ip : ℕ} (h : ip ∈ P.chunk Ntot b) (h' : ip ∈ P.chunk Ntot b') : b = b' := by
  rw [P.mem_chunk] at h h'
  by_contra hne
  rcases Nat.lt_or_gt_of_ne hne with hlt | hlt
  · have := Nat.mul_le_mul_right P.batchSize (Nat.succ_le_of_lt hlt)
    simp only [Nat.succ_eq_add_one] at this
    omega
  · have := Nat.mul_le_mul_right P.batchSize (Nat.succ_le_of_lt hlt)
    simp only [Nat.succ_eq_add_one] at this
    omega

theorem cell_batch (b : ℕ) (st : Stmt IonIdx IonRegs IonCell) (h : st ∈ batchCode P Ntot w dec b) :
    st.cell = .batch b ∨ ∃ ip ∈ P.chunk Ntot b, st.cell = .ion ip := by
  simp only [batchCode, resetCode, atCell, ionizeCode, List.mem_append, List.mem_map, List.mem_flatMap,
    List.mem_cons, List.not_mem_nil, or_false] at h
  rcases h with ⟨_, _, rfl⟩ | ⟨ip, hip, rfl | rfl | rfl | rfl | rfl⟩
  · exact Or.inl rfl
  · exact Or.inr ⟨ip, hip, rfl⟩
  · exact Or.inr ⟨ip, hip, rfl⟩
  · exact Or.inl rfl
  · exact Or.inr ⟨ip, hip, rfl⟩
  · exact Or.inr ⟨ip, hip, rfl⟩

theorem batch_race (b b' : ℕ) (hb : b ≠ b') : ∀ s ∈ batchCode P Ntot w dec b, ∀ s' ∈ batchCode P Ntot w dec b',
    s.cell ≠ s'.cell := by
  intro s hs s' hs' e
  rcases cell_batch P Ntot w dec b s hs with h | ⟨ip, hip, h⟩ <;>
    rcases cell_batch P Ntot w dec b' s' hs' with h' | ⟨ip', hip', h'⟩ <;> rw [h, h'] at e
  · exact hb (by simpa using e)
  · simp at e
  · simp at e
  · simp only [IonIdx.ion.injEq] at e
    subst e
    exact hb (chunk_disjoint P Ntot hip hip')

/-- The counts of the batches are the numbers of electrons to create. -/
theorem counts_create (s0 : IonState ℝ) (hb : 0 < P.batchSize) (hlev : ∀ ip < Ntot, P.levelStart ≤ s0.level ip)
    (i : ℕ) (hi : i < P.nLevels) (b : ℕ) (hbB : b < P.nBatch Ntot) :
    (ionizeIons P Ntot w dec s0).nIonized i b =
      (P.chunk Ntot b).countP (createElectron P (ionizeIons P Ntot w dec s0).ionizedFrom i) := by
  obtain ⟨e1, _, _, e4⟩ := ionizeBatches P Ntot w dec s0 (P.nBatch Ntot)
  rw [P.all_chunks hb] at e1
  change (ionizeIons P Ntot w dec s0).ionizedFrom = _ at e1
  change ∀ lv < P.nLevels, ∀ b < P.nBatch Ntot, (ionizeIons P Ntot w dec s0).nIonized lv b = _ at e4
  rw [e4 i hi b hbB, e1]
  refine List.countP_congr fun ip hip => ?_
  have hlt := ((P.mem_chunk).mp hip).2.2
  have h0 := hlev ip hlt
  simp only [createElectron, afterIons, hlt, decide_true, if_true]
  by_cases hf : firesL P s0.level dec ip
  · have hmax : s0.level ip < P.levelMax := by
      simp only [firesL, Bool.and_eq_true, decide_eq_true_eq] at hf; exact hf.1
    unfold IonParams.slot
    unfold IonParams.nLevels at *
    by_cases hs : P.storePerLevel
    · simp only [hs, if_true] at hi ⊢
      simp only [hf, Bool.true_and, if_true, decide_eq_true_eq]
      split_ifs <;> omega
    · simp only [hs, if_false] at hi ⊢
      simp [hf] at hi ⊢
      omega
  · by_cases hs : P.storePerLevel
    · simp [hf, hs]
    · simp [hf, hs]

end

section
variable {α : Type} (create : ℕ → Bool) (ion : ℕ → α)

theorem exec_copyCode (l : List ℕ) (e : ℕ) (r : Unit) (m : ℕ → α) :
    execCode (copyCode create ion l e) r m = (copyLoop create ion l (e, m)).2 := by
  induction l generalizing e m with
  | nil => rfl
  | cons ip l ih =>
    unfold copyCode copyLoop
    simp only [List.foldl_cons]
    by_cases h : create ip
    · rw [if_pos h, if_pos h]
      exact ih _ _
    · rw [if_neg h, if_neg h]
      exact ih _ _

theorem cell_copyCode (l : List ℕ) (e : ℕ) (s : Stmt ℕ Unit α) (h : s ∈ copyCode create ion l e) :
    e ≤ s.cell ∧ s.cell < e + l.countP create := by
  induction l generalizing e with
  | nil => simp [copyCode] at h
  | cons ip l ih =>
    unfold copyCode at h
    by_cases hc : create ip
    · rw [if_pos hc, List.mem_cons] at h
      rw [List.countP_cons_of_pos hc]
      rcases h with rfl | h
      · exact ⟨le_rfl, by show e < _; omega⟩
      · have := ih _ h; omega
    · rw [if_neg hc] at h
      rw [List.countP_cons_of_neg hc]
      exact ih _ h

theorem copy_race (P : IonParams) (Ntot oldNtot : ℕ) (n : ℕ → ℕ → ℕ) (i : ℕ)
    (hn : ∀ b < P.nBatch Ntot, n i b = (P.chunk Ntot b).countP create) (b b' : ℕ) (hb : b < P.nBatch Ntot)
    (hb' : b' < P.nBatch Ntot) (hne : b ≠ b') :
    ∀ s ∈ copyCode create ion (P.chunk Ntot b) (oldNtot + cumsum2d n i b),
    ∀ s' ∈ copyCode create ion (P.chunk Ntot b') (oldNtot + cumsum2d n i b'), s.cell ≠ s'.cell := by
  intro s hs s' hs' e
  have h1 := cell_copyCode create ion _ _ s hs
  have h2 := cell_copyCode create ion _ _ s' hs'
  rw [← hn b hb] at h1
  rw [← hn b' hb'] at h2
  have hmono : ∀ a c, a < c → cumsum2d n i a + n i a ≤ cumsum2d n i c := by
    intro a c hac
    induction c with
    | zero => omega
    | succ c ih =>
      have e : cumsum2d n i (c + 1) = cumsum2d n i c + n i c := by
        simp [cumsum2d, List.range_succ]
      rw [e]
      by_cases h : a = c
      · subst h; exact le_rfl
      · have := ih (by omega); omega
  rcases Nat.lt_or_gt_of_ne hne with hlt | hlt
  · have := hmono b b' hlt; omega
  · have := hmono b' b hlt; omega

end

/-! ### Shift -/

/-- The factor by which a row is multiplied. -/
noncomputable def powerOf (shift : ℂ) (nMove : ℤ) : ℂ :=
  if nMove < 0 then (starRingEnd ℂ) (powLoop shift nMove.natAbs 1) else powLoop shift nMove.natAbs 1

theorem runBody_power (shift : ℂ) (nMove : ℤ) (r s : ℂ) :
    runBody (powerCode shift nMove) r s = (powerOf shift nMove, s) := by
  have h : ∀ n p, runBody (List.replicate n (assign fun r (_ : ℂ) => r * shift)) p s = (powLoop shift n p, s) := by
    intro n
    induction n with
    | zero => intro p; rfl
    | succ n ih => intro p; rw [List.replicate_succ, runBody_assign, ih]; rfl
  unfold powerCode powerOf
  rw [runBody_append, runBody_append]
  simp only [runBody_assign, runBody_nil]
  rw [h]

theorem exec_rowMul (iz : ℕ) (l : List ℕ) (hl : l.Nodup) (r : ℂ) (m : ℕ × ℕ → ℂ) :
    execCode (l.flatMap fun ir => atCell (iz, ir) [store fun (r s : ℂ) => s * r]) r m =
      fun i => if i.1 = iz ∧ i.2 ∈ l then m i * r else m i := by
  induction l generalizing m with
  | nil => funext i; simp [execCode]
  | cons a l ih =>
    rw [List.nodup_cons] at hl
    rw [List.flatMap_cons, execCode_atCell_append]
    have e : (runBody [store fun (r s : ℂ) => s * r] r (m (iz, a))) = (r, m (iz, a) * r) := rfl
    rw [e, ih hl.2]
    funext i
    obtain ⟨x, y⟩ := i
    by_cases h : x = iz
    · subst h
      by_cases h2 : y = a
      · subst h2; simp [hl.1]
      · simp [h2]
    · simp [h]

end Fbpic.Parallel
