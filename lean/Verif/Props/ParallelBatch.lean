import Verif.Lemmas.KernelsBatch
import Verif.Props.Deposit

/-!
# C102: parallel loops in which a thread handles many particles

Deposition on CPU threads, reduction of the buffers of the threads, ionization in batches, shift of the fields.
-/

namespace Fbpic.Parallel

open Spec

noncomputable section

/-! ### Deposition -/

/-- Deposition of one species on CPU threads: for every schedule the buffers are those of the sequential
model (C08 to C10), for every quantity of the kernel (`[rho]`, `[Jr, Jt, Jz]`) and every mode. The loads and the
stores of the additions of different threads may be interleaved in any way. -/
theorem C102_deposit (fs : List DepField) (hfs : fs.Nodup) (c : ℝ) (g : CylGrid) (beta : Shape → ℕ → List ℝ)
    (Nm nthreads : ℕ) (hn : 0 < nthreads) (sp : DepSpecies) (G G' : DepField → ℕ → ℕ → Buf)
    (hG : ∀ f m, if f ∈ fs ∧ m < Nm then depositSpecies f c g beta m nthreads (G f m) sp = .ok (G' f m)
      else G' f m = G f m) (mem' : DepIdx → ℂ) :
    Outcomes (depositCpu fs c g beta Nm nthreads sp) (depMem G) mem' ↔ mem' = depMem G' := by
  unfold depositCpu
  by_cases hq : sp.q = 0
  · rw [if_pos hq]
    have e : G' = G := by
      funext f m
      have := hG f m
      split at this
      · unfold depositSpecies at this
        rw [if_pos hq] at this
        exact (Except.ok.inj this).symm
      · exact this
    rw [e]
    exact Iff.rfl
  · rw [if_neg hq]
    have key := prange_seq (S := DepIdx → ℂ) nthreads
      (fun t => (chunkOf sp.ptcls nthreads t).flatMap (depositPtclCode fs sp.shape c sp.q g beta Nm t))
      (by
        intro t t' _ _ ht s hs s' hs' e
        rw [List.mem_flatMap] at hs hs'
        obtain ⟨p, _, hs⟩ := hs
        obtain ⟨p', _, hs'⟩ := hs'
        apply ht
        rw [← cell_depositPtcl fs c g beta Nm _ _ t p s hs, e, cell_depositPtcl fs c g beta Nm _ _ t' p' s' hs'])
      (fun M => M)
      (fun M t => fun i => M i + if i.t = t then
        (if i.m < Nm ∧ i.f ∈ fs then threadBuf c g beta sp nthreads t i.f i.m i.iz i.ir else 0) else 0)
      (by
        intro t _ r M
        rw [execCode_thread fs c g beta Nm hfs]
        funext i
        by_cases h : i.t = t <;> simp [h]) (depMem G)
    have e : (List.range nthreads).foldl (fun (M : DepIdx → ℂ) t => fun i => M i + if i.t = t then
        (if i.m < Nm ∧ i.f ∈ fs then threadBuf c g beta sp nthreads t i.f i.m i.iz i.ir else 0) else 0) (depMem G) =
        depMem G' := by
      funext i
      rw [fold_threads (fun t i =>
        if i.m < Nm ∧ i.f ∈ fs then threadBuf c g beta sp nthreads t i.f i.m i.iz i.ir else 0)]
      have h := hG i.f i.m
      simp only [depMem]
      by_cases hf : i.f ∈ fs ∧ i.m < Nm
      · rw [if_pos hf, depositSpecies_ok _ _ _ _ _ _ hn] at h
        rw [h.2]
        simp only [Pi.add_apply, speciesGlob_apply c g beta i.f i.m nthreads sp hq]
        by_cases ht : i.t < nthreads <;> simp [ht, hf.1, hf.2]
      · rw [if_neg hf] at h
        have hf' : ¬ (i.m < Nm ∧ i.f ∈ fs) := by tauto
        rw [h]
        simp only [hf', if_false, ite_self, add_zero]
    have key' : ∀ m', Outcome (prangeLoop nthreads fun t => (chunkOf sp.ptcls nthreads t).flatMap
        (depositPtclCode fs sp.shape c sp.q g beta Nm t)) (depMem G) m' ↔ m' = depMem G' := by
      intro m'
      rw [key m', e]
    simp only [Outcomes, key', exists_eq_left]

/-- The buffers are set to zero before, by all threads at once. -/
theorem C102_erase_buffers (f : DepField) (nthreads Nm nz nr : ℕ) (G : DepField → ℕ → ℕ → Buf)
    (mem' : DepIdx → ℂ) :
    Outcome (eraseBuffer f nthreads Nm nz nr) (depMem G) mem' ↔
      mem' = depMem fun f' m t iz ir =>
        if f' = f ∧ t < nthreads ∧ m < Nm ∧ iz < nz ∧ ir < nr then 0 else G f' m t iz ir := by
  let cells : ℕ → List DepIdx := fun t => (List.range Nm).flatMap fun m => (List.range nz).flatMap fun iz =>
    (List.range nr).map fun ir => ⟨f, t, m, iz, ir⟩
  have hmem : ∀ t i, i ∈ cells t ↔ i.f = f ∧ i.t = t ∧ i.m < Nm ∧ i.iz < nz ∧ i.ir < nr := by
    intro t i
    simp only [cells, List.mem_flatMap, List.mem_map, List.mem_range]
    constructor
    · rintro ⟨m, h1, iz, h2, ir, h3, rfl⟩
      exact ⟨rfl, rfl, h1, h2, h3⟩
    · obtain ⟨f', t', m, iz, ir⟩ := i
      rintro ⟨rfl, rfl, h1, h2, h3⟩
      exact ⟨m, h1, iz, h2, ir, h3, rfl⟩
  have hcode : eraseBuffer f nthreads Nm nz nr =
      prangeLoop nthreads fun t => (cells t).flatMap fun i => atCell i [store fun (_ : ℂ) _ => 0] := by
    unfold eraseBuffer
    congr 1
    funext t
    simp only [cells, List.flatMap_assoc, List.flatMap_map]
  rw [hcode]
  refine (prange_seq (S := DepIdx → ℂ) nthreads _ ?_ (fun M => M)
    (fun M t => fun i => if i ∈ cells t then 0 else M i) (fun t _ r M => execCode_zero _ _ _) (depMem G) mem').trans
    (Eq.congr_right ?_)
  · intro t t' _ _ ht s hs s' hs' e
    have h1 := (hmem t _).1 (owned_own _ _ s hs)
    have h2 := (hmem t' _).1 (owned_own _ _ s' hs')
    exact ht (by rw [← h1.2.1, e, h2.2.1])
  · have : ∀ n i, (List.range n).foldl (fun (M : DepIdx → ℂ) t => fun i => if i ∈ cells t then 0 else M i)
        (depMem G) i = if i.f = f ∧ i.t < n ∧ i.m < Nm ∧ i.iz < nz ∧ i.ir < nr then 0 else depMem G i := by
      intro n i
      induction n with
      | zero => simp
      | succ n ih =>
        rw [List.range_succ, List.foldl_append]
        simp only [List.foldl_cons, List.foldl_nil]
        rw [ih]
        simp only [hmem]
        by_cases h : i.f = f ∧ i.m < Nm ∧ i.iz < nz ∧ i.ir < nr
        · obtain ⟨h1, h2, h3, h4⟩ := h
          simp only [h1, h2, h3, h4, true_and, and_true]
          by_cases e1 : i.t = n
          · simp [e1]
          · by_cases e2 : i.t < n
            · simp [e2, Nat.lt_succ_of_lt e2]
            · rw [if_neg e1, if_neg e2, if_neg (by omega)]
        · rw [if_neg (by tauto), if_neg (by tauto), if_neg (by tauto)]
    funext i
    exact this nthreads i

/-- Reduction of the buffers: the rows in parallel, then the guard cells; for every schedule the result of the
sequential model. -/
theorem C102_reduce (Nz Nr nthreads : ℕ) (G : ℕ → Buf) (A : Buf) (mem' : ℕ × ℕ → ℂ) :
    Outcomes (sumReduceCpu Nz Nr nthreads G) (bufMem A) mem' ↔ mem' = bufMem (sumReduce Nz Nr nthreads G A) := by
  have h1 := fun m' => prange_seq (S := Buf) Nz (fun iz => reduceSliceCode Nr nthreads G iz (iz + 2))
    (by
      intro t t' _ _ ht s hs s' hs' e
      apply ht
      rw [← cell_reduceSlice Nr nthreads G t _ s hs, e, cell_reduceSlice Nr nthreads G t' _ s' hs'])
    bufMem (fun A iz => reduceSlice Nr nthreads A iz G (iz + 2))
    (fun t _ => sim_reduceSlice Nr nthreads G t (t + 2)) A m'
  have h2 := fun A m' => prange_seq (S := Buf) 1 (fun _ =>
      reduceSliceCode Nr nthreads G (Nz - 2) 0 ++ reduceSliceCode Nr nthreads G (Nz - 1) 1 ++
        reduceSliceCode Nr nthreads G 0 (Nz + 2) ++ reduceSliceCode Nr nthreads G 1 (Nz + 3))
    (by intro t t' ht ht' hne; omega) bufMem
    (fun A _ => reduceSlice Nr nthreads (reduceSlice Nr nthreads (reduceSlice Nr nthreads
      (reduceSlice Nr nthreads A (Nz - 2) G 0) (Nz - 1) G 1) 0 G (Nz + 2)) 1 G (Nz + 3))
    (fun t _ => sim_append (sim_append (sim_append (sim_reduceSlice Nr nthreads G _ _)
      (sim_reduceSlice Nr nthreads G _ _)) (sim_reduceSlice Nr nthreads G _ _)) (sim_reduceSlice Nr nthreads G _ _))
    A m'
  unfold sumReduceCpu
  simp only [Outcomes, h1, exists_eq_left]
  simp only [h2, exists_eq_left]
  rfl

private theorem outcomes_append {τ ι ρ σ : Type} [DecidableEq τ] [DecidableEq ι] (Ls Ls' : List (Launch τ ι ρ σ))
    (m m' : ι → σ) : Outcomes (Ls ++ Ls') m m' ↔ ∃ m1, Outcomes Ls m m1 ∧ Outcomes Ls' m1 m' := by
  induction Ls generalizing m with
  | nil => simp [Outcomes]
  | cons L Ls ih =>
    simp only [List.cons_append, Outcomes, ih]
    constructor
    · rintro ⟨a, h1, b, h2, h3⟩
      exact ⟨b, ⟨a, h1, h2⟩, h3⟩
    · rintro ⟨b, ⟨a, h1, h2⟩, h3⟩
      exact ⟨a, h1, b, h2, h3⟩

private theorem erase_list (nthreads Nm nz nr : ℕ) (fs : List DepField) (G : DepField → ℕ → ℕ → Buf)
    (mem' : DepIdx → ℂ) :
    Outcomes (fs.map fun f => eraseBuffer f nthreads Nm nz nr) (depMem G) mem' ↔
      mem' = depMem fun f m t iz ir =>
        if f ∈ fs ∧ t < nthreads ∧ m < Nm ∧ iz < nz ∧ ir < nr then 0 else G f m t iz ir := by
  induction fs generalizing G with
  | nil => simp [Outcomes]
  | cons a fs ih =>
    simp only [List.map_cons, Outcomes, C102_erase_buffers, exists_eq_left, ih]
    refine Eq.congr_right ?_
    congr 1
    funext f m t iz ir
    by_cases h : t < nthreads ∧ m < Nm ∧ iz < nz ∧ ir < nr
    · by_cases h1 : f ∈ fs
      · simp [h, h1]
      · by_cases h2 : f = a <;> simp [h, h1, h2]
    · rw [if_neg (by tauto), if_neg (by tauto), if_neg (by tauto)]

private theorem species_list (fs : List DepField) (hfs : fs.Nodup) (c : ℝ) (g : CylGrid) (beta : Shape → ℕ → List ℝ)
    (Nm nthreads : ℕ) (hn : 0 < nthreads) (sps : List DepSpecies)
    (hok : ∀ f ∈ fs, ∀ m < Nm, ∀ sp ∈ sps, speciesOk f c g beta m sp) (G : DepField → ℕ → ℕ → Buf)
    (mem' : DepIdx → ℂ) :
    Outcomes (sps.flatMap (depositCpu fs c g beta Nm nthreads)) (depMem G) mem' ↔
      mem' = depMem fun f m =>
        if f ∈ fs ∧ m < Nm then G f m + (sps.map (speciesGlob f c g beta m nthreads)).sum else G f m := by
  induction sps generalizing G with
  | nil =>
    simp only [List.flatMap_nil, Outcomes, List.map_nil, List.sum_nil, add_zero, ite_self]
  | cons sp sps ih =>
    rw [List.flatMap_cons, outcomes_append]
    have h1 := C102_deposit fs hfs c g beta Nm nthreads hn sp G
      (fun f m => if f ∈ fs ∧ m < Nm then G f m + speciesGlob f c g beta m nthreads sp else G f m) (by
        intro f m
        by_cases h : f ∈ fs ∧ m < Nm
        · simp only [if_pos h]
          exact (depositSpecies_ok _ _ _ _ _ _ hn _ _ _).2 ⟨hok f h.1 m h.2 sp (by simp), rfl⟩
        · simp only [if_neg h])
    simp only [h1, exists_eq_left]
    rw [ih fun f hf m hm sp' hsp' => hok f hf m hm sp' (by simp [hsp'])]
    refine Eq.congr_right ?_
    congr 1
    funext f m
    by_cases h : f ∈ fs ∧ m < Nm
    · simp only [if_pos h, List.map_cons, List.sum_cons, add_assoc]
    · simp only [if_neg h]

/-- The whole deposition on CPU threads: whatever the buffers contain before, the loops finish, and for every
schedule of the erasing, of the loops over the particles of all species and of the reduction, every quantity and
every mode on the grid is the one of the sequential model (C21 to C24). -/
theorem C102_deposit_all (fs : List DepField) (hfs : fs.Nodup) (c : ℝ) (g : CylGrid)
    (beta : Shape → ℕ → List ℝ) (Nm nthreads : ℕ) (hn : 0 < nthreads) (sps : List DepSpecies)
    (A : DepField → ℕ → Buf) (hA : ∀ f ∈ fs, ∀ m < Nm, depositAll f c g beta m nthreads sps = .ok (A f m))
    (junk : DepField → ℕ → ℕ → Buf) :
    (∃ mem', Outcomes (depositAllCpu fs c g beta Nm nthreads sps) (depMem junk) mem') ∧
    ∀ mem', Outcomes (depositAllCpu fs c g beta Nm nthreads sps) (depMem junk) mem' →
      ∀ f ∈ fs, ∀ m < Nm, ∀ out,
        Outcomes (sumReduceCpu g.Nz g.Nr nthreads fun t iz ir => mem' ⟨f, t, m, iz, ir⟩) (bufMem fun _ _ => 0) out ↔
          out = bufMem (A f m) := by
  have hok : ∀ f ∈ fs, ∀ m < Nm, ∀ sp ∈ sps, speciesOk f c g beta m sp :=
    fun f hf m hm => ((depositAll_ok f c g beta m nthreads hn sps _).1 (hA f hf m hm)).1
  have hall : ∀ mem', Outcomes (depositAllCpu fs c g beta Nm nthreads sps) (depMem junk) mem' ↔
      mem' = depMem fun f m =>
        if f ∈ fs ∧ m < Nm then
          (fun t iz ir => if f ∈ fs ∧ t < nthreads ∧ m < Nm ∧ iz < g.Nz + 4 ∧ ir < g.Nr + 4 then 0
            else junk f m t iz ir) + (sps.map (speciesGlob f c g beta m nthreads)).sum
        else fun t iz ir => if f ∈ fs ∧ t < nthreads ∧ m < Nm ∧ iz < g.Nz + 4 ∧ ir < g.Nr + 4 then 0
            else junk f m t iz ir := by
    intro mem'
    unfold depositAllCpu
    rw [outcomes_append]
    simp only [erase_list, exists_eq_left]
    exact species_list fs hfs c g beta Nm nthreads hn sps hok _ mem'
  refine ⟨⟨_, (hall _).2 rfl⟩, ?_⟩
  intro mem' h f hf m hm out
  rw [(hall mem').1 h, C102_reduce]
  refine Eq.congr_right ?_
  congr 1
  rw [((depositAll_ok f c g beta m nthreads hn sps _).1 (hA f hf m hm)).2, sumReduce_eq]
  have hz : (fun _ _ => 0 : Buf) = 0 := rfl
  rw [hz, zero_add]
  have hs : ∑ t ∈ Finset.range nthreads, (sps.map (speciesGlob f c g beta m nthreads)).sum t
      = (sps.map (speciesBuf f c g beta m)).sum := by
    clear hA hok hall h
    induction sps with
    | nil => simp
    | cons sp sps ih =>
      simp only [List.map_cons, List.sum_cons, Pi.add_apply, Finset.sum_add_distrib, ih,
        speciesGlob_sum f c g beta m nthreads hn]
  unfold reduceBuf
  refine Finset.sum_congr rfl fun iz hiz => Finset.sum_congr rfl fun ir hir => ?_
  congr 1
  rw [← hs]
  simp only [Finset.sum_apply]
  refine Finset.sum_congr rfl fun t ht => ?_
  rw [Finset.mem_range] at hiz hir ht
  simp only [depMem, if_pos (And.intro hf hm), Pi.add_apply, hf, ht, hm, hiz, hir, and_self, if_true, zero_add]

/-- Two species, three threads, two modes, both kernels: the hypothesis holds for a particle in the box. -/
example : ∃ (g : CylGrid) (beta : Shape → ℕ → List ℝ) (sps : List DepSpecies), sps.length = 2 ∧
    (∀ sp ∈ sps, sp.q ≠ 0 ∧ sp.ptcls ≠ []) ∧
    ∀ f ∈ [DepField.Jr, .Jt, .Jz], ∀ m < 2, ∃ A, depositAll f 1 g beta m 3 sps = .ok A := by
  refine ⟨⟨1, 0, 8, 1, 0, 4⟩, fun _ _ => List.replicate 5 0,
    [⟨1, .linear, [⟨1, 0, 4, 1, 0, 0, 1, 1 / 2⟩]⟩, ⟨-1, .cubic, [⟨1, 2, 3, 1, 0, 0, 1, 1 / 2⟩]⟩], rfl, ?_, ?_⟩
  · simp
  · intro f _ m _
    refine C24_deposit_partial f 1 _ _ m 3 (by norm_num) _ (by simp) (by norm_num) rfl ?_
    simp only [List.mem_cons, List.not_mem_nil, or_false, forall_eq_or_imp, forall_eq]
    norm_num [Shape.reach]

/-! ### Ionization -/

/-- Ionization in batches, on CPU threads and on the GPU: for every schedule, the sequential result. -/
theorem C102_ionize (P : IonParams) (Ntot : ℕ) (w : ℕ → ℝ) (dec : ℕ → ℕ → Bool) (s : IonState ℝ)
    (mem' : IonIdx → IonCell) :
    (Outcome (ionizeCpu P Ntot w dec) (ionMem s) mem' ↔ mem' = ionMem (ionizeIons P Ntot w dec s)) ∧
    (Outcome (ionizeGpu P Ntot w dec) (ionMem s) mem' ↔ mem' = ionMem (ionizeIons P Ntot w dec s)) := by
  haveI : Nonempty IonRegs := ⟨⟨0, none⟩⟩
  exact ⟨prange_seq _ _ (fun t t' _ _ ht => batch_race P Ntot w dec t t' ht) ionMem _
      (fun t _ => sim_batch P Ntot w dec t) s mem',
    launch1d_seq _ 256 (by norm_num) _ (fun t t' _ _ ht => batch_race P Ntot w dec t t' ht) ionMem _
      (fun t _ => sim_batch P Ntot w dec t) s mem'⟩

/-- The copy of the electrons afterwards: no two threads write to the same electron, since the offsets are the
cumulated counts of the batches; for every schedule, the sequential result (C17). -/
theorem C102_copy_ionized {α : Type} (P : IonParams) (hb : 0 < P.batchSize) (Ntot oldNtot : ℕ) (w : ℕ → ℝ)
    (dec : ℕ → ℕ → Bool) (s0 s : IonState ℝ) (hlev : ∀ ip < Ntot, P.levelStart ≤ s0.level ip)
    (hs : s = ionizeIons P Ntot w dec s0) (i : ℕ) (hi : i < P.nLevels) (ion elec mem' : ℕ → α) :
    (Outcome (copyCpu P Ntot oldNtot (cumsum2d s.nIonized) s.ionizedFrom i ion) elec mem' ↔
      mem' = copyIonized P Ntot oldNtot (cumsum2d s.nIonized) s.ionizedFrom i ion elec) ∧
    (Outcome (copyGpu P Ntot oldNtot (cumsum2d s.nIonized) s.ionizedFrom i ion) elec mem' ↔
      mem' = copyIonized P Ntot oldNtot (cumsum2d s.nIonized) s.ionizedFrom i ion elec) := by
  have hc : ∀ b < P.nBatch Ntot, s.nIonized i b = (P.chunk Ntot b).countP (createElectron P s.ionizedFrom i) := by
    subst hs
    exact fun b hbB => counts_create P Ntot w dec s0 hb hlev i hi b hbB
  exact ⟨prange_seq (S := ℕ → α) _ _ (fun t t' ht ht' hne => copy_race _ ion P Ntot oldNtot _ i hc t t' ht ht' hne)
      (fun m => m) _ (fun t _ r m => exec_copyCode _ _ _ _ _ _) elec mem',
    launch1d_seq (S := ℕ → α) _ 256 (by norm_num) _
      (fun t t' ht ht' hne => copy_race _ ion P Ntot oldNtot _ i hc t t' ht ht' hne)
      (fun m => m) _ (fun t _ r m => exec_copyCode _ _ _ _ _ _) elec mem'⟩

/-- Five ions in three batches, one electron species per level: ions at levels 0 and 1 that are all ionized. -/
example : let P : IonParams := ⟨2, 0, 2, true⟩
    let s := ionizeIons P 5 (fun _ => (1 : ℝ)) (fun _ _ => true)
      ⟨fun _ _ => 7, fun _ => 7, fun ip => if ip = 1 then 1 else 0, fun _ => 0⟩
    1 < P.nLevels ∧ P.nBatch 5 = 3 ∧
      (List.range 3).map (s.nIonized 0) = [1, 2, 1] ∧ (List.range 3).map (s.nIonized 1) = [1, 0, 0] ∧
      (List.range 3).map (cumsum2d s.nIonized 0) = [0, 1, 3] := by
  refine ⟨by decide, by decide, ?_, ?_, ?_⟩ <;>
    simp [ionizeIons, ionizeBatch, ionizeOne, IonParams.nBatch, IonParams.chunk, IonParams.slot, IonParams.nLevels,
      cumsum2d, List.range_succ, List.range', Function.update]

/-- With offsets that are not the cumulated counts (here: the same for all batches) two threads would write to
the same electron, and the result would depend on the schedule. -/
theorem C102_copy_needs_cumsum :
    let P : IonParams := ⟨1, 0, 1, false⟩
    ∃ m1 m2, Outcome (copyCpu P 2 0 (fun _ _ => 0) (fun _ => 0) 0 fun ip => ip) (fun _ => 9) m1 ∧
      Outcome (copyCpu P 2 0 (fun _ _ => 0) (fun _ => 0) 0 fun ip => ip) (fun _ => 9) m2 ∧ m1 0 ≠ m2 0 := by
  have gen : ∀ M : Machine ℕ ℕ Unit ℕ, (M.thread 0).code = [⟨0, store fun _ _ => 0⟩] →
      (M.thread 1).code = [⟨0, store fun _ _ => 1⟩] → (∀ t, 2 ≤ t → (M.thread t).code = []) →
      (Complete M [0, 1] ∧ (M.run [0, 1]).mem 0 = 1) ∧ (Complete M [1, 0] ∧ (M.run [1, 0]).mem 0 = 0) := by
    intro M h0 h1 h2
    have hc : ∀ l : List ℕ, (l = [0, 1] ∨ l = [1, 0]) → Complete M l := by
      intro l hl t
      rcases hl with rfl | rfl <;>
      · simp only [Machine.run, List.foldl_cons, List.foldl_nil, Machine.step, h0, h1]
        by_cases e0 : t = 0
        · subst e0; simp [h0, h1, store]
        · by_cases e1 : t = 1
          · subst e1; simp [h0, h1, store]
          · simp [h0, h1, store, e0, e1, h2 t (by omega)]
    refine ⟨⟨hc _ (Or.inl rfl), ?_⟩, hc _ (Or.inr rfl), ?_⟩ <;>
      simp [Machine.run, Machine.step, h0, h1, store]
  obtain ⟨⟨a1, a2⟩, b1, b2⟩ := gen (copyCpu ⟨1, 0, 1, false⟩ 2 0 (fun _ _ => 0) (fun _ => 0) 0 (fun ip => ip)
    (fun _ => 9) fun _ => ()) rfl rfl (by
      intro t ht
      simp only [copyCpu, prangeLoop]
      by_cases h : t < IonParams.nBatch ⟨1, 0, 1, false⟩ 2
      · rw [if_pos h]
        have : t = 2 := by
          simp only [IonParams.nBatch] at h
          omega
        subst this
        rfl
      · rw [if_neg h])
  exact ⟨_, _, ⟨_, _, a1, rfl⟩, ⟨_, _, b1, rfl⟩, by rw [a2, b2]; decide⟩

/-! ### Shift of the fields -/

/-- Shift with the moving window, on CPU threads and on the GPU: every column becomes the shifted column of the
sequential model (C12). -/
theorem C102_shift (Nz Nr : ℕ) (shift : ℕ → ℂ) (nMove : ℤ) (A : Buf) (mem' : ℕ × ℕ → ℂ) :
    (Outcome (shiftCpu Nz Nr shift nMove) (bufMem A) mem' ↔
      mem' = fun (i : ℕ × ℕ) => if i.1 < Nz ∧ i.2 < Nr then
        shiftSpectArray Nz shift nMove (fun z => A z.val i.2) (i.1 : ZMod Nz) else A i.1 i.2) ∧
    (Outcome (shiftGpu Nz Nr shift nMove) (bufMem A) mem' ↔
      mem' = fun (i : ℕ × ℕ) => if i.1 < Nz ∧ i.2 < Nr then
        shiftSpectArray Nz shift nMove (fun z => A z.val i.2) (i.1 : ZMod Nz) else A i.1 i.2) := by
  have e : (fun (i : ℕ × ℕ) => if i.1 < Nz ∧ i.2 < Nr then
        shiftSpectArray Nz shift nMove (fun z => A z.val i.2) (i.1 : ZMod Nz) else A i.1 i.2) =
      onGrid Nz Nr (fun iz _ s => s * powerOf (shift iz) nMove) (bufMem A) := by
    funext i
    by_cases h : i.1 < Nz ∧ i.2 < Nr
    · simp only [onGrid, if_pos h, shiftSpectArray, ZMod.val_cast_of_lt h.1, bufMem, powerOf]
    · simp only [onGrid, if_neg h, bufMem]
  rw [e]
  constructor
  · refine (prange_seq (S := ℕ × ℕ → ℂ) Nz _ ?_ (fun M => M) (fun M iz => fun i =>
      if i.1 = iz ∧ i.2 < Nr then M i * powerOf (shift iz) nMove else M i) ?_ (bufMem A) mem').trans (Eq.congr_right ?_)
    · intro t t' _ _ ht s hs s' hs' e
      have hcell : ∀ t, ∀ s ∈ (atCell (t, 0) (powerCode (shift t) nMove) ++
          (List.range Nr).flatMap fun ir => atCell (t, ir) [store fun (r s : ℂ) => s * r]), s.cell.1 = t := by
        intro t s hs
        simp only [atCell, List.mem_append, List.mem_map, List.mem_flatMap] at hs
        rcases hs with ⟨_, _, rfl⟩ | ⟨_, _, _, _, rfl⟩ <;> rfl
      exact ht (by rw [← hcell t s hs, e, hcell t' s' hs'])
    · intro t _ r M
      rw [execCode_atCell_append, runBody_power, exec_rowMul t _ List.nodup_range, Function.update_eq_self]
      simp only [List.mem_range]
    · have : ∀ n i, (List.range n).foldl (fun (M : ℕ × ℕ → ℂ) iz => fun i =>
          if i.1 = iz ∧ i.2 < Nr then M i * powerOf (shift iz) nMove else M i) (bufMem A) i =
          if i.1 < n ∧ i.2 < Nr then bufMem A i * powerOf (shift i.1) nMove else bufMem A i := by
        intro n i
        induction n with
        | zero => simp
        | succ n ih =>
          rw [List.range_succ, List.foldl_append]
          simp only [List.foldl_cons, List.foldl_nil]
          rw [ih]
          by_cases h : i.2 < Nr
          · by_cases e1 : i.1 = n
            · simp [e1, h]
            · by_cases e2 : i.1 < n
              · simp [e1, e2, h, Nat.lt_succ_of_lt e2]
              · have : ¬ i.1 < n + 1 := by omega
                simp [e1, e2, this]
          · simp [h]
      funext i
      exact this Nz i
  · exact result_cellKernel Nz Nr 1 128 (by norm_num) (by norm_num) _
      (fun iz _ s => s * powerOf (shift iz) nMove) (by
        intro iz ir _ _ r s
        rw [runBody_append, runBody_power]
        rfl) (bufMem A) mem'

end

end Fbpic.Parallel
