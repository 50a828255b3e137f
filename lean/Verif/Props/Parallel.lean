import Verif.Lemmas.Kernels
import Verif.Model.CellVolume

/-!
# C102: parallel loops

The loops that are distributed over CPU threads (`prange`) or over GPU threads give, for every schedule
and whatever the local variables contain at the start, exactly one result: the one of the sequential code.
-/

namespace Fbpic.Parallel

open Spec

noncomputable section

/-- The spec: for any loop in which no two threads work on the same entry, all complete schedules (and only
the initial values of the local variables being equal) give the same memory. -/
theorem C102_schedule {τ ι ρ σ : Type} [DecidableEq τ] [DecidableEq ι] (M : Machine τ ι ρ σ)
    (h : RaceFree M) (s s' : List τ) (hs : Complete M s) (hs' : Complete M s') :
    (M.run s).mem = (M.run s').mem := by
  funext i
  by_cases hi : ∃ t, Owned M t i
  · obtain ⟨t, ht⟩ := hi
    rw [run_mem M h s hs t i ht, run_mem M h s' hs' t i ht]
  · push Not at hi
    rw [run_mem_other M h s i hi, run_mem_other M h s' i hi]

/-- Two threads, two cells, all schedules. -/
example : RaceFree (prangeLoop (σ := ℕ) (ρ := Unit) 2 (fun i => atCell i [store fun _ s => s + 1]) (fun _ => 0)
    fun _ => ()) := by
  intro t t' h s hs s' hs'
  simp only [prangeLoop] at hs hs'
  split at hs <;> split at hs' <;> simp [atCell] at hs hs'
  simp [hs, hs', h]

/-- Every index of a one-dimensional launch is handled by exactly one GPU thread. -/
theorem C102_threads_1d (x TPB : ℕ) (h : 0 < TPB) (i : ℕ) (hi : i < x) :
    ∃! t : ℕ × ℕ, (t.1 < blocks x TPB ∧ t.2 < TPB) ∧ t.1 * TPB + t.2 = i := by
  refine ⟨(i / TPB, i % TPB), ⟨gid_lt h hi, Nat.div_add_mod' _ _⟩, ?_⟩
  rintro ⟨a, b⟩ ⟨⟨_, h2⟩, h3⟩
  obtain ⟨e1, e2⟩ := gid_inj h2 (gid_lt h hi).2 (h3.trans (Nat.div_add_mod' i TPB).symm)
  ext <;> assumption

/-- Every index of a two-dimensional launch is handled by exactly one GPU thread. -/
theorem C102_threads_2d (x y TPBx TPBy : ℕ) (hx : 0 < TPBx) (hy : 0 < TPBy) (iz ir : ℕ) (h1 : iz < x)
    (h2 : ir < y) :
    ∃! t : (ℕ × ℕ) × (ℕ × ℕ),
      ((t.1.1 < blocks x TPBx ∧ t.2.1 < TPBx) ∧ (t.1.2 < blocks y TPBy ∧ t.2.2 < TPBy)) ∧
        t.1.1 * TPBx + t.2.1 = iz ∧ t.1.2 * TPBy + t.2.2 = ir := by
  refine ⟨((iz / TPBx, ir / TPBy), (iz % TPBx, ir % TPBy)),
    ⟨⟨gid_lt hx h1, gid_lt hy h2⟩, Nat.div_add_mod' _ _, Nat.div_add_mod' _ _⟩, ?_⟩
  rintro ⟨⟨a, b⟩, ⟨c, d⟩⟩ ⟨⟨⟨_, k1⟩, ⟨_, k2⟩⟩, k3, k4⟩
  obtain ⟨e1, e2⟩ := gid_inj k1 (gid_lt hx h1).2 (k3.trans (Nat.div_add_mod' iz TPBx).symm)
  obtain ⟨e3, e4⟩ := gid_inj k2 (gid_lt hy h2).2 (k4.trans (Nat.div_add_mod' ir TPBy).symm)
  simp only [Prod.mk.injEq]
  exact ⟨⟨e1, e3⟩, e2, e4⟩

/-! ### Fields in spectral space -/

/-- Current correction on the GPU: any schedule, the result of the sequential model. -/
theorem C102_correct_currents_gpu (k : Consts) (m : CurrentCorrection) (dt : ℝ) (V : Option ℝ)
    (gal : Bool) (g : SpecGrid) (mem' : ℕ × ℕ → SpecCell) :
    Outcomes (correctCurrentsGpu k m dt V gal g) (specMem g) mem' ↔
      mem' = specMem (g.correctCurrents k m dt V gal) :=
  results_one _ _ (outcome_gpuGrid g 16 (by norm_num) _ _
    fun iz ir => computes_correctCurrents m (g.kz iz) (g.kr ir) _) (specMem g) mem'

/-- Current correction on CPU threads. -/
theorem C102_correct_currents_cpu (k : Consts) (m : CurrentCorrection) (dt : ℝ) (V : Option ℝ)
    (gal : Bool) (g : SpecGrid) (mem' : ℕ × ℕ → SpecCell) :
    Outcomes (correctCurrentsCpu k m dt V gal g) (specMem g) mem' ↔
      mem' = specMem (g.correctCurrents k m dt V gal) :=
  results_one _ _ (outcome_cpuGrid g _ _
    fun iz ir => computes_correctCurrents m (g.kz iz) (g.kr ir) _) (specMem g) mem'

private theorem pushEB_eq (k : Consts) (dt : ℝ) (V : Option ℝ) (gal pml trueRho : Bool) (g : SpecGrid) :
    onGrid g.Nz g.Nr (fun iz ir s =>
        match (psatdCoefs k (g.kz iz) (g.kr ir) dt V gal).comov with
        | none => pushEBStandard k (g.kz iz) (g.kr ir) (psatdCoefs k (g.kz iz) (g.kr ir) dt V gal) trueRho s
        | some a => pushEBComoving k (g.kz iz) (g.kr ir) (psatdCoefs k (g.kz iz) (g.kr ir) dt V gal) a trueRho s)
      (if pml then
        onGrid g.Nz g.Nr (fun iz ir s =>
          match (psatdCoefs k (g.kz iz) (g.kr ir) dt V gal).comov with
          | none => pushPmlStandard k (g.kr ir) (psatdCoefs k (g.kz iz) (g.kr ir) dt V gal) s
          | some a => pushPmlComoving k (g.kr ir) (psatdCoefs k (g.kz iz) (g.kr ir) dt V gal) a s) (specMem g)
      else specMem g) =
    specMem (g.mapCells fun kz kr s => pushEBWith k kz kr (psatdCoefs k kz kr dt V gal) pml trueRho s) := by
  funext i
  by_cases h : i.1 < g.Nz ∧ i.2 < g.Nr
  · have e : specMem (g.mapCells fun kz kr s =>
        pushEBWith k kz kr (psatdCoefs k kz kr dt V gal) pml trueRho s) i =
        pushEBWith k (g.kz i.1) (g.kr i.2) (psatdCoefs k (g.kz i.1) (g.kr i.2) dt V gal) pml trueRho
          (g.cell i.1 i.2) := if_pos h
    rw [e]
    refine (if_pos h).trans ?_
    cases pml
    · simp only [Bool.false_eq_true, if_false, pushEBWith]
      generalize psatdCoefs k (g.kz i.1) (g.kr i.2) dt V gal = ps
      cases ps.comov <;> rfl
    · simp only [if_true, onGrid, if_pos h, pushEBWith]
      generalize psatdCoefs k (g.kz i.1) (g.kr i.2) dt V gal = ps
      cases ps.comov <;> rfl
  · have e : specMem (g.mapCells fun kz kr s =>
        pushEBWith k kz kr (psatdCoefs k kz kr dt V gal) pml trueRho s) i = g.cell i.1 i.2 := if_neg h
    rw [e]
    refine (if_neg h).trans ?_
    cases pml
    · rfl
    · exact if_neg h

/-- Field push (and shift of the charge density) on the GPU. -/
theorem C102_push_gpu (k : Consts) (dt : ℝ) (V : Option ℝ) (gal pml trueRho : Bool) (g : SpecGrid)
    (mem' : ℕ × ℕ → SpecCell) :
    Outcomes (pushGpu k dt V gal pml trueRho g) (specMem g) mem' ↔
      mem' = specMem (g.push k dt V gal pml trueRho) := by
  have h1 := outcome_gpuGrid g 16 (by norm_num) _ _
    fun iz ir => computes_pushPml k (g.kr ir) (psatdCoefs k (g.kz iz) (g.kr ir) dt V gal)
  have h2 := outcome_gpuGrid g 16 (by norm_num) _ _
    fun iz ir => computes_pushEB k (g.kz iz) (g.kr ir) (psatdCoefs k (g.kz iz) (g.kr ir) dt V gal) trueRho
  have h3 := outcome_gpuGrid g 128 (by norm_num) (fun _ _ => pushRhoCode) (fun _ _ => pushRho)
    fun iz ir => computes_pushRho
  have h23 := results_cons _ _ _ _ h2 (results_one _ _ h3)
  have e : specMem (g.push k dt V gal pml trueRho) = onGrid g.Nz g.Nr (fun _ _ => pushRho)
      (specMem (g.mapCells fun kz kr s => pushEBWith k kz kr (psatdCoefs k kz kr dt V gal) pml trueRho s)) :=
    rfl
  rw [e, ← pushEB_eq]
  cases pml
  · exact h23 (specMem g) mem'
  · exact results_cons _ _ _ _ h1 h23 (specMem g) mem'

/-- Field push on CPU threads. -/
theorem C102_push_cpu (k : Consts) (dt : ℝ) (V : Option ℝ) (gal pml trueRho : Bool) (g : SpecGrid)
    (mem' : ℕ × ℕ → SpecCell) :
    Outcomes (pushCpu k dt V gal pml trueRho g) (specMem g) mem' ↔
      mem' = specMem (g.mapCells fun kz kr s =>
        pushEBWith k kz kr (psatdCoefs k kz kr dt V gal) pml trueRho s) := by
  have h1 := outcome_cpuGrid g _ _
    fun iz ir => computes_pushPml k (g.kr ir) (psatdCoefs k (g.kz iz) (g.kr ir) dt V gal)
  have h2 := outcome_cpuGrid g _ _
    fun iz ir => computes_pushEB k (g.kz iz) (g.kr ir) (psatdCoefs k (g.kz iz) (g.kr ir) dt V gal) trueRho
  rw [← pushEB_eq]
  cases pml
  · exact results_one _ _ h2 (specMem g) mem'
  · exact results_cons _ _ _ _ h1 (results_one _ _ h2) (specMem g) mem'

/-- Smoothing on the GPU and on CPU threads. -/
theorem C102_filter (g : SpecGrid) (filtZ filtR : ℕ → ℝ) (fld : FilterField) (mem' : ℕ × ℕ → SpecCell) :
    (Outcomes (filterGpu g filtZ filtR fld) (specMem g) mem' ↔
      mem' = specMem (g.filter filtZ filtR fld)) ∧
    (Outcomes (filterCpu g filtZ filtR fld) (specMem g) mem' ↔
      mem' = specMem (g.filter filtZ filtR fld)) :=
  ⟨results_one _ _ (outcome_gpuGrid g 128 (by norm_num) _ _
      fun iz ir => computes_filter (filtZ iz * filtR ir) fld) (specMem g) mem',
    results_one _ _ (outcome_cpuGrid g _ _
      fun iz ir => computes_filter (filtZ iz * filtR ir) fld) (specMem g) mem'⟩

/-- A concrete grid (3 x 20 cells): the second block of threads along r is needed. -/
example : blocks 20 16 = 2 ∧ ∃ t : (ℕ × ℕ) × (ℕ × ℕ), t.1.2 = 1 ∧ t.1.2 * 16 + t.2.2 = 17 :=
  ⟨rfl, ((0, 1), (0, 1)), rfl, rfl⟩

/-! ### Particles -/

private theorem ptclMem_map (ps : List PushPtcl) (F : ℕ → PtclFields) (f : ℕ → PtclCell → PtclCell)
    (ps' : List PushPtcl) (F' : ℕ → PtclFields) (hl : ps'.length = ps.length)
    (h : ∀ i (hi : i < ps.length), f i ⟨ps[i], (F i).E, (F i).B⟩ = ⟨ps'[i], (F' i).E, (F' i).B⟩) :
    onPtcls ps.length f (ptclMem ps F) = ptclMem ps' F' := by
  funext i
  simp only [onPtcls, ptclMem]
  by_cases hi : i < ps.length
  · rw [if_pos hi, List.getElem?_eq_getElem hi, List.getElem?_eq_getElem (hl ▸ hi)]
    exact h i hi
  · rw [if_neg hi, List.getElem?_eq_none (by omega), List.getElem?_eq_none (by omega)]

/-- Position push, GPU and CPU threads. -/
theorem C102_push_x (c dt px py pz : ℝ) (ps : List PushPtcl) (F : ℕ → PtclFields) (mem' : ℕ → PtclCell) :
    (Outcomes (pushXGpu c dt px py pz ps.length) (ptclMem ps F) mem' ↔
      mem' = ptclMem (ps.map (pushX c dt px py pz)) F) ∧
    (Outcomes (pushXCpu c dt px py pz ps.length) (ptclMem ps F) mem' ↔
      mem' = ptclMem (ps.map (pushX c dt px py pz)) F) := by
  have e := ptclMem_map ps F (fun _ s => { s with p := pushX c dt px py pz s.p })
    (ps.map (pushX c dt px py pz)) F (by simp) (by intro i hi; simp)
  rw [← e]
  exact ⟨results_one _ _ (result_ptclKernel ps.length 256 (by norm_num) _ _
      fun i _ => computes_pushXGpu c dt px py pz) (ptclMem ps F) mem',
    results_one _ _ (result_ptclLoop ps.length _ _
      fun i _ => computes_pushXCpu c dt px py pz) (ptclMem ps F) mem'⟩

/-- The arguments that `push_p` takes from the species. -/
def pushArgs (c eCharge : ℝ) (s : PushSpecies) (t : ℝ) : PushArgs :=
  { c := c, eCharge := eCharge, q := s.q, m := s.m, dt := s.dt, ionizable := s.ionizable
    zPlane := s.plane.map fun b => b.position c t }

private theorem mapIdx_eq (ps : List PushPtcl) (F : ℕ → PtclFields)
    (f : PtclFields → PushPtcl → PushPtcl) :
    onPtcls ps.length (fun _ s => { s with p := f ⟨s.E, s.B⟩ s.p }) (ptclMem ps F) =
      ptclMem (ps.mapIdx fun i p => f (F i) p) F :=
  ptclMem_map ps F _ _ F (by simp) (by intro i hi; simp)

/-- Momentum push, GPU and CPU threads: both succeed exactly when the sequential model does, and then any
schedule gives its particles. -/
theorem C102_push_p (c eCharge t : ℝ) (s : PushSpecies) (F : ℕ → PtclFields) :
    match s.pushP c eCharge F t with
    | .ok s' =>
      (∃ Ls, pushPGpu (pushArgs c eCharge s t) s.ptcl.length = .ok Ls ∧
        ∀ mem', Outcomes Ls (ptclMem s.ptcl F) mem' ↔ mem' = ptclMem s'.ptcl F) ∧
      (∃ Ls, pushPCpu (pushArgs c eCharge s t) s.ptcl.length = .ok Ls ∧
        ∀ mem', Outcomes Ls (ptclMem s.ptcl F) mem' ↔ mem' = ptclMem s'.ptcl F)
    | .error _ =>
      (∃ e, pushPGpu (pushArgs c eCharge s t) s.ptcl.length = .error e) ∧
      (∃ e, pushPCpu (pushArgs c eCharge s t) s.ptcl.length = .error e) := by
  obtain ⟨q, m, dt, ion, plane, ps⟩ := s
  unfold PushSpecies.pushP pushPGpu pushPCpu pushArgs
  by_cases hq : q = 0
  · simp only [hq, if_true]
    exact ⟨⟨[], rfl, fun mem' => Iff.rfl⟩, ⟨[], rfl, fun mem' => Iff.rfl⟩⟩
  · simp only [hq, if_false]
    rcases plane with _ | b
    · cases ion
      · simp only [Option.map_none, Option.isSome_none, Bool.false_eq_true, false_and, if_false]
        rw [← mapIdx_eq]
        exact ⟨⟨_, rfl, results_one _ _ (result_ptclKernel ps.length 256 (by norm_num) _ _
            fun i _ => computes_pushP c q m dt) _⟩,
          ⟨_, rfl, results_one _ _ (result_ptclLoop ps.length _ _
            fun i _ => computes_pushP c q m dt) _⟩⟩
      · simp only [Option.map_none, Option.isSome_none, Bool.false_eq_true, false_and, if_false, if_true]
        rw [← mapIdx_eq]
        exact ⟨⟨_, rfl, results_one _ _ (result_ptclKernel ps.length 256 (by norm_num) _ _
            fun i _ => computes_pushPIonizGpu c eCharge m dt) _⟩,
          ⟨_, rfl, results_one _ _ (result_ptclLoop ps.length _ _
            fun i _ => computes_pushPIonizCpu c eCharge m dt) _⟩⟩
    · cases ion
      · simp only [Option.map_some, Option.isSome_some, Bool.false_eq_true, and_false, if_false]
        rw [← mapIdx_eq]
        exact ⟨⟨_, rfl, results_one _ _ (result_ptclKernel ps.length 256 (by norm_num) _ _
            fun i _ => computes_pushPAfterPlane c (b.position c t) q m dt) _⟩,
          ⟨_, rfl, results_one _ _ (result_ptclLoop ps.length _ _
            fun i _ => computes_pushPAfterPlane c (b.position c t) q m dt) _⟩⟩
      · simp only [Option.map_some, Option.isSome_some, and_self, if_true]
        exact ⟨⟨_, rfl⟩, ⟨_, rfl⟩⟩

/-- A species with one particle is pushed. -/
example : ∃ s', (PushSpecies.mk 1 1 1 false none [⟨0, 0, 0, ⟨0, 0, 0, 1⟩, 0⟩]).pushP 1 1
    (fun _ => ⟨⟨1, 0, 0⟩, ⟨0, 0, 0⟩⟩) 0 = .ok s' := by
  simp [PushSpecies.pushP]

private theorem result_gatherLoop (A : GatherArgs) (nthreads N : ℕ) (hn : 0 < nthreads) (code : PtclCode)
    (f : PtclCell → PtclCell) (hf : Computes code f) :
    Result (gatherLoop A nthreads N code) (onPtcls N fun _ => f) := by
  unfold gatherLoop
  cases A.shape
  · exact result_ptclLoop N _ _ fun _ _ => hf
  · exact result_chunkLoop N nthreads hn _ _ fun _ _ => hf

private theorem gather_general (A : GatherArgs) (Fs : List (GridVec × GridVec)) (ps : List PushPtcl)
    (F F' : ℕ → PtclFields)
    (hE : ∀ i (hi : i < ps.length), gatherField A.shape A.g A.rmax (Fs.map Prod.fst)
      ps[i].x ps[i].y ps[i].z = .ok ((F' i).E.x, (F' i).E.y, (F' i).E.z))
    (hB : ∀ i (hi : i < ps.length), gatherField A.shape A.g A.rmax (Fs.map Prod.snd)
      ps[i].x ps[i].y ps[i].z = .ok ((F' i).B.x, (F' i).B.y, (F' i).B.z)) :
    (∀ F0 F1, Fs = [F0, F1] →
      onPtcls ps.length (fun _ s => { s with E := twoJ A F0.1 F1.1 s, B := twoJ A F0.2 F1.2 s })
        (ptclMem ps F) = ptclMem ps F') ∧
    ((∀ F0 F1, Fs ≠ [F0, F1]) →
      onPtcls ps.length (fun _ s =>
        { s with E := modesJ A (Fs.zipIdx.map fun Fm => (Fm.1.1, Fm.2)) s s.E
                 B := modesJ A (Fs.zipIdx.map fun Fm => (Fm.1.2, Fm.2)) s s.B })
        (onPtcls ps.length (fun _ s => { s with E := ⟨0, 0, 0⟩, B := ⟨0, 0, 0⟩ }) (ptclMem ps F)) =
          ptclMem ps F') := by
  constructor
  · rintro F0 F1 rfl
    refine ptclMem_map ps F _ ps F' rfl fun i hi => ?_
    have h1 := twoJ_ok A F0.1 F1.1 ⟨ps[i], (F i).E, (F i).B⟩ (F' i).E (hE i hi)
    have h2 := twoJ_ok A F0.2 F1.2 ⟨ps[i], (F i).E, (F i).B⟩ (F' i).B (hB i hi)
    simp only [h1, h2]
  · intro hne
    have e0 : onPtcls ps.length (fun _ s => { s with E := ⟨0, 0, 0⟩, B := ⟨0, 0, 0⟩ }) (ptclMem ps F) =
        ptclMem ps fun _ => ⟨⟨0, 0, 0⟩, ⟨0, 0, 0⟩⟩ :=
      ptclMem_map ps F _ ps _ rfl fun i hi => rfl
    rw [e0]
    have gen : ∀ (sel : GridVec × GridVec → GridVec) (p : PushPtcl) (v : ℝ × ℝ × ℝ),
        gatherField A.shape A.g A.rmax (Fs.map sel) p.x p.y p.z = .ok v →
        (Fs.zipIdx.map fun Fm => (sel Fm.1, Fm.2)).foldlM (fun (E : ℝ × ℝ × ℝ) (Fm : GridVec × ℕ) =>
          gatherOneMode A.shape A.g A.rmax Fm.2 Fm.1 p.x p.y p.z E) (0, 0, 0) = .ok v := by
      intro sel p v h
      unfold gatherField at h
      split at h
      · rename_i F0 F1 e
        exfalso
        rcases Fs with _ | ⟨a, _ | ⟨b, _ | ⟨c, Fs⟩⟩⟩ <;> simp at e
        exact hne a b rfl
      · rw [List.zipIdx_map] at h
        exact h
    refine ptclMem_map ps _ _ ps F' rfl fun i hi => ?_
    have h1 := modesJ_ok A _ ⟨ps[i], ⟨0, 0, 0⟩, ⟨0, 0, 0⟩⟩ ⟨0, 0, 0⟩ (F' i).E (gen Prod.fst ps[i] _ (hE i hi))
    have h2 := modesJ_ok A _ ⟨ps[i], ⟨0, 0, 0⟩, ⟨0, 0, 0⟩⟩ ⟨0, 0, 0⟩ (F' i).B (gen Prod.snd ps[i] _ (hB i hi))
    simp only [h1, h2]

/-- Gathering, GPU and CPU threads (any number of them): if the sequential gathering of E and B stays inside
the arrays for every particle, every schedule gives its fields, whatever the particles carried before. -/
theorem C102_gather (A : GatherArgs) (q : ℝ) (hq : q ≠ 0) (nthreads : ℕ) (hn : 0 < nthreads)
    (Fs : List (GridVec × GridVec)) (ps : List PushPtcl) (F F' : ℕ → PtclFields)
    (hE : ∀ i (hi : i < ps.length), gatherField A.shape A.g A.rmax (Fs.map Prod.fst)
      ps[i].x ps[i].y ps[i].z = .ok ((F' i).E.x, (F' i).E.y, (F' i).E.z))
    (hB : ∀ i (hi : i < ps.length), gatherField A.shape A.g A.rmax (Fs.map Prod.snd)
      ps[i].x ps[i].y ps[i].z = .ok ((F' i).B.x, (F' i).B.y, (F' i).B.z)) (mem' : ℕ → PtclCell) :
    (Outcomes (gatherGpu A q Fs ps.length) (ptclMem ps F) mem' ↔ mem' = ptclMem ps F') ∧
    (Outcomes (gatherCpu A q nthreads Fs ps.length) (ptclMem ps F) mem' ↔ mem' = ptclMem ps F') := by
  obtain ⟨g1, g2⟩ := gather_general A Fs ps F F' hE hB
  have htpb : 0 < gatherTpb A.shape := by cases A.shape <;> norm_num [gatherTpb]
  unfold gatherGpu gatherCpu
  simp only [hq, if_false]
  split
  · rename_i F0 F1
    rw [← g1 F0 F1 rfl]
    exact ⟨results_one _ _ (result_ptclKernel _ _ htpb _ _
        fun _ _ => computes_gatherTwo A F0.1 F1.1 F0.2 F1.2) _ _,
      results_one _ _ (result_gatherLoop A nthreads _ hn _ _
        (computes_gatherTwo A F0.1 F1.1 F0.2 F1.2)) _ _⟩
  · rename_i hne
    rw [← g2 fun F0 F1 h => hne F0 F1 h]
    exact ⟨results_cons _ _ _ _ (result_ptclKernel _ _ htpb _ _ fun _ _ => computes_eraseEB)
        (results_modes A ps.length _ (fun Fm => result_ptclKernel _ _ htpb _ _
          fun _ _ => computes_oneModeGpu A Fm.2 Fm.1.1 Fm.1.2) Fs.zipIdx) _ _,
      results_cons _ _ _ _ (result_ptclLoop _ _ _ fun _ _ => computes_eraseEB)
        (results_modes A ps.length _ (fun Fm => result_gatherLoop A nthreads _ hn _ _
          (computes_oneModeCpu A Fm.2 Fm.1.1 Fm.1.2)) Fs.zipIdx) _ _⟩

/-- One particle beyond the gathering radius (fields 0), three modes. -/
example (Er : Buf) : gatherField .linear ⟨1, 0, 4, 1, 0, 4⟩ 2 [⟨Er, Er, Er⟩, ⟨Er, Er, Er⟩, ⟨Er, Er, Er⟩]
    3 0 1 = .ok (0, 0, 0) := by
  have h : ¬ cylR 3 0 < 2 := by
    unfold cylR
    rw [show (3 : ℝ) ^ 2 + 0 ^ 2 = 3 ^ 2 by norm_num, Real.sqrt_sq (by norm_num)]
    norm_num
  simp [gatherField, gatherOneMode, h, pure, Except.pure, bind, Except.bind]

/-! ### Interpolation grid, guard cells, damping -/

/-- `erase` and `divide_by_volume` on the GPU. -/
theorem C102_grid_ops (nf m Nz Nr : ℕ) (vol : ℕ → ℝ) (F : ℕ → ℕ → ℕ → ℕ → ℂ) (mem' : ℕ × ℕ → XCell nf) :
    (Outcome (eraseGpu nf Nz Nr) (xMem nf m F) mem' ↔
      mem' = fun (i : ℕ × ℕ) (k : Fin nf) => if i.1 < Nz ∧ i.2 < Nr then 0 else F m k i.1 i.2) ∧
    (Outcome (divideGpu nf Nz Nr vol) (xMem nf m F) mem' ↔
      mem' = fun (i : ℕ × ℕ) (k : Fin nf) => if i.1 < Nz ∧ i.2 < Nr then CellVolume.divideByVolume vol (F m k) i.1 i.2
        else F m k i.1 i.2) := by
  have h1 := result_cellKernel Nz Nr 1 128 (by norm_num) (by norm_num) (fun _ _ => eraseCode nf)
    (fun _ _ _ _ => 0) (fun _ _ _ _ => computes_updates fun _ _ => 0) (xMem nf m F) mem'
  have h2 := result_cellKernel Nz Nr 1 128 (by norm_num) (by norm_num)
    (fun _ ir => divideCode nf (1 / vol ir)) (fun _ ir s k => s k * ((1 / vol ir : ℝ) : ℂ))
    (fun _ ir _ _ => computes_updates fun _ s => s * ((1 / vol ir : ℝ) : ℂ)) (xMem nf m F) mem'
  constructor
  · refine h1.trans (Eq.congr_right ?_)
    funext i k
    simp only [onGrid, xMem]
    split <;> rfl
  · refine h2.trans (Eq.congr_right ?_)
    funext i k
    simp only [onGrid, xMem, CellVolume.divideByVolume]
    split <;> rfl

/-- The GPU send buffers: for every schedule, the content of the CPU buffers (`packBuf`), at each row and
radius. -/
theorem C102_send_buffers (meth : XMethod) (ng nf Nm Nz Nr : ℕ) (cl cr : Bool) (F : ℕ → ℕ → ℕ → ℕ → ℂ)
    (buf buf' : ℕ × ℕ → SendCell) :
    Outcomes (sendGpu meth ng nf Nm Nz Nr cl cr F) buf buf' ↔
      buf' = fun (i : ℕ × ℕ) =>
        if i.1 < (meth.zone ng).2 - (meth.zone ng).1 ∧ i.2 < Nr then
          ⟨if cl then packBuf nf Nm (fun m k => F m k ((meth.zone ng).1 + i.1) i.2) (buf i).l else (buf i).l,
           if cr then packBuf nf Nm (fun m k => F m k (Nz - (meth.zone ng).2 + i.1) i.2) (buf i).r
            else (buf i).r⟩
        else buf i :=
  results_sendGpu meth ng nf Nm Nz Nr cl cr F buf buf'

/-- The received guard cells: for every schedule, the result of the CPU code. This needs the check
`Nz >= 4*n_guard` (boundary_communicator.py:362), without which two threads add to the same row. -/
theorem C102_receive_buffers (meth : XMethod) (ng nf m Nz Nr : ℕ) (h : 4 * ng ≤ Nz)
    (bl br : Option (ℕ → ℕ → ℕ → ℂ)) (F : ℕ → ℕ → ℕ → ℕ → ℂ) (mem' : ℕ × ℕ → XCell nf) :
    Outcome (recvGpu meth nf m Nz Nr ((meth.zone ng).2 - (meth.zone ng).1) bl br) (xMem nf m F) mem' ↔
      mem' = fun (i : ℕ × ℕ) (k : Fin nf) =>
        if i.2 < Nr then
          recvRight meth ((meth.zone ng).2 - (meth.zone ng).1) nf Nz br
            (recvLeft meth ((meth.zone ng).2 - (meth.zone ng).1) nf bl F) m k i.1 i.2
        else F m k i.1 i.2 := by
  have hw : 2 * ((meth.zone ng).2 - (meth.zone ng).1) ≤ Nz := by
    cases meth <;> simp only [XMethod.zone] <;> omega
  generalize (meth.zone ng).2 - (meth.zone ng).1 = w at hw
  refine (result_recvGpu meth nf m Nz Nr w hw bl br (xMem nf m F) mem').trans (Eq.congr_right ?_)
  funext i k
  beta_reduce
  by_cases h1 : i.2 < Nr
  · rw [if_pos h1, if_pos h1]
    unfold recvRight recvLeft
    by_cases h2 : i.1 < w
    · have h3 : ¬ (Nz ≤ i.1 + w ∧ i.1 < Nz) := by omega
      cases bl <;> cases br <;> cases meth <;> simp [h2, h3, combine, xMem]
    · by_cases h3 : Nz - w ≤ i.1 ∧ i.1 < Nz
      · cases bl <;> cases br <;> cases meth <;> simp [h2, h3, combine, xMem]
      · have h3 : ¬ (Nz ≤ i.1 + w ∧ i.1 < Nz) := by omega
        cases bl <;> cases br <;> cases meth <;> simp [h2, h3, xMem]
  · rw [if_neg h1, if_neg h1]; rfl

/-- The state of two threads and of the memory. -/
private def Two {τ ι ρ σ : Type} (M : Machine τ ι ρ σ) (A B : τ) (m : ι → σ) (ta tb : Thread ι ρ σ) : Prop :=
  M.mem = m ∧ M.thread A = ta ∧ M.thread B = tb

private theorem Two.left {τ ι ρ σ : Type} [DecidableEq τ] [DecidableEq ι] {M : Machine τ ι ρ σ} {A B : τ}
    {m : ι → σ} {r : ρ} {st : Stmt ι ρ σ} {rest : List (Stmt ι ρ σ)} {tb : Thread ι ρ σ} (hAB : A ≠ B)
    (h : Two M A B m ⟨r, st :: rest⟩ tb) :
    Two (M.step A) A B (Function.update m st.cell (st.run r (m st.cell)).2)
      ⟨(st.run r (m st.cell)).1, rest⟩ tb := by
  obtain ⟨rfl, h2, h3⟩ := h
  have e : M.step A = { mem := Function.update M.mem st.cell (st.run r (M.mem st.cell)).2
                        thread := Function.update M.thread A ⟨(st.run r (M.mem st.cell)).1, rest⟩ } := by
    unfold Machine.step; rw [h2]
  rw [e]
  exact ⟨rfl, Function.update_self _ _ _, (Function.update_of_ne hAB.symm _ _).trans h3⟩

private theorem Two.right {τ ι ρ σ : Type} [DecidableEq τ] [DecidableEq ι] {M : Machine τ ι ρ σ} {A B : τ}
    {m : ι → σ} {r : ρ} {st : Stmt ι ρ σ} {rest : List (Stmt ι ρ σ)} {ta : Thread ι ρ σ} (hAB : A ≠ B)
    (h : Two M A B m ta ⟨r, st :: rest⟩) :
    Two (M.step B) A B (Function.update m st.cell (st.run r (m st.cell)).2) ta
      ⟨(st.run r (m st.cell)).1, rest⟩ := by
  obtain ⟨h1, h2, h3⟩ := Two.left hAB.symm (A := B) (B := A) ⟨h.1, h.2.2, h.2.1⟩
  exact ⟨h1, h3, h2⟩

private theorem run_other {τ ι ρ σ : Type} [DecidableEq τ] [DecidableEq ι] (t : τ) (s : List τ)
    (M : Machine τ ι ρ σ) (h : t ∉ s) : (M.run s).thread t = M.thread t := by
  induction s generalizing M with
  | nil => rfl
  | cons x s ih =>
    simp only [List.mem_cons, not_or] at h
    refine (ih (M.step x) h.2).trans ?_
    unfold Machine.step
    split
    · rfl
    · exact Function.update_of_ne h.1 _ _

/-- Without the check an update can be lost: 3 rows, 2 received rows on each side, so that row 1 gets a
contribution from both; there is a schedule after which it has only one of them. -/
theorem C102_receive_buffers_needs_check :
    ∃ mem', Outcome (recvGpu .add 1 0 3 1 2 (some fun _ _ _ => 1) (some fun _ _ _ => 1)) (fun _ _ => 0) mem' ∧
      mem' (1, 0) 0 = 1 := by
  let A : (ℕ × ℕ) × (ℕ × ℕ) := ((0, 0), (0, 0))
  let B : (ℕ × ℕ) × (ℕ × ℕ) := ((1, 0), (0, 0))
  have hAB : A ≠ B := by decide
  let ld : ℂ → XCell 1 → ℂ × XCell 1 := assign fun _ s => s 0 + 1
  let st : ℂ → XCell 1 → ℂ × XCell 1 := store fun r s => Function.update s 0 r
  have gen : ∀ M : Machine ((ℕ × ℕ) × (ℕ × ℕ)) (ℕ × ℕ) ℂ (XCell 1),
      Two M A B (fun _ _ => 0) ⟨0, [⟨(0, 0), ld⟩, ⟨(0, 0), st⟩, ⟨(1, 0), ld⟩, ⟨(1, 0), st⟩]⟩
        ⟨0, [⟨(1, 0), ld⟩, ⟨(1, 0), st⟩, ⟨(2, 0), ld⟩, ⟨(2, 0), st⟩]⟩ →
      (∀ t, t ≠ A → t ≠ B → (M.thread t).code = []) →
      Complete M [A, A, A, B, B, A, B, B] ∧ (M.run [A, A, A, B, B, A, B, B]).mem (1, 0) 0 = 1 := by
    intro M h0 hoth
    have h8 := ((((((((h0.left hAB).left hAB).left hAB).right hAB).right hAB).left hAB).right hAB).right hAB)
    have e8 : M.run [A, A, A, B, B, A, B, B] =
      (((((((M.step A).step A).step A).step B).step B).step A).step B).step B := rfl
    rw [← e8] at h8
    obtain ⟨hm, hA8, hB8⟩ := h8
    refine ⟨fun t => ?_, ?_⟩
    · by_cases hA : t = A
      · rw [hA, hA8]
      · by_cases hB : t = B
        · rw [hB, hB8]
        · rw [run_other t _ M (by simp [hA, hB])]
          exact hoth t hA hB
    · rw [hm]
      simp [ld, st, assign, store]
  obtain ⟨k1, k2⟩ := gen ((recvGpu .add 1 0 3 1 2 (some fun _ _ _ => 1) (some fun _ _ _ => 1) :
      Launch ((ℕ × ℕ) × (ℕ × ℕ)) (ℕ × ℕ) ℂ (XCell 1)) (fun _ _ => 0) (fun _ => 0)) ⟨rfl, rfl, rfl⟩ (by
    rintro ⟨⟨a, b⟩, ⟨c, d⟩⟩ hA hB
    simp only [A, B, ne_eq, Prod.mk.injEq] at hA hB
    simp only [recvGpu, launch2d, fromBuffer, blocks]
    split
    · split
      · split
        · exfalso; omega
        · rfl
      · rfl
    · rfl)
  exact ⟨_, ⟨fun _ => 0, _, k1, rfl⟩, k2⟩

/-- Multiplication of the damping cells on one side, as a function on the memory. -/
def dampSide (lo hi Nr : ℕ) (d : ℕ → ℝ) (pml : Bool) (mem : ℕ × ℕ → EBCell) : ℕ × ℕ → EBCell := fun i =>
  if (lo ≤ i.1 ∧ i.1 < hi) ∧ i.2 < Nr then
    (if pml then dampPmlCell (d i.1) (dampCell (d i.1) (mem i)) else dampCell (d i.1) (mem i))
  else mem i

private theorem dampSide_ebMem (lo hi Nr : ℕ) (d : ℕ → ℝ) (pml : Bool) (mem : ℕ × ℕ → EBCell) (g : EBGrid)
    (i : ℕ × ℕ) (hmem : mem i = ebMem g i) (hi2 : i.2 < Nr) (f : ℕ → ℝ) (hf : ∀ j, lo ≤ j → j < hi → f (j - lo) = d j) :
    dampSide lo hi Nr d pml mem i = ebMem (dampRows lo hi f pml g) i := by
  unfold dampSide
  rw [hmem]
  by_cases h : lo ≤ i.1 ∧ i.1 < hi
  · have := hf i.1 h.1 h.2
    cases pml <;> simp [h, hi2, ebMem, dampRows, scaleRows, dampCell, dampPmlCell, this]
  · rw [if_neg (fun h' => h h'.1)]
    cases pml <;> simp [h, ebMem, dampRows, scaleRows]

private theorem dampSide_other (lo hi Nr : ℕ) (d : ℕ → ℝ) (pml : Bool) (mem : ℕ × ℕ → EBCell)
    (i : ℕ × ℕ) (h : ¬ i.2 < Nr) : dampSide lo hi Nr d pml mem i = mem i := by
  unfold dampSide
  rw [if_neg (fun h' => h h'.2)]

private theorem results_left (nd Nr : ℕ) (d : ℕ → ℝ) (pml : Bool) :
    Results ([launch2d nd Nr 1 128 (dampLeftKernel Nr nd fun iz => dampCode (d iz))] ++
      (if pml then [launch2d nd Nr 1 128 (dampLeftKernel Nr nd fun iz => dampPmlCompCode (d iz))] else []))
      (dampSide 0 nd Nr d pml) := by
  have h1 := result_dampLeft Nr nd _ _ fun iz => computes_damp (d iz)
  have h2 := result_dampLeft Nr nd _ _ fun iz => computes_dampPml (d iz)
  cases pml
  · refine results_congr (results_one _ _ h1) fun m => ?_
    funext i
    simp [onGrid, dampSide]
  · refine results_congr (results_cons _ _ _ _ h1 (results_one _ _ h2)) fun m => ?_
    funext i
    simp only [onGrid, dampSide]
    by_cases h : i.1 < nd ∧ i.2 < Nr <;> simp [h]

private theorem results_right (Nz nd Nr : ℕ) (hnd : nd ≤ Nz) (d : ℕ → ℝ) (pml : Bool) :
    Results ([launch2d nd Nr 1 128 (dampRightKernel Nz Nr nd fun iz => dampCode (d iz))] ++
      (if pml then [launch2d nd Nr 1 128 (dampRightKernel Nz Nr nd fun iz => dampPmlCompCode (d iz))] else []))
      (dampSide (Nz - nd) Nz Nr (fun j => d (Nz - 1 - j)) pml) := by
  have h1 := result_dampRight Nz Nr nd hnd _ _ fun iz => computes_damp (d iz)
  have h2 := result_dampRight Nz Nr nd hnd _ _ fun iz => computes_dampPml (d iz)
  cases pml
  · refine results_congr (results_one _ _ h1) fun m => ?_
    funext i
    simp [dampSide]
  · refine results_congr (results_cons _ _ _ _ h1 (results_one _ _ h2)) fun m => ?_
    funext i
    simp only [dampSide]
    by_cases h : (Nz - nd ≤ i.1 ∧ i.1 < Nz) ∧ i.2 < Nr
    · rw [if_pos h, if_pos h, if_pos h]; rfl
    · rw [if_neg h, if_neg h, if_neg h]

/-- Damping at the open ends on the GPU: if the damping region fits into the box (otherwise the CPU code
raises), every schedule gives the fields of the CPU code. -/
theorem C102_damping (c : Comm) (rank Nz Nr : ℕ) (pml : Bool) (g g' : EBGrid)
    (h : dampOpenBoundary c rank Nz pml g = .ok g') (mem' : ℕ × ℕ → EBCell) :
    Outcomes (dampGpu c rank Nz Nr pml) (ebMem g) mem' ↔
      mem' = fun (i : ℕ × ℕ) => if i.2 < Nr then ebMem g' i else ebMem g i := by
  unfold dampOpenBoundary at h
  unfold dampGpu
  by_cases hz : c.nzDamp = 0
  · simp only [hz, ne_eq, not_true_eq_false, if_false, Except.ok.injEq] at h ⊢
    subst h
    simp only [ite_self, Outcomes]
  · simp only [hz, ne_eq, not_false_eq_true, if_true] at h ⊢
    generalize hnd : c.nGuard + c.nzDamp + c.nInject = nd at h ⊢
    generalize dampArray c.nGuard c.nzDamp c.nInject = d at h ⊢
    -- the left side
    have hleft : ∃ g1, (if c.leftProc rank = none then
          if Nz < nd then (.error (.valueError "operands could not be broadcast together") : Except PyErr EBGrid)
          else .ok (dampRows 0 nd d pml g)
        else .ok g) = .ok g1 ∧
        Results (if c.leftProc rank = none then
            [launch2d nd Nr 1 128 (dampLeftKernel Nr nd fun iz => dampCode (d iz))] ++
              (if pml then [launch2d nd Nr 1 128 (dampLeftKernel Nr nd fun iz => dampPmlCompCode (d iz))]
              else [])
          else []) (if c.leftProc rank = none then dampSide 0 nd Nr d pml else fun m => m) ∧
        (∀ i : ℕ × ℕ, i.2 < Nr →
          (if c.leftProc rank = none then dampSide 0 nd Nr d pml else fun m => m) (ebMem g) i = ebMem g1 i) ∧
        (∀ i : ℕ × ℕ, ¬ i.2 < Nr →
          (if c.leftProc rank = none then dampSide 0 nd Nr d pml else fun m => m) (ebMem g) i = ebMem g i) := by
      by_cases hl : c.leftProc rank = none
      · simp only [hl, if_true] at h ⊢
        by_cases hN : Nz < nd
        · rw [if_pos hN] at h; cases h
        · rw [if_neg hN]
          exact ⟨_, rfl, results_left nd Nr d pml,
            fun i hi => dampSide_ebMem 0 nd Nr d pml _ g i rfl hi d (fun j _ _ => by simp),
            fun i hi => dampSide_other _ _ _ _ _ _ i hi⟩
      · simp only [hl, if_false]
        exact ⟨g, rfl, results_nil, by intros; trivial, by intros; trivial⟩
    obtain ⟨g1, e1, r1, k1, k2⟩ := hleft
    rw [e1] at h
    simp only [bind, Except.bind] at h
    by_cases hr : c.rightProc rank = none
    · simp only [hr, if_true] at h ⊢
      by_cases hN : Nz < nd
      · rw [if_pos hN] at h; cases h
      · rw [if_neg hN] at h
        simp only [Except.ok.injEq] at h
        subst h
        refine (results_append _ _ _ _ r1 (results_right Nz nd Nr (by omega) d pml) _ _).trans
          (Eq.congr_right ?_)
        funext i
        by_cases hi : i.2 < Nr
        · rw [if_pos hi]
          refine dampSide_ebMem _ _ _ _ pml _ g1 i (k1 i hi) hi _ fun j h1 h2 => ?_
          congr 1
          omega
        · rw [if_neg hi]
          exact (dampSide_other _ _ _ _ _ _ i hi).trans (k2 i hi)
    · simp only [hr, if_false, Except.ok.injEq] at h ⊢
      subst h
      rw [List.append_nil]
      refine (r1 _ _).trans (Eq.congr_right ?_)
      funext i
      by_cases hi : i.2 < Nr
      · rw [if_pos hi, k1 i hi]
      · rw [if_neg hi, k2 i hi]

/-- An open box of 100 cells on one process: the damping succeeds. -/
example (g : EBGrid) : ∃ g', dampOpenBoundary ⟨100, 1, 4, 8, 2, .opened, .reflective, 1⟩ 0 100 true g =
    .ok g' := by
  simp [dampOpenBoundary, Comm.leftProc, Comm.rightProc, bind, Except.bind]

/-- Damping in the radial PML on the GPU. -/
theorem C102_pml_damping (Nz Nr nPml : ℕ) (cdtOverDr : ℝ) (g g' : EBGrid)
    (h : dampPmlCpu Nz Nr nPml cdtOverDr g = .ok g') (mem' : ℕ × ℕ → EBCell) :
    Outcome (pmlGpu Nz Nr nPml cdtOverDr) (ebMem g) mem' ↔ mem' = ebMem g' := by
  unfold dampPmlCpu at h
  by_cases hn : nPml = 0 ∨ Nr < nPml
  · rw [if_pos hn] at h; cases h
  · rw [if_neg hn] at h
    simp only [Except.ok.injEq] at h
    subst h
    refine (result_pmlGpu Nz Nr nPml (by omega) cdtOverDr _ _).trans (Eq.congr_right ?_)
    funext i
    by_cases hi : i.1 < Nz ∧ Nr - nPml ≤ i.2 ∧ i.2 < Nr
    · refine (if_pos hi).trans ?_
      simp [ebMem, updCols, hi]
    · refine (if_neg hi).trans ?_
      simp only [ebMem, updCols, if_neg hi]

/-- A PML of 2 cells in a grid of 3 x 4 cells. -/
example (g : EBGrid) : ∃ g', dampPmlCpu 3 4 2 0.5 g = .ok g' := by
  simp [dampPmlCpu]

end

end Fbpic.Parallel
