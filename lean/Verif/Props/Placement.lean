import Verif.Lemmas.Placement

/-!
# C113: where the data of a simulation is
-/

namespace Fbpic

open Place Spec

variable {A O : Type}

/-! ### Calls of `step` -/

/-- A call of `step` on a GPU, wherever the data is at the start, does what it does without GPU: the same
exception if any, the same contents of the arrays, the same output of the diagnostics. If it ends well, all
data is on the CPU afterwards, and the flags say so. This holds for any computations and any diagnostics
of species of the simulation (none listed twice), in any order. -/
theorem C113_step (s : GSim A O) (h : OnGpuSim s) (acts : List (Act A O))
    (ha : ∀ a ∈ acts, Act.Proper s.ptcl a) :
    (step acts s).2 = (step acts (cpuTwin s)).2 ∧
    (step acts s).1.vals = (step acts (cpuTwin s)).1.vals ∧
    (step acts s).1.out = (step acts (cpuTwin s)).1.out ∧
    ((step acts s).2 = none → BackOnCpu (step acts s).1) := by
  obtain ⟨h1, h2⟩ := step_same acts s h ha
  rw [h1]
  exact ⟨rfl, (vals_cpuTwin _).symm, rfl, h2⟩

/-- The exceptions of a sequence of calls of `step`, each caught by the script, and the simulation at
the end. -/
noncomputable def stepCalls : List (List (Act A O)) → GSim A O → GSim A O × List (Option PyErr)
  | [], s => (s, [])
  | c :: cs, s => ((stepCalls cs (step c s).1).1, (step c s).2 :: (stepCalls cs (step c s).1).2)

/-- The same for any sequence of calls of `step`, also if some of them raised exceptions and left part of
the data on the GPU. -/
theorem C113_history (s : GSim A O) (h : OnGpuSim s) (cs : List (List (Act A O)))
    (ha : ∀ c ∈ cs, ∀ a ∈ c, Act.Proper s.ptcl a) :
    (stepCalls cs s).2 = (stepCalls cs (cpuTwin s)).2 ∧
    (stepCalls cs s).1.vals = (stepCalls cs (cpuTwin s)).1.vals ∧
    (stepCalls cs s).1.out = (stepCalls cs (cpuTwin s)).1.out := by
  suffices hs : stepCalls cs (cpuTwin s) = (cpuTwin (stepCalls cs s).1, (stepCalls cs s).2) by
    rw [hs]; exact ⟨rfl, (vals_cpuTwin _).symm, rfl⟩
  induction cs generalizing s with
  | nil => rfl
  | cons c cs ih =>
    obtain ⟨h1, -⟩ := step_same c s h (ha c (by simp))
    have hu := step_sameUse c s
    have := ih (step c s).1 (hu.onGpu h) fun c' hc' a ha' => by
      rw [hu.ptcl]; exact ha c' (by simp [hc']) a ha'
    show ((stepCalls cs (step c (cpuTwin s)).1).1, _ :: (stepCalls cs (step c (cpuTwin s)).1).2) = _
    rw [h1]
    simp only [this]
    rfl

/-! ### The memory manager -/

/-- `with GpuMemoryManager(sim)` around a computation, with the flags of the simulation right: the
computation does what it does without GPU, including an exception, and afterwards the data of each species
and of the fields is where it was before, and the flags are right. -/
theorem C113_manager (s : GSim A O) (h : OnGpuSim s) (hf : FlagsRight s)
    (f : Vals A → Vals A × Option PyErr) :
    (withManager (compute f) s).2 = (compute f (cpuTwin s)).2 ∧
    (withManager (compute f) s).1.vals = (compute f (cpuTwin s)).1.vals ∧
    FlagsRight (withManager (compute f) s).1 ∧
    (∀ i ∈ s.ptcl, ((withManager (compute f) s).1.spc i).obj.onGpu = (s.spc i).obj.onGpu) ∧
    (withManager (compute f) s).1.fld.obj.onGpu = s.fld.obj.onGpu := by
  have e1 := enter_eq s h
  set s1 : GSim A O := { s with
    fld := if s.fld.obj.onGpu then s.fld else s.fld.send
    spc := fun i => if i ∈ s.ptcl ∧ (s.spc i).obj.onGpu = false then (s.spc i).send else s.spc i } with hs1
  have spc1 : ∀ i, s1.spc i = if i ∈ s.ptcl ∧ (s.spc i).obj.onGpu = false then (s.spc i).send else s.spc i :=
    fun i => rfl
  have fld1 : s1.fld = if s.fld.obj.onGpu then s.fld else s.fld.send := rfl
  have t1 : cpuTwin s1 = cpuTwin s := by
    rw [cpuTwin_eq, cpuTwin_eq]
    have a1 : ∀ i, cpuSpc (s1.spc i) = cpuSpc (s.spc i) := fun i => by
      rw [spc1]; split_ifs
      · exact cpuSpc_send _
      · rfl
    have a2 : cpuFld s1.fld = cpuFld s.fld := by
      rw [fld1]; split_ifs
      · rfl
      · exact cpuFld_send _
    simp only [a1, a2]
    rfl
  have huse : ∀ i ∈ s.ptcl, (s1.spc i).obj.useCuda = true := fun i hi => by
    rw [spc1]; split_ifs
    · rw [send_useCuda]; exact h.spc i hi
    · exact h.spc i hi
  have hflag : ∀ i ∈ s.ptcl, (s1.spc i).At true ∧ (s1.spc i).obj.onGpu = true := fun i hi => by
    rw [spc1]
    by_cases hc : (s.spc i).obj.onGpu = true
    · rw [if_neg (by simp [hc])]
      have := hf.1 i hi
      rw [hc] at this
      exact ⟨this, hc⟩
    · rw [if_pos ⟨hi, by simpa using hc⟩]
      exact send_at _ (h.spc i hi)
  have hfld : s1.fld.obj.useCuda = true ∧ s1.fld.At true ∧ s1.fld.obj.onGpu = true := by
    rw [fld1]
    by_cases hc : s.fld.obj.onGpu = true
    · rw [if_pos hc]
      have := hf.2
      rw [hc] at this
      exact ⟨h.fld, this, hc⟩
    · rw [if_neg hc]
      exact ⟨(fsend_useCuda _).trans h.fld, fsend_at _ h.fld⟩
  have all1 : AllGpu s1 := ⟨⟨h.sim, hfld.1, huse, h.nodup⟩, fun i hi => (hflag i hi).1, hfld.2.1⟩
  obtain ⟨c1, all2, c3, c4⟩ := compute_follows f s1 all1
  set s2 := (compute f s1).1 with hs2
  have p2 : s2.ptcl = s.ptcl := c1.ptcl
  have hz : s2.ptcl.zip (s.ptcl.map fun i => (s.spc i).obj.onGpu) = s.ptcl.map fun i => (i, (s.spc i).obj.onGpu) := by
    rw [p2, List.zip_map_right]
    induction s.ptcl with
    | nil => rfl
    | cons a l ih => simpa using ih
  obtain ⟨r1, r2, r3⟩ := freceive_at s2.fld all2.on.fld all2.fld
  -- the fields
  let s3 : GSim A O := { s2 with fld := if s.fld.obj.onGpu then s2.fld else s2.fld.receive.1 }
  have q3 : (fun s' : GSim A O => if s.fld.obj.onGpu then (s', none) else recvFields s') s2 = (s3, none) := by
    show (if s.fld.obj.onGpu = true then (s2, none) else recvFields s2) = _
    by_cases hc : s.fld.obj.onGpu = true
    · rw [if_pos hc]; simp only [s3, if_pos hc]
    · rw [if_neg hc]; simp only [s3, if_neg hc]; exact Prod.ext rfl r1
  have e4 := exitSpecies_eq (fun i => (s.spc i).obj.onGpu) s.ptcl s3 h.nodup
    (fun i hi => all2.on.spc i (by rw [p2]; exact hi)) (fun i hi => all2.spc i (by rw [p2]; exact hi))
  have ex : Place.exit s.fld.obj.onGpu (s.ptcl.map fun i => (s.spc i).obj.onGpu) s2
      = ({ s3 with spc := fun i =>
            if i ∈ s.ptcl ∧ (s.spc i).obj.onGpu = false then (s3.spc i).receive.1 else s3.spc i }, none) := by
    unfold Place.exit
    rw [if_pos all2.on.sim, seq_none q3]
    show exitSpecies (s2.ptcl.zip _) s3 = _
    rw [hz]
    exact e4
  have tot : withManager (compute f) s = ({ s3 with spc := fun i =>
      if i ∈ s.ptcl ∧ (s.spc i).obj.onGpu = false then (s3.spc i).receive.1 else s3.spc i }, (compute f s1).2) := by
    unfold withManager
    simp only [e1]
    have hp : compute f s1 = (s2, (compute f s1).2) := rfl
    rw [hp]
    simp only [ex]
  have hsame : compute f (cpuTwin s) = (cpuTwin s2, (compute f s1).2) := by rw [← t1]; exact c1.same
  have spc4 : ∀ i ∈ s.ptcl, (if i ∈ s.ptcl ∧ (s.spc i).obj.onGpu = false then (s2.spc i).receive.1 else s2.spc i).At
        (s.spc i).obj.onGpu ∧
      (if i ∈ s.ptcl ∧ (s.spc i).obj.onGpu = false then (s2.spc i).receive.1 else s2.spc i).obj.onGpu
        = (s.spc i).obj.onGpu := by
    intro i hi
    have hi2 : i ∈ s2.ptcl := by rw [p2]; exact hi
    by_cases hc : (s.spc i).obj.onGpu = true
    · rw [if_neg (by simp [hc]), hc]
      exact ⟨all2.spc i hi2, (c3 i).trans (hflag i hi).2⟩
    · have hc' : (s.spc i).obj.onGpu = false := by simpa using hc
      rw [if_pos ⟨hi, hc'⟩, hc']
      exact (receive_at _ (all2.on.spc i hi2) (all2.spc i hi2)).2
  have fld4 : s3.fld.At s.fld.obj.onGpu ∧ s3.fld.obj.onGpu = s.fld.obj.onGpu := by
    show (if s.fld.obj.onGpu = true then s2.fld else s2.fld.receive.1).At _ ∧
      (if s.fld.obj.onGpu = true then s2.fld else s2.fld.receive.1).obj.onGpu = _
    by_cases hc : s.fld.obj.onGpu = true
    · rw [if_pos hc, hc]; exact ⟨all2.fld, c4.trans hfld.2.2⟩
    · have hc' : s.fld.obj.onGpu = false := by simpa using hc
      rw [if_neg hc, hc']; exact ⟨r2, r3⟩
  rw [tot, hsame]
  refine ⟨rfl, ?_, ⟨fun i hi => ?_, ?_⟩, fun i hi => (spc4 i hi).2, fld4.2⟩
  · rw [vals_cpuTwin]
    unfold GSim.vals
    have a1 : ∀ i n, (((if i ∈ s.ptcl ∧ (s.spc i).obj.onGpu = false then (s2.spc i).receive.1 else s2.spc i)).obj.arr
        n).val = ((s2.spc i).obj.arr n).val := by
      intro i n
      split_ifs
      · exact recvObj_val _ _ _
      · rfl
    have a2 : ∀ k, (s3.fld.obj.arr k).val = (s2.fld.obj.arr k).val := by
      intro k
      show ((if s.fld.obj.onGpu = true then s2.fld else s2.fld.receive.1).obj.arr k).val = _
      split_ifs
      · rfl
      · exact recvObj_val _ _ _
    exact congrArg₂ Vals.mk (funext fun i => funext fun n => a1 i n) (funext a2)
  · have hi' : i ∈ s.ptcl := by rw [← p2]; exact hi
    have := spc4 i hi'
    show (if i ∈ s.ptcl ∧ (s.spc i).obj.onGpu = false then (s2.spc i).receive.1 else s2.spc i).At
      (if i ∈ s.ptcl ∧ (s.spc i).obj.onGpu = false then (s2.spc i).receive.1 else s2.spc i).obj.onGpu
    rw [this.2]; exact this.1
  · show s3.fld.At s3.fld.obj.onGpu
    rw [fld4.2]; exact fld4.1

/-! ### What does not work -/

/-- The exception of `a.get()` for an array of numpy. -/
def noGet : PyErr := .attributeError "'numpy.ndarray' object has no attribute 'get'"

private theorem recvSpecies_fails (i : ℕ) (ids : List ℕ) (s : GSim A O) (hc : (s.spc i).obj.useCuda = true)
    (hx : ¬ ((s.spc i).obj.arr .x).OnGpu) : (recvSpecies (i :: ids) s).2 = some noGet := by
  have : (s.spc i).receive.2 = some noGet := by
    unfold Spc.receive recvObj
    rw [if_pos hc]
    unfold recvNames
    cases hd : (s.spc i).obj.arr .x with
    | gpu a => rw [hd] at hx; exact absurd trivial hx
    | cpu a => simp [getAll, hd, noGet]
  unfold recvSpecies
  rw [if_pos hc]
  rcases hr : (s.spc i).receive with ⟨p, _ | e⟩
  · rw [hr] at this; cases this
  · rw [hr] at this; exact this

/-- **Violation.** A diagnostic of particles that is called while the data is on the CPU (before the first
or between two calls of `step`) raises an `AttributeError` on a GPU; without GPU it does not. -/
theorem C113_outside_violated (s : GSim A O) (h : OnGpuSim s) (hb : BackOnCpu s) (i : ℕ) (hi : i ∈ s.ptcl)
    (ids : List ℕ) (o : O) :
    (partDiag (i :: ids) (fun _ => .ok o) s).2 = some noGet ∧
    (partDiag (i :: ids) (fun _ => .ok o) (cpuTwin s)).2 = none := by
  constructor
  · have := recvSpecies_fails i ids s (h.spc i hi) (fun hx => by simpa using ((hb.1 i hi).1 .x trivial).1 hx)
    rcases hr : recvSpecies (i :: ids) s with ⟨s1, _ | e⟩
    · rw [hr] at this; cases this
    · unfold partDiag
      rw [seq_some hr]; rw [hr] at this; exact this
  · unfold partDiag
    rw [seq_none (recvSpecies_cpu _ s)]
    have hw : writeFile (i :: ids) false (fun _ => .ok o) (cpuTwin s)
        = ({ cpuTwin s with out := s.out ++ [o] }, none) := by
      unfold writeFile
      rw [if_pos ⟨fun j _ => cpuSpc_at _, fun h => by cases h⟩]
      rfl
    rw [seq_none hw]
    rfl

/-- **Violation.** A diagnostic that has a species under two names, or a species that is not in the list of
the simulation, makes `step` raise an `AttributeError` on a GPU; without GPU it does not. -/
theorem C113_names_violated (s : GSim A O) (h : OnGpuSim s) (o : O) :
    (∀ i ∈ s.ptcl, (step [.partDiag [i, i] fun _ => .ok o] s).2 = some noGet ∧
      (step [.partDiag [i, i] fun _ => .ok o] (cpuTwin s)).2 = none) ∧
    (∀ j, j ∉ s.ptcl → (s.spc j).obj.useCuda = true → ¬ ((s.spc j).obj.arr .x).OnGpu →
      (step [.partDiag [j] fun _ => .ok o] s).2 = some noGet ∧
      (step [.partDiag [j] fun _ => .ok o] (cpuTwin s)).2 = none) := by
  have hcpu : ∀ ids, (step [.partDiag ids fun _ => .ok o] (cpuTwin s)).2 = none := by
    intro ids
    rw [step_cpu]
    have : (partDiag ids (fun _ => .ok o) (cpuTwin s)) = ({ cpuTwin s with out := s.out ++ [o] }, none) := by
      unfold partDiag
      rw [seq_none (recvSpecies_cpu _ s)]
      have hw : writeFile ids false (fun _ => .ok o) (cpuTwin s)
          = ({ cpuTwin s with out := s.out ++ [o] }, none) := by
        unfold writeFile
        rw [if_pos ⟨fun j _ => cpuSpc_at _, fun h => by cases h⟩]
        rfl
      rw [seq_none hw]
      exact sendSpecies_cpu ids { s with out := s.out ++ [o] }
    show (Meth.seq (partDiag ids fun _ => .ok o) (runAll []) (cpuTwin s)).2 = none
    rw [seq_none this]
    rfl
  have r1 := sendSpecies_eq s.ptcl s h.nodup h.spc
  let s1 : GSim A O := { s with
    spc := fun i => if i ∈ s.ptcl then (s.spc i).send else s.spc i
    fld := s.fld.send }
  have hsend : (fun s : GSim A O => if s.useCuda then sendData s else (s, none)) s = (s1, none) := by
    show (if s.useCuda = true then sendData s else (s, none)) = _
    rw [if_pos h.sim]
    unfold sendData
    rw [seq_none r1]
    rfl
  have hfail : ∀ ids, (recvSpecies ids s1).2 = some noGet →
      (step [.partDiag ids fun _ => .ok o] s).2 = some noGet := by
    intro ids hr
    unfold step
    rw [seq_none hsend]
    rcases hq : recvSpecies ids s1 with ⟨s2, _ | e⟩
    · rw [hq] at hr; cases hr
    · rw [hq] at hr
      have h3 : partDiag ids (fun _ => .ok o) s1 = (s2, some e) := seq_some hq
      have h4 : runAll [.partDiag ids fun _ => .ok o] s1 = (s2, some e) := seq_some h3
      rw [seq_some h4]
      exact hr
  refine ⟨fun i hi => ⟨hfail _ ?_, hcpu _⟩, fun j hj hc hx => ⟨hfail _ ?_, hcpu _⟩⟩
  · have hsp : s1.spc i = (s.spc i).send := by show (if i ∈ s.ptcl then _ else _) = _; rw [if_pos hi]
    have hu : (s1.spc i).obj.useCuda = true := by rw [hsp, send_useCuda]; exact h.spc i hi
    have hat : (s1.spc i).At true := by rw [hsp]; exact (send_at _ (h.spc i hi)).1
    obtain ⟨g1, g2, -⟩ := receive_at (s1.spc i) hu hat
    have h3 : (s1.spc i).receive = ((s1.spc i).receive.1, none) := Prod.ext rfl g1
    have e : recvSpecies [i, i] s1
        = recvSpecies [i] { s1 with spc := Function.update s1.spc i (s1.spc i).receive.1 } := by
      conv_lhs => unfold recvSpecies
      rw [if_pos hu, h3]
    rw [e]
    refine recvSpecies_fails i [] _ ?_ ?_
    · show (Function.update s1.spc i (s1.spc i).receive.1 i).obj.useCuda = true
      rw [Function.update_self, receive_useCuda]; exact hu
    · show ¬ ((Function.update s1.spc i (s1.spc i).receive.1 i).obj.arr .x).OnGpu
      rw [Function.update_self]
      intro hx
      simpa using (g2 .x trivial).1 hx
  · have hsp : s1.spc j = s.spc j := by show (if j ∈ s.ptcl then _ else _) = _; rw [if_neg hj]
    refine recvSpecies_fails j [] s1 ?_ ?_
    · rw [hsp]; exact hc
    · rw [hsp]; exact hx

/-! ### A simulation -/

/-- Two species, of which the second is tracked and ionizable and is still on the GPU after an exception;
the fields are on the CPU; PMLs, two modes. A third species is not part of the simulation. -/
def halfSim : GSim ℕ ℕ where
  useCuda := true
  spc := fun i =>
    { obj := ⟨true, i == 1, fun _ => if i = 1 then .gpu 5 else .cpu (3 + i)⟩
      tracked := i == 1
      ionizable := i == 1
      nInt := if i = 1 then 2 else 0 }
  ptcl := [0, 1]
  fld := { obj := ⟨true, false, fun k => .cpu k.1⟩, nm := 2, pml := true, cross := false }
  out := []

theorem halfSim_on : OnGpuSim halfSim := ⟨rfl, rfl, fun _ _ => rfl, by decide⟩

theorem halfSim_flags : FlagsRight halfSim := by
  refine ⟨fun i hi n _ => ?_, fun k _ => ?_⟩
  · simp only [halfSim, List.mem_cons, List.not_mem_nil, or_false] at hi
    rcases hi with rfl | rfl <;> simp [halfSim, DArr.OnGpu]
  · simp [halfSim, DArr.OnGpu]

example : ∀ a ∈ ([.compute fun v => ({ v with fld := fun k => v.spc 1 .x + k.1 }, none),
    .partDiag [1, 0] fun v => .ok (v.spc 1 .id + v.spc 0 .w), .fieldDiag fun v => .ok (v.fld (1, .iEr))] :
      List (Act ℕ ℕ)), Act.Proper halfSim.ptcl a := by
  intro a ha
  simp only [List.mem_cons, List.not_mem_nil, or_false] at ha
  rcases ha with rfl | rfl | rfl
  · trivial
  · exact ⟨by decide, by decide⟩
  · trivial

example : 2 ∉ halfSim.ptcl ∧ (halfSim.spc 2).obj.useCuda = true ∧ ¬ ((halfSim.spc 2).obj.arr .x).OnGpu :=
  ⟨by decide, rfl, fun h => h⟩

/-- All data on the CPU. -/
example : ∃ s : GSim ℕ ℕ, OnGpuSim s ∧ BackOnCpu s ∧ 0 ∈ s.ptcl :=
  ⟨{ halfSim with ptcl := [0] }, ⟨rfl, rfl, fun _ _ => rfl, by decide⟩,
    ⟨fun i hi => by
      simp only [List.mem_cons, List.not_mem_nil, or_false] at hi
      subst hi
      exact ⟨fun n _ => by simp [halfSim, DArr.OnGpu], rfl⟩,
      fun k _ => by simp [halfSim, DArr.OnGpu], rfl⟩, by simp⟩

end Fbpic
