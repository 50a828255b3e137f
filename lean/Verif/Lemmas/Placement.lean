import Verif.Spec.Placement
import Mathlib.Data.List.Nodup
import Mathlib.Data.List.Flatten
import Mathlib.Tactic.Tauto

namespace Fbpic.Place

open Spec

variable {K A O : Type} [DecidableEq K]

/-! ### Single objects -/

theorem onGpu_cpu (a : A) : ¬ (DArr.cpu a).OnGpu := fun h => h

theorem onGpu_gpu (a : A) : (DArr.gpu a).OnGpu := trivial

theorem asarray_onGpu (d : DArr A) : (asarray d).OnGpu := trivial

theorem eq_gpu_of_onGpu {d : DArr A} (h : d.OnGpu) : d = .gpu d.val := by
  cases d with
  | cpu a => exact absurd h (onGpu_cpu a)
  | gpu a => rfl

theorem put_val (d : DArr A) (a : A) : (d.put a).val = a := by cases d <;> rfl

theorem put_onGpu (d : DArr A) (a : A) : (d.put a).OnGpu ↔ d.OnGpu := by cases d <;> rfl

theorem sendObj_val (l : List K) (o : Obj K A) (k : K) : ((sendObj l o).arr k).val = (o.arr k).val := by
  unfold sendObj
  split_ifs with h
  · show (if k ∈ l then asarray (o.arr k) else o.arr k).val = _
    split_ifs <;> rfl
  · rfl

theorem getAll_val (l : List K) : ∀ (f : K → DArr A) (k : K), ((getAll l f).1 k).val = (f k).val := by
  induction l with
  | nil => intro f k; rfl
  | cons a l ih =>
    intro f k
    unfold getAll
    cases hfa : f a with
    | cpu b => rfl
    | gpu b =>
      rw [ih]
      by_cases hk : k = a
      · subst hk; rw [Function.update_self, hfa]; rfl
      · rw [Function.update_of_ne hk]

theorem getAll_ok (l : List K) : ∀ (f : K → DArr A), l.Nodup → (∀ k ∈ l, (f k).OnGpu) →
    getAll l f = (fun k => if k ∈ l then .cpu (f k).val else f k, none) := by
  induction l with
  | nil => intro f _ _; simp [getAll]
  | cons a l ih =>
    intro f hn hl
    have ha := eq_gpu_of_onGpu (hl a (by simp))
    have hal := (List.nodup_cons.1 hn).1
    unfold getAll
    rw [ha]
    show getAll l (Function.update f a (.cpu (f a).val)) = _
    rw [ih _ (List.nodup_cons.1 hn).2 ?_]
    · refine Prod.ext ?_ rfl
      funext k
      by_cases hk : k = a
      · subst hk
        show (if k ∈ l then DArr.cpu ((Function.update f k (.cpu (f k).val) k)).val
          else Function.update f k (.cpu (f k).val) k) = if k ∈ k :: l then DArr.cpu (f k).val else f k
        rw [if_neg hal, Function.update_self, if_pos (by simp)]
      · show (if k ∈ l then DArr.cpu ((Function.update f a (.cpu (f a).val) k)).val
          else Function.update f a (.cpu (f a).val) k) = if k ∈ a :: l then DArr.cpu (f k).val else f k
        rw [Function.update_of_ne hk]
        by_cases hkl : k ∈ l
        · rw [if_pos hkl, if_pos (by simp [hkl])]
        · rw [if_neg hkl, if_neg (by simp [hk, hkl])]
    · intro k hk
      have : k ≠ a := fun h => hal (h ▸ hk)
      rw [Function.update_of_ne this]
      exact hl k (by simp [hk])

theorem recvObj_val (l : List K) (o : Obj K A) (k : K) : ((recvObj l o).1.arr k).val = (o.arr k).val := by
  unfold recvObj
  by_cases h : o.useCuda = true
  · rw [if_pos h]
    have := getAll_val l o.arr k
    rcases hg : getAll l o.arr with ⟨f, e⟩
    rw [hg] at this
    cases e <;> exact this
  · rw [if_neg h]

theorem recvObj_useCuda (l : List K) (o : Obj K A) : (recvObj l o).1.useCuda = o.useCuda := by
  unfold recvObj
  by_cases h : o.useCuda = true
  · rw [if_pos h]
    rcases getAll l o.arr with ⟨f, e⟩
    cases e <;> rfl
  · rw [if_neg h]

theorem sendObj_useCuda (l : List K) (o : Obj K A) : (sendObj l o).useCuda = o.useCuda := by
  unfold sendObj; split_ifs <;> rfl

theorem recvObj_ok (l : List K) (o : Obj K A) (hc : o.useCuda = true) (hn : l.Nodup)
    (hl : ∀ k ∈ l, (o.arr k).OnGpu) :
    recvObj l o = (⟨true, false, fun k => if k ∈ l then .cpu (o.arr k).val else o.arr k⟩, none) := by
  unfold recvObj
  rw [if_pos hc, getAll_ok l o.arr hn hl, ← hc]

theorem sendObj_onGpu (l : List K) (o : Obj K A) (hc : o.useCuda = true) {k : K} (hk : k ∈ l) :
    ((sendObj l o).arr k).OnGpu := by
  unfold sendObj
  rw [if_pos hc]
  show (if k ∈ l then asarray (o.arr k) else o.arr k).OnGpu
  rw [if_pos hk]
  trivial

theorem sendObj_flag (l : List K) (o : Obj K A) (hc : o.useCuda = true) : (sendObj l o).onGpu = true := by
  unfold sendObj
  rw [if_pos hc]

theorem recvObj_all (l : List K) (o : Obj K A) (hc : o.useCuda = true) (hn : l.Nodup)
    (hl : ∀ k ∈ l, (o.arr k).OnGpu) :
    (recvObj l o).2 = none ∧ (∀ k ∈ l, ¬ ((recvObj l o).1.arr k).OnGpu) ∧ (recvObj l o).1.onGpu = false := by
  rw [recvObj_ok l o hc hn hl]
  refine ⟨rfl, fun k hk => ?_, rfl⟩
  show ¬ (if k ∈ l then DArr.cpu (o.arr k).val else o.arr k).OnGpu
  rw [if_pos hk]
  exact onGpu_cpu _

/-! ### Species -/

theorem mem_sentNames (p : Spc A) (n : PName) : n ∈ sentNames p ↔ p.Has n := by
  unfold sentNames
  by_cases h1 : p.nInt > 0 <;> by_cases h2 : p.tracked = true <;> by_cases h3 : p.ionizable = true <;>
    cases n <;> simp [Spc.Has, h1, h2, h3]

theorem mem_recvNames (p : Spc A) (n : PName) : n ∈ recvNames p ↔ p.Has n := by
  unfold recvNames
  by_cases h1 : p.nInt > 0 <;> by_cases h2 : p.tracked = true <;> by_cases h3 : p.ionizable = true <;>
    cases n <;> simp [Spc.Has, h1, h2, h3]

theorem recvNames_nodup (p : Spc A) : (recvNames p).Nodup := by
  unfold recvNames
  by_cases h1 : p.nInt > 0 <;> by_cases h2 : p.tracked = true <;> by_cases h3 : p.ionizable = true <;>
    simp only [h1, h2, h3, if_true, if_false, Bool.false_eq_true] <;> decide

theorem cpuSpc_send (p : Spc A) : cpuSpc p.send = cpuSpc p := by
  unfold cpuSpc Spc.send
  simp only [sendObj_val]

theorem cpuSpc_receive (p : Spc A) : cpuSpc p.receive.1 = cpuSpc p := by
  unfold cpuSpc Spc.receive
  simp only [recvObj_val]

theorem send_useCuda (p : Spc A) : p.send.obj.useCuda = p.obj.useCuda := sendObj_useCuda _ _

theorem receive_useCuda (p : Spc A) : p.receive.1.obj.useCuda = p.obj.useCuda := recvObj_useCuda _ _

theorem send_at (p : Spc A) (hc : p.obj.useCuda = true) : p.send.At true ∧ p.send.obj.onGpu = true := by
  unfold Spc.send sendObj
  rw [if_pos hc]
  refine ⟨fun n hn => ?_, rfl⟩
  have hn' : n ∈ sentNames p := (mem_sentNames p n).2 hn
  show (if n ∈ sentNames p then asarray (p.obj.arr n) else p.obj.arr n).OnGpu ↔ _
  rw [if_pos hn']
  exact ⟨fun _ => rfl, fun _ => trivial⟩

theorem receive_at (p : Spc A) (hc : p.obj.useCuda = true) (ha : p.At true) :
    p.receive.2 = none ∧ p.receive.1.At false ∧ p.receive.1.obj.onGpu = false := by
  have h := recvObj_ok (recvNames p) p.obj hc (recvNames_nodup p)
    fun k hk => (ha k ((mem_recvNames p k).1 hk)).2 rfl
  unfold Spc.receive
  rw [h]
  refine ⟨rfl, fun n hn => ?_, rfl⟩
  have hn' : n ∈ recvNames p := (mem_recvNames p n).2 hn
  show (if n ∈ recvNames p then DArr.cpu (p.obj.arr n).val else p.obj.arr n).OnGpu ↔ _
  rw [if_pos hn']
  exact ⟨fun h => absurd h (onGpu_cpu _), fun h => by cases h⟩

theorem cpuSpc_at (p : Spc A) : (cpuSpc p).At false := fun n _ =>
  ⟨fun h => absurd h (onGpu_cpu _), fun h => by cases h⟩

/-! ### Fields -/

private theorem mem_flat {l : List FName} {N m : ℕ} {n : FName} :
    (m, n) ∈ ((List.range N).flatMap fun m => l.map fun n => (m, n)) ↔ m < N ∧ n ∈ l := by
  simp only [List.mem_flatMap, List.mem_range, List.mem_map, Prod.mk.injEq]
  constructor
  · rintro ⟨m', hm, n', hn, rfl, rfl⟩; exact ⟨hm, hn⟩
  · rintro ⟨hm, hn⟩; exact ⟨m, hm, n, hn, rfl, rfl⟩

private theorem nodup_flat {l : List FName} (hl : l.Nodup) (N : ℕ) :
    ((List.range N).flatMap fun m => l.map fun n => (m, n)).Nodup := by
  rw [List.nodup_flatMap]
  refine ⟨fun m _ => hl.map fun a b h => (Prod.mk.inj h).2, ?_⟩
  refine List.Pairwise.imp ?_ (List.nodup_range (n := N))
  intro a b hab
  show List.Disjoint _ _
  intro x h1 h2
  obtain ⟨_, _, rfl⟩ := List.mem_map.1 h1
  obtain ⟨_, _, h⟩ := List.mem_map.1 h2
  exact hab (Prod.mk.inj h).1.symm

theorem has_iff_sent (f : Flds A) (k : ℕ × FName) :
    k ∈ ((List.range f.nm).flatMap fun m => (sentModeNames f).map fun n => (m, n)) ↔ f.Has k := by
  obtain ⟨m, n⟩ := k
  rw [mem_flat]
  unfold sentModeNames
  by_cases h1 : f.pml = true <;> by_cases h2 : f.cross = true <;> cases n <;> simp [Flds.Has, h1, h2]

theorem has_iff_recv (f : Flds A) (k : ℕ × FName) :
    k ∈ ((List.range f.nm).flatMap fun m => (recvModeNames f).map fun n => (m, n)) ↔ f.Has k := by
  obtain ⟨m, n⟩ := k
  rw [mem_flat]
  unfold recvModeNames
  by_cases h1 : f.pml = true <;> by_cases h2 : f.cross = true <;> cases n <;> simp [Flds.Has, h1, h2]

theorem recvMode_nodup (f : Flds A) : (recvModeNames f).Nodup := by
  unfold recvModeNames
  by_cases h1 : f.pml = true <;> by_cases h2 : f.cross = true <;>
    simp only [h1, h2, if_true, if_false, Bool.false_eq_true] <;> decide

/-- The fields without GPU. -/
def cpuFld (f : Flds A) : Flds A := { f with obj := ⟨false, false, fun k => .cpu (f.obj.arr k).val⟩ }

theorem cpuFld_send (f : Flds A) : cpuFld f.send = cpuFld f := by
  unfold cpuFld Flds.send
  simp only [sendObj_val]

theorem cpuFld_receive (f : Flds A) : cpuFld f.receive.1 = cpuFld f := by
  unfold cpuFld Flds.receive
  simp only [recvObj_val]

theorem fsend_useCuda (f : Flds A) : f.send.obj.useCuda = f.obj.useCuda := sendObj_useCuda _ _

theorem freceive_useCuda (f : Flds A) : f.receive.1.obj.useCuda = f.obj.useCuda := recvObj_useCuda _ _

theorem fsend_at (f : Flds A) (hc : f.obj.useCuda = true) : f.send.At true ∧ f.send.obj.onGpu = true :=
  ⟨fun k hk => ⟨fun _ => rfl, fun _ => sendObj_onGpu _ _ hc ((has_iff_sent f k).2 hk)⟩, sendObj_flag _ _ hc⟩

theorem freceive_at (f : Flds A) (hc : f.obj.useCuda = true) (ha : f.At true) :
    f.receive.2 = none ∧ f.receive.1.At false ∧ f.receive.1.obj.onGpu = false := by
  have h : ∀ k ∈ _, _ := fun k hk => (ha k ((has_iff_recv f k).1 hk)).2 rfl
  obtain ⟨h1, h2, h3⟩ := recvObj_all _ f.obj hc (nodup_flat (recvMode_nodup f) f.nm) h
  exact ⟨h1, fun k hk => ⟨fun h' => absurd h' (h2 k ((has_iff_recv f k).2 hk)), fun h' => by cases h'⟩, h3⟩

theorem cpuFld_at (f : Flds A) : (cpuFld f).At false := fun n _ =>
  ⟨fun h => absurd h (onGpu_cpu _), fun h => by cases h⟩

/-! ### Simulations -/

theorem cpuTwin_eq (s : GSim A O) :
    cpuTwin s = ⟨false, fun i => cpuSpc (s.spc i), s.ptcl, cpuFld s.fld, s.out⟩ := rfl

theorem vals_cpuTwin (s : GSim A O) : (cpuTwin s).vals = s.vals := rfl

theorem cpuTwin_spc (s : GSim A O) (q : ℕ → Spc A) (h : ∀ i, cpuSpc (q i) = cpuSpc (s.spc i)) :
    cpuTwin { s with spc := q } = cpuTwin s := by
  rw [cpuTwin_eq, cpuTwin_eq]
  simp only [h]

theorem cpuTwin_fld (s : GSim A O) (f : Flds A) (h : cpuFld f = cpuFld s.fld) :
    cpuTwin { s with fld := f } = cpuTwin s := by
  rw [cpuTwin_eq, cpuTwin_eq, h]

/-- The loop that sends some of the species. -/
theorem sendFold (c : ℕ → Bool) : ∀ (ids : List ℕ) (s : GSim A O), ids.Nodup →
    ids.foldl (fun (s : GSim A O) i =>
      if c i then s else { s with spc := Function.update s.spc i (s.spc i).send }) s
    = { s with spc := fun i => if i ∈ ids ∧ c i = false then (s.spc i).send else s.spc i } := by
  intro ids
  induction ids with
  | nil => intro s _; simp
  | cons a ids ih =>
    intro s hn
    have ha := (List.nodup_cons.1 hn).1
    rw [List.foldl_cons, ih _ (List.nodup_cons.1 hn).2]
    by_cases hc : c a = true
    · rw [if_pos hc]
      refine congrArg (fun q => ({ s with spc := q } : GSim A O)) ?_
      funext i
      by_cases hi : i = a
      · subst hi; simp [ha, hc]
      · simp [hi]
    · have hc' : c a = false := by simpa using hc
      rw [if_neg hc]
      refine congrArg (fun q => ({ s with spc := q } : GSim A O)) ?_
      funext i
      by_cases hi : i = a
      · subst hi; simp [ha, hc']
      · simp [hi]

theorem sendSpecies_eq : ∀ (ids : List ℕ) (s : GSim A O), ids.Nodup → (∀ i ∈ ids, (s.spc i).obj.useCuda = true) →
    sendSpecies ids s = ({ s with spc := fun i => if i ∈ ids then (s.spc i).send else s.spc i }, none) := by
  intro ids
  unfold sendSpecies
  induction ids with
  | nil => intro s _ _; simp
  | cons a ids ih =>
    intro s hn hc
    have ha := (List.nodup_cons.1 hn).1
    rw [List.foldl_cons, if_pos (hc a (by simp)), ih _ (List.nodup_cons.1 hn).2 ?_]
    · refine congrArg (fun q => (({ s with spc := q } : GSim A O), (none : Option PyErr))) ?_
      funext i
      by_cases hi : i = a
      · subst hi; simp [ha]
      · simp [hi]
    · intro i hi
      have : i ≠ a := fun h => ha (h ▸ hi)
      show (Function.update s.spc a (s.spc a).send i).obj.useCuda = true
      rw [Function.update_of_ne this]
      exact hc i (by simp [hi])

theorem sendSpecies_cpu (ids : List ℕ) (s : GSim A O) : sendSpecies ids (cpuTwin s) = (cpuTwin s, none) := by
  unfold sendSpecies
  refine Prod.ext ?_ rfl
  show ids.foldl _ (cpuTwin s) = cpuTwin s
  induction ids with
  | nil => rfl
  | cons a ids ih => rw [List.foldl_cons, if_neg (by simp [cpuTwin, cpuSpc])]; exact ih

theorem recvSpecies_eq : ∀ (ids : List ℕ) (s : GSim A O), ids.Nodup → (∀ i ∈ ids, (s.spc i).obj.useCuda = true) →
    (∀ i ∈ ids, (s.spc i).At true) →
    recvSpecies ids s = ({ s with spc := fun i => if i ∈ ids then (s.spc i).receive.1 else s.spc i }, none) := by
  intro ids
  induction ids with
  | nil => intro s _ _ _; simp [recvSpecies]
  | cons a ids ih =>
    intro s hn hc hat
    have ha := (List.nodup_cons.1 hn).1
    unfold recvSpecies
    rw [if_pos (hc a (by simp))]
    have h2 := (receive_at (s.spc a) (hc a (by simp)) (hat a (by simp))).1
    have h3 : (s.spc a).receive = ((s.spc a).receive.1, none) := Prod.ext rfl h2
    rw [h3]
    show recvSpecies ids { s with spc := Function.update s.spc a (s.spc a).receive.1 } = _
    have hne : ∀ i ∈ ids, i ≠ a := fun i hi h => ha (h ▸ hi)
    rw [ih _ (List.nodup_cons.1 hn).2 ?_ ?_]
    · refine congrArg (fun q => (({ s with spc := q } : GSim A O), (none : Option PyErr))) ?_
      funext i
      by_cases hi : i = a
      · subst hi; simp [ha]
      · simp [hi]
    · intro i hi
      show (Function.update s.spc a (s.spc a).receive.1 i).obj.useCuda = true
      rw [Function.update_of_ne (hne i hi)]
      exact hc i (by simp [hi])
    · intro i hi
      show (Function.update s.spc a (s.spc a).receive.1 i).At true
      rw [Function.update_of_ne (hne i hi)]
      exact hat i (by simp [hi])

theorem recvSpecies_cpu (ids : List ℕ) (s : GSim A O) : recvSpecies ids (cpuTwin s) = (cpuTwin s, none) := by
  induction ids with
  | nil => rfl
  | cons a ids ih =>
    unfold recvSpecies
    rw [if_neg (by simp [cpuTwin, cpuSpc])]
    exact ih

theorem exitSpecies_eq (c : ℕ → Bool) : ∀ (ids : List ℕ) (s : GSim A O), ids.Nodup →
    (∀ i ∈ ids, (s.spc i).obj.useCuda = true) → (∀ i ∈ ids, (s.spc i).At true) →
    exitSpecies (ids.map fun i => (i, c i)) s
      = ({ s with spc := fun i => if i ∈ ids ∧ c i = false then (s.spc i).receive.1 else s.spc i }, none) := by
  intro ids
  induction ids with
  | nil => intro s _ _ _; simp [exitSpecies]
  | cons a ids ih =>
    intro s hn hc hat
    have ha := (List.nodup_cons.1 hn).1
    have hne : ∀ i ∈ ids, i ≠ a := fun i hi h => ha (h ▸ hi)
    rw [List.map_cons]
    unfold exitSpecies
    by_cases hca : c a = true
    · rw [if_pos hca, ih s (List.nodup_cons.1 hn).2 (fun i hi => hc i (by simp [hi])) (fun i hi => hat i (by simp [hi]))]
      refine congrArg (fun q => (({ s with spc := q } : GSim A O), (none : Option PyErr))) ?_
      funext i
      by_cases hi : i = a
      · subst hi; simp [ha, hca]
      · simp [hi]
    · have hca' : c a = false := by simpa using hca
      rw [if_neg hca]
      have h2 := (receive_at (s.spc a) (hc a (by simp)) (hat a (by simp))).1
      have h3 : (s.spc a).receive = ((s.spc a).receive.1, none) := Prod.ext rfl h2
      rw [h3]
      show exitSpecies (ids.map fun i => (i, c i)) { s with spc := Function.update s.spc a (s.spc a).receive.1 } = _
      rw [ih _ (List.nodup_cons.1 hn).2 ?_ ?_]
      · refine congrArg (fun q => (({ s with spc := q } : GSim A O), (none : Option PyErr))) ?_
        funext i
        by_cases hi : i = a
        · subst hi; simp [ha, hca']
        · simp [hi]
      · intro i hi
        show (Function.update s.spc a (s.spc a).receive.1 i).obj.useCuda = true
        rw [Function.update_of_ne (hne i hi)]
        exact hc i (by simp [hi])
      · intro i hi
        show (Function.update s.spc a (s.spc a).receive.1 i).At true
        rw [Function.update_of_ne (hne i hi)]
        exact hat i (by simp [hi])

/-! ### The run on the GPU against that on the CPU -/

/-- Everything is on the GPU. -/
structure AllGpu (s : GSim A O) : Prop where
  on : OnGpuSim s
  spc : ∀ i ∈ s.ptcl, (s.spc i).At true
  fld : s.fld.At true

/-- What a method does with everything on the GPU and what it does without GPU agree; if it ends well,
everything is on the GPU again and the species are the same. -/
structure Follows (m : Meth A O) (s : GSim A O) : Prop where
  same : m (cpuTwin s) = (cpuTwin (m s).1, (m s).2)
  stays : (m s).2 = none → AllGpu (m s).1
  ptcl : (m s).1.ptcl = s.ptcl

theorem seq_none {f g : Meth A O} {s s' : GSim A O} (h : f s = (s', none)) : f.seq g s = g s' := by
  unfold Meth.seq; rw [h]

theorem seq_some {f g : Meth A O} {s s' : GSim A O} {e : PyErr} (h : f s = (s', some e)) :
    f.seq g s = (s', some e) := by
  unfold Meth.seq; rw [h]

theorem compute_follows (f : Vals A → Vals A × Option PyErr) (s : GSim A O) (h : AllGpu s) :
    Follows (compute f) s ∧ AllGpu (compute f s).1 ∧
    (∀ i, ((compute f s).1.spc i).obj.onGpu = (s.spc i).obj.onGpu) ∧
    (compute f s).1.fld.obj.onGpu = s.fld.obj.onGpu := by
  have hg : (∀ i ∈ s.ptcl, (s.spc i).At s.useCuda) ∧ s.fld.At s.useCuda := by
    rw [h.on.sim]; exact ⟨h.spc, h.fld⟩
  have hc : (∀ i ∈ (cpuTwin s).ptcl, ((cpuTwin s).spc i).At (cpuTwin s).useCuda) ∧
      (cpuTwin s).fld.At (cpuTwin s).useCuda := ⟨fun i _ => cpuSpc_at _, cpuFld_at _⟩
  have hall : AllGpu (compute f s).1 := by
    unfold compute
    rw [if_pos hg]
    exact ⟨⟨h.on.sim, h.on.fld, h.on.spc, h.on.nodup⟩,
      fun i hi n hn => (put_onGpu _ _).trans (h.spc i hi n hn),
      fun k hk => (put_onGpu _ _).trans (h.fld k hk)⟩
  refine ⟨⟨?_, fun _ => hall, ?_⟩, hall, ?_, ?_⟩
  · unfold compute
    rw [if_pos hg, if_pos hc]
    refine Prod.ext ?_ rfl
    have e1 : ∀ i, cpuSpc ({ s.spc i with
          obj := { (s.spc i).obj with
            arr := fun n => ((s.spc i).obj.arr n).put ((f s.vals).1.spc i n) } } : Spc A)
        = ⟨⟨false, false, fun n => .cpu ((f s.vals).1.spc i n)⟩, (s.spc i).tracked, (s.spc i).ionizable,
            (s.spc i).nInt⟩ := by
      intro i; unfold cpuSpc; simp only [put_val]
    have e2 : cpuFld ({ s.fld with
          obj := { s.fld.obj with arr := fun k => (s.fld.obj.arr k).put ((f s.vals).1.fld k) } } : Flds A)
        = ⟨⟨false, false, fun k => .cpu ((f s.vals).1.fld k)⟩, s.fld.nm, s.fld.pml, s.fld.cross⟩ := by
      unfold cpuFld; simp only [put_val]
    exact congrArg₂ (fun q g => (⟨false, q, s.ptcl, g, s.out⟩ : GSim A O))
      (funext fun i => (e1 i).symm) e2.symm
  · unfold compute; rw [if_pos hg]
  · intro i; unfold compute; rw [if_pos hg]
  · unfold compute; rw [if_pos hg]

theorem writeFile_at {ids : List ℕ} {b : Bool} {w : Vals A → Except PyErr O} {s : GSim A O}
    (h : (∀ i ∈ ids, (s.spc i).At false) ∧ (b = true → s.fld.At false)) :
    (∃ o, w s.vals = .ok o ∧ writeFile ids b w s = ({ s with out := s.out ++ [o] }, none)) ∨
    ∃ e, w s.vals = .error e ∧ writeFile ids b w s = (s, some e) := by
  unfold writeFile
  rw [if_pos h]
  cases w s.vals with
  | ok o => exact Or.inl ⟨o, rfl, rfl⟩
  | error e => exact Or.inr ⟨e, rfl, rfl⟩

theorem partDiag_follows (ids : List ℕ) (w : Vals A → Except PyErr O) (s : GSim A O) (h : AllGpu s)
    (hn : ids.Nodup) (hi : ∀ i ∈ ids, i ∈ s.ptcl) : Follows (partDiag ids w) s := by
  have r1 := recvSpecies_eq ids s hn (fun i h' => h.on.spc i (hi i h')) (fun i h' => h.spc i (hi i h'))
  set s1 : GSim A O := { s with spc := fun i => if i ∈ ids then (s.spc i).receive.1 else s.spc i } with hs1
  have t1 : cpuTwin s1 = cpuTwin s := cpuTwin_spc s _ fun i => by
    split_ifs
    · exact cpuSpc_receive _
    · rfl
  have hv : s1.vals = s.vals := by rw [← vals_cpuTwin s1, t1, vals_cpuTwin]
  have a1 : (∀ i ∈ ids, (s1.spc i).At false) ∧ (false = true → s1.fld.At false) := by
    refine ⟨fun i h' => ?_, fun h => by cases h⟩
    show (if i ∈ ids then (s.spc i).receive.1 else s.spc i).At false
    rw [if_pos h']
    exact (receive_at _ (h.on.spc i (hi i h')) (h.spc i (hi i h'))).2.1
  have ac : (∀ i ∈ ids, ((cpuTwin s).spc i).At false) ∧ (false = true → (cpuTwin s).fld.At false) :=
    ⟨fun i _ => cpuSpc_at _, fun _ => cpuFld_at _⟩
  have hus : ∀ i ∈ ids, (s1.spc i).obj.useCuda = true := fun i h' => by
    show (if i ∈ ids then (s.spc i).receive.1 else s.spc i).obj.useCuda = true
    rw [if_pos h', receive_useCuda]; exact h.on.spc i (hi i h')
  have eg : partDiag ids w s = ((writeFile ids false w).seq (sendSpecies ids)) s1 := seq_none r1
  have ec : partDiag ids w (cpuTwin s) = ((writeFile ids false w).seq (sendSpecies ids)) (cpuTwin s) :=
    seq_none (recvSpecies_cpu ids s)
  rcases writeFile_at (w := w) a1 with ⟨o, ho, hw⟩ | ⟨e, he, hw⟩
  · have hw' : writeFile ids false w (cpuTwin s) = ({ cpuTwin s with out := s.out ++ [o] }, none) := by
      rcases writeFile_at (w := w) ac with ⟨o', ho', hw'⟩ | ⟨e', he', -⟩
      · rw [vals_cpuTwin, ← hv, ho] at ho'
        cases ho'
        exact hw'
      · rw [vals_cpuTwin, ← hv, ho] at he'; cases he'
    have s2 := sendSpecies_eq ids { s1 with out := s1.out ++ [o] } hn hus
    have fin : partDiag ids w s = ({ s1 with
        out := s1.out ++ [o], spc := fun i => if i ∈ ids then (s1.spc i).send else s1.spc i }, none) := by
      rw [eg, seq_none hw, s2]
    have finc : partDiag ids w (cpuTwin s) = ({ cpuTwin s with out := s.out ++ [o] }, none) := by
      rw [ec, seq_none hw']
      exact sendSpecies_cpu ids { s with out := s.out ++ [o] }
    refine ⟨?_, ?_, ?_⟩
    · rw [fin, finc]
      refine Prod.ext ?_ rfl
      show ({ cpuTwin s with out := s.out ++ [o] } : GSim A O) = _
      rw [← t1]
      refine (cpuTwin_spc { s1 with out := s1.out ++ [o] } _ fun i => ?_).symm
      split_ifs
      · exact cpuSpc_send _
      · rfl
    · intro _
      rw [fin]
      have huse : ∀ i ∈ s.ptcl, (s1.spc i).obj.useCuda = true := fun i h' => by
        show (if i ∈ ids then (s.spc i).receive.1 else s.spc i).obj.useCuda = true
        split_ifs
        · rw [receive_useCuda]; exact h.on.spc i h'
        · exact h.on.spc i h'
      refine ⟨⟨h.on.sim, h.on.fld, fun i h' => ?_, h.on.nodup⟩, fun i h' => ?_, h.fld⟩
      · show (if i ∈ ids then (s1.spc i).send else s1.spc i).obj.useCuda = true
        split_ifs
        · rw [send_useCuda]; exact huse i h'
        · exact huse i h'
      · show (if i ∈ ids then (s1.spc i).send else s1.spc i).At true
        split_ifs with hids
        · exact (send_at _ (huse i h')).1
        · show (if i ∈ ids then (s.spc i).receive.1 else s.spc i).At true
          rw [if_neg hids]; exact h.spc i h'
    · rw [fin]
  · have hw' : writeFile ids false w (cpuTwin s) = (cpuTwin s, some e) := by
      rcases writeFile_at (w := w) ac with ⟨o', ho', -⟩ | ⟨e', he', hw'⟩
      · rw [vals_cpuTwin, ← hv, he] at ho'; cases ho'
      · rw [vals_cpuTwin, ← hv, he] at he'
        cases he'
        exact hw'
    refine ⟨?_, ?_, ?_⟩
    · rw [eg, ec, seq_some hw, seq_some hw', t1]
    · rw [eg, seq_some hw]; intro h'; cases h'
    · rw [eg, seq_some hw]

theorem fieldDiag_follows (w : Vals A → Except PyErr O) (s : GSim A O) (h : AllGpu s) :
    Follows (fieldDiag w) s := by
  obtain ⟨r1, r2, -⟩ := freceive_at s.fld h.on.fld h.fld
  have q1 : (fun s : GSim A O => if s.fld.obj.useCuda then recvFields s else (s, none)) s
      = ({ s with fld := s.fld.receive.1 }, none) := by
    show (if s.fld.obj.useCuda = true then recvFields s else (s, none)) = _
    rw [if_pos h.on.fld]
    exact Prod.ext rfl r1
  set s1 : GSim A O := { s with fld := s.fld.receive.1 } with hs1
  have t1 : cpuTwin s1 = cpuTwin s := cpuTwin_fld s _ (cpuFld_receive _)
  have hv : s1.vals = s.vals := by rw [← vals_cpuTwin s1, t1, vals_cpuTwin]
  have a1 : (∀ i ∈ ([] : List ℕ), (s1.spc i).At false) ∧ (true = true → s1.fld.At false) :=
    ⟨fun i h => by simp at h, fun _ => r2⟩
  have ac : (∀ i ∈ ([] : List ℕ), ((cpuTwin s).spc i).At false) ∧ (true = true → (cpuTwin s).fld.At false) :=
    ⟨fun i _ => cpuSpc_at _, fun _ => cpuFld_at _⟩
  have hus : s1.fld.obj.useCuda = true := by
    show s.fld.receive.1.obj.useCuda = true
    rw [freceive_useCuda]; exact h.on.fld
  have eg : fieldDiag w s = Meth.seq (writeFile [] true w)
      (fun s => if s.fld.obj.useCuda then sendFields s else (s, none)) s1 := seq_none q1
  have ec : fieldDiag w (cpuTwin s) = Meth.seq (writeFile [] true w)
      (fun s => if s.fld.obj.useCuda then sendFields s else (s, none)) (cpuTwin s) := seq_none rfl
  rcases writeFile_at (w := w) a1 with ⟨o, ho, hw⟩ | ⟨e, he, hw⟩
  · have hw' : writeFile [] true w (cpuTwin s) = ({ cpuTwin s with out := s.out ++ [o] }, none) := by
      rcases writeFile_at (w := w) ac with ⟨o', ho', hw'⟩ | ⟨e', he', -⟩
      · rw [vals_cpuTwin, ← hv, ho] at ho'
        cases ho'
        exact hw'
      · rw [vals_cpuTwin, ← hv, ho] at he'; cases he'
    have fin : fieldDiag w s = ({ s1 with out := s1.out ++ [o], fld := s1.fld.send }, none) := by
      rw [eg, seq_none hw]
      show (if s1.fld.obj.useCuda = true then _ else _) = _
      rw [if_pos hus]
      rfl
    have finc : fieldDiag w (cpuTwin s) = ({ cpuTwin s with out := s.out ++ [o] }, none) := by
      rw [ec, seq_none hw']
      rfl
    refine ⟨?_, ?_, ?_⟩
    · rw [fin, finc]
      refine Prod.ext ?_ rfl
      show ({ cpuTwin s with out := s.out ++ [o] } : GSim A O) = _
      rw [← t1]
      exact (cpuTwin_fld { s1 with out := s1.out ++ [o] } _ (cpuFld_send _)).symm
    · intro _
      rw [fin]
      exact ⟨⟨h.on.sim, (fsend_useCuda _).trans hus, h.on.spc, h.on.nodup⟩, h.spc, (fsend_at _ hus).1⟩
    · rw [fin]
  · have hw' : writeFile [] true w (cpuTwin s) = (cpuTwin s, some e) := by
      rcases writeFile_at (w := w) ac with ⟨o', ho', -⟩ | ⟨e', he', hw'⟩
      · rw [vals_cpuTwin, ← hv, he] at ho'; cases ho'
      · rw [vals_cpuTwin, ← hv, he] at he'
        cases he'
        exact hw'
    refine ⟨?_, ?_, ?_⟩
    · rw [eg, ec, seq_some hw, seq_some hw', t1]
    · rw [eg, seq_some hw]; intro h'; cases h'
    · rw [eg, seq_some hw]

theorem act_follows (a : Act A O) (s : GSim A O) (h : AllGpu s) (ha : Act.Proper s.ptcl a) :
    Follows a.run s := by
  cases a with
  | compute f => exact (compute_follows f s h).1
  | partDiag ids w => exact partDiag_follows ids w s h ha.1 ha.2
  | fieldDiag w => exact fieldDiag_follows w s h

theorem runAll_follows : ∀ (acts : List (Act A O)) (s : GSim A O), AllGpu s →
    (∀ a ∈ acts, Act.Proper s.ptcl a) → Follows (runAll acts) s := by
  intro acts
  induction acts with
  | nil => intro s h _; exact ⟨rfl, fun _ => h, rfl⟩
  | cons a acts ih =>
    intro s h ha
    have f1 := act_follows a s h (ha a (by simp))
    rcases hr : a.run s with ⟨s1, _ | e⟩
    · have f2 := ih s1 (by simpa [hr] using f1.stays) (fun b hb => by
        have := f1.ptcl; rw [hr] at this
        show Act.Proper s1.ptcl b
        rw [show s1.ptcl = s.ptcl from this]; exact ha b (by simp [hb]))
      have e1 : runAll (a :: acts) s = runAll acts s1 := seq_none hr
      have hc : a.run (cpuTwin s) = (cpuTwin s1, none) := by rw [f1.same, hr]
      have e2 : runAll (a :: acts) (cpuTwin s) = runAll acts (cpuTwin s1) := seq_none hc
      refine ⟨?_, ?_, ?_⟩
      · rw [e1, e2]; exact f2.same
      · rw [e1]; exact f2.stays
      · rw [e1, f2.ptcl]; have := f1.ptcl; rw [hr] at this; exact this
    · have e1 : runAll (a :: acts) s = (s1, some e) := seq_some hr
      have hc : a.run (cpuTwin s) = (cpuTwin s1, some e) := by rw [f1.same, hr]
      have e2 : runAll (a :: acts) (cpuTwin s) = (cpuTwin s1, some e) := seq_some hc
      refine ⟨?_, ?_, ?_⟩
      · rw [e1, e2]
      · rw [e1]; intro h'; cases h'
      · rw [e1]; have := f1.ptcl; rw [hr] at this; exact this

theorem sendData_all (s : GSim A O) (h : OnGpuSim s) :
    ∃ s', sendData s = (s', none) ∧ AllGpu s' ∧ cpuTwin s' = cpuTwin s ∧ s'.ptcl = s.ptcl := by
  have r1 := sendSpecies_eq s.ptcl s h.nodup h.spc
  refine ⟨{ s with
      spc := fun i => if i ∈ s.ptcl then (s.spc i).send else s.spc i
      fld := s.fld.send }, ?_, ?_, ?_, rfl⟩
  · unfold sendData
    rw [seq_none r1]; rfl
  · refine ⟨⟨h.sim, (fsend_useCuda _).trans h.fld, fun i hi => ?_, h.nodup⟩, fun i hi => ?_, (fsend_at _ h.fld).1⟩
    · show (if i ∈ s.ptcl then (s.spc i).send else s.spc i).obj.useCuda = true
      rw [if_pos hi, send_useCuda]; exact h.spc i hi
    · show (if i ∈ s.ptcl then (s.spc i).send else s.spc i).At true
      rw [if_pos hi]; exact (send_at _ (h.spc i hi)).1
  · rw [cpuTwin_eq, cpuTwin_eq]
    simp only [cpuFld_send]
    refine congrArg (fun q => (⟨false, q, s.ptcl, cpuFld s.fld, s.out⟩ : GSim A O)) ?_
    funext i
    split_ifs
    · exact cpuSpc_send _
    · rfl

theorem recvData_all (s : GSim A O) (h : AllGpu s) :
    ∃ s', recvData s = (s', none) ∧ BackOnCpu s' ∧ cpuTwin s' = cpuTwin s := by
  have r1 := recvSpecies_eq s.ptcl s h.on.nodup h.on.spc h.spc
  obtain ⟨f1, f2, f3⟩ := freceive_at s.fld h.on.fld h.fld
  refine ⟨{ s with
      spc := fun i => if i ∈ s.ptcl then (s.spc i).receive.1 else s.spc i
      fld := s.fld.receive.1 }, ?_, ⟨fun i hi => ?_, f2, f3⟩, ?_⟩
  · unfold recvData
    rw [seq_none r1]
    exact Prod.ext rfl f1
  · show (if i ∈ s.ptcl then (s.spc i).receive.1 else s.spc i).At false ∧
      (if i ∈ s.ptcl then (s.spc i).receive.1 else s.spc i).obj.onGpu = false
    rw [if_pos hi]
    exact (receive_at _ (h.on.spc i hi) (h.spc i hi)).2
  · rw [cpuTwin_eq, cpuTwin_eq]
    simp only [cpuFld_receive]
    refine congrArg (fun q => (⟨false, q, s.ptcl, cpuFld s.fld, s.out⟩ : GSim A O)) ?_
    funext i
    split_ifs
    · exact cpuSpc_receive _
    · rfl

end Fbpic.Place

namespace Fbpic.Place

open Spec

variable {A O : Type}

/-! ### What never changes -/

/-- The attributes `use_cuda` and the list of the species are the same. -/
structure SameUse (s s' : GSim A O) : Prop where
  sim : s'.useCuda = s.useCuda
  fld : s'.fld.obj.useCuda = s.fld.obj.useCuda
  spc : ∀ i, (s'.spc i).obj.useCuda = (s.spc i).obj.useCuda
  ptcl : s'.ptcl = s.ptcl

theorem SameUse.refl (s : GSim A O) : SameUse s s := ⟨rfl, rfl, fun _ => rfl, rfl⟩

theorem SameUse.trans {a b d : GSim A O} (h : SameUse a b) (h' : SameUse b d) : SameUse a d :=
  ⟨h'.sim.trans h.sim, h'.fld.trans h.fld, fun i => (h'.spc i).trans (h.spc i), h'.ptcl.trans h.ptcl⟩

theorem SameUse.onGpu {a b : GSim A O} (h : SameUse a b) (ha : OnGpuSim a) : OnGpuSim b :=
  ⟨h.sim.trans ha.sim, h.fld.trans ha.fld, fun i hi => (h.spc i).trans (ha.spc i (by rw [← h.ptcl]; exact hi)),
    by rw [h.ptcl]; exact ha.nodup⟩

theorem sameUse_update (s : GSim A O) (i : ℕ) (p : Spc A) (hp : p.obj.useCuda = (s.spc i).obj.useCuda) :
    SameUse s { s with spc := Function.update s.spc i p } := by
  refine ⟨rfl, rfl, fun j => ?_, rfl⟩
  show (Function.update s.spc i p j).obj.useCuda = _
  by_cases h : j = i
  · subst h; rw [Function.update_self]; exact hp
  · rw [Function.update_of_ne h]

theorem seq_sameUse {f g : Meth A O} (hf : ∀ s, SameUse s (f s).1) (hg : ∀ s, SameUse s (g s).1) (s : GSim A O) :
    SameUse s (f.seq g s).1 := by
  have h1 := hf s
  unfold Meth.seq
  rcases hr : f s with ⟨s1, _ | e⟩
  · rw [hr] at h1; exact h1.trans (hg s1)
  · rw [hr] at h1; exact h1

theorem sendSpecies_sameUse (ids : List ℕ) : ∀ s : GSim A O, SameUse s (sendSpecies ids s).1 := by
  unfold sendSpecies
  show ∀ s : GSim A O, SameUse s (ids.foldl _ s)
  induction ids with
  | nil => exact fun s => SameUse.refl s
  | cons i ids ih =>
    intro s
    rw [List.foldl_cons]
    refine SameUse.trans ?_ (ih _)
    split_ifs
    · exact sameUse_update s i _ (send_useCuda _)
    · exact SameUse.refl s

theorem recvSpecies_sameUse (ids : List ℕ) : ∀ s : GSim A O, SameUse s (recvSpecies ids s).1 := by
  induction ids with
  | nil => exact fun s => SameUse.refl s
  | cons i ids ih =>
    intro s
    unfold recvSpecies
    by_cases h : (s.spc i).obj.useCuda = true
    · rw [if_pos h]
      have hp := receive_useCuda (s.spc i)
      rcases hr : (s.spc i).receive with ⟨p, _ | e⟩
      · rw [hr] at hp
        exact (sameUse_update s i p hp).trans (ih _)
      · rw [hr] at hp
        exact sameUse_update s i p hp
    · rw [if_neg h]; exact ih s

theorem sendFields_sameUse (s : GSim A O) : SameUse s (sendFields s).1 :=
  ⟨rfl, fsend_useCuda _, fun _ => rfl, rfl⟩

theorem recvFields_sameUse (s : GSim A O) : SameUse s (recvFields s).1 :=
  ⟨rfl, freceive_useCuda _, fun _ => rfl, rfl⟩

theorem writeFile_sameUse (ids : List ℕ) (b : Bool) (w : Vals A → Except PyErr O) (s : GSim A O) :
    SameUse s (writeFile ids b w s).1 := by
  unfold writeFile
  split_ifs
  · cases w s.vals
    · exact SameUse.refl s
    · exact ⟨rfl, rfl, fun _ => rfl, rfl⟩
  · exact SameUse.refl s

theorem act_sameUse (a : Act A O) (s : GSim A O) : SameUse s (a.run s).1 := by
  cases a with
  | compute f =>
    show SameUse s (compute f s).1
    unfold compute
    split_ifs
    · exact ⟨rfl, rfl, fun _ => rfl, rfl⟩
    · exact SameUse.refl s
  | partDiag ids w =>
    exact seq_sameUse (recvSpecies_sameUse ids)
      (seq_sameUse (writeFile_sameUse ids false w) (sendSpecies_sameUse ids)) s
  | fieldDiag w =>
    refine seq_sameUse (fun s => ?_) (seq_sameUse (writeFile_sameUse [] true w) (fun s => ?_)) s
    · split_ifs
      · exact recvFields_sameUse s
      · exact SameUse.refl s
    · split_ifs
      · exact sendFields_sameUse s
      · exact SameUse.refl s

theorem runAll_sameUse (acts : List (Act A O)) : ∀ s, SameUse s (runAll acts s).1 := by
  induction acts with
  | nil => exact fun s => SameUse.refl s
  | cons a acts ih => exact fun s => seq_sameUse (act_sameUse a) ih s

theorem step_sameUse (acts : List (Act A O)) (s : GSim A O) : SameUse s (step acts s).1 := by
  refine seq_sameUse (fun s => ?_) (seq_sameUse (runAll_sameUse acts) (fun s => ?_)) s
  · split_ifs
    · exact seq_sameUse (sendSpecies_sameUse s.ptcl) sendFields_sameUse s
    · exact SameUse.refl s
  · split_ifs
    · exact seq_sameUse (recvSpecies_sameUse s.ptcl) recvFields_sameUse s
    · exact SameUse.refl s

/-! ### One call of `step` -/

theorem step_cpu (acts : List (Act A O)) (s : GSim A O) :
    step acts (cpuTwin s) = runAll acts (cpuTwin s) := by
  have h0 : (fun s : GSim A O => if s.useCuda then sendData s else (s, none)) (cpuTwin s) = (cpuTwin s, none) := rfl
  unfold step
  rw [seq_none h0]
  unfold Meth.seq
  have hu := (runAll_sameUse acts (cpuTwin s)).sim
  rcases hr : runAll acts (cpuTwin s) with ⟨s1, _ | e⟩
  · rw [hr] at hu
    show (if s1.useCuda = true then recvData s1 else (s1, none)) = _
    rw [if_neg]
    show ¬ s1.useCuda = true
    rw [show s1.useCuda = false from hu]
    simp
  · rfl

theorem step_same (acts : List (Act A O)) (s : GSim A O) (h : OnGpuSim s)
    (ha : ∀ a ∈ acts, Act.Proper s.ptcl a) :
    step acts (cpuTwin s) = (cpuTwin (step acts s).1, (step acts s).2) ∧
    ((step acts s).2 = none → BackOnCpu (step acts s).1) := by
  obtain ⟨s1, h1, all1, t1, p1⟩ := sendData_all s h
  have q1 : (fun s : GSim A O => if s.useCuda then sendData s else (s, none)) s = (s1, none) := by
    show (if s.useCuda = true then sendData s else (s, none)) = _
    rw [if_pos h.sim]; exact h1
  have f1 := runAll_follows acts s1 all1 (fun a h' => by rw [p1]; exact ha a h')
  rw [step_cpu, ← t1, f1.same]
  unfold step
  rw [seq_none q1]
  rcases hr : runAll acts s1 with ⟨s2, _ | e⟩
  · have all2 : AllGpu s2 := by simpa [hr] using f1.stays
    obtain ⟨s3, h3, b3, t3⟩ := recvData_all s2 all2
    rw [seq_none hr]
    have q3 : (if s2.useCuda = true then recvData s2 else (s2, none)) = (s3, none) := by
      rw [if_pos all2.on.sim]; exact h3
    show (cpuTwin s2, none) = (cpuTwin (if s2.useCuda = true then recvData s2 else (s2, none)).1,
        (if s2.useCuda = true then recvData s2 else (s2, none)).2) ∧
      ((if s2.useCuda = true then recvData s2 else (s2, none)).2 = none →
        BackOnCpu (if s2.useCuda = true then recvData s2 else (s2, none)).1)
    rw [q3]
    exact ⟨by rw [t3], fun _ => b3⟩
  · rw [seq_some hr]
    exact ⟨rfl, fun h' => by cases h'⟩

/-! ### The manager -/

theorem enter_eq (s : GSim A O) (h : OnGpuSim s) :
    enter s.fld.obj.onGpu (s.ptcl.map fun i => (s.spc i).obj.onGpu) s
      = ({ s with
            fld := if s.fld.obj.onGpu then s.fld else s.fld.send
            spc := fun i => if i ∈ s.ptcl ∧ (s.spc i).obj.onGpu = false then (s.spc i).send else s.spc i },
          none) := by
  have hz : s.ptcl.zip (s.ptcl.map fun i => (s.spc i).obj.onGpu) = s.ptcl.map fun i => (i, (s.spc i).obj.onGpu) := by
    rw [List.zip_map_right]
    induction s.ptcl with
    | nil => rfl
    | cons a l ih => simpa using ih
  unfold enter
  rw [if_pos h.sim]
  have q : (fun s' : GSim A O => if s.fld.obj.onGpu then (s', none) else sendFields s') s
      = ({ s with fld := if s.fld.obj.onGpu then s.fld else s.fld.send }, none) := by
    by_cases hf : s.fld.obj.onGpu = true
    · show (if s.fld.obj.onGpu = true then (s, none) else sendFields s) = _
      rw [if_pos hf, if_pos hf]
    · show (if s.fld.obj.onGpu = true then (s, none) else sendFields s) = _
      rw [if_neg hf, if_neg hf]
      rfl
  rw [seq_none q]
  refine Prod.ext ?_ rfl
  show List.foldl _ _ (s.ptcl.zip (s.ptcl.map fun i => (s.spc i).obj.onGpu)) = _
  rw [hz, List.foldl_map]
  exact sendFold (fun i => (s.spc i).obj.onGpu) s.ptcl
    { s with fld := if s.fld.obj.onGpu then s.fld else s.fld.send } h.nodup

end Fbpic.Place
