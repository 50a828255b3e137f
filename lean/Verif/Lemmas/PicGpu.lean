import Verif.Lemmas.PicGpuTrans
import Verif.Lemmas.PicCycle
import Verif.Lemmas.PicTotal
import Verif.Props.GpuDeposit
import Verif.Spec.PicGpu
import Mathlib.Data.List.Sort

/-! # Lemmas for C106: the run on the GPU follows the run on the CPU -/

namespace Fbpic.Pic.Gpu

open Transform ExternalField Step GpuDeposit

/-! ### Lists of particles in another order -/

/-- The same particle; `P`: also with the same fields. -/
structure PtRel (P : Prop) (p q : Ptcl) : Prop where
  push : q.push = p.push
  w : q.w = p.w
  F : P → q.F = p.F

theorem PtRel.refl (P : Prop) (p : Ptcl) : PtRel P p p := ⟨rfl, rfl, fun _ => rfl⟩

theorem PtRel.mono {P Q : Prop} (h : Q → P) {p q : Ptcl} (r : PtRel P p q) : PtRel Q p q :=
  ⟨r.push, r.w, fun x => r.F (h x)⟩

theorem PtRel.trans {P Q : Prop} {p q r : Ptcl} (h : PtRel P p q) (h' : PtRel Q q r) : PtRel (P ∧ Q) p r :=
  ⟨h'.push.trans h.push, h'.w.trans h.w, fun x => (h'.F x.2).trans (h.F x.1)⟩

theorem PtRel.eq {P : Prop} (hP : P) {p q : Ptcl} (h : PtRel P p q) : q = p := by
  obtain ⟨h1, h2, h3⟩ := h
  cases p; cases q
  simp only at h1 h2 h3
  rw [h1, h2, h3 hP]

/-- The lists correspond, in another order. -/
def PermRel (P : Prop) (A B : List Ptcl) : Prop := ∃ L, List.Forall₂ (PtRel P) A L ∧ L.Perm B

theorem PermRel.mono {P Q : Prop} (h : Q → P) {A B : List Ptcl} (r : PermRel P A B) : PermRel Q A B := by
  obtain ⟨L, h1, h2⟩ := r
  exact ⟨L, h1.imp fun _ _ => PtRel.mono h, h2⟩

theorem PermRel.refl (P : Prop) (A : List Ptcl) : PermRel P A A :=
  ⟨A, List.forall₂_same.2 fun p _ => PtRel.refl P p, List.Perm.refl _⟩

theorem permRel_of_perm {P : Prop} {A L B : List Ptcl} (h : A.Perm L) (h' : List.Forall₂ (PtRel P) L B) :
    PermRel P A B := by
  obtain ⟨X, h1, h2⟩ := List.perm_comp_forall₂ h h'
  exact ⟨X, h1, h2⟩

theorem forall₂_trans {P Q : Prop} {A B C : List Ptcl} (h : List.Forall₂ (PtRel P) A B)
    (h' : List.Forall₂ (PtRel Q) B C) : List.Forall₂ (PtRel (P ∧ Q)) A C := by
  induction h generalizing C with
  | nil => cases h'; exact .nil
  | cons h1 _ ih =>
    cases h' with
    | cons h2 h3 => exact .cons (h1.trans h2) (ih h3)

theorem PermRel.trans {P Q : Prop} {A B C : List Ptcl} (h : PermRel P A B) (h' : PermRel Q B C) :
    PermRel (P ∧ Q) A C := by
  obtain ⟨L, h1, h2⟩ := h
  obtain ⟨M, h3, h4⟩ := h'
  obtain ⟨X, h5, h6⟩ := List.perm_comp_forall₂ h2 h3
  exact ⟨X, forall₂_trans h1 h5, h6.trans h4⟩

theorem PermRel.mem {P : Prop} {A B : List Ptcl} (h : PermRel P A B) {q : Ptcl} (hq : q ∈ B) :
    ∃ p ∈ A, PtRel P p q := by
  obtain ⟨L, h1, h2⟩ := h
  have hq' := h2.mem_iff.2 hq
  clear h2 hq
  induction h1 with
  | nil => cases hq'
  | cons h _ ih =>
    rcases List.mem_cons.1 hq' with rfl | hq'
    · exact ⟨_, List.mem_cons_self, h⟩
    · obtain ⟨p, hp, h⟩ := ih hq'
      exact ⟨p, List.mem_cons_of_mem _ hp, h⟩

/-- The macroparticles without their fields. -/
theorem permRel_iff (A B : List Ptcl) : (B.map fun p => (p.push, p.w)).Perm (A.map fun p => (p.push, p.w)) ↔
    PermRel False A B := by
  constructor
  · intro h
    have h1 : List.Forall₂ (fun (s : PushPtcl × ℝ) (p : Ptcl) => s = (p.push, p.w))
        (B.map fun p => (p.push, p.w)) B := by
      clear h
      induction B with
      | nil => exact .nil
      | cons p B ih => exact .cons rfl ih
    obtain ⟨X, h2, h3⟩ := List.perm_comp_forall₂ h.symm h1
    refine ⟨X, ?_, h3⟩
    clear h h1 h3
    induction A generalizing X with
    | nil => cases h2; exact .nil
    | cons p A ih =>
      cases h2 with
      | cons h h' =>
        obtain ⟨e1, e2⟩ := Prod.mk.inj h
        exact .cons ⟨e1.symm, e2.symm, fun x => x.elim⟩ (ih _ h')
  · rintro ⟨L, h1, h2⟩
    have : L.map (fun p => (p.push, p.w)) = A.map fun p => (p.push, p.w) := by
      clear h2
      induction h1 with
      | nil => rfl
      | cons h _ ih => rw [List.map_cons, List.map_cons, ih, h.push, h.w]
    rw [← this]
    exact (h2.map _).symm

/-- A kernel with one thread per particle does the same with the particles in another order. -/
theorem PermRel.mapM {P Q : Prop} {f f' : Ptcl → Except PyErr Ptcl} {A A' B : List Ptcl} (h : PermRel P A B)
    (hf : ∀ p q p', p ∈ A → PtRel P p q → f p = .ok p' → ∃ q', f' q = .ok q' ∧ PtRel Q p' q')
    (hA : List.Forall₂ (fun p p' => f p = .ok p') A A') :
    ∃ B', List.Forall₂ (fun q q' => f' q = .ok q') B B' ∧ PermRel Q A' B' := by
  obtain ⟨L, h1, h2⟩ := h
  have : ∃ L', List.Forall₂ (fun q q' => f' q = .ok q') L L' ∧ List.Forall₂ (PtRel Q) A' L' := by
    clear h2
    induction h1 generalizing A' with
    | nil => cases hA; exact ⟨[], .nil, .nil⟩
    | cons h _ ih =>
      cases hA with
      | cons h' hA =>
        obtain ⟨L', h3, h4⟩ := ih (fun p q p' hp => hf p q p' (List.mem_cons_of_mem _ hp)) hA
        obtain ⟨q', h5, h6⟩ := hf _ _ _ List.mem_cons_self h h'
        exact ⟨q' :: L', .cons h5 h3, .cons h6 h4⟩
  obtain ⟨L', h3, h4⟩ := this
  obtain ⟨X, h5, h6⟩ := List.perm_comp_forall₂ h2.symm h3
  exact ⟨X, h5, L', h4, h6.symm⟩

/-! ### Sorting -/

variable (c : Cfg)

theorem exists_argSorted (n : ℕ) (keys : ℕ → ℕ) : ∃ keys' idx, Sorting.ArgSorted n keys keys' idx := by
  set l := (List.range n).insertionSort (fun i j => keys i ≤ keys j) with hl
  have hp : l.Perm (List.range n) := List.perm_insertionSort _ _
  have hlen : l.length = n := by rw [hp.length_eq, List.length_range]
  have hs : l.Pairwise (fun i j => keys i ≤ keys j) := by
    haveI : Std.Total (fun i j => keys i ≤ keys j) := ⟨fun i j => le_total _ _⟩
    haveI : IsTrans ℕ (fun i j => keys i ≤ keys j) := ⟨fun i j k => le_trans⟩
    exact List.pairwise_insertionSort _ _
  refine ⟨fun i => keys (l.getD i 0), fun i => l.getD i 0, ?_, fun _ _ => rfl, ?_⟩
  · have : (List.range n).map (fun i => l.getD i 0) = l := by
      apply List.ext_getElem
      · simp [hlen]
      · intro i h1 h2
        simp [h2]
    rw [this]
    exact hp
  · intro i j hij hj
    rcases hij.lt_or_eq with h | rfl
    · have := List.pairwise_iff_getElem.1 hs i j (by omega) (by omega) h
      simpa [List.getD_eq_getElem?_getD, List.getElem?_eq_getElem (show i < l.length by omega),
        List.getElem?_eq_getElem (show j < l.length by omega)] using this
    · exact le_rfl

/-- Near the box. -/
def Near (zmin : ℝ) (p : Ptcl) : Prop := nearBox (c.grid zmin) (p.dep false)

/-- The prefix sum delimits the cells. -/
def Fresh (zmin : ℝ) (b : GSpecies) : Prop :=
  Delimits (c.grid zmin) (b.sp.ptcl.map (Ptcl.dep b.sp.ionizable)) b.prefixSum ∧ ∀ p ∈ b.sp.ptcl, Near c zmin p

theorem cellNat_dep (zmin : ℝ) (i : Bool) (p : Ptcl) : cellNat (c.grid zmin) (p.dep i) = cellOf c zmin p := rfl

theorem delimits_congr {g : CylGrid} {ps ps' : List DepPtcl} {P : ℕ → ℕ} (h : Delimits g ps P)
    (he : ps'.map (cellNat g) = ps.map (cellNat g)) : Delimits g ps' P := by
  have hlen : ps'.length = ps.length := by simpa using congrArg List.length he
  refine ⟨fun k hk => by rw [hlen]; exact h.le k hk, fun k hk i hi => ?_⟩
  have hi' : i < ps.length := by omega
  rw [h.iff k hk i hi']
  have : (ps'.map (cellNat g))[i]'(by simpa using hi) = (ps.map (cellNat g))[i]'(by simpa using hi') := by
    simp only [he]
  simp only [List.getElem_map] at this
  rw [this]

theorem fresh_congr {zmin : ℝ} {a b : GSpecies} (h : Fresh c zmin a) (hP : b.prefixSum = a.prefixSum)
    (h2 : List.Forall₂ (fun p q => Near c zmin p → Near c zmin q ∧ cellOf c zmin q = cellOf c zmin p)
      a.sp.ptcl b.sp.ptcl) : Fresh c zmin b := by
  obtain ⟨hd, hn⟩ := h
  have : b.sp.ptcl.map (cellOf c zmin) = a.sp.ptcl.map (cellOf c zmin) ∧ ∀ q ∈ b.sp.ptcl, Near c zmin q := by
    clear hd hP
    generalize a.sp.ptcl = A at *
    generalize b.sp.ptcl = B at *
    induction h2 with
    | nil => exact ⟨rfl, fun _ h => by cases h⟩
    | cons h _ ih =>
      obtain ⟨i1, i2⟩ := ih fun p hp => hn p (List.mem_cons_of_mem _ hp)
      obtain ⟨j1, j2⟩ := h (hn _ List.mem_cons_self)
      refine ⟨by rw [List.map_cons, List.map_cons, i1, j2], fun q hq => ?_⟩
      rcases List.mem_cons.1 hq with rfl | hq
      · exact j1
      · exact i2 q hq
  refine ⟨?_, this.2⟩
  rw [hP]
  refine delimits_congr hd ?_
  rw [List.map_map, List.map_map]
  exact this.1

theorem gridOk (h1 : 2 ≤ c.Nz) (h2 : 2 ≤ c.Nr) (h3 : 0 < c.invdr) (zmin : ℝ) : GridOk (c.grid zmin) :=
  ⟨h1, h2, h3, rfl⟩

theorem exists_sortedTo (zmin : ℝ) (a : GSpecies) : ∃ b, SortedTo c zmin a b := by
  obtain ⟨keys', idx, h⟩ := exists_argSorted a.sp.ptcl.length (fun i => match a.sp.ptcl[i]? with
    | some p => cellOf c zmin p
    | none => 0)
  refine ⟨_, keys', idx, List.range (c.Nz * (c.Nr + 1)), List.range a.sp.ptcl.length,
    (List.range a.sp.ptcl.length).map (fun i => match a.sp.ptcl[idx i]?, a.sp.ptcl[i]? with
      | some p, some f => { p with F := if a.keepFields then p.F else f.F }
      | _, _ => ⟨⟨0, 0, 0, ⟨0, 0, 0, 0⟩, 0⟩, 0, fun _ => 0⟩), h, fun i hi => List.mem_range.2 hi,
    fun i hi => List.mem_range.2 hi, by simp, ?_, rfl⟩
  intro i p f hp hf
  have hi : i < a.sp.ptcl.length := by
    by_contra hh
    rw [List.getElem?_eq_none (by omega)] at hf
    cases hf
  rw [List.getElem?_map, List.getElem?_range hi, Option.map_some]
  simp only [hp, hf]

/-- What sorting does. -/
theorem sortedTo_spec {zmin : ℝ} (hg : GridOk (c.grid zmin)) {a b : GSpecies} (h : SortedTo c zmin a b)
    (hn : ∀ p ∈ a.sp.ptcl, Near c zmin p) :
    PermRel (a.keepFields = true) a.sp.ptcl b.sp.ptcl ∧ Fresh c zmin b ∧ b.sorted = true ∧
      b.keepFields = a.keepFields ∧ b.sp = { a.sp with ptcl := b.sp.ptcl } := by
  obtain ⟨keys', idx, t1, t2, l, hs, ht1, ht2, hlen, hget, rfl⟩ := h
  have hidx : ∀ i, i < a.sp.ptcl.length → idx i < a.sp.ptcl.length := by
    intro i hi
    have : idx i ∈ List.range a.sp.ptcl.length :=
      hs.perm.subset (List.mem_map.2 ⟨i, List.mem_range.2 hi, rfl⟩)
    exact List.mem_range.1 this
  have hget' : ∀ i (hi : i < a.sp.ptcl.length), l[i]'(by omega)
      = { a.sp.ptcl[idx i]'(hidx i hi) with F := if a.keepFields then (a.sp.ptcl[idx i]'(hidx i hi)).F
          else (a.sp.ptcl[i]).F } := by
    intro i hi
    have := hget i _ _ (List.getElem?_eq_getElem (hidx i hi)) (List.getElem?_eq_getElem hi)
    rw [List.getElem?_eq_getElem (by omega)] at this
    exact Option.some.inj this
  set d : Ptcl := ⟨⟨0, 0, 0, ⟨0, 0, 0, 0⟩, 0⟩, 0, fun _ => 0⟩ with hd
  set L := ((List.range a.sp.ptcl.length).map idx).map fun i => a.sp.ptcl.getD i d with hL
  have hperm : a.sp.ptcl.Perm L := by
    have e2 : a.sp.ptcl = (List.range a.sp.ptcl.length).map fun i => a.sp.ptcl.getD i d := by
      apply List.ext_getElem
      · simp
      · intro i h1 h2; simp [h1]
    conv_lhs => rw [e2]
    exact (hs.perm.map _).symm
  have hF : List.Forall₂ (PtRel (a.keepFields = true)) L l := by
    rw [List.forall₂_iff_get]
    refine ⟨by simp [hL, hlen], fun i h1 h2 => ?_⟩
    have hi : i < a.sp.ptcl.length := by omega
    have eL : L.get ⟨i, h1⟩ = a.sp.ptcl[idx i]'(hidx i hi) := by
      simp only [hL, List.get_eq_getElem, List.getElem_map, List.getElem_range]
      rw [List.getD_eq_getElem?_getD, List.getElem?_eq_getElem (hidx i hi), Option.getD_some]
    rw [eL, List.get_eq_getElem, hget' i hi]
    exact ⟨rfl, rfl, fun h => by simp only [h, if_true]⟩
  have hPR : PermRel (a.keepFields = true) a.sp.ptcl l := permRel_of_perm hperm hF
  have hsorts : Sorts (c.grid zmin) (a.sp.ptcl.map (Ptcl.dep a.sp.ionizable)) (l.map (Ptcl.dep a.sp.ionizable))
      (Sorting.prefixSum keys' a.sp.ptcl.length (c.Nz * (c.Nr + 1)) t1 t2 a.prefixSum) := by
    refine ⟨keys', idx, a.prefixSum, t1, t2, ?_, ht1, by simpa using ht2, by rw [List.length_map]; rfl, by simp [hlen], ?_⟩
    · rw [List.length_map]
      convert hs using 2 with i
      rw [List.getElem?_map]
      cases a.sp.ptcl[i]? <;> rfl
    · intro i hi
      rw [List.length_map] at hi
      rw [List.getElem?_map, List.getElem?_map, List.getElem?_eq_getElem (by omega), hget' i hi,
        List.getElem?_eq_getElem (hidx i hi), Option.map_some, Option.map_some]
      rfl
  have hnear : ∀ p ∈ l, Near c zmin p := by
    intro q hq
    obtain ⟨p, hp, hr⟩ := hPR.mem hq
    have := hn p hp
    unfold Near nearBox at *
    simp only [Ptcl.dep] at *
    rw [hr.push]
    exact this
  refine ⟨hPR, ⟨?_, hnear⟩, rfl, rfl, rfl⟩
  refine (sorts_delimits _ hg _ _ _ ?_ hsorts).2
  intro p hp
  obtain ⟨p0, hp0, rfl⟩ := List.mem_map.1 hp
  exact hn p0 hp0

/-! ### The relation between the two states -/

variable (Sh : Shape → Prop)

/-- Two species; `full`: the fields on the particles correspond too, and `keep_fields_sorted` is set. -/
structure SpMatch (zmin : ℝ) (full : Bool) (a : Species) (b : GSpecies) : Prop where
  q : b.sp.q = a.q
  m : b.sp.m = a.m
  shape : b.sp.shape = a.shape
  tracer : b.sp.isTracer = a.isTracer
  ionizable : b.sp.ionizable = a.ionizable
  plane : b.sp.plane = a.plane
  keep : full = true → b.keepFields = true
  ptcl : PermRel (full = true ∧ a.q ≠ 0) a.ptcl b.sp.ptcl
  fresh : b.sorted = true → Fresh c zmin b
  near : full = true → ∀ p ∈ b.sp.ptcl, Near c zmin p
  sh : Sh a.shape

/-- Two states. -/
structure Match (full : Bool) (s : Sim) (g : GSim) : Prop where
  zmin : g.zmin = s.zmin
  zmax : g.zmax = s.zmax
  time : g.time = s.time
  iteration : g.iteration = s.iteration
  interp : g.interp = s.interp
  spect : g.spect = s.spect
  species : List.Forall₂ (SpMatch c Sh s.zmin full) s.species g.species
  box : c.invdz * (s.zmax - s.zmin) = c.Nz

/-- The positions that are allowed. -/
def okSeen (q : Seen) : Prop := ∀ sh, Sh sh → InReach (c.grid q.zmin) sh q.z

theorem inReach_near {zmin : ℝ} (hz : 2 ≤ c.Nz) {sh : Shape} {p : Ptcl} (h : InReach (c.grid zmin) sh p.push.z) :
    Near c zmin p := by
  obtain ⟨h0, h1⟩ := h
  have hz : (2 : ℝ) ≤ c.Nz := by exact_mod_cast hz
  have hr : sh.reach ≤ 3 / 2 := by cases sh <;> norm_num [Shape.reach]
  have e : ((c.grid zmin).Nz : ℝ) = c.Nz := rfl
  exact ⟨by simp only [Ptcl.dep]; rw [e]; linarith, by simp only [Ptcl.dep]; rw [e]; linarith⟩

/-- All the particles are within reach. -/
def Within (s : Sim) : Prop := ∀ a ∈ s.species, ∀ p ∈ a.ptcl, InReach (c.grid s.zmin) a.shape p.push.z

theorem forall₂_left {α β : Type} {R : α → β → Prop} {A : List α} {B : List β} (h : List.Forall₂ R A B) {a : α}
    (ha : a ∈ A) : ∃ b ∈ B, R a b := by
  induction h with
  | nil => cases ha
  | cons h _ ih =>
    rcases List.mem_cons.1 ha with rfl | ha
    · exact ⟨_, List.mem_cons_self, h⟩
    · obtain ⟨b, hb, h⟩ := ih ha
      exact ⟨b, List.mem_cons_of_mem _ hb, h⟩

theorem within_of_seen {full : Bool} {s : Sim} {g : GSim} (h : Match c Sh full s g)
    (hs : ∀ q ∈ s.record.seen, okSeen c Sh q) : Within c s := by
  intro a ha p hp
  have : (⟨p.push.x, p.push.y, p.push.z, s.zmin⟩ : Seen) ∈ s.record.seen :=
    List.mem_append_right _ (List.mem_flatMap.2 ⟨a, ha, List.mem_map.2 ⟨p, hp, rfl⟩⟩)
  obtain ⟨b, -, hb⟩ := forall₂_left h.species ha
  exact hs _ this _ hb.sh

theorem SpMatch.near_of {zmin : ℝ} {full : Bool} {a : Species} {b : GSpecies} (h : SpMatch c Sh zmin full a b)
    (hz : 2 ≤ c.Nz) (hr : ∀ p ∈ a.ptcl, InReach (c.grid zmin) a.shape p.push.z) :
    ∀ p ∈ b.sp.ptcl, Near c zmin p := by
  intro q hq
  obtain ⟨p, hp, hpq⟩ := h.ptcl.mem hq
  have := hr p hp
  rw [← hpq.push] at this
  exact inReach_near c hz this

/-! ### Runs -/

/-- If the CPU succeeds with particles at allowed positions, the GPU can go on, and whatever it does, the result
is related. -/
def Tracks (R : Sim → GSim → Prop) (x : Except PyErr Sim) (S : GSim → Prop) : Prop :=
  ∀ t, x = .ok t → (∀ p ∈ t.seen, okSeen c Sh p) → (∃ g, S g) ∧ ∀ g, S g → R t g

theorem Tracks.bind {R R' : Sim → GSim → Prop} {x : Except PyErr Sim} {f : Sim → Except PyErr Sim}
    {S : GSim → Prop} {S' : GSim → GSim → Prop} (h : Tracks c Sh R x S) (hg : Grows f)
    (hf : ∀ s g, R s g → Tracks c Sh R' (f s) (S' g)) :
    Tracks c Sh R' (x >>= f) fun g' => ∃ g, S g ∧ S' g g' := by
  intro t ht hs
  obtain ⟨a, ha, hfa⟩ := (except_bind_ok _ _ _).1 ht
  obtain ⟨⟨g, hg1⟩, hR⟩ := h a ha fun p hp => hs p (hg a t hfa hp)
  refine ⟨?_, ?_⟩
  · obtain ⟨⟨g', hg2⟩, -⟩ := hf a g (hR g hg1) t hfa hs
    exact ⟨g', g, hg1, hg2⟩
  · rintro g' ⟨g2, h1, h2⟩
    exact (hf a g2 (hR g2 h1) t hfa hs).2 g' h2

theorem Tracks.pure {R : Sim → GSim → Prop} {s : Sim} {g : GSim} (h : R s g) :
    Tracks c Sh R (Pure.pure s) fun g' => g' = g := by
  intro t ht _
  rw [← Except.ok.inj ht]
  exact ⟨⟨g, rfl⟩, fun _ hg => hg ▸ h⟩

theorem Tracks.congr {R : Sim → GSim → Prop} {x : Except PyErr Sim} {S S' : GSim → Prop} (h : Tracks c Sh R x S)
    (he : ∀ g, S' g ↔ S g) : Tracks c Sh R x S' := by
  have : S' = S := funext fun g => propext (he g)
  rw [this]; exact h

/-! ### Deposition -/

/-- Ready for the deposition. -/
structure SpReady (zmin : ℝ) (a : Species) (b : GSpecies) : Prop extends SpMatch c Sh zmin false a b where
  ready : a.isTracer = false → a.q ≠ 0 → Fresh c zmin b

theorem sortIfNeeded_spec {zmin : ℝ} (hg : GridOk (c.grid zmin)) {a : Species} {b b' : GSpecies}
    (h : SpMatch c Sh zmin false a b) (hr : ∀ p ∈ a.ptcl, InReach (c.grid zmin) a.shape p.push.z)
    (hs : SortIfNeeded c zmin b b') : SpReady c Sh zmin a b' := by
  unfold SortIfNeeded at hs
  by_cases hc : b.sp.isTracer = true ∨ b.sp.q = 0 ∨ b.sorted = true
  · rw [if_pos hc] at hs
    subst hs
    refine ⟨h, fun h1 h2 => h.fresh ?_⟩
    rw [h.tracer, h.q, h1] at hc
    rcases hc with hc | hc | hc
    · cases hc
    · exact absurd hc h2
    · exact hc
  · rw [if_neg hc] at hs
    obtain ⟨h1, h2, h3, h4, h5⟩ := sortedTo_spec c hg hs (h.near_of c Sh hg.hz hr)
    have e : ∀ {α : Type} (f : Species → α), (∀ s l, f { s with ptcl := l } = f s) → f b'.sp = f b.sp := by
      intro α f hf; rw [h5, hf]
    refine ⟨⟨?_, ?_, ?_, ?_, ?_, ?_, (fun x => by cases x), ?_, fun _ => h2, (fun x => by cases x), h.sh⟩, fun _ _ => h2⟩
    · rw [← h.q]; exact e (·.q) fun _ _ => rfl
    · rw [← h.m]; exact e (·.m) fun _ _ => rfl
    · rw [← h.shape]; exact e (·.shape) fun _ _ => rfl
    · rw [← h.tracer]; exact e (·.isTracer) fun _ _ => rfl
    · rw [← h.ionizable]; exact e (·.ionizable) fun _ _ => rfl
    · rw [← h.plane]; exact e (·.plane) fun _ _ => rfl
    · exact (h.ptcl.trans h1).mono fun x => by cases x.1

theorem exists_sortIfNeeded (zmin : ℝ) (b : GSpecies) : ∃ b', SortIfNeeded c zmin b b' := by
  unfold SortIfNeeded
  by_cases hc : b.sp.isTracer = true ∨ b.sp.q = 0 ∨ b.sorted = true
  · exact ⟨b, by rw [if_pos hc]⟩
  · obtain ⟨b', h⟩ := exists_sortedTo c zmin b
    exact ⟨b', by rw [if_neg hc]; exact h⟩

theorem exists_forall₂ {α β : Type} {R : α → β → Prop} (h : ∀ a, ∃ b, R a b) (A : List α) :
    ∃ B, List.Forall₂ R A B := by
  induction A with
  | nil => exact ⟨[], .nil⟩
  | cons a A ih =>
    obtain ⟨b, hb⟩ := h a
    obtain ⟨B, hB⟩ := ih
    exact ⟨b :: B, .cons hb hB⟩

theorem forall₂_ready {zmin : ℝ} (hg : GridOk (c.grid zmin)) {A : List Species} {B B' : List GSpecies}
    (h : List.Forall₂ (SpMatch c Sh zmin false) A B)
    (hr : ∀ a ∈ A, ∀ p ∈ a.ptcl, InReach (c.grid zmin) a.shape p.push.z)
    (hs : List.Forall₂ (SortIfNeeded c zmin) B B') : List.Forall₂ (SpReady c Sh zmin) A B' := by
  induction h generalizing B' with
  | nil => cases hs; exact .nil
  | cons h _ ih =>
    cases hs with
    | cons h1 h2 =>
      exact .cons (sortIfNeeded_spec c Sh hg h (hr _ List.mem_cons_self) h1)
        (ih (fun a ha => hr a (List.mem_cons_of_mem _ ha)) h2)

/-- What is asked of the configuration. -/
structure GridCfg : Prop where
  Nz : 2 ≤ c.Nz
  Nr : 2 ≤ c.Nr
  invdr : 0 < c.invdr
  threads : 0 < c.nthreads
  beta : ∀ sh k, (c.beta sh k).length = c.Nr + 1
  mode : ∀ sh k, c.beta sh k = c.beta sh (min k 1)

variable {c} {Sh}

theorem GridCfg.ok (hc : GridCfg c) (zmin : ℝ) : GridOk (c.grid zmin) := gridOk c hc.Nz hc.Nr hc.invdr zmin

/-- The arrays deposited by a species. -/
theorem species_buf (hc : GridCfg c) (f : DepField) (m : ℕ) {zmin : ℝ} {a : Species} {b : GSpecies}
    (h : SpReady c Sh zmin a b) (hr : ∀ p ∈ a.ptcl, InReach (c.grid zmin) a.shape p.push.z) :
    reduceBuf c.Nz c.Nr (speciesBuf f c.k.c (c.grid zmin) c.beta m a.dep)
      = gpuSpeciesBuf f c.k.c (c.grid zmin) c.beta m b.dep := by
  have hg := hc.ok zmin
  unfold speciesBuf gpuSpeciesBuf
  have eq : b.dep.q = a.dep.q := h.q
  have es : b.dep.shape = a.dep.shape := h.shape
  rw [eq, es]
  by_cases hq : a.dep.q = 0
  · rw [if_pos hq, if_pos hq]; exact GpuDeposit.reduceBuf_zero _ _
  · rw [if_neg hq, if_neg hq, GpuDeposit.reduceBuf_list_sum, List.map_map, ← hc.mode]
    have e1 : a.dep.ptcls.map (reduceBuf c.Nz c.Nr ∘ ptclBuf a.dep.shape f c.k.c a.dep.q (c.grid zmin)
        (c.beta a.dep.shape m) m) = a.dep.ptcls.map (gpuBuf a.dep.shape f c.k.c a.dep.q (c.grid zmin)
        (c.beta a.dep.shape m) m) := by
      apply List.map_congr_left
      intro p hp
      obtain ⟨p0, hp0, rfl⟩ := List.mem_map.1 hp
      obtain ⟨h0, h1⟩ := (reach_iff a.shape (c.grid zmin) p0.push.z).1 (hr p0 hp0)
      exact reduce_ptclBuf a.shape f c.k.c a.q (c.grid zmin) hg _ m (p0.dep a.ionizable) h0 h1
    rw [e1]
    have e2 : b.dep.ptcls.Perm a.dep.ptcls := by
      obtain ⟨L, h1, h2⟩ := h.ptcl
      have : L.map (Ptcl.dep a.ionizable) = a.ptcl.map (Ptcl.dep a.ionizable) := by
        clear h2
        clear hr e1
        generalize a.ptcl = A at h1 ⊢
        induction h1 with
        | nil => rfl
        | cons h _ ih =>
          rw [List.map_cons, List.map_cons, ih]
          congr 1
          unfold Ptcl.dep
          rw [h.push, h.w]
      show (b.sp.ptcl.map (Ptcl.dep b.sp.ionizable)).Perm (a.ptcl.map (Ptcl.dep a.ionizable))
      rw [h.ionizable, ← this]
      exact (h2.map _).symm
    exact ((e2.map _).sum_eq).symm

/-- A deposition on the GPU gives the array of the CPU. -/
theorem deposited_iff (hc : GridCfg c) (f : DepField) {s : Sim} {sps : List GSpecies}
    (h : List.Forall₂ (SpReady c Sh s.zmin) s.species sps) (hr : Within c s) (A : ℕ → Buf) :
    Deposited c f s.zmin sps A ↔ A = c.depArr f s := by
  have hg := hc.ok s.zmin
  have hready : ∀ b ∈ (sps.filter fun a => !a.sp.isTracer).map GSpecies.dep, b.q ≠ 0 →
      Delimits (c.grid s.zmin) b.ptcls b.prefixSum ∧ ∀ p ∈ b.ptcls, nearBox (c.grid s.zmin) p := by
    intro b hb hq
    obtain ⟨b0, hb0, rfl⟩ := List.mem_map.1 hb
    obtain ⟨hb1, hb2⟩ := List.mem_filter.1 hb0
    obtain ⟨a, -, hab⟩ := forall₂_left h.flip hb1
    have ht : a.isTracer = false := by
      rw [← hab.tracer]; simpa using hb2
    obtain ⟨hd, hn⟩ := hab.ready ht (by rw [← hab.q]; exact hq)
    refine ⟨hd, fun p hp => ?_⟩
    obtain ⟨p0, hp0, rfl⟩ := List.mem_map.1 hp
    exact hn p0 hp0
  have hsum : ∀ m, reduceBuf c.Nz c.Nr ((s.depositing.map (speciesBuf f c.k.c (c.grid s.zmin) c.beta m)).sum)
      = (((sps.filter fun a => !a.sp.isTracer).map GSpecies.dep).map
          (gpuSpeciesBuf f c.k.c (c.grid s.zmin) c.beta m)).sum := by
    intro m
    unfold Sim.depositing
    unfold Within at hr
    clear hready
    rw [GpuDeposit.reduceBuf_list_sum]
    generalize s.species = S at h hr
    generalize s.zmin = z at h hr
    induction h with
    | nil => rfl
    | @cons a b A B h _ ih =>
      have ih := ih fun x hx => hr x (List.mem_cons_of_mem _ hx)
      simp only [List.filter_cons, h.tracer]
      by_cases ht : a.isTracer = true
      · simp only [ht, Bool.not_true, Bool.false_eq_true, if_false]
        exact ih
      · have ht : a.isTracer = false := by simpa using ht
        simp only [ht, Bool.not_false, if_true, List.map_cons, List.sum_cons]
        rw [ih, species_buf hc f m h (hr a List.mem_cons_self)]
  unfold Deposited
  have key : ∀ m, m < c.Nm → ∀ B, GpuDeposited f c.k.c (c.grid s.zmin) c.beta c.Nm m
      ((sps.filter fun a => !a.sp.isTracer).map GSpecies.dep) [] B ↔
      B = reduceBuf c.Nz c.Nr ((s.depositing.map (speciesBuf f c.k.c (c.grid s.zmin) c.beta m)).sum) := by
    intro m hm B
    rw [gpuDeposited_iff f c.k.c (c.grid s.zmin) c.beta c.Nm m hg hc.beta (Or.inl hm) _ hready []
      (fun a ha => by cases ha), hsum]
    simp
  constructor
  · intro hA
    funext m
    have := hA m
    unfold Cfg.depArr
    by_cases hm : m < c.Nm
    · rw [if_pos hm] at this ⊢
      obtain ⟨B, h1, h2⟩ := this
      rw [h2, (key m hm B).1 h1]
    · rw [if_neg hm] at this ⊢
      exact this
  · rintro rfl m
    unfold Cfg.depArr
    by_cases hm : m < c.Nm
    · rw [if_pos hm, if_pos hm]
      exact ⟨_, (key m hm _).2 rfl, rfl⟩
    · rw [if_neg hm, if_neg hm]

section
variable [NeZero c.Nz]

theorem SpReady.match {zmin : ℝ} {A : List Species} {B : List GSpecies} (h : List.Forall₂ (SpReady c Sh zmin) A B) :
    List.Forall₂ (SpMatch c Sh zmin false) A B := h.imp fun _ _ h => h.toSpMatch

theorem tracks_rho (hc : GridCfg c) (n : RhoName) {s : Sim} {g : GSim} (h : Match c Sh false s g) :
    Tracks c Sh (Match c Sh false) (c.depositRho n s) (DepositRho c n g) := by
  intro t ht hs
  obtain ⟨-, rfl⟩ := (depositRho_ok c hc.threads n s t).1 ht
  have hr : Within c s := within_of_seen c Sh h hs
  constructor
  · obtain ⟨sps, h1⟩ := exists_forall₂ (exists_sortIfNeeded c g.zmin) g.species
    obtain ⟨d, hd⟩ := exists_launch c
    have h2 := forall₂_ready c Sh (hc.ok s.zmin) h.species hr (h.zmin ▸ h1)
    exact ⟨_, sps, c.depArr .rho s, d, h1, by rw [h.zmin]; exact (deposited_iff hc .rho h2 hr _).2 rfl, hd, rfl⟩
  · rintro g' ⟨sps, A, d, h1, h2, h3, rfl⟩
    have h4 := forall₂_ready c Sh (hc.ok s.zmin) h.species hr (h.zmin ▸ h1)
    rw [h.zmin, deposited_iff hc .rho h4 hr] at h2
    subst h2
    refine ⟨h.zmin, h.zmax, h.time, h.iteration, ?_, ?_, SpReady.match h4, h.box⟩
    · simp only [Cfg.withRho, h.interp]
    · simp only [Cfg.withRho, spectRho_gpu c (h3 _), h.interp, h.spect]

theorem tracks_J (hc : GridCfg c) {s : Sim} {g : GSim} (h : Match c Sh false s g) :
    Tracks c Sh (Match c Sh false) (c.depositJ s) (DepositJ c g) := by
  intro t ht hs
  obtain ⟨-, rfl⟩ := (depositJ_ok c hc.threads s t).1 ht
  have hr : Within c s := within_of_seen c Sh h hs
  constructor
  · obtain ⟨sps, h1⟩ := exists_forall₂ (exists_sortIfNeeded c g.zmin) g.species
    obtain ⟨d, hd⟩ := exists_launch c
    have h2 := forall₂_ready c Sh (hc.ok s.zmin) h.species hr (h.zmin ▸ h1)
    have hD := fun f => (deposited_iff hc f h2 hr _).2 rfl
    rw [← h.zmin] at hD
    exact ⟨_, sps, _, _, _, d, h1, hD .Jr, hD .Jt, hD .Jz, hd, rfl⟩
  · rintro g' ⟨sps, A, B, C, d, h1, h2, h2', h2'', h3, rfl⟩
    have h4 := forall₂_ready c Sh (hc.ok s.zmin) h.species hr (h.zmin ▸ h1)
    rw [h.zmin, deposited_iff hc _ h4 hr] at h2 h2' h2''
    subst h2 h2' h2''
    refine ⟨h.zmin, h.zmax, h.time, h.iteration, ?_, ?_, SpReady.match h4, h.box⟩
    · simp only [Cfg.withJ, h.interp]
    · simp only [Cfg.withJ, spectJ_gpu c (h3 _), h.interp, h.spect]

end

/-! ### Particles -/

theorem gmapPtclM_ok (f : Species → Ptcl → Except PyErr Ptcl) (g g' : GSim) :
    g.mapPtclM f = .ok g' ↔ ∃ sps, List.Forall₂ (fun a b : GSpecies => ∃ l,
      List.Forall₂ (fun p p' => f a.sp p = .ok p') a.sp.ptcl l ∧ b = { a with sp := { a.sp with ptcl := l } })
      g.species sps ∧ g' = { g with species := sps } := by
  unfold GSim.mapPtclM
  simp only [except_bind_ok, pure, Except.pure, Except.ok.injEq, mapM_ok]
  constructor
  · rintro ⟨sps, h, rfl⟩
    exact ⟨sps, h.imp fun a b ⟨l, h1, h2⟩ => ⟨l, h1, h2.symm⟩, rfl⟩
  · rintro ⟨sps, h, rfl⟩
    exact ⟨sps, h.imp fun a b ⟨l, h1, h2⟩ => ⟨l, h1, h2.symm⟩, rfl⟩

/-- A kernel on the particles. -/
theorem match_mapPtclM {full full' : Bool} {f f' : Species → Ptcl → Except PyErr Ptcl} {s t : Sim} {g : GSim}
    (h : Match c Sh full s g) (ht : s.mapPtclM f = .ok t)
    (hf : ∀ a b, SpMatch c Sh s.zmin full a b → ∀ p q p', PtRel (full = true ∧ a.q ≠ 0) p q → f a p = .ok p' →
      ∃ q', f' b.sp q = .ok q' ∧ PtRel (full' = true ∧ a.q ≠ 0) p' q')
    (hcell : ∀ b q q', f' b q = .ok q' → Near c s.zmin q → Near c s.zmin q' ∧ cellOf c s.zmin q' = cellOf c s.zmin q)
    (hfull : full' = true → ∀ b ∈ g.species, b.keepFields = true ∧ ∀ p ∈ b.sp.ptcl, Near c s.zmin p) :
    ∃ g', g.mapPtclM f' = .ok g' ∧ Match c Sh full' t g' := by
  obtain ⟨sps, h1, rfl⟩ := (mapPtclM_ok _ _ _).1 ht
  have key : ∃ gsps, List.Forall₂ (fun a b : GSpecies => ∃ l,
      List.Forall₂ (fun p p' => f' a.sp p = .ok p') a.sp.ptcl l ∧ b = { a with sp := { a.sp with ptcl := l } })
      g.species gsps ∧ List.Forall₂ (SpMatch c Sh s.zmin full') sps gsps := by
    have hsp := h.species
    clear ht h
    generalize s.species = A at *
    generalize g.species = B at *
    induction hsp generalizing sps with
    | nil => cases h1; exact ⟨[], .nil, .nil⟩
    | @cons a b A B h _ ih =>
      cases h1 with
      | @cons _ a' _ _ h2 h3 =>
        obtain ⟨gsps, i1, i2⟩ := ih _ h3 (fun hh b hb => hfull hh b (List.mem_cons_of_mem _ hb))
        obtain ⟨l, j1, j2⟩ := h.ptcl.mapM (Q := full' = true ∧ a.q ≠ 0)
          (fun p q p' _ hr hp => hf a b h p q p' hr hp) h2.ptcl
        refine ⟨{ b with sp := { b.sp with ptcl := l } } :: gsps, .cons ⟨l, j1, rfl⟩ i1, .cons ?_ i2⟩
        have jc : List.Forall₂ (fun p q => Near c s.zmin p → Near c s.zmin q ∧
            cellOf c s.zmin q = cellOf c s.zmin p) b.sp.ptcl l := j1.imp fun p q => hcell _ p q
        refine ⟨h.q.trans h2.q.symm, h.m.trans h2.m.symm, h.shape.trans h2.shape.symm,
          h.tracer.trans h2.tracer.symm, h.ionizable.trans h2.ionizable.symm, h.plane.trans h2.plane.symm,
          fun hh => (hfull hh b List.mem_cons_self).1, ?_, ?_, ?_, ?_⟩
        · rw [h2.q]; exact j2
        · intro hs
          exact fresh_congr c (h.fresh hs) rfl jc
        · intro hh q hq
          have hn := (hfull hh b List.mem_cons_self).2
          obtain ⟨p, hp, hpq⟩ := forall₂_left jc.flip hq
          exact (hpq (hn p hp)).1
        · rw [h2.shape]; exact h.sh
  obtain ⟨gsps, k1, k2⟩ := key
  exact ⟨{ g with species := gsps }, (gmapPtclM_ok _ _ _).2 ⟨gsps, k1, rfl⟩, h.zmin, h.zmax, h.time, h.iteration,
    h.interp, h.spect, k2, h.box⟩

/-- A shift by a whole number of box lengths does not change the cell. -/
theorem cell_shift {zmin zmax : ℝ} (hz : 2 ≤ c.Nz) (hbox : c.invdz * (zmax - zmin) = c.Nz) (hpos : 0 < c.invdz)
    {p : Ptcl} {z : ℝ} (hw : Spec.Wrapped zmin zmax p.push.z z) (hn : Near c zmin p) :
    Near c zmin { p with push := { p.push with z := z } } ∧
      cellOf c zmin { p with push := { p.push with z := z } } = cellOf c zmin p := by
  have hz2 : (2 : ℝ) ≤ c.Nz := by exact_mod_cast hz
  set p' : Ptcl := { p with push := { p.push with z := z } } with hp'
  have hn' : Near c zmin p' := by
    have h1 : 0 ≤ c.invdz * (z - zmin) := mul_nonneg hpos.le (by linarith [hw.lower])
    have h2 : c.invdz * (z - zmin) ≤ c.Nz := by
      rw [← hbox]; exact mul_le_mul_of_nonneg_left (by linarith [hw.upper]) hpos.le
    refine ⟨?_, ?_⟩
    · show -(c.Nz : ℝ) - 1 / 2 < c.invdz * (z - zmin); linarith
    · show c.invdz * (z - zmin) ≤ 2 * c.Nz - 1 / 2; linarith
  refine ⟨hn', ?_⟩
  have r1 := izW_range _ _ hn
  have r2 := izW_range _ _ hn'
  obtain ⟨k, hk⟩ := hw.periods
  have hceil : ⌈(c.grid zmin).zCell z⌉ = ⌈(c.grid zmin).zCell p.push.z⌉ + k * c.Nz := by
    have : (c.grid zmin).zCell z = (c.grid zmin).zCell p.push.z + ((k * c.Nz : ℤ) : ℝ) := by
      unfold CylGrid.zCell
      show c.invdz * (z - zmin) - 1 / 2 = c.invdz * (p.push.z - zmin) - 1 / 2 + _
      push_cast
      rw [hk, ← hbox]; ring
    rw [this, Int.ceil_add_intCast]
  have e : izW (c.grid zmin) (p'.dep false) = izW (c.grid zmin) (p.dep false) := by
    have m1 : ∀ x : Ptcl, (izW (c.grid zmin) (x.dep false)) % (c.Nz : ℤ)
        = ⌈(c.grid zmin).zCell x.push.z⌉ % (c.Nz : ℤ) := by
      intro x
      rcases izW_cases (c.grid zmin) (x.dep false) with ⟨-, h⟩ | ⟨-, -, h⟩ | ⟨-, -, h⟩ <;> rw [h]
      · exact Int.add_emod_right _ _
      · exact Int.sub_emod_right _ _
      · rfl
    have m2 := m1 p'
    have m3 := m1 p
    rw [show p'.push.z = z from rfl, hceil, Int.add_mul_emod_self_right, ← m3] at m2
    have r1' : izW (c.grid zmin) (p.dep false) < (c.Nz : ℤ) := r1.2
    have r2' : izW (c.grid zmin) (p'.dep false) < (c.Nz : ℤ) := r2.2
    rwa [Int.emod_eq_of_lt r2.1 r2', Int.emod_eq_of_lt r1.1 r1'] at m2
  show (Sorting.cellIdx _ _ _ _ _ _ _ _).toNat = (Sorting.cellIdx _ _ _ _ _ _ _ _).toNat
  have e1 := cellIdx_eq (c.grid zmin) (p'.dep false)
  have e2 := cellIdx_eq (c.grid zmin) (p.dep false)
  rw [e] at e1
  have e3 : betaIdx (c.grid zmin) (p'.dep false) = betaIdx (c.grid zmin) (p.dep false) := rfl
  rw [e3, ← e2] at e1
  exact congrArg Int.toNat e1

theorem tracks_wrap (hc : GridCfg c) (hpos : 0 < c.invdz) {s : Sim} {g : GSim} (h : Match c Sh false s g) :
    Tracks c Sh (Match c Sh false) (c.wrapAll s) (fun g' => wrapAll c g = .ok g') := by
  intro t ht _
  obtain ⟨g', h1, h2⟩ := match_mapPtclM (full' := false) (f' := fun _ p => c.wrap g.zmin g.zmax p) h ht
    (by
      intro a b _ p q p' hr hp
      rw [h.zmin, h.zmax]
      unfold Cfg.wrap at hp ⊢
      rw [hr.push]
      cases hz : wrapZ s.zmin s.zmax c.fuel p.push.z with
      | none => rw [hz] at hp; cases hp
      | some z =>
        rw [hz] at hp
        rw [← Except.ok.inj hp]
        exact ⟨_, rfl, by simp only [hr.push], hr.w, fun x => by cases x.1⟩)
    (by
      intro b q q' hq hn
      rw [h.zmin, h.zmax] at hq
      obtain ⟨z, hw, rfl⟩ := wrap_spec c hq
      exact cell_shift hc.Nz h.box hpos hw hn)
    (fun x => by cases x)
  refine ⟨⟨g', h1⟩, fun g2 hg2 => ?_⟩
  have : wrapAll c g = .ok g' := h1
  rw [this] at hg2
  rw [← Except.ok.inj hg2]
  exact h2

theorem near_push {zmin : ℝ} {p q : Ptcl} (h : q.push = p.push) (hn : Near c zmin p) : Near c zmin q := by
  unfold Near nearBox Ptcl.dep at *
  simp only [h] at *
  exact hn

theorem match_keep {s : Sim} {g : GSim} (b : Bool) (h : Match c Sh false s g) : Match c Sh false s (g.keep b) := by
  refine ⟨h.zmin, h.zmax, h.time, h.iteration, h.interp, h.spect, ?_, h.box⟩
  show List.Forall₂ _ s.species (g.species.map _)
  rw [List.forall₂_map_right_iff]
  exact h.species.imp fun a b h => ⟨h.q, h.m, h.shape, h.tracer, h.ionizable, h.plane, (fun x => by cases x), h.ptcl,
    h.fresh, (fun x => by cases x), h.sh⟩

theorem match_weaken {full : Bool} {s : Sim} {g : GSim} (h : Match c Sh full s g) : Match c Sh false s g :=
  ⟨h.zmin, h.zmax, h.time, h.iteration, h.interp, h.spect, h.species.imp fun a b h => ⟨h.q, h.m, h.shape, h.tracer,
    h.ionizable, h.plane, (fun x => by cases x), h.ptcl.mono (fun x => (by cases x.1)), h.fresh, (fun x => by cases x),
    h.sh⟩, h.box⟩

/-- `record` is not read. -/
theorem match_record {full : Bool} {s : Sim} {g : GSim} (h : Match c Sh full s g) : Match c Sh full s.record g :=
  ⟨h.zmin, h.zmax, h.time, h.iteration, h.interp, h.spect, h.species, h.box⟩

theorem gatherPtcl_F (s : Sim) (sp : Species) {p p' : Ptcl} (h : c.gatherPtcl s sp p = .ok p') :
    p'.push = p.push ∧ p'.w = p.w := by
  unfold Cfg.gatherPtcl at h
  by_cases hq : sp.q = 0
  · rw [if_pos hq] at h
    rw [← Except.ok.inj h]; exact ⟨rfl, rfl⟩
  · rw [if_neg hq] at h
    obtain ⟨E, -, h⟩ := (except_bind_ok _ _ _).1 h
    obtain ⟨B, -, h⟩ := (except_bind_ok _ _ _).1 h
    rw [← Except.ok.inj h]; exact ⟨rfl, rfl⟩

theorem tracks_gather (hc : GridCfg c) {s : Sim} {g : GSim} (h : Match c Sh false s g) :
    Tracks c Sh (Match c Sh true) (c.gatherAll s) (fun g' => gatherAll c (g.keep true) = .ok g') := by
  intro t ht hs
  have hseen : ∀ q ∈ s.record.seen, okSeen c Sh q := by
    obtain ⟨sps, -, rfl⟩ := (mapPtclM_ok _ _ _).1 ht
    exact hs
  have hr := within_of_seen c Sh h hseen
  have hk := match_keep true h
  obtain ⟨g', h1, h2⟩ := match_mapPtclM (full' := true) (f' := c.gatherPtcl (g.keep true).sim) (match_record hk) ht
    (by
      intro a b hab p q p' hr hp
      have e : c.gatherPtcl (g.keep true).sim b.sp = c.gatherPtcl s a := by
        funext x
        unfold Cfg.gatherPtcl
        have e1 : (g.keep true).sim.zmin = s.zmin := h.zmin
        have e2 : (g.keep true).sim.interp = s.interp := h.interp
        rw [e1, e2, hab.q, hab.shape]
      rw [e]
      by_cases hq : a.q = 0
      · unfold Cfg.gatherPtcl at hp ⊢
        rw [if_pos hq] at hp ⊢
        rw [← Except.ok.inj hp]
        exact ⟨q, rfl, hr.push, hr.w, fun x => absurd hq x.2⟩
      · unfold Cfg.gatherPtcl at hp ⊢
        rw [if_neg hq] at hp ⊢
        obtain ⟨E, hE, hp⟩ := (except_bind_ok _ _ _).1 hp
        obtain ⟨B, hB, hp⟩ := (except_bind_ok _ _ _).1 hp
        rw [← Except.ok.inj hp]
        rw [hr.push]
        exact ⟨_, (except_bind_ok _ _ _).2 ⟨E, hE, (except_bind_ok _ _ _).2 ⟨B, hB, rfl⟩⟩, rfl, hr.w, fun _ => rfl⟩)
    (by
      intro b q q' hq hn
      obtain ⟨e, -⟩ := gatherPtcl_F _ _ hq
      refine ⟨near_push e hn, ?_⟩
      unfold cellOf; rw [e])
    (by
      intro _ b hb
      refine ⟨?_, ?_⟩
      · obtain ⟨b0, -, rfl⟩ := List.mem_map.1 hb; rfl
      · obtain ⟨a, ha, hab⟩ := forall₂_left hk.species.flip hb
        exact hab.near_of c Sh hc.Nz (hr a ha))
  refine ⟨⟨g', h1⟩, fun g2 hg2 => ?_⟩
  have : gatherAll c (g.keep true) = .ok g' := h1
  rw [this] at hg2
  rw [← Except.ok.inj hg2]
  exact h2

theorem applyExt_w (e : Ext) (t : ℝ) (id : ℕ) (p : Ptcl) : (applyExt e t id p).w = p.w := by
  unfold applyExt; split_ifs <;> rfl

theorem applyExts_w (L : List Ext) (t : ℝ) (id : ℕ) : ∀ p : Ptcl,
    (L.foldl (fun p e => applyExt e t id p) p).w = p.w := by
  induction L with
  | nil => intro p; rfl
  | cons e L ih => intro p; rw [List.foldl_cons, ih, applyExt_w]

theorem forall₂_mapIdx {α β α' β' : Type} {R : α → β → Prop} {R' : α' → β' → Prop} {f : ℕ → α → α'} {f' : ℕ → β → β'}
    {A : List α} {B : List β} (h : List.Forall₂ R A B) (hf : ∀ i a b, R a b → R' (f i a) (f' i b)) :
    List.Forall₂ R' (A.mapIdx f) (B.mapIdx f') := by
  induction h generalizing f f' with
  | nil => exact .nil
  | cons h _ ih =>
    rw [List.mapIdx_cons, List.mapIdx_cons]
    exact .cons (hf _ _ _ h) (ih fun i a b hab => hf (i + 1) a b hab)

/-- A map on the particles that keeps the positions. -/
theorem spMatch_map {zmin : ℝ} {full : Bool} {a : Species} {b : GSpecies} (h : SpMatch c Sh zmin full a b)
    (E : Ptcl → Ptcl) (h1 : ∀ p, (E p).push = p.push) (h2 : ∀ p, (E p).w = p.w) :
    SpMatch c Sh zmin full { a with ptcl := a.ptcl.map E }
      { b with sp := { b.sp with ptcl := b.sp.ptcl.map E } } := by
  refine ⟨h.q, h.m, h.shape, h.tracer, h.ionizable, h.plane, h.keep, ?_, ?_, ?_, h.sh⟩
  · obtain ⟨L, e1, e2⟩ := h.ptcl
    refine ⟨L.map E, ?_, e2.map E⟩
    rw [List.forall₂_map_left_iff, List.forall₂_map_right_iff]
    refine e1.imp fun p q r => ⟨by rw [h1, h1, r.push], by rw [h2, h2, r.w], fun x => by rw [r.eq x]⟩
  · intro hs
    refine fresh_congr c (h.fresh hs) rfl ?_
    show List.Forall₂ _ b.sp.ptcl (b.sp.ptcl.map E)
    rw [List.forall₂_map_right_iff]
    refine List.forall₂_same.2 fun p _ hn => ⟨near_push (h1 p) hn, ?_⟩
    unfold cellOf; rw [h1]
  · intro hf q hq
    obtain ⟨p, hp, rfl⟩ := List.mem_map.1 hq
    exact near_push (h1 p) (h.near hf p hp)

theorem match_exts {full : Bool} {s : Sim} {g : GSim} (h : Match c Sh full s g) :
    Match c Sh full (c.applyExts s) (applyExts c g) := by
  refine ⟨h.zmin, h.zmax, h.time, h.iteration, h.interp, h.spect, ?_, h.box⟩
  show List.Forall₂ _ (s.species.mapIdx _) (g.species.mapIdx _)
  refine forall₂_mapIdx h.species fun i a b hab => ?_
  rw [h.time]
  exact spMatch_map hab _ (applyExts_push _ _ _) (applyExts_w _ _ _)

theorem match_diags (hc : GridCfg c) {s : Sim} {g g' : GSim} (h : Match c Sh true s g) (hd : Diags c g g') :
    Match c Sh true s g' := by
  obtain ⟨sps, h1, rfl⟩ := hd
  refine ⟨h.zmin, h.zmax, h.time, h.iteration, h.interp, h.spect, ?_, h.box⟩
  have hsp := h.species
  have hz := h.zmin
  show List.Forall₂ _ s.species sps
  rw [hz] at h1
  clear h hz
  generalize s.species = A at *
  generalize g.species = B at *
  induction hsp generalizing sps with
  | nil => cases h1; exact .nil
  | @cons a b A B h _ ih =>
    cases h1 with
    | @cons _ b' _ _ h2 h3 =>
      refine .cons ?_ (ih _ h3)
      rcases h2 with rfl | ⟨-, h2⟩
      · exact h
      · obtain ⟨k1, k2, k3, k4, k5⟩ := sortedTo_spec c (hc.ok _) h2 (h.near rfl)
        have e : ∀ {α : Type} (f : Species → α), (∀ s l, f { s with ptcl := l } = f s) → f b'.sp = f b.sp := by
          intro α f hf; rw [k5, hf]
        refine ⟨?_, ?_, ?_, ?_, ?_, ?_, ?_, ?_, fun _ => k2, fun _ => k2.2, h.sh⟩
        · rw [← h.q]; exact e (·.q) fun _ _ => rfl
        · rw [← h.m]; exact e (·.m) fun _ _ => rfl
        · rw [← h.shape]; exact e (·.shape) fun _ _ => rfl
        · rw [← h.tracer]; exact e (·.isTracer) fun _ _ => rfl
        · rw [← h.ionizable]; exact e (·.ionizable) fun _ _ => rfl
        · rw [← h.plane]; exact e (·.plane) fun _ _ => rfl
        · intro _; rw [k4]; exact h.keep rfl
        · exact (h.ptcl.trans k1).mono fun x => ⟨x, h.keep rfl⟩

theorem exists_diags (g : GSim) : ∃ g', Diags c g g' :=
  ⟨g, g.species, List.forall₂_same.2 fun _ _ => Or.inl rfl, rfl⟩

theorem pushP_pos (t : ℝ) (sp : Species) {p p' : Ptcl} (h : c.pushP t sp p = .ok p') :
    p'.push.x = p.push.x ∧ p'.push.y = p.push.y ∧ p'.push.z = p.push.z ∧ p'.w = p.w := by
  unfold Cfg.pushP at h
  by_cases hq : sp.q = 0
  · rw [if_pos hq] at h
    rw [← Except.ok.inj h]; exact ⟨rfl, rfl, rfl, rfl⟩
  rw [if_neg hq] at h
  cases hpl : sp.plane with
  | some b =>
    rw [hpl] at h
    simp only at h
    by_cases hi : sp.ionizable = true
    · rw [if_pos hi] at h; cases h
    · rw [if_neg hi] at h
      rw [← Except.ok.inj h]
      unfold pushPAfterPlane
      split_ifs <;> exact ⟨rfl, rfl, rfl, rfl⟩
  | none =>
    rw [hpl] at h
    simp only at h
    by_cases hi : sp.ionizable = true
    · rw [if_pos hi] at h
      rw [← Except.ok.inj h]
      unfold pushPIoniz
      split_ifs <;> exact ⟨rfl, rfl, rfl, rfl⟩
    · rw [if_neg hi] at h
      rw [← Except.ok.inj h]
      exact ⟨rfl, rfl, rfl, rfl⟩

theorem tracks_pushP {s : Sim} {g : GSim} (h : Match c Sh true s g) :
    Tracks c Sh (Match c Sh true) (c.pushPAll s) (fun g' => pushPAll c g = .ok g') := by
  intro t ht _
  obtain ⟨g', h1, h2⟩ := match_mapPtclM (full' := true) (f' := c.pushP (g.time + 0.5 * c.dt)) h ht
    (by
      intro a b hab p q p' hr hp
      have e : c.pushP (g.time + 0.5 * c.dt) b.sp = c.pushP (s.time + 0.5 * c.dt) a := by
        funext x
        unfold Cfg.pushP
        rw [h.time, hab.q, hab.m, hab.plane, hab.ionizable]
      rw [e]
      by_cases hq : a.q = 0
      · unfold Cfg.pushP at hp ⊢
        rw [if_pos hq] at hp ⊢
        rw [← Except.ok.inj hp]
        exact ⟨q, rfl, hr⟩
      · rw [hr.eq ⟨rfl, hq⟩]
        exact ⟨p', hp, PtRel.refl _ _⟩)
    (by
      intro b q q' hq hn
      obtain ⟨ex, ey, ez, -⟩ := pushP_pos _ _ hq
      constructor
      · unfold Near nearBox Ptcl.dep at *
        simp only [ez] at *
        exact hn
      · unfold cellOf; rw [ex, ey, ez])
    (fun _ b hb => by
      obtain ⟨a, -, hab⟩ := forall₂_left h.species.flip hb
      exact ⟨hab.keep rfl, hab.near rfl⟩)
  refine ⟨⟨g', h1⟩, fun g2 hg2 => ?_⟩
  have : pushPAll c g = .ok g' := h1
  rw [this] at hg2
  rw [← Except.ok.inj hg2]
  exact h2

/-- The moves of particles and grid. -/
theorem match_move {s : Sim} {g : GSim} (h : Match c Sh false s g) (move : Bool)
    (hm : c.galilean = true → move = true) (dt px py pz dtg : ℝ) :
    Match c Sh false (c.movePush move dt px py pz dtg s) (movePush c move dt px py pz dtg g) := by
  have hpush : move = true → Match c Sh false (c.pushX dt px py pz s) (pushX c dt px py pz g) ∧
      ∀ b ∈ (pushX c dt px py pz g).species, b.sorted = false := by
    intro _
    refine ⟨⟨h.zmin, h.zmax, h.time, h.iteration, h.interp, h.spect, ?_, h.box⟩, ?_⟩
    · show List.Forall₂ _ (s.species.map _) (g.species.map _)
      rw [List.forall₂_map_left_iff, List.forall₂_map_right_iff]
      refine h.species.imp fun a b hab => ⟨hab.q, hab.m, hab.shape, hab.tracer, hab.ionizable, hab.plane,
        (fun x => by cases x), ?_, (fun x => by cases x), (fun x => by cases x), hab.sh⟩
      obtain ⟨L, e1, e2⟩ := hab.ptcl
      refine ⟨L.map _, ?_, e2.map _⟩
      rw [List.forall₂_map_left_iff, List.forall₂_map_right_iff]
      exact e1.imp fun p q r => ⟨by simp only [r.push], r.w, fun x => by cases x.1⟩
    · intro b hb
      obtain ⟨b0, -, rfl⟩ := List.mem_map.1 hb
      rfl
  have hsel : Match c Sh false (if move then c.pushX dt px py pz s else s) (if move then pushX c dt px py pz g else g) := by
    cases move
    · exact h
    · exact (hpush rfl).1
  unfold Cfg.movePush movePush Cfg.shiftGalilean shiftGalilean
  by_cases hg : c.galilean = true
  · rw [if_pos hg, if_pos hg]
    have hmv := hm hg
    subst hmv
    obtain ⟨k1, k2⟩ := hpush rfl
    simp only [if_true]
    refine ⟨by rw [k1.zmin], by rw [k1.zmax], k1.time, k1.iteration, k1.interp, k1.spect, ?_, ?_⟩
    · have := k1.species
      have hall : List.Forall₂ (fun (a : Species) (b : GSpecies) => SpMatch c Sh (c.pushX dt px py pz s).zmin false a b ∧
          b.sorted = false) (c.pushX dt px py pz s).species (pushX c dt px py pz g).species := by
        generalize (c.pushX dt px py pz s).species = A at *
        generalize (pushX c dt px py pz g).species = B at *
        clear hsel k1 hpush
        induction this with
        | nil => exact .nil
        | cons h _ ih =>
          exact .cons ⟨h, k2 _ List.mem_cons_self⟩ (ih fun b hb => k2 b (List.mem_cons_of_mem _ hb))
      exact hall.imp fun a b ⟨hab, hb⟩ => ⟨hab.q, hab.m, hab.shape, hab.tracer, hab.ionizable, hab.plane,
        (fun x => by cases x), hab.ptcl, (fun x => by rw [hb] at x; cases x), (fun x => by cases x), hab.sh⟩
    · have := k1.box
      rw [← this]
      ring
  · rw [if_neg hg, if_neg hg]
    exact hsel

/-! ### The cycle -/

section
variable [NeZero c.Nz]

theorem Tracks.weaken {R R' : Sim → GSim → Prop} {x : Except PyErr Sim} {S : GSim → Prop} (h : Tracks c Sh R x S)
    (hw : ∀ s g, R s g → R' s g) : Tracks c Sh R' x S := fun t ht hs =>
  ⟨(h t ht hs).1, fun g hg => hw t g ((h t ht hs).2 g hg)⟩

theorem tracks_cross (hc : GridCfg c) (move : Bool) (hm : c.galilean = true → move = true) {s : Sim} {g : GSim}
    (h : Match c Sh false s g) :
    Tracks c Sh (Match c Sh false) (c.crossDeposit move s) (CrossDeposit c move g) := by
  rw [crossDeposit_eq]
  refine (Tracks.bind c Sh (tracks_rho hc .nextXY (match_move h move hm (0.5 * c.dt) 1 1 (-1) (-0.5 * c.dt)))
    (S' := fun g1 g' => ∃ g2, DepositRho c .nextZ (movePush c move c.dt (-1) (-1) 1 c.dt g1) g2 ∧
      g' = movePush c move (0.5 * c.dt) 1 1 (-1) (-0.5 * c.dt) g2) ?_ ?_).congr c Sh fun g' => ?_
  · intro s t hst
    obtain ⟨b, hb, hst⟩ := (except_bind_ok _ _ _).1 hst
    rw [← Except.ok.inj hst, seen_movePush]
    have h2 := grows_depositRho c _ _ _ hb
    rwa [seen_movePush] at h2
  · intro s1 g1 h1
    refine Tracks.bind c Sh (tracks_rho hc .nextZ (match_move h1 move hm c.dt (-1) (-1) 1 c.dt))
      (S' := fun g2 g' => g' = movePush c move (0.5 * c.dt) 1 1 (-1) (-0.5 * c.dt) g2) ?_ ?_
    · exact Grows.pure _ fun s => seen_movePush c _ _ _ _ _ _ s
    · intro s2 g2 h2
      exact Tracks.pure c Sh (match_move h2 move hm (0.5 * c.dt) 1 1 (-1) (-0.5 * c.dt))
  · unfold CrossDeposit
    constructor
    · rintro ⟨g1, g2, a, b, d⟩; exact ⟨g1, a, g2, b, d⟩
    · rintro ⟨g1, a, g2, b, d⟩; exact ⟨g1, g2, a, b, d⟩

theorem tracks_start (hc : GridCfg c) (hpos : 0 < c.invdz) (i : ℕ) {s : Sim} {g : GSim} (h : Match c Sh false s g) :
    Tracks c Sh (Match c Sh true) (c.iterStart i s) (IterStart c i g) := by
  rw [iterStart_eq]
  have h1 : Tracks c Sh (Match c Sh false)
      (if s.iteration % c.exchangePeriod = 0 ∨ i = 0 then c.wrapAll s >>= c.depositRho .prev else pure s)
      (fun g1 => if g.iteration % c.exchangePeriod = 0 ∨ i = 0 then
        ∃ ga, wrapAll c g = .ok ga ∧ DepositRho c .prev ga g1 else g1 = g) := by
    rw [h.iteration]
    by_cases hp : s.iteration % c.exchangePeriod = 0 ∨ i = 0
    · simp only [if_pos hp]
      exact Tracks.bind c Sh (tracks_wrap hc hpos h) (grows_depositRho c .prev) fun s g h => tracks_rho hc .prev h
    · simp only [if_neg hp]
      exact Tracks.pure c Sh h
  refine (Tracks.bind c Sh h1 (S' := fun g1 g' => ∃ g2, (if i = 0 then DepositJ c g1 g2 else g2 = g1) ∧
      ∃ g3, gatherAll c (g2.keep true) = .ok g3 ∧ Diags c (applyExts c g3) g') ?_ ?_).congr c Sh fun g' => ?_
  · refine Grows.comp ?_ (Grows.comp (grows_gatherAll c) (Grows.pure _ fun s => rfl))
    exact grows_if (grows_depositJ c) grows_pure
  · intro s1 g1 h1
    have h2 : Tracks c Sh (Match c Sh false) (if i = 0 then c.depositJ s1 else pure s1)
        (fun g2 => if i = 0 then DepositJ c g1 g2 else g2 = g1) := by
      by_cases hp : i = 0
      · simp only [if_pos hp]; exact tracks_J hc h1
      · simp only [if_neg hp]; exact Tracks.pure c Sh h1
    refine Tracks.bind c Sh h2 ?_ ?_
    · exact Grows.comp (grows_gatherAll c) (Grows.pure _ fun s => rfl)
    · intro s2 g2 h2
      refine Tracks.bind c Sh (tracks_gather hc h2) (Grows.pure _ fun s => rfl) ?_
      intro s3 g3 h3 t ht _
      rw [← Except.ok.inj ht]
      exact ⟨exists_diags _, fun g4 hg4 => match_diags hc (match_exts h3) hg4⟩
  · unfold IterStart
    constructor
    · rintro ⟨g1, g2, g3, a, b, d, e⟩; exact ⟨g1, a, g2, b, g3, d, e⟩
    · rintro ⟨g1, a, g2, b, g3, d, e⟩; exact ⟨g1, g2, g3, a, b, d, e⟩

theorem tracks_half (o : Opts) (hm : c.galilean = true → o.movePositions = true) {s : Sim} {g : GSim}
    (h : Match c Sh true s g) : Tracks c Sh (Match c Sh false) (c.iterHalf o s) (IterHalf c o g) := by
  rw [iterHalf_eq]
  have h1 : Tracks c Sh (Match c Sh false) (if o.moveMomenta then c.pushPAll s else pure s)
      (fun g1 => if o.moveMomenta then pushPAll c g = .ok g1 else g1 = g) := by
    by_cases hp : o.moveMomenta = true
    · simp only [if_pos hp]; exact (tracks_pushP h).weaken fun _ _ => match_weaken
    · simp only [if_neg hp]; exact Tracks.pure c Sh (match_weaken h)
  refine Tracks.bind c Sh h1 ?_ ?_
  · exact Grows.pure _ fun s => seen_movePush c _ _ _ _ _ _ s
  · intro s1 g1 h1
    exact Tracks.pure c Sh (match_keep false (match_move h1 o.movePositions hm (0.5 * c.dt) 1 1 1 (0.5 * c.dt)))

theorem tracks_deposit (hc : GridCfg c) (o : Opts) (hm : c.galilean = true → o.movePositions = true) {s : Sim}
    {g : GSim} (h : Match c Sh false s g) :
    Tracks c Sh (Match c Sh false) (c.iterDeposit o s) (IterDeposit c o g) := by
  rw [iterDeposit_eq]
  have hlast : Grows fun s => c.depositRho .next (c.movePush o.movePositions (0.5 * c.dt) 1 1 1 (0.5 * c.dt) s) := by
    intro s t h
    have := grows_depositRho c _ _ _ h
    rwa [seen_movePush] at this
  refine (Tracks.bind c Sh (tracks_J hc h) (S' := fun g1 g' => ∃ g2,
    (match o.correctCurrents, c.correction with
      | true, .crossDeposition => CrossDeposit c o.movePositions g1 g2
      | _, _ => g2 = g1) ∧
    DepositRho c .next (movePush c o.movePositions (0.5 * c.dt) 1 1 1 (0.5 * c.dt) g2) g')
    (Grows.comp (grows_maybeCross c o) hlast) ?_).congr c Sh fun g' => ?_
  · intro s1 g1 h1
    refine Tracks.bind c Sh (R := Match c Sh false) ?_ hlast ?_
    · unfold Cfg.maybeCross
      rcases o.correctCurrents with _ | _ <;> rcases c.correction with _ | _
      · exact Tracks.pure c Sh h1
      · exact Tracks.pure c Sh h1
      · first
          | exact Tracks.pure c Sh h1
          | exact tracks_cross hc o.movePositions hm h1
      · first
          | exact tracks_cross hc o.movePositions hm h1
          | exact Tracks.pure c Sh h1
    · intro s2 g2 h2
      exact tracks_rho hc .next (match_move h2 o.movePositions hm (0.5 * c.dt) 1 1 1 (0.5 * c.dt))
  · unfold IterDeposit
    constructor
    · rintro ⟨g1, g2, a, b, d⟩; exact ⟨g1, a, g2, b, d⟩
    · rintro ⟨g1, a, g2, b, d⟩; exact ⟨g1, g2, a, b, d⟩

theorem tracks_end (o : Opts) {s : Sim} {g : GSim} (h : Match c Sh false s g) :
    Tracks c Sh (Match c Sh false) (c.iterEnd o s) (IterEnd c o g) := by
  intro t ht _
  have e : c.iterEnd o s = newSpect c o s.spect >>= fun spect => pure { s with
      spect := spect
      interp := onModes c.Nm (fun m i => c.interpEB m (spect m) i) s.interp
      time := s.time + c.dt
      iteration := s.iteration + 1 } := by
    unfold Cfg.iterEnd newSpect
    rfl
  rw [e] at ht
  obtain ⟨sp, h1, ht⟩ := (except_bind_ok _ _ _).1 ht
  rw [← Except.ok.inj ht]
  constructor
  · obtain ⟨d, hd⟩ := exists_launch c
    exact ⟨_, sp, d, by rw [h.spect]; exact h1, hd, rfl⟩
  · rintro g' ⟨sp', d, h2, hd, rfl⟩
    rw [h.spect, h1] at h2
    have h2 := Except.ok.inj h2
    subst h2
    exact ⟨h.zmin, h.zmax, by simp only [h.time], by simp only [h.iteration],
      by simp only [interpEB_gpu c (hd _), h.interp], rfl, h.species, h.box⟩

theorem tracks_iter (hc : GridCfg c) (hpos : 0 < c.invdz) (o : Opts)
    (hm : c.galilean = true → o.movePositions = true) (i : ℕ) {s : Sim} {g : GSim} (h : Match c Sh false s g) :
    Tracks c Sh (Match c Sh false) (c.iter o i s) (Iter c o i g) := by
  rw [iter_eq]
  by_cases hp : c.exchangePeriod = 0
  · rw [if_pos hp]
    intro t ht; cases ht
  · rw [if_neg hp]
    refine (Tracks.bind c Sh (tracks_start hc hpos i h)
      (S' := fun g1 g' => ∃ g2, IterHalf c o g1 g2 ∧ ∃ g3, IterDeposit c o g2 g3 ∧ IterEnd c o g3 g')
      (Grows.comp (grows_iterHalf c o) (Grows.comp (grows_iterDeposit c o) (grows_iterEnd c o)))
      fun s1 g1 h1 => Tracks.bind c Sh (tracks_half o hm h1) (Grows.comp (grows_iterDeposit c o) (grows_iterEnd c o))
        fun s2 g2 h2 => Tracks.bind c Sh (tracks_deposit hc o hm h2) (grows_iterEnd c o)
          fun s3 g3 h3 => tracks_end o h3).congr c Sh fun g' => ?_
    unfold Iter
    constructor
    · rintro ⟨-, g1, g2, g3, a, b, d, e⟩; exact ⟨g1, a, g2, b, g3, d, e⟩
    · rintro ⟨g1, a, g2, b, g3, d, e⟩; exact ⟨hp, g1, g2, g3, a, b, d, e⟩

theorem tracks_loop (hc : GridCfg c) (hpos : 0 < c.invdz) (o : Opts)
    (hm : c.galilean = true → o.movePositions = true) (n : ℕ) : ∀ (i : ℕ) (s : Sim) (g : GSim),
    Match c Sh false s g → Tracks c Sh (Match c Sh false) (c.loop o i n s) (Loop c o i n g) := by
  induction n with
  | zero => intro i s g h; exact Tracks.pure c Sh h
  | succ n ih =>
    intro i s g h
    exact Tracks.bind c Sh (tracks_iter hc hpos o hm i h) (grows_loop c o n (i + 1)) (ih (i + 1))

theorem tracks_step (hc : GridCfg c) (hpos : 0 < c.invdz) (N : ℕ) (o : Opts)
    (hm : c.galilean = true → o.movePositions = true) {s : Sim} {g : GSim} (h : Match c Sh false s g) :
    Tracks c Sh (Match c Sh false) (c.step N o s) (Step c N o g) := by
  have h0 : Tracks c Sh (Match c Sh false) (pure (c.startFields s)) (StartFields c g) := by
    intro t ht _
    rw [← Except.ok.inj ht]
    constructor
    · obtain ⟨d, hd⟩ := exists_launch c
      exact ⟨_, d, hd, rfl⟩
    · rintro g' ⟨d, hd, rfl⟩
      exact ⟨h.zmin, h.zmax, h.time, h.iteration, h.interp,
        by simp only [Cfg.startFields, spectE_gpu c (hd _), spectB_gpu c (hd _), h.interp, h.spect], h.species, h.box⟩
  have e : c.step N o s = (pure (c.startFields s) >>= fun s => c.loop o 0 N s >>= fun s => pure (c.endFields s)) := rfl
  rw [e]
  refine (Tracks.bind c Sh h0 (S' := fun g1 g' => ∃ g2, Loop c o 0 N g1 g2 ∧ EndFields c g2 g')
    (Grows.comp (grows_loop c o N 0) (Grows.pure c.endFields fun _ => rfl)) fun s1 g1 h1 =>
    Tracks.bind c Sh (tracks_loop hc hpos o hm N 0 s1 g1 h1) (Grows.pure c.endFields fun _ => rfl) ?_).congr c Sh fun g' => ?_
  · intro s2 g2 h2 t ht _
    rw [← Except.ok.inj ht]
    constructor
    · obtain ⟨d, hd⟩ := exists_launch c
      exact ⟨_, d, hd, rfl⟩
    · rintro g' ⟨d, hd, rfl⟩
      exact ⟨h2.zmin, h2.zmax, h2.time, h2.iteration,
        by simp only [Cfg.endFields, interpSources_gpu c (hd _), h2.interp, h2.spect], h2.spect, h2.species, h2.box⟩
  · unfold Step
    constructor
    · rintro ⟨g1, g2, a, b, d⟩; exact ⟨g1, a, g2, b, d⟩
    · rintro ⟨g1, a, g2, b, d⟩; exact ⟨g1, g2, a, b, d⟩

theorem tracks_calls (hc : GridCfg c) (hpos : 0 < c.invdz) (L : List (ℕ × Opts))
    (hm : c.galilean = true → ∀ a ∈ L, a.2.movePositions = true) : ∀ (s : Sim) (g : GSim),
    Match c Sh false s g → Tracks c Sh (Match c Sh false) (c.calls L s) (Calls c L g) := by
  induction L with
  | nil => intro s g h; exact Tracks.pure c Sh h
  | cons a L ih =>
    intro s g h
    exact Tracks.bind c Sh (tracks_step hc hpos a.1 a.2 (fun x => hm x a List.mem_cons_self) h) (grows_calls c L)
      (ih fun x b hb => hm x b (List.mem_cons_of_mem _ hb))

end

end Fbpic.Pic.Gpu
