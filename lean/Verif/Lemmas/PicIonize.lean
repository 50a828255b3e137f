import Verif.Spec.PicIonize
import Verif.Props.Ionization
import Verif.Lemmas.PicGaussRun

/-!
# Lemmas: what one ionization step does to the species of a simulation
-/

namespace Fbpic.Pic

open Transform ExternalField Step
open Spec (macroCharge chargeSum IonizersOk fires routed newElectrons)

/-! ### Lists -/

theorem modify_sum {α M : Type} [AddCommMonoid M] (g : α → M) (f : α → α) (a : α) :
    ∀ (l : List α) (j : ℕ), l[j]? = some a → ((l.modify j f).map g).sum + g a = (l.map g).sum + g (f a)
  | [], j, h => by simp at h
  | b :: l, 0, h => by
    have : b = a := by simpa using h
    subst this
    simp only [List.modify_zero_cons, List.map_cons, List.sum_cons]
    abel
  | b :: l, j + 1, h => by
    have := modify_sum g f a l j (by simpa using h)
    simp only [List.modify_succ_cons, List.map_cons, List.sum_cons]
    rw [add_assoc, this, add_assoc]

theorem getD_sum {α M : Type} [AddCommMonoid M] (d : α) (g : α → M) (l : List α) :
    (l.map g).sum = ∑ i ∈ Finset.range l.length, g (l.getD i d) := by
  rw [← sum_range_list]
  congr 1
  apply List.ext_getElem
  · simp
  · intro i h1 h2
    have : i < l.length := by simpa using h1
    simp [List.getD_eq_getElem?_getD, this]

theorem getD_mapIdx {α β : Type} (d : α) (d' : β) (f : ℕ → α → β) (l : List α) {i : ℕ} (h : i < l.length) :
    (l.mapIdx f).getD i d' = f i (l.getD i d) := by
  simp [List.getD_eq_getElem?_getD, h]

/-- A species without its particles. -/
def Species.head (sp : Species) : Species := { sp with ptcl := [] }

theorem head_iff {a b : Species} : b.head = a.head ↔ b.q = a.q ∧ b.m = a.m ∧ b.shape = a.shape ∧
    b.isTracer = a.isTracer ∧ b.ionizable = a.ionizable ∧ b.plane = a.plane := by
  cases a; cases b
  simp [Species.head]

theorem modify_head (f : Species → Species) (hf : ∀ a, (f a).head = a.head) (l : List Species) (j : ℕ) :
    (l.modify j f).map Species.head = l.map Species.head := by
  apply List.ext_getElem?
  intro i
  simp only [List.getElem?_map, List.getElem?_modify]
  cases l[i]? with
  | none => rfl
  | some a =>
    by_cases h : j = i
    · simp [h, hf]
    · simp [h]

theorem head_get {l l' : List Species} (h : l'.map Species.head = l.map Species.head) {j : ℕ} {a : Species}
    (ha : l[j]? = some a) : ∃ b, l'[j]? = some b ∧ b.head = a.head := by
  have := congrArg (fun x => x[j]?) h
  simp only [List.getElem?_map, ha, Option.map_some] at this
  cases hb : l'[j]? with
  | none => rw [hb] at this; simp at this
  | some b => rw [hb] at this; exact ⟨b, rfl, by simpa using this⟩

theorem setLevels_head (lev : ℕ → ℕ) (sp : Species) : (sp.setLevels lev).head = sp.head := rfl

/-! ### One step -/

/-- Where a particle is, without its level. -/
def Ptcl.place (p : Ptcl) : PushPtcl := { p.push with level := 0 }

/-- What an ionization step may do to the species. -/
structure IonRelS (ionizers : ℕ → Option Ionizer) (sps sps' : List Species) : Prop where
  head : sps'.map Species.head = sps.map Species.head
  charge : ∀ φ, chargeSum φ sps' = chargeSum φ sps
  places : ∀ sp' ∈ sps', ∀ p' ∈ sp'.ptcl, ∃ sp ∈ sps, sp.shape = sp'.shape ∧ sp.isTracer = sp'.isTracer ∧
    (sp'.q ≠ 0 → sp.q ≠ 0) ∧ ∃ p ∈ sp.ptcl, p'.place = p.place
  ions : ∀ id sp', sps'[id]? = some sp' → sp'.ionizable = true → ∃ sp, sps[id]? = some sp ∧
    List.Forall₂ (fun p p' => p'.w = p.w ∧ p.push.level ≤ p'.push.level ∧
      ∀ I, ionizers id = some I → p.push.level ≤ I.P.levelMax → p'.push.level ≤ I.P.levelMax) sp.ptcl sp'.ptcl
  count : (sps'.map fun sp => sp.ptcl.length).sum +
      (sps.map fun sp => if sp.ionizable then (sp.ptcl.map fun p => p.push.level).sum else 0).sum
    = (sps.map fun sp => sp.ptcl.length).sum +
      (sps'.map fun sp => if sp.ionizable then (sp.ptcl.map fun p => p.push.level).sum else 0).sum

variable {ionizers : ℕ → Option Ionizer}

theorem IonRelS.refl (sps : List Species) : IonRelS ionizers sps sps where
  head := rfl
  charge := fun _ => rfl
  places := fun sp hsp p hp => ⟨sp, hsp, rfl, rfl, id, p, hp, rfl⟩
  ions := fun _ sp h _ => ⟨sp, h, List.forall₂_same.2 fun _ _ => ⟨rfl, le_rfl, fun _ _ h => h⟩⟩
  count := rfl

theorem IonRelS.trans {a b d : List Species} (h : IonRelS ionizers a b) (h' : IonRelS ionizers b d) :
    IonRelS ionizers a d where
  head := h'.head.trans h.head
  charge := fun φ => (h'.charge φ).trans (h.charge φ)
  places := fun sp hsp p hp => by
    obtain ⟨sp1, h1, e1, e2, e3, p1, hp1, e4⟩ := h'.places sp hsp p hp
    obtain ⟨sp2, h2, f1, f2, f3, p2, hp2, f4⟩ := h.places sp1 h1 p1 hp1
    exact ⟨sp2, h2, f1.trans e1, f2.trans e2, fun hq => f3 (e3 hq), p2, hp2, e4.trans f4⟩
  ions := fun id sp hsp hi => by
    obtain ⟨sp1, h1, e1⟩ := h'.ions id sp hsp hi
    obtain ⟨sp1', g1, g2⟩ := head_get h'.head h1
    have : sp1' = sp := Option.some.inj (g1.symm.trans hsp)
    subst this
    obtain ⟨sp2, h2, e2⟩ := h.ions id sp1 h1 ((head_iff.1 g2).2.2.2.2.1.symm.trans hi)
    refine ⟨sp2, h2, forall₂_trans e2 e1 ?_⟩
    intro p q r x y
    exact ⟨y.1.trans x.1, x.2.1.trans y.2.1, fun I hI hl => y.2.2 I hI (x.2.2 I hI hl)⟩
  count := by
    have := h.count
    have := h'.count
    omega

/-- The ionizers fit the species after the step. -/
theorem IonRelS.ok {c : Cfg} {a b : List Species} (h : IonRelS ionizers a b) (ha : IonizersOk c ionizers a) :
    IonizersOk c ionizers b where
  ion := fun id I hI => by
    obtain ⟨sp, h1, h2, h3⟩ := ha.ion id I hI
    obtain ⟨sp', g1, g2⟩ := head_get h.head h1
    obtain ⟨e1, -, -, -, e2, -⟩ := head_iff.1 g2
    exact ⟨sp', g1, e2.trans h2, e1.trans h3⟩
  batch := ha.batch
  order := ha.order
  count := ha.count
  target := fun id I hI sp' hsp' j hj => by
    obtain ⟨sp, h1, h2⟩ := head_get h.head.symm hsp'
    obtain ⟨e, g1, g2, g3, g4, g5⟩ := ha.target id I hI sp h1 j hj
    obtain ⟨e', k1, k2⟩ := head_get h.head g1
    obtain ⟨x1, -, x2, x3, x4, -⟩ := head_iff.1 k2
    obtain ⟨-, -, y2, y3, -, -⟩ := head_iff.1 h2
    exact ⟨e', k1, x4.trans g2, x1.trans g3, (x2.trans g4).trans y2, (x3.trans g5).trans y3⟩
  levels := fun id I hI sp' hsp' => by
    obtain ⟨sp0, k1, k2, -⟩ := ha.ion id I hI
    obtain ⟨sp1, l1, l2⟩ := head_get h.head k1
    have e : sp1 = sp' := Option.some.inj (l1.symm.trans hsp')
    subst e
    obtain ⟨sp, h1, h2⟩ := h.ions id sp1 hsp' ((head_iff.1 l2).2.2.2.2.1.trans k2)
    have hl := ha.levels id I hI sp h1
    have key : ∀ (l l' : List Ptcl), List.Forall₂ (fun p p' => p'.w = p.w ∧ p.push.level ≤ p'.push.level ∧
        ∀ I, ionizers id = some I → p.push.level ≤ I.P.levelMax → p'.push.level ≤ I.P.levelMax) l l' →
        (∀ p ∈ l, I.P.levelStart ≤ p.push.level ∧ p.push.level ≤ I.P.levelMax) →
        ∀ p ∈ l', I.P.levelStart ≤ p.push.level ∧ p.push.level ≤ I.P.levelMax := by
      intro l l' hll
      induction hll with
      | nil => intro _ p hp; simp at hp
      | @cons x y l l' hxy _ ih =>
        intro hb p hp
        rcases List.mem_cons.1 hp with rfl | hp
        · obtain ⟨b1, b2⟩ := hb x (by simp)
          exact ⟨b1.trans hxy.2.1, hxy.2.2 I hI b2⟩
        · exact ih (fun p hp => hb p (by simp [hp])) p hp
    exact key _ _ h2 hl

/-! ### Electrons -/

/-- Adding electrons to several species, one after the other. -/
theorem grow_fold (ec : ℝ) (sh : Shape) (tr : Bool) : ∀ (xs : List (ℕ × List Ptcl)) (sps : List Species),
    (∀ x ∈ xs, ∃ e, sps[x.1]? = some e ∧ e.ionizable = false ∧ e.q = -ec ∧ e.shape = sh ∧ e.isTracer = tr) →
    let sps' := xs.foldl (fun sps x => growSpecies sps x.1 x.2) sps
    sps'.map Species.head = sps.map Species.head ∧
    (∀ φ, chargeSum φ sps' = chargeSum φ sps + (xs.map fun x => (x.2.map fun p =>
      ((-ec * p.w : ℝ) : ℂ) * φ sh tr p.place).sum).sum) ∧
    (∀ sp' ∈ sps', ∀ p' ∈ sp'.ptcl, (∃ sp ∈ sps, sp'.head = sp.head ∧ p' ∈ sp.ptcl) ∨
      (sp'.shape = sh ∧ sp'.isTracer = tr ∧ sp'.q = -ec ∧ ∃ x ∈ xs, p' ∈ x.2)) ∧
    (∀ (id : ℕ) (sp' : Species), sps'[id]? = some sp' → sp'.ionizable = true → sps[id]? = some sp') ∧
    (sps'.map fun sp => sp.ptcl.length).sum = (sps.map fun sp => sp.ptcl.length).sum
      + (xs.map fun x => x.2.length).sum ∧
    (sps'.map fun sp => if sp.ionizable then (sp.ptcl.map fun p => p.push.level).sum else 0).sum
      = (sps.map fun sp => if sp.ionizable then (sp.ptcl.map fun p => p.push.level).sum else 0).sum := by
  intro xs
  induction xs with
  | nil =>
    intro sps _
    refine ⟨rfl, fun φ => by simp, fun sp hsp p hp => Or.inl ⟨sp, hsp, rfl, hp⟩, fun _ _ h _ => h, by simp, rfl⟩
  | cons x xs ih =>
    intro sps hx
    obtain ⟨e, he, h1, h2, h3, h4⟩ := hx x (by simp)
    set f : Species → Species := fun e => { e with ptcl := e.ptcl ++ x.2 } with hf
    set sps1 := growSpecies sps x.1 x.2 with hs1
    have hh : sps1.map Species.head = sps.map Species.head := modify_head f (fun _ => rfl) sps x.1
    obtain ⟨a1, a2, a3, a4, a5, a6⟩ := ih sps1 (fun y hy => by
      obtain ⟨e', k0, k1, k2, k3, k4⟩ := hx y (by simp [hy])
      obtain ⟨b, g1, g2⟩ := head_get hh k0
      obtain ⟨e1, -, e2, e3, e4, -⟩ := head_iff.1 g2
      exact ⟨b, g1, e4.trans k1, e1.trans k2, e2.trans k3, e3.trans k4⟩)
    rw [List.foldl_cons]
    refine ⟨a1.trans hh, fun φ => ?_, fun sp' hsp' p' hp' => ?_, fun id sp' h hi => ?_, ?_, ?_⟩
    · rw [a2, List.map_cons, List.sum_cons, ← add_assoc]
      congr 1
      have := modify_sum (fun sp : Species => (sp.ptcl.map fun p =>
        (macroCharge sp p : ℂ) * φ sp.shape sp.isTracer { p.push with level := 0 }).sum) f e sps x.1 he
      have hfe : ((f e).ptcl.map fun p =>
          (macroCharge (f e) p : ℂ) * φ (f e).shape (f e).isTracer { p.push with level := 0 }).sum
          = (e.ptcl.map fun p => (macroCharge e p : ℂ) * φ e.shape e.isTracer { p.push with level := 0 }).sum
            + (x.2.map fun p => ((-ec * p.w : ℝ) : ℂ) * φ sh tr p.place).sum := by
        show ((e.ptcl ++ x.2).map _).sum = _
        rw [List.map_append, List.sum_append]
        congr 1
        refine congrArg List.sum (List.map_congr_left fun p _ => ?_)
        show (macroCharge (f e) p : ℂ) * φ e.shape e.isTracer p.place = _
        rw [h3, h4]
        unfold macroCharge
        show ((e.q * if e.ionizable = true then _ else _ : ℝ) : ℂ) * _ = _
        rw [h1, h2]
        simp
      simp only [hfe] at this
      rw [add_comm (e.ptcl.map _).sum, ← add_assoc] at this
      exact add_right_cancel this
    · rcases a3 sp' hsp' p' hp' with ⟨sp1, k1, k2, k3⟩ | ⟨k1, k2, k3, y, hy, k4⟩
      · obtain ⟨i, hi⟩ := List.mem_iff_getElem?.1 k1
        rw [hs1, growSpecies, List.getElem?_modify] at hi
        cases hsi : sps[i]? with
        | none => rw [hsi] at hi; simp at hi
        | some b =>
          rw [hsi] at hi
          by_cases hxi : x.1 = i
          · simp only [hxi, if_true, Option.map_eq_map, Option.map_some, Option.some.injEq] at hi
            subst hi
            rcases List.mem_append.1 k3 with k3 | k3
            · exact Or.inl ⟨b, List.mem_of_getElem? hsi, k2, k3⟩
            · right
              have : b = e := by rw [hxi, hsi] at he; exact Option.some.inj he
              subst this
              obtain ⟨e1, -, e2, e3, -, -⟩ := head_iff.1 k2
              exact ⟨e2.trans h3, e3.trans h4, e1.trans h2, x, by simp, k3⟩
          · simp only [hxi, if_false, Option.map_eq_map, Option.map_some, Option.some.injEq, id] at hi
            subst hi
            exact Or.inl ⟨b, List.mem_of_getElem? hsi, k2, k3⟩
      · exact Or.inr ⟨k1, k2, k3, y, by simp [hy], k4⟩
    · have h5 := a4 id sp' h hi
      rw [hs1, growSpecies, List.getElem?_modify] at h5
      cases hsi : sps[id]? with
      | none => rw [hsi] at h5; simp at h5
      | some b =>
        rw [hsi] at h5
        by_cases hxi : x.1 = id
        · simp only [hxi, if_true, Option.map_eq_map, Option.map_some, Option.some.injEq] at h5
          subst h5
          have : b = e := by rw [hxi, hsi] at he; exact Option.some.inj he
          subst this
          rw [show (f b).ionizable = b.ionizable from rfl, h1] at hi
          cases hi
        · simp only [hxi, if_false, Option.map_eq_map, Option.map_some, Option.some.injEq] at h5
          rw [← h5]
    · rw [a5, List.map_cons, List.sum_cons]
      have := modify_sum (fun sp : Species => sp.ptcl.length) f e sps x.1 he
      have h6 : (f e).ptcl.length = e.ptcl.length + x.2.length := by simp [hf]
      have h7 : (sps1.map fun sp => sp.ptcl.length).sum = ((sps.modify x.1 f).map fun sp => sp.ptcl.length).sum := rfl
      simp only [h6] at this
      omega
    · rw [a6]
      have := modify_sum (fun sp : Species => if sp.ionizable then (sp.ptcl.map fun p => p.push.level).sum else 0)
        f e sps x.1 he
      have h6 : (if (f e).ionizable then ((f e).ptcl.map fun p => p.push.level).sum else 0)
          = (if e.ionizable then (e.ptcl.map fun p => p.push.level).sum else 0) := by
        rw [show (f e).ionizable = e.ionizable from rfl, h1]; rfl
      simp only [h6] at this
      exact add_right_cancel this

/-! ### `handle_ionization` -/

/-- All the new electrons of all targets, once. -/
theorem new_sum {M : Type} [AddCommMonoid M] (P : IonParams) (ion : Ions ℝ IonAttr) (dec : ℕ → ℕ → Bool)
    (hlow : ∀ ip < ion.Ntot, P.levelStart ≤ ion.level ip) (h : IonAttr × ℝ → M) :
    ((List.range P.nLevels).map fun i => ((newElectrons P ion dec i).map h).sum).sum
      = ∑ ip ∈ Finset.range ion.Ntot, if fires P ion dec ip then h (ion.attr ip, ion.w ip) else 0 := by
  rw [sum_range_list]
  have e : ∀ i, ((newElectrons P ion dec i).map h).sum = ∑ ip ∈ Finset.range ion.Ntot,
      if fires P ion dec ip && routed P i (ion.level ip) then h (ion.attr ip, ion.w ip) else 0 := by
    intro i
    unfold newElectrons
    rw [List.map_map]
    exact sum_filter_range ion.Ntot _ _
  simp only [e]
  rw [Finset.sum_comm]
  refine Finset.sum_congr rfl fun ip hip => ?_
  exact routed_sum P ion dec ip (hlow ip (Finset.mem_range.1 hip)) _

theorem mapM_targets (sps : List Species) : ∀ (l : List ℕ), (∀ j ∈ l, ∃ e, sps[j]? = some e) →
    ∃ L : List Species, (l.mapM fun j => match sps[j]? with
      | some e => (.ok e.elecs : Except PyErr (Elecs ℝ IonAttr))
      | none => .error (.indexError "no such species")) = .ok (L.map Species.elecs) ∧ L.length = l.length
  | [], _ => ⟨[], rfl, rfl⟩
  | j :: l, h => by
    obtain ⟨e, he⟩ := h j (by simp)
    obtain ⟨L, h1, h2⟩ := mapM_targets sps l fun j hj => h j (by simp [hj])
    refine ⟨e :: L, ?_, by simp [h2]⟩
    rw [List.mapM_cons]
    refine (except_bind_ok _ _ _).2 ⟨e.elecs, by rw [he], ?_⟩
    exact (except_bind_ok _ _ _).2 ⟨_, h1, rfl⟩

/-- What `handle_ionization` does: new levels, then the electrons, target by target. -/
theorem handle_eq {sps : List Species} {id : ℕ} {I : Ionizer} (hb : 0 < I.P.batchSize) (ho : I.P.levelStart ≤ I.P.levelMax)
    (hc : I.targets.length = I.P.nLevels) (htar : ∀ j ∈ I.targets, ∃ e, sps[j]? = some e) (cl : ℝ) (draw : ℕ → ℝ)
    (J : Junk ℝ IonAttr) {sp : Species} (hsp : sps[id]? = some sp) (hlev : ∀ p ∈ sp.ptcl, I.P.levelStart ≤ p.push.level) :
    ∃ lev : ℕ → ℕ, I.handle cl draw J id sps = .ok ((I.targets.zip ((List.range I.P.nLevels).map
      fun i => (newElectrons I.P sp.ions (Adk.ionDecide I.adk (fun ip => (sp.ptcl.getD ip noPtcl).probe cl) draw) i).map
        freeElectron)).foldl (fun sps x => growSpecies sps x.1 x.2) (sps.modify id fun sp => sp.setLevels lev)) ∧
      ∀ ip, ip < sp.ptcl.length → lev ip = (sp.ptcl.getD ip noPtcl).push.level + if fires I.P sp.ions
        (Adk.ionDecide I.adk (fun ip => (sp.ptcl.getD ip noPtcl).probe cl) draw) ip then 1 else 0 := by
  obtain ⟨L, hL, hlen⟩ := mapM_targets sps I.targets htar
  have hmem : ∀ ip, ip < sp.ptcl.length → sp.ptcl.getD ip noPtcl ∈ sp.ptcl := by
    intro ip h
    rw [List.getD_eq_getElem?_getD, List.getElem?_eq_getElem h]
    exact List.getElem_mem h
  have hlow : ∀ ip < sp.ions.Ntot, I.P.levelStart ≤ sp.ions.level ip := fun ip h => hlev _ (hmem ip h)
  set dec := Adk.ionDecide I.adk (fun ip => (sp.ptcl.getD ip noPtcl).probe cl) draw with hdec
  obtain ⟨ion', tar', h1, hN, hat, hw, hl, -, htl, hnew⟩ := C17_refines I.P hb
    (fun _ => ho) sp.ions (L.map Species.elecs)
    (by rw [List.length_map, hlen]; exact hc) hlow dec J
  -- the electrons
  have hgrown : ((L.map Species.elecs).zip tar').map (fun x => (x.2.toList.drop x.1.Ntot).map freeElectron)
      = (List.range I.P.nLevels).map fun i => (newElectrons I.P sp.ions dec i).map freeElectron := by
    apply List.ext_getElem
    · simp [htl, hlen, hc]
    · intro i g1 g2
      have hi : i < I.P.nLevels := by simpa using g2
      have hi1 : i < (L.map Species.elecs).length := by rw [List.length_map, hlen, hc]; exact hi
      have hi2 : i < tar'.length := by rw [htl]; exact hi1
      simp only [List.getElem_map, List.getElem_zip, List.getElem_range]
      have hi3 : i < L.length := by simpa using hi1
      rw [hnew i hi1 hi2, List.getElem_map]
      rw [List.drop_left' (by simp [Elecs.toList])]
  have hrun : I.handle cl draw J id sps = .ok ((I.targets.zip ((List.range I.P.nLevels).map
      fun i => (newElectrons I.P sp.ions dec i).map freeElectron)).foldl (fun sps x => growSpecies sps x.1 x.2)
      (sps.modify id fun sp => sp.setLevels ion'.level)) := by
    unfold Ionizer.handle
    rw [hsp]
    refine (except_bind_ok _ _ _).2 ⟨_, hL, (except_bind_ok _ _ _).2 ⟨_, h1, ?_⟩⟩
    show Except.ok _ = _
    rw [hgrown]
  refine ⟨_, hrun, ?_⟩
  intro ip h
  rw [hl ip]
  have h' : ip < sp.ions.Ntot := h
  by_cases hfi : fires I.P sp.ions dec ip = true
  · rw [if_pos ⟨h', hfi⟩, if_pos hfi]; rfl
  · rw [if_neg (fun h => hfi h.2), if_neg hfi]; rfl

/-- The same for ionizers that fit. -/
theorem handle_run {c : Cfg} {sps : List Species} (hok : IonizersOk c ionizers sps) {id : ℕ} {I : Ionizer}
    (hI : ionizers id = some I) (cl : ℝ) (draw : ℕ → ℝ) (J : Junk ℝ IonAttr) {sp : Species} (hsp : sps[id]? = some sp) :
    ∃ lev : ℕ → ℕ, I.handle cl draw J id sps = .ok ((I.targets.zip ((List.range I.P.nLevels).map
      fun i => (newElectrons I.P sp.ions (Adk.ionDecide I.adk (fun ip => (sp.ptcl.getD ip noPtcl).probe cl) draw) i).map
        freeElectron)).foldl (fun sps x => growSpecies sps x.1 x.2) (sps.modify id fun sp => sp.setLevels lev)) ∧
      ∀ ip, ip < sp.ptcl.length → lev ip = (sp.ptcl.getD ip noPtcl).push.level + if fires I.P sp.ions
        (Adk.ionDecide I.adk (fun ip => (sp.ptcl.getD ip noPtcl).probe cl) draw) ip then 1 else 0 := by
  refine handle_eq (hok.batch id I hI) (hok.order id I hI) (hok.count id I hI) (fun j hj => ?_) cl draw J hsp
    fun p hp => (hok.levels id I hI sp hsp p hp).1
  obtain ⟨e, he, -⟩ := hok.target id I hI sp hsp j hj
  exact ⟨e, he⟩

theorem handle_rel {c : Cfg} {sps : List Species} (hok : IonizersOk c ionizers sps) {id : ℕ} {I : Ionizer}
    (hI : ionizers id = some I) (cl : ℝ) (draw : ℕ → ℝ) (J : Junk ℝ IonAttr) :
    ∃ sps', I.handle cl draw J id sps = .ok sps' ∧ IonRelS ionizers sps sps' := by
  obtain ⟨sp, hsp, hion, hq⟩ := hok.ion id I hI
  have htar := hok.target id I hI sp hsp
  have hlev := hok.levels id I hI sp hsp
  have hmem : ∀ ip, ip < sp.ptcl.length → sp.ptcl.getD ip noPtcl ∈ sp.ptcl := by
    intro ip h
    rw [List.getD_eq_getElem?_getD, List.getElem?_eq_getElem h]
    exact List.getElem_mem h
  have hlow : ∀ ip < sp.ions.Ntot, I.P.levelStart ≤ sp.ions.level ip := fun ip h => (hlev _ (hmem ip h)).1
  obtain ⟨lev, hrun, hlev'⟩ := handle_run hok hI cl draw J hsp
  set dec := Adk.ionDecide I.adk (fun ip => (sp.ptcl.getD ip noPtcl).probe cl) draw with hdec
  refine ⟨_, hrun, ?_⟩
  set xs := I.targets.zip ((List.range I.P.nLevels).map
      fun i => (newElectrons I.P sp.ions dec i).map freeElectron) with hxs
  set f : Species → Species := fun sp => sp.setLevels lev with hf
  set sps1 := sps.modify id f with hs1
  have hh1 : sps1.map Species.head = sps.map Species.head := modify_head f (fun _ => rfl) sps id
  have hxt : ∀ x ∈ xs, ∃ e, sps1[x.1]? = some e ∧ e.ionizable = false ∧ e.q = -c.eCharge ∧ e.shape = sp.shape ∧
      e.isTracer = sp.isTracer := by
    intro x hx
    obtain ⟨e, he, k1, k2, k3, k4⟩ := htar x.1 (List.of_mem_zip hx).1
    obtain ⟨b, g1, g2⟩ := head_get hh1 he
    obtain ⟨e1, -, e2, e3, e4, -⟩ := head_iff.1 g2
    exact ⟨b, g1, e4.trans k1, e1.trans k2, e2.trans k3, e3.trans k4⟩
  obtain ⟨a1, a2, a3, a4, a5, a6⟩ := grow_fold c.eCharge sp.shape sp.isTracer xs sps1 hxt
  have hsnd : ∀ {M : Type} [AddCommMonoid M] (g : List Ptcl → M), (xs.map fun x => g x.2).sum
      = ((List.range I.P.nLevels).map fun i => g ((newElectrons I.P sp.ions dec i).map freeElectron)).sum := by
    intro M _ g
    have : xs.map (fun x => g x.2) = (xs.map Prod.snd).map g := by rw [List.map_map]; rfl
    rw [this, hxs, List.map_snd_zip (by simp [hok.count id I hI]), List.map_map]
    rfl
  have hsum1 : ∀ {M : Type} [AddCommMonoid M] (g : Ptcl → M), ((f sp).ptcl.map g).sum
      = ∑ i ∈ Finset.range sp.ptcl.length, g { sp.ptcl.getD i noPtcl with
          push := { (sp.ptcl.getD i noPtcl).push with level := lev i } } := by
    intro M _ g
    rw [getD_sum noPtcl]
    have hlen1 : (f sp).ptcl.length = sp.ptcl.length := by simp [hf, Species.setLevels]
    rw [hlen1]
    refine Finset.sum_congr rfl fun i hi => ?_
    congr 1
    exact getD_mapIdx noPtcl noPtcl _ _ (Finset.mem_range.1 hi)
  refine ⟨a1.trans hh1, fun φ => ?_, fun sp' hsp' p' hp' => ?_, fun id' sp' hsp' hi' => ?_, ?_⟩
  · rw [a2, hsnd fun l => (l.map fun p => ((-c.eCharge * p.w : ℝ) : ℂ) * φ sp.shape sp.isTracer p.place).sum]
    simp only [List.map_map]
    rw [new_sum I.P sp.ions dec hlow]
    have hm := modify_sum (fun sp : Species => (sp.ptcl.map fun p =>
        (macroCharge sp p : ℂ) * φ sp.shape sp.isTracer { p.push with level := 0 }).sum) f sp sps id hsp
    have hd : ((f sp).ptcl.map fun p =>
          (macroCharge (f sp) p : ℂ) * φ (f sp).shape (f sp).isTracer { p.push with level := 0 }).sum
        + ∑ ip ∈ Finset.range sp.ions.Ntot, (if fires I.P sp.ions dec ip then
          ((fun p : Ptcl => ((-c.eCharge * p.w : ℝ) : ℂ) * φ sp.shape sp.isTracer p.place) ∘ freeElectron)
            (sp.ions.attr ip, sp.ions.w ip) else 0)
        = (sp.ptcl.map fun p => (macroCharge sp p : ℂ) * φ sp.shape sp.isTracer { p.push with level := 0 }).sum := by
      rw [hsum1, getD_sum noPtcl, show sp.ions.Ntot = sp.ptcl.length from rfl, ← Finset.sum_add_distrib]
      refine Finset.sum_congr rfl fun i hi => ?_
      have hi := Finset.mem_range.1 hi
      unfold macroCharge
      show ((sp.q * if sp.ionizable = true then _ else _ : ℝ) : ℂ) * φ sp.shape sp.isTracer _ + _
        = ((sp.q * if sp.ionizable = true then _ else _ : ℝ) : ℂ) * _
      rw [if_pos hion, if_pos hion, hq]
      simp only
      rw [hlev' i hi]
      split_ifs
      · simp only [Function.comp, freeElectron, Ptcl.place, Species.ions, Ptcl.attr]
        push_cast
        ring
      · simp
    have hc1 : chargeSum φ sps1 + (sp.ptcl.map fun p =>
        (macroCharge sp p : ℂ) * φ sp.shape sp.isTracer { p.push with level := 0 }).sum
        = chargeSum φ sps + ((f sp).ptcl.map fun p =>
          (macroCharge (f sp) p : ℂ) * φ (f sp).shape (f sp).isTracer { p.push with level := 0 }).sum := hm
    rw [← hd] at hc1
    have := congrArg (fun z => z - ((f sp).ptcl.map fun p =>
          (macroCharge (f sp) p : ℂ) * φ (f sp).shape (f sp).isTracer { p.push with level := 0 }).sum) hc1
    simp only [add_sub_cancel_right] at this
    rw [← this]
    ring
  · have back : ∀ sp1 ∈ sps1, ∀ p ∈ sp1.ptcl, ∃ sp0 ∈ sps, sp1.head = sp0.head ∧ ∃ q ∈ sp0.ptcl, p.place = q.place := by
      intro sp1 hsp1 p hp
      obtain ⟨i, hi⟩ := List.mem_iff_getElem?.1 hsp1
      rw [hs1, List.getElem?_modify] at hi
      cases hsi : sps[i]? with
      | none => rw [hsi] at hi; simp at hi
      | some b =>
        rw [hsi] at hi
        by_cases hxi : id = i
        · simp only [hxi, if_true, Option.map_eq_map, Option.map_some, Option.some.injEq] at hi
          subst hi
          have hp : p ∈ b.ptcl.mapIdx fun i p => { p with push := { p.push with level := lev i } } := hp
          obtain ⟨k, hk, rfl⟩ := List.mem_mapIdx.1 hp
          exact ⟨b, List.mem_of_getElem? hsi, rfl, _, List.getElem_mem hk, rfl⟩
        · simp only [hxi, if_false, Option.map_eq_map, Option.map_some, Option.some.injEq] at hi
          subst hi
          exact ⟨b, List.mem_of_getElem? hsi, rfl, p, hp, rfl⟩
    rcases a3 sp' hsp' p' hp' with ⟨sp1, k1, k2, k3⟩ | ⟨k1, k2, k3, x, hx, k4⟩
    · obtain ⟨sp0, l1, l2, q, hq', l3⟩ := back sp1 k1 p' k3
      obtain ⟨e1, -, e2, e3, -, -⟩ := head_iff.1 (k2.trans l2)
      exact ⟨sp0, l1, e2.symm, e3.symm, fun h => by rwa [e1] at h, q, hq', l3⟩
    · refine ⟨sp, List.mem_of_getElem? hsp, k1.symm, k2.symm, fun h => ?_, ?_⟩
      · rw [hq]; rw [k3] at h; exact neg_ne_zero.1 h
      · obtain ⟨i, -, hi⟩ := List.mem_map.1 (List.of_mem_zip hx).2
        rw [← hi] at k4
        obtain ⟨y, hy, rfl⟩ := List.mem_map.1 k4
        obtain ⟨ip, hip, rfl⟩ := List.mem_map.1 hy
        have hip' : ip < sp.ptcl.length := List.mem_range.1 (List.mem_filter.1 hip).1
        exact ⟨sp.ptcl.getD ip noPtcl, hmem ip hip', rfl⟩
  · have h5 := a4 id' sp' hsp' hi'
    rw [hs1, List.getElem?_modify] at h5
    cases hsi : sps[id']? with
    | none => rw [hsi] at h5; simp at h5
    | some b =>
      rw [hsi] at h5
      refine ⟨b, rfl, ?_⟩
      by_cases hxi : id = id'
      · subst hxi
        have : b = sp := Option.some.inj (hsi.symm.trans hsp)
        subst this
        simp only [if_true, Option.map_eq_map, Option.map_some, Option.some.injEq] at h5
        subst h5
        show List.Forall₂ _ b.ptcl (b.ptcl.mapIdx _)
        rw [List.forall₂_iff_get]
        refine ⟨by simp, fun i g1 g2 => ?_⟩
        have e : b.ptcl.getD i noPtcl = b.ptcl[i] := by
          rw [List.getD_eq_getElem?_getD, List.getElem?_eq_getElem g1]; rfl
        have hli := hlev' i g1
        rw [e] at hli
        simp only [List.get_eq_getElem, List.getElem_mapIdx]
        refine ⟨trivial, by omega, fun I' hI' hle => ?_⟩
        have : I' = I := Option.some.inj (hI'.symm.trans hI)
        subst this
        rw [hli]
        split_ifs with hfi
        · have : b.ions.level i < I'.P.levelMax := by
            simp only [fires, Bool.and_eq_true, decide_eq_true_eq] at hfi; exact hfi.1
          rw [show b.ions.level i = (b.ptcl.getD i noPtcl).push.level from rfl, e] at this
          exact this
        · exact hle
      · simp only [hxi, if_false, Option.map_eq_map, Option.map_some, Option.some.injEq] at h5
        subst h5
        exact List.forall₂_same.2 fun _ _ => ⟨rfl, le_rfl, fun _ _ h => h⟩
  · rw [a5, a6, hsnd fun l => l.length]
    have m1 := modify_sum (fun sp : Species => sp.ptcl.length) f sp sps id hsp
    have m2 := modify_sum (fun sp : Species => if sp.ionizable then (sp.ptcl.map fun p => p.push.level).sum else 0)
      f sp sps id hsp
    have e1 : (f sp).ptcl.length = sp.ptcl.length := by simp [hf, Species.setLevels]
    have e2 : ((List.range I.P.nLevels).map fun i => ((newElectrons I.P sp.ions dec i).map freeElectron).length).sum
        = ∑ ip ∈ Finset.range sp.ptcl.length, if fires I.P sp.ions dec ip then 1 else 0 := by
      refine Eq.trans ?_ (new_sum I.P sp.ions dec hlow fun _ => (1 : ℕ))
      simp
    have e3 : (if (f sp).ionizable then ((f sp).ptcl.map fun p => p.push.level).sum else 0)
        = (if sp.ionizable then (sp.ptcl.map fun p => p.push.level).sum else 0)
          + ∑ ip ∈ Finset.range sp.ptcl.length, if fires I.P sp.ions dec ip then 1 else 0 := by
      rw [show (f sp).ionizable = sp.ionizable from rfl, if_pos hion, if_pos hion, hsum1, getD_sum noPtcl,
        ← Finset.sum_add_distrib]
      exact Finset.sum_congr rfl fun i hi => hlev' i (Finset.mem_range.1 hi)
    simp only [e1] at m1
    simp only [e3] at m2
    rw [e2]
    have m1' : (sps1.map fun sp => sp.ptcl.length).sum = (sps.map fun sp => sp.ptcl.length).sum :=
      add_right_cancel m1
    rw [m1']
    have m2' : (sps1.map fun sp => if sp.ionizable then (sp.ptcl.map fun p => p.push.level).sum else 0).sum
        = ((sps.modify id f).map fun sp => if sp.ionizable then (sp.ptcl.map fun p => p.push.level).sum else 0).sum := rfl
    omega

/-- All species. -/
theorem ionizeAll_rel {c : Cfg} {s : Sim} (hok : IonizersOk c ionizers s.species) (cl : ℝ) (ch : Chance) :
    ∃ sps, ionizeAll ionizers cl ch s = .ok { s with species := sps } ∧ IonRelS ionizers s.species sps := by
  have key : ∀ (l : List ℕ) (sps : List Species), IonizersOk c ionizers sps → ∃ sps', l.foldlM (fun sps id =>
      match ionizers id with
      | none => (.ok sps : Except PyErr (List Species))
      | some I => I.handle cl (ch.draw s.iteration id) (ch.junk s.iteration id) id sps) sps = .ok sps' ∧
      IonRelS ionizers sps sps' := by
    intro l
    induction l with
    | nil => intro sps _; exact ⟨sps, rfl, .refl sps⟩
    | cons id l ih =>
      intro sps h
      rw [List.foldlM_cons]
      cases hI : ionizers id with
      | none =>
        obtain ⟨t, h1, h2⟩ := ih sps h
        exact ⟨t, (except_bind_ok _ _ _).2 ⟨sps, rfl, h1⟩, h2⟩
      | some I =>
        obtain ⟨t, h1, h2⟩ := handle_rel h hI cl (ch.draw s.iteration id) (ch.junk s.iteration id)
        obtain ⟨u, h3, h4⟩ := ih t (h2.ok h)
        exact ⟨u, (except_bind_ok _ _ _).2 ⟨t, h1, h3⟩, h2.trans h4⟩
  obtain ⟨t, h1, h2⟩ := key (List.range s.species.length) s.species hok
  exact ⟨t, (except_bind_ok _ _ _).2 ⟨t, h1, rfl⟩, h2⟩

/-! ### Which ions, and where the electrons go -/

/-- One species after electrons were added to several ones. -/
theorem grow_get (j : ℕ) : ∀ (xs : List (ℕ × List Ptcl)) (sps : List Species) (e : Species), sps[j]? = some e →
    (xs.foldl (fun sps x => growSpecies sps x.1 x.2) sps)[j]?
      = some { e with ptcl := e.ptcl ++ (xs.filter fun x => x.1 = j).flatMap fun x => x.2 }
  | [], sps, e, h => by simp [h]
  | x :: xs, sps, e, h => by
    rw [List.foldl_cons]
    by_cases hx : x.1 = j
    · rw [grow_get j xs _ { e with ptcl := e.ptcl ++ x.2 } (by simp [growSpecies, List.getElem?_modify, hx, h])]
      simp [hx]
    · rw [grow_get j xs _ e (by simp [growSpecies, List.getElem?_modify, hx, h])]
      simp [hx]

theorem fires_iff (I : Ionizer) (cl : ℝ) (draw : ℕ → ℝ) (sp : Species) {ip : ℕ} (h : ip < sp.ptcl.length) :
    fires I.P sp.ions (Adk.ionDecide I.adk (fun ip => (sp.ptcl.getD ip noPtcl).probe cl) draw) ip = true
      ↔ Spec.Freed I cl draw sp ip := by
  have hg : sp.ptcl[ip]? = some (sp.ptcl.getD ip noPtcl) := by
    rw [List.getD_eq_getElem?_getD, List.getElem?_eq_getElem h]; rfl
  have hd : ∀ l, Adk.ionDecide I.adk (fun ip => (sp.ptcl.getD ip noPtcl).probe cl) draw ip l = true
      ↔ ∃ pr, Adk.ionProb I.adk ((sp.ptcl.getD ip noPtcl).probe cl) l = some pr ∧ draw ip < pr := by
    intro l
    unfold Adk.ionDecide
    cases Adk.ionProb I.adk ((sp.ptcl.getD ip noPtcl).probe cl) l <;> simp
  unfold fires
  rw [Bool.and_eq_true, decide_eq_true_iff, hd]
  constructor
  · intro h; exact ⟨_, hg, h.1, h.2⟩
  · rintro ⟨p, h1, h2, h3⟩
    have : sp.ptcl.getD ip noPtcl = p := Option.some.inj (hg.symm.trans h1)
    subst this
    exact ⟨h2, h3⟩

open Classical in
/-- The species that is ionized, and those that are not concerned. -/
theorem handle_ions {c : Cfg} {sps : List Species} (hok : IonizersOk c ionizers sps) {id : ℕ} {I : Ionizer}
    (hI : ionizers id = some I) (cl : ℝ) (draw : ℕ → ℝ) (J : Junk ℝ IonAttr) {sp : Species} (hsp : sps[id]? = some sp)
    {sps' : List Species} (hrun : I.handle cl draw J id sps = .ok sps') :
    (∃ sp', sps'[id]? = some sp' ∧ sp'.ptcl.length = sp.ptcl.length ∧ ∀ ip p, sp.ptcl[ip]? = some p →
      sp'.ptcl[ip]? = some (Spec.raised p (if Spec.Freed I cl draw sp ip then 1 else 0))) ∧
    (∀ (j : ℕ) (e : Species), j ≠ id → sps[j]? = some e → ∃ e', sps'[j]? = some e' ∧ e'.head = e.head ∧
      e'.ptcl = e.ptcl ++ ((List.range I.P.nLevels).filter fun i => I.targets[i]? = some j).flatMap
        (Spec.freedElectrons I cl draw sp)) := by
  obtain ⟨lev, h1, h2⟩ := handle_run hok hI cl draw J hsp
  have he := Except.ok.inj (hrun.symm.trans h1)
  have hno : ∀ j ∈ I.targets, j ≠ id := by
    rintro j hj rfl
    obtain ⟨e, h3, h4, -⟩ := hok.target j I hI sp hsp j hj
    obtain ⟨sp1, h5, h6, -⟩ := hok.ion j I hI
    have := Option.some.inj (h3.symm.trans h5)
    subst this
    rw [h4] at h6
    cases h6
  refine ⟨?_, fun j e hj hje => ?_⟩
  · refine ⟨sp.setLevels lev, ?_, by simp [Species.setLevels], fun ip p hp => ?_⟩
    · rw [he, grow_get id _ _ (sp.setLevels lev) (by simp [List.getElem?_modify, hsp])]
      rw [List.filter_eq_nil_iff.2]
      · simp
      · intro x hx
        simpa using hno _ (List.of_mem_zip hx).1
    · obtain ⟨hi, rfl⟩ := List.getElem?_eq_some_iff.1 hp
      have h3 := h2 ip hi
      have e : sp.ptcl.getD ip noPtcl = sp.ptcl[ip] := by
        rw [List.getD_eq_getElem?_getD, List.getElem?_eq_getElem hi]; rfl
      rw [e] at h3
      simp only [fires_iff I cl draw sp hi] at h3
      simp [Species.setLevels, h3, hi, Spec.raised]
  · refine ⟨_, (congrArg (fun l => l[j]?) he).trans
      (grow_get j _ _ e (by simp [List.getElem?_modify, hje, Ne.symm hj])), rfl, ?_⟩
    refine congrArg (e.ptcl ++ ·) ?_
    have hc := hok.count id I hI
    have hel : ∀ i, (newElectrons I.P sp.ions (Adk.ionDecide I.adk (fun ip => (sp.ptcl.getD ip noPtcl).probe cl) draw) i).map
        freeElectron = Spec.freedElectrons I cl draw sp i := by
      intro i
      unfold newElectrons Spec.freedElectrons
      rw [List.map_map]
      have : ((List.range sp.ions.Ntot).filter fun ip => fires I.P sp.ions
            (Adk.ionDecide I.adk (fun ip => (sp.ptcl.getD ip noPtcl).probe cl) draw) ip && routed I.P i (sp.ions.level ip))
          = (List.range sp.ptcl.length).filter fun ip => Spec.Freed I cl draw sp ip ∧
            (I.P.storePerLevel = true → (sp.ptcl.getD ip noPtcl).push.level = I.P.levelStart + i) := by
        refine List.filter_congr fun ip hip => ?_
        rw [Bool.eq_iff_iff, Bool.and_eq_true, fires_iff I cl draw sp (List.mem_range.1 hip), decide_eq_true_iff]
        refine and_congr Iff.rfl ?_
        unfold routed
        cases I.P.storePerLevel
        · simp
        · simp [Species.ions]
      rw [this]
      rfl
    simp only [hel]
    have hz : ∀ (l : List ℕ) (g : ℕ → List Ptcl), ((l.zip ((List.range l.length).map g)).filter fun x => x.1 = j).flatMap
        (fun x => x.2) = ((List.range l.length).filter fun i => l[i]? = some j).flatMap g := by
      intro l
      induction l with
      | nil => intro g; rfl
      | cons a l ih =>
        intro g
        rw [List.length_cons, List.range_succ_eq_map, List.map_cons, List.zip_cons_cons, List.map_map]
        rw [List.filter_cons, List.filter_cons]
        have := ih (g ∘ Nat.succ)
        have e2 : ((List.range l.length).map Nat.succ).filter (fun i => (a :: l)[i]? = some j)
            = ((List.range l.length).filter fun i => l[i]? = some j).map Nat.succ := by
          rw [List.filter_map]
          rfl
        rw [e2]
        by_cases ha : a = j
        · simp [ha, this, List.flatMap_map]
          rfl
        · simp [ha, this, List.flatMap_map]
          rfl
    rw [← hc]
    exact hz I.targets _

open Classical in
/-- The ions after all species were handled. -/
theorem ionizeAll_ions {c : Cfg} {s : Sim} (hok : IonizersOk c ionizers s.species) (cl : ℝ) (ch : Chance) {t : Sim}
    (ht : ionizeAll ionizers cl ch s = .ok t) {id : ℕ} {I : Ionizer} (hI : ionizers id = some I) {sp : Species}
    (hsp : s.species[id]? = some sp) : ∃ sp', t.species[id]? = some sp' ∧ sp'.ptcl.length = sp.ptcl.length ∧
      ∀ ip p, sp.ptcl[ip]? = some p → sp'.ptcl[ip]? = some (Spec.raised p (if Spec.Freed I cl (ch.draw s.iteration id) sp ip then 1 else 0)) := by
  have key : ∀ (l : List ℕ) (sps sps' : List Species), l.Nodup → IonizersOk c ionizers sps →
      l.foldlM (fun sps id => match ionizers id with
      | none => (.ok sps : Except PyErr (List Species))
      | some I => I.handle cl (ch.draw s.iteration id) (ch.junk s.iteration id) id sps) sps = .ok sps' →
      sps[id]? = some sp → (id ∉ l → sps'[id]? = some sp) ∧ (id ∈ l → ∃ sp', sps'[id]? = some sp' ∧
        sp'.ptcl.length = sp.ptcl.length ∧
        ∀ ip p, sp.ptcl[ip]? = some p → sp'.ptcl[ip]? = some (Spec.raised p (if Spec.Freed I cl (ch.draw s.iteration id) sp ip then 1 else 0))) := by
    have stay : ∀ (l : List ℕ) (sp : Species) (sps sps' : List Species), sp.ionizable = true → IonizersOk c ionizers sps →
        l.foldlM (fun sps id => match ionizers id with
        | none => (.ok sps : Except PyErr (List Species))
        | some I => I.handle cl (ch.draw s.iteration id) (ch.junk s.iteration id) id sps) sps = .ok sps' →
        sps[id]? = some sp → id ∉ l → sps'[id]? = some sp := by
      intro l sp
      induction l with
      | nil => intro sps sps' _ _ h1 h2 _; rw [← Except.ok.inj h1]; exact h2
      | cons a l ih =>
        intro sps sps' hi hk h1 h2 h3
        rw [List.foldlM_cons] at h1
        obtain ⟨u, g1, g2⟩ := (except_bind_ok _ _ _).1 h1
        cases hA : ionizers a with
        | none =>
          rw [hA] at g1
          have := Except.ok.inj g1
          subst this
          exact ih _ sps' hi hk g2 h2 fun h => h3 (by simp [h])
        | some A =>
          rw [hA] at g1
          obtain ⟨v, k1, k2⟩ := handle_rel hk hA cl (ch.draw s.iteration a) (ch.junk s.iteration a)
          have : v = u := Except.ok.inj (k1.symm.trans g1)
          subst this
          obtain ⟨spa, m1, -⟩ := hk.ion a A hA
          have hne : id ≠ a := fun h => h3 (by simp [h])
          obtain ⟨e', m2, m3, m4⟩ := (handle_ions hk hA cl _ _ m1 g1).2 id sp hne h2
          have hnt : ((List.range A.P.nLevels).filter fun i => A.targets[i]? = some id) = [] := by
            refine List.filter_eq_nil_iff.2 fun i _ h => ?_
            obtain ⟨e, n1, n2, -⟩ := hk.target a A hA spa m1 id (List.mem_of_getElem? (by simpa using h))
            have := Option.some.inj (n1.symm.trans h2)
            subst this
            rw [n2] at hi; cases hi
          rw [hnt] at m4
          have : e' = sp := by
            cases e'; cases sp
            simp only [Species.head, Species.mk.injEq] at m3
            simp only [List.flatMap_nil, List.append_nil] at m4
            subst m4
            simp [m3]
          subst this
          exact ih _ sps' hi (k2.ok hk) g2 m2 fun h => h3 (by simp [h])
    intro l
    induction l with
    | nil =>
      intro sps sps' _ _ h1 h2
      rw [← Except.ok.inj h1]
      exact ⟨fun _ => h2, fun h => by simp at h⟩
    | cons a l ih =>
      intro sps sps' hn hk h1 h2
      obtain ⟨sp0, q1, q2, -⟩ := hk.ion id I hI
      have := Option.some.inj (q1.symm.trans h2)
      subst this
      refine ⟨fun h => stay _ _ sps sps' q2 hk h1 h2 h, fun h => ?_⟩
      obtain ⟨hn1, hn2⟩ := List.nodup_cons.1 hn
      rw [List.foldlM_cons] at h1
      obtain ⟨u, g1, g2⟩ := (except_bind_ok _ _ _).1 h1
      by_cases ha : a = id
      · subst ha
        rw [hI] at g1
        obtain ⟨v, k1, k2⟩ := handle_rel hk hI cl (ch.draw s.iteration a) (ch.junk s.iteration a)
        have : v = u := Except.ok.inj (k1.symm.trans g1)
        subst this
        obtain ⟨sp', m1, m2, m3⟩ := (handle_ions hk hI cl _ _ h2 g1).1
        obtain ⟨spv, r1, r2⟩ := head_get k2.head h2
        have : spv = sp' := Option.some.inj (r1.symm.trans m1)
        subst this
        exact ⟨spv, stay _ _ v sps' ((head_iff.1 r2).2.2.2.2.1.trans q2) (k2.ok hk) g2 m1 hn1, m2, m3⟩
      · have hu : IonizersOk c ionizers u ∧ u[id]? = some sp0 := by
          have h1' : [a].foldlM (fun sps id => match ionizers id with
            | none => (.ok sps : Except PyErr (List Species))
            | some I => I.handle cl (ch.draw s.iteration id) (ch.junk s.iteration id) id sps) sps = .ok u := by
            rw [List.foldlM_cons]
            exact (except_bind_ok _ _ _).2 ⟨u, g1, rfl⟩
          refine ⟨?_, stay [a] _ sps u q2 hk h1' h2 (by simpa using Ne.symm ha)⟩
          cases hA : ionizers a with
          | none =>
            rw [hA] at g1
            rw [← Except.ok.inj g1]; exact hk
          | some A =>
            rw [hA] at g1
            obtain ⟨v, k1, k2⟩ := handle_rel hk hA cl (ch.draw s.iteration a) (ch.junk s.iteration a)
            rw [← Except.ok.inj (k1.symm.trans g1)]
            exact k2.ok hk
        exact (ih u sps' hn2 hu.1 g2 hu.2).2 (by simpa [Ne.symm ha] using h)
  obtain ⟨sps', h1, h2⟩ := (except_bind_ok _ _ _).1 ht
  have ht' := Except.ok.inj h2
  rw [← ht']
  exact (key _ s.species sps' List.nodup_range hok h1 hsp).2
    (List.mem_range.2 (List.getElem?_eq_some_iff.1 hsp).1)

end Fbpic.Pic
