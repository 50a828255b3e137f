import Verif.Spec.PtclFile
import Verif.Props.FieldDiag

/-!
# Lemmas on the particle file
-/

namespace Fbpic.PFile

open Fbpic.Spec.PFile

variable {K : Type}

/-! ### Attributes -/

/-- The attributes `a`, and those of `b` that `a` does not have. -/
def Attrs.over (a b : Attrs K) : Attrs K := fun k => (a k).orElse fun _ => b k

theorem put_over (a b : Attrs K) (l : List (String × Val K)) :
    Attrs.put (Attrs.over a b) l = Attrs.over (Attrs.put a l) b := by
  induction l generalizing a with
  | nil => rfl
  | cons x l ih =>
    have hx : (fun k => if k = x.1 then some x.2 else Attrs.over a b k)
        = Attrs.over (fun k => if k = x.1 then some x.2 else a k) b := by
      funext k
      by_cases h : k = x.1 <;> simp [Attrs.over, h]
    show Attrs.put (fun k => if k = x.1 then some x.2 else Attrs.over a b k) l = _
    rw [hx, ih]
    rfl

theorem empty_over (b : Attrs K) : Attrs.over (fun _ => none) b = b := by
  funext k
  simp [Attrs.over]

theorem put_append (a : Attrs K) (l l' : List (String × Val K)) :
    Attrs.put (Attrs.put a l) l' = Attrs.put a (l ++ l') := by
  simp [Attrs.put, List.foldl_append]

theorem put_table (l : List (String × Val K)) (h : (l.map Prod.fst).Nodup) (a : Attrs K) :
    Attrs.put a l = Attrs.over (table l) a := by
  induction l generalizing a with
  | nil =>
    funext k
    simp [Attrs.put, Attrs.over, table]
  | cons x l ih =>
    obtain ⟨x1, x2⟩ := x
    rw [List.map_cons, List.nodup_cons] at h
    show Attrs.put (fun k => if k = x1 then some x2 else a k) l = _
    rw [ih h.2]
    funext k
    by_cases hk : k = x1
    · subst hk
      have : l.lookup k = none := by
        rw [List.lookup_eq_none_iff]
        intro p hp
        have hm : p.1 ∈ l.map Prod.fst := List.mem_map_of_mem hp
        have : k ≠ p.1 := fun e => h.1 (e ▸ hm)
        exact bne_iff_ne.2 this
      simp [Attrs.over, table, this, List.lookup_cons]
    · have : (k == x1) = false := by simpa using hk
      simp [Attrs.over, table, List.lookup_cons, this, hk]

/-! ### Trees over trees -/

/-- Attributes of a group. -/
def attrsAt : Option (Node K) → Attrs K
  | some (.group a) => a
  | _ => fun _ => none

/-- The tree `W` written over the tree `T`. -/
def over (W T : H5Tree K) : H5Tree K := fun r =>
  match W r with
  | none => T r
  | some (.group a) => some (.group (Attrs.over a (attrsAt (T r))))
  | some (.dset d a) => some (.dset d a)

theorem over_none (T : H5Tree K) : over (fun _ => none) T = T := rfl

theorem over_eq {W T : H5Tree K} {r : Path} (h : T r = none) : over W T r = W r := by
  unfold over
  rw [h]
  rcases hW : W r with _ | n
  · rfl
  · cases n with
    | group a =>
      have : Attrs.over a (attrsAt (none : Option (Node K))) = a := by
        funext k
        simp only [Attrs.over, attrsAt]
        cases a k <;> rfl
      simp only [this]
    | dset d a => rfl

theorem not_isDset_over {W T : H5Tree K} {r : Path} (hW : isDset (W r) = false) (hT : isDset (T r) = false) :
    isDset (over W T r) = false := by
  unfold over
  rcases h : W r with _ | n
  · exact hT
  · cases n with
    | group a => rfl
    | dset d a => rw [h] at hW; exact hW

theorem blocked_eq {T : H5Tree K} {p : Path} (h : ∀ q, q <+: p → q ≠ p → isDset (T q) = false) :
    blocked T p = false := by
  unfold blocked
  rw [List.any_eq_false]
  intro q hq
  rw [List.mem_inits] at hq
  by_cases e : q = p
  · simp [e]
  · simp [e, h q hq e]

/-- The groups on the way to `p`. -/
def way (W : H5Tree K) (p : Path) : H5Tree K := fun q => if q <+: p then some ((W q).getD .empty) else W q

/-- `W` with a node at `p`. -/
def place (W : H5Tree K) (p : Path) (n : Node K) : H5Tree K := fun q => if q = p then some n else W q

theorem setAttrs_over {W T : H5Tree K} {p : Path} {n : Node K} (h : W p = some n) (l : List (String × Val K)) :
    setAttrs (over W T) p l = .ok (over (place W p (n.put l)) T) := by
  unfold setAttrs
  cases n with
  | group a =>
    have e : over W T p = some (.group (Attrs.over a (attrsAt (T p)))) := by simp only [over, h]
    rw [e]
    refine congrArg Except.ok (funext fun q => ?_)
    by_cases hq : q = p
    · subst hq
      simp [over, place, Node.put, put_over]
    · simp only [over, place, if_neg hq]
  | dset d a =>
    have e : over W T p = some (.dset d a) := by simp only [over, h]
    rw [e]
    refine congrArg Except.ok (funext fun q => ?_)
    by_cases hq : q = p
    · subst hq
      simp [over, place, Node.put]
    · simp only [over, place, if_neg hq]

theorem way_over {W T : H5Tree K} {q : Path} (hW : isDset (W q) = false) (hT : isDset (T q) = false) :
    some ((over W T q).getD .empty)
      = (match (some ((W q).getD .empty) : Option (Node K)) with
        | none => T q
        | some (.group a) => some (.group (Attrs.over a (attrsAt (T q))))
        | some (.dset d a) => some (.dset d a)) := by
  unfold over
  rcases h : W q with _ | n
  · rcases h' : T q with _ | m
    · simp [Node.empty, attrsAt, empty_over]
    · cases m with
      | group a => simp [Node.empty, attrsAt, empty_over]
      | dset d a => rw [h'] at hT; simp [isDset] at hT
  · cases n with
    | group a => simp
    | dset d a => simp

theorem requireGroup_over {W T : H5Tree K} {p : Path}
    (h : ∀ q, q <+: p → isDset (W q) = false ∧ isDset (T q) = false) :
    requireGroup (over W T) p = .ok (over (way W p) T) := by
  have hb : blocked (over W T) p = false := blocked_eq fun q hq _ => not_isDset_over (h q hq).1 (h q hq).2
  have hp := h p (List.prefix_refl p)
  unfold requireGroup
  rw [hb, not_isDset_over hp.1 hp.2]
  refine congrArg Except.ok (funext fun q => ?_)
  by_cases hq : q <+: p
  · simp only [over, way, if_pos hq]
    exact way_over (h q hq).1 (h q hq).2
  · simp only [over, way, if_neg hq]

variable [Zero K] [One K]

theorem writeDataset_over {W T : H5Tree K} {s : Spc K} {p : Path} {q : Qty} {d : Data K}
    (hd : s.content q = .ok d)
    (h : ∀ r, r <+: p → r ≠ p → isDset (W r) = false ∧ isDset (T r) = false)
    (hb : ∀ r, p <+: r → r ≠ p → W r = none ∧ T r = none) :
    writeDataset (over W T) s p q
      = .ok (over (place (way W p) p (.dset d (Attrs.put (fun _ => none) [("unitSI", .num 1)]))) T) := by
  have hdel : ∀ r, r <+: p → r ≠ p →
      (if (over W T p).isSome then delete (over W T) p else over W T) r = over W T r := by
    intro r hr hne
    have : ¬ p <+: r := fun hpr => hne (List.IsPrefix.eq_of_length_le hr hpr.length_le)
    split_ifs <;> simp [delete, this]
  have hnone : (if (over W T p).isSome then delete (over W T) p else over W T) p = none := by
    by_cases hs : (over W T p).isSome
    · simp [hs, delete]
    · rw [if_neg hs]
      simpa using hs
  have hout : ∀ r, ¬ r <+: p →
      (if (over W T p).isSome then delete (over W T) p else over W T) r = over W T r := by
    intro r hr
    by_cases hs : (over W T p).isSome
    · rw [if_pos hs]
      unfold delete
      by_cases hpr : p <+: r
      · rw [if_pos hpr]
        have hne : r ≠ p := fun e => hr (e ▸ List.prefix_refl _)
        simp [over, (hb r hpr hne).1, (hb r hpr hne).2]
      · rw [if_neg hpr]
    · rw [if_neg hs]
  unfold writeDataset
  simp only [hd, bind, Except.bind]
  generalize (if (over W T p).isSome then delete (over W T) p else over W T) = X at hdel hnone hout
  have hbl : blocked X p = false := blocked_eq fun r hr hne => by
    rw [hdel r hr hne]
    exact not_isDset_over (h r hr hne).1 (h r hr hne).2
  unfold createDataset
  simp only [hbl, hnone, Option.isSome_none, Bool.false_eq_true, if_false]
  have hX : (fun r => if r = p then some (Node.dset d fun _ => none)
      else if r <+: p then some ((X r).getD .empty) else X r)
      = over (place (way W p) p (.dset d fun _ => none)) T := by
    funext r
    by_cases hr : r = p
    · simp [hr, over, place]
    · rw [if_neg hr]
      by_cases hp : r <+: p
      · rw [if_pos hp, hdel r hp hr]
        simp only [over, place, way, if_neg hr, if_pos hp]
        exact way_over (h r hp hr).1 (h r hp hr).2
      · rw [if_neg hp, hout r hp]
        simp only [over, place, way, if_neg hr, if_neg hp]
  rw [hX]
  unfold setupComponent
  rw [setAttrs_over (n := .dset d fun _ => none) (by simp [place])]
  refine congrArg (fun w => Except.ok (over w T)) (funext fun r => ?_)
  by_cases hr : r = p <;> simp [place, hr, Node.put]

/-! ### The group of a species -/

theorem table_put (l : List (String × Val K)) (h : (l.map Prod.fst).Nodup) :
    Attrs.put (fun _ => none) l = table l := by
  rw [put_table l h]
  funext k
  simp [Attrs.over]

theorem recordList_eq (r : Record) : recordList (K := K) r = .ok (recordTable r) := by
  obtain ⟨d1, d2, d3, d4, d5, d6, d7, d8, d9, d10, d11, d12, d13, d14, d15⟩ := FieldDiag.C77_dimensions
  have hm : FieldDiag.unitDimension "mass" = some Fbpic.Spec.Dim.length := FieldDiag.C77_mass_violated.1
  rcases r with (v | v | v | v) | (v | v | v | v) | _ | _ <;>
    simp [recordList, recordTable, Record.str, macroWeighted, weightingPower, dimension, macroscopic, power, *]

omit [Zero K] [One K] in
theorem place_place (W : H5Tree K) (p : Path) (n m : Node K) : place (place W p n) p m = place W p m := by
  funext q
  by_cases h : q = p <;> simp [place, h]

omit [Zero K] [One K] in
theorem place_self (W : H5Tree K) (p : Path) (n : Node K) : place W p n p = some n := by simp [place]

omit [Zero K] [One K] in
theorem way_eq {W : H5Tree K} {p : Path} (h : ∀ q, q <+: p → q ≠ p → (W q).isSome) (hp : W p = none) :
    way W p = place W p .empty := by
  funext q
  unfold way place
  by_cases e : q = p
  · simp [e, hp]
  · rw [if_neg e]
    by_cases hq : q <+: p
    · rw [if_pos hq]
      obtain ⟨n, hn⟩ := Option.isSome_iff_exists.1 (h q hq e)
      simp [hn]
    · rw [if_neg hq]

omit [Zero K] [One K] in
theorem put_empty (l : List (String × Val K)) : (Node.empty : Node K).put l = .group (Attrs.put (fun _ => none) l) := rfl

theorem setupConstant_over {W T : H5Tree K} {r : Record} {a : Attrs K} (h0 : W [] = some (.group a))
    (hr : W [.record r] = none) (t0 : isDset (T []) = false) (tr : isDset (T [.record r]) = false) :
    setupConstant (over W T) r = .ok (over (place W [.record r]
      (.group (Attrs.put (fun _ => none) (recordTable r ++ [("unitSI", .num 1)] ++ [("shape", .shape [1])])))) T) := by
  have hpre : ∀ q : Path, q <+: [Key.record r] → q = [] ∨ q = [.record r] := by
    intro q hq
    rcases q with _ | ⟨k, _ | ⟨k', q⟩⟩
    · exact Or.inl rfl
    · simp at hq; exact Or.inr (by rw [hq])
    · simp at hq
  have hw : way W [.record r] = place W [.record r] .empty := by
    refine way_eq (fun q hq hne => ?_) hr
    rcases hpre q hq with rfl | rfl
    · rw [h0]; rfl
    · exact absurd rfl hne
  unfold setupConstant setupRecord setupComponent
  rw [requireGroup_over (fun q hq => by
    rcases hpre q hq with rfl | rfl
    · exact ⟨by rw [h0]; rfl, t0⟩
    · exact ⟨by rw [hr]; rfl, tr⟩), hw]
  simp only [bind, Except.bind, recordList_eq]
  rw [setAttrs_over (place_self _ _ _)]
  simp only [place_place]
  rw [setAttrs_over (place_self _ _ _)]
  simp only [place_place]
  rw [setAttrs_over (place_self _ _ _)]
  simp only [place_place, Node.put, Node.empty, put_append]

theorem setupOffset_over {W T : H5Tree K} {c : Xyz} {a b : Attrs K} (h0 : W [] = some (.group a))
    (h1 : W [.record .positionOffset] = some (.group b)) (hr : W [.record .positionOffset, .comp c] = none)
    (t0 : isDset (T []) = false) (t1 : isDset (T [.record .positionOffset]) = false)
    (tr : isDset (T [.record .positionOffset, .comp c]) = false) :
    setupOffset (over W T) c = .ok (over (place W [.record .positionOffset, .comp c]
      (.group (Attrs.put (fun _ => none) ([("unitSI", .num 1)] ++ [("shape", .shape [1])])))) T) := by
  have hpre : ∀ q : Path, q <+: [Key.record .positionOffset, .comp c] →
      q = [] ∨ q = [.record .positionOffset] ∨ q = [.record .positionOffset, .comp c] := by
    intro q hq
    rcases q with _ | ⟨k, _ | ⟨k', _ | ⟨k2, q⟩⟩⟩
    · exact Or.inl rfl
    · simp at hq; exact Or.inr (Or.inl (by rw [hq]))
    · simp at hq; exact Or.inr (Or.inr (by rw [hq.1, hq.2]))
    · simp at hq
  have hw : way W [.record .positionOffset, .comp c] = place W [.record .positionOffset, .comp c] .empty := by
    refine way_eq (fun q hq hne => ?_) hr
    rcases hpre q hq with rfl | rfl | rfl
    · rw [h0]; rfl
    · rw [h1]; rfl
    · exact absurd rfl hne
  unfold setupOffset setupComponent
  rw [requireGroup_over (fun q hq => by
    rcases hpre q hq with rfl | rfl | rfl
    · exact ⟨by rw [h0]; rfl, t0⟩
    · exact ⟨by rw [h1]; rfl, t1⟩
    · exact ⟨by rw [hr]; rfl, tr⟩), hw]
  simp only [bind, Except.bind]
  rw [setAttrs_over (place_self _ _ _)]
  simp only [place_place]
  rw [setAttrs_over (place_self _ _ _)]
  simp only [place_place, Node.put, Node.empty, put_append]

/-- The group of a species before the arrays are written. -/
def baseTree (s : Spc K) : H5Tree K
  | [] => some (.group (table speciesTable))
  | [.record (.scal .charge)] =>
    if s.ionizable then none else some (.group (table (recordTable (.scal .charge) ++ constant s.charge)))
  | [.record .mass] => some (.group (table (recordTable .mass ++ constant s.mass)))
  | [.record .positionOffset] => some (.group (table (recordTable .positionOffset)))
  | [.record .positionOffset, .comp _] => some (.group (table (constant 0)))
  | _ => none

theorem constList_eq (r : Record) (v : K) :
    Attrs.put (fun _ => none) (recordTable r ++ [("unitSI", .num 1)] ++ [("shape", .shape [1])] ++ [("value", .num v)])
      = table (recordTable r ++ constant v) := by
  rw [table_put _ (by simp [recordTable])]
  simp [constant]

theorem offsetList_eq :
    Attrs.put (fun _ => none) ([("unitSI", .num 1)] ++ [("shape", .shape [1])] ++ [("value", Val.num (0 : K))])
      = table (constant 0) := by
  rw [table_put _ (by simp)]
  simp [constant]

theorem over_root {T : H5Tree K} {a : Attrs K} (h : T [] = some (.group a)) :
    over (place (fun _ => none) [] .empty) T = T := by
  funext q
  by_cases e : q = []
  · subst e
    simp [over, place, Node.empty, h, attrsAt, empty_over]
  · simp [over, place, e]

/-- The records of constants, the offset without its components. -/
def constTree (s : Spc K) : H5Tree K :=
  let W := place (place (fun _ => none) [] (.group (table speciesTable))) [.record .mass]
    (.group (table (recordTable .mass ++ constant s.mass)))
  place (if s.ionizable then W else place W [.record (.scal .charge)]
    (.group (table (recordTable (.scal .charge) ++ constant s.charge))))
    [.record .positionOffset] (.group (table (recordTable .positionOffset)))

omit [Zero K] [One K] in
theorem place_comm (W : H5Tree K) {p q : Path} (h : p ≠ q) (n m : Node K) :
    place (place W p n) q m = place (place W q m) p n := by
  funext r
  unfold place
  by_cases h1 : r = p <;> by_cases h2 : r = q <;> simp [h1, h2]
  · exact absurd (h1.symm.trans h2) h
  · intro e; exact absurd e h
  · intro e; exact absurd e.symm h

theorem setup_consts {s : Spc K} {T : H5Tree K} (hf : Fits s T) :
    setupConstants T s (constantQuantities s) = .ok (over (constTree s) T) := by
  unfold setupConstants
  obtain ⟨a, ha⟩ := hf.root
  have t0 : isDset (T []) = false := by rw [ha]; rfl
  have hpre : ∀ q : Path, q <+: [Key.record .positionOffset] → q = [] ∨ q = [.record .positionOffset] := by
    intro q hq
    rcases q with _ | ⟨k, _ | ⟨k', q⟩⟩
    · exact Or.inl rfl
    · simp at hq; exact Or.inr (by rw [hq])
    · simp at hq
  have hs : setAttrs T [] speciesList
      = .ok (over (place (fun _ => none) [] (.group (table speciesTable))) T) := by
    conv_lhs => rw [← over_root ha]
    rw [setAttrs_over (place_self _ _ _), place_place, put_empty]
    rw [show speciesList (K := K) = speciesTable from rfl, table_put _ (by simp [speciesTable])]
  rw [hs]
  have fin : ∀ W : H5Tree K, W [] = some (.group (table speciesTable)) → W [.record .positionOffset] = none →
      (do let t ← requireGroup (over W T) [.record .positionOffset]
          setupRecord t [.record .positionOffset] .positionOffset)
        = .ok (over (place W [.record .positionOffset] (.group (table (recordTable .positionOffset)))) T) := by
    intro W h0 h1
    have hw : way W [.record .positionOffset] = place W [.record .positionOffset] .empty := by
      refine way_eq (fun q hq hne => ?_) h1
      rcases hpre q hq with rfl | rfl
      · rw [h0]; rfl
      · exact absurd rfl hne
    rw [requireGroup_over (fun q hq => by
      rcases hpre q hq with rfl | rfl
      · exact ⟨by rw [h0]; rfl, t0⟩
      · exact ⟨by rw [h1]; rfl, hf.offset⟩), hw]
    simp only [setupRecord, bind, Except.bind, recordList_eq]
    rw [setAttrs_over (place_self _ _ _), place_place, put_empty, table_put _ (by simp [recordTable])]
  by_cases hi : s.ionizable
  · simp only [constantQuantities, hi, if_true, List.append_nil, List.foldlM_cons, List.foldlM_nil, bind,
      Except.bind, pure, Except.pure]
    rw [setupConstant_over (a := table speciesTable) (by simp [place]) (by simp [place]) t0 hf.mass]
    simp only
    rw [setAttrs_over (place_self _ _ _), place_place]
    simp only [Node.put, put_append, constList_eq]
    simp only [setupCharge, List.mem_singleton, reduceCtorEq, if_false]
    have := fin (place (place (fun _ => none) [] (.group (table speciesTable))) [.record .mass]
      (.group (table (recordTable .mass ++ constant s.mass)))) (by simp [place]) (by simp [place])
    simp only [bind, Except.bind] at this
    rw [this]
    simp [constTree, hi]
  · have hi' : s.ionizable = false := by simpa using hi
    simp only [constantQuantities, hi', Bool.false_eq_true, if_false, List.cons_append, List.nil_append,
      List.foldlM_cons, List.foldlM_nil, bind, Except.bind, pure, Except.pure]
    rw [setupConstant_over (a := table speciesTable) (by simp [place]) (by simp [place]) t0 hf.mass]
    simp only
    rw [setupConstant_over (a := table speciesTable) (by simp [place]) (by simp [place]) t0 (hf.charge hi')]
    simp only
    rw [place_comm _ (by simp), setAttrs_over (place_self _ _ _), place_place]
    simp only [Node.put, put_append, constList_eq]
    rw [place_comm _ (by simp)]
    simp only [setupCharge, List.mem_cons, reduceCtorEq, false_or, List.mem_singleton, true_or, if_true]
    rw [setAttrs_over (place_self _ _ _), place_place]
    simp only [Node.put, put_append, constList_eq]
    have := fin (place (place (place (fun _ => none) [] (.group (table speciesTable))) [.record .mass]
      (.group (table (recordTable .mass ++ constant s.mass)))) [.record (.scal .charge)]
      (.group (table (recordTable (.scal .charge) ++ constant s.charge)))) (by simp [place]) (by simp [place])
    simp only [bind, Except.bind] at this
    rw [this]
    simp [constTree, hi']

omit [Zero K] [One K] in
theorem place_ne {W : H5Tree K} {p q : Path} (h : q ≠ p) (n : Node K) : place W p n q = W q := by simp [place, h]

theorem setup_over {s : Spc K} {T : H5Tree K} (hf : Fits s T) :
    setupSpeciesGroup T s (constantQuantities s) = .ok (over (baseTree s) T) := by
  obtain ⟨a, ha⟩ := hf.root
  have t0 : isDset (T []) = false := by rw [ha]; rfl
  have c0 : constTree s [] = some (.group (table speciesTable)) := by
    by_cases hi : s.ionizable <;> simp [constTree, place, hi]
  have c1 : constTree s [.record .positionOffset] = some (.group (table (recordTable .positionOffset))) := by
    by_cases hi : s.ionizable <;> simp [constTree, place, hi]
  have c2 : ∀ c, constTree s [.record .positionOffset, .comp c] = none := fun c => by
    by_cases hi : s.ionizable <;> simp [constTree, place, hi]
  unfold setupSpeciesGroup
  simp only [setup_consts hf, bind, Except.bind, List.foldlM_cons, List.foldlM_nil, pure, Except.pure]
  rw [setupOffset_over c0 c1 (c2 .x) t0 hf.offset (hf.offsets _)]
  simp only
  rw [setupOffset_over (by rw [place_ne (by simp)]; exact c0) (by rw [place_ne (by simp)]; exact c1)
    (by rw [place_ne (by simp)]; exact c2 .y) t0 hf.offset (hf.offsets _)]
  simp only
  rw [setupOffset_over (by rw [place_ne (by simp), place_ne (by simp)]; exact c0)
    (by rw [place_ne (by simp), place_ne (by simp)]; exact c1)
    (by rw [place_ne (by simp), place_ne (by simp)]; exact c2 .z) t0 hf.offset (hf.offsets _)]
  simp only
  rw [setAttrs_over (n := .group (Attrs.put (fun _ => none) ([("unitSI", .num 1)] ++ [("shape", .shape [1])])))
    (by simp [place])]
  simp only
  rw [setAttrs_over (n := .group (Attrs.put (fun _ => none) ([("unitSI", .num 1)] ++ [("shape", .shape [1])])))
    (by simp [place])]
  simp only
  rw [setAttrs_over (n := .group (Attrs.put (fun _ => none) ([("unitSI", .num 1)] ++ [("shape", .shape [1])])))
    (by simp [place])]
  simp only [Node.put, put_append, offsetList_eq]
  refine congrArg (fun w => Except.ok (over w T)) (funext fun r => ?_)
  by_cases hi : s.ionizable
  all_goals
    rcases r with _ | ⟨k, _ | ⟨k2, _ | ⟨k3, r⟩⟩⟩
    · simp [constTree, place, hi, baseTree]
    · rcases k with _ | _ | _ | _ | _ | ((v | v | v | v) | (v | v | v | v) | _ | _) | _ <;>
        simp [constTree, place, hi, baseTree]
    · rcases k with _ | _ | _ | _ | _ | (v | v | _ | _) | _ <;>
        rcases k2 with _ | _ | _ | _ | _ | _ | (_ | _ | _) <;> simp [constTree, place, hi, baseTree]
    · simp [constTree, place, hi, baseTree]

/-! ### The arrays -/

instance (v : Vec) (qs : List Qty) : Decidable (∃ c, Qty.vec v c ∈ qs) :=
  decidable_of_iff (Qty.vec v .x ∈ qs ∨ Qty.vec v .y ∈ qs ∨ Qty.vec v .z ∈ qs)
    ⟨fun h => h.elim (⟨_, ·⟩) fun h => h.elim (⟨_, ·⟩) (⟨_, ·⟩),
     fun ⟨c, hc⟩ => by cases c <;> simp [hc]⟩

/-- The group of a species after the arrays `qs`; without the attributes of the vectors. -/
def arrayTree (s : Spc K) (D : Qty → Data K) (qs : List Qty) : H5Tree K
  | [.record (.vec v)] => if ∃ c, Qty.vec v c ∈ qs then some .empty else none
  | [.record (.vec v), .comp c] =>
    if Qty.vec v c ∈ qs then some (.dset (D (.vec v c)) (table [("unitSI", .num 1)])) else none
  | [.record (.scal r)] =>
    if Qty.scal r ∈ qs then some (.dset (D (.scal r)) (table (("unitSI", .num 1) :: recordTable (.scal r))))
    else baseTree s [.record (.scal r)]
  | r => baseTree s r


theorem unit_eq : Attrs.put (fun _ => none) [("unitSI", Val.num (1 : K))] = table [("unitSI", .num 1)] :=
  table_put _ (by simp)

theorem array_vec {s : Spc K} {T : H5Tree K} {D : Qty → Data K} {qs : List Qty} (hf : Fits s T) {v : Vec} {c : Xyz}
    (hd : s.content (.vec v c) = .ok (D (.vec v c))) :
    writeQty s (over (arrayTree s D qs) T) (.vec v c) = .ok (over (arrayTree s D (qs ++ [.vec v c])) T) := by
  obtain ⟨a, ha⟩ := hf.root
  show writeDataset _ s [.record (.vec v), .comp c] (.vec v c) = _
  rw [writeDataset_over hd]
  · refine congrArg (fun w => Except.ok (over w T)) (funext fun r => ?_)
    rw [unit_eq]
    rcases r with _ | ⟨k, _ | ⟨k2, _ | ⟨k3, r⟩⟩⟩
    · simp [place, way, arrayTree, baseTree]
    · rcases k with _ | _ | _ | _ | _ | (w | (w | w | w | w) | _ | _) | _ <;>
        simp [place, way, arrayTree, baseTree]
      by_cases hw : w = v
      · subst hw
        by_cases hc : ∃ c, Qty.vec w c ∈ qs
        · have h2 : ∃ x, Qty.vec w x ∈ qs ∨ x = c := hc.imp fun _ h => Or.inl h
          simp [hc, h2]
        · have h2 : ∃ x, Qty.vec w x ∈ qs ∨ x = c := ⟨c, Or.inr rfl⟩
          simp [hc, h2]
      · simp [hw]
    · rcases k with _ | _ | _ | _ | _ | (w | (w | w | w | w) | _ | _) | _ <;>
        rcases k2 with _ | _ | _ | _ | _ | _ | d <;> simp [place, way, arrayTree, baseTree]
      by_cases hw : w = v
      · subst hw
        by_cases hc : d = c
        · simp [hc]
        · simp [hc]
      · simp [hw]
    · simp [place, way, arrayTree, baseTree]
  · intro r hr hne
    rcases r with _ | ⟨k, _ | ⟨k2, _ | ⟨k3, r⟩⟩⟩
    · exact ⟨rfl, by rw [ha]; rfl⟩
    · simp at hr
      subst hr
      refine ⟨?_, hf.vec v⟩
      simp only [arrayTree]
      split_ifs <;> rfl
    · simp at hr
      exact absurd (by rw [hr.1, hr.2]) hne
    · simp at hr
  · intro r hr hne
    rcases r with _ | ⟨k, _ | ⟨k2, _ | ⟨k3, r⟩⟩⟩
    · simp at hr
    · simp at hr
    · simp at hr
      exact absurd (by rw [hr.1, hr.2]) hne
    · simp at hr
      rw [← hr.1, ← hr.2]
      exact ⟨rfl, hf.belowVec v c k3 r⟩

theorem array_scal {s : Spc K} {T : H5Tree K} {D : Qty → Data K} {qs : List Qty} (hf : Fits s T) {q : Scal}
    (hd : s.content (.scal q) = .ok (D (.scal q))) :
    writeQty s (over (arrayTree s D qs) T) (.scal q) = .ok (over (arrayTree s D (qs ++ [.scal q])) T) := by
  obtain ⟨a, ha⟩ := hf.root
  simp only [writeQty, bind, Except.bind]
  rw [writeDataset_over hd]
  · simp only [setupRecord, recordList_eq, bind, Except.bind]
    rw [setAttrs_over (place_self _ _ _), place_place]
    refine congrArg (fun w => Except.ok (over w T)) (funext fun r => ?_)
    have hl : Node.put (.dset (D (.scal q)) (Attrs.put (fun _ => none) [("unitSI", Val.num 1)])) (recordTable (.scal q))
        = .dset (D (.scal q)) (table (("unitSI", .num 1) :: recordTable (.scal q))) := by
      simp only [Node.put, put_append]
      rw [table_put _ (by simp [recordTable])]
      rfl
    rw [hl]
    rcases r with _ | ⟨k, _ | ⟨k2, _ | ⟨k3, r⟩⟩⟩
    · simp [place, way, arrayTree, baseTree]
    · rcases k with _ | _ | _ | _ | _ | (w | w | _ | _) | _ <;>
        simp [place, way, arrayTree]
      by_cases hw : w = q
      · simp [hw]
      · simp [hw]
    · rcases k with _ | _ | _ | _ | _ | (w | w | _ | _) | _ <;>
        rcases k2 with _ | _ | _ | _ | _ | _ | d <;> simp [place, way, arrayTree]
    · simp [place, way, arrayTree]
  · intro r hr hne
    rcases r with _ | ⟨k, _ | ⟨k2, r⟩⟩
    · exact ⟨rfl, by rw [ha]; rfl⟩
    · simp at hr
      exact absurd (by rw [hr]) hne
    · simp at hr
  · intro r hr hne
    rcases r with _ | ⟨k, _ | ⟨k2, r⟩⟩
    · simp at hr
    · simp at hr
      exact absurd (by rw [hr]) hne
    · simp at hr
      rw [← hr]
      refine ⟨?_, hf.belowScal q k2 r⟩
      rcases r with _ | ⟨k3, r⟩
      · cases k2 <;> simp [arrayTree, baseTree]
      · simp [arrayTree, baseTree]

theorem array_loop {s : Spc K} {T : H5Tree K} {D : Qty → Data K} (hf : Fits s T) (qs : List Qty) (done : List Qty)
    (ho : ∀ n, Qty.other n ∉ qs) (hd : ∀ q ∈ qs, s.content q = .ok (D q)) :
    qs.foldlM (writeQty s) (over (arrayTree s D done) T) = .ok (over (arrayTree s D (done ++ qs)) T) := by
  induction qs generalizing done with
  | nil => simp [pure, Except.pure]
  | cons q qs ih =>
    have hq := hd q List.mem_cons_self
    have h1 : writeQty s (over (arrayTree s D done) T) q = .ok (over (arrayTree s D (done ++ [q])) T) := by
      cases q with
      | vec v c => exact array_vec hf hq
      | scal r => exact array_scal hf hq
      | other n => exact absurd List.mem_cons_self (ho n)
    rw [List.foldlM_cons, h1]
    show qs.foldlM (writeQty s) _ = _
    rw [ih _ (fun n hn => ho n (List.mem_cons_of_mem _ hn)) (fun q hq => hd q (List.mem_cons_of_mem _ hq))]
    simp

theorem arrayTree_nil (s : Spc K) (D : Qty → Data K) : arrayTree s D [] = baseTree s := by
  funext r
  rcases r with _ | ⟨k, _ | ⟨k2, _ | ⟨k3, r⟩⟩⟩
  · rfl
  · rcases k with _ | _ | _ | _ | _ | (w | w | _ | _) | _ <;> simp [arrayTree, baseTree]
  · rcases k with _ | _ | _ | _ | _ | (w | w | _ | _) | _ <;>
      rcases k2 with _ | _ | _ | _ | _ | _ | d <;> simp [arrayTree, baseTree]
  · simp [arrayTree]

/-- The group of a species with the attributes of the vectors `vs`. -/
def vectorTree (s : Spc K) (D : Qty → Data K) (qs : List Qty) (vs : List Vec) : H5Tree K
  | [.record (.vec v)] =>
    if Qty.vec v .x ∈ qs ∧ v ∈ vs then some (.group (table (recordTable (.vec v))))
    else arrayTree s D qs [.record (.vec v)]
  | r => arrayTree s D qs r

theorem vector_step {s : Spc K} {T : H5Tree K} {D : Qty → Data K} {qs : List Qty} {vs : List Vec} {v : Vec} (hv : v ∉ vs) :
    setupVector qs (over (vectorTree s D qs vs) T) v = .ok (over (vectorTree s D qs (vs ++ [v])) T) := by
  unfold setupVector
  by_cases hq : Qty.vec v .x ∈ qs
  · rw [if_pos hq]
    simp only [setupRecord, recordList_eq, bind, Except.bind]
    have hex : ∃ c, Qty.vec v c ∈ qs := ⟨_, hq⟩
    rw [setAttrs_over (n := .empty) (by simp only [vectorTree, arrayTree, hv, and_false, if_false, if_pos hex])]
    refine congrArg (fun w => Except.ok (over w T)) (funext fun r => ?_)
    rw [put_empty, table_put _ (by simp [recordTable])]
    rcases r with _ | ⟨k, _ | ⟨k2, r⟩⟩
    · simp [place, vectorTree]
    · rcases k with _ | _ | _ | _ | _ | (w | w | _ | _) | _ <;> simp [place, vectorTree]
      by_cases hw : w = v
      · subst hw; simp [hq]
      · simp [hw]
    · simp [place, vectorTree]
  · rw [if_neg hq]
    refine congrArg (fun w => Except.ok (over w T)) (funext fun r => ?_)
    rcases r with _ | ⟨k, _ | ⟨k2, r⟩⟩
    · simp [vectorTree]
    · rcases k with _ | _ | _ | _ | _ | (w | w | _ | _) | _ <;> simp [vectorTree]
      by_cases hw : w = v
      · subst hw; simp [hq]
      · simp [hw]
    · simp [vectorTree]

theorem vector_loop {s : Spc K} {T : H5Tree K} {D : Qty → Data K} {qs : List Qty} (vs done : List Vec)
    (h : (done ++ vs).Nodup) :
    vs.foldlM (setupVector qs) (over (vectorTree s D qs done) T) = .ok (over (vectorTree s D qs (done ++ vs)) T) := by
  induction vs generalizing done with
  | nil => simp [pure, Except.pure]
  | cons v vs ih =>
    have hv : v ∉ done := by
      intro hm
      rw [List.nodup_append] at h
      exact h.2.2 v hm v List.mem_cons_self rfl
    rw [List.foldlM_cons, vector_step hv]
    show vs.foldlM (setupVector qs) _ = _
    have h' : (done ++ [v] ++ vs).Nodup := by simpa using h
    rw [ih _ h']
    simp

theorem vectorTree_nil (s : Spc K) (D : Qty → Data K) (qs : List Qty) : vectorTree s D qs [] = arrayTree s D qs := by
  funext r
  rcases r with _ | ⟨k, _ | ⟨k2, r⟩⟩
  · rfl
  · rcases k with _ | _ | _ | _ | _ | (w | w | _ | _) | _ <;> simp [vectorTree]
  · simp [vectorTree]

/-- The whole group, for any list of quantities. -/
theorem fill_over {s : Spc K} {T : H5Tree K} {D : Qty → Data K} {pd : List PData} (hf : Fits s T)
    (ho : ∀ n, Qty.other n ∉ arrayQuantities pd s) (hd : ∀ q ∈ arrayQuantities pd s, s.content q = .ok (D q)) :
    fillSpecies pd s T
      = .ok (over (vectorTree s D (arrayQuantities pd s) [.position, .momentum, .E, .B]) T) := by
  unfold fillSpecies writeParticles
  simp only [setup_over hf, bind, Except.bind]
  rw [← arrayTree_nil s D, array_loop hf _ _ ho hd]
  simp only [List.nil_append]
  rw [← vectorTree_nil]
  exact vector_loop _ [] (by decide)

theorem array_mem {s : Spc K} {pd : List PData} (hp : Documented pd) (v : Vec) (c : Xyz) :
    Qty.vec v c ∈ arrayQuantities pd s ↔ PData.vec v ∈ pd := by
  simp only [arrayQuantities, List.mem_append, List.mem_flatMap]
  constructor
  · rintro ((⟨p, hm, hq⟩ | h) | h)
    · rcases hp p hm with ⟨w, rfl⟩ | rfl | rfl
      · have : v = w := by
          simp [PData.quantities] at hq
          rcases hq with h | h | h <;> exact h.1
        rw [this]; exact hm
      · simp [PData.quantities] at hq
      · simp [PData.quantities] at hq
    · split_ifs at h <;> simp at h
    · split_ifs at h <;> simp at h
  · intro h
    exact Or.inl (Or.inl ⟨_, h, by cases c <;> simp [PData.quantities]⟩)

theorem array_mem_scal {s : Spc K} {pd : List PData} (hp : Documented pd) (r : Scal) :
    Qty.scal r ∈ arrayQuantities pd s ↔ listed pd s r = true := by
  simp only [arrayQuantities, List.mem_append, List.mem_flatMap]
  have hpd : (∃ a ∈ pd, Qty.scal r ∈ a.quantities)
      ↔ (r = .weighting ∧ PData.weighting ∈ pd) ∨ (r = .gamma ∧ PData.other (.scal .gamma) ∈ pd) := by
    constructor
    · rintro ⟨p, hm, hq⟩
      rcases hp p hm with ⟨w, rfl⟩ | rfl | rfl
      · simp [PData.quantities] at hq
      · simp [PData.quantities] at hq
        exact Or.inl ⟨hq, hm⟩
      · simp [PData.quantities] at hq
        exact Or.inr ⟨hq, hm⟩
    · rintro (⟨rfl, h⟩ | ⟨rfl, h⟩)
      · exact ⟨_, h, by simp [PData.quantities]⟩
      · exact ⟨_, h, by simp [PData.quantities]⟩
  rw [hpd]
  cases r <;> simp [listed] <;> (try split_ifs) <;> simp_all

theorem array_no_other {s : Spc K} {pd : List PData} (hp : Documented pd) (n : String) :
    Qty.other n ∉ arrayQuantities pd s := by
  simp only [arrayQuantities, List.mem_append, List.mem_flatMap]
  rintro ((⟨p, hm, hq⟩ | h) | h)
  · rcases hp p hm with ⟨w, rfl⟩ | rfl | rfl <;> simp [PData.quantities] at hq
  · split_ifs at h <;> simp at h
  · split_ifs at h <;> simp at h

theorem vectorTree_eq {s : Spc K} {D : Qty → Data K} {pd : List PData} (hp : Documented pd) :
    vectorTree s D (arrayQuantities pd s) [.position, .momentum, .E, .B] = speciesTree pd s D := by
  have hall : ∀ v : Vec, v ∈ [Vec.position, .momentum, .E, .B] := fun v => by cases v <;> simp
  funext r
  rcases r with _ | ⟨k, _ | ⟨k2, _ | ⟨k3, r⟩⟩⟩
  · rfl
  · rcases k with _ | _ | _ | _ | _ | (w | w | _ | _) | _ <;>
      simp only [vectorTree, arrayTree, baseTree, speciesTree, array_mem hp, array_mem_scal hp, hall, and_true]
    · by_cases hw : PData.vec w ∈ pd <;> simp [hw, array_mem hp]
    · by_cases hw : listed pd s w = true
      · simp [hw]
      · rw [if_neg hw, if_neg hw]
        cases w <;> simp
        simpa [listed] using hw
  · rcases k with _ | _ | _ | _ | _ | (w | w | _ | _) | _ <;>
      rcases k2 with _ | _ | _ | _ | _ | _ | d <;>
      simp [vectorTree, arrayTree, baseTree, speciesTree, array_mem hp]
  · simp [vectorTree, arrayTree, baseTree, speciesTree]

theorem fill_documented {s : Spc K} {T : H5Tree K} {D : Qty → Data K} {pd : List PData} (hf : Fits s T)
    (hp : Documented pd) (hd : Gives pd s D) : fillSpecies pd s T = .ok (over (speciesTree pd s D) T) := by
  rw [fill_over hf (array_no_other hp) ?_, vectorTree_eq hp]
  intro q hq
  cases q with
  | vec v c => exact hd.1 v c ((array_mem hp v c).1 hq)
  | scal r => exact hd.2 r ((array_mem_scal hp r).1 hq)
  | other n => exact absurd hq (array_no_other hp n)

/-! ### The file -/

omit [Zero K] [One K] in
theorem requireGroup_way {f : H5Tree K} {p : Path} (h : ∀ q, q <+: p → isDset (f q) = false) :
    requireGroup f p = .ok (way f p) := by
  unfold requireGroup
  rw [blocked_eq fun q hq _ => h q hq, h p (List.prefix_refl p)]
  rfl

/-- What is in the group of a species before the diagnostic fills it. -/
def before (f : H5Tree K) (g : Path) : H5Tree K := fun r => if r = [] then some ((f g).getD .empty) else f (g ++ r)

omit [Zero K] [One K] in
theorem way_before (f : H5Tree K) (g : Path) : (fun r => way f g (g ++ r)) = before f g := by
  funext r
  unfold way before
  by_cases h : r = []
  · simp [h]
  · have : ¬ g ++ r <+: g := by
      intro hp
      have := hp.length_le
      simp at this
      exact h this
    rw [if_neg this, if_neg h]

theorem writeSpecies_eq {it : ℕ} {pd : List PData} {f : H5Tree K} {s : Spc K} {D : Qty → Data K}
    (h : ∀ q, q <+: speciesPath it s.name → isDset (f q) = false)
    (hf : Fits s (before f (speciesPath it s.name))) (hp : Documented pd) (hd : Gives pd s D) :
    writeSpecies it pd f s = .ok fun q => if speciesPath it s.name <+: q
      then over (speciesTree pd s D) (before f (speciesPath it s.name)) (q.drop (speciesPath it s.name).length)
      else way f (speciesPath it s.name) q := by
  unfold writeSpecies
  rw [requireGroup_way h]
  simp only [bind, Except.bind, inGroup, way_before, fill_documented hf hp hd]

/-- The prefixes of the path of a species. -/
theorem prefix_species {it : ℕ} {n : String} {q : Path} (h : q <+: speciesPath it n) :
    q <+: [Key.data, .iter it, .particles] ∨ q = speciesPath it n := by
  unfold speciesPath at *
  rcases q with _ | ⟨k, _ | ⟨k2, _ | ⟨k3, _ | ⟨k4, _ | ⟨k5, q⟩⟩⟩⟩⟩ <;> simp at h ⊢
  · exact h
  · exact h
  · exact h
  · exact h

theorem species_prefix {it : ℕ} {n m : String} {r : Path} :
    speciesPath it n <+: speciesPath it m ++ r ↔ n = m := by
  simp [speciesPath]

theorem not_species_prefix {it : ℕ} {n : String} {q : Path} (h : q <+: [Key.data, .iter it, .particles]) :
    ¬ speciesPath it n <+: q := by
  intro hp
  have h1 := hp.length_le
  have h2 := h.length_le
  simp [speciesPath] at h1 h2
  omega

/-- All species. -/
theorem species_loop {it : ℕ} {pd : List PData} (hp : Documented pd) (l : List (Spc K))
    (hn : (l.map Spc.name).Nodup) (D : String → Qty → Data K) (f : H5Tree K)
    (h : ∀ q, q <+: [Key.data, .iter it, .particles] → isDset (f q) = false)
    (hf : ∀ s ∈ l, Fits s (before f (speciesPath it s.name))) (hd : ∀ s ∈ l, Gives pd s (D s.name)) :
    ∃ f', l.foldlM (writeSpecies it pd) f = .ok f' ∧
      (∀ s ∈ l, ∀ r, f' (speciesPath it s.name ++ r)
        = over (speciesTree pd s (D s.name)) (before f (speciesPath it s.name)) r) ∧
      (∀ q, q <+: [Key.data, .iter it, .particles] →
        f' q = if l = [] then f q else some ((f q).getD .empty)) ∧
      ∀ q, (¬ q <+: [Key.data, .iter it, .particles]) → (∀ s ∈ l, ¬ speciesPath it s.name <+: q) → f' q = f q := by
  induction l generalizing f with
  | nil => exact ⟨f, rfl, by simp, by simp, by simp⟩
  | cons s l ih =>
    rw [List.map_cons, List.nodup_cons] at hn
    have hs : ∀ s' ∈ l, s.name ≠ s'.name := fun s' hs' e => hn.1 (e ▸ List.mem_map_of_mem hs')
    have hpre : ∀ q, q <+: speciesPath it s.name → isDset (f q) = false := by
      intro q hq
      rcases prefix_species hq with h1 | rfl
      · exact h q h1
      · obtain ⟨a, ha⟩ := (hf s List.mem_cons_self).root
        simp only [before, if_true] at ha
        rcases hfg : f (speciesPath it s.name) with _ | n
        · rfl
        · rw [hfg] at ha
          simp only [Option.getD_some, Option.some.injEq] at ha
          rw [ha]; rfl
    have h1 := writeSpecies_eq hpre (hf s List.mem_cons_self) hp (hd s List.mem_cons_self)
    set f1 : H5Tree K := fun q => if speciesPath it s.name <+: q
      then over (speciesTree pd s (D s.name)) (before f (speciesPath it s.name)) (q.drop (speciesPath it s.name).length)
      else way f (speciesPath it s.name) q with hf1
    have e1 : ∀ q, q <+: [Key.data, .iter it, .particles] → f1 q = some ((f q).getD .empty) := by
      intro q hq
      have hw : q <+: speciesPath it s.name := hq.trans ⟨[.species s.name], rfl⟩
      simp only [hf1, if_neg (not_species_prefix hq), way, if_pos hw]
    have e2 : ∀ q, (¬ q <+: [Key.data, .iter it, .particles]) → (¬ speciesPath it s.name <+: q) → f1 q = f q := by
      intro q hq hq'
      have : ¬ q <+: speciesPath it s.name := by
        intro hc
        rcases prefix_species hc with hc | rfl
        · exact hq hc
        · exact hq' (List.prefix_refl _)
      simp only [hf1, if_neg hq', way, if_neg this]
    have e3 : ∀ r, f1 (speciesPath it s.name ++ r)
        = over (speciesTree pd s (D s.name)) (before f (speciesPath it s.name)) r := by
      intro r
      simp only [hf1, if_pos (List.prefix_append _ _), List.drop_left]
    have e4 : ∀ s' ∈ l, ∀ r, f1 (speciesPath it s'.name ++ r) = f (speciesPath it s'.name ++ r) := by
      intro s' hs' r
      refine e2 _ ?_ ?_
      · intro hc
        exact not_species_prefix hc (List.prefix_append _ _)
      · rw [species_prefix]
        exact hs s' hs'
    have e5 : ∀ s' ∈ l, before f1 (speciesPath it s'.name) = before f (speciesPath it s'.name) := by
      intro s' hs'
      funext r
      have := e4 s' hs' []
      rw [List.append_nil] at this
      simp only [before, e4 s' hs' r, this]
    obtain ⟨f', hfold, g1, g2, g3⟩ := ih hn.2 f1
      (fun q hq => by
        rw [e1 q hq]
        have := h q hq
        rcases hq' : f q with _ | n
        · rfl
        · rw [hq'] at this; exact this)
      (fun s' hs' => by rw [e5 s' hs']; exact hf s' (List.mem_cons_of_mem _ hs'))
      (fun s' hs' => hd s' (List.mem_cons_of_mem _ hs'))
    refine ⟨f', ?_, ?_, ?_, ?_⟩
    · rw [List.foldlM_cons, h1]
      exact hfold
    · intro s' hs' r
      rcases List.mem_cons.1 hs' with rfl | hs'
      · rw [g3 _ (fun hc => not_species_prefix hc (List.prefix_append _ _))
          (fun s'' hs'' => by rw [species_prefix]; exact (hs s'' hs'').symm), e3]
      · rw [g1 s' hs' r, e5 s' hs']
    · intro q hq
      rw [g2 q hq, e1 q hq]
      simp
    · intro q hq hq'
      rw [g3 q hq (fun s' hs' => hq' s' (List.mem_cons_of_mem _ hs')), e2 q hq (hq' s List.mem_cons_self)]

end Fbpic.PFile
