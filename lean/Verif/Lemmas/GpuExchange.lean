import Verif.Model.GpuExchange
import Verif.Spec.ParticleArrays
import Verif.Lemmas.ParticleConservation
import Verif.Props.Sorting

namespace Fbpic.GpuExchange
open Fbpic _root_.Spec

/-! ### Kernels -/

section
variable {α : Type}

/-- A kernel whose threads write fixed values into fixed places. -/
theorem fold_set (f : ℕ → List α → List α) (V : ℕ → Option α) (W : ℕ → ℕ → Prop)
    (hl : ∀ i A, (f i A).length = A.length)
    (h : ∀ i A j, j < A.length → (W i j → (f i A)[j]? = V j) ∧ (¬ W i j → (f i A)[j]? = A[j]?))
    (L : List ℕ) (A : List α) :
    (L.foldl (fun A i => f i A) A).length = A.length ∧
    ∀ j, j < A.length →
      ((∃ i ∈ L, W i j) → (L.foldl (fun A i => f i A) A)[j]? = V j) ∧
      ((¬ ∃ i ∈ L, W i j) → (L.foldl (fun A i => f i A) A)[j]? = A[j]?) := by
  induction L generalizing A with
  | nil => simp
  | cons a L ih =>
    rw [List.foldl_cons]
    obtain ⟨i0, i1⟩ := ih (f a A)
    refine ⟨i0.trans (hl a A), fun j hj => ?_⟩
    obtain ⟨i1, i2⟩ := i1 j (by rw [hl]; exact hj)
    by_cases hL : ∃ i ∈ L, W i j
    · refine ⟨fun _ => i1 hL, fun hn => absurd ?_ hn⟩
      obtain ⟨i, hi, hw⟩ := hL
      exact ⟨i, by simp [hi], hw⟩
    · rw [i2 hL]
      refine ⟨?_, ?_⟩
      · rintro ⟨i, hi, hw⟩
        rcases List.mem_cons.1 hi with rfl | hi
        · exact (h _ A j hj).1 hw
        · exact absurd ⟨i, hi, hw⟩ hL
      · intro hn
        exact (h a A j hj).2 fun hw => hn ⟨a, by simp, hw⟩

theorem emptyArray_length (junk : ℕ → α) (n : ℕ) : (emptyArray junk n).length = n := by
  simp [emptyArray]

/-- Thread `i` of the splitting kernel seen from one of the three buffers, which receives the
entries `lo ≤ i < hi`. -/
def partThread (a : List α) (lo hi : ℕ) (A : List α) (i : ℕ) : List α :=
  if lo ≤ i ∧ i < hi then
    match a[i]? with
    | none => A
    | some v => A.set (i - lo) v
  else A

theorem set_of_length_zero (A : List α) (i : ℕ) (v : α) (h : ¬ A.length ≠ 0) : A.set i v = A := by
  have : A = [] := List.length_eq_zero_iff.1 (not_not.1 h)
  subst this; rfl

theorem splitThread_eq (a : List α) (iMin iMax : ℕ) (h : iMin ≤ iMax)
    (b : List α × List α × List α) (i : ℕ) :
    splitThread a iMin iMax b i = (partThread a 0 iMin b.1 i, partThread a iMin iMax b.2.1 i,
      partThread a iMax a.length b.2.2 i) := by
  obtain ⟨L, S, R⟩ := b
  unfold splitThread partThread
  cases ha : a[i]? with
  | none => simp
  | some v =>
    have hi : i < a.length := by
      by_contra hc
      rw [List.getElem?_eq_none (by omega)] at ha
      cases ha
    simp only [Nat.zero_le, true_and, Nat.sub_zero]
    by_cases h1 : i < iMin
    · have h2 : ¬ (iMin ≤ i ∧ i < iMax) := by omega
      have h3 : ¬ (iMax ≤ i ∧ i < a.length) := by omega
      simp only [h1, h2, h3, if_true, if_false]
      by_cases hz : L.length ≠ 0
      · rw [if_pos hz]
      · rw [if_neg hz, set_of_length_zero L i v hz]
    · by_cases h2 : i < iMax
      · have h3 : ¬ (iMax ≤ i ∧ i < a.length) := by omega
        have h4 : iMin ≤ i ∧ i < iMax := by omega
        rw [if_neg h1, if_pos h2, if_neg h1, if_pos h4, if_neg h3]
      · have h3 : iMax ≤ i ∧ i < a.length := by omega
        have h4 : ¬ (iMin ≤ i ∧ i < iMax) := by omega
        rw [if_neg h1, if_neg h2, if_neg h1, if_neg h4, if_pos h3]
        by_cases hz : R.length ≠ 0
        · exact if_pos hz
        · refine (if_neg hz).trans ?_
          rw [set_of_length_zero R (i - iMax) v hz]

theorem fold_triple (f g k : List α → ℕ → List α) (L : List ℕ) (b : List α × List α × List α) :
    L.foldl (fun b i => (f b.1 i, g b.2.1 i, k b.2.2 i)) b
      = (L.foldl f b.1, L.foldl g b.2.1, L.foldl k b.2.2) := by
  induction L generalizing b with
  | nil => rfl
  | cons a L ih => rw [List.foldl_cons, ih]; rfl

theorem fold_part (a : List α) (lo hi : ℕ) (h : lo ≤ hi) (hh : hi ≤ a.length) (threads : List ℕ)
    (ht : ∀ i, i < a.length → i ∈ threads) (A : List α) (hA : A.length = hi - lo) :
    threads.foldl (partThread a lo hi) A = (a.drop lo).take (hi - lo) := by
  have key := fold_set (fun i A => partThread a lo hi A i) (fun j => a[lo + j]?)
    (fun i j => lo ≤ i ∧ i < hi ∧ i = lo + j) (by
      intro i A
      unfold partThread
      split_ifs
      · cases a[i]? <;> simp
      · rfl) (by
      intro i A j hj
      unfold partThread
      by_cases hc : lo ≤ i ∧ i < hi
      · rw [if_pos hc]
        have hi' : i < a.length := by omega
        rw [List.getElem?_eq_getElem hi']
        simp only []
        refine ⟨?_, ?_⟩
        · rintro ⟨-, -, rfl⟩
          have e : lo + j - lo = j := by omega
          rw [e, List.getElem?_set_self hj, List.getElem?_eq_getElem hi']
        · intro hn
          rw [List.getElem?_set_ne]
          intro he
          exact hn ⟨hc.1, hc.2, by omega⟩
      · rw [if_neg hc]
        exact ⟨fun hw => absurd ⟨hw.1, hw.2.1⟩ hc, fun _ => rfl⟩) threads A
  apply List.ext_getElem?
  intro j
  by_cases hj : j < A.length
  · have := (key.2 j hj).1 ⟨lo + j, ht _ (by omega), by omega, by omega, rfl⟩
    refine this.trans ?_
    rw [List.getElem?_take_of_lt (by omega), List.getElem?_drop]
  · rw [List.getElem?_eq_none, List.getElem?_eq_none]
    · simp; omega
    · exact key.1 ▸ (not_lt.1 hj)

/-- The splitting kernel cuts the array in three, whatever the order of the threads. -/
theorem splitArray_eq (junk : ℕ → α) (threads : List ℕ) (iMin iMax : ℕ) (a : List α)
    (h : iMin ≤ iMax) (hh : iMax ≤ a.length) (ht : ∀ i, i < a.length → i ∈ threads) :
    splitArray junk threads iMin iMax a
      = (a.take iMin, (a.drop iMin).take (iMax - iMin), a.drop iMax) := by
  unfold splitArray
  have e : splitThread a iMin iMax = fun b i => (partThread a 0 iMin b.1 i,
      partThread a iMin iMax b.2.1 i, partThread a iMax a.length b.2.2 i) := by
    funext b i; exact splitThread_eq a iMin iMax h b i
  rw [e, fold_triple (partThread a 0 iMin) (partThread a iMin iMax) (partThread a iMax a.length)]
  rw [fold_part a 0 iMin (by omega) (by omega) threads ht _ (by simp [emptyArray_length]),
    fold_part a iMin iMax h hh threads ht _ (by simp [emptyArray_length]),
    fold_part a iMax a.length hh le_rfl threads ht _ (by simp [emptyArray_length])]
  simp

theorem fold_copy (source : List α) (start : ℕ) (threads : List ℕ)
    (ht : ∀ i, i < source.length → i ∈ threads) (A : List α)
    (hA : start + source.length ≤ A.length) :
    threads.foldl (copyThread source.length source start) A
      = A.take start ++ source ++ A.drop (start + source.length) := by
  have key := fold_set (fun i A => copyThread source.length source start A i)
    (fun j => source[j - start]?) (fun i j => i < source.length ∧ j = i + start) (by
      intro i A
      unfold copyThread
      split_ifs
      · cases source[i]? <;> simp
      · rfl) (by
      intro i A j hj
      unfold copyThread
      by_cases hc : i < source.length
      · rw [if_pos hc, List.getElem?_eq_getElem hc]
        simp only []
        refine ⟨?_, ?_⟩
        · rintro ⟨-, rfl⟩
          have e : i + start - start = i := by omega
          rw [e, List.getElem?_set_self hj, List.getElem?_eq_getElem hc]
        · intro hn
          rw [List.getElem?_set_ne]
          intro he
          exact hn ⟨hc, by omega⟩
      · rw [if_neg hc]
        exact ⟨fun hw => absurd hw.1 hc, fun _ => rfl⟩) threads A
  apply List.ext_getElem?
  intro j
  by_cases hj : j < A.length
  · obtain ⟨k1, k2⟩ := key.2 j hj
    by_cases h1 : j < start
    · refine (k2 ?_).trans ?_
      · rintro ⟨i, -, -, h⟩; omega
      · rw [List.append_assoc, List.getElem?_append_left (by simp; omega),
          List.getElem?_take_of_lt h1]
    · by_cases h2 : j < start + source.length
      · refine (k1 ⟨j - start, ht _ (by omega), by omega, by omega⟩).trans ?_
        rw [List.getElem?_append_left (by simp; omega), List.getElem?_append_right (by simp; omega)]
        congr 1; simp; omega
      · refine (k2 ?_).trans ?_
        · rintro ⟨i, -, h3, h⟩; omega
        · rw [List.getElem?_append_right (by simp; omega), List.getElem?_drop]
          congr 1; simp; omega
  · rw [List.getElem?_eq_none, List.getElem?_eq_none]
    · simp; omega
    · exact key.1 ▸ (not_lt.1 hj)

/-- The merging kernels concatenate the three arrays, whatever the order of the threads. -/
theorem mergeArray_eq (junk : ℕ → α) (threads : List ℕ) (left own right : List α)
    (ht : ∀ i, i < left.length ∨ i < own.length ∨ i < right.length → i ∈ threads) :
    mergeArray junk threads left own right = left ++ own ++ right := by
  unfold mergeArray
  simp only []
  have step : ∀ (source : List α) (start : ℕ) (A : List α),
      (∀ i, i < source.length → i ∈ threads) → start + source.length ≤ A.length →
      (if source.length ≠ 0 then threads.foldl (copyThread source.length source start) A else A)
        = A.take start ++ source ++ A.drop (start + source.length) := by
    intro source start A h1 h2
    split_ifs with hz
    · exact fold_copy source start threads h1 A h2
    · have : source = [] := List.length_eq_zero_iff.1 (not_not.1 hz)
      subst this
      simp
  rw [step left 0 _ (fun i hi => ht i (Or.inl hi)) (by simp [emptyArray_length]; omega)]
  rw [step own left.length _ (fun i hi => ht i (Or.inr (Or.inl hi)))
    (by simp [emptyArray_length]; omega)]
  rw [step right (left.length + own.length) _ (fun i hi => ht i (Or.inr (Or.inr hi)))
    (by simp [emptyArray_length]; omega)]
  simp [List.take_append, List.drop_append, emptyArray_length]
  rw [List.take_of_length_le (by omega), List.drop_eq_nil_of_le (by omega),
    List.drop_eq_nil_of_le (by omega), List.drop_eq_nil_of_le (by omega),
    List.drop_eq_nil_of_le (by rw [emptyArray_length]; omega)]
  simp

end

/-! ### Sorting -/

section
variable {α β : Type}

theorem rearrangeArray_map (idx : ℕ → ℕ) (f : β → α) (l : List β) :
    rearrangeArray idx (l.map f) = (rearrangeArray idx l).map f := by
  unfold rearrangeArray
  rw [List.length_map, List.map_filterMap]
  congr 1
  funext i
  simp

theorem rearrangeArray_eq (idx : ℕ → ℕ) (l : List α)
    (h : ((List.range l.length).map idx).Perm (List.range l.length)) :
    (rearrangeArray idx l).Perm l ∧ (rearrangeArray idx l).length = l.length ∧
    ∀ i, i < l.length → (rearrangeArray idx l)[i]? = l[idx i]? := by
  have hlt : ∀ i, i < l.length → idx i < l.length := by
    intro i hi
    have : idx i ∈ (List.range l.length).map idx := List.mem_map.2 ⟨i, List.mem_range.2 hi, rfl⟩
    exact List.mem_range.1 (h.mem_iff.1 this)
  rcases l with _ | ⟨a0, l0⟩
  · simp [rearrangeArray]
  · set l := a0 :: l0 with hl
    have e : rearrangeArray idx l = ((List.range l.length).map idx).map fun i => l.getD i a0 := by
      unfold rearrangeArray
      rw [List.map_map]
      have : (List.range l.length).filterMap (fun i => l[idx i]?)
          = (List.range l.length).filterMap (some ∘ ((fun i => l.getD i a0) ∘ idx)) := by
        apply List.filterMap_congr
        intro i hi
        have := hlt i (List.mem_range.1 hi)
        simp [List.getD, List.getElem?_eq_getElem this]
      rw [this, List.filterMap_eq_map]
    refine ⟨?_, ?_, ?_⟩
    · rw [e]
      refine (h.map _).trans ?_
      have : (List.range l.length).map (fun i => l.getD i a0) = l := by
        apply List.ext_getElem
        · simp
        · intro i h1 h2
          simp [List.getD, List.getElem?_eq_getElem h2]
      rw [this]
    · rw [e]; simp
    · intro i hi
      rw [e]
      have := hlt i hi
      simp [List.getElem?_range hi, List.getD, List.getElem?_eq_getElem this]

end

section
variable {K : Type}

theorem splitSpecies_ofList (junk : ℕ → K) (junkI : ℕ → ℕ) (threads : List ℕ) (iMin iMax : ℕ)
    (t i : Bool) (ps : List (Ptcl K)) (h : iMin ≤ iMax) (hh : iMax ≤ ps.length)
    (ht : ∀ i, i < ps.length → i ∈ threads)
    (part : ∀ {α : Type}, List α × List α × List α → List α) (part' : List (Ptcl K))
    (hp : ∀ {α : Type} (f : Ptcl K → α), part (((ps.take iMin).map f),
      ((ps.drop iMin).take (iMax - iMin)).map f, (ps.drop iMax).map f) = part'.map f) :
    splitSpecies junk junkI threads iMin iMax part (Species.ofList t i ps)
      = Species.ofList t i part' := by
  have e : ∀ {α : Type} (jk : ℕ → α) (f : Ptcl K → α),
      part (splitArray jk threads iMin iMax (ps.map f)) = part'.map f := by
    intro α jk f
    rw [splitArray_eq jk threads iMin iMax (ps.map f) h (by simpa using hh) (by simpa using ht)]
    rw [← hp f]
    simp [List.map_take, List.map_drop]
  cases t <;> cases i <;> simp [splitSpecies, Species.ofList, e]

theorem toBuffer_ofList (t i : Bool) (ps : List (Ptcl K)) :
    toBuffer (Species.ofList t i ps) = PBuf.ofList t i ps := by
  cases t <;> cases i <;> rfl

theorem addBuffersGpu_ofList (junk : ℕ → K) (junkI : ℕ → ℕ) (threads : List ℕ) (t i : Bool)
    (ps l r : List (Ptcl K))
    (ht : ∀ i, i < l.length ∨ i < ps.length ∨ i < r.length → i ∈ threads) :
    addBuffersGpu junk junkI threads (Species.ofList t i ps) (PBuf.ofList t i l) (PBuf.ofList t i r)
      = Species.ofList t i (l ++ ps ++ r) := by
  have e : ∀ {α : Type} (jk : ℕ → α) (f : Ptcl K → α),
      mergeArray jk threads (l.map f) (ps.map f) (r.map f)
        = l.map f ++ (ps.map f ++ r.map f) := by
    intro α jk f
    rw [mergeArray_eq jk threads _ _ _ (by simpa using ht), List.append_assoc]
  cases t <;> cases i <;> simp [addBuffersGpu, Species.ofList, PBuf.ofList, e]

end

/-! ### Sorted lists and prefix sums -/

section
variable {α : Type}

/-- A list sorted by `key` is cut by the threshold `c` at the number of elements up to `c`. -/
theorem take_of_sorted (key : α → ℕ) (c : ℕ) (l : List α)
    (hs : l.Pairwise fun a b => key a ≤ key b) :
    l.take ((l.filter fun a => decide (key a ≤ c)).length) = l.filter (fun a => decide (key a ≤ c)) ∧
    l.drop ((l.filter fun a => decide (key a ≤ c)).length)
      = l.filter (fun a => decide (c < key a)) := by
  induction l with
  | nil => simp
  | cons a l ih =>
    rw [List.pairwise_cons] at hs
    obtain ⟨i1, i2⟩ := ih hs.2
    by_cases h : key a ≤ c
    · have h' : ¬ c < key a := by omega
      simp only [List.filter_cons, h, h', decide_true, decide_false, if_true, Bool.false_eq_true,
        if_false, List.length_cons, List.take_succ_cons, List.drop_succ_cons, i1, i2, and_self]
    · have h' : c < key a := by omega
      have e1 : l.filter (fun a => decide (key a ≤ c)) = [] := by
        rw [List.filter_eq_nil_iff]
        intro b hb
        have := hs.1 b hb
        simp; omega
      have e2 : l.filter (fun a => decide (c < key a)) = l := by
        rw [List.filter_eq_self]
        intro b hb
        have := hs.1 b hb
        simp; omega
      simp [List.filter_cons, h, h', e1, e2]

theorem countLe_eq_length (key : α → ℕ) (c : ℕ) (l : List α) (keys : ℕ → ℕ)
    (hk : ∀ i (hi : i < l.length), keys i = key l[i]) :
    countLe keys l.length c = (l.filter fun a => decide (key a ≤ c)).length := by
  unfold countLe
  induction l using List.reverseRecOn with
  | nil => simp
  | append_singleton l a ih =>
    rw [List.length_append, List.length_singleton, Finset.range_add_one, Finset.filter_insert,
      List.filter_append, List.length_append]
    have i1 := ih (by
      intro i hi
      rw [hk i (by simp; omega), List.getElem_append_left hi])
    have h0 := hk l.length (by simp)
    rw [List.getElem_append_right (by omega)] at h0
    simp only [Nat.sub_self, List.getElem_cons_zero] at h0
    by_cases h : key a ≤ c
    · have : keys l.length ≤ c := by omega
      rw [if_pos this, Finset.card_insert_of_notMem (by simp), i1]
      simp [h]
    · have : ¬ keys l.length ≤ c := by omega
      rw [if_neg this, i1]
      simp [h]

end

end Fbpic.GpuExchange
