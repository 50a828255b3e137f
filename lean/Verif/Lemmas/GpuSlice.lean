import Verif.Spec.GpuSlice
import Verif.Spec.BackTransform
import Verif.Lemmas.GpuConservation

namespace Fbpic.GpuSlice
open GpuExchange _root_.Spec
open BackTransform (Boost Snap)

section
variable {α β : Type}

theorem extractArray_eq (junk : ℕ → α) (threads : List ℕ) (start n : ℕ) (a : List α)
    (h : start + n ≤ a.length) (ht : ∀ i, i < a.length → i ∈ threads) :
    extractArray junk threads start n a = (a.drop start).take n := by
  unfold extractArray
  have key := fold_set (fun i A => extractThread a start A i) (fun j => a[start + j]?)
    (fun i j => i = j ∧ start + j < a.length) (by
      intro i A
      unfold extractThread
      split_ifs
      · cases a[start + i]? <;> simp
      · rfl) (by
      intro i A j hj
      unfold extractThread
      refine ⟨?_, ?_⟩
      · rintro ⟨rfl, hl⟩
        rw [if_pos hj, List.getElem?_eq_getElem hl]
        simp only []
        rw [List.getElem?_set_self hj]
      · intro hn
        split_ifs with hi
        · by_cases hij : i = j
          · subst hij
            rw [List.getElem?_eq_none (l := a) (i := start + i) (by omega)]
          · cases a[start + i]? with
            | none => rfl
            | some v => simp only []; rw [List.getElem?_set_ne hij]
        · rfl) threads (emptyArray junk n)
  have hlen : (emptyArray junk n).length = n := emptyArray_length junk n
  rw [hlen] at key
  apply List.ext_getElem?
  intro j
  by_cases hj : j < n
  · refine ((key.2 j hj).1 ⟨j, ht _ (by omega), rfl, by omega⟩).trans ?_
    rw [List.getElem?_take_of_lt hj, List.getElem?_drop]
  · rw [List.getElem?_eq_none, List.getElem?_eq_none]
    · simp; omega
    · exact (key.1.le).trans (not_lt.1 hj)

theorem npTake_map (q : β → Bool) (f : β → α) (ps : List β) (sel : List ℕ)
    (hsel : sel = (List.range ps.length).filter fun j => (ps[j]?.map q).getD false) :
    npTake sel (ps.map f) = (ps.filter q).map f := by
  subst hsel
  unfold npTake
  induction ps using List.reverseRecOn with
  | nil => rfl
  | append_singleton l a ih =>
    rw [List.length_append, List.length_singleton, List.range_succ, List.filter_append,
      List.filterMap_append, List.filter_append, List.map_append (l₁ := l.filter q), ← ih]
    congr 1
    · have e : (List.range l.length).filter (fun j => ((l ++ [a])[j]?.map q).getD false)
          = (List.range l.length).filter (fun j => (l[j]?.map q).getD false) := by
        apply List.filter_congr
        intro j hj
        rw [List.getElem?_append_left (List.mem_range.1 hj)]
      rw [e]
      apply List.filterMap_congr
      intro j hj
      have := List.mem_range.1 (List.mem_filter.1 hj).1
      rw [List.getElem?_map, List.getElem?_map, List.getElem?_append_left this]
    · by_cases h : q a <;> simp [h]

end

section
variable {K : Type} [Field K] [LinearOrder K] [IsStrictOrderedRing K] [FloorRing K]

omit [IsStrictOrderedRing K] [FloorRing K] in
theorem getParticleSlice_ofList (b : Boost K) (dt cur prev : K) (t i : Bool) (wgt : Ptcl K → K)
    (ps : List (Ptcl K)) :
    getParticleSlice b dt cur prev (PData.ofList t i wgt ps)
      = PData.ofList t i wgt (ps.filter fun p => decide (Crossed b.c dt cur prev p)) := by
  have hsel : selectedIndices b dt cur prev (PData.ofList t i wgt ps)
      = (List.range ps.length).filter fun j =>
        (ps[j]?.map fun p => decide (Crossed b.c dt cur prev p)).getD false := by
    unfold selectedIndices PData.ofList
    simp only [List.length_map]
    apply List.filter_congr
    intro j hj
    have hj := List.mem_range.1 hj
    simp only [List.getD, List.getElem?_map, List.getElem?_eq_getElem hj, Option.map_some,
      Option.getD_some]
    apply decide_eq_decide.2
    unfold Crossed
    simp only [ge_iff_le]
    tauto
  have e : ∀ {α : Type} (f : Ptcl K → α),
      npTake (selectedIndices b dt cur prev (PData.ofList t i wgt ps)) (ps.map f)
        = (ps.filter fun p => decide (Crossed b.c dt cur prev p)).map f :=
    fun f => npTake_map _ f ps _ hsel
  unfold getParticleSlice
  simp only []
  generalize hS : selectedIndices b dt cur prev (PData.ofList t i wgt ps) = S at e
  cases t <;> cases i <;> simp [PData.ofList, e]

omit [IsStrictOrderedRing K] [FloorRing K] [Field K] [LinearOrder K] in
theorem extractSliceFromGpu_ofList (d : Device K) (start n : ℕ) (t i : Bool) (ps : List (Ptcl K))
    (h : start + n ≤ ps.length) (ht : ∀ j, j < ps.length → j ∈ d.threads) :
    extractSliceFromGpu d start n (Species.ofList t i ps)
      = PData.ofList t i (if i then Ptcl.wl else Ptcl.w) ((ps.drop start).take n) := by
  have e : ∀ {α : Type} (jk : ℕ → α) (f : Ptcl K → α),
      extractArray jk d.threads start n (ps.map f) = ((ps.drop start).take n).map f := by
    intro α jk f
    rw [extractArray_eq jk _ _ _ _ (by simpa using h) (by simpa using ht)]
    simp [List.map_take, List.map_drop]
  cases t <;> cases i <;> simp [extractSliceFromGpu, Species.ofList, PData.ofList, e]

/-- The cut of the sorted particles at cell `m` (counted on the grid at the time of the sort). -/
theorem prefSumAt_eq {rad : Radial K} {zmin0 dz : K} {Nz : ℕ} {ps : List (Ptcl K)}
    {st : GpuSpecies K} (hc : Counted rad zmin0 dz Nz (ps.map Ptcl.z) st)
    (hf : ∀ p ∈ ps, Fine rad zmin0 dz Nz p) (m : ℤ) :
    ∃ k, prefSumAt st.prefixSum Nz rad.Nr ps.length m = .ok k ∧
      k = (ps.filter (fun p => decide (zIndex zmin0 dz p < m))).length := by
  unfold prefSumAt
  by_cases h0 : m ≤ 0
  · refine ⟨0, if_pos h0, ?_⟩
    rw [eq_comm, List.length_eq_zero_iff, List.filter_eq_nil_iff]
    intro p hp
    have := zIndex_range (hf p hp)
    simp; omega
  · rw [if_neg h0]
    by_cases h1 : m > Nz
    · refine ⟨ps.length, if_pos h1, ?_⟩
      rw [eq_comm, List.length_filter_eq_length_iff]
      intro p hp
      have := zIndex_range (hf p hp)
      simp; omega
    · rw [if_neg h1]
      obtain ⟨-, -, v⟩ := hc.facts m.toNat (by omega) (by omega)
      have a1 : 1 ≤ m * ((rad.Nr : ℤ) + 1) := by nlinarith
      have a2 : m * ((rad.Nr : ℤ) + 1) ≤ (Nz : ℤ) * ((rad.Nr : ℤ) + 1) :=
        mul_le_mul_of_nonneg_right (by omega) (by omega)
      refine ⟨st.prefixSum (m.toNat * (rad.Nr + 1) - 1), ?_, ?_⟩
      · unfold readPrefix
        rw [if_pos ⟨by omega, by push_cast; omega⟩]
        congr 2
        have : ((m.toNat * (rad.Nr + 1) : ℕ) : ℤ) = m * ((rad.Nr : ℤ) + 1) := by
          push_cast; rw [Int.toNat_of_nonneg (by omega)]
        omega
      · rw [v, Int.toNat_of_nonneg (by omega)]

section
variable {α : Type}

/-- Two cuts of a sorted list. -/
theorem cut_twice (key : α → ℤ) (c c' : ℤ) (h : c ≤ c') (l : List α)
    (hs : l.Pairwise fun a b => key a ≤ key b) :
    (l.filter fun a => decide (key a < c)).length ≤ (l.filter fun a => decide (key a < c')).length ∧
    (l.drop (l.filter fun a => decide (key a < c)).length).take
      ((l.filter fun a => decide (key a < c')).length - (l.filter fun a => decide (key a < c)).length)
      = l.filter (fun a => decide (c ≤ key a ∧ key a < c')) := by
  obtain ⟨-, d1⟩ := cut_of_sorted key c l hs
  have hle : (l.filter fun a => decide (key a < c)).length
      ≤ (l.filter fun a => decide (key a < c')).length := by
    rw [← List.countP_eq_length_filter, ← List.countP_eq_length_filter]
    apply List.countP_mono_left
    intro a _ ha
    simp at ha ⊢; omega
  refine ⟨hle, ?_⟩
  have hsp : ((l.filter fun a => decide (c ≤ key a)).filter fun a => decide (key a < c')).length
      = (l.filter fun a => decide (key a < c')).length - (l.filter fun a => decide (key a < c)).length := by
    have e := List.length_eq_length_filter_add (l := l.filter fun a => decide (key a < c'))
      (fun a => decide (key a < c))
    rw [List.filter_filter, List.filter_filter] at e
    have e1 : l.filter (fun a => decide (key a < c) && decide (key a < c'))
        = l.filter (fun a => decide (key a < c)) := by
      apply List.filter_congr
      intro a _
      rw [← Bool.decide_and]
      apply decide_eq_decide.2; omega
    rw [e1] at e
    rw [List.filter_filter]
    have e2 : l.filter (fun a => (!decide (key a < c)) && decide (key a < c'))
        = l.filter (fun a => decide (key a < c') && decide (c ≤ key a)) := by
      apply List.filter_congr
      intro a _
      rw [← decide_not, ← Bool.decide_and, ← Bool.decide_and]
      apply decide_eq_decide.2; omega
    rw [e2] at e
    omega
  rw [d1, ← hsp]
  have hs2 : (l.filter fun a => decide (c ≤ key a)).Pairwise fun a b => key a ≤ key b :=
    hs.filter _
  rw [(cut_of_sorted key c' _ hs2).1, List.filter_filter]
  apply List.filter_congr
  intro a _
  rw [← Bool.decide_and]
  apply decide_eq_decide.2
  exact and_comm

end

/-- What the GPU copies: the particles in the cells between the planes. -/
theorem getParticleDataGpu_eq {rad : Radial K} {t i : Bool} {g : InterpGrid K} {ps : List (Ptcl K)}
    {st : GpuSpecies K} (h : Holds rad t i g ps st) (hr : 0 < rad.invdr) (d : Device K)
    (hd : IsArgSort d.argsort) (hth : d.Covers (ps.length + g.Nz * (rad.Nr + 1)))
    (hrad : ∀ p ∈ ps, rad.rmin ≤ rad.radius p.x p.y) (hin : ∀ p ∈ ps, InGrid g st p)
    (hdz : 0 < g.dz) (b : Boost K) (dt cur prev : K) (hcp : cur ≤ prev + dt * b.c) :
    ∃ (ps' : List (Ptcl K)) (st' : GpuSpecies K), ps'.Perm ps ∧
      getParticleDataGpu d rad g b dt cur prev st
        = .ok (PData.ofList t i (if i then Ptcl.wl else Ptcl.w) (ps'.filter fun p =>
            decide (zIdx g.zmin g.dz cur ≤ zIndex g.zmin g.dz p ∧
              zIndex g.zmin g.dz p ≤ zIdx g.zmin g.dz (prev + dt * b.c))), st') ∧
      st'.arr = Species.ofList t i ps' := by
  obtain ⟨ps', st1, hperm, hst1, harr1, zmin0, hz0, hsh, hf, hc⟩ :=
    h.condSort hr d hd hth hrad hin hdz
  have hshift : ∀ p, zIndex zmin0 g.dz p = zIndex g.zmin g.dz p + st1.shift := by
    intro p
    unfold zIndex
    have : (p.z - zmin0) / g.dz - 1 / 2 = (p.z - g.zmin) / g.dz - 1 / 2 + (st1.shift : K) := by
      rw [hz0]; field_simp; ring
    rw [this, Int.ceil_add_intCast]
  have hn : st1.arr.z.length = ps'.length := by rw [harr1]; simp [Species.ofList]
  have hi1 : ⌈(cur - g.zmin - 1 / 2 * g.dz) / g.dz⌉ = zIdx g.zmin g.dz cur := by
    unfold zIdx; congr 1; field_simp
  have hi2 : ⌈(prev - g.zmin - 1 / 2 * g.dz + dt * b.c) / g.dz⌉ = zIdx g.zmin g.dz (prev + dt * b.c) := by
    unfold zIdx; congr 1; field_simp; ring
  set m1 := zIdx g.zmin g.dz cur with hm1
  set m2 := zIdx g.zmin g.dz (prev + dt * b.c) with hm2
  have hm : m1 ≤ m2 := by
    apply Int.ceil_le_ceil
    have : (cur - g.zmin) / g.dz ≤ (prev + dt * b.c - g.zmin) / g.dz :=
      div_le_div_of_nonneg_right (by linarith) hdz.le
    linarith
  obtain ⟨k1, hk1, ek1⟩ := prefSumAt_eq hc hf (m1 + st1.shift)
  obtain ⟨k2, hk2, ek2⟩ := prefSumAt_eq hc hf (m2 + 1 + st1.shift)
  have hs : ps'.Pairwise fun a b => zIndex zmin0 g.dz a ≤ zIndex zmin0 g.dz b := by
    have := hc.sorted
    rw [List.pairwise_map] at this
    exact this
  obtain ⟨hle, hcut⟩ := cut_twice (zIndex zmin0 g.dz) (m1 + st1.shift) (m2 + 1 + st1.shift)
    (by omega) ps' hs
  rw [← ek1, ← ek2] at hle hcut
  have hfil : ps'.filter (fun a => decide (m1 + st1.shift ≤ zIndex zmin0 g.dz a ∧
      zIndex zmin0 g.dz a < m2 + 1 + st1.shift))
      = ps'.filter fun p => decide (m1 ≤ zIndex g.zmin g.dz p ∧ zIndex g.zmin g.dz p ≤ m2) := by
    apply List.filter_congr
    intro p _
    apply decide_eq_decide.2
    rw [hshift]; omega
  rw [hfil] at hcut
  refine ⟨ps', st1, hperm, ?_, harr1⟩
  unfold getParticleDataGpu
  simp only []
  rw [hst1, hi1, hi2, hn]
  simp only [hk1, hk2]
  congr 2
  have hk2l : k2 ≤ ps'.length := by rw [ek2]; exact List.length_filter_le _ _
  by_cases hlt : k1 < k2
  · rw [if_pos hlt, harr1, extractSliceFromGpu_ofList d k1 (k2 - k1) t i ps' (by omega) (by
      intro j hj
      exact hth j (by rw [← hperm.length_eq]; omega)), hcut]
  · have : k2 - k1 = 0 := by omega
    rw [this, List.take_zero] at hcut
    rw [if_neg hlt, ← hcut, harr1]
    cases t <;> cases i <;> rfl

end

end Fbpic.GpuSlice
