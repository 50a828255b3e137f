import Verif.Lemmas.Compton

namespace Fbpic

/-- Write the list `L` into the array `a` from position `s` on. -/
def writeAt {α : Type} (a : ℕ → α) (s : ℕ) (L : List α) : ℕ → α :=
  fun j => if j < s then a j else (L[j - s]?).getD (a j)

theorem writeAt_nil {α : Type} (a : ℕ → α) (s : ℕ) : writeAt a s [] = a := by
  funext j; simp [writeAt]

theorem writeAt_append {α : Type} (a : ℕ → α) (s : ℕ) (L1 L2 : List α) :
    writeAt (writeAt a s L1) (s + L1.length) L2 = writeAt a s (L1 ++ L2) := by
  funext j
  unfold writeAt
  by_cases h1 : j < s
  · simp [h1, show j < s + L1.length by omega]
  · by_cases h2 : j < s + L1.length
    · simp only [h1, h2, if_true, if_false]
      rw [List.getElem?_append_left (by omega)]
    · simp only [h1, h2, if_false]
      rw [List.getElem?_append_right (by omega)]
      have e : L1[j - s]? = none := by rw [List.getElem?_eq_none_iff]; omega
      rw [e, show j - (s + L1.length) = j - s - L1.length by omega]
      rfl

theorem writeAt_single {α : Type} (a : ℕ → α) (s : ℕ) (x : α) :
    Function.update a s x = writeAt a s [x] := by
  funext j
  unfold writeAt
  by_cases h1 : j < s
  · simp [h1, Nat.ne_of_lt h1]
  · by_cases h2 : j = s
    · subst h2; simp
    · have : j - s ≠ 0 := by omega
      simp [h1, h2, this]

theorem writeFold {α : Type} (f : ℕ → α) : ∀ (l : List ℕ) (s : ℕ) (a : ℕ → α),
    l.foldl (fun (t : ℕ × (ℕ → α)) (j : ℕ) => (t.1 + 1, Function.update t.2 t.1 (f j))) (s, a)
      = (s + l.length, writeAt a s (l.map f))
  | [], s, a => by simp [writeAt_nil]
  | j :: l, s, a => by
    rw [List.foldl_cons, writeFold f l]
    simp only [List.length_cons, List.map_cons]
    refine Prod.ext (by simp; omega) ?_
    show writeAt (Function.update a s (f j)) (s + 1) _ = _
    rw [writeAt_single, show s + 1 = s + [f j].length by simp, writeAt_append]
    rfl

section
variable {Pos : Type}

open Spec

theorem scatterElec_eq (invMC invRatio : ℝ) (q : FourMom) (el : ComptonElec Pos) (n : ℕ → ℕ)
    (D : ComptonDraws) (s : ℕ × (ℕ → PhotonRec Pos) × (ℕ → ElecMom)) (i : ℕ)
    (h : s.2.2 i = el.mom i) :
    scatterElec invMC invRatio q el n D s i =
      (s.1 + (photonsOf invMC invRatio q el n D i).length,
       writeAt s.2.1 s.1 (photonsOf invMC invRatio q el n D i),
       Function.update s.2.2 i (newMom invMC invRatio q el n D i)) := by
  unfold scatterElec
  simp only [writeFold, h]
  have hl : (photonsOf invMC invRatio q el n D i).length = (List.range (n i)).length := by
    simp [photonsOf]
  rw [hl]
  unfold newMom photonsOf
  by_cases hc : 0 < n i ∧ D.recoilDraw i < invRatio
  · simp only [hc, and_self, if_true]
  · simp only [hc, if_false]
    rw [← h, Function.update_eq_self]

theorem scatterFold_eq (invMC invRatio : ℝ) (q : FourMom) (el : ComptonElec Pos) (n : ℕ → ℕ)
    (D : ComptonDraws) : ∀ (l : List ℕ) (_ : l.Nodup)
    (s : ℕ × (ℕ → PhotonRec Pos) × (ℕ → ElecMom)) (_ : ∀ i ∈ l, s.2.2 i = el.mom i),
    l.foldl (scatterElec invMC invRatio q el n D) s =
      (s.1 + (l.flatMap (photonsOf invMC invRatio q el n D)).length,
       writeAt s.2.1 s.1 (l.flatMap (photonsOf invMC invRatio q el n D)),
       fun i => if i ∈ l then newMom invMC invRatio q el n D i else s.2.2 i)
  | [], _, s, _ => by simp [writeAt_nil]
  | i :: l, hnd, s, hs => by
    obtain ⟨hni, hnd⟩ := List.nodup_cons.mp hnd
    rw [List.foldl_cons, scatterElec_eq _ _ _ _ _ _ s i (hs i (by simp)),
      scatterFold_eq invMC invRatio q el n D l hnd _ (by
        intro j hj
        have : j ≠ i := fun e => hni (e ▸ hj)
        simp only [Function.update_of_ne this]
        exact hs j (by simp [hj]))]
    rw [writeAt_append, List.flatMap_cons]
    refine Prod.ext (by simp; omega) (Prod.ext rfl ?_)
    funext j
    by_cases hj : j = i
    · subst hj; simp [hni]
    · simp [hj]

theorem nPerBatch_eq (P : IonParams) (N : ℕ) (n : ℕ → ℕ) (b : ℕ) :
    nPerBatch P N n b = ((P.chunk N b).map n).sum := by
  unfold nPerBatch
  have : ∀ (l : List ℕ) (a : ℕ), l.foldl (fun acc i => acc + n i) a = a + (l.map n).sum := by
    intro l; induction l with
    | nil => simp
    | cons x l ih => intro a; rw [List.foldl_cons, ih]; simp; omega
  rw [this]; simp

theorem cumsum1d_eq (P : IonParams) (N : ℕ) (n : ℕ → ℕ) : ∀ B,
    cumsum1d (nPerBatch P N n) B = ((List.range (min (B * P.batchSize) N)).map n).sum
  | 0 => by simp [cumsum1d]
  | B + 1 => by
    have ih := cumsum1d_eq P N n B
    unfold cumsum1d at ih ⊢
    rw [List.range_succ, List.map_append, List.sum_append, ih, P.range_succ_chunk,
      List.map_append, List.sum_append]
    simp [nPerBatch_eq]

theorem photons_length (invMC invRatio : ℝ) (q : FourMom) (el : ComptonElec Pos) (n : ℕ → ℕ)
    (D : ComptonDraws) (l : List ℕ) :
    (l.flatMap (photonsOf invMC invRatio q el n D)).length = (l.map n).sum := by
  induction l with
  | nil => rfl
  | cons i l ih => simp [photonsOf]

theorem scatterAll_eq (P : IonParams) (invMC invRatio : ℝ) (q : FourMom)
    (el : ComptonElec Pos) (n : ℕ → ℕ) (D : ComptonDraws) (oldNtot : ℕ)
    (photons : ℕ → PhotonRec Pos) : ∀ B,
    (List.range B).foldl (fun (s : (ℕ → PhotonRec Pos) × (ℕ → ElecMom)) b =>
      ((P.chunk el.Ntot b).foldl (scatterElec invMC invRatio q el n D)
        (oldNtot + cumsum1d (nPerBatch P el.Ntot n) b, s.1, s.2)).2) (photons, el.mom)
    = (writeAt photons oldNtot
        ((List.range (min (B * P.batchSize) el.Ntot)).flatMap (photonsOf invMC invRatio q el n D)),
       fun i => if i < min (B * P.batchSize) el.Ntot then newMom invMC invRatio q el n D i
        else el.mom i)
  | 0 => by simp [writeAt_nil]
  | B + 1 => by
    have ih := scatterAll_eq P invMC invRatio q el n D oldNtot photons B
    rw [List.range_succ, List.foldl_append, ih]
    simp only [List.foldl_cons, List.foldl_nil]
    rw [scatterFold_eq _ _ _ _ _ _ _ (by unfold IonParams.chunk; exact List.nodup_range') _ (by
      intro i hi
      have := (P.mem_chunk).mp hi
      have h : ¬ i < min (B * P.batchSize) el.Ntot := by omega
      simp only [h, if_false])]
    have e : cumsum1d (nPerBatch P el.Ntot n) B = ((List.range (min (B * P.batchSize) el.Ntot)).flatMap
        (photonsOf invMC invRatio q el n D)).length := by
      rw [cumsum1d_eq, photons_length]
    refine Prod.ext ?_ ?_
    · show writeAt (writeAt _ _ _) (oldNtot + _) _ = _
      rw [e, writeAt_append, ← List.flatMap_append, ← P.range_succ_chunk]
    · funext i
      show (if i ∈ P.chunk el.Ntot B then _ else _) = _
      have hm : i ∈ List.range (min ((B + 1) * P.batchSize) el.Ntot) ↔
          i ∈ List.range (min (B * P.batchSize) el.Ntot) ∨ i ∈ P.chunk el.Ntot B := by
        rw [P.range_succ_chunk, List.mem_append]
      rw [List.mem_range, List.mem_range] at hm
      by_cases h1 : i ∈ P.chunk el.Ntot B
      · simp only [h1, if_true, hm.mpr (Or.inr h1)]
      · by_cases h2 : i < min (B * P.batchSize) el.Ntot
        · simp only [h1, if_false, h2, if_true, hm.mpr (Or.inl h2)]
        · have h3 : ¬ i < min ((B + 1) * P.batchSize) el.Ntot := fun h => (hm.mp h).elim h2 h1
          simp only [h1, h2, h3, if_false]

end

end Fbpic
