import Verif.Lemmas.Shapes
import Mathlib.Algebra.BigOperators.Pi
import Mathlib.Algebra.BigOperators.Ring.Finset
import Mathlib.Algebra.BigOperators.Group.List.Basic
import Mathlib.Algebra.Order.BigOperators.Group.List

/-! Lemmas on the deposition kernels: every step adds a fixed array to the buffers. -/

namespace Fbpic

theorem foldlM_add {ε S A : Type} [AddCommMonoid S] (f : S → A → Except ε S) (P : A → Prop)
    (c : A → S) (h : ∀ s a s', f s a = .ok s' ↔ P a ∧ s' = s + c a) :
    ∀ (L : List A) (s s' : S),
      L.foldlM f s = .ok s' ↔ (∀ a ∈ L, P a) ∧ s' = s + (L.map c).sum := by
  intro L
  induction L with
  | nil =>
    intro s s'
    simp only [List.foldlM_nil, pure, Except.pure, Except.ok.injEq, List.map_nil, List.sum_nil,
      add_zero]
    exact ⟨fun h => ⟨by simp, h.symm⟩, fun h => h.2.symm⟩
  | cons a L ih =>
    intro s s'
    simp only [List.foldlM_cons, List.forall_mem_cons, List.map_cons, List.sum_cons]
    constructor
    · intro hx
      cases hfa : f s a with
      | error e => rw [hfa] at hx; cases hx
      | ok s1 =>
        rw [hfa] at hx
        obtain ⟨hP, h1⟩ := (h s a s1).1 hfa
        obtain ⟨hL, h2⟩ := (ih s1 s').1 hx
        exact ⟨⟨hP, hL⟩, by rw [h2, h1, add_assoc]⟩
    · rintro ⟨⟨hP, hL⟩, h2⟩
      rw [(h s a (s + c a)).2 ⟨hP, rfl⟩]
      exact (ih _ _).2 ⟨hL, by rw [h2, add_assoc]⟩

/-- The array with a single non-zero entry. -/
def cellBuf (i j : ℕ) (v : ℂ) : Buf := fun i' j' => if i' = i ∧ j' = j then v else 0

theorem addAt_eq (A : Buf) (i j : ℕ) (v : ℂ) : addAt A i j v = A + cellBuf i j v := by
  funext i' j'
  simp only [addAt, cellBuf, Pi.add_apply]
  split_ifs <;> simp

/-- Valid (possibly negative) index. -/
def idxOk (n : ℕ) (i : ℤ) : Prop := -(n : ℤ) ≤ i ∧ i < n

/-- The index actually accessed. -/
def wrapIdx (n : ℕ) (i : ℤ) : ℕ := if 0 ≤ i then i.toNat else (i + n).toNat

theorem bufIndex_ok (n : ℕ) (i : ℤ) (k : ℕ) :
    bufIndex n i = .ok k ↔ idxOk n i ∧ k = wrapIdx n i := by
  unfold bufIndex idxOk wrapIdx
  by_cases h1 : 0 ≤ i ∧ i < n
  · rw [if_pos h1, if_pos h1.1]
    simp only [Except.ok.injEq]
    exact ⟨fun h => ⟨⟨by omega, h1.2⟩, h.symm⟩, fun h => h.2.symm⟩
  · rw [if_neg h1]
    by_cases h2 : -(n : ℤ) ≤ i ∧ i < 0
    · rw [if_pos h2, if_neg (by omega)]
      simp only [Except.ok.injEq]
      exact ⟨fun h => ⟨⟨h2.1, by omega⟩, h.symm⟩, fun h => h.2.symm⟩
    · rw [if_neg h2]
      simp only [reduceCtorEq, false_iff]
      rintro ⟨⟨h3, h4⟩, -⟩
      omega

theorem wrapIdx_lt {n : ℕ} {i : ℤ} (h : idxOk n i) : wrapIdx n i < n := by
  unfold wrapIdx idxOk at *
  split_ifs <;> omega

theorem wrapIdx_of_nonneg {n : ℕ} {i : ℤ} (h : 0 ≤ i) : wrapIdx n i = i.toNat := by
  simp [wrapIdx, h]

theorem except_bind_ok {ε α β : Type} (x : Except ε α) (f : α → Except ε β) (b : β) :
    (x >>= f) = .ok b ↔ ∃ a, x = .ok a ∧ f a = .ok b := by
  cases x with
  | error e => simp [bind, Except.bind]
  | ok a => simp [bind, Except.bind]

/-- Both indices of an addition are valid. -/
def addOk (nz nr : ℕ) (a : ℤ × ℤ × ℂ) : Prop := idxOk nz a.1 ∧ idxOk nr a.2.1

/-- The array that an addition adds. -/
def addBuf (nz nr : ℕ) (a : ℤ × ℤ × ℂ) : Buf :=
  cellBuf (wrapIdx nz a.1) (wrapIdx nr a.2.1) a.2.2

theorem addTo_ok (nz nr : ℕ) (b : Buf) (a : ℤ × ℤ × ℂ) (b' : Buf) :
    addTo nz nr b a = .ok b' ↔ addOk nz nr a ∧ b' = b + addBuf nz nr a := by
  unfold addTo
  simp only [except_bind_ok, bufIndex_ok, pure, Except.pure, Except.ok.injEq, addOk, addBuf,
    addAt_eq]
  constructor
  · rintro ⟨i, ⟨hi, rfl⟩, j, ⟨hj, rfl⟩, h⟩
    exact ⟨⟨hi, hj⟩, h.symm⟩
  · rintro ⟨⟨hi, hj⟩, h⟩
    exact ⟨_, ⟨hi, rfl⟩, _, ⟨hj, rfl⟩, h.symm⟩

section Ptcl

variable (s : Shape) (f : DepField) (c q : ℝ) (g : CylGrid) (beta : List ℝ) (m : ℕ)

/-- Index into the Ruyten coefficients. -/
noncomputable def betaIdx (p : DepPtcl) : ℤ := min ⌈g.rCell (cylR p.x p.y)⌉ g.Nr

/-- Ruyten coefficient of a particle. -/
noncomputable def betaOf (p : DepPtcl) : ℝ :=
  beta.getD (wrapIdx beta.length (betaIdx g p)) 0

/-- Complex amplitude of a particle in mode `m`. -/
noncomputable def scalOf (p : DepPtcl) : ℂ :=
  modeScal (f.scal0 c q p) (cylCos p.x p.y) (cylSin p.x p.y) m

/-- The additions of a particle. -/
noncomputable def addsOf (p : DepPtcl) : List (ℤ × ℤ × ℂ) :=
  ptclAdds s g (betaOf g beta p) (f.flip m) (scalOf f c q m p) (cylR p.x p.y) p.z

/-- All accesses of a particle are in bounds. -/
def ptclOk (p : DepPtcl) : Prop :=
  idxOk beta.length (betaIdx g p) ∧
    ∀ a ∈ addsOf s f c q g beta m p, addOk (g.Nz + 4) (g.Nr + 4) a

/-- The array that a particle adds. -/
noncomputable def ptclBuf (p : DepPtcl) : Buf :=
  ((addsOf s f c q g beta m p).map (addBuf (g.Nz + 4) (g.Nr + 4))).sum

theorem depositPtcl_ok (b : Buf) (p : DepPtcl) (b' : Buf) :
    depositPtcl s f c q g beta m b p = .ok b' ↔
      ptclOk s f c q g beta m p ∧ b' = b + ptclBuf s f c q g beta m p := by
  unfold depositPtcl ptclOk ptclBuf
  simp only [except_bind_ok, bufIndex_ok]
  constructor
  · rintro ⟨k, ⟨hk, rfl⟩, h⟩
    obtain ⟨h1, h2⟩ := (foldlM_add _ _ _ (addTo_ok (g.Nz + 4) (g.Nr + 4)) _ _ _).1 h
    exact ⟨⟨hk, h1⟩, h2⟩
  · rintro ⟨⟨hk, h1⟩, h2⟩
    exact ⟨_, ⟨hk, rfl⟩, (foldlM_add _ _ _ (addTo_ok (g.Nz + 4) (g.Nr + 4)) _ _ _).2 ⟨h1, h2⟩⟩

end Ptcl

section Species

variable (f : DepField) (c : ℝ) (g : CylGrid) (beta : Shape → ℕ → List ℝ) (m : ℕ)

/-- All accesses of a species are in bounds. -/
def speciesOk (sp : DepSpecies) : Prop :=
  sp.q ≠ 0 → ∀ p ∈ sp.ptcls, ptclOk sp.shape f c sp.q g (beta sp.shape (min m 1)) m p

/-- The array that a species adds (summed over threads). -/
noncomputable def speciesBuf (sp : DepSpecies) : Buf :=
  if sp.q = 0 then 0
  else (sp.ptcls.map (ptclBuf sp.shape f c sp.q g (beta sp.shape (min m 1)) m)).sum

/-- The arrays that a species adds to the buffer of each thread. -/
noncomputable def speciesGlob (n : ℕ) (sp : DepSpecies) : ℕ → Buf :=
  if sp.q = 0 then 0
  else ((List.range n).map fun t => Pi.single t
    (((chunkOf sp.ptcls n t).map
      (ptclBuf sp.shape f c sp.q g (beta sp.shape (min m 1)) m)).sum : Buf)).sum

theorem update_eq_add_single (G : ℕ → Buf) (t : ℕ) (x : Buf) :
    Function.update G t (G t + x) = G + Pi.single t x := by
  funext t'
  by_cases h : t' = t
  · subst h; simp
  · simp [h, Function.update_of_ne h, Pi.single_eq_of_ne h]

theorem depositSpecies_ok (n : ℕ) (hn : 0 < n) (G : ℕ → Buf) (sp : DepSpecies)
    (G' : ℕ → Buf) :
    depositSpecies f c g beta m n G sp = .ok G' ↔
      speciesOk f c g beta m sp ∧ G' = G + speciesGlob f c g beta m n sp := by
  unfold depositSpecies speciesOk speciesGlob
  by_cases hq : sp.q = 0
  · simp only [hq, if_true, pure, Except.pure, Except.ok.injEq, add_zero, ne_eq, not_true,
      false_imp_iff, true_and]
    exact eq_comm
  · simp only [hq, if_false, ne_eq, not_false_eq_true, true_imp_iff]
    rw [foldlM_add _
      (fun t => ∀ p ∈ chunkOf sp.ptcls n t,
        ptclOk sp.shape f c sp.q g (beta sp.shape (min m 1)) m p)
      (fun t => Pi.single t (((chunkOf sp.ptcls n t).map
        (ptclBuf sp.shape f c sp.q g (beta sp.shape (min m 1)) m)).sum : Buf))]
    · apply and_congr_left'
      conv_rhs => rw [← chunkOf_flatMap sp.ptcls n hn]
      simp only [List.mem_flatMap]
      exact ⟨fun h p ⟨t, ht, hp⟩ => h t ht p hp, fun h t ht p hp => h p ⟨t, ht, hp⟩⟩
    · intro G t G'
      simp only [except_bind_ok, pure, Except.pure, Except.ok.injEq,
        foldlM_add _ _ _ (depositPtcl_ok sp.shape f c sp.q g (beta sp.shape (min m 1)) m)]
      constructor
      · rintro ⟨b, ⟨h1, rfl⟩, h2⟩
        exact ⟨h1, by rw [← h2, update_eq_add_single]⟩
      · rintro ⟨h1, h2⟩
        exact ⟨_, ⟨h1, rfl⟩, by rw [h2, update_eq_add_single]⟩

theorem list_sum_apply {ι : Type} {M : Type} [AddCommMonoid M] (L : List (ι → M)) (i : ι) :
    L.sum i = (L.map (fun x => x i)).sum := by
  induction L with
  | nil => rfl
  | cons a L ih => simp [ih]

theorem list_sum_flatMap {α M : Type} [AddCommMonoid M] (L : List ℕ) (f : ℕ → List α) (g : α → M) :
    ((L.flatMap f).map g).sum = (L.map fun t => ((f t).map g).sum).sum := by
  induction L with
  | nil => rfl
  | cons a L ih => simp [ih]

theorem list_map_range_sum {M : Type} [AddCommMonoid M] (n : ℕ) (f : ℕ → M) :
    ((List.range n).map f).sum = ∑ i ∈ Finset.range n, f i := rfl

theorem speciesGlob_sum (n : ℕ) (hn : 0 < n) (sp : DepSpecies) :
    ∑ t ∈ Finset.range n, speciesGlob f c g beta m n sp t = speciesBuf f c g beta m sp := by
  unfold speciesGlob speciesBuf
  by_cases hq : sp.q = 0
  · simp [hq]
  · simp only [hq, if_false, list_map_range_sum]
    conv_rhs => rw [← chunkOf_flatMap sp.ptcls n hn, list_sum_flatMap, list_map_range_sum]
    apply Finset.sum_congr rfl
    intro t ht
    rw [Finset.sum_apply, Finset.sum_eq_single t]
    · rw [Pi.single_eq_same]
    · intro b _ hb
      exact Pi.single_eq_of_ne hb.symm _
    · intro h; exact absurd ht h

end Species

/-! ### Reduction -/

/-- Destination column of a buffer column. -/
def foldCol (Nr j : ℕ) : ℕ :=
  if j = 0 then 1 else if j = 1 then 0 else if j < Nr + 2 then j - 2 else Nr - 1

/-- Destination row of a buffer row. -/
def foldRow (Nz i : ℕ) : ℕ :=
  if i = 0 then Nz - 2 else if i = 1 then Nz - 1
  else if i < Nz + 2 then i - 2 else if i = Nz + 2 then 0 else 1

theorem foldl_add {S A : Type} [AddCommMonoid S] (f : S → A → S) (c : A → S)
    (h : ∀ s a, f s a = s + c a) (L : List A) (s : S) :
    L.foldl f s = s + (L.map c).sum := by
  induction L generalizing s with
  | nil => simp
  | cons a L ih => simp [ih, h, add_assoc]

/-- Sum over the buffer indices `0 … N+3`, written in the order of the code. -/
theorem sum_range_guard {M : Type} [AddCommMonoid M] (N : ℕ) (f : ℕ → M) :
    ∑ i ∈ Finset.range (N + 4), f i
      = f 0 + f 1 + (∑ i ∈ Finset.range N, f (i + 2)) + f (N + 2) + f (N + 3) := by
  rw [show N + 4 = (N + 2) + 1 + 1 from rfl, Finset.sum_range_succ, Finset.sum_range_succ,
    Finset.sum_range_succ' _ (N + 1), Finset.sum_range_succ' _ N]
  simp only [Nat.zero_add, Nat.add_assoc, Nat.reduceAdd]
  rw [add_comm (f 0) (f 1), add_comm (∑ i ∈ Finset.range N, f (i + 2)) (f 1), add_assoc (f 1),
    add_comm _ (f 0), ← add_assoc (f 1)]

theorem reduceSlice_eq (Nr n : ℕ) (A : Buf) (iz : ℕ) (G : ℕ → Buf) (izg : ℕ) :
    reduceSlice Nr n A iz G izg = A + ∑ t ∈ Finset.range n,
      ∑ j ∈ Finset.range (Nr + 4), cellBuf iz (foldCol Nr j) (G t izg j) := by
  unfold reduceSlice
  rw [foldl_add _ (fun t => ∑ j ∈ Finset.range (Nr + 4), cellBuf iz (foldCol Nr j) (G t izg j))]
  · rfl
  · intro A t
    simp only [addAt_eq]
    rw [foldl_add _ (fun ir => cellBuf iz ir (G t izg (ir + 2))) (fun s a => rfl),
      sum_range_guard, list_map_range_sum]
    have h : ∀ i ∈ Finset.range Nr, cellBuf iz (foldCol Nr (i + 2)) (G t izg (i + 2))
        = cellBuf iz i (G t izg (i + 2)) := by
      intro i hi
      rw [Finset.mem_range] at hi
      simp [foldCol, hi]
    rw [Finset.sum_congr rfl h]
    simp only [foldCol, if_true, show ¬ (1 = 0) by omega, if_false,
      show ¬ (Nr + 2 = 0) by omega, show ¬ (Nr + 2 = 1) by omega, lt_irrefl,
      show ¬ (Nr + 3 = 0) by omega, show ¬ (Nr + 3 = 1) by omega,
      show ¬ (Nr + 3 < Nr + 2) by omega]
    simp only [add_assoc]

/-- The linear map of the reduction, on the buffer summed over the threads. -/
def reduceBuf (Nz Nr : ℕ) (B : Buf) : Buf :=
  ∑ i ∈ Finset.range (Nz + 4), ∑ j ∈ Finset.range (Nr + 4),
    cellBuf (foldRow Nz i) (foldCol Nr j) (B i j)

theorem cellBuf_add (i j : ℕ) (v w : ℂ) : cellBuf i j (v + w) = cellBuf i j v + cellBuf i j w := by
  funext i' j'
  simp only [cellBuf, Pi.add_apply]
  split_ifs <;> simp

theorem cellBuf_zero (i j : ℕ) : cellBuf i j 0 = 0 := by
  funext i' j'
  simp [cellBuf]

theorem cellBuf_sum {ι : Type} (S : Finset ι) (i j : ℕ) (v : ι → ℂ) :
    cellBuf i j (∑ t ∈ S, v t) = ∑ t ∈ S, cellBuf i j (v t) := by
  classical
  induction S using Finset.induction_on with
  | empty => simp [cellBuf_zero]
  | insert a S ha ih => rw [Finset.sum_insert ha, Finset.sum_insert ha, cellBuf_add, ih]

theorem sumReduce_eq (Nz Nr n : ℕ) (G : ℕ → Buf) (A : Buf) :
    sumReduce Nz Nr n G A = A + reduceBuf Nz Nr (∑ t ∈ Finset.range n, G t) := by
  unfold sumReduce reduceBuf
  simp only [reduceSlice_eq]
  rw [foldl_add _ (fun iz => ∑ t ∈ Finset.range n,
      ∑ j ∈ Finset.range (Nr + 4), cellBuf iz (foldCol Nr j) (G t (iz + 2) j))
      (fun s a => rfl), sum_range_guard, list_map_range_sum]
  have key : ∀ i r, ∑ j ∈ Finset.range (Nr + 4),
      cellBuf r (foldCol Nr j) ((∑ t ∈ Finset.range n, G t) i j)
      = ∑ t ∈ Finset.range n, ∑ j ∈ Finset.range (Nr + 4), cellBuf r (foldCol Nr j) (G t i j) := by
    intro i r
    rw [Finset.sum_comm]
    apply Finset.sum_congr rfl
    intro j _
    rw [← cellBuf_sum, Finset.sum_apply, Finset.sum_apply]
  simp only [key]
  have h : ∀ i ∈ Finset.range Nz, (∑ t ∈ Finset.range n, ∑ j ∈ Finset.range (Nr + 4),
        cellBuf (foldRow Nz (i + 2)) (foldCol Nr j) (G t (i + 2) j))
      = ∑ t ∈ Finset.range n, ∑ j ∈ Finset.range (Nr + 4),
        cellBuf i (foldCol Nr j) (G t (i + 2) j) := by
    intro i hi
    rw [Finset.mem_range] at hi
    simp [foldRow, hi]
  rw [Finset.sum_congr rfl h]
  simp only [foldRow, if_true, show ¬ (1 = 0) by omega, if_false,
      show ¬ (Nz + 2 = 0) by omega, show ¬ (Nz + 2 = 1) by omega, lt_irrefl,
      show ¬ (Nz + 3 = 0) by omega, show ¬ (Nz + 3 = 1) by omega,
      show ¬ (Nz + 3 < Nz + 2) by omega, show ¬ (Nz + 3 = Nz + 2) by omega]
  abel

/-! ### The whole deposition -/

theorem depositAll_ok (f : DepField) (c : ℝ) (g : CylGrid) (beta : Shape → ℕ → List ℝ)
    (m n : ℕ) (hn : 0 < n) (sps : List DepSpecies) (A : Buf) :
    depositAll f c g beta m n sps = .ok A ↔
      (∀ sp ∈ sps, speciesOk f c g beta m sp) ∧
      A = reduceBuf g.Nz g.Nr ((sps.map (speciesBuf f c g beta m)).sum) := by
  unfold depositAll
  have hz : (fun _ _ _ => 0 : ℕ → Buf) = 0 := rfl
  have hz2 : (fun _ _ => 0 : Buf) = 0 := rfl
  simp only [except_bind_ok, pure, Except.pure, Except.ok.injEq,
    foldlM_add _ _ _ (depositSpecies_ok f c g beta m n hn), sumReduce_eq, hz, hz2, zero_add]
  have hs : ∑ t ∈ Finset.range n, (sps.map (speciesGlob f c g beta m n)).sum t
      = (sps.map (speciesBuf f c g beta m)).sum := by
    induction sps with
    | nil => simp
    | cons sp sps ih =>
      simp only [List.map_cons, List.sum_cons, Pi.add_apply, Finset.sum_add_distrib, ih,
        speciesGlob_sum f c g beta m n hn]
  constructor
  · rintro ⟨G, ⟨h1, rfl⟩, h2⟩
    exact ⟨h1, by rw [← h2, hs]⟩
  · rintro ⟨h1, h2⟩
    exact ⟨_, ⟨h1, rfl⟩, by rw [h2, hs]⟩

/-! ### Pairing of a deposited array with a grid function -/

/-- `Σ A[iz,ir] F[iz,ir]` over the grid. -/
noncomputable def pair (Nz Nr : ℕ) (F A : Buf) : ℂ :=
  ∑ i ∈ Finset.range Nz, ∑ j ∈ Finset.range Nr, A i j * F i j

theorem pair_add (Nz Nr : ℕ) (F A B : Buf) :
    pair Nz Nr F (A + B) = pair Nz Nr F A + pair Nz Nr F B := by
  simp only [pair, Pi.add_apply, add_mul, Finset.sum_add_distrib]

theorem pair_zero (Nz Nr : ℕ) (F : Buf) : pair Nz Nr F 0 = 0 := by
  simp [pair]

theorem pair_sum {ι : Type} (S : Finset ι) (Nz Nr : ℕ) (F : Buf) (A : ι → Buf) :
    pair Nz Nr F (∑ t ∈ S, A t) = ∑ t ∈ S, pair Nz Nr F (A t) := by
  classical
  induction S using Finset.induction_on with
  | empty => simp [pair_zero]
  | insert a S ha ih => rw [Finset.sum_insert ha, Finset.sum_insert ha, pair_add, ih]

theorem pair_list_sum (Nz Nr : ℕ) (F : Buf) (L : List Buf) :
    pair Nz Nr F L.sum = (L.map (pair Nz Nr F)).sum := by
  induction L with
  | nil => simp [pair_zero]
  | cons a L ih => simp [pair_add, ih]

theorem pair_cellBuf (Nz Nr : ℕ) (F : Buf) (i j : ℕ) (v : ℂ) (hi : i < Nz) (hj : j < Nr) :
    pair Nz Nr F (cellBuf i j v) = v * F i j := by
  unfold pair
  rw [Finset.sum_eq_single i, Finset.sum_eq_single j]
  · simp [cellBuf]
  · intro b _ hb; simp [cellBuf, hb]
  · intro h; exact absurd (Finset.mem_range.2 hj) h
  · intro b _ hb; simp [cellBuf, hb]
  · intro h; exact absurd (Finset.mem_range.2 hi) h

theorem foldRow_lt (Nz i : ℕ) (h : 2 ≤ Nz) : foldRow Nz i < Nz := by
  unfold foldRow; split_ifs <;> omega

theorem foldCol_lt (Nr j : ℕ) (h : 2 ≤ Nr) : foldCol Nr j < Nr := by
  unfold foldCol; split_ifs <;> omega

/-- The grid function seen from the buffer. -/
def pullBuf (Nz Nr : ℕ) (F : Buf) : Buf := fun i j => F (foldRow Nz i) (foldCol Nr j)

theorem pair_reduceBuf (Nz Nr : ℕ) (hz : 2 ≤ Nz) (hr : 2 ≤ Nr) (F B : Buf) :
    pair Nz Nr F (reduceBuf Nz Nr B) = pair (Nz + 4) (Nr + 4) (pullBuf Nz Nr F) B := by
  unfold reduceBuf
  rw [pair_sum]
  unfold pair
  apply Finset.sum_congr rfl
  intro i _
  have := pair_sum (Finset.range (Nr + 4)) Nz Nr F
    (fun j => cellBuf (foldRow Nz i) (foldCol Nr j) (B i j))
  unfold pair at this
  rw [this]
  apply Finset.sum_congr rfl
  intro j _
  exact pair_cellBuf Nz Nr F _ _ _ (foldRow_lt Nz i hz) (foldCol_lt Nr j hr)

/-- Value of the grid function at the destination of an addition. -/
def addVal (Nz Nr : ℕ) (F : Buf) (a : ℤ × ℤ × ℂ) : ℂ :=
  a.2.2 * F (foldRow Nz (wrapIdx (Nz + 4) a.1)) (foldCol Nr (wrapIdx (Nr + 4) a.2.1))

theorem pair_adds (Nz Nr : ℕ) (F : Buf) (L : List (ℤ × ℤ × ℂ))
    (hL : ∀ a ∈ L, addOk (Nz + 4) (Nr + 4) a) :
    pair (Nz + 4) (Nr + 4) (pullBuf Nz Nr F) ((L.map (addBuf (Nz + 4) (Nr + 4))).sum)
      = (L.map (addVal Nz Nr F)).sum := by
  rw [pair_list_sum, List.map_map]
  congr 1
  apply List.map_congr_left
  intro a ha
  obtain ⟨h1, h2⟩ := hL a ha
  exact pair_cellBuf _ _ _ _ _ _ (wrapIdx_lt h1) (wrapIdx_lt h2)

/-- The pairing of the deposited array with any grid function is the sum over the
particles of the values at the destinations of their additions. -/
theorem pair_depositAll (f : DepField) (c : ℝ) (g : CylGrid) (beta : Shape → ℕ → List ℝ)
    (m n : ℕ) (hn : 0 < n) (sps : List DepSpecies) (A F : Buf)
    (hz : 2 ≤ g.Nz) (hr : 2 ≤ g.Nr)
    (h : depositAll f c g beta m n sps = .ok A) :
    pair g.Nz g.Nr F A = (sps.map fun sp => if sp.q = 0 then 0 else
      (sp.ptcls.map fun p => ((addsOf sp.shape f c sp.q g (beta sp.shape (min m 1)) m p).map
        (addVal g.Nz g.Nr F)).sum).sum).sum := by
  obtain ⟨h1, rfl⟩ := (depositAll_ok f c g beta m n hn sps A).1 h
  rw [pair_reduceBuf _ _ hz hr, pair_list_sum, List.map_map]
  congr 1
  apply List.map_congr_left
  intro sp hsp
  simp only [Function.comp, speciesBuf]
  by_cases hq : sp.q = 0
  · simp [hq, pair_zero]
  · simp only [hq, if_false]
    rw [pair_list_sum, List.map_map]
    congr 1
    apply List.map_congr_left
    intro p hp
    exact pair_adds _ _ _ _ ((h1 sp hsp hq p hp).2)

end Fbpic
