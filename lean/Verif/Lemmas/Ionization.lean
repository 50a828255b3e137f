import Verif.Spec.Ionization
import Verif.Lemmas.Tactics
import Mathlib.Data.List.Nodup

namespace Fbpic

variable {K A : Type}

/-! ### The chunks -/

theorem IonParams.mem_chunk (P : IonParams) {N b ip : ℕ} :
    ip ∈ P.chunk N b ↔ b * P.batchSize ≤ ip ∧ ip < (b + 1) * P.batchSize ∧ ip < N := by
  unfold IonParams.chunk
  rw [List.mem_range'_1, Nat.add_mul, Nat.one_mul]
  omega

theorem IonParams.range_succ_chunk (P : IonParams) (N b : ℕ) :
    List.range (min ((b + 1) * P.batchSize) N)
      = List.range (min (b * P.batchSize) N) ++ P.chunk N b := by
  unfold IonParams.chunk
  rw [Nat.add_mul, Nat.one_mul]
  set a := b * P.batchSize
  by_cases h : a ≤ N
  · rw [Nat.min_eq_left h]
    have e : min (a + P.batchSize) N = a + (min (a + P.batchSize) N - a) := by omega
    conv_lhs => rw [e]
    rw [List.range_eq_range', List.range_eq_range', ← List.range'_append]
    simp
  · have e1 : min (a + P.batchSize) N = N := by omega
    have e2 : min a N = N := by omega
    rw [e1, e2]
    have e3 : N - a = 0 := by omega
    simp [e3]

theorem IonParams.all_chunks (P : IonParams) (hb : 0 < P.batchSize) (N : ℕ) :
    min (P.nBatch N * P.batchSize) N = N := by
  unfold IonParams.nBatch
  have := Nat.lt_div_mul_add (a := N) hb
  rw [Nat.add_mul, Nat.one_mul]
  omega

/-! ### The ionization loop -/

section
variable [NatCast K] [Mul K]

/-- `fires` in terms of an array of levels. -/
def firesL (P : IonParams) (level : ℕ → ℕ) (dec : ℕ → ℕ → Bool) (ip : ℕ) : Bool :=
  decide (level ip < P.levelMax) && dec ip (level ip)

theorem firesL_congr (P : IonParams) {l1 l2 : ℕ → ℕ} (dec : ℕ → ℕ → Bool) {ip : ℕ}
    (h : l1 ip = l2 ip) : firesL P l1 dec ip = firesL P l2 dec ip := by simp [firesL, h]

/-- Pointwise result of processing a set of ions `S`. -/
def afterIons (P : IonParams) (w : ℕ → K) (dec : ℕ → ℕ → Bool) (S : ℕ → Bool) (s : IonState K) :
    (ℕ → ℤ) × (ℕ → ℕ) × (ℕ → K) :=
  (fun ip => if S ip then
      (if firesL P s.level dec ip then ((s.level ip - P.levelStart : ℕ) : ℤ) else -1)
      else s.ionizedFrom ip,
   fun ip => if S ip && firesL P s.level dec ip then s.level ip + 1 else s.level ip,
   fun ip => if S ip && firesL P s.level dec ip then w ip * ((s.level ip + 1 : ℕ) : K) else s.wtl ip)

theorem ionizeOne_eq (P : IonParams) (w : ℕ → K) (dec : ℕ → ℕ → Bool) (b : ℕ) (s : IonState K)
    (ip : ℕ) :
    (ionizeOne P w dec b s ip).ionizedFrom = (afterIons P w dec (fun j => j == ip) s).1 ∧
    (ionizeOne P w dec b s ip).level = (afterIons P w dec (fun j => j == ip) s).2.1 ∧
    (ionizeOne P w dec b s ip).wtl = (afterIons P w dec (fun j => j == ip) s).2.2 ∧
    ∀ l b', (ionizeOne P w dec b s ip).nIonized l b' = s.nIonized l b' +
      (if b' = b ∧ firesL P s.level dec ip ∧ P.slot (s.level ip) = l then 1 else 0) := by
  unfold ionizeOne afterIons
  by_cases h1 : P.levelMax ≤ s.level ip
  · have hf : firesL P s.level dec ip = false := by simp [firesL, h1]
    simp only [h1, if_true]
    refine ⟨?_, ?_, ?_, ?_⟩
    · funext j; by_cases e : j = ip
      · subst e; simp [hf]
      · simp [e]
    · funext j; by_cases e : j = ip
      · subst e; simp [hf]
      · simp [e]
    · funext j; by_cases e : j = ip
      · subst e; simp [hf]
      · simp [e]
    · intro l b'; simp [hf]
  · by_cases h2 : dec ip (s.level ip)
    · have hf : firesL P s.level dec ip = true := by simp [firesL, h2]; omega
      simp only [h1, if_false, h2, if_true]
      refine ⟨?_, ?_, ?_, ?_⟩
      · funext j; by_cases e : j = ip
        · subst e; simp [hf]
        · simp [e]
      · funext j; by_cases e : j = ip
        · subst e; simp [hf]
        · simp [e]
      · funext j; by_cases e : j = ip
        · subst e; simp [hf]
        · simp [e]
      · intro l b'
        by_cases e : l = P.slot (s.level ip)
        · subst e
          by_cases e2 : b' = b
          · subst e2; simp [hf]
          · simp [e2]
        · simp [e, Ne.symm e]
    · have hf : firesL P s.level dec ip = false := by simp [firesL, h2]
      simp only [h1, if_false, h2]
      refine ⟨?_, ?_, ?_, ?_⟩
      · funext j; by_cases e : j = ip
        · subst e; simp [hf]
        · simp [e]
      · funext j; by_cases e : j = ip
        · subst e; simp [hf]
        · simp [e]
      · funext j; by_cases e : j = ip
        · subst e; simp [hf]
        · simp [e]
      · intro l b'; simp [hf]

theorem ionize_fold (P : IonParams) (w : ℕ → K) (dec : ℕ → ℕ → Bool) (b : ℕ) :
    ∀ (l : List ℕ), l.Nodup → ∀ s : IonState K,
    (l.foldl (ionizeOne P w dec b) s).ionizedFrom = (afterIons P w dec (fun j => decide (j ∈ l)) s).1 ∧
    (l.foldl (ionizeOne P w dec b) s).level = (afterIons P w dec (fun j => decide (j ∈ l)) s).2.1 ∧
    (l.foldl (ionizeOne P w dec b) s).wtl = (afterIons P w dec (fun j => decide (j ∈ l)) s).2.2 ∧
    ∀ lv b', (l.foldl (ionizeOne P w dec b) s).nIonized lv b' = s.nIonized lv b' +
      (if b' = b then l.countP (fun ip => firesL P s.level dec ip && decide (P.slot (s.level ip) = lv))
        else 0)
  | [], _, s => by
    refine ⟨?_, ?_, ?_, ?_⟩ <;> simp [afterIons]
  | ip :: l, hnd, s => by
    obtain ⟨hni, hnd⟩ := List.nodup_cons.mp hnd
    obtain ⟨o1, o2, o3, o4⟩ := ionizeOne_eq P w dec b s ip
    obtain ⟨i1, i2, i3, i4⟩ := ionize_fold P w dec b l hnd (ionizeOne P w dec b s ip)
    have hlev : ∀ j, j ≠ ip → (ionizeOne P w dec b s ip).level j = s.level j := by
      intro j hj; rw [o2]; simp [afterIons, hj]
    have hfire : ∀ j, j ≠ ip →
        firesL P (ionizeOne P w dec b s ip).level dec j = firesL P s.level dec j :=
      fun j hj => firesL_congr P dec (hlev j hj)
    rw [List.foldl_cons]
    refine ⟨?_, ?_, ?_, ?_⟩
    · rw [i1]; funext j
      by_cases hj : j = ip
      · subst hj; simp [afterIons, hni, o1]
      · simp only [afterIons, hlev j hj, hfire j hj, o1]
        simp [hj]
    · rw [i2]; funext j
      by_cases hj : j = ip
      · subst hj; simp [afterIons, hni, o2]
      · simp only [afterIons, hlev j hj, hfire j hj]
        simp [hj]
    · rw [i3]; funext j
      by_cases hj : j = ip
      · subst hj; simp [afterIons, hni, o3]
      · simp only [afterIons, hlev j hj, hfire j hj, o3]
        simp [hj]
    · intro lv b'
      rw [i4, o4, List.countP_cons]
      have e : l.countP (fun ip_1 => firesL P (ionizeOne P w dec b s ip).level dec ip_1 &&
            decide (P.slot ((ionizeOne P w dec b s ip).level ip_1) = lv))
          = l.countP (fun ip => firesL P s.level dec ip && decide (P.slot (s.level ip) = lv)) := by
        refine List.countP_congr fun j hj => ?_
        have hne : j ≠ ip := fun e => hni (e ▸ hj)
        rw [hfire j hne, hlev j hne]
      rw [e]
      by_cases hb : b' = b
      · simp [hb]; omega
      · simp [hb]

theorem ionizeBatches (P : IonParams) (N : ℕ) (w : ℕ → K) (dec : ℕ → ℕ → Bool)
    (s : IonState K) : ∀ B : ℕ,
    let s' := (List.range B).foldl (ionizeBatch P N w dec) s
    let S := fun j => decide (j < min (B * P.batchSize) N)
    s'.ionizedFrom = (afterIons P w dec S s).1 ∧
    s'.level = (afterIons P w dec S s).2.1 ∧
    s'.wtl = (afterIons P w dec S s).2.2 ∧
    ∀ lv < P.nLevels, ∀ b < B, s'.nIonized lv b =
      (P.chunk N b).countP (fun ip => firesL P s.level dec ip && decide (P.slot (s.level ip) = lv))
  | 0 => by
    refine ⟨?_, ?_, ?_, ?_⟩ <;> simp [afterIons]
  | B + 1 => by
    obtain ⟨i1, i2, i3, i4⟩ := ionizeBatches P N w dec s B
    simp only [List.range_succ, List.foldl_append, List.foldl_cons, List.foldl_nil]
    set s' := (List.range B).foldl (ionizeBatch P N w dec) s with hs'
    set s1 : IonState K := { s' with
      nIonized := fun l b' => if l < P.nLevels ∧ b' = B then 0 else s'.nIonized l b' } with hs1
    have hnd : (P.chunk N B).Nodup := List.nodup_range'
    obtain ⟨f1, f2, f3, f4⟩ := ionize_fold P w dec B (P.chunk N B) hnd s1
    have hun : ionizeBatch P N w dec s' B = (P.chunk N B).foldl (ionizeOne P w dec B) s1 := rfl
    rw [hun]
    -- ions of the new chunk are untouched so far
    have hlev : ∀ j, j ∈ P.chunk N B → s1.level j = s.level j := by
      intro j hj
      have := (P.mem_chunk).mp hj
      show s'.level j = _
      rw [i2]
      have : ¬ (j < min (B * P.batchSize) N) := by omega
      simp only [afterIons, decide_eq_false this, Bool.false_and, Bool.false_eq_true, if_false]
    have hmem : ∀ j, j < min ((B + 1) * P.batchSize) N ↔ j < min (B * P.batchSize) N ∨ j ∈ P.chunk N B := by
      intro j
      rw [← List.mem_range, P.range_succ_chunk, List.mem_append, List.mem_range]
    refine ⟨?_, ?_, ?_, ?_⟩
    · rw [f1]; funext j
      by_cases hj : j ∈ P.chunk N B
      · have h2 : j < min ((B + 1) * P.batchSize) N := (hmem j).mpr (Or.inr hj)
        simp only [afterIons, hj, decide_true, if_true, h2, firesL_congr P dec (hlev j hj), hlev j hj]
      · have h2 : decide (j < min ((B + 1) * P.batchSize) N) = decide (j < min (B * P.batchSize) N) := by
          simp only [hmem j, hj, or_false]
        have h3 : s1.ionizedFrom = s'.ionizedFrom := rfl
        simp only [afterIons, hj, decide_false, h2, h3, i1]
        simp
    · rw [f2]; funext j
      by_cases hj : j ∈ P.chunk N B
      · have h2 : j < min ((B + 1) * P.batchSize) N := (hmem j).mpr (Or.inr hj)
        simp only [afterIons, hj, decide_true, h2, firesL_congr P dec (hlev j hj), hlev j hj]
      · have h2 : decide (j < min ((B + 1) * P.batchSize) N) = decide (j < min (B * P.batchSize) N) := by
          simp only [hmem j, hj, or_false]
        have h3 : s1.level = s'.level := rfl
        simp only [afterIons, hj, decide_false, h2, h3, i2]
        simp
    · rw [f3]; funext j
      by_cases hj : j ∈ P.chunk N B
      · have h2 : j < min ((B + 1) * P.batchSize) N := (hmem j).mpr (Or.inr hj)
        have h4 : s1.wtl j = s.wtl j := by
          have := (P.mem_chunk).mp hj
          show s'.wtl j = _
          rw [i3]
          have : ¬ (j < min (B * P.batchSize) N) := by omega
          simp only [afterIons, decide_eq_false this, Bool.false_and, Bool.false_eq_true, if_false]
        simp only [afterIons, hj, decide_true, h2, firesL_congr P dec (hlev j hj), hlev j hj, h4]
      · have h2 : decide (j < min ((B + 1) * P.batchSize) N) = decide (j < min (B * P.batchSize) N) := by
          simp only [hmem j, hj, or_false]
        have h3 : s1.wtl = s'.wtl := rfl
        simp only [afterIons, hj, decide_false, h2, h3, i3]
        simp
    · intro lv hlv b hb
      rw [f4]
      by_cases hB : b = B
      · subst hB
        simp only [hs1, hlv, true_and, if_true, Nat.zero_add]
        refine List.countP_congr fun j hj => ?_
        have hl := hlev j hj
        have hl' : s'.level j = s.level j := hl
        rw [firesL_congr P dec hl', hl']
      · rw [if_neg hB]
        have : ¬ (lv < P.nLevels ∧ b = B) := by tauto
        simp only [hs1, this, if_false, Nat.add_zero]
        exact i4 lv hlv b (by omega)

theorem cumsum2d_eq (P : IonParams) (N : ℕ) (f : ℕ → Bool) (n : ℕ → ℕ → ℕ) (lv : ℕ) :
    ∀ B, (∀ b < B, n lv b = (P.chunk N b).countP f) →
      cumsum2d n lv B = (List.range (min (B * P.batchSize) N)).countP f
  | 0, _ => by simp [cumsum2d]
  | B + 1, h => by
    have ih := cumsum2d_eq P N f n lv B (fun b hb => h b (by omega))
    unfold cumsum2d at ih ⊢
    rw [List.range_succ, List.map_append, List.sum_append, ih, P.range_succ_chunk,
      List.countP_append, ← h B (by omega)]
    simp

end

/-! ### The copy -/

theorem copyLoop_eq {α : Type} (create : ℕ → Bool) (ion : ℕ → α) :
    ∀ (l : List ℕ) (s : ℕ × (ℕ → α)),
    copyLoop create ion l s = (s.1 + (l.filter create).length,
      fun j => if j < s.1 then s.2 j else (((l.filter create).map ion)[j - s.1]?).getD (s.2 j))
  | [], s => by simp [copyLoop]
  | ip :: l, s => by
    have ih := copyLoop_eq create ion l
    unfold copyLoop at ih ⊢
    rw [List.foldl_cons]
    by_cases h : create ip
    · rw [if_pos h, ih]
      simp only [List.filter_cons, h, if_true, List.length_cons, List.map_cons]
      refine Prod.ext (by simp; omega) ?_
      funext j
      simp only
      by_cases h1 : j < s.1
      · simp [h1, Nat.lt_succ_of_lt h1, Nat.ne_of_lt h1]
      · by_cases h2 : j = s.1
        · subst h2; simp
        · have h3 : ¬ j < s.1 + 1 := by omega
          have h4 : j - s.1 = (j - (s.1 + 1)) + 1 := by omega
          simp only [h1, h3, if_false, h4, List.getElem?_cons_succ, Function.update_of_ne h2]
    · rw [if_neg h, ih]
      simp [h]

theorem copyIonized_eq {α : Type} (P : IonParams) (N oldN : ℕ) (cum : ℕ → ℕ → ℕ)
    (from_ : ℕ → ℤ) (i : ℕ) (ion elec : ℕ → α)
    (hcum : ∀ b ≤ P.nBatch N, cum i b
      = ((List.range (min (b * P.batchSize) N)).filter (createElectron P from_ i)).length) :
    ∀ B ≤ P.nBatch N,
    (List.range B).foldl (fun e b =>
      (copyLoop (createElectron P from_ i) ion (P.chunk N b) (oldN + cum i b, e)).2) elec
    = fun j => if j < oldN then elec j else
      ((((List.range (min (B * P.batchSize) N)).filter (createElectron P from_ i)).map ion)[j - oldN]?).getD
        (elec j)
  | 0, _ => by funext j; simp
  | B + 1, hB => by
    have ih := copyIonized_eq P N oldN cum from_ i ion elec hcum B (by omega)
    rw [List.range_succ, List.foldl_append, ih]
    simp only [List.foldl_cons, List.foldl_nil]
    rw [copyLoop_eq, P.range_succ_chunk, List.filter_append, List.map_append, hcum B (by omega)]
    set L := (List.range (min (B * P.batchSize) N)).filter (createElectron P from_ i) with hL
    set F := (P.chunk N B).filter (createElectron P from_ i) with hF
    funext j
    simp only
    by_cases h1 : j < oldN
    · rw [if_pos (by omega), if_pos h1, if_pos h1]
    · rw [if_neg h1, if_neg h1]
      by_cases h2 : j < oldN + L.length
      · rw [if_pos h2, List.getElem?_append_left (by simpa using (by omega : j - oldN < L.length))]
      · rw [if_neg h2, List.getElem?_append_right (by simpa using (by omega : L.length ≤ j - oldN))]
        have e : (L.map ion)[j - oldN]? = none := by
          rw [List.getElem?_eq_none_iff]; simpa using (by omega : L.length ≤ j - oldN)
        rw [e, List.length_map]
        have e2 : j - (oldN + L.length) = j - oldN - L.length := by omega
        rw [e2]; rfl

end Fbpic
