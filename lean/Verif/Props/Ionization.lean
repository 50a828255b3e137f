import Verif.Lemmas.Ionization
import Mathlib.Algebra.BigOperators.Group.Finset.Basic
import Mathlib.Algebra.BigOperators.Ring.Finset

/-!
# C17: one ionization step is independent of batches; C16: charge conservation over any history
-/

namespace Fbpic

variable {K A : Type}

section step
variable [NatCast K] [Mul K]

private theorem create_iff (P : IonParams) (ion : Ions K A) (dec : ℕ → ℕ → Bool)
    (from0 : ℕ → ℤ) (n0 : ℕ → ℕ → ℕ) (hlev : ∀ ip < ion.Ntot, P.levelStart ≤ ion.level ip)
    (i ip : ℕ) (hip : ip < ion.Ntot) :
    createElectron P (afterIons P ion.w dec (fun j => decide (j < ion.Ntot))
        ⟨n0, from0, ion.level, ion.wtl⟩).1 i ip
      = (Spec.fires P ion dec ip && Spec.routed P i (ion.level ip)) := by
  have hf : firesL P ion.level dec ip = Spec.fires P ion dec ip := rfl
  have h0 := hlev ip hip
  simp only [createElectron, afterIons, hip, decide_true, if_true, hf, Spec.routed]
  by_cases hfi : Spec.fires P ion dec ip
  · by_cases hs : P.storePerLevel
    · simp only [hfi, hs, if_true, Bool.true_and, decide_eq_decide]
      omega
    · simp [hfi, hs]
  · by_cases hs : P.storePerLevel
    · simp [hfi, hs]
    · simp [hfi, hs]

private theorem slot_iff (P : IonParams) (ion : Ions K A) (dec : ℕ → ℕ → Bool)
    (i ip : ℕ) (hi : i < P.nLevels) (h0 : P.levelStart ≤ ion.level ip) :
    (firesL P ion.level dec ip && decide (P.slot (ion.level ip) = i))
      = (Spec.fires P ion dec ip && Spec.routed P i (ion.level ip)) := by
  have hf : firesL P ion.level dec ip = Spec.fires P ion dec ip := rfl
  rw [hf]
  by_cases hfi : Spec.fires P ion dec ip
  · have hmax : ion.level ip < P.levelMax := by
      simp only [Spec.fires, Bool.and_eq_true, decide_eq_true_eq] at hfi; exact hfi.1
    rw [hfi, Bool.true_and, Bool.true_and]
    unfold IonParams.slot Spec.routed
    unfold IonParams.nLevels at *
    by_cases hs : P.storePerLevel
    · simp only [hs, if_true] at hi ⊢
      rw [decide_eq_decide]
      split_ifs <;> omega
    · simp only [hs, if_false] at hi ⊢
      simp at hi ⊢; omega
  · simp [hfi]

/-- **C17.** For every batch size, every content of the uninitialised work arrays and every outcome of
the draws, one ionization step does exactly what the batch-free specification says: each ion
that fires goes up by one level (and its effective weight follows), all others are untouched, and
every target species receives, after its old electrons, exactly one electron per ion that fired from the
level routed to it, with the attributes and the weight of its parent, in the order of the parents:
none twice, none missing, and nothing else in the array. -/
theorem C17_refines (P : IonParams) (hb : 0 < P.batchSize)
    (hstore : P.storePerLevel → P.levelStart ≤ P.levelMax) (ion : Ions K A)
    (targets : List (Elecs K A)) (htar : targets.length = P.nLevels)
    (hlev : ∀ ip < ion.Ntot, P.levelStart ≤ ion.level ip)
    (dec : ℕ → ℕ → Bool) (J : Junk K A) :
    ∃ (ion' : Ions K A) (targets' : List (Elecs K A)),
      handleIonization P ion targets dec J = .ok (ion', targets') ∧
      ion'.Ntot = ion.Ntot ∧ ion'.attr = ion.attr ∧ ion'.w = ion.w ∧
      (∀ ip, ion'.level ip =
        if ip < ion.Ntot ∧ Spec.fires P ion dec ip then ion.level ip + 1 else ion.level ip) ∧
      (∀ ip, ion'.wtl ip = if ip < ion.Ntot ∧ Spec.fires P ion dec ip
        then ion.w ip * ((ion.level ip + 1 : ℕ) : K) else ion.wtl ip) ∧
      targets'.length = targets.length ∧
      ∀ i (h : i < targets.length) (h' : i < targets'.length),
        (targets'[i]).toList = (targets[i]).toList ++ Spec.newElectrons P ion dec i := by
  unfold handleIonization
  by_cases hN : ion.Ntot = 0
  · rw [if_pos hN]
    exact ⟨ion, targets, rfl, rfl, rfl, rfl, by simp [hN], by simp [hN], rfl,
      fun i h h' => by simp [Spec.newElectrons, hN]⟩
  rw [if_neg hN, if_neg (by rintro ⟨h1, h2⟩; have := hstore h1; omega)]
  obtain ⟨e1, e2, e3, e4⟩ := ionizeBatches P ion.Ntot ion.w dec
    ⟨J.nIonized, J.ionizedFrom, ion.level, ion.wtl⟩ (P.nBatch ion.Ntot)
  rw [P.all_chunks hb] at e1 e2 e3
  change (ionizeIons P ion.Ntot ion.w dec _).ionizedFrom = _ at e1
  change (ionizeIons P ion.Ntot ion.w dec _).level = _ at e2
  change (ionizeIons P ion.Ntot ion.w dec _).wtl = _ at e3
  change ∀ lv < P.nLevels, ∀ b < P.nBatch ion.Ntot,
    (ionizeIons P ion.Ntot ion.w dec _).nIonized lv b = _ at e4
  set s := ionizeIons P ion.Ntot ion.w dec ⟨J.nIonized, J.ionizedFrom, ion.level, ion.wtl⟩ with hs
  have hcre : ∀ i, ∀ ip < ion.Ntot, createElectron P s.ionizedFrom i ip
      = (Spec.fires P ion dec ip && Spec.routed P i (ion.level ip)) := by
    intro i ip hip
    rw [e1]; exact create_iff P ion dec _ _ hlev i ip hip
  -- the cumulated counts
  have hcum : ∀ i < P.nLevels, ∀ b ≤ P.nBatch ion.Ntot, cumsum2d s.nIonized i b
      = ((List.range (min (b * P.batchSize) ion.Ntot)).filter
          (createElectron P s.ionizedFrom i)).length := by
    intro i hi b hbB
    rw [cumsum2d_eq P ion.Ntot (createElectron P s.ionizedFrom i) s.nIonized i b,
      List.countP_eq_length_filter]
    intro b' hb'
    rw [e4 i hi b' (by omega)]
    refine List.countP_congr fun ip hip => ?_
    have hlt := ((P.mem_chunk).mp hip).2.2
    rw [hcre i ip hlt, slot_iff P ion dec i ip hi (hlev ip hlt)]
  have hnew : ∀ i, ((List.range ion.Ntot).filter (createElectron P s.ionizedFrom i)).map
      (fun ip => (ion.attr ip, ion.w ip)) = Spec.newElectrons P ion dec i := by
    intro i
    unfold Spec.newElectrons
    congr 1
    refine List.filter_congr fun ip hip => ?_
    exact hcre i ip (List.mem_range.mp hip)
  have hlev' : ∀ ip, s.level ip =
      if ip < ion.Ntot ∧ Spec.fires P ion dec ip then ion.level ip + 1 else ion.level ip := by
    intro ip
    rw [e2]
    simp only [afterIons, Bool.and_eq_true, decide_eq_true_eq]
    rfl
  have hwtl' : ∀ ip, s.wtl ip = if ip < ion.Ntot ∧ Spec.fires P ion dec ip
        then ion.w ip * ((ion.level ip + 1 : ℕ) : K) else ion.wtl ip := by
    intro ip
    rw [e3]
    simp only [afterIons, Bool.and_eq_true, decide_eq_true_eq]
    rfl
  by_cases hz : ∀ l < P.nLevels, cumsum2d s.nIonized l (P.nBatch ion.Ntot) = 0
  · rw [if_pos hz]
    refine ⟨_, _, rfl, rfl, rfl, rfl, hlev', hwtl', rfl, fun i h h' => ?_⟩
    have := hcum i (htar ▸ h) _ le_rfl
    rw [hz i (htar ▸ h), P.all_chunks hb] at this
    rw [← hnew i, List.length_eq_zero_iff.mp this.symm]
    simp
  · rw [if_neg hz, if_neg (by simpa using htar)]
    refine ⟨_, _, rfl, rfl, rfl, rfl, hlev', hwtl', by simp, fun i h h' => ?_⟩
    have hi : i < P.nLevels := htar ▸ h
    have hc := hcum i hi _ le_rfl
    rw [P.all_chunks hb] at hc
    have hcopy := copyIonized_eq P ion.Ntot (targets[i]).Ntot (cumsum2d s.nIonized) s.ionizedFrom i
      (fun ip => (ion.attr ip, ion.w ip))
      (fun j => if j < (targets[i]).Ntot then (targets[i]).data j else J.elec i j)
      (hcum i hi) _ le_rfl
    rw [P.all_chunks hb, hnew i] at hcopy
    have hlen : (Spec.newElectrons P ion dec i).length
        = cumsum2d s.nIonized i (P.nBatch ion.Ntot) := by
      rw [hc, ← hnew i, List.length_map]
    simp only [List.getElem_mapIdx, Elecs.toList]
    change List.map (copyIonized P ion.Ntot (targets[i]).Ntot (cumsum2d s.nIonized) s.ionizedFrom i _ _) _ = _
    unfold copyIonized
    rw [hcopy]
    apply List.ext_getElem
    · simp [hlen]
    · intro j h1 h2
      simp only [List.getElem_map, List.getElem_range]
      by_cases hj : j < (targets[i]).Ntot
      · rw [List.getElem_append_left (by simpa using hj)]
        simp [hj]
      · have hj2 : j - (targets[i]).Ntot < (Spec.newElectrons P ion dec i).length := by
          simp at h1; omega
        rw [if_neg hj, List.getElem_append_right (by simpa using (Nat.not_lt.mp hj)),
          List.getElem?_eq_getElem hj2]
        simp

end step

/-! ### Histories -/

/-- What happens in one time step to the particles of the two kinds: an ionization step with some
draws (and some uninitialised memory), then everything that may change positions, momenta and
fields but no weights and levels. -/
structure IonStep (K A : Type) where
  dec : ℕ → ℕ → Bool
  junk : Junk K A
  moveIon : ℕ → A → A
  moveElec : ℕ → ℕ → A → A

/-- One time step. -/
def ionStep [NatCast K] [Mul K] (P : IonParams) (x : Ions K A × List (Elecs K A))
    (st : IonStep K A) : Except PyErr (Ions K A × List (Elecs K A)) := do
  let (ion, targets) ← handleIonization P x.1 x.2 st.dec st.junk
  return ({ ion with attr := fun ip => st.moveIon ip (ion.attr ip) },
    targets.mapIdx fun i e => { e with data := fun j => (st.moveElec i j (e.data j).1, (e.data j).2) })

/-- A history of time steps. -/
def ionRun [NatCast K] [Mul K] (P : IonParams) :
    Ions K A × List (Elecs K A) → List (IonStep K A) → Except PyErr (Ions K A × List (Elecs K A))
  | x, [] => .ok x
  | x, st :: sts => do
    let y ← ionStep P x st
    ionRun P y sts

variable [Field K]

/-- Total charge in units of `e`: ions are deposited with `q = e` and weight `w_times_level`
(particles.py:488, 839-1046), the electrons with `q = -e` and weight `w`. -/
def totalCharge (x : Ions K A × List (Elecs K A)) : K :=
  ∑ ip ∈ Finset.range x.1.Ntot, x.1.wtl ip
    - (x.2.map fun e => (e.toList.map Prod.snd).sum).sum

/-- Number of electrons in target `i`. -/
def nElec (x : Ions K A × List (Elecs K A)) (i : ℕ) : ℕ := (x.2[i]?.map fun e => e.Ntot).getD 0

/-- Ions between the configured levels, effective weights consistent, one target per level. -/
structure IonInv (P : IonParams) (x : Ions K A × List (Elecs K A)) : Prop where
  low : ∀ ip < x.1.Ntot, P.levelStart ≤ x.1.level ip
  high : ∀ ip < x.1.Ntot, x.1.level ip ≤ P.levelMax
  wtl : ∀ ip < x.1.Ntot, x.1.wtl ip = x.1.w ip * (x.1.level ip : K)
  tar : x.2.length = P.nLevels

private theorem toList_length (e : Elecs K A) : e.toList.length = e.Ntot := by simp [Elecs.toList]

theorem sum_range_list {M : Type} [AddCommMonoid M] (n : ℕ) (f : ℕ → M) :
    ((List.range n).map f).sum = ∑ i ∈ Finset.range n, f i := rfl

theorem sum_filter_range {M : Type} [AddCommMonoid M] (n : ℕ) (f : ℕ → Bool) (w : ℕ → M) :
    (((List.range n).filter f).map w).sum = ∑ ip ∈ Finset.range n, if f ip then w ip else 0 := by
  rw [← sum_range_list]
  induction (List.range n) with
  | nil => simp
  | cons x l ih => by_cases h : f x <;> simp [h, ih]

private theorem sum_list_range (l : List (Elecs K A)) (g : Elecs K A → K) :
    (l.map g).sum = ∑ i ∈ Finset.range l.length, (l[i]?.map g).getD 0 := by
  rw [← sum_range_list]
  congr 1
  apply List.ext_getElem
  · simp
  · intro i h1 h2
    have : i < l.length := by simpa using h1
    simp [this]

/-- Every ion that fires is routed to exactly one target. -/
theorem routed_sum {M : Type} [AddCommMonoid M] (P : IonParams)
    (ion : Ions K A) (dec : ℕ → ℕ → Bool) (ip : ℕ) (h0 : P.levelStart ≤ ion.level ip) (v : M) :
    (∑ i ∈ Finset.range P.nLevels,
      if Spec.fires P ion dec ip && Spec.routed P i (ion.level ip) then v else 0)
      = if Spec.fires P ion dec ip then v else 0 := by
  by_cases hf : Spec.fires P ion dec ip
  · have hmax : ion.level ip < P.levelMax := by
      simp only [Spec.fires, Bool.and_eq_true, decide_eq_true_eq] at hf; exact hf.1
    simp only [hf, Bool.true_and, if_true]
    by_cases hs : P.storePerLevel
    · have hn : P.nLevels = P.levelMax - P.levelStart := by simp [IonParams.nLevels, hs]
      rw [hn, Finset.sum_eq_single (ion.level ip - P.levelStart)]
      · rw [if_pos]; simp only [Spec.routed, hs, if_true, decide_eq_true_eq]; omega
      · intro i _ hi
        rw [if_neg]; simp only [Spec.routed, hs, if_true, decide_eq_true_eq]; omega
      · intro h; rw [Finset.mem_range] at h; omega
    · have hn : P.nLevels = 1 := by simp [IonParams.nLevels, hs]
      simp [hn, Spec.routed, hs]
  · simp [hf]

/-- Number of ions that were ionized from level `levelStart + i` between `x` and `y`. -/
def crossings (P : IonParams) (x y : Ions K A × List (Elecs K A)) (i : ℕ) : ℕ :=
  ∑ ip ∈ Finset.range x.1.Ntot,
    if x.1.level ip ≤ P.levelStart + i ∧ P.levelStart + i < y.1.level ip then 1 else 0

/-- Number of levels gained by all ions between `x` and `y`. -/
def gained (x y : Ions K A × List (Elecs K A)) : ℕ :=
  ∑ ip ∈ Finset.range x.1.Ntot, (y.1.level ip - x.1.level ip)

/-- What a history is claimed to preserve. -/
structure IonRel (P : IonParams) (x y : Ions K A × List (Elecs K A)) : Prop where
  inv : IonInv P y
  ntot : y.1.Ntot = x.1.Ntot
  w : y.1.w = x.1.w
  mono : ∀ ip, x.1.level ip ≤ y.1.level ip
  charge : totalCharge y = totalCharge x
  perLevel : P.storePerLevel → ∀ i < P.nLevels, nElec y i = nElec x i + crossings P x y i
  single : ¬ P.storePerLevel → nElec y 0 = nElec x 0 + gained x y

private theorem IonRel.refl {P : IonParams} {x : Ions K A × List (Elecs K A)} (h : IonInv P x) :
    IonRel P x x where
  inv := h
  ntot := rfl
  w := rfl
  mono := fun _ => le_rfl
  charge := rfl
  perLevel := fun _ i _ => by
    have : crossings P x x i = 0 := by
      unfold crossings
      refine Finset.sum_eq_zero fun ip _ => if_neg (by omega)
    omega
  single := fun _ => by simp [gained]

private theorem IonRel.trans {P : IonParams} {x y z : Ions K A × List (Elecs K A)}
    (h1 : IonRel P x y) (h2 : IonRel P y z) : IonRel P x z where
  inv := h2.inv
  ntot := h2.ntot.trans h1.ntot
  w := h2.w.trans h1.w
  mono := fun ip => (h1.mono ip).trans (h2.mono ip)
  charge := h2.charge.trans h1.charge
  perLevel := fun hs i hi => by
    rw [h2.perLevel hs i hi, h1.perLevel hs i hi, Nat.add_assoc]
    congr 1
    unfold crossings
    rw [h1.ntot, ← Finset.sum_add_distrib]
    refine Finset.sum_congr rfl fun ip _ => ?_
    have a := h1.mono ip
    have b := h2.mono ip
    split_ifs <;> omega
  single := fun hs => by
    rw [h2.single hs, h1.single hs, Nat.add_assoc]
    congr 1
    unfold gained
    rw [h1.ntot, ← Finset.sum_add_distrib]
    refine Finset.sum_congr rfl fun ip _ => ?_
    have a := h1.mono ip
    have b := h2.mono ip
    omega

theorem ionStep_rel (P : IonParams) (hb : 0 < P.batchSize)
    (hstore : P.storePerLevel → P.levelStart ≤ P.levelMax)
    (x : Ions K A × List (Elecs K A)) (hx : IonInv P x) (st : IonStep K A) :
    ∃ y, ionStep P x st = .ok y ∧ IonRel P x y := by
  obtain ⟨ion, tar⟩ := x
  obtain ⟨ion', tar', hok, hN, hat, hw, hl, hwt, hlen, hnew⟩ :=
    C17_refines P hb hstore ion tar hx.tar hx.low st.dec st.junk
  have hmax : ∀ ip, Spec.fires P ion st.dec ip → ion.level ip < P.levelMax := by
    intro ip hf
    simp only [Spec.fires, Bool.and_eq_true, decide_eq_true_eq] at hf; exact hf.1
  refine ⟨_, by simp only [ionStep, hok, bind, Except.bind, pure, Except.pure]; rfl, ?_⟩
  -- electrons of target `i`
  have hmv : ∀ (i : ℕ) (h' : i < tar'.length),
      ((tar'.mapIdx fun i e => ({ e with
        data := fun j => (st.moveElec i j (e.data j).1, (e.data j).2) } : Elecs K A))[i]?).map
          (fun e => (e.toList.map Prod.snd).sum)
        = some (((tar'[i]).toList.map Prod.snd).sum) := by
    intro i h'
    simp [h', Elecs.toList, Function.comp_def]
  have hsumw : ∀ i, ((Spec.newElectrons P ion st.dec i).map Prod.snd).sum
      = ∑ ip ∈ Finset.range ion.Ntot,
        if Spec.fires P ion st.dec ip && Spec.routed P i (ion.level ip) then ion.w ip else 0 := by
    intro i
    rw [← sum_filter_range]
    simp [Spec.newElectrons, Function.comp_def]
  have hcount : ∀ i, (Spec.newElectrons P ion st.dec i).length
      = ∑ ip ∈ Finset.range ion.Ntot,
        if Spec.fires P ion st.dec ip && Spec.routed P i (ion.level ip) then 1 else 0 := by
    intro i
    rw [← sum_filter_range]
    simp [Spec.newElectrons]
  have hnE : ∀ i (h : i < tar.length), (tar'[i]'(hlen ▸ h)).Ntot
      = (tar[i]).Ntot + (Spec.newElectrons P ion st.dec i).length := by
    intro i h
    have := congrArg List.length (hnew i h (hlen ▸ h))
    rwa [List.length_append, toList_length, toList_length] at this
  refine ⟨⟨?_, ?_, ?_, ?_⟩, hN, hw, ?_, ?_, ?_, ?_⟩
  · intro ip hip
    have h1 : ip < ion.Ntot := hN ▸ hip
    have h2 := hx.low ip h1
    show P.levelStart ≤ ion'.level ip
    rw [hl]; simp only at h2; split_ifs <;> omega
  · intro ip hip
    have h1 : ip < ion.Ntot := hN ▸ hip
    have h2 := hx.high ip h1
    show ion'.level ip ≤ P.levelMax
    rw [hl]
    by_cases hf : ip < ion.Ntot ∧ Spec.fires P ion st.dec ip
    · rw [if_pos hf]; have := hmax ip hf.2; omega
    · rw [if_neg hf]; exact h2
  · intro ip hip
    have h1 : ip < ion.Ntot := hN ▸ hip
    have h2 := hx.wtl ip h1
    show ion'.wtl ip = ion'.w ip * (ion'.level ip : K)
    rw [hl, hwt, hw]
    split_ifs
    · rfl
    · exact h2
  · show (tar'.mapIdx _).length = _
    rw [List.length_mapIdx, hlen]; exact hx.tar
  · intro ip
    show ion.level ip ≤ ion'.level ip
    rw [hl]; split_ifs <;> omega
  · -- charge
    unfold totalCharge
    simp only
    rw [sum_list_range, sum_list_range, List.length_mapIdx, hlen, hN]
    have hE : ∑ i ∈ Finset.range tar.length,
        (((tar'.mapIdx fun i e => ({ e with
          data := fun j => (st.moveElec i j (e.data j).1, (e.data j).2) } : Elecs K A))[i]?).map
            (fun e => (e.toList.map Prod.snd).sum)).getD 0
        = ∑ i ∈ Finset.range tar.length,
            ((tar[i]?.map fun e => (e.toList.map Prod.snd).sum).getD 0
              + ∑ ip ∈ Finset.range ion.Ntot,
                if Spec.fires P ion st.dec ip && Spec.routed P i (ion.level ip) then ion.w ip else 0) := by
      refine Finset.sum_congr rfl fun i hi => ?_
      have h := Finset.mem_range.mp hi
      rw [hmv i (hlen ▸ h), hnew i h (hlen ▸ h), List.map_append, List.sum_append, hsumw]
      simp [h]
    rw [hE, Finset.sum_add_distrib, Finset.sum_comm]
    have hI : ∑ ip ∈ Finset.range ion.Ntot, ion'.wtl ip
        = ∑ ip ∈ Finset.range ion.Ntot, (ion.wtl ip + if Spec.fires P ion st.dec ip then ion.w ip else 0) := by
      refine Finset.sum_congr rfl fun ip hip => ?_
      have h := Finset.mem_range.mp hip
      have h2 := hx.wtl ip h
      simp only at h2
      rw [hwt, h2]
      by_cases hf : Spec.fires P ion st.dec ip
      · rw [if_pos ⟨h, hf⟩, if_pos hf]; push_cast; ring
      · rw [if_neg (fun h => hf h.2), if_neg hf]; ring
    have hR : ∑ ip ∈ Finset.range ion.Ntot, ∑ i ∈ Finset.range tar.length,
        (if Spec.fires P ion st.dec ip && Spec.routed P i (ion.level ip) then ion.w ip else 0)
        = ∑ ip ∈ Finset.range ion.Ntot, if Spec.fires P ion st.dec ip then ion.w ip else 0 := by
      refine Finset.sum_congr rfl fun ip hip => ?_
      have htl : tar.length = P.nLevels := hx.tar
      rw [htl]
      exact routed_sum P ion st.dec ip (hx.low ip (Finset.mem_range.mp hip)) _
    rw [hR, hI, Finset.sum_add_distrib]
    ring
  · intro hs i hi
    have htl : tar.length = P.nLevels := hx.tar
    have h : i < tar.length := htl ▸ hi
    have h' : i < tar'.length := hlen ▸ h
    simp only [nElec, List.getElem?_mapIdx, List.getElem?_eq_getElem h, List.getElem?_eq_getElem h',
      Option.map_some, Option.getD_some]
    rw [hnE i h, hcount]
    congr 1
    unfold crossings
    refine Finset.sum_congr rfl fun ip hip => ?_
    have hip := Finset.mem_range.mp hip
    simp only [Bool.and_eq_true, Spec.routed, hs, if_true, decide_eq_true_eq, hl]
    by_cases hf : Spec.fires P ion st.dec ip
    · simp only [hf, hip, true_and, if_true]
      split_ifs <;> omega
    · simp only [hf, hip, and_false, false_and, if_false, Bool.false_eq_true]
      split_ifs <;> omega
  · intro hs
    have htl : tar.length = P.nLevels := hx.tar
    have hn : P.nLevels = 1 := by simp [IonParams.nLevels, hs]
    have h : 0 < tar.length := by omega
    have h' : 0 < tar'.length := by omega
    simp only [nElec, List.getElem?_mapIdx, List.getElem?_eq_getElem h, List.getElem?_eq_getElem h',
      Option.map_some, Option.getD_some]
    rw [hnE 0 h, hcount]
    congr 1
    unfold gained
    refine Finset.sum_congr rfl fun ip hip => ?_
    have hip := Finset.mem_range.mp hip
    simp only [Bool.and_eq_true, Spec.routed, hs, hl]
    by_cases hf : Spec.fires P ion st.dec ip
    · simp [hf, hip]
    · simp [hf]

theorem ionRun_rel (P : IonParams) (hb : 0 < P.batchSize)
    (hstore : P.storePerLevel → P.levelStart ≤ P.levelMax) :
    ∀ (sts : List (IonStep K A)) (x : Ions K A × List (Elecs K A)), IonInv P x →
      ∃ y, ionRun P x sts = .ok y ∧ IonRel P x y
  | [], x, hx => ⟨x, rfl, IonRel.refl hx⟩
  | st :: sts, x, hx => by
    obtain ⟨y, hy, hxy⟩ := ionStep_rel P hb hstore x hx st
    obtain ⟨z, hz, hyz⟩ := ionRun_rel P hb hstore sts y hxy.inv
    exact ⟨z, by simp only [ionRun, hy, bind, Except.bind, hz], hxy.trans hyz⟩

/-- Ions as created by `make_ionizable` with one target per level (or a single one). -/
theorem ionInv_start (P : IonParams) (h : P.levelStart ≤ P.levelMax) (N : ℕ) (attr : ℕ → A)
    (w : ℕ → K) (tar : List (Elecs K A)) (htar : tar.length = P.nLevels) :
    IonInv P (mkIons P N attr w, tar) :=
  ⟨fun _ _ => le_rfl, fun _ _ => h, fun _ _ => rfl, htar⟩

/-- **C16** (levels). Over any history of ionization steps starting from `make_ionizable`, no step
fails, the level of every ion never decreases, and it stays between the starting and the maximal
level; the number of ions and their weights do not change. -/
theorem C16_levels (P : IonParams) (hb : 0 < P.batchSize) (h : P.levelStart ≤ P.levelMax)
    (N : ℕ) (attr : ℕ → A) (w : ℕ → K) (tar : List (Elecs K A)) (htar : tar.length = P.nLevels)
    (h1 h2 : List (IonStep K A)) :
    ∃ y z, ionRun P (mkIons P N attr w, tar) h1 = .ok y ∧ ionRun P y h2 = .ok z ∧
      z.1.Ntot = N ∧ z.1.w = w ∧
      (∀ ip, y.1.level ip ≤ z.1.level ip) ∧
      ∀ ip < N, P.levelStart ≤ z.1.level ip ∧ z.1.level ip ≤ P.levelMax := by
  obtain ⟨y, hy, ry⟩ := ionRun_rel P hb (fun _ => h) h1 _ (ionInv_start P h N attr w tar htar)
  obtain ⟨z, hz, rz⟩ := ionRun_rel P hb (fun _ => h) h2 y ry.inv
  have hN : z.1.Ntot = N := rz.ntot.trans ry.ntot
  exact ⟨y, z, hy, hz, hN, rz.w.trans ry.w, rz.mono,
    fun ip hip => ⟨rz.inv.low ip (hN ▸ hip), rz.inv.high ip (hN ▸ hip)⟩⟩

/-- **C16** (charge). The charge of the ions plus that of all electrons is the same after any history
of ionization steps, whatever moves in between, and the effective weight of every ion is its weight
times its level. -/
theorem C16_charge (P : IonParams) (hb : 0 < P.batchSize) (h : P.levelStart ≤ P.levelMax)
    (N : ℕ) (attr : ℕ → A) (w : ℕ → K) (tar : List (Elecs K A)) (htar : tar.length = P.nLevels)
    (hist : List (IonStep K A)) :
    ∃ y, ionRun P (mkIons P N attr w, tar) hist = .ok y ∧
      totalCharge y = totalCharge (mkIons P N attr w, tar) ∧
      ∀ ip < N, y.1.wtl ip = w ip * (y.1.level ip : K) := by
  obtain ⟨y, hy, ry⟩ := ionRun_rel P hb (fun _ => h) hist _ (ionInv_start P h N attr w tar htar)
  refine ⟨y, hy, ry.charge, fun ip hip => ?_⟩
  have hN : y.1.Ntot = N := ry.ntot
  have hw : y.1.w = w := ry.w
  rw [ry.inv.wtl ip (hN ▸ hip), hw]

/-- **C16** (one electron per level). After any history, the species given for level
`levelStart + i` has received exactly one electron for every ion that passed from that level to the
next; with a single target species it has received as many electrons as levels were gained in
total. (Position and weight of each electron are those of its parent at creation: `C17_refines`.) -/
theorem C16_one_electron_per_level (P : IonParams) (hb : 0 < P.batchSize)
    (h : P.levelStart ≤ P.levelMax) (N : ℕ) (attr : ℕ → A) (w : ℕ → K) (tar : List (Elecs K A))
    (htar : tar.length = P.nLevels) (hist : List (IonStep K A)) :
    ∃ y, ionRun P (mkIons P N attr w, tar) hist = .ok y ∧
      (P.storePerLevel → ∀ i < P.nLevels, nElec y i = nElec (mkIons P N attr w, tar) i
        + ∑ ip ∈ Finset.range N, if P.levelStart + i < y.1.level ip then 1 else 0) ∧
      (¬ P.storePerLevel → nElec y 0 = nElec (mkIons P N attr w, tar) 0
        + ∑ ip ∈ Finset.range N, (y.1.level ip - P.levelStart)) := by
  obtain ⟨y, hy, ry⟩ := ionRun_rel P hb (fun _ => h) hist _ (ionInv_start P h N attr w tar htar)
  refine ⟨y, hy, fun hs i hi => ?_, fun hs => ?_⟩
  · rw [ry.perLevel hs i hi]
    congr 1
    unfold crossings
    refine Finset.sum_congr rfl fun ip _ => ?_
    simp [mkIons]
  · rw [ry.single hs]; rfl

/-- 23 ions, batches of 10, levels 1..3, one species per level, two steps. -/
example :
    let P : IonParams := ⟨10, 1, 3, true⟩
    let J : Junk ℚ ℕ := ⟨fun _ _ => 77, fun _ => 5, fun _ _ => (99, 99)⟩
    let st : IonStep ℚ ℕ := ⟨fun ip _ => ip % 3 == 0, J, fun _ a => a, fun _ _ a => a⟩
    let e0 : Elecs ℚ ℕ := ⟨1, fun _ => (1000, 4)⟩
    let x : Ions ℚ ℕ × List (Elecs ℚ ℕ) := (mkIons P 23 (fun ip => ip) (fun _ => 2), [e0, e0])
    (ionRun P x [st, st]).map (fun y => y.2.map fun e => e.toList.map Prod.fst)
      = .ok [[1000, 0, 3, 6, 9, 12, 15, 18, 21], [1000, 0, 3, 6, 9, 12, 15, 18, 21]] ∧
    (ionRun P x [st, st]).map (fun y => totalCharge y) = .ok (totalCharge x) := by
  decide +kernel

end Fbpic
