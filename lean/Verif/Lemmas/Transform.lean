import Verif.Spec.Transform
import Verif.Lemmas.SpectShift

namespace Fbpic.Transform

open Complex Spec

/-- Folding steps that act at their own index only. -/
theorem local_fold {V : Type} (Nz Nr : ℕ) (step : (ℕ → ℕ → V) → ℕ × ℕ → ℕ → ℕ → V) (g : ℕ → ℕ → V → V)
    (h : ∀ mem th i j, step mem th i j =
      if i = th.1 ∧ j = th.2 ∧ i < Nz ∧ j < Nr then g i j (mem i j) else mem i j)
    (threads : List (ℕ × ℕ)) (hn : threads.Nodup) (mem : ℕ → ℕ → V) (i j : ℕ) :
    threads.foldl step mem i j =
      if (i, j) ∈ threads ∧ i < Nz ∧ j < Nr then g i j (mem i j) else mem i j := by
  induction threads generalizing mem with
  | nil => simp
  | cons a l ih =>
    rw [List.nodup_cons] at hn
    rw [List.foldl_cons, ih hn.2, h]
    by_cases hr : i < Nz ∧ j < Nr
    · by_cases ha : (i, j) = a
      · subst ha
        simp [hn.1, hr]
      · have : ¬ (i = a.1 ∧ j = a.2) := fun hc => ha (Prod.ext hc.1 hc.2)
        have h2 : ¬ (i = a.1 ∧ j = a.2 ∧ i < Nz ∧ j < Nr) := fun hc => this ⟨hc.1, hc.2.1⟩
        simp only [List.mem_cons, ha, false_or, if_neg h2]
    · have h2 : ¬ (i = a.1 ∧ j = a.2 ∧ i < Nz ∧ j < Nr) := fun hc => hr hc.2.2
      simp only [hr, and_false, if_false, if_neg h2]

/-- Change of the order of the arguments: all arrays at one index. -/
theorem foldl_transpose (step : Mem → ℕ × ℕ → Mem) (threads : List (ℕ × ℕ)) (mem : Mem) (b i j : ℕ) :
    threads.foldl step mem b i j =
      threads.foldl (fun (w : ℕ → ℕ → ℕ → ℂ) th i j b => step (fun b i j => w i j b) th b i j)
        (fun i j b => mem b i j) i j b := by
  induction threads generalizing mem with
  | nil => rfl
  | cons a l ih => rw [List.foldl_cons, List.foldl_cons, ih]

theorem rtToPm_apply (Nz Nr : ℕ) (threads : List (ℕ × ℕ)) (hc : Covers Nz Nr threads) (r t p m : ℕ)
    (mem : Mem) (b i j : ℕ) :
    rtToPm Nz Nr threads r t p m mem b i j =
      if i < Nz ∧ j < Nr then
        if b = m then 1 / 2 * (mem r i j + I * mem t i j)
        else if b = p then 1 / 2 * (mem r i j - I * mem t i j) else mem b i j
      else mem b i j := by
  unfold rtToPm
  rw [foldl_transpose, local_fold Nz Nr _ (fun _ _ v b =>
    if b = m then 1 / 2 * (v r + I * v t) else if b = p then 1 / 2 * (v r - I * v t) else v b) ?_ _ hc.1]
  · by_cases hr : i < Nz ∧ j < Nr
    · simp only [hc.2 i j hr.1 hr.2, hr, true_and, and_self, if_true]
    · simp only [hr, and_false, if_false]
  · intro w th i j
    funext b
    unfold rtToPmThread Mem.set
    by_cases h1 : th.1 < Nz ∧ th.2 < Nr
    · simp only [if_pos h1]
      by_cases h2 : i = th.1 ∧ j = th.2
      · obtain ⟨rfl, rfl⟩ := h2
        simp only [and_true, h1, true_and, if_true]
      · have h3 : ¬ (i = th.1 ∧ j = th.2 ∧ i < Nz ∧ j < Nr) := fun hc => h2 ⟨hc.1, hc.2.1⟩
        rw [if_neg h3, if_neg (fun hc => h2 hc.2), if_neg (fun hc => h2 hc.2)]
    · have h3 : ¬ (i = th.1 ∧ j = th.2 ∧ i < Nz ∧ j < Nr) := by
        rintro ⟨rfl, rfl, hc⟩; exact h1 hc
      rw [if_neg h1, if_neg h3]

theorem pmToRt_apply (Nz Nr : ℕ) (threads : List (ℕ × ℕ)) (hc : Covers Nz Nr threads) (p m r t : ℕ)
    (mem : Mem) (b i j : ℕ) :
    pmToRt Nz Nr threads p m r t mem b i j =
      if i < Nz ∧ j < Nr then
        if b = t then I * (mem p i j - mem m i j)
        else if b = r then mem p i j + mem m i j else mem b i j
      else mem b i j := by
  unfold pmToRt
  rw [foldl_transpose, local_fold Nz Nr _ (fun _ _ v b =>
    if b = t then I * (v p - v m) else if b = r then v p + v m else v b) ?_ _ hc.1]
  · by_cases hr : i < Nz ∧ j < Nr
    · simp only [hc.2 i j hr.1 hr.2, hr, true_and, and_self, if_true]
    · simp only [hr, and_false, if_false]
  · intro w th i j
    funext b
    unfold pmToRtThread Mem.set
    by_cases h1 : th.1 < Nz ∧ th.2 < Nr
    · simp only [if_pos h1]
      by_cases h2 : i = th.1 ∧ j = th.2
      · obtain ⟨rfl, rfl⟩ := h2
        simp only [and_true, h1, true_and, if_true]
      · have h3 : ¬ (i = th.1 ∧ j = th.2 ∧ i < Nz ∧ j < Nr) := fun hc => h2 ⟨hc.1, hc.2.1⟩
        rw [if_neg h3, if_neg (fun hc => h2 hc.2), if_neg (fun hc => h2 hc.2)]
    · have h3 : ¬ (i = th.1 ∧ j = th.2 ∧ i < Nz ∧ j < Nr) := by
        rintro ⟨rfl, rfl, hc⟩; exact h1 hc
      rw [if_neg h1, if_neg h3]

theorem rToC_apply (Nz Nr : ℕ) (threads : List (ℕ × ℕ)) (hc : Covers Nz Nr threads) (a : ℕ → ℕ → ℝ)
    (out : ℕ → ℕ → ℂ) (i j : ℕ) :
    rToC Nz Nr threads a out i j =
      if i < Nz ∧ j < Nr then (a i j : ℂ) + I * (a (i + Nz) j : ℂ) else out i j := by
  unfold rToC
  rw [local_fold Nz Nr _ (fun i j _ => (a i j : ℂ) + I * (a (i + Nz) j : ℂ)) ?_ _ hc.1]
  · by_cases hr : i < Nz ∧ j < Nr
    · simp only [hc.2 i j hr.1 hr.2, hr, true_and, and_self, if_true]
    · simp only [hr, and_false, if_false]
  · intro w th i j
    by_cases h1 : th.1 < Nz ∧ th.2 < Nr
    · rw [if_pos h1]
      by_cases h2 : i = th.1 ∧ j = th.2
      · obtain ⟨rfl, rfl⟩ := h2
        simp [h1]
      · rw [if_neg h2, if_neg (fun hc => h2 ⟨hc.1, hc.2.1⟩)]
    · rw [if_neg h1, if_neg]
      rintro ⟨rfl, rfl, hc⟩; exact h1 hc

theorem cToR_apply (Nz Nr : ℕ) (threads : List (ℕ × ℕ)) (hc : Covers Nz Nr threads) (a : ℕ → ℕ → ℂ)
    (out : ℕ → ℕ → ℝ) (i j : ℕ) (hi : i < Nz) (hj : j < Nr) :
    cToR Nz Nr threads a out i j = (a i j).re ∧ cToR Nz Nr threads a out (i + Nz) j = (a i j).im := by
  unfold cToR
  -- the pair of the two entries of a grid point
  have key : ∀ (threads : List (ℕ × ℕ)), threads.Nodup → ∀ out : ℕ → ℕ → ℝ,
      (threads.foldl (fun out th =>
        if th.1 < Nz ∧ th.2 < Nr then
          let out := fun i j => if i = th.1 ∧ j = th.2 then (a th.1 th.2).re else out i j
          fun i j => if i = th.1 + Nz ∧ j = th.2 then (a th.1 th.2).im else out i j
        else out) out i j = if (i, j) ∈ threads then (a i j).re else out i j) ∧
      (threads.foldl (fun out th =>
        if th.1 < Nz ∧ th.2 < Nr then
          let out := fun i j => if i = th.1 ∧ j = th.2 then (a th.1 th.2).re else out i j
          fun i j => if i = th.1 + Nz ∧ j = th.2 then (a th.1 th.2).im else out i j
        else out) out (i + Nz) j = if (i, j) ∈ threads then (a i j).im else out (i + Nz) j) := by
    intro threads hn
    induction threads with
    | nil => intro out; simp
    | cons th l ih =>
      intro out
      rw [List.nodup_cons] at hn
      rw [List.foldl_cons, (ih hn.2 _).1, (ih hn.2 _).2]
      by_cases h1 : th.1 < Nz ∧ th.2 < Nr
      · simp only [if_pos h1]
        have e1 : ¬ (i = th.1 + Nz ∧ j = th.2) := fun hc => by omega
        have e2 : ¬ (i + Nz = th.1 ∧ j = th.2) := fun hc => by omega
        have e3 : (i + Nz = th.1 + Nz ∧ j = th.2) ↔ (i = th.1 ∧ j = th.2) := by omega
        simp only [e1, e2, e3, if_false]
        by_cases h2 : i = th.1 ∧ j = th.2
        · obtain ⟨rfl, rfl⟩ := h2
          simp
        · have h3 : (i, j) ≠ th := fun hc => h2 (by rw [← hc]; simp)
          simp [h2, h3]
      · have h3 : (i, j) ≠ th := by rintro rfl; exact h1 ⟨hi, hj⟩
        simp [h1, h3]
  obtain ⟨k1, k2⟩ := key threads hc.1 out
  rw [k1, k2, if_pos (hc.2 i j hi hj), if_pos (hc.2 i j hi hj)]
  exact ⟨rfl, rfl⟩

theorem realProduct_apply (gpu : Bool) (Nz Nr : ℕ) (a M out : ℕ → ℕ → ℝ) (i j : ℕ) (hi : i < 2 * Nz)
    (hj : j < Nr) : realProduct gpu Nz Nr a M out i j = ∑ l ∈ Finset.range Nr, a i l * M l j := by
  unfold realProduct
  cases gpu with
  | false => rfl
  | true =>
    simp only [if_true, unflatR, dgemm]
    have hNr : 0 < Nr := by omega
    have e1 : (i * Nr + j) % Nr = j := by rw [Nat.mul_comm, Nat.mul_add_mod]; exact Nat.mod_eq_of_lt hj
    have e2 : (i * Nr + j) / Nr = i := by
      rw [Nat.mul_comm, Nat.mul_add_div hNr, Nat.div_eq_of_lt hj, Nat.add_zero]
    rw [e1, e2, if_pos ⟨hj, hi⟩, zero_mul, add_zero, one_mul]
    apply Finset.sum_congr rfl
    intro l hl
    rw [Finset.mem_range] at hl
    unfold flatR
    have e3 : (j + l * Nr) / Nr = l := by
      rw [Nat.add_comm, Nat.mul_comm, Nat.mul_add_div hNr, Nat.div_eq_of_lt hj, Nat.add_zero]
    have e4 : (j + l * Nr) % Nr = j := by
      rw [Nat.add_comm, Nat.mul_comm, Nat.mul_add_mod]; exact Nat.mod_eq_of_lt hj
    have e5 : (l + i * Nr) / Nr = i := by
      rw [Nat.add_comm, Nat.mul_comm, Nat.mul_add_div hNr, Nat.div_eq_of_lt hl, Nat.add_zero]
    have e6 : (l + i * Nr) % Nr = l := by
      rw [Nat.add_comm, Nat.mul_comm, Nat.mul_add_mod]; exact Nat.mod_eq_of_lt hl
    rw [e3, e4, e5, e6, mul_comm]

theorem dht_apply (Nz Nr : ℕ) (L : Launch) (hc : Covers Nz Nr L.threads) (mat : ℕ → ℕ → ℝ) (src dst : ℕ)
    (mem : Mem) :
    EqOn Nz Nr (dht Nz Nr L mat src dst mem dst) (hankel Nr mat (mem src)) ∧
      ∀ b, b ≠ dst → dht Nz Nr L mat src dst mem b = mem b := by
  constructor
  · intro i j hi hj
    unfold dht hankel
    simp only [if_true]
    rw [rToC_apply _ _ _ hc, if_pos ⟨hi, hj⟩, realProduct_apply _ _ _ _ _ _ _ _ (by omega) hj,
      realProduct_apply _ _ _ _ _ _ _ _ (by omega) hj]
    push_cast
    rw [Finset.mul_sum, ← Finset.sum_add_distrib]
    apply Finset.sum_congr rfl
    intro l hl
    obtain ⟨c1, c2⟩ := cToR_apply Nz Nr L.threads hc (mem src) L.bufIn i l hi (Finset.mem_range.mp hl)
    rw [c1, c2]
    conv_rhs => rw [← Complex.re_add_im (mem src i l)]
    ring
  · intro b hb
    unfold dht
    simp only [if_neg hb]

theorem copy2dTo1d_apply (Nz Nr : ℕ) (threads : List (ℕ × ℕ)) (hc : Covers Nz Nr threads) (a : ℕ → ℕ → ℂ)
    (out : ℕ → ℂ) (i j : ℕ) (hi : i < Nz) (hj : j < Nr) :
    copy2dTo1d Nz Nr threads a out (i + Nz * j) = a i j := by
  unfold copy2dTo1d
  have inj : ∀ i' j', i' < Nz → (i + Nz * j = i' + Nz * j' ↔ (i = i' ∧ j = j')) := by
    intro i' j' hi'
    constructor
    · intro h
      have hz : 0 < Nz := by omega
      have h1 : (i + Nz * j) % Nz = (i' + Nz * j') % Nz := by rw [h]
      rw [Nat.add_mul_mod_self_left, Nat.add_mul_mod_self_left, Nat.mod_eq_of_lt hi, Nat.mod_eq_of_lt hi'] at h1
      subst h1
      exact ⟨rfl, Nat.eq_of_mul_eq_mul_left hz (by omega)⟩
    · rintro ⟨rfl, rfl⟩; rfl
  have key : ∀ (threads : List (ℕ × ℕ)), threads.Nodup → ∀ out : ℕ → ℂ,
      threads.foldl (fun out th =>
        if th.1 < Nz ∧ th.2 < Nr then
          let i := th.1 + Nz * th.2
          fun x => if x = i then a th.1 th.2 else out x
        else out) out (i + Nz * j) = if (i, j) ∈ threads then a i j else out (i + Nz * j) := by
    intro threads hn
    induction threads with
    | nil => intro out; simp
    | cons th l ih =>
      intro out
      rw [List.nodup_cons] at hn
      rw [List.foldl_cons, ih hn.2]
      by_cases h1 : th.1 < Nz ∧ th.2 < Nr
      · simp only [if_pos h1, inj th.1 th.2 h1.1]
        by_cases h2 : i = th.1 ∧ j = th.2
        · obtain ⟨rfl, rfl⟩ := h2
          simp
        · have h3 : (i, j) ≠ th := fun hc => h2 (by rw [← hc]; simp)
          simp [h2, h3]
      · have h3 : (i, j) ≠ th := by rintro rfl; exact h1 ⟨hi, hj⟩
        simp [h1, h3]
  rw [key threads hc.1, if_pos (hc.2 i j hi hj)]

theorem copy1dTo2d_apply (Nz Nr : ℕ) (threads : List (ℕ × ℕ)) (hc : Covers Nz Nr threads) (a : ℕ → ℂ)
    (out : ℕ → ℕ → ℂ) (i j : ℕ) (hi : i < Nz) (hj : j < Nr) :
    copy1dTo2d Nz Nr threads a out i j = a (i + Nz * j) := by
  unfold copy1dTo2d
  rw [local_fold Nz Nr _ (fun i j _ => a (i + Nz * j)) ?_ _ hc.1, if_pos ⟨hc.2 i j hi hj, hi, hj⟩]
  intro w th i j
  by_cases h1 : th.1 < Nz ∧ th.2 < Nr
  · simp only [if_pos h1]
    by_cases h2 : i = th.1 ∧ j = th.2
    · obtain ⟨rfl, rfl⟩ := h2
      simp [h1]
    · rw [if_neg h2, if_neg (fun hc => h2 ⟨hc.1, hc.2.1⟩)]
  · rw [if_neg h1, if_neg]
    rintro ⟨rfl, rfl, hc⟩; exact h1 hc

theorem fft_apply (Nz Nr : ℕ) [NeZero Nz] (gpu inv : Bool) (threads : List (ℕ × ℕ)) (hc : Covers Nz Nr threads)
    (buf : ℕ → ℂ) (src dst : ℕ) (mem : Mem) :
    EqOn Nz Nr (fft Nz Nr gpu inv threads buf src dst mem dst) (fftAxis0 Nz inv (mem src)) ∧
      ∀ b, b ≠ dst → fft Nz Nr gpu inv threads buf src dst mem b = mem b := by
  have hN : (Nz : ℂ) ≠ 0 := by exact_mod_cast NeZero.ne Nz
  constructor
  · intro i j hi hj
    unfold fft
    cases gpu with
    | false => simp [hi, hj]
    | true =>
      simp only [if_true]
      rw [copy1dTo2d_apply _ _ _ hc _ _ _ _ hi hj]
      have e1 : (i + Nz * j) / Nz = j := by
        rw [Nat.add_mul_div_left _ _ (NeZero.pos Nz), Nat.div_eq_of_lt hi, Nat.zero_add]
      have e2 : ((i + Nz * j : ℕ) : ZMod Nz) = (i : ZMod Nz) := by simp
      have e3 : (fun l : ZMod Nz => copy2dTo1d Nz Nr threads (mem src) buf (l.val + Nz * j)) =
          fun l : ZMod Nz => mem src l.val j := by
        funext l
        exact copy2dTo1d_apply Nz Nr threads hc (mem src) buf l.val j (ZMod.val_lt l) hj
      unfold fftAxis0
      cases inv with
      | false =>
        simp only [cufft, Bool.false_eq_true, if_false]
        rw [e1, e2, e3]
      | true =>
        simp only [cufft, if_true]
        rw [e1, e2, e3]
        field_simp
  · intro b hb
    unfold fft
    cases gpu <;> simp [hb]

theorem fftAxis0_inv (Nz : ℕ) [NeZero Nz] (a : ℕ → ℕ → ℂ) (i j : ℕ) (hi : i < Nz) :
    fftAxis0 Nz true (fftAxis0 Nz false a) i j = a i j ∧ fftAxis0 Nz false (fftAxis0 Nz true a) i j = a i j := by
  unfold fftAxis0
  simp only [if_true, Bool.false_eq_true, if_false, ZMod.natCast_zmod_val]
  have e : ∀ f : ZMod Nz → ℂ, (fun l => f l) = f := fun _ => rfl
  simp only [ifftZ_eq, fftZ_eq, e]
  rw [LinearEquiv.symm_apply_apply, LinearEquiv.apply_symm_apply]
  simp [ZMod.val_natCast_of_lt hi]

theorem fftAxis0_congr (Nz Nr : ℕ) [NeZero Nz] (inv : Bool) {a b : ℕ → ℕ → ℂ} (h : EqOn Nz Nr a b) :
    EqOn Nz Nr (fftAxis0 Nz inv a) (fftAxis0 Nz inv b) := by
  intro i j hi hj
  have : (fun l : ZMod Nz => a l.val j) = fun l : ZMod Nz => b l.val j := by
    funext l; exact h _ _ (ZMod.val_lt l) hj
  unfold fftAxis0
  rw [this]

theorem hankel_congr (Nz Nr : ℕ) (mat : ℕ → ℕ → ℝ) {a b : ℕ → ℕ → ℂ} (h : EqOn Nz Nr a b) :
    EqOn Nz Nr (hankel Nr mat a) (hankel Nr mat b) := by
  intro i j hi hj
  unfold hankel
  apply Finset.sum_congr rfl
  intro l hl
  rw [h i l hi (Finset.mem_range.mp hl)]

theorem hankel_hankel (Nr : ℕ) (A B : ℕ → ℕ → ℝ) (F : ℕ → ℕ → ℂ) (i j : ℕ) :
    hankel Nr B (hankel Nr A F) i j =
      ∑ k ∈ Finset.range Nr, F i k * ((∑ l ∈ Finset.range Nr, A k l * B l j : ℝ) : ℂ) := by
  unfold hankel
  simp only [Finset.sum_mul]
  rw [Finset.sum_comm]
  apply Finset.sum_congr rfl
  intro k _
  push_cast
  rw [Finset.mul_sum]
  apply Finset.sum_congr rfl
  intro l _
  ring

theorem hankel_inverse (Nz Nr : ℕ) (A B : ℕ → ℕ → ℝ) (h : Inverse Nr A B) (F : ℕ → ℕ → ℂ) :
    EqOn Nz Nr (hankel Nr B (hankel Nr A F)) F := by
  intro i j hi hj
  rw [hankel_hankel]
  rw [Finset.sum_eq_single j]
  · rw [h j j hj hj]; simp
  · intro k hk hne
    rw [h k j (Finset.mem_range.mp hk) hj, if_neg hne]; simp
  · intro hn; exact absurd (Finset.mem_range.mpr hj) hn

theorem hankel_inverseOff0 (Nz Nr : ℕ) (A B : ℕ → ℕ → ℝ) (h : InverseOff0 Nr A B) (F : ℕ → ℕ → ℂ)
    (i j : ℕ) (hj : j < Nr) :
    hankel Nr B (hankel Nr A F) i j = if j = 0 then 0 else F i j := by
  rw [hankel_hankel]
  rw [Finset.sum_eq_single j]
  · rw [h j j hj hj]; by_cases h0 : j = 0 <;> simp [h0]
  · intro k hk hne
    rw [h k j (Finset.mem_range.mp hk) hj, if_neg (fun hc => hne hc.1)]; simp
  · intro hn; exact absurd (Finset.mem_range.mpr hj) hn

end Fbpic.Transform
