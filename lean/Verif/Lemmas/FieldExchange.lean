import Verif.Lemmas.Exchange
import Verif.Lemmas.Partition
import Verif.Spec.Layout

namespace Fbpic

section pack
variable {B : Type}

theorem pack_inner (nf m : ℕ) (src : ℕ → ℕ → B) (i : ℕ) : ∀ (n : ℕ) (buf : ℕ → B),
    ((List.range n).foldl (fun buf k => Function.update buf (nf * m + k) (src m k)) buf) i
      = if nf * m ≤ i ∧ i < nf * m + n then src m (i - nf * m) else buf i := by
  intro n
  induction n with
  | zero => intro buf; simp; try omega
  | succ n ih =>
    intro buf
    rw [List.range_succ, List.foldl_append]
    simp only [List.foldl_cons, List.foldl_nil]
    by_cases h : i = nf * m + n
    · subst h; simp
    · rw [Function.update_of_ne h, ih]
      by_cases h2 : nf * m ≤ i ∧ i < nf * m + n
      · simp [h2]; intro h3; omega
      · rw [if_neg h2, if_neg (by omega)]

theorem packBuf_apply (nf : ℕ) (src : ℕ → ℕ → B) (old : ℕ → B) (k : ℕ) (hk : k < nf) :
    ∀ (Nm m : ℕ), m < Nm → packBuf nf Nm src old (nf * m + k) = src m k := by
  intro Nm
  induction Nm with
  | zero => intro m hm; omega
  | succ Nm ih =>
    intro m hm
    unfold packBuf
    rw [List.range_succ, List.foldl_append]
    simp only [List.foldl_cons, List.foldl_nil]
    rw [pack_inner]
    by_cases h : m = Nm
    · subst h; rw [if_pos (by omega)]; congr 1; omega
    · have hlt : m < Nm := by omega
      have : nf * m + k < nf * Nm := by
        calc nf * m + k < nf * m + nf := by omega
          _ = nf * (m + 1) := by ring
          _ ≤ nf * Nm := Nat.mul_le_mul_left _ hlt
      rw [if_neg (by omega)]
      exact ih m hlt

end pack

section closed
variable {A : Type} [Inhabited A] [Add A]

omit [Inhabited A] in
theorem recvRight_of_not {meth : XMethod} {w nf N : ℕ} (b : Option (ℕ → ℕ → A))
    (f : ℕ → ℕ → ℕ → A) {m k j : ℕ} (h : ¬ (N - w ≤ j ∧ j < N)) :
    recvRight meth w nf N b f m k j = f m k j := by
  cases b with
  | none => rfl
  | some b => simp only [recvRight]; rw [if_neg h]

omit [Inhabited A] in
theorem recvLeft_of_not {meth : XMethod} {w nf : ℕ} (b : Option (ℕ → ℕ → A))
    (f : ℕ → ℕ → ℕ → A) {m k j : ℕ} (h : ¬ j < w) :
    recvLeft meth w nf b f m k j = f m k j := by
  cases b with
  | none => rfl
  | some b => simp only [recvLeft]; rw [if_neg h]

theorem exchange_replace_eq {c : Comm} {nf Nm : ℕ} {N : ℕ → ℕ} {F F' : RankFields A}
    (h : exchangeFields c .replace nf Nm N F = .ok F') (hs : c.size ≠ 1) {r m k j : ℕ}
    (hr : r < c.size) (hm : m < Nm) (hk : k < nf) (hN : 4 * c.nGuard ≤ N r) (hj : j < N r) :
    (∀ l : ℕ, c.leftProc r = some (l : ℤ) → j < c.nGuard →
      F' r m k j = F l m k (N l - 2 * c.nGuard + j)) ∧
    (∀ p : ℕ, c.rightProc r = some (p : ℤ) → N r ≤ j + c.nGuard →
      F' r m k j = F p m k (c.nGuard + (j - (N r - c.nGuard)))) ∧
    ((c.leftProc r = none ∨ c.nGuard ≤ j) → (c.rightProc r = none ∨ j + c.nGuard < N r) →
      F' r m k j = F r m k j) := by
  unfold exchangeFields at h
  rw [if_neg hs] at h
  split at h
  · cases h
  · rename_i hg
    simp only [Except.ok.injEq] at h
    subst h
    have hw : (XMethod.replace.zone c.nGuard).2 - (XMethod.replace.zone c.nGuard).1 = c.nGuard := by
      simp [XMethod.zone]; omega
    rw [hw]
    refine ⟨?_, ?_, ?_⟩
    · intro l hl hlt
      simp only [Comm.exchangeDomains_left _ _ hr hl]
      have e : sendR c .replace nf Nm N F l (nf * m + k) j = F l m k (N l - 2 * c.nGuard + j) := by
        unfold sendR; rw [packBuf_apply nf _ _ k hk Nm m hm]; rfl
      have hnot : ¬ (N r - c.nGuard ≤ j ∧ j < N r) := by omega
      rw [recvRight_of_not _ _ hnot]
      simp [recvLeft, hlt, e]
    · intro p hp hge
      simp only [recvLeft, recvRight, Comm.exchangeDomains_right _ _ hr hp]
      have e : sendL c .replace nf Nm F p (nf * m + k) (j - (N r - c.nGuard))
          = F p m k (c.nGuard + (j - (N r - c.nGuard))) := by
        unfold sendL; rw [packBuf_apply nf _ _ k hk Nm m hm]; rfl
      have hyes : N r - c.nGuard ≤ j ∧ j < N r := by omega
      rw [if_pos hyes, e]
    · intro h1 h2
      have hL' : (recvLeft .replace c.nGuard nf (c.exchangeDomains (sendL c .replace nf Nm F)
          (sendR c .replace nf Nm N F) r).1 (F r)) m k j = F r m k j := by
        rcases h1 with h1 | h1
        · simp [Comm.exchangeDomains, h1, recvLeft]
        · exact recvLeft_of_not _ _ (by omega)
      rcases h2 with h2 | h2
      · simp only [Comm.exchangeDomains, h2, Option.bind_none, recvRight]
        exact hL'
      · have hnot : ¬ (N r - c.nGuard ≤ j ∧ j < N r) := by omega
        exact (recvRight_of_not _ _ hnot).trans hL'

theorem exchange_add_eq {c : Comm} {nf Nm : ℕ} {N : ℕ → ℕ} {F F' : RankFields A}
    (h : exchangeFields c .add nf Nm N F = .ok F') (hs : c.size ≠ 1) {r m k j : ℕ}
    (hr : r < c.size) (hm : m < Nm) (hk : k < nf) (hN : 4 * c.nGuard ≤ N r) (hj : j < N r) :
    (∀ l : ℕ, c.leftProc r = some (l : ℤ) → j < 2 * c.nGuard →
      F' r m k j = F r m k j + F l m k (N l - 2 * c.nGuard + j)) ∧
    (∀ p : ℕ, c.rightProc r = some (p : ℤ) → N r ≤ j + 2 * c.nGuard →
      F' r m k j = F r m k j + F p m k (j - (N r - 2 * c.nGuard))) ∧
    ((c.leftProc r = none ∨ 2 * c.nGuard ≤ j) → (c.rightProc r = none ∨ j + 2 * c.nGuard < N r) →
      F' r m k j = F r m k j) := by
  unfold exchangeFields at h
  rw [if_neg hs] at h
  split at h
  · cases h
  · rename_i hg
    simp only [Except.ok.injEq] at h
    subst h
    have hw : (XMethod.add.zone c.nGuard).2 - (XMethod.add.zone c.nGuard).1 = 2 * c.nGuard := by
      simp [XMethod.zone]
    rw [hw]
    refine ⟨?_, ?_, ?_⟩
    · intro l hl hlt
      simp only [Comm.exchangeDomains_left _ _ hr hl]
      have e : sendR c .add nf Nm N F l (nf * m + k) j = F l m k (N l - 2 * c.nGuard + j) := by
        unfold sendR; rw [packBuf_apply nf _ _ k hk Nm m hm]; rfl
      have hnot : ¬ (N r - 2 * c.nGuard ≤ j ∧ j < N r) := by omega
      rw [recvRight_of_not _ _ hnot]
      simp [recvLeft, hlt, e]
    · intro p hp hge
      simp only [recvRight, Comm.exchangeDomains_right _ _ hr hp]
      have e : sendL c .add nf Nm F p (nf * m + k) (j - (N r - 2 * c.nGuard))
          = F p m k (j - (N r - 2 * c.nGuard)) := by
        unfold sendL; rw [packBuf_apply nf _ _ k hk Nm m hm]; simp [XMethod.zone]
      have hyes : N r - 2 * c.nGuard ≤ j ∧ j < N r := by omega
      have hno : ¬ j < 2 * c.nGuard := by omega
      rw [if_pos hyes, e]
      rw [recvLeft_of_not _ _ hno]
    · intro h1 h2
      have hL' : (recvLeft .add (2 * c.nGuard) nf (c.exchangeDomains (sendL c .add nf Nm F)
          (sendR c .add nf Nm N F) r).1 (F r)) m k j = F r m k j := by
        rcases h1 with h1 | h1
        · simp [Comm.exchangeDomains, h1, recvLeft]
        · exact recvLeft_of_not _ _ (by omega)
      rcases h2 with h2 | h2
      · simp only [Comm.exchangeDomains, h2, Option.bind_none, recvRight]
        exact hL'
      · have hnot : ¬ (N r - 2 * c.nGuard ≤ j ∧ j < N r) := by omega
        exact (recvRight_of_not _ _ hnot).trans hL'

end closed

/-- The layout `lay` is the one reported by the communicator for the full local arrays. -/
def Comm.Describes (c : Comm) (lay : Spec.Layout) : Prop :=
  lay.n = c.size ∧ lay.ng = c.nGuard ∧
  lay.period = (if c.bz = .periodic then some c.NzGlobal else none) ∧
  ∀ r < c.size, c.getNzIz true true true (some r) = .ok (lay.N r, lay.first r)

/-- Geometric hypotheses of accepted decompositions. -/
structure Geo (c : Comm) (lay : Spec.Layout) : Prop where
  desc : c.Describes lay
  per : c.bz = .periodic → c.nzDamp = 0 ∧ c.nInject = 0
  per1 : c.bz = .periodic → c.size = 1 → c.nGuard = 0
  own : ∀ r < c.size, 2 * c.nGuard ≤ c.nzLoc true r

namespace Geo
variable {c : Comm} {lay : Spec.Layout}

theorem N_eq (g : Geo c lay) {r : ℕ} (hr : r < c.size) :
    lay.N r = c.nzLoc true r + 2 * c.nGuard := by
  have h := g.desc.2.2.2 r hr
  rw [Comm.getNzIz_local] at h
  simp only [if_true, Except.ok.injEq, Prod.mk.injEq] at h
  exact h.1.symm

theorem first_eq (g : Geo c lay) {r : ℕ} (hr : r < c.size) :
    lay.first r = c.izLoc true r - c.nGuard := by
  have h := g.desc.2.2.2 r hr
  rw [Comm.getNzIz_local] at h
  simp only [if_true, Except.ok.injEq, Prod.mk.injEq] at h
  exact h.2.symm

theorem N_ge (g : Geo c lay) {r : ℕ} (hr : r < c.size) : 4 * c.nGuard ≤ lay.N r := by
  rw [g.N_eq hr]; have := g.own r hr; omega

theorem mono (_ : Geo c lay) {a b : ℕ} (hab : a < b) (hb : b < c.size) :
    c.izLoc true a + c.nzLoc true a ≤ c.izLoc true b :=
  Spec.mono_of_contiguous (n := c.size) (start := c.izLoc true) (len := c.nzLoc true)
    (fun r hr => Comm.izLoc_succ c true r hr) a b hab hb

theorem per_zero (g : Geo c lay) (hp : c.bz = .periodic) : c.izLoc true 0 = 0 := by
  rw [Comm.izLoc_zero]; simp [g.per hp]

theorem per_last (g : Geo c lay) (hp : c.bz = .periodic) {r : ℕ} (hr : r + 1 = c.size) :
    c.izLoc true r + c.nzLoc true r = c.NzGlobal := by
  have h := Comm.izLoc_last c true (by omega)
  have e : c.size - 1 = r := by omega
  rw [e] at h; rw [h]; simp [g.per hp]

theorem per_range (g : Geo c lay) (hp : c.bz = .periodic) {r : ℕ} (hr : r < c.size) :
    0 ≤ c.izLoc true r ∧ c.izLoc true r + c.nzLoc true r ≤ c.NzGlobal := by
  constructor
  · rcases Nat.eq_zero_or_pos r with h | h
    · subst h; rw [g.per_zero hp]
    · have := g.mono h hr; rw [g.per_zero hp] at this; omega
  · by_cases h : r + 1 = c.size
    · rw [g.per_last hp h]
    · have h1 := g.mono (a := r) (b := c.size - 1) (by omega) (by omega)
      have h2 := g.per_last hp (r := c.size - 1) (by omega)
      omega

/-- Same cell, non-wrapping. -/
theorem same_flat (g : Geo c lay) {r s j k : ℕ} (hr : r < c.size) (hs : s < c.size)
    (hj : j < lay.N r) (hk : k < lay.N s)
    (h : c.izLoc true r + j = c.izLoc true s + k) :
    (s = r ∧ k = j) ∨ (s + 1 = r ∧ j < 2 * c.nGuard ∧ k = lay.N s - 2 * c.nGuard + j) ∨
    (s = r + 1 ∧ lay.N r ≤ j + 2 * c.nGuard ∧ k = j - (lay.N r - 2 * c.nGuard)) := by
  rw [g.N_eq hr] at *
  rw [g.N_eq hs] at *
  rcases Nat.lt_trichotomy s r with hlt | heq | hgt
  · right; left
    by_cases h1 : s + 1 = r
    · have := Comm.izLoc_succ c true s (by omega)
      rw [h1] at this
      refine ⟨h1, ?_, ?_⟩ <;> omega
    · have e1 := g.mono (a := s) (b := s + 1) (by omega) (by omega)
      have e2 := g.mono (a := s + 1) (b := r) (by omega) (by omega)
      have e3 := g.own (s + 1) (by omega)
      omega
  · left; subst heq; exact ⟨rfl, by omega⟩
  · right; right
    by_cases h1 : s = r + 1
    · have := Comm.izLoc_succ c true r (by omega)
      rw [← h1] at this
      refine ⟨h1, ?_, ?_⟩ <;> omega
    · have e1 := g.mono (a := r) (b := r + 1) (by omega) (by omega)
      have e2 := g.mono (a := r + 1) (b := s) (by omega) (by omega)
      have e3 := g.own (r + 1) (by omega)
      omega

/-- Wrapping case: the image of rank `r` is one period to the right of rank `s`. -/
theorem same_wrap (g : Geo c lay) (hp : c.bz = .periodic) (h2 : 2 ≤ c.size) {r s j k : ℕ}
    (hr : r < c.size) (hs : s < c.size) (hj : j < lay.N r)
    (h : c.izLoc true r + j = c.izLoc true s + k + c.NzGlobal) :
    r + 1 = c.size ∧ s = 0 ∧ lay.N r ≤ j + 2 * c.nGuard ∧ k = j - (lay.N r - 2 * c.nGuard) := by
  rw [g.N_eq hr] at *
  have r1 := g.per_range hp hr
  have s1 := g.per_range hp hs
  have hlast : r + 1 = c.size := by
    by_contra hne
    have e1 := g.mono (a := r) (b := c.size - 1) (by omega) (by omega)
    have e2 := g.per_last hp (r := c.size - 1) (by omega)
    have e3 := g.own (c.size - 1) (by omega)
    omega
  have e2 := g.per_last hp hlast
  have hs0 : s = 0 := by
    by_contra hne
    have e1 := g.mono (a := 0) (b := s) (by omega) hs
    have e3 := g.own 0 (by omega)
    rw [g.per_zero hp] at e1
    omega
  subst hs0
  rw [g.per_zero hp] at *
  refine ⟨hlast, rfl, ?_, ?_⟩ <;> omega

theorem same_iff_int (g : Geo c lay) {r s j k : ℕ} (hr : r < c.size) (hs : s < c.size) :
    lay.Same r j s k ↔ ∃ q : ℤ, (c.bz = .opened → q = 0) ∧
      c.izLoc true r + j = c.izLoc true s + k + q * c.NzGlobal := by
  unfold Spec.Layout.Same
  rw [g.desc.2.2.1, g.first_eq hr, g.first_eq hs]
  cases hb : c.bz with
  | opened =>
    simp only [reduceCtorEq, if_false]
    constructor
    · intro h; exact ⟨0, fun _ => rfl, by omega⟩
    · rintro ⟨q, hq, h⟩; have h0 : q = 0 := by simpa using hq
      rw [h0] at h; omega
  | periodic =>
    simp only [if_true]
    constructor
    · intro h
      obtain ⟨q, hq⟩ := h.symm.dvd
      refine ⟨q, by simp, ?_⟩
      have : q * (c.NzGlobal : ℤ) = c.NzGlobal * q := by ring
      omega
    · rintro ⟨q, -, h⟩
      apply Int.ModEq.symm
      rw [Int.modEq_iff_dvd]
      refine ⟨q, ?_⟩
      have : q * (c.NzGlobal : ℤ) = c.NzGlobal * q := by ring
      omega

/-- A global cell is stored by the rank itself and possibly by one neighbour. -/
theorem same_cases (g : Geo c lay) {r s j k : ℕ} (hr : r < c.size) (hs : s < c.size)
    (hj : j < lay.N r) (hk : k < lay.N s) (h : lay.Same r j s k) :
    (s = r ∧ k = j) ∨
    (c.leftProc r = some (s : ℤ) ∧ j < 2 * c.nGuard ∧ k = lay.N s - 2 * c.nGuard + j) ∨
    (c.rightProc r = some (s : ℤ) ∧ lay.N r ≤ j + 2 * c.nGuard ∧
      k = j - (lay.N r - 2 * c.nGuard)) := by
  obtain ⟨q, hq, e⟩ := (g.same_iff_int hr hs).mp h
  -- non wrapping
  have flat : q = 0 → (s = r ∧ k = j) ∨
    (c.leftProc r = some (s : ℤ) ∧ j < 2 * c.nGuard ∧ k = lay.N s - 2 * c.nGuard + j) ∨
    (c.rightProc r = some (s : ℤ) ∧ lay.N r ≤ j + 2 * c.nGuard ∧
      k = j - (lay.N r - 2 * c.nGuard)) := by
    intro hq0
    rw [hq0] at e
    rcases g.same_flat hr hs hj hk (by omega) with h | ⟨h1, h2, h3⟩ | ⟨h1, h2, h3⟩
    · exact Or.inl h
    · refine Or.inr (Or.inl ⟨?_, h2, h3⟩)
      have : r ≠ 0 := by omega
      unfold Comm.leftProc; cases c.bz <;> simp [this] <;> omega
    · refine Or.inr (Or.inr ⟨?_, h2, h3⟩)
      have : r + 1 ≠ c.size := by omega
      unfold Comm.rightProc; cases c.bz <;> simp [this] <;> omega
  cases hb : c.bz with
  | opened => exact flat (hq hb)
  | periodic =>
    by_cases h1 : c.size = 1
    · -- single rank: no guard cells
      have hg := g.per1 hb h1
      have hr0 : r = 0 := by omega
      have hs0 : s = 0 := by omega
      subst hr0; subst hs0
      have hL := g.per_last hb (r := 0) (by omega)
      have h0 := g.per_zero hb
      rw [g.N_eq hr] at hj hk
      left; refine ⟨rfl, ?_⟩
      rw [hg] at hj hk
      have : q = 0 := by
        by_contra hne
        rcases Int.lt_or_gt_of_ne hne with hlt | hgt
        · have : q * (c.NzGlobal : ℤ) ≤ (-1) * c.NzGlobal :=
            mul_le_mul_of_nonneg_right (by omega) (by omega)
          omega
        · have : 1 * (c.NzGlobal : ℤ) ≤ q * c.NzGlobal :=
            mul_le_mul_of_nonneg_right (by omega) (by omega)
          omega
      rw [this] at e; omega
    · have h2 : 2 ≤ c.size := by omega
      have r1 := g.per_range hb hr
      have s1 := g.per_range hb hs
      have hNr := g.N_eq hr
      have hNs := g.N_eq hs
      have o0 := g.own 0 (by omega)
      have o1 := g.own 1 (by omega)
      have m01 := g.mono (a := 0) (b := 1) (by omega) (by omega)
      have p1 := g.per_range hb (r := 1) (by omega)
      have p0 := g.per_zero hb
      have hL : 4 * (c.nGuard : ℤ) ≤ c.NzGlobal := by omega
      have q1 : q ≤ 1 := by
        by_contra hne
        have : 2 * (c.NzGlobal : ℤ) ≤ q * c.NzGlobal :=
          mul_le_mul_of_nonneg_right (by omega) (by omega)
        omega
      have q2 : -1 ≤ q := by
        by_contra hne
        have : q * (c.NzGlobal : ℤ) ≤ (-2) * c.NzGlobal :=
          mul_le_mul_of_nonneg_right (by omega) (by omega)
        omega
      have hq3 : q = -1 ∨ q = 0 ∨ q = 1 := by omega
      rcases hq3 with h | h | h
      · -- s is the last rank, r the first
        subst h
        obtain ⟨w1, w2, w3, w4⟩ := g.same_wrap hb h2 hs hr hk (k := j) (by omega)
        right; left
        subst w2
        refine ⟨?_, by omega, by omega⟩
        simp [Comm.leftProc, hb]; omega
      · exact flat h
      · subst h
        obtain ⟨w1, w2, w3, w4⟩ := g.same_wrap hb h2 hr hs hj (k := k) (by omega)
        right; right
        subst w2
        exact ⟨by simp [Comm.rightProc, hb, w1], by omega, by omega⟩

/-- With a single rank a cell is stored once. -/
theorem same_single (g : Geo c lay) (h1 : c.size = 1) {r s j k : ℕ} (hr : r < c.size)
    (hs : s < c.size) (hj : j < lay.N r) (hk : k < lay.N s) (h : lay.Same r j s k) :
    s = r ∧ k = j := by
  have hN := g.N_ge hr
  rcases g.same_cases hr hs hj hk h with h | ⟨h, h2, h3⟩ | ⟨h, h2, h3⟩
  · exact h
  · have hb : c.bz = .periodic := by
      obtain ⟨_, _, _, hc⟩ := Comm.leftProc_nat hr h
      rcases hc with ⟨_, _, hb⟩ | hc
      · exact hb
      · omega
    have := g.per1 hb h1
    omega
  · have hb : c.bz = .periodic := by
      obtain ⟨_, e', _, hc⟩ := Comm.rightProc_nat hr h
      rcases hc with ⟨_, _, hb⟩ | hc
      · exact hb
      · omega
    have := g.per1 hb h1
    omega

/-- The cell found on the left neighbour is the same global cell. -/
theorem same_left (g : Geo c lay) {r l j : ℕ} (hr : r < c.size)
    (hl : c.leftProc r = some (l : ℤ)) (hj : j < 2 * c.nGuard) :
    lay.Same r j l (lay.N l - 2 * c.nGuard + j) ∧ lay.N l - 2 * c.nGuard + j < lay.N l := by
  obtain ⟨l', e, hls, hc⟩ := Comm.leftProc_nat hr hl
  have : l = l' := by exact_mod_cast e
  subst this
  have hNl := g.N_eq hls
  refine ⟨(g.same_iff_int hr hls).mpr ?_, by omega⟩
  rcases hc with ⟨h0, h1, h2⟩ | h1
  · refine ⟨-1, by simp [h2], ?_⟩
    subst h0
    have := g.per_last h2 h1
    rw [g.per_zero h2]
    push_cast [hNl]; omega
  · refine ⟨0, fun _ => rfl, ?_⟩
    have := Comm.izLoc_succ c true l (by omega)
    rw [h1] at this
    omega

theorem same_right (g : Geo c lay) {r p j : ℕ} (hr : r < c.size)
    (hp : c.rightProc r = some (p : ℤ)) (hj : lay.N r ≤ j + 2 * c.nGuard) (hj2 : j < lay.N r) :
    lay.Same r j p (j - (lay.N r - 2 * c.nGuard)) ∧ j - (lay.N r - 2 * c.nGuard) < lay.N p := by
  obtain ⟨p', e, hps, hc⟩ := Comm.rightProc_nat hr hp
  have : p = p' := by exact_mod_cast e
  subst this
  have hNr := g.N_eq hr
  have hNp := g.N_ge hps
  refine ⟨(g.same_iff_int hr hps).mpr ?_, by omega⟩
  rcases hc with ⟨h0, h1, h2⟩ | h1
  · refine ⟨1, by simp [h2], ?_⟩
    subst h0
    have := g.per_last h2 h1
    rw [g.per_zero h2]
    omega
  · refine ⟨0, fun _ => rfl, ?_⟩
    have := Comm.izLoc_succ c true r (by omega)
    rw [← h1] at this
    omega

/-- Two owned copies of the same global cell are the same stored cell. -/
theorem owned_unique (g : Geo c lay) {r s j k : ℕ} (h1 : lay.Owned r j) (h2 : lay.Owned s k)
    (h : lay.Same r j s k) : s = r ∧ k = j := by
  obtain ⟨hr, a1, a2⟩ := h1
  obtain ⟨hs, b1, b2⟩ := h2
  rw [g.desc.1] at hr hs
  rw [g.desc.2.1] at a1 a2 b1 b2
  have := g.N_ge hr
  have := g.N_ge hs
  rcases g.same_cases hr hs (by omega) (by omega) h with h | ⟨_, h3, h4⟩ | ⟨_, h3, h4⟩
  · exact h
  · omega
  · omega

theorem same_symm {l : Spec.Layout} {r j s k : ℕ} (h : l.Same r j s k) : l.Same s k r j := by
  unfold Spec.Layout.Same at *
  cases hp : l.period with
  | none => simp only [hp] at *; omega
  | some L => simp only [hp] at *; exact h.symm

theorem same_trans {l : Spec.Layout} {r j s k t i : ℕ} (h : l.Same r j s k) (h' : l.Same s k t i) :
    l.Same r j t i := by
  unfold Spec.Layout.Same at *
  cases hp : l.period with
  | none => simp only [hp] at *; omega
  | some L => simp only [hp] at *; exact h.trans h'

/-- A stored cell is in the global domain iff some rank owns it. -/
theorem inDomain_iff (g : Geo c lay) (h0 : 0 < c.size) {lo : ℤ} {N : ℕ}
    (hg : c.getNzIz false true false none = .ok (N, lo)) {s i : ℕ} (hs : s < c.size)
    (hi : i < lay.N s) :
    lay.InDomain lo (lo + N) s i ↔ ∃ r j, lay.Owned r j ∧ lay.Same r j s i := by
  rw [Comm.getNzIz_global] at hg
  simp only [if_true, Bool.false_eq_true, if_false, Except.ok.injEq, Prod.mk.injEq, add_zero,
    sub_zero] at hg
  obtain ⟨hN, hlo⟩ := hg
  have part := Spec.IntervalPartition.of_contiguous (n := c.size) (start := c.izLoc true)
    (len := c.nzLoc true) (lo := lo) (hi := lo + N) h0
    (by rw [Comm.izLoc_zero]; simp; omega)
    (by rw [Comm.izLoc_last c true h0]; simp; omega)
    (fun r hr => Comm.izLoc_succ c true r hr)
  have mk : ∀ G : ℤ, lo ≤ G → G < lo + N → ∃ r j, lay.Owned r j ∧ r < c.size ∧
      c.izLoc true r + j = G + c.nGuard := by
    intro G h1 h2
    obtain ⟨r, ⟨hr, h3, h4⟩, -⟩ := part.1 G h1 h2
    refine ⟨r, (G - c.izLoc true r + c.nGuard).toNat, ⟨by rw [g.desc.1]; exact hr, ?_, ?_⟩, hr, ?_⟩
    · rw [g.desc.2.1]; omega
    · rw [g.desc.2.1, g.N_eq hr]; omega
    · omega
  cases hb : c.bz with
  | opened =>
    have hp : lay.period = none := by rw [g.desc.2.2.1]; simp [hb]
    simp only [Spec.Layout.InDomain, hp]
    rw [g.first_eq hs]
    constructor
    · rintro ⟨h1, h2⟩
      obtain ⟨r, j, ho, hr, e⟩ := mk _ h1 h2
      refine ⟨r, j, ho, ?_⟩
      simp only [Spec.Layout.Same, hp]
      rw [g.first_eq hs, g.first_eq hr]; omega
    · rintro ⟨r, j, ho, e⟩
      simp only [Spec.Layout.Same, hp] at e
      obtain ⟨hr, a1, a2⟩ := ho
      rw [g.desc.1] at hr
      rw [g.desc.2.1] at a1 a2
      rw [g.N_eq hr] at a2
      rw [g.first_eq hs, g.first_eq hr] at e
      have := part.2.1 r hr
      constructor <;> omega
  | periodic =>
    have hp : lay.period = some c.NzGlobal := by rw [g.desc.2.2.1]; simp [hb]
    simp only [Spec.Layout.InDomain, hp, true_iff]
    have hd := g.per hb
    rw [hd.1, hd.2] at hN hlo
    have hL : 0 < (c.NzGlobal : ℤ) := by
      by_contra hz
      have hz' : c.NzGlobal = 0 := by omega
      -- then no rank owns or stores a cell
      have r1 := g.per_range hb hs
      have o1 := g.own s hs
      have := g.N_eq hs
      omega
    set G := lay.first s + i with hG
    obtain ⟨r, j, ho, hr, e⟩ := mk (G % c.NzGlobal)
      (by have := Int.emod_nonneg G (ne_of_gt hL); omega)
      (by have := Int.emod_lt_of_pos G hL; omega)
    refine ⟨r, j, ho, ?_⟩
    simp only [Spec.Layout.Same, hp]
    rw [g.first_eq hr]
    have : c.izLoc true r - c.nGuard + j = G % c.NzGlobal := by omega
    rw [this, ← hG]
    exact Int.mod_modEq _ _

end Geo
end Fbpic
