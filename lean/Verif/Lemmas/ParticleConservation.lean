import Verif.Lemmas.ParticleExchange
import Verif.Lemmas.Window
import Verif.Lemmas.Tactics
import Mathlib.Algebra.BigOperators.Group.Finset.Basic
import Mathlib.Algebra.Order.BigOperators.Group.Multiset
import Mathlib.Data.Multiset.Filter
import Mathlib.Algebra.BigOperators.Group.Multiset.Basic

namespace Fbpic
open Spec

variable {K : Type} [Field K] [LinearOrder K] [IsStrictOrderedRing K]

/-- What leaves rank `r` to the left / right, after settling at the global ends. -/
def goLeft (periodic : Bool) (L lo : K) (r : ℕ) (l : List (Ptcl K)) : List (Ptcl K) :=
  if r = 0 then if periodic then (l.filter (belowLo lo)).map (Ptcl.shift L) else []
  else l.filter (belowLo lo)

@[inherit_doc goLeft]
def goRight (periodic isLast : Bool) (L hi : K) (l : List (Ptcl K)) : List (Ptcl K) :=
  if isLast then if periodic then (l.filter (aboveHi hi)).map (Ptcl.shift (-L)) else []
  else l.filter (aboveHi hi)

/-- An optional element as a multiset. -/
def optMs {α : Type} : Option α → Multiset α
  | none => 0
  | some a => {a}

theorem filterMap_cons_ms {α β : Type} (g : α → Option β) (p : α) (l : List α) :
    (((p :: l).filterMap g : List β) : Multiset β) = optMs (g p) + ((l.filterMap g : List β) : Multiset β) := by
  cases h : g p with
  | none => simp [List.filterMap_cons, h, optMs]
  | some q => rw [List.filterMap_cons, h, ← Multiset.cons_coe, ← Multiset.singleton_add]; rfl

theorem filterMap_split {α β : Type} (g a b d : α → Option β)
    (h : ∀ p, optMs (g p) = optMs (a p) + optMs (b p) + optMs (d p)) (l : List α) :
    ((l.filterMap g : List β) : Multiset β) = ((l.filterMap a : List β) : Multiset β)
      + ((l.filterMap b : List β) : Multiset β) + ((l.filterMap d : List β) : Multiset β) := by
  induction l with
  | nil => simp
  | cons p l ih => rw [filterMap_cons_ms, filterMap_cons_ms, filterMap_cons_ms, filterMap_cons_ms, ih, h]; abel

theorem filter_eq_fm {α : Type} (q : α → Bool) (l : List α) :
    l.filter q = l.filterMap (fun p => if q p then some p else none) := by
  induction l with
  | nil => rfl
  | cons p l ih => cases h : q p <;> simp [List.filter_cons, List.filterMap_cons, h, ih]

theorem filter_map_eq_fm {α β : Type} (q : α → Bool) (f : α → β) (l : List α) :
    (l.filter q).map f = l.filterMap (fun p => if q p then some (f p) else none) := by
  induction l with
  | nil => rfl
  | cons p l ih => cases h : q p <;> simp [List.filter_cons, List.filterMap_cons, h, ih]

theorem nil_eq_fm {α β : Type} (l : List α) : ([] : List β) = l.filterMap (fun _ => none) := by
  induction l with
  | nil => rfl
  | cons p l ih => simpa using ih

omit [IsStrictOrderedRing K] in
theorem goLeft_eq_fm (periodic : Bool) (L lo : K) (r : ℕ) (l : List (Ptcl K)) :
    goLeft periodic L lo r l = l.filterMap (fun p => if p.z < lo then
      (if r = 0 then if periodic then some (p.shift L) else none else some p) else none) := by
  unfold goLeft
  split_ifs with h1 h2
  · rw [filter_map_eq_fm]; simp [belowLo]
  · rw [nil_eq_fm l]; simp
  · rw [filter_eq_fm]; simp [belowLo]

omit [IsStrictOrderedRing K] in
theorem goRight_eq_fm (periodic isLast : Bool) (L hi : K) (l : List (Ptcl K)) :
    goRight periodic isLast L hi l = l.filterMap (fun p => if hi < p.z then
      (if isLast then if periodic then some (p.shift (-L)) else none else some p) else none) := by
  unfold goRight
  split_ifs with h1 h2
  · rw [filter_map_eq_fm]; simp [aboveHi]
  · rw [nil_eq_fm l]; simp
  · rw [filter_eq_fm]; simp [aboveHi]

omit [IsStrictOrderedRing K] in
/-- One rank: settled particles = those that stay + those that go left + those that go right. -/
theorem settle_split (periodic isLast : Bool) (L lo hi glo ghi : K) (r : ℕ) (hle : lo ≤ hi)
    (h0 : r = 0 → glo = lo) (h1 : isLast = true → ghi = hi) (l : List (Ptcl K)) :
    ((l.filterMap (Ptcl.settle periodic (r = 0) isLast glo ghi L) : List (Ptcl K)) :
        Multiset (Ptcl K))
      = (goRight periodic isLast L hi l : Multiset (Ptcl K)) + (l.filter (inside lo hi) : Multiset (Ptcl K))
        + (goLeft periodic L lo r l : Multiset (Ptcl K)) := by
  rw [goLeft_eq_fm, goRight_eq_fm, filter_eq_fm]
  apply filterMap_split
  intro p
  unfold Ptcl.settle
  by_cases hb : p.z < lo
  · have ha : ¬ hi < p.z := fun h' => absurd (lt_of_le_of_lt hle h') (not_lt.mpr hb.le)
    have hin : inside lo hi p = false := by simp [inside, belowLo, hb]
    rw [hin]
    simp only [ha, hb, if_true, if_false]
    by_cases hr : r = 0
    · simp [hr, h0 hr, hb, optMs]
    · cases isLast with
      | false => simp [hr, optMs]
      | true => simp [hr, h1 rfl, ha, optMs]
  · by_cases ha : hi < p.z
    · have hin : inside lo hi p = false := by simp [inside, aboveHi, ha]
      rw [hin]
      simp only [ha, hb, if_true, if_false]
      have hc : ¬ ((decide (r = 0) = true) ∧ p.z < glo) := by
        rintro ⟨h, h'⟩
        rw [h0 (by simpa using h)] at h'; exact hb h'
      rw [if_neg hc]
      cases isLast with
      | false => simp [optMs]
      | true => simp [h1 rfl, ha, optMs]
    · have hin : inside lo hi p = true := by simp [inside, aboveHi, belowLo, ha, hb] at *
      rw [hin]
      simp only [ha, hb, if_true, if_false]
      have hc : ¬ ((decide (r = 0) = true) ∧ p.z < glo) := by
        rintro ⟨h, h'⟩
        rw [h0 (by simpa using h)] at h'; exact hb h'
      have hc2 : ¬ ((isLast = true) ∧ ghi < p.z) := by
        rintro ⟨h, h'⟩
        rw [h1 h] at h'; exact ha h'
      rw [if_neg hc, if_neg hc2]
      simp [optMs]

/-- Multiset of particles without their integer attributes. -/
def ms (l : List (Ptcl K)) : Multiset (Ptcl K) := ((l.map Ptcl.noInts : List (Ptcl K)) : Multiset _)

omit [IsStrictOrderedRing K] in
theorem ms_append (a b : List (Ptcl K)) : ms (a ++ b) = ms a + ms b := by simp [ms]

omit [IsStrictOrderedRing K] in
theorem ms_conv (a : List (Ptcl K)) : ms (a.map (convPtcl f64Bits)) = ms a := by
  unfold ms; rw [List.map_map]; rfl

omit [IsStrictOrderedRing K] in
theorem ms_conv_shift (a : List (Ptcl K)) (s : K) :
    ms ((a.map (convPtcl f64Bits)).map (Ptcl.shift s)) = ms (a.map (Ptcl.shift s)) := by
  unfold ms; rw [List.map_map, List.map_map, List.map_map]; rfl

omit [IsStrictOrderedRing K] in
theorem sum_fromLeft (c : Comm) (dz : K) (hi : ℕ → K) (P : ℕ → List (Ptcl K)) (hs : 0 < c.size) :
    ∑ r ∈ Finset.range c.size, ms (fromLeft c dz hi P r)
      = ∑ r ∈ Finset.range c.size,
        ms (goRight (c.bz = .periodic) (r + 1 = c.size) ((c.NzGlobal : K) * dz) (hi r) (P r)) := by
  obtain ⟨n, hn⟩ : ∃ n, c.size = n + 1 := ⟨c.size - 1, by omega⟩
  rw [hn, Finset.sum_range_succ', Finset.sum_range_succ]
  congr 1
  · apply Finset.sum_congr rfl
    intro r hr
    rw [Finset.mem_range] at hr
    have hl : c.leftProc (r + 1) = some (r : ℤ) := by
      unfold Comm.leftProc; cases c.bz <;> simp
    have h1 : ¬ ((r : ℤ) = (c.size : ℤ) - 1) := by omega
    have h2 : ¬ (r = n) := by omega
    simp only [fromLeft, hl, h1, if_false, Int.toNat_natCast, List.map_id]
    rw [ms_conv]
    simp [goRight, h2]
  · cases hb : c.bz with
    | opened =>
      have hl : c.leftProc 0 = none := by simp [Comm.leftProc, hb]
      simp [fromLeft, hl, goRight]
    | periodic =>
      have hl : c.leftProc 0 = some (n : ℤ) := by simp [Comm.leftProc, hb, hn]
      have h1 : (n : ℤ) = (c.size : ℤ) - 1 := by omega
      simp only [fromLeft, hl, ← h1, if_true, Int.toNat_natCast]
      rw [ms_conv_shift]
      simp [goRight]

omit [IsStrictOrderedRing K] in
theorem sum_fromRight (c : Comm) (dz : K) (lo : ℕ → K) (P : ℕ → List (Ptcl K)) (hs : 0 < c.size) :
    ∑ r ∈ Finset.range c.size, ms (fromRight c dz lo P r)
      = ∑ r ∈ Finset.range c.size,
        ms (goLeft (c.bz = .periodic) ((c.NzGlobal : K) * dz) (lo r) r (P r)) := by
  obtain ⟨n, hn⟩ : ∃ n, c.size = n + 1 := ⟨c.size - 1, by omega⟩
  rw [hn, Finset.sum_range_succ, Finset.sum_range_succ']
  congr 1
  · apply Finset.sum_congr rfl
    intro r hr
    rw [Finset.mem_range] at hr
    have h2 : ¬ (r = n) := by omega
    have hl : c.rightProc r = some ((r + 1 : ℕ) : ℤ) := by
      unfold Comm.rightProc; cases c.bz <;> simp [hn, h2]
    have h1 : ¬ (((r + 1 : ℕ) : ℤ) = 0) := by omega
    simp only [fromRight, hl, h1, if_false, Int.toNat_natCast, List.map_id]
    simp [goLeft]
  · cases hb : c.bz with
    | opened =>
      have hl : c.rightProc n = none := by simp [Comm.rightProc, hb, hn]
      simp [fromRight, hl, goLeft]
    | periodic =>
      have hl : c.rightProc n = some 0 := by simp [Comm.rightProc, hb, hn]
      simp [fromRight, hl, goLeft]

end Fbpic
