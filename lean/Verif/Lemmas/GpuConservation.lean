import Verif.Lemmas.GpuSplit

namespace Fbpic.GpuExchange
open Fbpic _root_.Spec

variable {K : Type} [Field K] [LinearOrder K]

/-- Particles at or below `lo - h` / above `hi + h` / between. -/
def belowH (lo h : K) (p : Ptcl K) : Bool := decide (p.z ≤ lo - h)
@[inherit_doc belowH] def aboveH (hi h : K) (p : Ptcl K) : Bool := decide (hi + h < p.z)
@[inherit_doc belowH] def insideH (lo hi h : K) (p : Ptcl K) : Bool :=
  !belowH lo h p && !aboveH hi h p

theorem mapM_ok {α β : Type} (f : α → Except PyErr β) (k : α → β) (l : List α)
    (h : ∀ a ∈ l, f a = .ok (k a)) : l.mapM f = .ok (l.map k) := by
  induction l with
  | nil => rfl
  | cons a l ih =>
    rw [List.mapM_cons, h a (by simp), ih (fun b hb => h b (by simp [hb]))]
    rfl

theorem filter_perm {α : Type} {l l' : List α} (h : l.Perm l') (q : α → Bool) :
    ((l.filter q : List α) : Multiset α) = (l'.filter q : List α) :=
  Multiset.coe_eq_coe.2 (h.filter q)

section
variable (c : Comm) (dz : K)

/-- What `r` receives from the left / right when the ranks send the lists `A` to the right / `B` to
the left. -/
def recvL (A : ℕ → List (Ptcl K)) (r : ℕ) : List (Ptcl K) :=
  match c.leftProc r with
  | none => []
  | some l => (A l.toNat).map
      (if l = (c.size : ℤ) - 1 then Ptcl.shift (-((c.NzGlobal : K) * dz)) else id)

@[inherit_doc recvL]
def recvR (B : ℕ → List (Ptcl K)) (r : ℕ) : List (Ptcl K) :=
  match c.rightProc r with
  | none => []
  | some p => (B p.toNat).map (if p = 0 then Ptcl.shift ((c.NzGlobal : K) * dz) else id)

/-- What becomes of the list sent to the right / left by `r`. -/
def sentR (A : ℕ → List (Ptcl K)) (r : ℕ) : List (Ptcl K) :=
  if r + 1 = c.size then
    if c.bz = .periodic then (A r).map (Ptcl.shift (-((c.NzGlobal : K) * dz))) else []
  else A r

@[inherit_doc sentR]
def sentL (B : ℕ → List (Ptcl K)) (r : ℕ) : List (Ptcl K) :=
  if r = 0 then
    if c.bz = .periodic then (B r).map (Ptcl.shift ((c.NzGlobal : K) * dz)) else []
  else B r

omit [LinearOrder K] in
theorem sum_recvL (A : ℕ → List (Ptcl K)) (hs : 0 < c.size) :
    ∑ r ∈ Finset.range c.size, (recvL c dz A r : Multiset (Ptcl K))
      = ∑ r ∈ Finset.range c.size, (sentR c dz A r : Multiset (Ptcl K)) := by
  obtain ⟨n, hn⟩ : ∃ n, c.size = n + 1 := ⟨c.size - 1, by omega⟩
  rw [hn, Finset.sum_range_succ', Finset.sum_range_succ]
  congr 1
  · apply Finset.sum_congr rfl
    intro r hr
    rw [Finset.mem_range] at hr
    have hl : c.leftProc (r + 1) = some (r : ℤ) := by
      unfold Comm.leftProc; cases c.bz <;> simp
    have h1 : ¬ ((r : ℤ) = (c.size : ℤ) - 1) := by omega
    have h2 : ¬ (r + 1 = c.size) := by omega
    simp only [recvL, hl, h1, if_false, Int.toNat_natCast, List.map_id, sentR, h2]
  · cases hb : c.bz with
    | opened =>
      have hl : c.leftProc 0 = none := by simp [Comm.leftProc, hb]
      simp [recvL, hl, sentR, hn, hb]
    | periodic =>
      have hl : c.leftProc 0 = some (n : ℤ) := by simp [Comm.leftProc, hb, hn]
      have h1 : (n : ℤ) = (c.size : ℤ) - 1 := by omega
      simp only [recvL, hl, ← h1, if_true, Int.toNat_natCast]
      simp [sentR, hn, hb]

omit [LinearOrder K] in
theorem sum_recvR (B : ℕ → List (Ptcl K)) (hs : 0 < c.size) :
    ∑ r ∈ Finset.range c.size, (recvR c dz B r : Multiset (Ptcl K))
      = ∑ r ∈ Finset.range c.size, (sentL c dz B r : Multiset (Ptcl K)) := by
  obtain ⟨n, hn⟩ : ∃ n, c.size = n + 1 := ⟨c.size - 1, by omega⟩
  rw [hn, Finset.sum_range_succ, Finset.sum_range_succ']
  congr 1
  · apply Finset.sum_congr rfl
    intro r hr
    rw [Finset.mem_range] at hr
    have h2 : ¬ (r = n) := by omega
    have hl : c.rightProc r = some ((r + 1 : ℕ) : ℤ) := by
      unfold Comm.rightProc; cases c.bz <;> simp [hn, h2]
    have h1 : ¬ (((r + 1 : ℕ) : ℤ) = 0) := by omega
    have h3 : ¬ (r + 1 = 0) := by omega
    simp only [recvR, hl, h1, if_false, Int.toNat_natCast, List.map_id, sentL, h3]
  · cases hb : c.bz with
    | opened =>
      have hl : c.rightProc n = none := by simp [Comm.rightProc, hb, hn]
      simp [recvR, hl, sentL, hb]
    | periodic =>
      have hl : c.rightProc n = some 0 := by simp [Comm.rightProc, hb, hn]
      simp [recvR, hl, sentL, hb]

end

section
variable [IsStrictOrderedRing K]

/-- One rank: settled particles = those that go right + stay + go left. -/
theorem settleWithin_split (periodic isFirst isLast : Bool) (L lo hi glo ghi h : K) (hle : lo ≤ hi)
    (hh : 0 ≤ h) (h0 : isFirst = true → glo = lo) (h1 : isLast = true → ghi = hi)
    (l : List (Ptcl K)) :
    ((l.filterMap (settleWithin periodic isFirst isLast glo ghi L h) : List (Ptcl K)) :
        Multiset (Ptcl K))
      = ((if isLast then if periodic then (l.filter (aboveH hi h)).map (Ptcl.shift (-L)) else []
            else l.filter (aboveH hi h) : List (Ptcl K)) : Multiset (Ptcl K))
        + (l.filter (insideH lo hi h) : List (Ptcl K))
        + ((if isFirst then if periodic then (l.filter (belowH lo h)).map (Ptcl.shift L) else []
            else l.filter (belowH lo h) : List (Ptcl K)) : Multiset (Ptcl K)) := by
  have eR : (if isLast then if periodic then (l.filter (aboveH hi h)).map (Ptcl.shift (-L)) else []
        else l.filter (aboveH hi h) : List (Ptcl K)) = l.filterMap (fun p => if hi + h < p.z then
      (if isLast then if periodic then some (p.shift (-L)) else none else some p) else none) := by
    split_ifs with a1 a2
    · rw [filter_map_eq_fm]; simp [aboveH]
    · rw [nil_eq_fm l]; simp
    · rw [filter_eq_fm]; simp [aboveH]
  have eL : (if isFirst then if periodic then (l.filter (belowH lo h)).map (Ptcl.shift L) else []
        else l.filter (belowH lo h) : List (Ptcl K)) = l.filterMap (fun p => if p.z ≤ lo - h then
      (if isFirst then if periodic then some (p.shift L) else none else some p) else none) := by
    split_ifs with a1 a2
    · rw [filter_map_eq_fm]; simp [belowH]
    · rw [nil_eq_fm l]; simp
    · rw [filter_eq_fm]; simp [belowH]
  rw [eR, eL, filter_eq_fm]
  apply filterMap_split
  intro p
  unfold settleWithin
  by_cases hb : p.z ≤ lo - h
  · have ha : ¬ hi + h < p.z := by intro hc; linarith
    have hin : insideH lo hi h p = false := by simp [insideH, belowH, hb]
    rw [hin]
    simp only [ha, hb, if_true, if_false]
    by_cases hr : isFirst = true
    · simp [hr, h0 hr, hb, optMs]
    · cases isLast with
      | false => simp [hr, optMs]
      | true => simp [hr, h1 rfl, ha, optMs]
  · by_cases ha : hi + h < p.z
    · have hin : insideH lo hi h p = false := by simp [insideH, aboveH, ha]
      rw [hin]
      simp only [ha, hb, if_true, if_false]
      have hc : ¬ (isFirst = true ∧ p.z ≤ glo - h) := by
        rintro ⟨hf, h'⟩
        rw [h0 hf] at h'; exact hb h'
      rw [if_neg hc]
      cases isLast with
      | false => simp [optMs]
      | true => simp [h1 rfl, ha, optMs]
    · have hin : insideH lo hi h p = true := by simp [insideH, aboveH, belowH, ha, hb] at *
      rw [hin]
      simp only [ha, hb, if_true, if_false]
      have hc : ¬ (isFirst = true ∧ p.z ≤ glo - h) := by
        rintro ⟨hf, h'⟩
        rw [h0 hf] at h'; exact hb h'
      have hc2 : ¬ (isLast = true ∧ ghi + h < p.z) := by
        rintro ⟨hf, h'⟩
        rw [h1 hf] at h'; exact ha h'
      rw [if_neg hc, if_neg hc2]
      simp [optMs]

variable [FloorRing K]

theorem zIndex_lt_iff (zmin dz : K) (ng : ℕ) (hdz : 0 < dz) (p : Ptcl K) :
    zIndex zmin dz p < ng ↔ p.z ≤ zmin + (ng : K) * dz - dz / 2 := by
  unfold zIndex
  have : (⌈(p.z - zmin) / dz - 1 / 2⌉ < (ng : ℤ)) ↔ ⌈(p.z - zmin) / dz - 1 / 2⌉ ≤ (ng : ℤ) - 1 := by
    omega
  rw [this, Int.ceil_le]
  push_cast
  rw [sub_le_iff_le_add, div_le_iff₀ hdz]
  constructor <;> intro h <;> linarith

theorem lt_zIndex_iff (zmin dz : K) (m : ℤ) (hdz : 0 < dz) (p : Ptcl K) :
    m < zIndex zmin dz p ↔ zmin + (m : K) * dz + dz / 2 < p.z := by
  unfold zIndex
  rw [Int.lt_ceil, lt_sub_iff_add_lt, lt_div_iff₀ hdz]
  constructor <;> intro h <;> linarith

/-- The state after `if not species.sorted: sort`. -/
theorem Holds.condSort {rad : Radial K} {t i : Bool} {g : InterpGrid K} {ps : List (Ptcl K)}
    {st : GpuSpecies K} (h : Holds rad t i g ps st) (hr : 0 < rad.invdr) (d : Device K)
    (hd : IsArgSort d.argsort) (hth : d.Covers (ps.length + g.Nz * (rad.Nr + 1)))
    (hrad : ∀ p ∈ ps, rad.rmin ≤ rad.radius p.x p.y) (hin : ∀ p ∈ ps, InGrid g st p)
    (hdz : 0 < g.dz) : ∃ (ps' : List (Ptcl K)) (st1 : GpuSpecies K), ps'.Perm ps ∧
      (if st.sorted = false then
        { sortParticles rad g d.argsort d.threads st with sorted := true } else st) = st1 ∧
      st1.arr = Species.ofList t i ps' ∧ ∃ zmin0, g.zmin = zmin0 + (st1.shift : K) * g.dz ∧
      st1.shift = st.moved ∧
      (∀ p ∈ ps', Fine rad zmin0 g.dz g.Nz p) ∧
      Counted rad zmin0 g.dz g.Nz (ps'.map Ptcl.z) st1 := by
  obtain ⟨f1, f2⟩ := h.facts hr
  cases hs : st.sorted with
  | false =>
    have hf : ∀ p ∈ ps, Fine rad g.zmin g.dz g.Nz p := by
      intro p hp
      have := hin p hp
      unfold InGrid GpuSpecies.moved at this
      rw [hs] at this
      simp only [Bool.false_eq_true, if_false, Int.cast_zero, add_zero] at this
      exact ⟨hrad p hp, this.1, this.2⟩
    obtain ⟨q, q1, q2, q3⟩ := sortParticles_counted rad g d t i ps st f1 hd hth hr hf
    refine ⟨q, _, q1, if_pos rfl, q2, g.zmin, by simp [sortParticles], ?_, ?_, q3.val, q3.sorted⟩
    · simp [sortParticles, GpuSpecies.moved, hs]
    · intro p hp; exact hf p (q1.mem_iff.1 hp)
  | true =>
    obtain ⟨z0, e, hc⟩ := f2 hs
    have hm : st.moved = st.shift := by simp [GpuSpecies.moved, hs]
    have hf : ∀ p ∈ ps, Fine rad z0 g.dz g.Nz p := by
      intro p hp
      have := hin p hp
      unfold InGrid at this
      rw [hm] at this
      have e2 : (p.z - z0) / g.dz = (p.z - g.zmin) / g.dz + (st.shift : K) := by
        rw [e]; field_simp; ring
      unfold Fine
      rw [e2]
      exact ⟨hrad p hp, this.1, this.2⟩
    exact ⟨ps, st, List.Perm.refl _, by simp, f1, z0, e, hm.symm, hf, hc hf⟩

/-- `remove_particles_gpu` on a reachable state. -/
theorem removeParticlesGpu_eq {rad : Radial K} {t i : Bool} {g : InterpGrid K} {ps : List (Ptcl K)}
    {st : GpuSpecies K} (h : Holds rad t i g ps st) (hr : 0 < rad.invdr) (d : Device K)
    (hd : IsArgSort d.argsort) (hth : d.Covers (ps.length + g.Nz * (rad.Nr + 1)))
    (hrad : ∀ p ∈ ps, rad.rmin ≤ rad.radius p.x p.y) (hin : ∀ p ∈ ps, InGrid g st p)
    (hdz : 0 < g.dz) (hzm : g.zmax = g.zmin + (g.Nz : K) * g.dz) (ng : ℕ) (hN : 2 * ng ≤ g.Nz)
    (hN0 : 0 < g.Nz) (h1 : (ng : ℤ) + st.moved ≤ g.Nz) (h2 : 0 ≤ (g.Nz : ℤ) - ng + st.moved)
    (left right : Option ℤ) (lo hi : K) (hlo : lo = g.zmin + (ng : K) * g.dz)
    (hhi : hi = g.zmax - (ng : K) * g.dz) :
    ∃ (ps' : List (Ptcl K)) (st' : GpuSpecies K), ps'.Perm ps ∧
      removeParticlesGpu d rad g ng left right st =
        .ok (PBuf.ofList t i (if left.isSome then ps'.filter (belowH lo (g.dz / 2)) else []),
          PBuf.ofList t i (if right.isSome then ps'.filter (aboveH hi (g.dz / 2)) else []), st') ∧
      st'.arr = Species.ofList t i (ps'.filter (insideH lo hi (g.dz / 2))) := by
  obtain ⟨ps', st1, hperm, hst1, harr1, zmin0, hz0, hsh, hf, hc⟩ :=
    h.condSort hr d hd hth hrad hin hdz
  obtain ⟨iMin, iMax, s1, s2, s3, s4, s5, s6⟩ := splitIndices_eq hz0 hdz.ne' hc hf ng hN hN0
    (by rw [hsh]; exact h1) (by rw [hsh]; exact h2)
  have hB : (fun p => decide (zIndex g.zmin g.dz p < ng)) = belowH lo (g.dz / 2) := by
    funext p
    unfold belowH
    apply decide_eq_decide.2
    rw [zIndex_lt_iff _ _ _ hdz, hlo]
  have eA : ∀ p, ((g.Nz : ℤ) - ng < zIndex g.zmin g.dz p ↔ hi + g.dz / 2 < p.z) := by
    intro p
    rw [lt_zIndex_iff _ _ _ hdz, hhi, hzm]
    push_cast
    constructor <;> intro h <;> linarith
  have hA : (fun p => decide ((g.Nz : ℤ) - ng < zIndex g.zmin g.dz p)) = aboveH hi (g.dz / 2) := by
    funext p
    exact decide_eq_decide.2 (eA p)
  have hI : (fun p => decide ((ng : ℤ) ≤ zIndex g.zmin g.dz p ∧ zIndex g.zmin g.dz p ≤ (g.Nz : ℤ) - ng))
      = insideH lo hi (g.dz / 2) := by
    funext p
    unfold insideH
    rw [← hB, ← hA, Bool.eq_iff_iff]
    simp
  rw [hB] at s4
  rw [hI] at s5
  rw [hA] at s6
  have hlen : ∀ j, j < ps'.length → j ∈ d.threads := by
    intro j hj
    rw [hperm.length_eq] at hj
    exact hth j (by omega)
  have split := fun (part : ∀ {α : Type}, List α × List α × List α → List α)
    (part' : List (Ptcl K)) hp => splitSpecies_ofList d.junk d.junkI d.threads iMin iMax t i ps' s2 s3
      hlen part part' hp
  refine ⟨ps', { st1 with arr := Species.ofList t i (ps'.filter (insideH lo hi (g.dz / 2))) }, hperm,
    ?_, rfl⟩
  unfold removeParticlesGpu
  simp only [hst1, s1, harr1]
  have e1 := split (·.1) (ps'.filter (belowH lo (g.dz / 2))) (fun f => by rw [s4])
  have e2 := split (·.2.1) (ps'.filter (insideH lo hi (g.dz / 2))) (fun f => by rw [s5])
  have e3 := split (·.2.2) (ps'.filter (aboveH hi (g.dz / 2))) (fun f => by rw [s6])
  rw [e1, e2, e3, toBuffer_ofList, toBuffer_ofList, emptyBuffer_ofList]
  cases left <;> cases right <;> rfl

end
end Fbpic.GpuExchange
