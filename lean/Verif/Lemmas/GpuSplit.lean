import Verif.Spec.GpuExchange
import Verif.Lemmas.GpuExchange

namespace Fbpic.GpuExchange
open Fbpic _root_.Spec

variable {K : Type} [Field K] [LinearOrder K] [IsStrictOrderedRing K] [FloorRing K]

/-- Cell index of a particle. -/
def cellOf (rad : Radial K) (g : InterpGrid K) (p : Ptcl K) : ℤ :=
  Sorting.cellIdx (rad.radius p.x p.y) p.z (1 / g.dz) g.zmin g.Nz rad.invdr rad.rmin rad.Nr

/-- Index along z without the periodic wrapping. -/
def zIndex (zmin dz : K) (p : Ptcl K) : ℤ := ⌈(p.z - zmin) / dz - 1 / 2⌉

omit [IsStrictOrderedRing K] in
theorem cellIndices_ofList (rad : Radial K) (g : InterpGrid K) (t i : Bool) (ps : List (Ptcl K)) :
    cellIndices rad g (Species.ofList t i ps) = ps.map (cellOf rad g) := by
  unfold cellIndices Species.ofList
  simp only [List.zip_map', List.map_map]
  rfl

omit [IsStrictOrderedRing K] [Field K] [LinearOrder K] [FloorRing K] in
theorem rearrangeSpecies_ofList (idx : ℕ → ℕ) (t i : Bool) (ps : List (Ptcl K)) :
    rearrangeSpecies idx (Species.ofList t i ps) = Species.ofList t i (rearrangeArray idx ps) := by
  cases t <;> cases i <;> simp [rearrangeSpecies, Species.ofList, rearrangeArray_map]

/-- The particles are in grid `g` and not in its last half cell, at non-negative radius. -/
def Fine (rad : Radial K) (zmin dz : K) (Nz : ℕ) (p : Ptcl K) : Prop :=
  rad.rmin ≤ rad.radius p.x p.y ∧ -(1 / 2) < (p.z - zmin) / dz ∧
    (p.z - zmin) / dz ≤ (Nz : K) - 1 / 2

theorem zIndex_range {rad : Radial K} {zmin dz : K} {Nz : ℕ} {p : Ptcl K}
    (h : Fine rad zmin dz Nz p) : 0 ≤ zIndex zmin dz p ∧ zIndex zmin dz p < Nz := by
  unfold zIndex
  constructor
  · have : (-1 : ℤ) < ⌈(p.z - zmin) / dz - 1 / 2⌉ := by
      rw [Int.lt_ceil]; push_cast; have := h.2.1; linarith
    omega
  · have : ⌈(p.z - zmin) / dz - 1 / 2⌉ ≤ (Nz : ℤ) - 1 := by
      rw [Int.ceil_le]; push_cast; have := h.2.2; linarith
    omega

theorem cellOf_eq {rad : Radial K} {g : InterpGrid K} {p : Ptcl K} (hr : 0 < rad.invdr)
    (h : Fine rad g.zmin g.dz g.Nz p) :
    ∃ k : ℤ, 0 ≤ k ∧ k ≤ rad.Nr ∧ cellOf rad g p = k + zIndex g.zmin g.dz p * ((rad.Nr : ℤ) + 1) := by
  have hz := zIndex_range h
  refine ⟨if ⌈rad.invdr * (rad.radius p.x p.y - rad.rmin) - 1 / 2⌉ > rad.Nr then (rad.Nr : ℤ)
    else ⌈rad.invdr * (rad.radius p.x p.y - rad.rmin) - 1 / 2⌉, ?_, ?_, ?_⟩
  · have : (-1 : ℤ) < ⌈rad.invdr * (rad.radius p.x p.y - rad.rmin) - 1 / 2⌉ := by
      rw [Int.lt_ceil]; push_cast
      have := mul_nonneg hr.le (sub_nonneg.2 h.1)
      linarith
    split_ifs <;> omega
  · split_ifs <;> omega
  · unfold cellOf Sorting.cellIdx
    simp only []
    have e : (1 / g.dz * (p.z - g.zmin)) = (p.z - g.zmin) / g.dz := by rw [one_div, inv_mul_eq_div]
    rw [e]
    have e2 : (if ⌈(p.z - g.zmin) / g.dz - 1 / 2⌉ < 0 then ⌈(p.z - g.zmin) / g.dz - 1 / 2⌉ + (g.Nz : ℤ)
        else if ⌈(p.z - g.zmin) / g.dz - 1 / 2⌉ > (g.Nz : ℤ) - 1
        then ⌈(p.z - g.zmin) / g.dz - 1 / 2⌉ - (g.Nz : ℤ) else ⌈(p.z - g.zmin) / g.dz - 1 / 2⌉)
        = zIndex g.zmin g.dz p := by
      unfold zIndex at *
      rw [if_neg (by omega), if_neg (by omega)]
    rw [e2]

/-- Index along z of a position. -/
def zIdx (zmin dz z : K) : ℤ := ⌈(z - zmin) / dz - 1 / 2⌉

/-- The particles are sorted along z for the grid at `zmin`, and the prefix sum counts them. -/
structure Counted (rad : Radial K) (zmin dz : K) (Nz : ℕ) (zs : List K)
    (st : GpuSpecies K) : Prop where
  val : ∀ m : ℕ, 0 < m → m ≤ Nz → st.prefixSum (m * (rad.Nr + 1) - 1)
    = (zs.filter (fun z => decide (zIdx zmin dz z < m))).length
  sorted : zs.Pairwise fun a b => zIdx zmin dz a ≤ zIdx zmin dz b

section
variable {α : Type}

/-- A list sorted by `key` is cut by the threshold `c` at the number of elements below `c`. -/
theorem cut_of_sorted (key : α → ℤ) (c : ℤ) (l : List α)
    (hs : l.Pairwise fun a b => key a ≤ key b) :
    l.take ((l.filter fun a => decide (key a < c)).length) = l.filter (fun a => decide (key a < c)) ∧
    l.drop ((l.filter fun a => decide (key a < c)).length)
      = l.filter (fun a => decide (c ≤ key a)) := by
  induction l with
  | nil => simp
  | cons a l ih =>
    rw [List.pairwise_cons] at hs
    obtain ⟨i1, i2⟩ := ih hs.2
    by_cases h : key a < c
    · have h' : ¬ c ≤ key a := by omega
      simp only [List.filter_cons, h, h', decide_true, decide_false, if_true, Bool.false_eq_true,
        if_false, List.length_cons, List.take_succ_cons, List.drop_succ_cons, i1, i2, and_self]
    · have h' : c ≤ key a := by omega
      have e1 : l.filter (fun a => decide (key a < c)) = [] := by
        rw [List.filter_eq_nil_iff]
        intro b hb
        have := hs.1 b hb
        simp; omega
      have e2 : l.filter (fun a => decide (c ≤ key a)) = l := by
        rw [List.filter_eq_self]
        intro b hb
        have := hs.1 b hb
        simp; omega
      simp [List.filter_cons, h, h', e1, e2]

end

omit [IsStrictOrderedRing K] in
theorem Counted.facts {rad : Radial K} {zmin dz : K} {Nz : ℕ} {ps : List (Ptcl K)}
    {st : GpuSpecies K} (h : Counted rad zmin dz Nz (ps.map Ptcl.z) st) (m : ℕ) (h0 : 0 < m)
    (hm : m ≤ Nz) :
    ps.take (st.prefixSum (m * (rad.Nr + 1) - 1))
        = ps.filter (fun p => decide (zIndex zmin dz p < m)) ∧
    ps.drop (st.prefixSum (m * (rad.Nr + 1) - 1))
        = ps.filter (fun p => decide ((m : ℤ) ≤ zIndex zmin dz p)) ∧
    st.prefixSum (m * (rad.Nr + 1) - 1)
        = (ps.filter (fun p => decide (zIndex zmin dz p < m))).length := by
  have e : st.prefixSum (m * (rad.Nr + 1) - 1)
      = (ps.filter (fun p => decide (zIndex zmin dz p < m))).length := by
    rw [h.val m h0 hm, List.filter_map, List.length_map]
    rfl
  have hs : ps.Pairwise fun a b => zIndex zmin dz a ≤ zIndex zmin dz b := by
    have := h.sorted
    rw [List.pairwise_map] at this
    exact this
  have := cut_of_sorted (zIndex zmin dz) m ps hs
  rw [e]
  exact ⟨this.1, this.2, rfl⟩

omit [IsStrictOrderedRing K] in
theorem sortParticles_arr (rad : Radial K) (g : InterpGrid K) (d : Device K) (t i : Bool)
    (ps : List (Ptcl K)) (st : GpuSpecies K) (harr : st.arr = Species.ofList t i ps)
    (hd : IsArgSort d.argsort) :
    ∃ ps', ps'.Perm ps ∧
      (sortParticles rad g d.argsort d.threads st).arr = Species.ofList t i ps' := by
  have hn : st.arr.z.length = ps.length := by rw [harr]; simp [Species.ofList]
  set keys : ℕ → ℕ := fun i => ((cellIndices rad g st.arr).getD i 0).toNat
  refine ⟨rearrangeArray (d.argsort ps.length keys) ps,
    (rearrangeArray_eq _ ps (hd ps.length keys).perm).1, ?_⟩
  unfold sortParticles
  simp only []
  rw [hn, harr, rearrangeSpecies_ofList, ← harr]

/-- After a sort the prefix sum counts the particles. -/
theorem sortParticles_counted (rad : Radial K) (g : InterpGrid K) (d : Device K) (t i : Bool)
    (ps : List (Ptcl K)) (st : GpuSpecies K) (harr : st.arr = Species.ofList t i ps)
    (hd : IsArgSort d.argsort) (hth : d.Covers (ps.length + g.Nz * (rad.Nr + 1)))
    (hr : 0 < rad.invdr) (hf : ∀ p ∈ ps, Fine rad g.zmin g.dz g.Nz p) :
    ∃ ps', ps'.Perm ps ∧
      (sortParticles rad g d.argsort d.threads st).arr = Species.ofList t i ps' ∧
      Counted rad g.zmin g.dz g.Nz (ps'.map Ptcl.z) (sortParticles rad g d.argsort d.threads st) := by
  have hn : st.arr.z.length = ps.length := by rw [harr]; simp [Species.ofList]
  have hci : cellIndices rad g st.arr = ps.map (cellOf rad g) := by
    rw [harr, cellIndices_ofList]
  set keys : ℕ → ℕ := fun i => ((cellIndices rad g st.arr).getD i 0).toNat with hkeys
  set idx := d.argsort ps.length keys with hidx
  have hs := hd ps.length keys
  obtain ⟨r1, r2, r3⟩ := rearrangeArray_eq idx ps hs.perm
  set ps' := rearrangeArray idx ps with hps'
  have hkey : ∀ j (hj : j < ps.length), keys j = (cellOf rad g ps[j]).toNat := by
    intro j hj
    simp [hkeys, hci, List.getD, List.getElem?_eq_getElem hj]
  have hidxlt : ∀ j, j < ps.length → idx j < ps.length := by
    intro j hj
    have : idx j ∈ (List.range ps.length).map idx := List.mem_map.2 ⟨j, List.mem_range.2 hj, rfl⟩
    exact List.mem_range.1 (hs.perm.mem_iff.1 this)
  have hkey' : ∀ j (hj : j < ps'.length), keys (idx j) = (cellOf rad g ps'[j]).toNat := by
    intro j hj
    have hj' : j < ps.length := by rw [r2] at hj; exact hj
    have := r3 j hj'
    rw [List.getElem?_eq_getElem hj, List.getElem?_eq_getElem (hidxlt j hj')] at this
    rw [hkey _ (hidxlt j hj'), ← Option.some.inj this]
  have hf' : ∀ p ∈ ps', Fine rad g.zmin g.dz g.Nz p := fun p hp => hf p (r1.mem_iff.1 hp)
  have hcell : ∀ p ∈ ps', ∀ m : ℕ, 0 < m →
      ((cellOf rad g p).toNat ≤ m * (rad.Nr + 1) - 1 ↔ zIndex g.zmin g.dz p < m) := by
    intro p hp m hm
    obtain ⟨k, k1, k2, k3⟩ := cellOf_eq hr (hf' p hp)
    obtain ⟨z1, z2⟩ := zIndex_range (hf' p hp)
    have hb : 0 ≤ cellOf rad g p := by rw [k3]; positivity
    have hm' : 1 ≤ m * (rad.Nr + 1) := Nat.mul_pos hm (by omega)
    have e : ((cellOf rad g p).toNat ≤ m * (rad.Nr + 1) - 1 ↔
        cellOf rad g p < (m : ℤ) * ((rad.Nr : ℤ) + 1)) := by
      have : ((m * (rad.Nr + 1) : ℕ) : ℤ) = (m : ℤ) * ((rad.Nr : ℤ) + 1) := by push_cast; ring
      rw [← this]
      omega
    rw [e, k3]
    constructor
    · intro h
      by_contra hc
      have : (m : ℤ) * ((rad.Nr : ℤ) + 1) ≤ zIndex g.zmin g.dz p * ((rad.Nr : ℤ) + 1) :=
        mul_le_mul_of_nonneg_right (by omega) (by positivity)
      omega
    · intro h
      have : (zIndex g.zmin g.dz p + 1) * ((rad.Nr : ℤ) + 1) ≤ (m : ℤ) * ((rad.Nr : ℤ) + 1) :=
        mul_le_mul_of_nonneg_right (by omega) (by positivity)
      rw [add_mul] at this
      omega
  have hklt : ∀ j, j < ps.length → keys (idx j) < g.Nz * (rad.Nr + 1) := by
    intro j hj
    have hj' : j < ps'.length := by rw [r2]; exact hj
    have hp : ps'[j] ∈ ps' := List.getElem_mem hj'
    have hz := zIndex_range (hf' _ hp)
    have hN : 0 < g.Nz := by omega
    have := (hcell _ hp g.Nz hN).2 hz.2
    rw [hkey' j hj']
    have : 1 ≤ g.Nz * (rad.Nr + 1) := Nat.mul_pos hN (by omega)
    omega
  have hpre := (C20_prefix (fun j => keys (idx j)) ps.length (g.Nz * (rad.Nr + 1)) hs.sorted hklt
    d.threads d.threads (fun j hj => hth j (by omega)) (fun j hj => hth j (by omega))
    st.prefixSum).1
  have hps : (sortParticles rad g d.argsort d.threads st).prefixSum = Sorting.prefixSum
      (fun j => keys (idx j)) ps.length (g.Nz * (rad.Nr + 1)) d.threads d.threads st.prefixSum := by
    unfold sortParticles
    simp only [hn]
    rfl
  have hval : ∀ m : ℕ, 0 < m → m ≤ g.Nz →
      (sortParticles rad g d.argsort d.threads st).prefixSum (m * (rad.Nr + 1) - 1)
        = (ps'.filter fun p => decide ((cellOf rad g p).toNat ≤ m * (rad.Nr + 1) - 1)).length := by
    intro m hm hmN
    have h1 : 1 ≤ m * (rad.Nr + 1) := Nat.mul_pos hm (by omega)
    have h2 : m * (rad.Nr + 1) ≤ g.Nz * (rad.Nr + 1) := Nat.mul_le_mul_right _ hmN
    rw [hps, hpre _ (by omega), ← r2]
    exact countLe_eq_length (fun p => (cellOf rad g p).toNat) _ ps' _ hkey'
  have hsorted : ps'.Pairwise fun a b => (cellOf rad g a).toNat ≤ (cellOf rad g b).toNat := by
    rw [List.pairwise_iff_getElem]
    intro a b ha hb hab
    rw [← hkey' a ha, ← hkey' b hb]
    exact hs.sorted a b hab.le (by rw [r2] at hb; exact hb)
  have hfil : ∀ m : ℕ, 0 < m →
      ps'.filter (fun p => decide ((cellOf rad g p).toNat ≤ m * (rad.Nr + 1) - 1))
        = ps'.filter (fun p => decide (zIndex g.zmin g.dz p < m)) := by
    intro m hm
    apply List.filter_congr
    intro p hp
    exact decide_eq_decide.2 (hcell p hp m hm)
  refine ⟨ps', r1, ?_, ?_, ?_⟩
  · unfold sortParticles
    simp only []
    rw [hn, harr, rearrangeSpecies_ofList, ← harr]
  · intro m hm hmN
    rw [hval m hm hmN, hfil m hm, List.filter_map, List.length_map]
    rfl
  · rw [List.pairwise_map]
    refine hsorted.imp_of_mem ?_
    intro a b ha hb hab
    change zIndex g.zmin g.dz a ≤ zIndex g.zmin g.dz b
    by_contra hc
    have hz := zIndex_range (hf' _ ha)
    have hzb := zIndex_range (hf' _ hb)
    have h1 := (hcell b hb (zIndex g.zmin g.dz a).toNat (by omega)).2 (by omega)
    have h2 := (hcell a ha (zIndex g.zmin g.dz a).toNat (by omega)).1 (by omega)
    omega

/-- What a reachable state contains. -/
theorem Holds.facts {rad : Radial K} {t i : Bool} {g : InterpGrid K} {ps : List (Ptcl K)}
    {st : GpuSpecies K} (h : Holds rad t i g ps st) (hr : 0 < rad.invdr) :
    st.arr = Species.ofList t i ps ∧
    (st.sorted = true → ∃ zmin0, g.zmin = zmin0 + (st.shift : K) * g.dz ∧
      ((∀ p ∈ ps, Fine rad zmin0 g.dz g.Nz p) →
        Counted rad zmin0 g.dz g.Nz (ps.map Ptcl.z) st)) := by
  induction h with
  | unsorted g ps st harr hs => exact ⟨harr, fun h => by rw [hs] at h; cases h⟩
  | sort g ps ps' st d h hd hth harr ih =>
    refine ⟨harr, fun _ => ⟨g.zmin, by simp [sortParticles], fun hf => ?_⟩⟩
    obtain ⟨ih1, -⟩ := ih
    obtain ⟨q, hq, hqa⟩ := sortParticles_arr rad g d t i ps st ih1 hd
    have hxyz : ∀ {α : Type} (f : Ptcl K → α), (∀ a b : List (Ptcl K),
        Species.ofList t i a = Species.ofList t i b → a.map f = b.map f) → ps'.map f = q.map f := by
      intro α f hf
      exact hf _ _ (harr.symm.trans hqa)
    have hx := hxyz Ptcl.x (fun a b hab => congrArg Species.x hab)
    have hy := hxyz Ptcl.y (fun a b hab => congrArg Species.y hab)
    have hz := hxyz Ptcl.z (fun a b hab => congrArg Species.z hab)
    have hlen : ps'.length = q.length := by simpa using congrArg List.length hx
    have hfq : ∀ p ∈ q, Fine rad g.zmin g.dz g.Nz p := by
      intro p hp
      obtain ⟨j, hj, rfl⟩ := List.getElem_of_mem hp
      have hj' : j < ps'.length := by omega
      have := hf ps'[j] (List.getElem_mem hj')
      have ex : ps'[j].x = q[j].x := by
        have := congrArg (fun l => l[j]?) hx
        simpa [List.getElem?_eq_getElem hj', List.getElem?_eq_getElem hj] using this
      have ey : ps'[j].y = q[j].y := by
        have := congrArg (fun l => l[j]?) hy
        simpa [List.getElem?_eq_getElem hj', List.getElem?_eq_getElem hj] using this
      have ez : ps'[j].z = q[j].z := by
        have := congrArg (fun l => l[j]?) hz
        simpa [List.getElem?_eq_getElem hj', List.getElem?_eq_getElem hj] using this
      unfold Fine at this ⊢
      rw [← ex, ← ey, ← ez]
      exact this
    obtain ⟨q', hq', hqa', hc⟩ := sortParticles_counted rad g d t i ps st ih1 hd hth hr
      (fun p hp => hfq p (hq.mem_iff.2 hp))
    have ez : ps'.map Ptcl.z = q'.map Ptcl.z := congrArg Species.z (harr.symm.trans hqa')
    rw [ez]
    exact ⟨hc.val, hc.sorted⟩
  | move g ps st n h ih =>
    obtain ⟨ih1, ih2⟩ := ih
    refine ⟨ih1, fun hs => ?_⟩
    obtain ⟨z0, e, hc⟩ := ih2 hs
    refine ⟨z0, ?_, fun hf => ?_⟩
    · simp only [movedGrid, moveWindow, e]
      push_cast; ring
    · have := hc hf
      exact ⟨this.val, this.sorted⟩

/-- The cut positions computed from the prefix sum. -/
theorem splitIndices_eq {rad : Radial K} {g : InterpGrid K} {ps : List (Ptcl K)}
    {st : GpuSpecies K} {zmin0 : K} (hz0 : g.zmin = zmin0 + (st.shift : K) * g.dz) (hdz : g.dz ≠ 0)
    (hc : Counted rad zmin0 g.dz g.Nz (ps.map Ptcl.z) st)
    (hf : ∀ p ∈ ps, Fine rad zmin0 g.dz g.Nz p) (ng : ℕ) (hN : 2 * ng ≤ g.Nz) (hN0 : 0 < g.Nz)
    (h1 : (ng : ℤ) + st.shift ≤ g.Nz) (h2 : 0 ≤ (g.Nz : ℤ) - ng + st.shift) :
    ∃ iMin iMax, splitIndices g.Nz rad.Nr ng st = .ok (iMin, iMax) ∧ iMin ≤ iMax ∧
      iMax ≤ ps.length ∧
      ps.take iMin = ps.filter (fun p => decide (zIndex g.zmin g.dz p < ng)) ∧
      (ps.drop iMin).take (iMax - iMin) = ps.filter (fun p =>
        decide ((ng : ℤ) ≤ zIndex g.zmin g.dz p ∧ zIndex g.zmin g.dz p ≤ (g.Nz : ℤ) - ng)) ∧
      ps.drop iMax = ps.filter (fun p => decide ((g.Nz : ℤ) - ng < zIndex g.zmin g.dz p)) := by
  have hsh : ∀ p, zIndex zmin0 g.dz p = zIndex g.zmin g.dz p + st.shift := by
    intro p
    unfold zIndex
    have : (p.z - zmin0) / g.dz - 1 / 2 = (p.z - g.zmin) / g.dz - 1 / 2 + (st.shift : K) := by
      rw [hz0]; field_simp; ring
    rw [this, Int.ceil_add_intCast]
  have hNr : (1 : ℤ) ≤ (rad.Nr : ℤ) + 1 := by omega
  -- reading the prefix sum at the end of column m-1
  have hread : ∀ m : ℤ, 0 < m → m ≤ g.Nz →
      readPrefix st.prefixSum (g.Nz * (rad.Nr + 1)) (m * ((rad.Nr : ℤ) + 1) - 1)
        = .ok (st.prefixSum (m.toNat * (rad.Nr + 1) - 1)) := by
    intro m hm hmN
    have a1 : 1 ≤ m * ((rad.Nr : ℤ) + 1) := by nlinarith
    have a2 : m * ((rad.Nr : ℤ) + 1) ≤ (g.Nz : ℤ) * ((rad.Nr : ℤ) + 1) :=
      mul_le_mul_of_nonneg_right hmN (by omega)
    unfold readPrefix
    rw [if_pos ⟨by omega, by push_cast; omega⟩]
    congr 2
    have : ((m.toNat * (rad.Nr + 1) : ℕ) : ℤ) = m * ((rad.Nr : ℤ) + 1) := by
      push_cast; rw [Int.toNat_of_nonneg hm.le]
    omega
  set izMin : ℤ := max ((ng : ℤ) + st.shift) 0 with hmin
  set izMax : ℤ := min ((g.Nz : ℤ) - ng + st.shift + 1) g.Nz with hmax
  have b1 : 0 ≤ izMin := le_max_right _ _
  have b2 : izMin ≤ g.Nz := by omega
  have b3 : 0 < izMax := by omega
  have b4 : izMax ≤ g.Nz := min_le_right _ _
  have b5 : izMin ≤ izMax := by omega
  have hzr : ∀ p ∈ ps, 0 ≤ zIndex g.zmin g.dz p + st.shift ∧
      zIndex g.zmin g.dz p + st.shift < g.Nz := by
    intro p hp
    rw [← hsh]; exact zIndex_range (hf p hp)
  obtain ⟨t2, d2, v2⟩ := hc.facts izMax.toNat (by omega) (by omega)
  have e2 : ps.filter (fun p => decide (zIndex zmin0 g.dz p < izMax.toNat))
      = ps.filter (fun p => decide (zIndex g.zmin g.dz p ≤ (g.Nz : ℤ) - ng)) := by
    apply List.filter_congr
    intro p hp
    apply decide_eq_decide.2
    have := hzr p hp
    rw [hsh]
    omega
  have e2' : ps.filter (fun p => decide ((izMax.toNat : ℤ) ≤ zIndex zmin0 g.dz p))
      = ps.filter (fun p => decide ((g.Nz : ℤ) - ng < zIndex g.zmin g.dz p)) := by
    apply List.filter_congr
    intro p hp
    apply decide_eq_decide.2
    have := hzr p hp
    rw [hsh]
    omega
  rw [e2] at t2 v2
  rw [e2'] at d2
  -- the lower cut
  obtain ⟨iMin, hi, ti, di, vi⟩ : ∃ iMin,
      lowerCut st.prefixSum g.Nz rad.Nr izMin = .ok iMin ∧
      ps.take iMin = ps.filter (fun p => decide (zIndex g.zmin g.dz p < ng)) ∧
      ps.drop iMin = ps.filter (fun p => decide ((ng : ℤ) ≤ zIndex g.zmin g.dz p)) ∧
      iMin = (ps.filter (fun p => decide (zIndex g.zmin g.dz p < ng))).length := by
    by_cases hz : izMin = 0
    · refine ⟨0, ?_, ?_, ?_, ?_⟩
      · rw [lowerCut, if_neg (by rw [hz]; omega)]
      all_goals
        have en : ps.filter (fun p => decide (zIndex g.zmin g.dz p < ng)) = [] := by
          rw [List.filter_eq_nil_iff]
          intro p hp
          have := hzr p hp
          simp; omega
      · rw [en]; rfl
      · rw [List.drop_zero, eq_comm, List.filter_eq_self]
        intro p hp
        have := hzr p hp
        simp; omega
      · rw [en]; rfl
    · obtain ⟨t1, d1, v1⟩ := hc.facts izMin.toNat (by omega) (by omega)
      have e1 : ps.filter (fun p => decide (zIndex zmin0 g.dz p < izMin.toNat))
          = ps.filter (fun p => decide (zIndex g.zmin g.dz p < ng)) := by
        apply List.filter_congr
        intro p hp
        apply decide_eq_decide.2
        have := hzr p hp
        rw [hsh]
        omega
      have e1' : ps.filter (fun p => decide ((izMin.toNat : ℤ) ≤ zIndex zmin0 g.dz p))
          = ps.filter (fun p => decide ((ng : ℤ) ≤ zIndex g.zmin g.dz p)) := by
        apply List.filter_congr
        intro p hp
        apply decide_eq_decide.2
        have := hzr p hp
        rw [hsh]
        omega
      rw [e1] at t1 v1
      rw [e1'] at d1
      refine ⟨_, ?_, t1, d1, v1⟩
      have : 1 ≤ izMin * ((rad.Nr : ℤ) + 1) := by
        have : 1 ≤ izMin := by omega
        nlinarith
      rw [lowerCut, if_pos (by omega)]
      exact hread izMin (by omega) b2
  refine ⟨iMin, st.prefixSum (izMax.toNat * (rad.Nr + 1) - 1), ?_, ?_, ?_, ti, ?_, d2⟩
  · unfold splitIndices
    simp only [bind, Except.bind, ← hmin, ← hmax, hi, hread izMax b3 b4]
  · rw [vi, v2]
    apply List.Sublist.length_le
    apply List.monotone_filter_right
    intro p hp
    simp only [decide_eq_true_eq] at *
    omega
  · rw [v2]; exact List.length_filter_le _ _
  · have hle : iMin ≤ st.prefixSum (izMax.toNat * (rad.Nr + 1) - 1) := by
      rw [vi, v2]
      apply List.Sublist.length_le
      apply List.monotone_filter_right
      intro p hp
      simp only [decide_eq_true_eq] at *
      omega
    have hcomm : (ps.drop iMin).take (st.prefixSum (izMax.toNat * (rad.Nr + 1) - 1) - iMin)
        = (ps.take (st.prefixSum (izMax.toNat * (rad.Nr + 1) - 1))).drop iMin := by
      rw [List.drop_take]
    rw [hcomm, t2]
    -- drop the lower part from the filtered list
    have hsplit : ps.filter (fun p => decide (zIndex g.zmin g.dz p ≤ (g.Nz : ℤ) - ng))
        = ps.filter (fun p => decide (zIndex g.zmin g.dz p < ng)) ++ ps.filter (fun p =>
          decide ((ng : ℤ) ≤ zIndex g.zmin g.dz p ∧ zIndex g.zmin g.dz p ≤ (g.Nz : ℤ) - ng)) := by
      conv_lhs => rw [← List.take_append_drop iMin ps, List.filter_append, ti, di,
        List.filter_filter, List.filter_filter]
      congr 1
      · apply List.filter_congr
        intro p hp
        rw [Bool.eq_iff_iff]
        simp; omega
      · apply List.filter_congr
        intro p hp
        rw [Bool.eq_iff_iff]
        simp; tauto
    rw [hsplit, vi, List.drop_left]

end Fbpic.GpuExchange
