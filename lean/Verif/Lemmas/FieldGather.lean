import Verif.Lemmas.Deposit
import Verif.Model.FieldGather
import Mathlib.Algebra.Order.Archimedean.Real.Basic
import Mathlib.Data.Complex.BigOperators

/-! Lemmas on field gathering and its relation to deposition. -/

namespace Fbpic

section OneD

variable {K : Type} [Field K] [LinearOrder K] [IsStrictOrderedRing K] [FloorRing K]

/-- The weights used by the gathering kernels in one direction (lowest cell
`⌊p⌋ - (width/2 - 1)`). -/
def Shape.gw (s : Shape) (p : K) (a : ℕ) : K :=
  match s with
  | .linear => if a = 0 then ((⌊p⌋ + 1 : ℤ) : K) - p else p - ⌊p⌋
  | .cubic => cubicWeight (p - ((⌊p⌋ - 1 : ℤ) : K)) a

/-- Number of cells on each side. -/
def Shape.half : Shape → ℤ
  | .linear => 1
  | .cubic => 2

theorem ceil_cases (p : K) : (⌈p⌉ = ⌊p⌋ + 1) ∨ (⌈p⌉ = ⌊p⌋ ∧ p = ⌊p⌋) := by
  by_cases h : p = ⌊p⌋
  · right
    refine ⟨?_, h⟩
    conv_lhs => rw [h]
    exact Int.ceil_intCast _
  · left
    apply le_antisymm (Int.ceil_le_floor_add_one p)
    have h1 : (⌊p⌋ : K) < p := lt_of_le_of_ne (Int.floor_le p) (Ne.symm h)
    exact Int.add_one_le_iff.2 (Int.lt_ceil.2 h1)

theorem sum_range_two {M : Type} [AddCommMonoid M] (f : ℕ → M) :
    ∑ i ∈ Finset.range 2, f i = f 0 + f 1 := by
  simp [Finset.sum_range_succ]

theorem sum_range_four {M : Type} [AddCommMonoid M] (f : ℕ → M) :
    ∑ i ∈ Finset.range 4, f i = f 0 + f 1 + f 2 + f 3 := by
  simp [Finset.sum_range_succ]

/-- Deposition weights and gathering weights define the same functional on the grid line. -/
theorem dep_eq_gather (s : Shape) (p : ℝ) (φ : ℤ → ℂ) :
    ∑ a ∈ Finset.range s.width, ((s.sz p a : ℝ) : ℂ) * φ (⌈p⌉ - s.half + a)
      = ∑ a ∈ Finset.range s.width, ((s.gw p a : ℝ) : ℂ) * φ (⌊p⌋ - (s.half - 1) + a) := by
  rcases ceil_cases p with h | ⟨h, hp⟩
  · have hk : ∀ a : ℕ, ⌈p⌉ - s.half + a = ⌊p⌋ - (s.half - 1) + a := by intro a; rw [h]; ring
    simp only [hk]
    apply Finset.sum_congr rfl
    intro a ha
    congr 2
    rw [Finset.mem_range] at ha
    cases s
    · simp only [Shape.width] at ha
      interval_cases a
      · simp [Shape.sz, Shape.gw, szLinear, h]
      · simp [Shape.sz, Shape.gw, szLinear, h, -Int.self_sub_floor]; ring
    · simp only [Shape.width] at ha
      interval_cases a <;> simp [Shape.sz, Shape.gw, szCubic, cubicWeight, h] <;> ring
  · set n := ⌊p⌋ with hn
    cases s
    · simp only [Shape.width, sum_range_two, Shape.sz, Shape.gw, szLinear, h, Shape.half, ← hn]
      rw [hp]
      simp
    · simp only [Shape.width, sum_range_four, Shape.sz, Shape.gw, szCubic, cubicWeight, h,
        Shape.half, ← hn]
      rw [hp]
      have e1 : n - (2 - 1) + ((0 : ℕ) : ℤ) = n - 2 + ((1 : ℕ) : ℤ) := by push_cast; ring
      have e2 : n - (2 - 1) + ((1 : ℕ) : ℤ) = n - 2 + ((2 : ℕ) : ℤ) := by push_cast; ring
      have e3 : n - (2 - 1) + ((2 : ℕ) : ℤ) = n - 2 + ((3 : ℕ) : ℤ) := by push_cast; ring
      rw [e1, e2, e3]
      push_cast
      norm_num

theorem sr_zero_eq_sz (s : Shape) (p : K) (a : ℕ) (ha : a < s.width) (flip : K) :
    s.sr p a flip 0 = (if ⌈p⌉ - s.half + a < 0 then flip else 1) * s.sz p a := by
  cases s
  · simp only [Shape.width] at ha
    simp only [Shape.sr, srLinear, Shape.sz, szLinear, Shape.half]
    have : (a : ℤ) + (⌈p⌉ - 1) = ⌈p⌉ - 1 + a := by ring
    rw [this]
    by_cases hc : ⌈p⌉ - 1 + (a : ℤ) < 0 <;> simp only [hc, if_true, if_false] <;> clear hc this <;>
      interval_cases a <;> simp <;> ring
  · simp only [Shape.width] at ha
    simp only [Shape.sr, srCubic, Shape.sz, szCubic, Shape.half]
    have : (a : ℤ) + (⌈p⌉ - 2) = ⌈p⌉ - 2 + a := by ring
    rw [this]
    by_cases hc : ⌈p⌉ - 2 + (a : ℤ) < 0 <;> simp only [hc, if_true, if_false] <;> clear hc this <;>
      interval_cases a <;> simp <;> ring

theorem Shape.gw_sum (s : Shape) (p : K) :
    ∑ a ∈ Finset.range s.width, s.gw p a = 1 := by
  cases s
  · simp [Shape.width, Finset.sum_range_succ, Shape.gw, -Int.self_sub_floor]
  · simp [Shape.width, Finset.sum_range_succ, Shape.gw, cubicWeight]; ring

theorem Shape.gw_nonneg (s : Shape) (p : K) (a : ℕ) (ha : a < s.width) : 0 ≤ s.gw p a := by
  have h1 := Int.floor_le p
  have h2 := Int.lt_floor_add_one p
  set n : K := (⌊p⌋ : K)
  obtain ⟨u, hu⟩ : ∃ u, p = n + u := ⟨p - n, by ring⟩
  have hu0 : 0 ≤ u := by linarith
  have hu1 : 0 ≤ 1 - u := by linarith
  cases s
  · simp only [Shape.width] at ha
    interval_cases a
    · simp [Shape.gw]; linarith
    · simp [Shape.gw, h1]
  · simp only [Shape.width] at ha
    have e : p - ((⌊p⌋ - 1 : ℤ) : K) = u + 1 := by push_cast; linear_combination hu
    simp only [Shape.gw, e]
    interval_cases a
    · have := pow_nonneg hu1 3
      simp only [cubicWeight, if_true]
      nlinarith
    · have := cube_piece_pos u hu0 (by linarith)
      simp only [cubicWeight, one_ne_zero, if_false, if_true, add_sub_cancel_right]
      linarith
    · have := cube_piece_pos (1 - u) hu1 (by linarith)
      have e2 : (2 : K) - (u + 1) = 1 - u := by ring
      simp only [cubicWeight, e2]
      norm_num
      linarith
    · have := pow_nonneg hu0 3
      simp only [cubicWeight]
      norm_num
      nlinarith

end OneD

/-! ### Cells as lists, values as double sums -/

/-- Grid row of a longitudinal cell index (periodic). -/
def zRow (Nz : ℕ) (k : ℤ) : ℕ := (if k < 0 then k + Nz else if (Nz : ℤ) ≤ k then k - Nz else k).toNat

/-- Grid column of a radial cell index (mirrored at the axis, clamped at the edge). -/
def rCol (Nr : ℕ) (k : ℤ) : ℕ := (if k < 0 then -k - 1 else if (Nr : ℤ) ≤ k then Nr - 1 else k).toNat

/-- Value of a grid function seen from (possibly outside) cell `(kz, kr)`, with the sign for cells
below the axis. -/
noncomputable def extend (Nz Nr : ℕ) (flip : ℝ) (F : Buf) (kz kr : ℤ) : ℂ :=
  ((if kr < 0 then flip else 1 : ℝ) : ℂ) * F (zRow Nz kz) (rCol Nr kr)

theorem foldRow_eq (Nz : ℕ) (k : ℤ) (h1 : -2 ≤ k) (h2 : k ≤ Nz + 1) (hN : 2 ≤ Nz) :
    foldRow Nz (wrapIdx (Nz + 4) (k + 2)) = zRow Nz k := by
  unfold foldRow zRow wrapIdx
  split_ifs <;> omega

theorem foldCol_eq (Nr : ℕ) (k : ℤ) (h1 : -2 ≤ k) (h2 : k ≤ Nr + 1) (hN : 2 ≤ Nr) :
    foldCol Nr (wrapIdx (Nr + 4) (k + 2)) = rCol Nr k := by
  unfold foldCol rCol wrapIdx
  split_ifs <;> omega

theorem izCell_eq (s : Shape) (zc : ℝ) : izCell s zc = ⌈zc⌉ - s.half + 2 := by
  cases s <;> simp [izCell, Shape.half]; ring

theorem irCell_eq (s : Shape) (rc : ℝ) (Nr : ℕ) (h : ⌈rc⌉ ≤ Nr) :
    irCell s rc Nr = ⌈rc⌉ - s.half + 2 := by
  cases s
  · simp only [irCell, Shape.half]; omega
  · simp only [irCell, Shape.half]; omega

theorem Shape.width_half (s : Shape) : (s.width : ℤ) = 2 * s.half := by cases s <;> rfl

theorem list_map_flatMap_sum {M : Type} [AddCommMonoid M] {α : Type} (n k : ℕ)
    (h : ℕ → ℕ → α) (v : α → M) :
    ((((List.range n).flatMap fun a => (List.range k).map (h a)).map v).sum)
      = ∑ a ∈ Finset.range n, ∑ b ∈ Finset.range k, v (h a b) := by
  rw [list_sum_flatMap, list_map_range_sum]
  apply Finset.sum_congr rfl
  intro a _
  rw [List.map_map, list_map_range_sum]
  rfl

/-- The value of a grid function at the destinations of the additions of a particle. -/
theorem ptclAdds_val (s : Shape) (g : CylGrid) (flip : ℝ) (scal : ℂ) (r z : ℝ) (F : Buf)
    (hNz : 2 ≤ g.Nz) (hNr : 2 ≤ g.Nr)
    (hz0 : 0 ≤ ⌈g.zCell z⌉) (hz1 : ⌈g.zCell z⌉ ≤ g.Nz)
    (hr0 : 0 ≤ ⌈g.rCell r⌉) (hr1 : ⌈g.rCell r⌉ ≤ g.Nr) :
    ((ptclAdds s g 0 flip scal r z).map (addVal g.Nz g.Nr F)).sum
      = scal * ∑ a ∈ Finset.range s.width, ∑ b ∈ Finset.range s.width,
        ((s.sz (g.zCell z) a : ℝ) : ℂ) * (((s.sz (g.rCell r) b : ℝ) : ℂ) *
          extend g.Nz g.Nr flip F (⌈g.zCell z⌉ - s.half + a) (⌈g.rCell r⌉ - s.half + b)) := by
  have hw := s.width_half
  have hh : 1 ≤ s.half ∧ s.half ≤ 2 := by cases s <;> simp [Shape.half]
  unfold ptclAdds
  simp only []
  rw [list_map_flatMap_sum, Finset.mul_sum]
  apply Finset.sum_congr rfl
  intro a ha
  rw [Finset.mul_sum]
  apply Finset.sum_congr rfl
  intro b hb
  rw [Finset.mem_range] at ha hb
  simp only [addVal, izCell_eq, irCell_eq s _ _ hr1, extend]
  rw [show ⌈g.zCell z⌉ - s.half + 2 + (a : ℤ) = (⌈g.zCell z⌉ - s.half + a) + 2 by ring,
    show ⌈g.rCell r⌉ - s.half + 2 + (b : ℤ) = (⌈g.rCell r⌉ - s.half + b) + 2 by ring,
    foldRow_eq _ _ (by omega) (by omega) hNz, foldCol_eq _ _ (by omega) (by omega) hNr,
    sr_zero_eq_sz s _ b hb]
  push_cast
  ring

/-! ### Gathering -/

/-- All cells are inside the arrays. -/
def cellsOk (g : CylGrid) (cells : List GCell) : Prop :=
  ∀ cl ∈ cells, idxOk g.Nz cl.iz ∧ idxOk g.Nr cl.ir

/-- Weighted sum over the cells. -/
noncomputable def cellsVal (g : CylGrid) (w : GCell → ℝ) (F : Buf) (cells : List GCell) : ℂ :=
  (cells.map fun cl => ((w cl : ℝ) : ℂ) * F (wrapIdx g.Nz cl.iz) (wrapIdx g.Nr cl.ir)).sum

theorem gatherCells_ok (g : CylGrid) (F : GridVec) (cells : List GCell) (v : ℂ × ℂ × ℂ) :
    gatherCells g F cells = .ok v ↔ cellsOk g cells ∧
      v = (cellsVal g GCell.perp F.r cells, cellsVal g GCell.perp F.t cells,
        cellsVal g GCell.long F.z cells) := by
  unfold gatherCells
  rw [foldlM_add _ (fun cl : GCell => idxOk g.Nz cl.iz ∧ idxOk g.Nr cl.ir)
    (fun cl : GCell =>
      (((cl.perp : ℝ) : ℂ) * F.r (wrapIdx g.Nz cl.iz) (wrapIdx g.Nr cl.ir),
       ((cl.perp : ℝ) : ℂ) * F.t (wrapIdx g.Nz cl.iz) (wrapIdx g.Nr cl.ir),
       ((cl.long : ℝ) : ℂ) * F.z (wrapIdx g.Nz cl.iz) (wrapIdx g.Nr cl.ir)))]
  · apply and_congr_right
    intro _
    rw [show ((0, 0, 0) : ℂ × ℂ × ℂ) = 0 from rfl, zero_add]
    have : ∀ L : List GCell, (L.map fun cl : GCell =>
        (((cl.perp : ℝ) : ℂ) * F.r (wrapIdx g.Nz cl.iz) (wrapIdx g.Nr cl.ir),
         ((cl.perp : ℝ) : ℂ) * F.t (wrapIdx g.Nz cl.iz) (wrapIdx g.Nr cl.ir),
         ((cl.long : ℝ) : ℂ) * F.z (wrapIdx g.Nz cl.iz) (wrapIdx g.Nr cl.ir))).sum
        = (cellsVal g GCell.perp F.r L, cellsVal g GCell.perp F.t L,
          cellsVal g GCell.long F.z L) := by
      intro L
      induction L with
      | nil => rfl
      | cons a L ih => simp only [List.map_cons, List.sum_cons, ih, cellsVal]; rfl
    rw [this]
  · intro acc cl acc'
    simp only [except_bind_ok, bufIndex_ok, pure, Except.pure, Except.ok.injEq]
    constructor
    · rintro ⟨i, ⟨hi, rfl⟩, j, ⟨hj, rfl⟩, h⟩
      exact ⟨⟨hi, hj⟩, h.symm⟩
    · rintro ⟨⟨hi, hj⟩, h⟩
      exact ⟨_, ⟨hi, rfl⟩, _, ⟨hj, rfl⟩, h.symm⟩

theorem cubic_cells_val (g : CylGrid) (m : ℕ) (r z : ℝ) (hNz : 2 ≤ g.Nz) (hNr : 2 ≤ g.Nr)
    (hz0 : -1 ≤ ⌊g.zCell z⌋) (hz1 : ⌊g.zCell z⌋ < g.Nz) (hr0 : -1 ≤ ⌊g.rCell r⌋)
    (F : Buf) :
    cellsOk g (cubicCells g m r z) ∧
    cellsVal g GCell.perp F (cubicCells g m r z)
      = ∑ a ∈ Finset.range 4, ∑ b ∈ Finset.range 4,
        ((Shape.cubic.gw (g.zCell z) a : ℝ) : ℂ) * (((Shape.cubic.gw (g.rCell r) b : ℝ) : ℂ) *
          extend g.Nz g.Nr (-(-1)^m) F (⌊g.zCell z⌋ - 1 + a) (⌊g.rCell r⌋ - 1 + b)) ∧
    cellsVal g GCell.long F (cubicCells g m r z)
      = ∑ a ∈ Finset.range 4, ∑ b ∈ Finset.range 4,
        ((Shape.cubic.gw (g.zCell z) a : ℝ) : ℂ) * (((Shape.cubic.gw (g.rCell r) b : ℝ) : ℂ) *
          extend g.Nz g.Nr ((-1)^m) F (⌊g.zCell z⌋ - 1 + a) (⌊g.rCell r⌋ - 1 + b)) := by
  have hrow : ∀ a : ℕ, a < 4 → idxOk g.Nz (wrapCubic (⌊g.zCell z⌋ - 1 + a) g.Nz) ∧
      wrapIdx g.Nz (wrapCubic (⌊g.zCell z⌋ - 1 + a) g.Nz) = zRow g.Nz (⌊g.zCell z⌋ - 1 + a) := by
    intro a ha
    unfold idxOk wrapIdx wrapCubic zRow
    constructor
    · split_ifs <;> omega
    · split_ifs <;> omega
  have hcol : ∀ b : ℕ, b < 4 → idxOk g.Nr (foldCubic (⌊g.rCell r⌋ - 1 + b) g.Nr) ∧
      wrapIdx g.Nr (foldCubic (⌊g.rCell r⌋ - 1 + b) g.Nr) = rCol g.Nr (⌊g.rCell r⌋ - 1 + b) := by
    intro b hb
    unfold idxOk wrapIdx foldCubic rCol
    by_cases h : ⌊g.rCell r⌋ - 1 + (b : ℤ) < 0
    · simp only [h, if_true, abs_of_neg h]
      constructor
      · omega
      · split_ifs <;> omega
    · simp only [h, if_false]
      constructor
      · split_ifs <;> omega
      · split_ifs <;> omega
  refine ⟨?_, ?_, ?_⟩
  · intro cl hcl
    unfold cubicCells at hcl
    simp only [List.mem_flatMap, List.mem_map, List.mem_range] at hcl
    obtain ⟨b, hb, a, ha, rfl⟩ := hcl
    exact ⟨(hrow a ha).1, (hcol b hb).1⟩
  all_goals
    unfold cellsVal cubicCells
    simp only []
    rw [list_map_flatMap_sum, Finset.sum_comm]
    apply Finset.sum_congr rfl
    intro a ha
    apply Finset.sum_congr rfl
    intro b hb
    rw [Finset.mem_range] at ha hb
    simp only [(hrow a ha).2, (hcol b hb).2, extend, Shape.gw]
    split_ifs <;> push_cast <;> ring

theorem wrapLinear_eq (N : ℕ) (k : ℤ) (h : -1 ≤ k) (h2 : k ≤ N) (hN : 2 ≤ N) :
    idxOk N (wrapLinear k N) ∧ wrapIdx N (wrapLinear k N) = zRow N k := by
  have e : wrapLinear k N = if k < 0 then k + N else if (N : ℤ) ≤ k then k - N else k := by
    unfold wrapLinear
    simp only []
    split_ifs <;> omega
  rw [e]
  unfold idxOk wrapIdx zRow
  constructor
  · split_ifs <;> omega
  · split_ifs <;> omega

theorem linear_cells_val (g : CylGrid) (m : ℕ) (r z : ℝ) (hNz : 2 ≤ g.Nz) (hNr : 2 ≤ g.Nr)
    (hz0 : -1 ≤ ⌊g.zCell z⌋) (hz1 : ⌊g.zCell z⌋ < g.Nz) (hr0 : -1 ≤ ⌊g.rCell r⌋)
    (F : Buf) :
    cellsOk g (linearCells g m r z) ∧
    cellsVal g GCell.perp F (linearCells g m r z)
      = ∑ a ∈ Finset.range 2, ∑ b ∈ Finset.range 2,
        ((Shape.linear.gw (g.zCell z) a : ℝ) : ℂ) * (((Shape.linear.gw (g.rCell r) b : ℝ) : ℂ) *
          extend g.Nz g.Nr (-(-1)^m) F (⌊g.zCell z⌋ + a) (⌊g.rCell r⌋ + b)) ∧
    cellsVal g GCell.long F (linearCells g m r z)
      = ∑ a ∈ Finset.range 2, ∑ b ∈ Finset.range 2,
        ((Shape.linear.gw (g.zCell z) a : ℝ) : ℂ) * (((Shape.linear.gw (g.rCell r) b : ℝ) : ℂ) *
          extend g.Nz g.Nr ((-1)^m) F (⌊g.zCell z⌋ + a) (⌊g.rCell r⌋ + b)) := by
  set kz := ⌊g.zCell z⌋ with hkz
  set kr := ⌊g.rCell r⌋ with hkr
  have hrow : ∀ a : ℕ, a < 2 → idxOk g.Nz (wrapLinear (kz + a) g.Nz) ∧
      wrapIdx g.Nz (wrapLinear (kz + a) g.Nz) = zRow g.Nz (kz + a) := by
    intro a ha
    exact wrapLinear_eq _ _ (by omega) (by omega) hNz
  have hrow0 := hrow 0 (by omega)
  have hrow1 := hrow 1 (by omega)
  simp only [Nat.cast_zero, add_zero, Nat.cast_one] at hrow0 hrow1
  have hi0 : idxOk g.Nr 0 := by unfold idxOk; omega
  have hw0 : wrapIdx g.Nr 0 = 0 := by simp [wrapIdx]
  have hcl : ∀ k : ℤ, 0 ≤ k → idxOk g.Nr (if k > g.Nr - 1 then (g.Nr : ℤ) - 1 else k) ∧
      wrapIdx g.Nr (if k > g.Nr - 1 then (g.Nr : ℤ) - 1 else k) = rCol g.Nr k := by
    intro k hk
    unfold idxOk wrapIdx rCol
    constructor
    · split_ifs <;> omega
    · split_ifs <;> omega
  by_cases hneg : kr < 0
  · have hk : kr = -1 := by omega
    have hg : ¬ ((0 : ℤ) > g.Nr - 1) := by omega
    have hr0 : rCol g.Nr 0 = 0 := by simp [rCol]; omega
    have hr1 : rCol g.Nr (-1) = 0 := by simp [rCol]
    have key : linearCells g m r z =
        [⟨wrapLinear kz g.Nz, 0, ((kz + 1 : ℤ) - g.zCell z) * 0, ((kz + 1 : ℤ) - g.zCell z) * 0⟩,
         ⟨wrapLinear kz g.Nz, 0, ((kz + 1 : ℤ) - g.zCell z) * (g.rCell r - (-1 : ℤ)),
            ((kz + 1 : ℤ) - g.zCell z) * (g.rCell r - (-1 : ℤ))⟩,
         ⟨wrapLinear (kz + 1) g.Nz, 0, (g.zCell z - kz) * 0, (g.zCell z - kz) * 0⟩,
         ⟨wrapLinear (kz + 1) g.Nz, 0, (g.zCell z - kz) * (g.rCell r - (-1 : ℤ)),
            (g.zCell z - kz) * (g.rCell r - (-1 : ℤ))⟩] ++
        [⟨wrapLinear kz g.Nz, 0,
            -(-1)^m * (((kz + 1 : ℤ) - g.zCell z) * (((-1 + 1 : ℤ) : ℝ) - g.rCell r)),
            (-1)^m * (((kz + 1 : ℤ) - g.zCell z) * (((-1 + 1 : ℤ) : ℝ) - g.rCell r))⟩,
         ⟨wrapLinear (kz + 1) g.Nz, 0,
            -(-1)^m * ((g.zCell z - kz) * (((-1 + 1 : ℤ) : ℝ) - g.rCell r)),
            (-1)^m * ((g.zCell z - kz) * (((-1 + 1 : ℤ) : ℝ) - g.rCell r))⟩] := by
      unfold linearCells
      simp only [← hkz, ← hkr, hneg, if_true, hk]
      norm_num
      have : ¬ ((g.Nr : ℤ) < 1) := by omega
      simp [this]
      intro h
      omega
    rw [key]
    have hcol0 : kr + ((0 : ℕ) : ℤ) = -1 := by simp [hk]
    have hcol1 : kr + ((1 : ℕ) : ℤ) = 0 := by simp [hk]
    refine ⟨?_, ?_, ?_⟩
    · intro cl hcl
      simp only [List.cons_append, List.nil_append, List.mem_cons, List.not_mem_nil,
        or_false] at hcl
      rcases hcl with rfl | rfl | rfl | rfl | rfl | rfl <;>
        first | exact ⟨hrow0.1, hi0⟩ | exact ⟨hrow1.1, hi0⟩
    all_goals
      simp only [cellsVal, List.cons_append, List.nil_append, List.map_cons, List.map_nil,
        List.sum_cons, List.sum_nil, sum_range_two, hcol0, hcol1, extend, Shape.gw,
        hrow0.2, hrow1.2, hw0, hr0, hr1, Nat.cast_zero, Nat.cast_one, add_zero, ← hkz, ← hkr]
      simp only [hk]
      push_cast
      norm_num [hr0, hr1]
      ring
  · have hnn : 0 ≤ kr := by omega
    have key : ∃ cells, linearCells g m r z =
        [⟨wrapLinear kz g.Nz, if kr > g.Nr - 1 then (g.Nr : ℤ) - 1 else kr,
            ((kz + 1 : ℤ) - g.zCell z) * ((kr + 1 : ℤ) - g.rCell r),
            ((kz + 1 : ℤ) - g.zCell z) * ((kr + 1 : ℤ) - g.rCell r)⟩,
         ⟨wrapLinear kz g.Nz, if kr + 1 > g.Nr - 1 then (g.Nr : ℤ) - 1 else kr + 1,
            ((kz + 1 : ℤ) - g.zCell z) * (g.rCell r - kr),
            ((kz + 1 : ℤ) - g.zCell z) * (g.rCell r - kr)⟩,
         ⟨wrapLinear (kz + 1) g.Nz, if kr > g.Nr - 1 then (g.Nr : ℤ) - 1 else kr,
            (g.zCell z - kz) * ((kr + 1 : ℤ) - g.rCell r),
            (g.zCell z - kz) * ((kr + 1 : ℤ) - g.rCell r)⟩,
         ⟨wrapLinear (kz + 1) g.Nz, if kr + 1 > g.Nr - 1 then (g.Nr : ℤ) - 1 else kr + 1,
            (g.zCell z - kz) * (g.rCell r - kr), (g.zCell z - kz) * (g.rCell r - kr)⟩] ++ cells ∧
        ∀ cl ∈ cells, (cl.iz = wrapLinear kz g.Nz ∨ cl.iz = wrapLinear (kz + 1) g.Nz) ∧
          cl.ir = 0 ∧ cl.perp = 0 ∧ cl.long = 0 := by
      unfold linearCells
      simp only [← hkz, ← hkr, hneg, if_false]
      refine ⟨_, rfl, ?_⟩
      intro cl hcl
      split_ifs at hcl <;>
        simp only [List.mem_cons, List.not_mem_nil, or_false] at hcl
      all_goals rcases hcl with rfl | rfl <;> simp
    obtain ⟨cells, hk, hz⟩ := key
    rw [hk]
    have hrest : ∀ w : GCell → ℝ, (∀ cl ∈ cells, w cl = 0) → cellsVal g w F cells = 0 := by
      intro w hw
      unfold cellsVal
      apply List.sum_eq_zero
      intro x hx
      obtain ⟨cl, hcl, rfl⟩ := List.mem_map.1 hx
      simp [hw cl hcl]
    refine ⟨?_, ?_, ?_⟩
    · intro cl hcl'
      rcases List.mem_append.1 hcl' with h | h
      · simp only [List.mem_cons, List.not_mem_nil, or_false] at h
        rcases h with rfl | rfl | rfl | rfl
        · exact ⟨hrow0.1, (hcl kr hnn).1⟩
        · exact ⟨hrow0.1, (hcl (kr + 1) (by omega)).1⟩
        · exact ⟨hrow1.1, (hcl kr hnn).1⟩
        · exact ⟨hrow1.1, (hcl (kr + 1) (by omega)).1⟩
      · obtain ⟨h1, h2, -, -⟩ := hz cl h
        rw [h2]
        refine ⟨?_, hi0⟩
        rcases h1 with h1 | h1 <;> rw [h1]
        exacts [hrow0.1, hrow1.1]
    · have := hrest GCell.perp (fun cl h => (hz cl h).2.2.1)
      unfold cellsVal at this ⊢
      rw [List.map_append, List.sum_append, this]
      simp only [List.map_cons, List.map_nil, List.sum_cons, List.sum_nil, sum_range_two,
        extend, Shape.gw, hrow0.2, hrow1.2, (hcl kr hnn).2, (hcl (kr + 1) (by omega)).2,
        Nat.cast_zero, Nat.cast_one, add_zero, ← hkz, ← hkr, hneg, if_false,
        show ¬ (kr + 1 < 0) by omega]
      push_cast
      norm_num
      ring
    · have := hrest GCell.long (fun cl h => (hz cl h).2.2.2)
      unfold cellsVal at this ⊢
      rw [List.map_append, List.sum_append, this]
      simp only [List.map_cons, List.map_nil, List.sum_cons, List.sum_nil, sum_range_two,
        extend, Shape.gw, hrow0.2, hrow1.2, (hcl kr hnn).2, (hcl (kr + 1) (by omega)).2,
        Nat.cast_zero, Nat.cast_one, add_zero, ← hkz, ← hkr, hneg, if_false,
        show ¬ (kr + 1 < 0) by omega]
      push_cast
      norm_num
      ring

/-- Weighted double sum of a grid function around a position. -/
noncomputable def gsum (s : Shape) (g : CylGrid) (flip : ℝ) (F : Buf) (r z : ℝ) : ℂ :=
  ∑ a ∈ Finset.range s.width, ∑ b ∈ Finset.range s.width,
    ((s.gw (g.zCell z) a : ℝ) : ℂ) * (((s.gw (g.rCell r) b : ℝ) : ℂ) *
      extend g.Nz g.Nr flip F (⌊g.zCell z⌋ - (s.half - 1) + a) (⌊g.rCell r⌋ - (s.half - 1) + b))

theorem cells_val (s : Shape) (g : CylGrid) (m : ℕ) (r z : ℝ) (hNz : 2 ≤ g.Nz) (hNr : 2 ≤ g.Nr)
    (hz0 : -1 ≤ ⌊g.zCell z⌋) (hz1 : ⌊g.zCell z⌋ < g.Nz) (hr0 : -1 ≤ ⌊g.rCell r⌋) (F : Buf) :
    cellsOk g (s.cells g m r z) ∧
    cellsVal g GCell.perp F (s.cells g m r z) = gsum s g (-(-1)^m) F r z ∧
    cellsVal g GCell.long F (s.cells g m r z) = gsum s g ((-1)^m) F r z := by
  cases s
  · obtain ⟨h1, h2, h3⟩ := linear_cells_val g m r z hNz hNr hz0 hz1 hr0 F
    refine ⟨h1, h2.trans ?_, h3.trans ?_⟩ <;>
      simp only [gsum, Shape.width, Shape.half, sub_self, sub_zero]
  · obtain ⟨h1, h2, h3⟩ := cubic_cells_val g m r z hNz hNr hz0 hz1 hr0 F
    refine ⟨h1, h2.trans ?_, h3.trans ?_⟩ <;>
      simp only [gsum, Shape.width, Shape.half] <;> rfl

/-- Deposition and gathering weights agree in both directions. -/
theorem dep_eq_gsum (s : Shape) (g : CylGrid) (flip : ℝ) (F : Buf) (r z : ℝ) :
    ∑ a ∈ Finset.range s.width, ∑ b ∈ Finset.range s.width,
        ((s.sz (g.zCell z) a : ℝ) : ℂ) * (((s.sz (g.rCell r) b : ℝ) : ℂ) *
          extend g.Nz g.Nr flip F (⌈g.zCell z⌉ - s.half + a) (⌈g.rCell r⌉ - s.half + b))
      = gsum s g flip F r z := by
  unfold gsum
  simp only [← Finset.mul_sum]
  rw [dep_eq_gather s (g.zCell z) (fun k => ∑ b ∈ Finset.range s.width,
    ((s.sz (g.rCell r) b : ℝ) : ℂ) * extend g.Nz g.Nr flip F k (⌈g.rCell r⌉ - s.half + b))]
  apply Finset.sum_congr rfl
  intro a _
  rw [dep_eq_gather s (g.rCell r)
    (fun k => extend g.Nz g.Nr flip F (⌊g.zCell z⌋ - (s.half - 1) + a) k)]

end Fbpic
