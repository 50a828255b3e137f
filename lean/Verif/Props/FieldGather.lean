import Verif.Props.Deposit

/-!
# C25: gathering of a uniform field and linearity; C26: gathering is adjoint to deposition
-/

namespace Fbpic

/-! ### Characterisation of a successful gathering -/

section Ok

variable (s : Shape) (g : CylGrid) (rmax : ℝ) (x y z : ℝ)

/-- Cylindrical field of one mode on the particle. -/
private noncomputable def cylContrib (m : ℕ) (F : GridVec) (e : ℂ) : ℝ × ℝ × ℝ :=
  let k : ℝ := if m = 0 then 1 else 2
  let cells := s.cells g m (cylR x y) z
  (k * (cellsVal g GCell.perp F.r cells * e).re, k * (cellsVal g GCell.perp F.t cells * e).re,
    k * (cellsVal g GCell.long F.z cells * e).re)

/-- Rotation to Cartesian components. -/
private noncomputable def toCart (v : ℝ × ℝ × ℝ) : ℝ × ℝ × ℝ :=
  (cylCos x y * v.1 - cylSin x y * v.2.1, cylSin x y * v.1 + cylCos x y * v.2.1, v.2.2)

/-- Cartesian field of one mode on the particle. -/
private noncomputable def contrib (Fm : GridVec × ℕ) : ℝ × ℝ × ℝ :=
  if cylR x y < rmax then
    toCart x y (cylContrib s g x y z Fm.2 Fm.1
      (((cylCos x y : ℂ) - Complex.I * cylSin x y) ^ Fm.2))
  else 0

private theorem addGather_ok (m : ℕ) (F : GridVec) (e : ℂ) (acc v : ℝ × ℝ × ℝ) :
    addGather s g m F e (cylR x y) z acc = .ok v ↔
      cellsOk g (s.cells g m (cylR x y) z) ∧ v = acc + cylContrib s g x y z m F e := by
  unfold addGather
  simp only [except_bind_ok, gatherCells_ok, pure, Except.pure, Except.ok.injEq]
  constructor
  · rintro ⟨t, ⟨h1, rfl⟩, h2⟩
    exact ⟨h1, h2.symm⟩
  · rintro ⟨h1, h2⟩
    exact ⟨_, ⟨h1, rfl⟩, h2.symm⟩

private theorem gatherOneMode_ok (E : ℝ × ℝ × ℝ) (Fm : GridVec × ℕ) (E' : ℝ × ℝ × ℝ) :
    gatherOneMode s g rmax Fm.2 Fm.1 x y z E = .ok E' ↔
      (cylR x y < rmax → cellsOk g (s.cells g Fm.2 (cylR x y) z)) ∧
      E' = E + contrib s g rmax x y z Fm := by
  unfold gatherOneMode contrib
  by_cases hr : cylR x y < rmax
  · simp only [hr, if_true, true_imp_iff, except_bind_ok, addGather_ok, pure, Except.pure,
      Except.ok.injEq]
    constructor
    · rintro ⟨t, ⟨h1, rfl⟩, h2⟩
      refine ⟨h1, h2.symm.trans ?_⟩
      simp [toCart, Prod.ext_iff]
    · rintro ⟨h1, h2⟩
      refine ⟨_, ⟨h1, rfl⟩, ?_⟩
      rw [h2]
      simp [toCart, Prod.ext_iff]
  · simp only [hr, if_false, false_imp_iff, true_and, pure, Except.pure, Except.ok.injEq, add_zero]
    exact eq_comm

private theorem gatherFold_ok (Fs : List GridVec) (E : ℝ × ℝ × ℝ) :
    Fs.zipIdx.foldlM (fun (E : ℝ × ℝ × ℝ) (Fm : GridVec × ℕ) =>
      gatherOneMode s g rmax Fm.2 Fm.1 x y z E) (0, 0, 0) = .ok E ↔
      (∀ Fm ∈ Fs.zipIdx, cylR x y < rmax → cellsOk g (s.cells g Fm.2 (cylR x y) z)) ∧
      E = (Fs.zipIdx.map (contrib s g rmax x y z)).sum := by
  rw [foldlM_add _ _ _ (gatherOneMode_ok s g rmax x y z),
    show ((0, 0, 0) : ℝ × ℝ × ℝ) = 0 from rfl, zero_add]

private theorem gatherTwo_ok (F0 F1 : GridVec) (E : ℝ × ℝ × ℝ) :
    gatherTwoModes s g rmax F0 F1 x y z = .ok E ↔
      (∀ Fm ∈ [F0, F1].zipIdx, cylR x y < rmax → cellsOk g (s.cells g Fm.2 (cylR x y) z)) ∧
      E = ([F0, F1].zipIdx.map (contrib s g rmax x y z)).sum := by
  unfold gatherTwoModes contrib
  simp only [List.zipIdx_cons, List.zipIdx_nil, List.forall_mem_cons, List.not_mem_nil,
    false_imp_iff, implies_true, and_true, List.map_cons, List.map_nil, List.sum_cons,
    List.sum_nil, add_zero, zero_add, pow_zero, pow_one]
  by_cases hr : cylR x y < rmax
  · simp only [hr, if_true, true_imp_iff, except_bind_ok, addGather_ok, pure, Except.pure,
      Except.ok.injEq]
    constructor
    · rintro ⟨t0, ⟨h0, rfl⟩, t, ⟨h1, rfl⟩, h2⟩
      refine ⟨⟨h0, h1⟩, h2.symm.trans ?_⟩
      simp only [toCart, Prod.mk_zero_zero, zero_add, Prod.mk_add_mk, Prod.fst_add, Prod.snd_add]
      ext <;> ring
    · rintro ⟨⟨h0, h1⟩, h2⟩
      refine ⟨_, ⟨h0, rfl⟩, _, ⟨h1, rfl⟩, ?_⟩
      rw [h2]
      simp only [toCart, Prod.mk_zero_zero, zero_add, Prod.mk_add_mk, Prod.fst_add, Prod.snd_add]
      ext <;> ring
  · simp only [hr, if_false, false_imp_iff, true_and, pure, Except.pure, except_bind_ok,
      Except.ok.injEq, add_zero, and_self]
    constructor
    · rintro ⟨t, rfl, h⟩
      rw [← h]; simp
    · rintro rfl
      exact ⟨_, rfl, by simp⟩

private theorem gatherField_ok (Fs : List GridVec) (E : ℝ × ℝ × ℝ) :
    gatherField s g rmax Fs x y z = .ok E ↔
      (∀ Fm ∈ Fs.zipIdx, cylR x y < rmax → cellsOk g (s.cells g Fm.2 (cylR x y) z)) ∧
      E = (Fs.zipIdx.map (contrib s g rmax x y z)).sum := by
  match Fs with
  | [F0, F1] => exact gatherTwo_ok s g rmax x y z F0 F1 E
  | [] => exact gatherFold_ok s g rmax x y z [] E
  | [F] => exact gatherFold_ok s g rmax x y z [F] E
  | F0 :: F1 :: F2 :: Fs => exact gatherFold_ok s g rmax x y z (F0 :: F1 :: F2 :: Fs) E

end Ok

/-! ### C25 -/

/-- A particle position inside the box: the conditions of C25 in terms of cell indices. -/
private theorem box_floor (g : CylGrid) (r z : ℝ) (hNz : 2 ≤ g.Nz)
    (hz0 : 0 ≤ g.invdz * (z - g.zmin)) (hz1 : g.invdz * (z - g.zmin) ≤ g.Nz)
    (hr : 0 ≤ g.invdr * (r - g.rmin)) :
    -1 ≤ ⌊g.zCell z⌋ ∧ ⌊g.zCell z⌋ < g.Nz ∧ -1 ≤ ⌊g.rCell r⌋ := by
  refine ⟨?_, ?_, ?_⟩
  · rw [Int.le_floor]; unfold CylGrid.zCell; push_cast; linarith
  · rw [Int.floor_lt]; unfold CylGrid.zCell; push_cast; linarith
  · rw [Int.le_floor]; unfold CylGrid.rCell; push_cast; linarith

/-- The gathering succeeds for a position inside the box. -/
theorem gatherField_total (s : Shape) (g : CylGrid) (rmax : ℝ) (Fs : List GridVec) (x y z : ℝ) (hNz : 2 ≤ g.Nz)
    (hNr : 2 ≤ g.Nr) (hz0 : 0 ≤ g.invdz * (z - g.zmin)) (hz1 : g.invdz * (z - g.zmin) ≤ g.Nz)
    (hr : 0 ≤ g.invdr * (cylR x y - g.rmin)) : ∃ E, gatherField s g rmax Fs x y z = .ok E := by
  obtain ⟨h1, h2, h3⟩ := box_floor g (cylR x y) z hNz hz0 hz1 hr
  refine ⟨_, (gatherField_ok s g rmax x y z Fs _).2 ⟨fun Fm _ _ => ?_, rfl⟩⟩
  cases s
  · exact (linear_cells_val g Fm.2 _ z hNz hNr h1 h2 h3 (fun _ _ => 0)).1
  · exact (cubic_cells_val g Fm.2 _ z hNz hNr h1 h2 h3 (fun _ _ => 0)).1

private theorem zRow_lt (Nz : ℕ) (k : ℤ) (h1 : -2 ≤ k) (h2 : k ≤ Nz + 1) (hN : 2 ≤ Nz) :
    zRow Nz k < Nz := by
  unfold zRow; split_ifs <;> omega

private theorem rCol_lt (Nr : ℕ) (k : ℤ) (h1 : -2 ≤ k) (hN : 2 ≤ Nr) : rCol Nr k < Nr := by
  unfold rCol; split_ifs <;> omega

private theorem gsum_const (s : Shape) (g : CylGrid) (r z : ℝ) (F : Buf) (E0 : ℂ)
    (hNz : 2 ≤ g.Nz) (hNr : 2 ≤ g.Nr)
    (hz0 : -1 ≤ ⌊g.zCell z⌋) (hz1 : ⌊g.zCell z⌋ < g.Nz) (hr0 : -1 ≤ ⌊g.rCell r⌋)
    (hF : ∀ i j, i < g.Nz → j < g.Nr → F i j = E0) (flip : ℝ) (hflip : flip = 1 ∨ E0 = 0) :
    gsum s g flip F r z = E0 := by
  unfold gsum
  have hw := s.width_half
  have hh : 1 ≤ s.half ∧ s.half ≤ 2 := by cases s <;> simp [Shape.half]
  have : ∀ a ∈ Finset.range s.width, ∀ b ∈ Finset.range s.width,
      extend g.Nz g.Nr flip F (⌊g.zCell z⌋ - (s.half - 1) + a) (⌊g.rCell r⌋ - (s.half - 1) + b)
        = E0 := by
    intro a ha b hb
    rw [Finset.mem_range] at ha hb
    unfold extend
    rw [hF _ _ (zRow_lt _ _ (by omega) (by omega) hNz) (rCol_lt _ _ (by omega) hNr)]
    rcases hflip with h | h <;> simp [h]
  have h2 : ∀ a ∈ Finset.range s.width, ∑ b ∈ Finset.range s.width,
      ((s.gw (g.zCell z) a : ℝ) : ℂ) * (((s.gw (g.rCell r) b : ℝ) : ℂ) *
      extend g.Nz g.Nr flip F (⌊g.zCell z⌋ - (s.half - 1) + a) (⌊g.rCell r⌋ - (s.half - 1) + b))
      = ((s.gw (g.zCell z) a : ℝ) : ℂ) * E0 := by
    intro a ha
    rw [Finset.sum_congr rfl (fun b hb => by rw [this a ha b hb]), ← Finset.mul_sum,
      ← Finset.sum_mul, ← Complex.ofReal_sum, s.gw_sum]
    simp
  rw [Finset.sum_congr rfl h2, ← Finset.sum_mul, ← Complex.ofReal_sum, s.gw_sum]
  simp

/-- **C25.** If the longitudinal field of mode 0 has the value `E0` in every cell of the grid and
the longitudinal field of the higher modes is zero, every particle inside the box (also in the
first half cell near the axis and in the half cells at the periodic ends) and inside the gathering
radius receives exactly `E0`, for both shapes, any number of modes and any grid. -/
theorem C25_uniform (s : Shape) (g : CylGrid) (rmax x y z E0 : ℝ) (F0 : GridVec)
    (Fs : List GridVec) (hNz : 2 ≤ g.Nz) (hNr : 2 ≤ g.Nr) (hinv : 0 < g.invdr) (hrmin : g.rmin = 0)
    (hz0 : 0 ≤ g.invdz * (z - g.zmin)) (hz1 : g.invdz * (z - g.zmin) ≤ g.Nz)
    (hrad : cylR x y < rmax)
    (hF0 : ∀ iz ir, iz < g.Nz → ir < g.Nr → F0.z iz ir = E0)
    (hFs : ∀ F ∈ Fs, ∀ iz ir, iz < g.Nz → ir < g.Nr → F.z iz ir = 0) :
    ∃ Ex Ey, gatherField s g rmax (F0 :: Fs) x y z = .ok (Ex, Ey, E0) := by
  have hr : 0 ≤ g.invdr * (cylR x y - g.rmin) := by
    rw [hrmin, sub_zero]; exact mul_nonneg hinv.le (Real.sqrt_nonneg _)
  obtain ⟨b1, b2, b3⟩ := box_floor g (cylR x y) z hNz hz0 hz1 hr
  set E := ((F0 :: Fs).zipIdx.map (contrib s g rmax x y z)).sum with hE
  refine ⟨E.1, E.2.1, (gatherField_ok s g rmax x y z _ _).2 ⟨?_, ?_⟩⟩
  · intro Fm _ _
    exact (cells_val s g Fm.2 _ z hNz hNr b1 b2 b3 Fm.1.z).1
  · rw [← hE]
    have h3 : E.2.2 = E0 := by
      rw [hE, List.zipIdx_cons, List.map_cons, List.sum_cons, Prod.snd_add, Prod.snd_add]
      have h0 : (contrib s g rmax x y z (F0, 0)).2.2 = E0 := by
        simp only [contrib, if_pos hrad, toCart, cylContrib]
        rw [(cells_val s g 0 _ z hNz hNr b1 b2 b3 F0.z).2.2,
          gsum_const s g _ z F0.z E0 hNz hNr b1 b2 b3 hF0 _ (by simp)]
        simp
      have hrest : ∀ (L : List (GridVec × ℕ)), (∀ Fm ∈ L, Fm.1 ∈ Fs) →
          ((L.map (contrib s g rmax x y z)).sum).2.2 = 0 := by
        intro L
        induction L with
        | nil => intro _; rfl
        | cons Fm L ih =>
          intro hL
          rw [List.map_cons, List.sum_cons, Prod.snd_add, Prod.snd_add,
            ih (fun F h => hL F (List.mem_cons_of_mem _ h)), add_zero]
          simp only [contrib, if_pos hrad, toCart, cylContrib]
          rw [(cells_val s g Fm.2 _ z hNz hNr b1 b2 b3 Fm.1.z).2.2,
            gsum_const s g _ z Fm.1.z 0 hNz hNr b1 b2 b3
              (hFs _ (hL Fm List.mem_cons_self)) _ (Or.inr rfl)]
          simp
      rw [h0, hrest, add_zero]
      intro Fm h
      exact List.fst_mem_of_mem_zipIdx h
    rw [← h3]

/-- **C25** (outside the gathering radius nothing is gathered). -/
theorem C25_outside (s : Shape) (g : CylGrid) (rmax x y z : ℝ) (Fs : List GridVec)
    (hrad : rmax ≤ cylR x y) : gatherField s g rmax Fs x y z = .ok (0, 0, 0) := by
  rw [gatherField_ok]
  refine ⟨fun _ _ h => absurd h (not_lt.2 hrad), ?_⟩
  have : ∀ L : List (GridVec × ℕ), (L.map (contrib s g rmax x y z)).sum = 0 := by
    intro L
    apply List.sum_eq_zero
    intro v hv
    obtain ⟨Fm, _, rfl⟩ := List.mem_map.1 hv
    simp [contrib, not_lt.2 hrad]
  rw [this]; rfl

/-- `a F + b G` on the grid. -/
noncomputable def GridVec.comb (a b : ℝ) (F G : GridVec) : GridVec where
  r := fun i j => a * F.r i j + b * G.r i j
  t := fun i j => a * F.t i j + b * G.t i j
  z := fun i j => a * F.z i j + b * G.z i j

private theorem cellsVal_comb (g : CylGrid) (w : GCell → ℝ) (a b : ℝ) (F G : Buf)
    (cells : List GCell) :
    cellsVal g w (fun i j => a * F i j + b * G i j) cells
      = a * cellsVal g w F cells + b * cellsVal g w G cells := by
  unfold cellsVal
  induction cells with
  | nil => simp
  | cons c L ih => simp only [List.map_cons, List.sum_cons, ih]; ring

private theorem contrib_comb (s : Shape) (g : CylGrid) (rmax x y z a b : ℝ) (F G : GridVec)
    (m : ℕ) : contrib s g rmax x y z (GridVec.comb a b F G, m)
      = a • contrib s g rmax x y z (F, m) + b • contrib s g rmax x y z (G, m) := by
  unfold contrib
  by_cases h : cylR x y < rmax
  · simp only [h, if_true]
    have key : ∀ (w : GCell → ℝ) (A B : Buf) (e : ℂ) (cells : List GCell),
        (cellsVal g w (fun i j => a * A i j + b * B i j) cells * e).re
          = a * (cellsVal g w A cells * e).re + b * (cellsVal g w B cells * e).re := by
      intro w A B e cells
      rw [cellsVal_comb, add_mul, Complex.add_re, mul_assoc, mul_assoc, Complex.re_ofReal_mul,
        Complex.re_ofReal_mul]
    simp only [toCart, cylContrib, GridVec.comb, key, Prod.smul_mk, Prod.mk_add_mk, smul_eq_mul]
    ext <;> ring
  · simp [h]

/-- **C25** (linearity): for all real `a`, `b` the field gathered from `a F + b G` is `a` times the
field gathered from `F` plus `b` times the field gathered from `G`, in every component, for every
position at which gathering is defined. -/
theorem C25_linear (s : Shape) (g : CylGrid) (rmax x y z a b : ℝ) (Fs Gs : List GridVec)
    (hlen : Fs.length = Gs.length) (E E' : ℝ × ℝ × ℝ)
    (hF : gatherField s g rmax Fs x y z = .ok E) (hG : gatherField s g rmax Gs x y z = .ok E') :
    gatherField s g rmax (List.zipWith (GridVec.comb a b) Fs Gs) x y z
      = .ok (a * E.1 + b * E'.1, a * E.2.1 + b * E'.2.1, a * E.2.2 + b * E'.2.2) := by
  rw [gatherField_ok] at *
  obtain ⟨h1, rfl⟩ := hF
  obtain ⟨-, rfl⟩ := hG
  have key : ∀ (Fs Gs : List GridVec) (k : ℕ), Fs.length = Gs.length →
      (((List.zipWith (GridVec.comb a b) Fs Gs).zipIdx k).map (contrib s g rmax x y z)).sum
        = a • ((Fs.zipIdx k).map (contrib s g rmax x y z)).sum
          + b • ((Gs.zipIdx k).map (contrib s g rmax x y z)).sum := by
    intro Fs
    induction Fs with
    | nil =>
      intro Gs k h
      obtain rfl : Gs = [] := List.length_eq_zero_iff.1 h.symm
      simp
    | cons F Fs ih =>
      intro Gs k h
      match Gs, h with
      | G :: Gs, h =>
        simp only [List.zipWith_cons_cons, List.zipIdx_cons, List.map_cons, List.sum_cons]
        rw [ih Gs (k + 1) (by simpa using h), contrib_comb, smul_add, smul_add]
        abel
  refine ⟨?_, ?_⟩
  · intro Fm hm hr
    have hi := List.mem_zipIdx hm
    have hlt : Fm.2 < Fs.length := by
      have := hi.2.1
      simp only [List.length_zipWith, Nat.zero_add] at this
      omega
    have := h1 (Fs[Fm.2], Fm.2) (by
      rw [List.mem_zipIdx_iff_getElem?]
      simp [hlt]) hr
    exact this
  · rw [key Fs Gs 0 hlen]
    rfl

/-- **C25** (the two kernels agree): the optimised kernel for two modes gives the same result as
the erase-and-accumulate kernel used for other numbers of modes. -/
theorem C25_kernels_agree (s : Shape) (g : CylGrid) (rmax x y z : ℝ) (F0 F1 : GridVec)
    (E : ℝ × ℝ × ℝ) :
    gatherTwoModes s g rmax F0 F1 x y z = .ok E ↔
      (do let E0 ← gatherOneMode s g rmax 0 F0 x y z (0, 0, 0)
          gatherOneMode s g rmax 1 F1 x y z E0) = .ok E := by
  rw [gatherTwo_ok, ← gatherFold_ok]
  simp [List.zipIdx_cons]

example : ∃ Ex Ey, gatherField .cubic ⟨1, 0, 8, 1, 0, 4⟩ 3
    [⟨fun _ _ => 0, fun _ _ => 0, fun _ _ => 5⟩] 0.1 0 7.9 = .ok (Ex, Ey, 5) := by
  refine C25_uniform .cubic ⟨1, 0, 8, 1, 0, 4⟩ 3 0.1 0 7.9 5 _ [] (by norm_num) (by norm_num)
    (by norm_num) rfl (by norm_num) (by norm_num) ?_ (fun _ _ _ _ => by norm_num) (by simp)
  unfold cylR
  rw [Real.sqrt_lt' (by norm_num)]
  norm_num

/-! ### C26 -/

/-- **C26.** Gathering is the adjoint of deposition. For every particle in the box (radius below
the edge of the grid), both shapes (without Ruyten correction), every mode `m` and every grid
field `F`: the sum over the grid of `F` times the array deposited by the particle equals the
particle's amplitude in mode `m` times the field that the gathering kernel accumulates for that
particle; with the longitudinal component for `rho` and `Jz`, and the transverse components for
`Jr`, `Jt` (including the cells below the axis and the periodic ends). -/
theorem C26_adjoint (f : DepField) (s : Shape) (c q : ℝ) (g : CylGrid)
    (beta : Shape → ℕ → List ℝ) (m n : ℕ) (hn : 0 < n) (p : DepPtcl) (A : Buf) (F : GridVec)
    (hNz : 2 ≤ g.Nz) (hNr : 2 ≤ g.Nr) (hinv : 0 < g.invdr) (hrmin : g.rmin = 0) (hq : q ≠ 0)
    (hbeta : ∀ s k, beta s k = List.replicate (g.Nr + 1) 0)
    (hz0 : 0 ≤ g.invdz * (p.z - g.zmin)) (hz1 : g.invdz * (p.z - g.zmin) ≤ g.Nz)
    (hr : g.invdr * cylR p.x p.y ≤ g.Nr)
    (hdep : depositAll f c g beta m n [⟨q, s, [p]⟩] = .ok A) :
    ∃ Fr Ft Fz, gatherCells g F (s.cells g m (cylR p.x p.y) p.z) = .ok (Fr, Ft, Fz) ∧
      let scal : ℂ := ((cylCos p.x p.y : ℂ) + Complex.I * cylSin p.x p.y) ^ m * f.scal0 c q p
      match f with
      | .rho | .Jz => ∑ iz ∈ Finset.range g.Nz, ∑ ir ∈ Finset.range g.Nr, A iz ir * F.z iz ir
          = scal * Fz
      | .Jr | .Jt =>
        ∑ iz ∈ Finset.range g.Nz, ∑ ir ∈ Finset.range g.Nr, A iz ir * F.r iz ir = scal * Fr ∧
        ∑ iz ∈ Finset.range g.Nz, ∑ ir ∈ Finset.range g.Nr, A iz ir * F.t iz ir = scal * Ft := by
  have hr0 : 0 ≤ g.invdr * (cylR p.x p.y - g.rmin) := by
    rw [hrmin, sub_zero]; exact mul_nonneg hinv.le (Real.sqrt_nonneg _)
  obtain ⟨b1, b2, b3⟩ := box_floor g (cylR p.x p.y) p.z hNz hz0 hz1 hr0
  have hc : ∀ F, _ := cells_val s g m (cylR p.x p.y) p.z hNz hNr b1 b2 b3
  refine ⟨_, _, _, (gatherCells_ok g F _ _).2 ⟨(hc F.z).1, rfl⟩, ?_⟩
  have cz0 : 0 ≤ ⌈g.zCell p.z⌉ := by
    have : -1 < ⌈g.zCell p.z⌉ := by
      rw [Int.lt_ceil]; unfold CylGrid.zCell; push_cast; linarith
    omega
  have cz1 : ⌈g.zCell p.z⌉ ≤ g.Nz := by
    rw [Int.ceil_le]; unfold CylGrid.zCell; push_cast; linarith
  have cr0 : 0 ≤ ⌈g.rCell (cylR p.x p.y)⌉ := by
    have : -1 < ⌈g.rCell (cylR p.x p.y)⌉ := by
      rw [Int.lt_ceil]; unfold CylGrid.rCell; push_cast; linarith
    omega
  have cr1 : ⌈g.rCell (cylR p.x p.y)⌉ ≤ g.Nr := by
    rw [Int.ceil_le]; unfold CylGrid.rCell; rw [hrmin]; push_cast; linarith
  have hscal : scalOf f c q m p
      = ((cylCos p.x p.y : ℂ) + Complex.I * cylSin p.x p.y) ^ m * f.scal0 c q p := by
    unfold scalOf
    induction m with
    | zero => simp [modeScal]
    | succ m ih =>
      have : ∀ m, modeScal (f.scal0 c q p) (cylCos p.x p.y) (cylSin p.x p.y) m
          = ((cylCos p.x p.y : ℂ) + Complex.I * cylSin p.x p.y) ^ m * f.scal0 c q p := by
        intro m
        induction m with
        | zero => simp [modeScal]
        | succ m ih => rw [modeScal, ih, pow_succ]; ring
      exact this _
  have key : ∀ G : Buf, pair g.Nz g.Nr G A
      = scalOf f c q m p * gsum s g (f.flip m) G (cylR p.x p.y) p.z := by
    intro G
    rw [pair_depositAll f c g beta m n hn _ A G hNz hNr hdep]
    have hb : betaOf g (beta s (min m 1)) p = 0 := by
      unfold betaOf
      rw [hbeta, List.getD_eq_getElem?_getD]
      simp only [List.length_replicate, List.getElem?_replicate]
      split_ifs <;> rfl
    simp only [List.map_cons, List.map_nil, List.sum_cons, List.sum_nil, add_zero, hq, if_false,
      addsOf, hb]
    rw [ptclAdds_val s g _ _ _ _ G hNz hNr cz0 cz1 cr0 cr1, dep_eq_gsum]
  cases f
  · exact (key F.z).trans (by rw [hscal, (hc F.z).2.2]; rfl)
  · exact ⟨(key F.r).trans (by rw [hscal, (hc F.r).2.1]; rfl),
      (key F.t).trans (by rw [hscal, (hc F.t).2.1]; rfl)⟩
  · exact ⟨(key F.r).trans (by rw [hscal, (hc F.r).2.1]; rfl),
      (key F.t).trans (by rw [hscal, (hc F.t).2.1]; rfl)⟩
  · exact (key F.z).trans (by rw [hscal, (hc F.z).2.2]; rfl)

/-- **C26** (longitudinal weights in the bulk): at every position the weight that the gathering
kernel gives to a cell equals the weight with which the deposition kernel writes to it; both are
the B-spline of the shape. `depositWeight` and `gatherWeight` list (cell, weight) of the kernels
(deposition: cells `iz_cell - 2 + a`, as the buffers have two guard cells). -/
theorem C26_longitudinal (s : Shape) (zc : ℝ) (k : ℤ) :
    Spec.weightAt ((List.range s.width).map fun (a : ℕ) => (izCell s zc - 2 + a, s.sz zc a)) k
      = Spec.weightAt (match s with
        | .linear => [(⌊zc⌋, ((⌊zc⌋ + 1 : ℤ) : ℝ) - zc), (⌊zc⌋ + 1, zc - ⌊zc⌋)]
        | .cubic => (List.range 4).map fun (a : ℕ) =>
            (⌊zc⌋ - 1 + a, cubicWeight (zc - ((⌊zc⌋ - 1 : ℤ) : ℝ)) a)) k := by
  have hw : ∀ L : List (ℤ × ℝ), ((Spec.weightAt L k : ℝ) : ℂ)
      = (L.map fun a => ((a.2 : ℝ) : ℂ) * (if a.1 = k then 1 else 0)).sum := by
    intro L
    unfold Spec.weightAt
    induction L with
    | nil => simp
    | cons a L ih =>
      simp only [List.filter_cons, List.map_cons, List.sum_cons, ← ih]
      by_cases h : a.1 = k <;> simp [h]
  apply Complex.ofReal_injective
  rw [hw, hw]
  have h := dep_eq_gather s zc (fun j => if j = k then 1 else 0)
  rw [List.map_map, list_map_range_sum]
  have e1 : ∀ a : ℕ, izCell s zc - 2 + (a : ℤ) = ⌈zc⌉ - s.half + a := by
    intro a; rw [izCell_eq]; ring
  simp only [Function.comp, e1]
  rw [h]
  cases s
  · simp [Shape.width, Finset.sum_range_succ, Shape.half, Shape.gw]
  · simp only [Shape.width, Shape.half, Shape.gw]
    rw [List.map_map, list_map_range_sum]
    rfl

example : Spec.weightAt [((3 : ℤ), (1/4 : ℚ)), (4, 3/4)] 4 = 3/4 := by decide +kernel

end Fbpic
