import Verif.Lemmas.PicSym

/-!
# Particles on the axis: mode 0

The contributions of a particle on the axis to `Jr` and `Jt` of mode 0 cancel, and it gathers no transverse
field from mode 0.
-/

namespace Fbpic.Pic

open Transform ExternalField Step
open Spec (Motion)

theorem reduceBuf_cellBuf (Nz Nr i j : ℕ) (v : ℂ) : reduceBuf Nz Nr (cellBuf i j v)
    = if i < Nz + 4 ∧ j < Nr + 4 then cellBuf (foldRow Nz i) (foldCol Nr j) v else 0 := by
  unfold reduceBuf
  by_cases hi : i < Nz + 4
  · rw [Finset.sum_eq_single_of_mem i (Finset.mem_range.2 hi)]
    · by_cases hj : j < Nr + 4
      · rw [Finset.sum_eq_single_of_mem j (Finset.mem_range.2 hj), if_pos ⟨hi, hj⟩]
        · simp [cellBuf]
        · intro b _ hb
          simp only [cellBuf, hb, and_false, if_false]
          exact cellBuf_zero _ _
      · rw [if_neg (fun h => hj h.2)]
        refine Finset.sum_eq_zero fun b hb => ?_
        have : b ≠ j := by rintro rfl; exact hj (Finset.mem_range.1 hb)
        simp only [cellBuf, this, and_false, if_false]
        exact cellBuf_zero _ _
    · intro b _ hb
      refine Finset.sum_eq_zero fun b' _ => ?_
      simp only [cellBuf, hb, false_and, if_false]
      exact cellBuf_zero _ _
  · rw [if_neg (fun h => hi h.1)]
    refine Finset.sum_eq_zero fun b hb => Finset.sum_eq_zero fun b' _ => ?_
    have : b ≠ i := by rintro rfl; exact hi (Finset.mem_range.1 hb)
    simp only [cellBuf, this, false_and, if_false]
    exact cellBuf_zero _ _

theorem reduceBuf_add (Nz Nr : ℕ) (A B : Buf) : reduceBuf Nz Nr (A + B) = reduceBuf Nz Nr A + reduceBuf Nz Nr B := by
  unfold reduceBuf
  simp only [Pi.add_apply, cellBuf_add, Finset.sum_add_distrib]

theorem reduceBuf_zero (Nz Nr : ℕ) : reduceBuf Nz Nr 0 = 0 := by
  unfold reduceBuf
  refine Finset.sum_eq_zero fun b hb => Finset.sum_eq_zero fun b' _ => ?_
  exact cellBuf_zero _ _

theorem reduceBuf_sum (Nz Nr : ℕ) (L : List Buf) : reduceBuf Nz Nr L.sum = (L.map (reduceBuf Nz Nr)).sum := by
  induction L with
  | nil => exact reduceBuf_zero _ _
  | cons a L ih => rw [List.sum_cons, reduceBuf_add, ih, List.map_cons, List.sum_cons]

/-- The additions with the same row cancel in pairs of columns that are folded together. -/
theorem reduce_pair (Nz Nr i j j' : ℕ) (v v' : ℂ) (hj : j < Nr + 4) (hj' : j' < Nr + 4)
    (hf : foldCol Nr j = foldCol Nr j') (hv : v + v' = 0) :
    reduceBuf Nz Nr (cellBuf i j v) + reduceBuf Nz Nr (cellBuf i j' v') = 0 := by
  rw [reduceBuf_cellBuf, reduceBuf_cellBuf]
  by_cases hi : i < Nz + 4
  · rw [if_pos ⟨hi, hj⟩, if_pos ⟨hi, hj'⟩, hf, ← cellBuf_add, hv, cellBuf_zero]
  · rw [if_neg (fun h => hi h.1), if_neg (fun h => hi h.1), add_zero]

variable (c : Cfg)

theorem ceil_half : ⌈(-1 / 2 : ℝ)⌉ = 0 := by
  rw [Int.ceil_eq_iff]; norm_num

theorem floor_half : ⌊(-1 / 2 : ℝ)⌋ = -1 := by
  rw [Int.floor_eq_iff]; norm_num

theorem rCell_zero (zmin : ℝ) : (c.grid zmin).rCell 0 = -1 / 2 := by
  simp only [CylGrid.rCell, Cfg.grid]; norm_num

theorem axis_reduce (sh : Shape) (zmin bn : ℝ) (scal : ℂ) (z : ℝ) (hNr : 2 ≤ c.Nr) (hb : bn = 0) :
    reduceBuf c.Nz c.Nr (((ptclAdds sh (c.grid zmin) bn (-1) scal 0 z).map
      (addBuf (c.Nz + 4) (c.Nr + 4))).sum) = 0 := by
  subst hb
  have hgNr : (c.grid zmin).Nr = c.Nr := rfl
  unfold ptclAdds
  rw [rCell_zero]
  dsimp only
  generalize (c.grid zmin).zCell z = zc
  generalize izCell sh zc = iz
  rw [hgNr, reduceBuf_sum, List.map_map, List.map_flatMap]
  have key : ∀ a : ℕ, (((List.range sh.width).map fun b : ℕ => ((iz + (a : ℤ), irCell sh (-1 / 2) c.Nr + (b : ℤ),
      ((sh.sz zc a * sh.sr (-1 / 2 : ℝ) b (-1) 0 : ℝ) : ℂ) * scal) : ℤ × ℤ × ℂ)).map
        (reduceBuf c.Nz c.Nr ∘ addBuf (c.Nz + 4) (c.Nr + 4))).sum = 0 := by
    intro a
    cases sh
    · have h1 : irCell .linear (-1 / 2) c.Nr = 1 := by
        simp only [irCell, ceil_half]; omega
      rw [h1]
      simp only [Shape.width, List.range_succ, List.range_zero, List.nil_append, List.cons_append, List.map_cons,
        List.map_nil, List.sum_cons, List.sum_nil, add_zero, Function.comp, addBuf, Nat.cast_zero, Nat.cast_one]
      rw [wrapIdx_of_nonneg (show (0 : ℤ) ≤ 1 by norm_num),
        wrapIdx_of_nonneg (show (0 : ℤ) ≤ 1 + 1 by norm_num)]
      refine reduce_pair _ _ _ _ _ _ _ ?_ ?_ ?_ ?_
      · show 1 < c.Nr + 4; omega
      · show 2 < c.Nr + 4; omega
      · show foldCol c.Nr 1 = foldCol c.Nr 2
        simp [foldCol, show 2 < c.Nr + 2 by omega]
      · rw [← add_mul, ← Complex.ofReal_add, ← mul_add]
        have : (Shape.linear.sr (-1 / 2 : ℝ) 0 (-1) 0 + Shape.linear.sr (-1 / 2 : ℝ) 1 (-1) 0) = 0 := by
          simp only [Shape.sr, srLinear, ceil_half]; norm_num
        rw [this]; simp
    · have h1 : irCell .cubic (-1 / 2) c.Nr = 0 := by
        simp only [irCell, ceil_half]; omega
      rw [h1]
      simp only [Shape.width, List.range_succ, List.range_zero, List.nil_append, List.cons_append, List.map_cons,
        List.map_nil, List.sum_cons, List.sum_nil, add_zero, Function.comp, addBuf]
      rw [wrapIdx_of_nonneg (show (0 : ℤ) ≤ 0 + ((0 : ℕ) : ℤ) by norm_num),
        wrapIdx_of_nonneg (show (0 : ℤ) ≤ 0 + ((1 : ℕ) : ℤ) by norm_num),
        wrapIdx_of_nonneg (show (0 : ℤ) ≤ 0 + ((2 : ℕ) : ℤ) by norm_num),
        wrapIdx_of_nonneg (show (0 : ℤ) ≤ 0 + ((3 : ℕ) : ℤ) by norm_num)]
      have hs : ∀ x y u v : Buf, x + v = 0 → y + u = 0 → x + (y + (u + v)) = 0 := by
        intro x y u v h1 h2
        calc x + (y + (u + v)) = (x + v) + (y + u) := by abel
          _ = 0 := by rw [h1, h2, add_zero]
      apply hs
      · refine reduce_pair _ _ _ _ _ _ _ ?_ ?_ ?_ ?_
        · show 0 < c.Nr + 4; omega
        · show 3 < c.Nr + 4; omega
        · show foldCol c.Nr 0 = foldCol c.Nr 3
          simp [foldCol, show 3 < c.Nr + 2 by omega]
        · rw [← add_mul, ← Complex.ofReal_add, ← mul_add]
          have : (Shape.cubic.sr (-1 / 2 : ℝ) 0 (-1) 0 + Shape.cubic.sr (-1 / 2 : ℝ) 3 (-1) 0) = 0 := by
            simp only [Shape.sr, srCubic, ceil_half]; norm_num
          rw [this]; simp
      · refine reduce_pair _ _ _ _ _ _ _ ?_ ?_ ?_ ?_
        · show 1 < c.Nr + 4; omega
        · show 2 < c.Nr + 4; omega
        · show foldCol c.Nr 1 = foldCol c.Nr 2
          simp [foldCol, show 2 < c.Nr + 2 by omega]
        · rw [← add_mul, ← Complex.ofReal_add, ← mul_add]
          have : (Shape.cubic.sr (-1 / 2 : ℝ) 1 (-1) 0 + Shape.cubic.sr (-1 / 2 : ℝ) 2 (-1) 0) = 0 := by
            simp only [Shape.sr, srCubic, ceil_half]; norm_num
          rw [this]; simp
  have : ∀ L : List ℕ, (L.flatMap fun a : ℕ => ((List.range sh.width).map fun b : ℕ => ((iz + (a : ℤ),
      irCell sh (-1 / 2) c.Nr + (b : ℤ), ((sh.sz zc a * sh.sr (-1 / 2 : ℝ) b (-1) 0 : ℝ) : ℂ) * scal) :
        ℤ × ℤ × ℂ)).map (reduceBuf c.Nz c.Nr ∘ addBuf (c.Nz + 4) (c.Nr + 4))).sum = 0 := by
    intro L
    induction L with
    | nil => rfl
    | cons a L ih => rw [List.flatMap_cons, List.sum_append, key, ih, add_zero]
  exact this _

/-- On the axis, what a particle adds to `Jr` and `Jt` of mode 0 vanishes. -/
theorem axis_ptcl (sh : Shape) (f : DepField) (hf : f = .Jr ∨ f = .Jt) (q zmin : ℝ) (beta : List ℝ)
    (hb : beta.getD 0 0 = 0) (p : DepPtcl) (hp : cylR p.x p.y = 0) (hNr : 2 ≤ c.Nr) :
    reduceBuf c.Nz c.Nr (ptclBuf sh f c.k.c q (c.grid zmin) beta 0 p) = 0 := by
  unfold ptclBuf addsOf
  have hflip : f.flip 0 = -1 := by rcases hf with rfl | rfl <;> simp [DepField.flip]
  have hbeta : betaOf (c.grid zmin) beta p = 0 := by
    unfold betaOf betaIdx
    rw [hp, rCell_zero, ceil_half]
    have : min (0 : ℤ) ((c.grid zmin).Nr : ℤ) = 0 := by
      have : (0 : ℤ) ≤ ((c.grid zmin).Nr : ℤ) := Int.natCast_nonneg _
      omega
    rw [this, wrapIdx_of_nonneg le_rfl]
    exact hb
  rw [hflip, hp]
  exact axis_reduce c sh zmin _ _ _ hNr hbeta

/-! ### Gathering -/

theorem axis_cells (sh : Shape) (zmin z : ℝ) (F : Buf) (hNr : 2 ≤ c.Nr) :
    cellsVal (c.grid zmin) GCell.perp F (sh.cells (c.grid zmin) 0 0 z) = 0 := by
  have hgNr : (c.grid zmin).Nr = c.Nr := rfl
  cases sh
  · simp only [Shape.cells, linearCells, rCell_zero, floor_half, hgNr]
    generalize (c.grid zmin).zCell z = zc
    generalize wrapLinear ⌊zc⌋ _ = a
    generalize wrapLinear (⌊zc⌋ + 1) _ = b
    have h0 : ¬ ((0 : ℤ) > (c.Nr : ℤ) - 1) := by omega
    have h1 : ¬ ((-1 + 1 : ℤ) > (c.Nr : ℤ) - 1) := by omega
    simp only [show ((-1 : ℤ) < 0) from by norm_num, if_true, h0, if_false, h1]
    rw [if_pos (by norm_num)]
    unfold cellsVal
    simp only [List.cons_append, List.nil_append, List.map_cons, List.map_nil, List.sum_cons, List.sum_nil]
    have e0 : wrapIdx (c.grid zmin).Nr (-1 + 1 : ℤ) = 0 := by
      rw [show (-1 + 1 : ℤ) = 0 from rfl, wrapIdx_of_nonneg le_rfl]; rfl
    have e1 : wrapIdx (c.grid zmin).Nr (0 : ℤ) = 0 := by
      rw [wrapIdx_of_nonneg le_rfl]; rfl
    rw [e0, e1]
    push_cast
    ring
  · simp only [Shape.cells, cubicCells, rCell_zero, floor_half, hgNr]
    generalize (c.grid zmin).zCell z = zc
    unfold cellsVal
    have hr4 : List.range 4 = [0, 1, 2, 3] := rfl
    have f0 : foldCubic ((-1 : ℤ) - 1 + ((0 : ℕ) : ℤ)) c.Nr = 1 := by simp [foldCubic]
    have f1 : foldCubic ((-1 : ℤ) - 1 + ((1 : ℕ) : ℤ)) c.Nr = 0 := by simp [foldCubic]
    have f2 : foldCubic ((-1 : ℤ) - 1 + ((2 : ℕ) : ℤ)) c.Nr = 0 := by
      simp [foldCubic]; omega
    have f3 : foldCubic ((-1 : ℤ) - 1 + ((3 : ℕ) : ℤ)) c.Nr = 1 := by
      simp [foldCubic]; omega
    have n0 : ((-1 : ℤ) - 1 + ((0 : ℕ) : ℤ) < 0) := by norm_num
    have n1 : ((-1 : ℤ) - 1 + ((1 : ℕ) : ℤ) < 0) := by norm_num
    have n2 : ¬ ((-1 : ℤ) - 1 + ((2 : ℕ) : ℤ) < 0) := by norm_num
    have n3 : ¬ ((-1 : ℤ) - 1 + ((3 : ℕ) : ℤ) < 0) := by norm_num
    simp only [hr4, List.flatMap_cons, List.flatMap_nil, List.map_cons, List.map_nil, List.append_nil,
      List.cons_append, List.nil_append, List.sum_cons, List.sum_nil, f0, f1, f2, f3, n0, n1, n2, n3, if_true,
      if_false]
    have w0 : cubicWeight ((-1 / 2 : ℝ) - (((-1 : ℤ) - 1 : ℤ) : ℝ)) 0 = 1 / 48 := by
      simp only [cubicWeight, if_true]; norm_num
    have w1 : cubicWeight ((-1 / 2 : ℝ) - (((-1 : ℤ) - 1 : ℤ) : ℝ)) 1 = 23 / 48 := by
      simp only [cubicWeight]; norm_num
    have w2 : cubicWeight ((-1 / 2 : ℝ) - (((-1 : ℤ) - 1 : ℤ) : ℝ)) 2 = 23 / 48 := by
      simp only [cubicWeight]; norm_num
    have w3 : cubicWeight ((-1 / 2 : ℝ) - (((-1 : ℤ) - 1 : ℤ) : ℝ)) 3 = 1 / 48 := by
      simp only [cubicWeight]; norm_num
    rw [w0, w1, w2, w3]
    push_cast
    ring

end Fbpic.Pic
