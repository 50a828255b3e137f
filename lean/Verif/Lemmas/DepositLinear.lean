import Verif.Lemmas.Deposit

/-! # Deposition is linear in the deposited quantity; the value of one cell as a pairing -/

namespace Fbpic

theorem modeScal_smul (a s : ℂ) (co si : ℝ) (m : ℕ) : modeScal (a * s) co si m = a * modeScal s co si m := by
  induction m with
  | zero => rfl
  | succ m ih => simp only [modeScal, ih]; ring

theorem ptclAdds_smul (s : Shape) (g : CylGrid) (bn flip : ℝ) (a scal : ℂ) (r z : ℝ) (F : Buf) :
    ((ptclAdds s g bn flip (a * scal) r z).map (addVal g.Nz g.Nr F)).sum =
      a * ((ptclAdds s g bn flip scal r z).map (addVal g.Nz g.Nr F)).sum := by
  rw [← List.sum_map_mul_left]
  simp only [ptclAdds, List.map_flatMap, List.map_map, Function.comp_def, addVal]
  congr 2
  funext i
  congr 1
  funext j
  ring

theorem pair_indicator (Nz Nr : ℕ) (A : Buf) (iz ir : ℕ) (h1 : iz < Nz) (h2 : ir < Nr) :
    pair Nz Nr (fun i j => if i = iz ∧ j = ir then 1 else 0) A = A iz ir := by
  unfold pair
  rw [Finset.sum_eq_single iz, Finset.sum_eq_single ir]
  · simp
  · intro j _ hj; simp [hj]
  · intro h; exact absurd (Finset.mem_range.mpr h2) h
  · intro i _ hi; refine Finset.sum_eq_zero fun j _ => ?_; simp [hi]
  · intro h; exact absurd (Finset.mem_range.mpr h1) h

end Fbpic
