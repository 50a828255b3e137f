import Verif.Lemmas.FieldGather
import Verif.Lemmas.Push
import Verif.Spec.Shapes
import Mathlib.Data.Rat.Floor

/-!
# C21: thread chunks; C22: shape factors; C23: deposited charge; C24: buffer bounds
-/

namespace Fbpic

/-! ### C21 -/

/-- **C21.** For every particle array and every number of threads `n ≥ 1` (also with fewer
particles than threads) the bounds start at 0, end at the number of particles and never decrease,
and the chunks of the threads `0 … n-1`, one after the other, are exactly the particle array. -/
theorem C21_chunks {α : Type} (ps : List α) (n : ℕ) (hn : 0 < n) :
    (chunkIndices ps.length n).length = n + 1 ∧
    (chunkIndices ps.length n).getD 0 0 = 0 ∧
    (chunkIndices ps.length n).getD n 0 = ps.length ∧
    (∀ i, i < n → (chunkIndices ps.length n).getD i 0 ≤ (chunkIndices ps.length n).getD (i + 1) 0) ∧
    (List.range n).flatMap (chunkOf ps n) = ps := by
  refine ⟨by simp [chunkIndices], ?_, ?_, ?_, chunkOf_flatMap ps n hn⟩
  · rw [chunkIndices_getD _ _ _ (by omega)]; simp; omega
  · rw [chunkIndices_getD _ _ _ le_rfl]; simp
  · intro i hi
    rw [chunkIndices_getD _ _ _ (by omega), chunkIndices_getD _ _ _ (by omega)]
    rw [if_neg (by omega)]
    split_ifs
    · exact le_trans (Nat.mul_le_mul_right _ hi.le) (Nat.mul_div_le _ _)
    · exact Nat.mul_le_mul_right _ (by omega)

example : chunkIndices 10 4 = [0, 2, 4, 6, 10] ∧ chunkIndices 2 4 = [0, 0, 0, 0, 2] ∧
    chunkOf [5, 6, 7, 8, 9] 2 1 = [7, 8, 9] := by decide

/-- **C21** (consequence): the deposited charge or current of every mode, for any set of species,
does not depend on the number of threads. -/
theorem C21_thread_independent (f : DepField) (c : ℝ) (g : CylGrid) (beta : Shape → ℕ → List ℝ)
    (m n₁ n₂ : ℕ) (h₁ : 0 < n₁) (h₂ : 0 < n₂) (sps : List DepSpecies) (A : Buf)
    (h : depositAll f c g beta m n₁ sps = .ok A) :
    depositAll f c g beta m n₂ sps = .ok A := by
  rw [depositAll_ok _ _ _ _ _ _ h₁] at h
  rwa [depositAll_ok _ _ _ _ _ _ h₂]

/-! ### C22 -/

section C22

variable {K : Type} [Field K] [LinearOrder K] [IsStrictOrderedRing K] [FloorRing K]

open Spec

/-- **C22.** At every position the longitudinal weights sum to one, are non-negative, and are the
values of the B-spline of the shape at the distance of the touched cells. -/
theorem C22_longitudinal (s : Shape) (p : K) :
    ∑ a ∈ Finset.range s.width, s.sz p a = 1 ∧
    ∀ a, a < s.width → 0 ≤ s.sz p a ∧
      s.sz p a = spline s (((⌈p⌉ - (s.width / 2 : ℕ) + a : ℤ) : K) - p) := by
  obtain ⟨h1, h2⟩ := ceil_u_bounds p
  push_cast at h1 h2
  obtain ⟨u, hu⟩ : ∃ u, p = ⌈p⌉ - 1 + u := ⟨p - (⌈p⌉ - 1), by ring⟩
  set n : K := (⌈p⌉ : K) with hn
  have hu0 : 0 < u := by linarith
  have hu1 : 0 ≤ 1 - u := by linarith
  have hul : u ≤ 1 := by linarith
  cases s
  · refine ⟨by simp [Shape.width, Finset.sum_range_succ, Shape.sz, szLinear], ?_⟩
    intro a ha
    simp only [Shape.width] at ha
    interval_cases a
    · simp only [Shape.sz, szLinear, spline, hat, Shape.width, ← hn]
      push_cast
      rw [show n - 1 + 0 - p = -u by linear_combination -hu, abs_neg, abs_of_pos hu0, if_pos hul]
      norm_num
      exact ⟨by linarith, by linear_combination -hu⟩
    · simp only [Shape.sz, szLinear, spline, hat, Shape.width, ← hn]
      push_cast
      rw [show n - 1 + 1 - p = 1 - u by linear_combination -hu, abs_of_nonneg hu1,
        if_pos (by linarith)]
      norm_num
      exact ⟨by linarith, by linear_combination hu⟩
  · have e : p - ((⌈p⌉ - 2 : ℤ) : K) - 1 = u := by push_cast; linear_combination hu
    refine ⟨?_, ?_⟩
    · simp [Shape.width, Finset.sum_range_succ, Shape.sz, szCubic]; ring
    intro a ha
    have q1 := cube_piece_pos u hu0.le hul
    have q2 := cube_piece_pos (1 - u) hu1 (by linarith)
    have q3 := pow_nonneg hu1 3
    have q4 := pow_nonneg hu0.le 3
    simp only [Shape.width] at ha
    simp only [Shape.sz, szCubic, e, spline, bspline3, Shape.width]
    interval_cases a
    · push_cast
      rw [← hn, show n - 2 + 0 - p = -(1 + u) by linear_combination -hu, abs_neg,
        abs_of_pos (by linarith), if_neg (by linarith), if_pos (by linarith)]
      norm_num
      exact ⟨q3, by ring⟩
    · push_cast
      rw [← hn, show n - 2 + 1 - p = -u by linear_combination -hu, abs_neg, abs_of_pos hu0,
        if_pos hul]
      norm_num
      exact ⟨by linarith, by ring⟩
    · push_cast
      rw [← hn, show n - 2 + 2 - p = 1 - u by linear_combination -hu, abs_of_nonneg hu1,
        if_pos (by linarith)]
      norm_num
      exact ⟨by linarith, by ring⟩
    · push_cast
      rw [← hn, show n - 2 + 3 - p = 2 - u by linear_combination -hu, abs_of_nonneg (by linarith)]
      norm_num
      refine ⟨q4, ?_⟩
      by_cases hle : 2 ≤ 1 + u
      · have : u = 1 := by linarith
        subst this
        norm_num
      · rw [if_neg hle]
        rw [if_pos hu0.le]
        ring

/-- **C22** (radial): for every radius, every Ruyten coefficient `b` and every sign used below the
axis, the weights sum to one once that sign is undone for the cells below the axis (for the sign
`+1` used by the charge of mode 0: the weights themselves sum to one); without Ruyten correction
they are the B-spline values. -/
theorem C22_radial (s : Shape) (p b : K) :
    ∑ a ∈ Finset.range s.width, s.sr p a 1 b = 1 ∧
    (∀ flip : K, flip * flip = 1 → ∑ a ∈ Finset.range s.width,
      (if ⌈p⌉ - (s.width / 2 : ℕ) + a < 0 then flip else 1) * s.sr p a flip b = 1) ∧
    ∀ a, a < s.width →
      s.sr p a 1 0 = spline s (((⌈p⌉ - (s.width / 2 : ℕ) + a : ℤ) : K) - p) := by
  have h1 : ∑ a ∈ Finset.range s.width, s.sr p a 1 b = 1 := by
    cases s
    · simp [Shape.width, Finset.sum_range_succ, Shape.sr, srLinear]
    · simp [Shape.width, Finset.sum_range_succ, Shape.sr, srCubic]; ring
  refine ⟨h1, ?_, ?_⟩
  · intro flip hf
    refine Eq.trans (Finset.sum_congr rfl ?_) h1
    intro a _
    rw [Shape.sr_flip s p a flip b, show (a : ℤ) + (⌈p⌉ - (s.width / 2 : ℕ))
      = ⌈p⌉ - (s.width / 2 : ℕ) + a by ring]
    split_ifs
    · rw [← mul_assoc, hf, one_mul]
    · ring
  · intro a ha
    rw [sr_zero_eq_sz s p a ha]
    simp only [ite_self, one_mul]
    exact ((C22_longitudinal s p).2 a ha).2

example : Shape.cubic.sz (5/2 : ℚ) 1 = 23/48 ∧ Shape.linear.sz (11/4 : ℚ) 0 = 1/4 ∧
    Shape.cubic.sr (-1/4 : ℚ) 1 (-1) 0 = -121/384 ∧ Shape.linear.sr (-1/4 : ℚ) 1 1 (1/2) = 21/32 := by
  have h1 : ⌈(5/2 : ℚ)⌉ = 3 := by rw [Int.ceil_eq_iff]; norm_num
  have h2 : ⌈(11/4 : ℚ)⌉ = 3 := by rw [Int.ceil_eq_iff]; norm_num
  have h3 : ⌈(-1/4 : ℚ)⌉ = 0 := by rw [Int.ceil_eq_iff]; norm_num
  refine ⟨?_, ?_, ?_, ?_⟩ <;>
    norm_num [Shape.sz, Shape.sr, szCubic, szLinear, srCubic, srLinear, h1, h2, h3]

end C22

/-! ### C23 -/

theorem scal_sum_adds (s : Shape) (g : CylGrid) (bn : ℝ) (scal : ℂ) (r z : ℝ) (Nz Nr : ℕ) :
    ((ptclAdds s g bn 1 scal r z).map (addVal Nz Nr (fun _ _ => 1))).sum = scal := by
  unfold ptclAdds
  simp only []
  rw [list_map_flatMap_sum]
  simp only [addVal, mul_one, Complex.ofReal_mul]
  have h1 := (C22_longitudinal s (g.zCell z)).1
  have h2 := (C22_radial s (g.rCell r) bn).1
  have h1' := congrArg (fun x : ℝ => (x : ℂ)) h1
  have h2' := congrArg (fun x : ℝ => (x : ℂ)) h2
  simp only [Complex.ofReal_sum, Complex.ofReal_one] at h1' h2'
  have : ∀ a b : ℕ, ((s.sz (g.zCell z) a : ℝ) : ℂ) * ((s.sr (g.rCell r) b 1 bn : ℝ) : ℂ) * scal
      = scal * ((s.sz (g.zCell z) a : ℝ) : ℂ) * ((s.sr (g.rCell r) b 1 bn : ℝ) : ℂ) := by
    intro a b; ring
  simp only [this, ← Finset.mul_sum, h2', mul_one, h1']

/-- **C23.** Whenever all accesses are in bounds, the sum over the grid of the deposited mode-0
charge equals the total charge `Σ q w` of all species, for every number of threads, all particles,
both shapes and all Ruyten coefficients. -/
theorem C23_charge (c : ℝ) (g : CylGrid) (beta : Shape → ℕ → List ℝ) (n : ℕ) (hn : 0 < n)
    (sps : List DepSpecies) (A : Buf) (hz : 2 ≤ g.Nz) (hr : 2 ≤ g.Nr)
    (h : depositAll .rho c g beta 0 n sps = .ok A) :
    ∑ iz ∈ Finset.range g.Nz, ∑ ir ∈ Finset.range g.Nr, A iz ir
      = (((sps.map fun sp => (sp.ptcls.map fun p => sp.q * p.w).sum).sum : ℝ) : ℂ) := by
  have key := pair_depositAll .rho c g beta 0 n hn sps A (fun _ _ => 1) hz hr h
  unfold pair at key
  simp only [mul_one] at key
  rw [key]
  have hl : ∀ (L : List ℝ), ((L.sum : ℝ) : ℂ) = (L.map (fun x : ℝ => (x : ℂ))).sum := by
    intro L
    induction L with
    | nil => simp
    | cons a L ih => simp [ih]
  rw [hl, List.map_map]
  congr 1
  apply List.map_congr_left
  intro sp _
  simp only [Function.comp]
  by_cases hq : sp.q = 0
  · simp [hq]
  · simp only [hq, if_false]
    rw [hl, List.map_map]
    congr 1
    apply List.map_congr_left
    intro p _
    unfold addsOf
    rw [show DepField.rho.flip 0 = 1 by simp [DepField.flip], scal_sum_adds]
    simp [scalOf, modeScal, DepField.scal0]

/-- **C23** (longitudinal current): the sum over the grid of the deposited mode-0 `Jz` equals
`Σ q w c u_z / γ`. -/
theorem C23_current (c : ℝ) (g : CylGrid) (beta : Shape → ℕ → List ℝ) (n : ℕ) (hn : 0 < n)
    (sps : List DepSpecies) (A : Buf) (hz : 2 ≤ g.Nz) (hr : 2 ≤ g.Nr)
    (h : depositAll .Jz c g beta 0 n sps = .ok A) :
    ∑ iz ∈ Finset.range g.Nz, ∑ ir ∈ Finset.range g.Nr, A iz ir
      = (((sps.map fun sp => (sp.ptcls.map fun p =>
          sp.q * p.w * c * p.invGamma * p.uz).sum).sum : ℝ) : ℂ) := by
  have key := pair_depositAll .Jz c g beta 0 n hn sps A (fun _ _ => 1) hz hr h
  unfold pair at key
  simp only [mul_one] at key
  rw [key]
  have hl : ∀ (L : List ℝ), ((L.sum : ℝ) : ℂ) = (L.map (fun x : ℝ => (x : ℂ))).sum := by
    intro L
    induction L with
    | nil => simp
    | cons a L ih => simp [ih]
  rw [hl, List.map_map]
  congr 1
  apply List.map_congr_left
  intro sp _
  simp only [Function.comp]
  by_cases hq : sp.q = 0
  · simp [hq]
  · simp only [hq, if_false]
    rw [hl, List.map_map]
    congr 1
    apply List.map_congr_left
    intro p _
    unfold addsOf
    rw [show DepField.Jz.flip 0 = 1 by simp [DepField.flip], scal_sum_adds]
    simp [scalOf, modeScal, DepField.scal0]

theorem cyl_unit (x y : ℝ) : cylCos x y * cylCos x y + cylSin x y * cylSin x y = 1 := by
  unfold cylCos cylSin
  by_cases h : cylR x y = 0
  · simp [h]
  · simp only [ne_eq, h, not_false_eq_true, if_true]
    have h2 : cylR x y * cylR x y = x * x + y * y := by
      unfold cylR
      rw [Real.mul_self_sqrt]
      · ring
      · positivity
    field_simp
    nlinarith [h2]

/-- **C23** (transverse current): the momentum carried across the axis.  The component of the
current along `x` (along `y`) summed over the grid is the real (imaginary) part of the sum of
`Jr + i Jt` in mode 1, since `J_x = J_r cos θ - J_t sin θ` and `J_y = J_r sin θ + J_t cos θ`; it
equals the particles' `Σ q w c u_x / γ` (`Σ q w c u_y / γ`), also for particles exactly on the
axis. -/
theorem C23_transverse (c : ℝ) (g : CylGrid) (beta : Shape → ℕ → List ℝ) (n : ℕ) (hn : 0 < n)
    (sps : List DepSpecies) (A B : Buf) (hz : 2 ≤ g.Nz) (hr : 2 ≤ g.Nr)
    (hA : depositAll .Jr c g beta 1 n sps = .ok A) (hB : depositAll .Jt c g beta 1 n sps = .ok B) :
    (∑ iz ∈ Finset.range g.Nz, ∑ ir ∈ Finset.range g.Nr, (A iz ir + Complex.I * B iz ir)).re
      = (sps.map fun sp => (sp.ptcls.map fun p =>
          sp.q * p.w * c * p.invGamma * p.ux).sum).sum ∧
    (∑ iz ∈ Finset.range g.Nz, ∑ ir ∈ Finset.range g.Nr, (A iz ir + Complex.I * B iz ir)).im
      = (sps.map fun sp => (sp.ptcls.map fun p =>
          sp.q * p.w * c * p.invGamma * p.uy).sum).sum := by
  have kA := pair_depositAll .Jr c g beta 1 n hn sps A (fun _ _ => 1) hz hr hA
  have kB := pair_depositAll .Jt c g beta 1 n hn sps B (fun _ _ => 1) hz hr hB
  unfold pair at kA kB
  simp only [mul_one] at kA kB
  have hs : ∑ iz ∈ Finset.range g.Nz, ∑ ir ∈ Finset.range g.Nr, (A iz ir + Complex.I * B iz ir)
      = (∑ iz ∈ Finset.range g.Nz, ∑ ir ∈ Finset.range g.Nr, A iz ir)
        + Complex.I * ∑ iz ∈ Finset.range g.Nz, ∑ ir ∈ Finset.range g.Nr, B iz ir := by
    simp only [Finset.sum_add_distrib, Finset.mul_sum]
  rw [hs, kA, kB]
  have lin : ∀ {α : Type} (L : List α) (f g : α → ℂ) (u v : α → ℝ),
      (∀ a ∈ L, f a + Complex.I * g a = (u a : ℂ) + Complex.I * (v a : ℂ)) →
      (L.map f).sum + Complex.I * (L.map g).sum
        = (((L.map u).sum : ℝ) : ℂ) + Complex.I * (((L.map v).sum : ℝ) : ℂ) := by
    intro α L f g u v h
    induction L with
    | nil => simp
    | cons a L ih =>
      have h1 := h a (by simp)
      have h2 := ih (fun b hb => h b (by simp [hb]))
      simp only [List.map_cons, List.sum_cons, Complex.ofReal_add]
      linear_combination h1 + h2
  rw [lin sps _ _ (fun sp => (sp.ptcls.map fun p => sp.q * p.w * c * p.invGamma * p.ux).sum)
    (fun sp => (sp.ptcls.map fun p => sp.q * p.w * c * p.invGamma * p.uy).sum)]
  · constructor <;> simp
  · intro sp _
    by_cases hq : sp.q = 0
    · simp [hq]
    · simp only [hq, if_false]
      apply lin
      intro p _
      unfold addsOf
      rw [show DepField.Jr.flip 1 = 1 by simp [DepField.flip],
        show DepField.Jt.flip 1 = 1 by simp [DepField.flip], scal_sum_adds, scal_sum_adds]
      have hu := congrArg (fun x : ℝ => (x : ℂ)) (cyl_unit p.x p.y)
      simp only [Complex.ofReal_add, Complex.ofReal_mul, Complex.ofReal_one] at hu
      simp only [scalOf, modeScal, DepField.scal0]
      push_cast
      have hI := Complex.I_mul_I
      linear_combination
        ((sp.q : ℂ) * p.w * c * p.invGamma * (p.ux + Complex.I * p.uy)) * hu
        + ((sp.q : ℂ) * p.w * c * p.invGamma * (cylSin p.x p.y) *
          ((cylCos p.x p.y) * p.uy - (cylSin p.x p.y) * p.ux)) * hI

/-- **C23** (even modes): in the even modes the charge is kept too: the sum over the grid is
`Σ q w e^{i m θ}`, with `e^{i θ} = (x + i y) / r` for particles off the axis. -/
theorem C23_even_modes (c : ℝ) (g : CylGrid) (beta : Shape → ℕ → List ℝ) (k n : ℕ) (hn : 0 < n)
    (sps : List DepSpecies) (A : Buf) (hz : 2 ≤ g.Nz) (hr : 2 ≤ g.Nr)
    (hoff : ∀ sp ∈ sps, ∀ p ∈ sp.ptcls, p.x ≠ 0 ∨ p.y ≠ 0)
    (h : depositAll .rho c g beta (2 * k) n sps = .ok A) :
    ∑ iz ∈ Finset.range g.Nz, ∑ ir ∈ Finset.range g.Nr, A iz ir
      = (sps.map fun sp => (sp.ptcls.map fun p =>
          ((sp.q * p.w : ℝ) : ℂ)
            * (((p.x : ℂ) + Complex.I * p.y) / (Real.sqrt (p.x^2 + p.y^2) : ℝ)) ^ (2 * k)).sum).sum := by
  have key := pair_depositAll .rho c g beta (2 * k) n hn sps A (fun _ _ => 1) hz hr h
  unfold pair at key
  simp only [mul_one] at key
  rw [key]
  congr 1
  apply List.map_congr_left
  intro sp hsp
  by_cases hq : sp.q = 0
  · simp [hq]
  · simp only [hq, if_false]
    congr 1
    apply List.map_congr_left
    intro p hp
    unfold addsOf
    rw [show DepField.rho.flip (2 * k) = 1 by simp [DepField.flip], scal_sum_adds]
    have hm : ∀ (s0 : ℂ) (a b : ℝ) (m : ℕ), modeScal s0 a b m = s0 * ((a : ℂ) + Complex.I * b) ^ m := by
      intro s0 a b m
      induction m with
      | zero => simp [modeScal]
      | succ m ih => rw [modeScal, ih]; ring
    have hr0 : cylR p.x p.y ≠ 0 := by
      unfold cylR
      rw [Real.sqrt_ne_zero']
      rcases hoff sp hsp p hp with h | h
      · have := sq_pos_of_ne_zero h; have := sq_nonneg p.y; linarith
      · have := sq_pos_of_ne_zero h; have := sq_nonneg p.x; linarith
    have hc : (Real.sqrt (p.x^2 + p.y^2)) = cylR p.x p.y := rfl
    simp only [scalOf, hm, DepField.scal0, cylCos, cylSin, ne_eq, hr0, not_false_eq_true, if_true, hc]
    congr 2
    push_cast
    ring

/-! ### C24 -/

/-- How far (in cells) beyond the ends of the grid a particle may be when it deposits. -/
noncomputable def Shape.reach : Shape → ℝ
  | .linear => 3 / 2
  | .cubic => 1 / 2

theorem reach_iff (s : Shape) (g : CylGrid) (z : ℝ) :
    (-s.reach < g.invdz * (z - g.zmin) ∧ g.invdz * (z - g.zmin) ≤ g.Nz + s.reach) ↔
      (0 ≤ izCell s (g.zCell z) ∧ izCell s (g.zCell z) + s.width ≤ g.Nz + 4) := by
  unfold CylGrid.zCell
  set y := g.invdz * (z - g.zmin)
  cases s
  · simp only [izCell, Shape.width, Shape.reach]
    rw [show (0 : ℤ) ≤ ⌈y - 1/2⌉ + 1 ↔ -2 < ⌈y - 1/2⌉ by omega,
      show ⌈y - 1/2⌉ + 1 + ((2 : ℕ) : ℤ) ≤ (g.Nz : ℤ) + 4 ↔ ⌈y - 1/2⌉ ≤ (g.Nz : ℤ) + 1 by
        push_cast; omega, Int.lt_ceil, Int.ceil_le]
    push_cast
    constructor <;> rintro ⟨h1, h2⟩ <;> constructor <;> linarith
  · simp only [izCell, Shape.width, Shape.reach]
    rw [show (0 : ℤ) ≤ ⌈y - 1/2⌉ ↔ -1 < ⌈y - 1/2⌉ by omega,
      show ⌈y - 1/2⌉ + ((4 : ℕ) : ℤ) ≤ (g.Nz : ℤ) + 4 ↔ ⌈y - 1/2⌉ ≤ (g.Nz : ℤ) by
        push_cast; omega, Int.lt_ceil, Int.ceil_le]
    push_cast
    constructor <;> rintro ⟨h1, h2⟩ <;> constructor <;> linarith

theorem ir_bounds (s : Shape) (g : CylGrid) (r : ℝ) (hr : 0 ≤ g.invdr * (r - g.rmin)) :
    0 ≤ irCell s (g.rCell r) g.Nr ∧ irCell s (g.rCell r) g.Nr + s.width ≤ g.Nr + 4 := by
  have h : -1 < ⌈g.rCell r⌉ := by
    rw [Int.lt_ceil]; unfold CylGrid.rCell; push_cast; linarith
  cases s
  · simp only [irCell, Shape.width]; omega
  · simp only [irCell, Shape.width]; omega

/-- **C24** (exact region): the indices written by a particle at radius `r` are all inside the
buffers if and only if its position is at most 1.5 cells (linear shape) or 0.5 cells (cubic shape)
beyond the ends of the local grid. No radius is out of bounds. -/
theorem C24_bounds_iff_partial (s : Shape) (g : CylGrid) (bn flip : ℝ) (scal : ℂ) (r z : ℝ)
    (hr : 0 ≤ g.invdr * (r - g.rmin)) :
    (∀ a ∈ ptclAdds s g bn flip scal r z,
      0 ≤ a.1 ∧ a.1 < g.Nz + 4 ∧ 0 ≤ a.2.1 ∧ a.2.1 < g.Nr + 4) ↔
    (-s.reach < g.invdz * (z - g.zmin) ∧ g.invdz * (z - g.zmin) ≤ g.Nz + s.reach) := by
  obtain ⟨hr1, hr2⟩ := ir_bounds s g r hr
  rw [reach_iff]
  unfold ptclAdds
  simp only [List.mem_flatMap, List.mem_map, List.mem_range]
  have hw : 0 < s.width := by cases s <;> simp [Shape.width]
  constructor
  · intro h
    have h1 := h _ ⟨0, hw, 0, hw, rfl⟩
    have h2 := h _ ⟨s.width - 1, by omega, 0, hw, rfl⟩
    simp only [] at h1 h2
    omega
  · rintro ⟨h1, h2⟩ _ ⟨a, ha, b, hb, rfl⟩
    simp only []
    omega

/-- **C24** (whole deposition): with `Nr+1` Ruyten coefficients per mode (as allocated), if the
particles of all depositing species are in the region of `C24_bounds_iff_partial`, the deposition
of every quantity and every mode succeeds for every number of threads. -/
theorem C24_deposit_partial (f : DepField) (c : ℝ) (g : CylGrid) (beta : Shape → ℕ → List ℝ)
    (m n : ℕ) (hn : 0 < n) (sps : List DepSpecies)
    (hbeta : ∀ s k, (beta s k).length = g.Nr + 1) (hinv : 0 < g.invdr) (hrmin : g.rmin = 0)
    (hreach : ∀ sp ∈ sps, ∀ p ∈ sp.ptcls, -sp.shape.reach < g.invdz * (p.z - g.zmin) ∧
      g.invdz * (p.z - g.zmin) ≤ g.Nz + sp.shape.reach) :
    ∃ A, depositAll f c g beta m n sps = .ok A := by
  refine ⟨_, (depositAll_ok f c g beta m n hn sps _).2 ⟨?_, rfl⟩⟩
  intro sp hsp _ p hp
  have hr : 0 ≤ g.invdr * (cylR p.x p.y - g.rmin) := by
    rw [hrmin, sub_zero]; exact mul_nonneg hinv.le (Real.sqrt_nonneg _)
  constructor
  · have h : -1 < ⌈g.rCell (cylR p.x p.y)⌉ := by
      rw [Int.lt_ceil]; unfold CylGrid.rCell; push_cast; linarith
    unfold betaIdx idxOk
    rw [hbeta]
    push_cast
    omega
  · intro a ha
    have := (C24_bounds_iff_partial sp.shape g _ _ _ _ _ hr).2 (hreach sp hsp p hp) a ha
    unfold addOk idxOk
    push_cast
    omega

/-- **C24** (one step after the wrap): a particle wrapped into the box `[zmin, zmax)` that then
moves by less than `c dt` stays in that region if `c dt` is at most 1.5 cells (linear) or half a
cell (cubic). -/
theorem C24_one_step_partial (s : Shape) (g : CylGrid) (dz : ℝ) (hdz : 0 < dz)
    (hinv : g.invdz = 1 / dz) (c dt z z' : ℝ) (h0 : g.zmin ≤ z) (h1 : z < g.zmin + g.Nz * dz)
    (hmove : |z' - z| < c * dt) (hdt : c * dt ≤ s.reach * dz) :
    -s.reach < g.invdz * (z' - g.zmin) ∧ g.invdz * (z' - g.zmin) ≤ g.Nz + s.reach := by
  obtain ⟨ha, hb⟩ := abs_lt.1 hmove
  rw [hinv, one_div, inv_mul_eq_div]
  constructor
  · rw [lt_div_iff₀ hdz]; linarith
  · rw [div_le_iff₀ hdz]; nlinarith

example : ∃ (g : CylGrid) (c dt z z' : ℝ), g.zmin ≤ z ∧ z < g.zmin + g.Nz * 1 ∧ |z' - z| < c * dt ∧
    c * dt ≤ Shape.linear.reach * 1 ∧ g.zmin + g.Nz * 1 < z' :=
  ⟨⟨1, 0, 8, 1, 0, 4⟩, 1, 1, 7.9, 8.7, by norm_num, by norm_num, by norm_num [abs_lt],
    by norm_num [Shape.reach], by norm_num⟩

/-- **C24 is violated** for the cubic shape in a periodic single-process box (which has no guard
cells and is wrapped at every iteration): a particle inside the box, slower than light, with
`c dt` equal to the cell size, is pushed by the two half steps of the cycle, and the deposition of
the next charge density writes outside its buffer, for every number of threads. -/
theorem C24_violated : ∃ (g : CylGrid) (c dt dz : ℝ) (p : PushPtcl),
    g.invdz = 1 / dz ∧ c * dt = dz ∧ p.mom.ok ∧
    g.zmin ≤ p.z ∧ p.z < g.zmin + g.Nz * dz ∧
    let p' := pushX c (dt / 2) 1 1 1 (pushX c (dt / 2) 1 1 1 p)
    ∀ n, 0 < n → ∀ A, depositAll .rho c g (fun _ _ => List.replicate (g.Nr + 1) 0) 0 n
      [⟨1, .cubic, [⟨p'.x, p'.y, p'.z, 1, 0, 0, 0, 1⟩]⟩] ≠ .ok A := by
  refine ⟨⟨1, 0, 8, 1, 0, 4⟩, 1, 1, 1, ⟨0, 0, 7.9, ⟨0, 0, 4/3, 3/5⟩, 0⟩, by norm_num, by norm_num,
    ?_, by norm_num, by norm_num, ?_⟩
  · unfold ElecMom.ok ElecMom.gamma
    rw [show (1 + (0:ℝ) ^ 2 + 0 ^ 2 + (4 / 3) ^ 2) = (5/3)^2 by norm_num,
      Real.sqrt_sq (by norm_num)]
    norm_num
  · intro p' n hn A hA
    rw [depositAll_ok _ _ _ _ _ _ hn] at hA
    have h := (hA.1 _ (List.mem_singleton.2 rfl) one_ne_zero _ (List.mem_singleton.2 rfl)).2
    have hz : p'.z = 8.7 := by simp only [p', pushX]; norm_num
    have hceil : ⌈(CylGrid.mk 1 0 8 1 0 4).zCell p'.z⌉ = 9 := by
      rw [hz, Int.ceil_eq_iff]; unfold CylGrid.zCell; norm_num
    have := h _ (by
      unfold addsOf ptclAdds
      simp only [List.mem_flatMap, List.mem_map, List.mem_range]
      exact ⟨3, by simp [Shape.width], 0, by simp [Shape.width], rfl⟩)
    unfold addOk idxOk at this
    simp only [izCell, hceil] at this
    norm_num at this

end Fbpic
