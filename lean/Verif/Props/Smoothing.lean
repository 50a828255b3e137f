import Verif.Model.Smoothing
import Verif.Spec.Stencil
import Verif.Props.Continuity
import Mathlib.Algebra.Group.ForwardDiff
import Mathlib.Algebra.Polynomial.Taylor
import Mathlib.Analysis.SpecialFunctions.Trigonometric.Deriv
import Mathlib.Algebra.Order.Ring.Pow

/-!
# C38: binomial smoothing; C39: finite-order stencil
-/

namespace Fbpic

open Complex Spec

/-! ### C38 -/

/-- **C38**: for every number of passes, with or without compensator, and every wavenumber, the
factor is between 0 and 1; it is 1 at zero wavenumber, and 0 at the Nyquist wavenumber as soon as
there is at least one pass. -/
theorem C38_factor (n : ℕ) (comp : Bool) (d : ℝ) :
    (∀ k, 0 ≤ filterFactor n comp k d ∧ filterFactor n comp k d ≤ 1) ∧
    filterFactor n comp 0 d = 1 ∧
    (1 ≤ n → ∀ k, k * d = Real.pi → filterFactor n comp k d = 0) ∧
    (∀ k, filterFactor n comp (-k) d = filterFactor n comp k d) := by
  refine ⟨?_, ?_, ?_, ?_⟩
  · intro k
    unfold filterFactor
    set x := Real.sin (0.5 * k * d) ^ 2 with hx
    have h0 : 0 ≤ x := sq_nonneg _
    have h1 : x ≤ 1 := Real.sin_sq_le_one _
    have hf : 0 ≤ (1 - x) ^ n := pow_nonneg (by linarith) n
    have hf1 : (1 - x) ^ n ≤ 1 := pow_le_one₀ (by linarith) (by linarith)
    cases comp with
    | false => simpa using ⟨hf, hf1⟩
    | true =>
      simp only [if_true]
      have hb : 1 + (n : ℝ) * x ≤ (1 + x) ^ n := one_add_mul_le_pow (by linarith) n
      refine ⟨by positivity, ?_⟩
      calc (1 - x) ^ n * (1 + n * x) ≤ (1 - x) ^ n * (1 + x) ^ n := by gcongr
        _ = (1 - x ^ 2) ^ n := by rw [← mul_pow]; ring
        _ ≤ 1 := pow_le_one₀ (by nlinarith) (by nlinarith)
  · simp [filterFactor]
  · intro hn k hk
    have e : (0.5 : ℝ) * k * d = Real.pi / 2 := by rw [mul_assoc, hk]; ring
    have : (1 : ℝ) - 1 = 0 := by norm_num
    simp [filterFactor, e, zero_pow (show n ≠ 0 by omega)]
  · intro k
    have e : (0.5 : ℝ) * -k * d = -(0.5 * k * d) := by ring
    simp only [filterFactor, e, Real.sin_neg, neg_sq]

/-- All the sources filtered: `rho_prev`, `rho_next`, the two intermediate densities and `J`. -/
noncomputable def SpecGrid.filterSources (g : SpecGrid) (filtZ filtR : ℕ → ℝ) : SpecGrid :=
  ((((g.filter filtZ filtR .rhoPrev).filter filtZ filtR .J).filter filtZ filtR .rhoNext).filter
    filtZ filtR .rhoNextZ).filter filtZ filtR .rhoNextXY

/-- All the sources of a cell multiplied by `f`. -/
noncomputable def SpecCell.scaleSources (f : ℝ) (s : SpecCell) : SpecCell :=
  { s with Jp := f * s.Jp, Jm := f * s.Jm, Jz := f * s.Jz, rhoPrev := f * s.rhoPrev, rhoNext := f * s.rhoNext, rhoNextZ := f * s.rhoNextZ, rhoNextXY := f * s.rhoNextXY }

private theorem filterSources_cell (g : SpecGrid) (filtZ filtR : ℕ → ℝ) {iz ir : ℕ}
    (hz : iz < g.Nz) (hr : ir < g.Nr) :
    (g.filterSources filtZ filtR).cell iz ir
      = (g.cell iz ir).scaleSources (filtZ iz * filtR ir) := by
  simp only [SpecGrid.filterSources, SpecGrid.filter, hz, hr, and_self, if_true, filterCell,
    SpecCell.scaleSources]

/-- **C38** (charge conservation): filtering all sources with the same filter keeps the continuity
equation wherever it holds, in each of the three schemes. -/
theorem C38_continuity (g : SpecGrid) (dt : ℝ) (hdt : dt ≠ 0) (V : Option ℝ) (useGalilean : Bool)
    (filtZ filtR : ℕ → ℝ) (iz ir : ℕ) (hz : iz < g.Nz) (hr : ir < g.Nr)
    (h : (g.cell iz ir).Conserving (g.kz iz) (g.kr ir) dt V useGalilean) :
    ((g.filterSources filtZ filtR).cell iz ir).Conserving (g.kz iz) (g.kr ir) dt V useGalilean := by
  rw [filterSources_cell g filtZ filtR hz hr]
  unfold SpecCell.Conserving at *
  rw [continuity_iff _ _ _ hdt] at *
  simp only [SpecCell.scaleSources, SpecCell.J, div] at *
  linear_combination ((filtZ iz * filtR ir : ℝ) : ℂ) * h

/-- A cell with non-zero sources that satisfies the continuity equation. -/
example : (⟨0, 0, 0, 0, 0, 0, 0, 0, I, 1, 2, 0, 0, 0, 0, 0, 0⟩ : SpecCell).Conserving 1 3 1 none true := by
  unfold SpecCell.Conserving
  rw [continuity_iff _ _ _ one_ne_zero]
  simp only [TebOf, TrhoOf, SpecCell.J, div]
  push_cast
  linear_combination I_sq

/-- **C38** (order of filtering and correction): correcting the filtered sources gives the filtered
corrected current, for both current corrections. -/
theorem C38_correction_commutes (g : SpecGrid) (k : Consts) (corr : CurrentCorrection) (dt : ℝ)
    (V : Option ℝ) (useGalilean : Bool) (filtZ filtR : ℕ → ℝ) (iz ir : ℕ) (hz : iz < g.Nz)
    (hr : ir < g.Nr) :
    (((g.filterSources filtZ filtR).correctCurrents k corr dt V useGalilean).cell iz ir).J =
      (((g.correctCurrents k corr dt V useGalilean).filterSources filtZ filtR).cell iz ir).J := by
  rw [filterSources_cell _ filtZ filtR (by exact hz) (by exact hr)]
  simp only [SpecGrid.correctCurrents]
  rw [mapCells_cell _ _ hz hr, mapCells_cell _ _ (by exact hz) (by exact hr),
    filterSources_cell g filtZ filtR hz hr]
  generalize filtZ iz * filtR ir = f
  generalize hp : psatdCoefs k (g.kz iz) (g.kr ir) dt V useGalilean = ps
  change (correctCurrents corr (g.kz iz) (g.kr ir) (psatdCoefs k (g.kz iz) (g.kr ir) dt V useGalilean)
    _).J = _
  rw [hp]
  rcases hc : ps.comov with _ | a
  · cases corr with
    | curlFree =>
      simp only [correctCurrents, hc, curlFreeStandard, SpecCell.scaleSources, SpecCell.J]
      congr 1 <;> ring
    | crossDeposition =>
      simp only [correctCurrents, hc, crossDepStandard, crossCorrect, SpecCell.scaleSources,
        SpecCell.J]
      congr 1 <;> split_ifs <;> ring
  · cases corr with
    | curlFree =>
      simp only [correctCurrents, hc, curlFreeComoving, SpecCell.scaleSources, SpecCell.J]
      congr 1 <;> ring
    | crossDeposition =>
      simp only [correctCurrents, hc, crossDepComoving, crossCorrect, SpecCell.scaleSources,
        SpecCell.J]
      congr 1 <;> split_ifs <;> ring

/-- **C38** (refused arguments): an argument that is neither a number nor a dictionary (a boolean
nor a dictionary) raises an error; the filter arrays exist exactly if both axes are given. -/
theorem C38_refused (n : PerAxisArg ℕ) (comp : PerAxisArg Bool) (kz kr : ℕ → ℝ) (dz dr : ℝ) :
    ((∃ e, mkSmoother n comp = .error e) ↔ n = .other ∨ comp = .other) ∧
    (∀ s, mkSmoother n comp = .ok s →
      ((∃ e, s.filterArrays kz kr dz dr = .error e) ↔
        (∃ r, n = .dict none r) ∨ (∃ z, n = .dict z none) ∨ (∃ r, comp = .dict none r) ∨
        (∃ z, comp = .dict z none))) := by
  constructor
  · cases n <;> cases comp <;> simp [mkSmoother, PerAxisArg.register, bind, Except.bind]
  · intro s hs
    rcases n with n | ⟨_ | z, _ | r⟩ | _ <;> rcases comp with c | ⟨_ | z', _ | r'⟩ | _ <;>
      simp only [mkSmoother, PerAxisArg.register, bind, Except.bind, Except.ok.injEq,
        reduceCtorEq] at hs <;> subst hs <;> simp [Smoother.filterArrays]

/-- The filter of the constructed smoother: the factor of each axis with the values given for it. -/
theorem C38_arrays (nz nr : ℕ) (cz cr : Bool) (kz kr : ℕ → ℝ) (dz dr : ℝ) :
    (mkSmoother (.dict (some nz) (some nr)) (.dict (some cz) (some cr)) >>=
        fun s => s.filterArrays kz kr dz dr)
      = .ok (fun i => filterFactor nz cz (kz i) dz, fun i => filterFactor nr cr (kr i) dr) ∧
    (mkSmoother (.single nz) (.single cz) >>= fun s => s.filterArrays kz kr dz dr)
      = .ok (fun i => filterFactor nz cz (kz i) dz, fun i => filterFactor nz cz (kr i) dr) :=
  ⟨rfl, rfl⟩

/-! ### C39 -/

theorem coef_closed (m n : ℕ) (h : n ≤ m) :
    stencilCoef m n * (2 * m).choose m = -2 * (-1) ^ n * (2 * m).choose (m + n) := by
  induction n with
  | zero => simp [stencilCoef]
  | succ n ih =>
    have ih := ih (by omega)
    have hc : ((2 * m).choose (m + n + 1) : ℝ) * (m + n + 1) = (2 * m).choose (m + n) * (m - n) := by
      have := Nat.choose_succ_right_eq (2 * m) (m + n)
      have h2 : 2 * m - (m + n) = m - n := by omega
      rw [h2] at this
      have h3 : ((m - n : ℕ) : ℝ) = m - n := by rw [Nat.cast_sub (by omega)]
      rw [← h3]
      exact_mod_cast this
    have hp : ((m : ℝ) + (n + 1 : ℕ)) ≠ 0 := by positivity
    rw [stencilCoef, pow_succ, show m + (n + 1) = m + n + 1 by ring]
    push_cast at *
    field_simp
    linear_combination (-(m : ℝ) + n) * ih - 2 * (-1) ^ n * hc

/-- A sum over `k = m + j`, `-m ≤ j ≤ m`, folded. -/
theorem sum_fold {m : ℕ} {R : Type} [CommRing R] (F : ℕ → R) (hF : ∀ j, j ≤ m → F (m - j) = F (m + j)) :
    ∑ k ∈ Finset.range (2 * m + 1), F k = F m + 2 * ∑ n ∈ Finset.Icc 1 m, F (m + n) := by
  rw [show 2 * m + 1 = (m + 1) + m by ring, Finset.sum_range_add, Finset.sum_range_succ,
    ← Finset.sum_range_reflect]
  have e : Finset.Icc 1 m = Finset.Ico 1 (m + 1) := by ext; simp
  rw [e, Finset.sum_Ico_eq_sum_range, Nat.add_sub_cancel]
  have e1 : ∑ x ∈ Finset.range m, F (m + 1 + x) = ∑ n ∈ Finset.range m, F (m + (1 + n)) :=
    Finset.sum_congr rfl fun x _ => by rw [add_assoc]
  have e2 : ∑ j ∈ Finset.range m, F (m - 1 - j) = ∑ n ∈ Finset.range m, F (m + (1 + n)) :=
    Finset.sum_congr rfl fun x hx => by
      have := Finset.mem_range.1 hx
      rw [← hF (1 + x) (by omega)]; congr 1; omega
  rw [e1, e2]; ring

private theorem moments (m q : ℕ) (hq : q < m) :
    ∑ n ∈ Finset.Icc 1 m, stencilCoef m n * (n : ℝ) ^ (2 * q) = if q = 0 then 1 else 0 := by
  have hc : ((2 * m).choose m : ℝ) ≠ 0 := by
    exact_mod_cast (Nat.choose_pos (by omega)).ne'
  have h1 := congrFun (fwdDiff_iter_pow_eq_zero_of_lt (R := ℝ) (show 2 * q < 2 * m by omega)) (-m)
  rw [fwdDiff_iter_eq_sum_shift] at h1
  rw [sum_fold] at h1
  · have e : ∀ n ∈ Finset.Icc 1 m, ((-1 : ℤ) ^ (2 * m - (m + n)) * ((2 * m).choose (m + n) : ℤ)) •
        (-(m : ℝ) + (m + n) • (1 : ℝ)) ^ (2 * q)
        = -(-1) ^ m / 2 * (2 * m).choose m * (stencilCoef m n * (n : ℝ) ^ (2 * q)) := by
      intro n hn
      have hn := Finset.mem_Icc.1 hn
      have h2 : ((-1 : ℝ)) ^ (2 * m - (m + n)) = (-1) ^ m * (-1) ^ n := by
        rw [show 2 * m - (m + n) = m - n by omega, ← pow_add]
        rw [show m + n = (m - n) + 2 * n by omega, pow_add, pow_mul]
        norm_num
      have h3 := coef_closed m n hn.2
      simp only [zsmul_eq_mul, nsmul_eq_mul, mul_one]
      push_cast
      rw [h2, show -(m : ℝ) + (m + n) = n by ring]
      linear_combination (1 / 2 * (-1) ^ m * (n : ℝ) ^ (2 * q)) * h3
    rw [Finset.sum_congr rfl e, ← Finset.mul_sum] at h1
    simp only [zsmul_eq_mul, nsmul_eq_mul, mul_one, neg_add_cancel] at h1
    push_cast at h1
    have h4 : ((-1 : ℝ)) ^ (2 * m - m) = (-1) ^ m := by congr 1; omega
    have h5 : ((-1 : ℝ)) ^ m ≠ 0 := pow_ne_zero _ (by norm_num)
    rw [h4] at h1
    have h6 : ((-1 : ℝ) ^ m * (2 * m).choose m) * ((0 : ℝ) ^ (2 * q)
        - ∑ n ∈ Finset.Icc 1 m, stencilCoef m n * (n : ℝ) ^ (2 * q)) = 0 := by
      have h1' : _ = (0 : ℝ) := h1
      linear_combination h1'
    have h7 := (mul_eq_zero.1 h6).resolve_left (mul_ne_zero h5 hc)
    rw [sub_eq_zero] at h7
    rw [← h7]
    split_ifs with h
    · simp [h]
    · simp [h]
  · intro j hj
    have h2 : ((-1 : ℤ)) ^ (2 * m - (m - j)) = (-1) ^ (2 * m - (m + j)) := by
      rw [show 2 * m - (m - j) = (2 * m - (m + j)) + 2 * j by omega, pow_add, pow_mul]; simp
    have h3 : (2 * m).choose (m - j) = (2 * m).choose (m + j) := by
      rw [← Nat.choose_symm (show m - j ≤ 2 * m by omega)]; congr 1; omega
    rw [h2, h3]
    congr 1
    simp only [nsmul_eq_mul, mul_one]
    rw [Nat.cast_sub hj]
    push_cast
    rw [show -(m : ℝ) + (m - j) = -j by ring, show -(m : ℝ) + (m + j) = j by ring,
      Even.neg_pow (even_two_mul q)]

/-- **C39** (consistency): the coefficients sum to one, and their moments of order `2 q`,
`0 < q < m`, vanish, for every half-order `m`. -/
theorem C39_moments (m : ℕ) :
    (1 ≤ m → ∑ n ∈ Finset.Icc 1 m, stencilCoef m n = 1) ∧
    (∀ q, 0 < q → q < m → ∑ n ∈ Finset.Icc 1 m, stencilCoef m n * (n : ℝ) ^ (2 * q) = 0) := by
  constructor
  · intro h
    simpa using moments m 0 (by omega)
  · intro q h1 h2
    simpa [h1.ne'] using moments m q h2

example : stencilCoef 1 1 = 1 ∧ stencilCoef 2 1 = 4 / 3 ∧ stencilCoef 2 2 = -1 / 3 := by
  norm_num [stencilCoef]

/-- **C39** (exactness): with these coefficients, the centred finite difference of order `2 m`
gives the exact derivative of every polynomial of degree at most `2 m`, for every cell size. -/
theorem C39_exact (m : ℕ) (dz : ℝ) (hdz : dz ≠ 0) (P : Polynomial ℝ) (hP : P.natDegree ≤ 2 * m)
    (z : ℝ) : fdDeriv (stencilCoef m) m dz (fun x => P.eval x) z = P.derivative.eval z := by
  set Q := Polynomial.taylor z P with hQ
  have hQd : Q.natDegree < 2 * m + 1 := by rw [hQ, Polynomial.natDegree_taylor]; omega
  have hev : ∀ x, P.eval (z + x) = ∑ j ∈ Finset.range (2 * m + 1), Q.coeff j * x ^ j := by
    intro x
    rw [← Polynomial.eval_eq_sum_range' hQd, hQ, Polynomial.taylor_eval, add_comm]
  have hterm : ∀ j ∈ Finset.range (2 * m + 1), ∑ n ∈ Finset.Icc 1 m,
      stencilCoef m n / (2 * n * dz) * (Q.coeff j * (n * dz) ^ j - Q.coeff j * (-(n * dz)) ^ j)
      = if j = 1 then Q.coeff 1 else 0 := by
    intro j hj
    have hj := Finset.mem_range.1 hj
    rcases Nat.even_or_odd j with he | ho
    · have h1 : j ≠ 1 := by rintro rfl; simp at he
      rw [if_neg h1]
      apply Finset.sum_eq_zero
      intro n _
      rw [he.neg_pow]; ring
    · obtain ⟨q, rfl⟩ := ho
      have e : ∀ n ∈ Finset.Icc 1 m, stencilCoef m n / (2 * n * dz) *
          (Q.coeff (2 * q + 1) * (n * dz) ^ (2 * q + 1)
            - Q.coeff (2 * q + 1) * (-(n * dz)) ^ (2 * q + 1))
          = Q.coeff (2 * q + 1) * dz ^ (2 * q) * (stencilCoef m n * (n : ℝ) ^ (2 * q)) := by
        intro n hn
        have hn : (n : ℝ) ≠ 0 := by
          have := (Finset.mem_Icc.1 hn).1
          exact_mod_cast (by omega)
        rw [(odd_two_mul_add_one q).neg_pow, mul_pow, pow_succ, pow_succ]
        field_simp
        ring
      rw [Finset.sum_congr rfl e, ← Finset.mul_sum, moments m q (by omega)]
      by_cases hq : q = 0
      · subst hq; simp
      · simp [hq]
  unfold fdDeriv
  have hsub : ∀ n : ℕ, P.eval (z - n * dz)
      = ∑ j ∈ Finset.range (2 * m + 1), Q.coeff j * (-(n * dz)) ^ j := by
    intro n; rw [sub_eq_add_neg, hev]
  simp only [hev, hsub, smul_eq_mul, ← Finset.sum_sub_distrib, Finset.mul_sum]
  rw [Finset.sum_comm, Finset.sum_congr rfl hterm, Finset.sum_ite_eq']
  by_cases hm : m = 0
  · subst hm
    have : P.natDegree = 0 := by omega
    rw [Polynomial.eq_C_of_natDegree_eq_zero this]
    simp
  · rw [if_pos (Finset.mem_range.2 (by omega)), hQ, Polynomial.taylor_coeff_one]

/-- The fourth-order stencil on a quartic with cell size 1/2. -/
example : fdDeriv (stencilCoef 2) 2 (1 / 2) (fun x => (Polynomial.X ^ 4 : Polynomial ℝ).eval x) 1
    = 4 := by
  rw [C39_exact 2 _ (by norm_num) _ (by simp)]
  norm_num

/-- **C39** (symbol): the modified wavenumber is the one of the finite-difference operator: on every
plane wave the operator multiplies by `i [k]`. -/
theorem C39_symbol (nOrder : ℤ) (h : 0 < nOrder) (h2 : nOrder % 2 = 0) (dz : ℝ) (k : ℝ) :
    ∃ K, modifiedK k nOrder dz = .ok K ∧ ∀ z : ℝ,
      fdDeriv (stencilCoef (nOrder / 2).toNat) (nOrder / 2).toNat dz
        (fun x => exp (I * k * x)) z = I * K * exp (I * k * z) := by
  refine ⟨_, by unfold modifiedK; rw [if_neg (by omega), if_neg (by omega)], ?_⟩
  intro z
  unfold fdDeriv
  push_cast
  rw [Finset.mul_sum, Finset.sum_mul]
  apply Finset.sum_congr rfl
  intro n _
  have e1 : exp (I * k * ((z + n * dz : ℝ) : ℂ))
      = exp (I * k * z) * (cos (k * n * dz) + I * sin (k * n * dz)) := by
    rw [show I * k * ((z + n * dz : ℝ) : ℂ) = I * k * z + (k * n * dz) * I by push_cast; ring,
      exp_add, exp_mul_I]; ring
  have e2 : exp (I * k * ((z - n * dz : ℝ) : ℂ))
      = exp (I * k * z) * (cos (k * n * dz) - I * sin (k * n * dz)) := by
    rw [show I * k * ((z - n * dz : ℝ) : ℂ) = I * k * z + (-(k * n * dz)) * I by push_cast; ring,
      exp_add, exp_mul_I, cos_neg, sin_neg]; ring
  push_cast at e1 e2
  rw [e1, e2, real_smul]
  push_cast
  ring

/-- **C39** (modified wavenumber): it is odd, it agrees with the true wavenumber to first order at
`k = 0`, and vanishes at the Nyquist wavenumber; `n_order = -1` gives the true wavenumber. -/
theorem C39_modified (nOrder : ℤ) (h : 0 < nOrder) (h2 : nOrder % 2 = 0) (dz : ℝ) (hdz : dz ≠ 0) :
    ∃ K : ℝ → ℝ, (∀ k, modifiedK k nOrder dz = .ok (K k)) ∧ (∀ k, K (-k) = - K k) ∧
      HasDerivAt K 1 0 ∧ (∀ k, k * dz = Real.pi → K k = 0) := by
  refine ⟨_, fun k => by unfold modifiedK; rw [if_neg (by omega), if_neg (by omega)], ?_, ?_, ?_⟩
  · intro k
    rw [← Finset.sum_neg_distrib]
    apply Finset.sum_congr rfl
    intro n _
    rw [show -k * n * dz = -(k * n * dz) by ring, Real.sin_neg]; ring
  · have hd : ∀ n ∈ Finset.Icc 1 (nOrder / 2).toNat, HasDerivAt
        (fun k : ℝ => Real.sin (k * n * dz) / (n * dz) * stencilCoef (nOrder / 2).toNat n)
        (stencilCoef (nOrder / 2).toNat n) 0 := by
      intro n hn
      have hn : (n : ℝ) ≠ 0 := by
        have := (Finset.mem_Icc.1 hn).1
        exact_mod_cast (by omega)
      have h1 : HasDerivAt (fun k : ℝ => k * n * dz) (1 * n * dz) 0 :=
        ((hasDerivAt_id 0).mul_const _).mul_const _
      have h2 := ((h1.sin).div_const ((n : ℝ) * dz)).mul_const (stencilCoef (nOrder / 2).toNat n)
      have e : Real.cos (0 * n * dz) * (1 * n * dz) / (n * dz) * stencilCoef (nOrder / 2).toNat n
          = stencilCoef (nOrder / 2).toNat n := by
        rw [zero_mul, zero_mul, Real.cos_zero]
        field_simp
      rwa [e] at h2
    have := HasDerivAt.fun_sum hd
    rwa [(C39_moments _).1 (by omega)] at this
  · intro k hk
    apply Finset.sum_eq_zero
    intro n _
    rw [show k * n * dz = n * Real.pi by rw [← hk]; ring, Real.sin_nat_mul_pi]
    simp

/-- **C39** (refused orders): an error is raised exactly for the odd and the non-positive orders
other than -1, and -1 leaves the wavenumber as it is. -/
theorem C39_refused (nOrder : ℤ) (dz k : ℝ) :
    ((∃ e, modifiedK k nOrder dz = .error e) ↔
      nOrder ≠ -1 ∧ ¬ (0 < nOrder ∧ ∃ m, nOrder = 2 * m)) ∧
    (nOrder = -1 → modifiedK k nOrder dz = .ok k) := by
  unfold modifiedK
  by_cases h1 : nOrder = -1
  · simp [h1]
  · by_cases h2 : nOrder % 2 = 1 ∨ nOrder ≤ 0
    · simp only [h1, h2, if_true, if_false]
      simp
      exact ⟨h1, fun h m hm => by omega⟩
    · simp only [h1, h2, if_false]
      simp
      exact fun _ => ⟨by omega, nOrder / 2, by omega⟩

end Fbpic
