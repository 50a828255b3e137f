import Verif.Lemmas.Locality

/-!
# Lemmas: the coefficients of the push are symbols of rapid decrease
-/

namespace Fbpic.Locality

open Complex Spec

variable {ρ : ℝ}

/-! ### The series of the trigonometric functions -/

/-- The terms of `∑ (-1)^j y^j / (2j+p)!`. -/
noncomputable def trigTerm (p : ℕ) (y : ℝ) (j : ℕ) : ℝ := (-1) ^ j * y ^ j / (2 * j + p).factorial

/-- The sum. -/
noncomputable def trig (p : ℕ) (y : ℝ) : ℝ := ∑' j, trigTerm p y j

theorem trig_summable (p : ℕ) (y : ℝ) : Summable (trigTerm p y) := by
  refine Summable.of_norm (Summable.of_nonneg_of_le (fun _ => norm_nonneg _) (fun j => ?_) (Real.summable_pow_div_factorial |y|))
  unfold trigTerm
  rw [norm_div, norm_mul, norm_pow, norm_neg, norm_one, one_pow, one_mul, norm_pow, Real.norm_eq_abs, RCLike.norm_natCast]
  refine div_le_div_of_nonneg_left (pow_nonneg (abs_nonneg _) _) (by exact_mod_cast Nat.factorial_pos _) ?_
  exact_mod_cast Nat.factorial_le (by omega)

theorem trig_rec (p : ℕ) (y : ℝ) : trig p y = 1 / p.factorial - y * trig (p + 2) y := by
  unfold trig
  rw [(trig_summable p y).tsum_eq_zero_add, ← tsum_mul_left, sub_eq_add_neg, ← tsum_neg]
  congr 1
  · simp [trigTerm]
  · refine tsum_congr fun j => ?_
    have : 2 * (j + 1) + p = 2 * j + (p + 2) := by ring
    unfold trigTerm
    rw [this]
    ring

theorem trig_zero (p : ℕ) : trig p 0 = 1 / p.factorial := by
  rw [trig_rec]
  simp

theorem trig2_zero : trig 2 0 = 1 / 2 := by
  rw [trig_zero]
  norm_num [Nat.factorial]

theorem trig3_zero : trig 3 0 = 1 / 6 := by
  rw [trig_zero]
  norm_num [Nat.factorial]

theorem trig_cos (r : ℝ) : trig 0 (r ^ 2) = Real.cos r := by
  refine ((Real.hasSum_cos r).congr_fun ?_).tsum_eq
  intro j
  simp [trigTerm, pow_mul]

theorem trig_sin (r : ℝ) : r * trig 1 (r ^ 2) = Real.sin r := by
  unfold trig
  rw [← tsum_mul_left]
  refine ((Real.hasSum_sin r).congr_fun ?_).tsum_eq
  intro j
  unfold trigTerm
  rw [pow_succ r (2 * j), pow_mul]
  ring

/-! ### The coefficients -/

section
variable (k : Consts) (kz kr dt : ℝ)

/-- `(w dt)^2`. -/
noncomputable def ysq : ℝ := (k.c * dt) ^ 2 * (kz ^ 2 + kr ^ 2)

theorem ysq_eq : (omega k kz kr * dt) ^ 2 = ysq k kz kr dt := by
  unfold omega ysq
  rw [mul_pow, mul_pow, Real.sq_sqrt (by positivity)]
  ring

theorem coefC_eq : coefC k kz kr dt = trig 0 (ysq k kz kr dt) := by
  rw [← ysq_eq, trig_cos, coefC]

variable {k kz kr dt}

theorem ysq_zero (hw : omega k kz kr = 0) : ysq k kz kr dt = 0 := by
  rw [← ysq_eq, hw]
  ring

theorem coefSw_eq : coefSw k kz kr dt = dt * trig 1 (ysq k kz kr dt) := by
  unfold coefSw invOmega
  split_ifs with hw
  · rw [ysq_zero hw, trig_zero]
    simp
  · rw [← trig_sin, ysq_eq]
    field_simp

theorem trig2 (hw : omega k kz kr ≠ 0) : (1 - coefC k kz kr dt) * invOmega k kz kr ^ 2 = dt ^ 2 * trig 2 (ysq k kz kr dt) := by
  have h := trig_rec 0 (ysq k kz kr dt)
  rw [coefC_eq, h, ← ysq_eq, invOmega, if_neg hw]
  field_simp
  simp

theorem trig3 (hw : omega k kz kr ≠ 0) (hdt : dt ≠ 0) :
    (1 - 1 / dt * coefSw k kz kr dt) * invOmega k kz kr ^ 2 = dt ^ 2 * trig 3 (ysq k kz kr dt) := by
  have h := trig_rec 1 (ysq k kz kr dt)
  rw [coefSw_eq, h, ← ysq_eq, invOmega, if_neg hw]
  field_simp
  simp

theorem coefJ_eq : coefJ k kz kr dt none false = k.mu0 * k.c ^ 2 * (dt ^ 2 * (trig 2 (ysq k kz kr dt) : ℝ)) := by
  unfold coefJ
  split_ifs with hw hn
  · rw [ysq_zero hw, trig2_zero]
    push_cast
    ring
  · have := congrArg (fun x : ℝ => (x : ℂ)) (trig2 (dt := dt) hw)
    push_cast at this
    rw [mul_assoc, this]
  · exact absurd (Or.inl rfl) hn

theorem coefRhoNext_eq (hdt : dt ≠ 0) : coefRhoNext k kz kr dt none = k.c ^ 2 / k.eps0 * (dt ^ 2 * (trig 3 (ysq k kz kr dt) : ℝ)) := by
  unfold coefRhoNext
  split_ifs with hw hn
  · rw [ysq_zero hw, trig3_zero]
    push_cast
    ring
  · have := congrArg (fun x : ℝ => (x : ℂ)) (trig3 hw hdt)
    push_cast at this
    rw [mul_assoc, this]
  · exact absurd (Or.inl rfl) hn

theorem coefRhoPrev_eq (hdt : dt ≠ 0) : coefRhoPrev k kz kr dt none false
    = k.c ^ 2 / k.eps0 * (dt ^ 2 * ((trig 3 (ysq k kz kr dt) : ℝ) - (trig 2 (ysq k kz kr dt) : ℝ))) := by
  unfold coefRhoPrev
  split_ifs with hw hn
  · rw [ysq_zero hw, trig3_zero, trig2_zero]
    push_cast
    ring
  · have h3 := congrArg (fun x : ℝ => (x : ℂ)) (trig3 hw hdt)
    have h2 := congrArg (fun x : ℝ => (x : ℂ)) (trig2 (dt := dt) hw)
    push_cast at h2 h3
    rw [mul_sub ((dt : ℂ) ^ 2), ← h2, ← h3]
    ring
  · exact absurd (Or.inl rfl) hn

end

/-! ### Rapid decrease -/

/-- The modified wavenumber as a function of the angle. -/
noncomputable def xsym (half : ℕ) (dz θ : ℝ) : ℝ := ∑ n ∈ Finset.Icc 1 half, Real.sin (n * θ) / (n * dz) * stencilCoef half n

theorem kz_eq (P : SolverPar) (hP : P.Ok) (N i : ℕ) : P.kz N i = xsym P.half P.dz (kzTrue N P.dz i * P.dz) := by
  have h1 := hP.half
  unfold SolverPar.kz modifiedK
  rw [if_neg (by omega), if_neg (by omega)]
  have : (2 * (P.half : ℤ) / 2).toNat = P.half := by omega
  simp only [this, Except.toOption, Option.getD_some]
  unfold xsym
  refine Finset.sum_congr rfl fun n _ => ?_
  congr 3
  ring

theorem loc_x (hρ : 1 ≤ ρ) (half : ℕ) (dz : ℝ) : Loc ρ (fun θ => (xsym half dz θ : ℂ)) := by
  have : (fun θ => (xsym half dz θ : ℂ)) = fun θ : ℝ => ∑ n ∈ Finset.Icc 1 half,
      ((1 / (n * dz) * stencilCoef half n * I / 2 : ℂ) * exp (I * ((-(n : ℤ) : ℤ) : ℂ) * θ) - (1 / (n * dz) * stencilCoef half n * I / 2 : ℂ) * exp (I * ((n : ℤ) : ℂ) * θ)) := by
    funext θ
    unfold xsym
    push_cast
    refine Finset.sum_congr rfl fun n _ => ?_
    rw [Complex.sin]
    have e1 : -((n : ℂ) * θ) * I = I * -(n : ℂ) * θ := by ring
    have e2 : ((n : ℂ) * θ) * I = I * (n : ℂ) * θ := by ring
    rw [e1, e2]
    ring
  rw [this]
  exact loc_sum hρ _ fun n _ => Loc.sub hρ ⟨_, symW_one _ _⟩ ⟨_, symW_one _ _⟩

theorem loc_trig (hρ : 1 ≤ ρ) (k : Consts) (half : ℕ) (dz kr dt : ℝ) (p : ℕ) :
    Loc ρ (fun θ => (trig p (ysq k (xsym half dz θ) kr dt) : ℂ)) := by
  have hq : Loc ρ (fun θ => (xsym half dz θ : ℂ) * (xsym half dz θ : ℂ) + (kr : ℂ) ^ 2) :=
    ((loc_x hρ half dz).mul hρ (loc_x hρ half dz)).add hρ (loc_const _)
  refine loc_series hρ hq (γ := fun j => (((-1) ^ j * ((k.c * dt) ^ 2) ^ j / (2 * j + p).factorial : ℝ) : ℂ)) (G := 1) (X := (k.c * dt) ^ 2) (fun j => ?_) fun θ => ?_
  · rw [norm_real, norm_div, norm_mul, norm_pow, norm_neg, norm_one, one_pow, one_mul, one_mul, Real.norm_of_nonneg (by positivity), RCLike.norm_natCast]
    refine div_le_div_of_nonneg_left (by positivity) (by exact_mod_cast Nat.factorial_pos _) ?_
    exact_mod_cast Nat.factorial_le (by omega)
  · have := (trig_summable p (ysq k (xsym half dz θ) kr dt)).hasSum
    have := hasSum_ofReal.mpr this
    refine this.congr_fun fun j => ?_
    unfold trigTerm ysq
    push_cast
    rw [← pow_two, mul_pow (((k.c : ℂ) * dt) ^ 2) (_ + _) j]
    ring

deriving instance DecidableEq for Quant

instance : Fintype Quant := ⟨{.Ep, .Em, .Ez, .Bp, .Bm, .Bz, .Jp, .Jm, .Jz, .rhoPrev, .rhoNext}, by intro x; cases x <;> decide⟩

/-- A linear combination of the quantities with symbols of rapid decrease. -/
def LinLoc (ρ : ℝ) (e : ℝ → SpecCell → ℂ) : Prop := ∃ h : Quant → ℝ → ℂ, (∀ u, Loc ρ (h u)) ∧ ∀ θ s, e θ s = ∑ u, h u θ * u.of s

theorem linLoc_of (u : Quant) : LinLoc ρ (fun _ s => u.of s) := by
  refine ⟨fun v _ => if v = u then 1 else 0, fun v => loc_const _, fun θ s => ?_⟩
  simp [ite_mul]

theorem LinLoc.add (hρ : 1 ≤ ρ) {e e' : ℝ → SpecCell → ℂ} (h : LinLoc ρ e) (h' : LinLoc ρ e') : LinLoc ρ (fun θ s => e θ s + e' θ s) := by
  obtain ⟨a, h1, h2⟩ := h
  obtain ⟨a', h1', h2'⟩ := h'
  refine ⟨fun u θ => a u θ + a' u θ, fun u => (h1 u).add hρ (h1' u), fun θ s => ?_⟩
  show e θ s + e' θ s = _
  rw [h2, h2', ← Finset.sum_add_distrib]
  exact Finset.sum_congr rfl fun u _ => by ring

theorem LinLoc.mul (hρ : 1 ≤ ρ) {z : ℝ → ℂ} (hz : Loc ρ z) {e : ℝ → SpecCell → ℂ} (h : LinLoc ρ e) : LinLoc ρ (fun θ s => z θ * e θ s) := by
  obtain ⟨a, h1, h2⟩ := h
  refine ⟨fun u θ => z θ * a u θ, fun u => hz.mul hρ (h1 u), fun θ s => ?_⟩
  show z θ * e θ s = _
  rw [h2, Finset.mul_sum]
  exact Finset.sum_congr rfl fun u _ => by ring

theorem LinLoc.sub (hρ : 1 ≤ ρ) {e e' : ℝ → SpecCell → ℂ} (h : LinLoc ρ e) (h' : LinLoc ρ e') : LinLoc ρ (fun θ s => e θ s - e' θ s) := by
  have := h.add hρ (h'.mul hρ (loc_const (-1)))
  simpa [sub_eq_add_neg] using this

/-- Each field after the push is a linear combination of the quantities before. -/
theorem push_linLoc (hρ : 1 ≤ ρ) (k : Consts) (half : ℕ) (dz kr : ℝ) {dt : ℝ} (hdt : dt ≠ 0) (tr : Bool) (q : Quant) (hq : q.isField) :
    LinLoc ρ (fun θ s => q.of (pushRho (pushEBWith k (xsym half dz θ) kr (psatdCoefs k (xsym half dz θ) kr dt none false) false tr s))) := by
  have lx := loc_x hρ half dz
  have lc := fun z : ℂ => loc_const (ρ := ρ) z
  have lC : Loc ρ (fun θ => (coefC k (xsym half dz θ) kr dt : ℂ)) := by
    simpa only [coefC_eq] using loc_trig hρ k half dz kr dt 0
  have lS : Loc ρ (fun θ => (coefSw k (xsym half dz θ) kr dt : ℂ)) := by
    simpa only [coefSw_eq, ofReal_mul] using (lc dt).mul hρ (loc_trig hρ k half dz kr dt 1)
  have lJ : Loc ρ (fun θ => coefJ k (xsym half dz θ) kr dt none false) := by
    simpa only [coefJ_eq] using (lc (k.mu0 * k.c ^ 2)).mul hρ ((lc (dt ^ 2)).mul hρ (loc_trig hρ k half dz kr dt 2))
  have lN : Loc ρ (fun θ => coefRhoNext k (xsym half dz θ) kr dt none) := by
    simpa only [coefRhoNext_eq hdt] using (lc (k.c ^ 2 / k.eps0)).mul hρ ((lc (dt ^ 2)).mul hρ (loc_trig hρ k half dz kr dt 3))
  have lP : Loc ρ (fun θ => coefRhoPrev k (xsym half dz θ) kr dt none false) := by
    simpa only [coefRhoPrev_eq hdt] using
      (lc (k.c ^ 2 / k.eps0)).mul hρ ((lc (dt ^ 2)).mul hρ ((loc_trig hρ k half dz kr dt 3).sub hρ (loc_trig hρ k half dz kr dt 2)))
  have Ep := linLoc_of (ρ := ρ) .Ep
  have Em := linLoc_of (ρ := ρ) .Em
  have Ez := linLoc_of (ρ := ρ) .Ez
  have Bp := linLoc_of (ρ := ρ) .Bp
  have Bm := linLoc_of (ρ := ρ) .Bm
  have Bz := linLoc_of (ρ := ρ) .Bz
  have Jp := linLoc_of (ρ := ρ) .Jp
  have Jm := linLoc_of (ρ := ρ) .Jm
  have Jz := linLoc_of (ρ := ρ) .Jz
  have rP := linLoc_of (ρ := ρ) .rhoPrev
  have rN := linLoc_of (ρ := ρ) .rhoNext
  have lD : LinLoc ρ (fun θ s => if tr then coefRhoNext k (xsym half dz θ) kr dt none * s.rhoNext
        - coefRhoPrev k (xsym half dz θ) kr dt none false * s.rhoPrev
      else (coefRhoNext k (xsym half dz θ) kr dt none - coefRhoPrev k (xsym half dz θ) kr dt none false) * k.eps0
          * (kr * (s.Ep - s.Em) + I * (xsym half dz θ) * s.Ez)
        - coefRhoNext k (xsym half dz θ) kr dt none * dt * (kr * (s.Jp - s.Jm) + I * (xsym half dz θ) * s.Jz)) := by
    cases tr
    · exact ((((Ep.sub hρ Em).mul hρ (lc kr)).add hρ (Ez.mul hρ ((lc I).mul hρ lx))).mul hρ ((lN.sub hρ lP).mul hρ (lc k.eps0))).sub hρ
        ((((Jp.sub hρ Jm).mul hρ (lc kr)).add hρ (Jz.mul hρ ((lc I).mul hρ lx))).mul hρ (lN.mul hρ (lc dt)))
    · exact (rN.mul hρ lN).sub hρ (rP.mul hρ lP)
  have lik : Loc ρ (fun _ => -I * 0.5 * (kr : ℂ)) := lc _
  cases q
  case Ep =>
    exact ((Ep.mul hρ lC).add hρ (lD.mul hρ (lc (0.5 * kr)))).add hρ
      ((((Bz.mul hρ lik).add hρ (Bp.mul hρ lx)).sub hρ (Jp.mul hρ (lc k.mu0))).mul hρ ((lc (k.c ^ 2)).mul hρ lS))
  case Em =>
    exact ((Em.mul hρ lC).sub hρ (lD.mul hρ (lc (0.5 * kr)))).add hρ
      ((((Bz.mul hρ lik).sub hρ (Bm.mul hρ lx)).sub hρ (Jm.mul hρ (lc k.mu0))).mul hρ ((lc (k.c ^ 2)).mul hρ lS))
  case Ez =>
    exact ((Ez.mul hρ lC).sub hρ (lD.mul hρ ((lc I).mul hρ lx))).add hρ
      ((((Bp.mul hρ (lc (I * kr))).add hρ (Bm.mul hρ (lc (I * kr)))).sub hρ (Jz.mul hρ (lc k.mu0))).mul hρ ((lc (k.c ^ 2)).mul hρ lS))
  case Bp =>
    exact ((Bp.mul hρ lC).sub hρ (((Ez.mul hρ lik).add hρ (Ep.mul hρ lx)).mul hρ lS)).add hρ
      (((Jz.mul hρ lik).add hρ (Jp.mul hρ lx)).mul hρ lJ)
  case Bm =>
    exact ((Bm.mul hρ lC).sub hρ (((Ez.mul hρ lik).sub hρ (Em.mul hρ lx)).mul hρ lS)).add hρ
      (((Jz.mul hρ lik).sub hρ (Jm.mul hρ lx)).mul hρ lJ)
  case Bz =>
    exact ((Bz.mul hρ lC).sub hρ (((Ep.mul hρ (lc (I * kr))).add hρ (Em.mul hρ (lc (I * kr)))).mul hρ lS)).add hρ
      (((Jp.mul hρ (lc (I * kr))).add hρ (Jm.mul hρ (lc (I * kr)))).mul hρ lJ)
  all_goals exact absurd hq (by simp [Quant.isField])

/-! ### The push on a grid -/

open Transform in
theorem of_mapQuant (T : (ℕ → ℕ → ℂ) → ℕ → ℕ → ℂ) (F : Rows) (u : Quant) (i j : ℕ) :
    u.of (mapQuant T F i j) = T (fun i j => u.of (F i j)) i j := by
  cases u <;> rfl

open Transform in
/-- The push as a sum of operators, which do not depend on the grid. -/
theorem solve_op (hρ : 1 ≤ ρ) (P : SolverPar) (hP : P.Ok) (q : Quant) (hq : q.isField) (ir : ℕ) (hir : ir < P.Nr) :
    ∃ h : Quant → ℝ → ℂ, (∀ u, Loc ρ (h u)) ∧ ∀ (N : ℕ) [NeZero N] (F : Rows) (i : ℕ),
      q.of (P.solve N F i ir) = ∑ u, op N P.dz (h u) (fun j => u.of (F j.val ir)) (i : ZMod N) := by
  obtain ⟨h, h1, h2⟩ := push_linLoc hρ P.k P.half P.dz (P.kr ir) hP.dt.ne' P.trueRho q hq
  refine ⟨h, h1, fun N _ F i => ?_⟩
  unfold SolverPar.solve
  rw [of_mapQuant]
  unfold fftAxis0
  rw [if_pos rfl]
  have e : ∀ k : ZMod N, q.of ((SpecGrid.push P.k P.dt none false false P.trueRho
      ⟨N, P.Nr, P.kz N, P.kr, mapQuant (fftAxis0 N false) F⟩).cell k.val ir)
      = ∑ u, h u (kzTrue N P.dz k.val * P.dz) * fftZ N (fun j => u.of (F j.val ir)) k := by
    intro k
    have hk := ZMod.val_lt k
    unfold SpecGrid.push SpecGrid.mapCells
    dsimp only
    rw [if_pos ⟨hk, hir⟩, if_pos ⟨hk, hir⟩, kz_eq P hP]
    refine (h2 (kzTrue N P.dz k.val * P.dz) (mapQuant (fftAxis0 N false) F k.val ir)).trans ?_
    refine Finset.sum_congr rfl fun u _ => ?_
    rw [of_mapQuant]
    unfold fftAxis0
    rw [if_neg (by decide), ZMod.natCast_zmod_val]
  have : (fun j : ZMod N => q.of ((SpecGrid.push P.k P.dt none false false P.trueRho
      ⟨N, P.Nr, P.kz N, P.kr, mapQuant (fftAxis0 N false) F⟩).cell j.val ir)) = fun k => ∑ u, h u (kzTrue N P.dz k.val * P.dz) * fftZ N (fun j => u.of (F j.val ir)) k := funext e
  unfold fftAxis0 at this
  rw [this]
  unfold op ifftZ
  simp only [Finset.sum_mul]
  rw [Finset.sum_comm, Finset.mul_sum]

/-! ### Bounds -/

theorem op_bound (hρ : 1 ≤ ρ) {h : ℝ → ℂ} {C : ℝ} (s : SymW ρ h C) {N : ℕ} [NeZero N] {dz : ℝ} (hdz : dz ≠ 0) {f : ZMod N → ℂ} {M : ℝ}
    (hf : ∀ j, ‖f j‖ ≤ M) (j : ZMod N) : ‖op N dz h f j‖ ≤ C * M := by
  have M0 : 0 ≤ M := (norm_nonneg _).trans (hf j)
  obtain ⟨T, a, n, S, h1, h2, h3⟩ := s
  refine (HasSum.norm_le_of_bounded (op_hasSum hdz h3 f j) (h1.mul_right M) fun t => ?_).trans (mul_le_mul_of_nonneg_right h2 M0)
  rw [norm_mul]
  exact mul_le_mul (le_mul_of_one_le_right (norm_nonneg _) (one_le_pow₀ hρ)) (hf _) (norm_nonneg _)
    (mul_nonneg (norm_nonneg _) (pow_nonneg (by linarith) _))

theorem op_near (hρ : 1 ≤ ρ) {h : ℝ → ℂ} {C : ℝ} (s : SymW ρ h C) {N N' : ℕ} [NeZero N] [NeZero N'] {dz : ℝ} (hdz : dz ≠ 0)
    {f : ZMod N → ℂ} {f' : ZMod N' → ℂ} {M δ : ℝ} (hf : ∀ j, ‖f j‖ ≤ M) (hf' : ∀ j, ‖f' j‖ ≤ M) (hδ : 0 ≤ δ)
    {off a b R : ℕ} (hw : ∀ m : ℕ, a ≤ m → m < b → ‖f' (m : ZMod N') - f ((off + m : ℕ) : ZMod N)‖ ≤ δ)
    {i : ℕ} (hi : a + R ≤ i) (hi' : i + R < b) :
    ‖op N' dz h f' (i : ZMod N') - op N dz h f ((off + i : ℕ) : ZMod N)‖ ≤ C * (δ + 2 * M / ρ ^ R) := by
  have M0 : 0 ≤ M := (norm_nonneg _).trans (hf 0)
  have hR : (0 : ℝ) < ρ ^ R := pow_pos (by linarith) _
  obtain ⟨T, c, n, S, h1, h2, h3⟩ := s
  have hs := (op_hasSum hdz h3 f' (i : ZMod N')).sub (op_hasSum hdz h3 f ((off + i : ℕ) : ZMod N))
  have nn : 0 ≤ δ + 2 * M / ρ ^ R := add_nonneg hδ (div_nonneg (by linarith) hR.le)
  refine (HasSum.norm_le_of_bounded hs (h1.mul_right (δ + 2 * M / ρ ^ R)) fun t => ?_).trans (mul_le_mul_of_nonneg_right h2 nn)
  rw [← mul_sub, norm_mul, mul_assoc]
  refine mul_le_mul_of_nonneg_left ?_ (norm_nonneg _)
  have p1 : 1 ≤ ρ ^ (n t).natAbs := one_le_pow₀ hρ
  by_cases hn : (n t).natAbs ≤ R
  · obtain ⟨m, hm⟩ : ∃ m : ℕ, (m : ℤ) = i + n t := ⟨(i + n t).toNat, by omega⟩
    have e1 : (i : ZMod N') + (n t : ZMod N') = (m : ZMod N') := by exact_mod_cast (congrArg (fun x : ℤ => (x : ZMod N')) hm).symm
    have e2 : ((off + i : ℕ) : ZMod N) + (n t : ZMod N) = ((off + m : ℕ) : ZMod N) := by
      have : ((off + m : ℕ) : ℤ) = ((off + i : ℕ) : ℤ) + n t := by push_cast; omega
      exact_mod_cast (congrArg (fun x : ℤ => (x : ZMod N)) this).symm
    rw [e1, e2]
    have := hw m (by omega) (by omega)
    have q : 0 ≤ 2 * M / ρ ^ R := div_nonneg (by linarith) hR.le
    nlinarith
  · have := norm_sub_le (f' ((i : ZMod N') + (n t : ZMod N'))) (f (((off + i : ℕ) : ZMod N) + (n t : ZMod N)))
    have a1 := hf' ((i : ZMod N') + (n t : ZMod N'))
    have a2 := hf (((off + i : ℕ) : ZMod N) + (n t : ZMod N))
    have p2 : ρ ^ R ≤ ρ ^ (n t).natAbs := pow_le_pow_right₀ hρ (by omega)
    have p3 : 2 * M ≤ ρ ^ (n t).natAbs * (2 * M / ρ ^ R) := by
      rw [mul_div_assoc', le_div_iff₀ hR]
      nlinarith
    have p4 : 0 ≤ ρ ^ (n t).natAbs * δ := mul_nonneg (by linarith) hδ
    nlinarith

/-- Rows that agree on a window. -/
def Close (P : SolverPar) (N off a b : ℕ) (δ : ℝ) (F' F : Rows) : Prop :=
  ∀ q : Quant, ∀ i, a ≤ i → i < b → ∀ ir < P.Nr, ‖q.of (F' i ir) - q.of (F ((off + i) % N) ir)‖ ≤ δ

theorem solve_one (hρ : 1 ≤ ρ) (P : SolverPar) (hP : P.Ok) (q : Quant) (hq : q.isField) (ir : ℕ) (hir : ir < P.Nr) :
    ∃ K, 0 ≤ K ∧ (∀ (N : ℕ) [NeZero N] (F : Rows) (M : ℝ), P.Bounded N M F → ∀ i, ‖q.of (P.solve N F i ir)‖ ≤ K * M) ∧
      ∀ (N N' : ℕ) [NeZero N] [NeZero N'] (F F' : Rows) (M δ : ℝ) (off a b R : ℕ), P.Bounded N M F → P.Bounded N' M F' → b ≤ N' → 0 ≤ δ →
        Close P N off a b δ F' F → ∀ i, a + R ≤ i → i + R < b →
        ‖q.of (P.solve N' F' i ir) - q.of (P.solve N F ((off + i) % N) ir)‖ ≤ K * (δ + M / ρ ^ R) := by
  obtain ⟨h, h1, h2⟩ := solve_op hρ P hP q hq ir hir
  choose C hC using h1
  have C0 : ∀ u, 0 ≤ C u := fun u => (hC u).nonneg hρ
  have bd : ∀ (N : ℕ) [NeZero N] (F : Rows) (M : ℝ), P.Bounded N M F → ∀ (u : Quant) (j : ZMod N), ‖u.of (F j.val ir)‖ ≤ M :=
    fun N _ F M hF u j => hF u _ (ZMod.val_lt j) ir hir
  refine ⟨2 * ∑ u, C u, mul_nonneg (by norm_num) (Finset.sum_nonneg fun u _ => C0 u), fun N _ F M hF i => ?_, fun N N' _ _ F F' M δ off a b R hF hF' hb hδ hc i hi hi' => ?_⟩
  · have M0 : 0 ≤ M := (norm_nonneg _).trans (bd N F M hF .Ep 0)
    rw [h2]
    refine (norm_sum_le _ _).trans ?_
    refine (Finset.sum_le_sum fun u _ => op_bound hρ (hC u) hP.dz.ne' (bd N F M hF u) _).trans ?_
    rw [← Finset.sum_mul]
    have : 0 ≤ ∑ u, C u := Finset.sum_nonneg fun u _ => C0 u
    nlinarith [mul_nonneg this M0]
  · have M0 : 0 ≤ M := (norm_nonneg _).trans (bd N F M hF .Ep 0)
    have hR : (0 : ℝ) < ρ ^ R := pow_pos (by linarith) _
    rw [h2, h2, ← Finset.sum_sub_distrib]
    have ce : (((off + i) % N : ℕ) : ZMod N) = ((off + i : ℕ) : ZMod N) := ZMod.natCast_mod _ _
    rw [ce]
    refine (norm_sum_le _ _).trans ?_
    refine (Finset.sum_le_sum fun u _ => op_near hρ (hC u) hP.dz.ne' (bd N F M hF u) (bd N' F' M hF' u) hδ (off := off) (a := a) (b := b) (R := R) (fun m hm hm' => ?_) hi hi').trans ?_
    · rw [ZMod.val_natCast, ZMod.val_natCast, Nat.mod_eq_of_lt (by omega)]
      exact hc u m hm hm' ir hir
    · rw [← Finset.sum_mul]
      have : 0 ≤ ∑ u, C u := Finset.sum_nonneg fun u _ => C0 u
      have q1 := mul_nonneg this hδ
      rw [mul_div_assoc]
      nlinarith [mul_nonneg this (div_nonneg M0 hR.le)]

theorem solve_all (hρ : 1 ≤ ρ) (P : SolverPar) (hP : P.Ok) :
    ∃ K, 0 ≤ K ∧ (∀ (N : ℕ) [NeZero N] (F : Rows) (M : ℝ), P.Bounded N M F → ∀ q : Quant, q.isField → ∀ i, ∀ ir < P.Nr, ‖q.of (P.solve N F i ir)‖ ≤ K * M) ∧
      ∀ (N N' : ℕ) [NeZero N] [NeZero N'] (F F' : Rows) (M δ : ℝ) (off a b R : ℕ), P.Bounded N M F → P.Bounded N' M F' → b ≤ N' → 0 ≤ δ →
        Close P N off a b δ F' F → ∀ q : Quant, q.isField → ∀ i, a + R ≤ i → i + R < b → ∀ ir < P.Nr,
        ‖q.of (P.solve N' F' i ir) - q.of (P.solve N F ((off + i) % N) ir)‖ ≤ K * (δ + M / ρ ^ R) := by
  classical
  have ex : ∀ (q : Quant) (ir : ℕ), ∃ K, 0 ≤ K ∧ (q.isField → ir < P.Nr → (∀ (N : ℕ) [NeZero N] (F : Rows) (M : ℝ), P.Bounded N M F → ∀ i, ‖q.of (P.solve N F i ir)‖ ≤ K * M) ∧
      ∀ (N N' : ℕ) [NeZero N] [NeZero N'] (F F' : Rows) (M δ : ℝ) (off a b R : ℕ), P.Bounded N M F → P.Bounded N' M F' → b ≤ N' → 0 ≤ δ →
        Close P N off a b δ F' F → ∀ i, a + R ≤ i → i + R < b →
        ‖q.of (P.solve N' F' i ir) - q.of (P.solve N F ((off + i) % N) ir)‖ ≤ K * (δ + M / ρ ^ R)) := by
    intro q ir
    by_cases hq : q.isField ∧ ir < P.Nr
    · obtain ⟨K, K0, h1, h2⟩ := solve_one hρ P hP q hq.1 ir hq.2
      exact ⟨K, K0, fun _ _ => ⟨h1, h2⟩⟩
    · exact ⟨0, le_rfl, fun a b => absurd ⟨a, b⟩ hq⟩
  choose K K0 hK using ex
  have le : ∀ q, ∀ ir < P.Nr, K q ir ≤ ∑ q, ∑ ir ∈ Finset.range P.Nr, K q ir := fun q ir hir =>
    (Finset.single_le_sum (f := fun ir => K q ir) (fun j _ => K0 q j) (Finset.mem_range.2 hir)).trans
      (Finset.single_le_sum (f := fun q => ∑ ir ∈ Finset.range P.Nr, K q ir) (fun q _ => Finset.sum_nonneg fun j _ => K0 q j) (Finset.mem_univ q))
  refine ⟨∑ q, ∑ ir ∈ Finset.range P.Nr, K q ir, Finset.sum_nonneg fun q _ => Finset.sum_nonneg fun j _ => K0 q j, fun N _ F M hF q hq i ir hir => ?_,
    fun N N' _ _ F F' M δ off a b R hF hF' hb hδ hc q hq i hi hi' ir hir => ?_⟩
  · have M0 : 0 ≤ M := (norm_nonneg _).trans (hF .Ep 0 (Nat.pos_of_ne_zero (NeZero.ne N)) ir hir)
    exact ((hK q ir hq hir).1 N F M hF i).trans (mul_le_mul_of_nonneg_right (le q ir hir) M0)
  · have M0 : 0 ≤ M := (norm_nonneg _).trans (hF .Ep 0 (Nat.pos_of_ne_zero (NeZero.ne N)) ir hir)
    have hR : (0 : ℝ) < ρ ^ R := pow_pos (by linarith) _
    exact ((hK q ir hq hir).2 N N' F F' M δ off a b R hF hF' hb hδ hc i hi hi').trans
      (mul_le_mul_of_nonneg_right (le q ir hir) (add_nonneg hδ (div_nonneg M0 hR.le)))

end Fbpic.Locality
