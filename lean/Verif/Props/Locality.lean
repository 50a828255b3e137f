import Verif.Lemmas.StencilReach

/-!
# C112: reach of the field solver, and its use on parts of the grid
-/

namespace Fbpic

open Complex Spec Locality

/-- C112, locality of the push of the fields. Take any factor `ρ > 1`. There is a constant, which depends on the parameters
of the solver only, such that on every two grids, whatever their numbers of cells and whatever the fields, the following
holds. If the values of the two grids agree up to `δ` in a window, then after the push the fields agree in each cell of the
window, up to the constant times `δ` plus a part that decreases as `ρ` to the power of the distance to the ends of the
window. -/
theorem C112_local (P : SolverPar) (hP : P.Ok) (ρ : ℝ) (hρ : 1 < ρ) :
    ∃ K : ℝ, ∀ (N N' : ℕ) [NeZero N] [NeZero N'] (F F' : Rows) (M δ : ℝ) (off a b R : ℕ),
      P.Bounded N M F → P.Bounded N' M F' → b ≤ N' → 0 ≤ δ →
      (∀ q : Quant, ∀ i, a ≤ i → i < b → ∀ ir < P.Nr, ‖q.of (F' i ir) - q.of (F ((off + i) % N) ir)‖ ≤ δ) →
      ∀ q : Quant, q.isField → ∀ i, a + R ≤ i → i + R < b → ∀ ir < P.Nr,
        ‖q.of (P.solve N' F' i ir) - q.of (P.solve N F ((off + i) % N) ir)‖ ≤ K * (δ + M / ρ ^ R) := by
  obtain ⟨K, -, -, h⟩ := solve_all hρ.le P hP
  exact ⟨K, fun N N' _ _ F F' M δ off a b R => h N N' F F' M δ off a b R⟩

private theorem of_withSources_field {q : Quant} (hq : q.isField) (e s : SpecCell) : q.of (withSources e s) = q.of e := by
  cases q <;> first | rfl | exact absurd hq (by simp [Quant.isField])

private theorem of_withSources_source {q : Quant} (hq : ¬ q.isField) (e s : SpecCell) : q.of (withSources e s) = q.of s := by
  cases q <;> first | rfl | exact absurd (by simp [Quant.isField]) hq

/-- C112, several processes. Take any factor `ρ > 1` and any number of steps. There is a constant, which depends on the
parameters of the solver only, such that for every grid, every division of the grid among processes and every number `G` of
guard cells the fields with several processes are those of one process, up to the constant times `ρ^(-G)` times the size of
fields and sources. -/
theorem C112_parallel (P : SolverPar) (hP : P.Ok) (ρ : ℝ) (hρ : 1 < ρ) (n : ℕ) :
    ∃ K : ℝ, ∀ (N G : ℕ) [NeZero N] (D : Division N G) (src : ℕ → Rows) (F : Rows) (M : ℝ),
      P.Bounded N M F → (∀ m, P.Bounded N M (src m)) →
      ∀ q : Quant, ∀ i < N, ∀ ir < P.Nr,
        ‖q.of (P.parallel D src F n i ir) - q.of (P.serial N src F n i ir)‖ ≤ K * M / ρ ^ G := by
  obtain ⟨K, K0, hb, hl⟩ := solve_all hρ.le P hP
  suffices ∃ B E : ℝ, 0 ≤ B ∧ 0 ≤ E ∧ ∀ (N G : ℕ) [NeZero N] (D : Division N G) (src : ℕ → Rows) (F : Rows) (M : ℝ),
      P.Bounded N M F → (∀ m, P.Bounded N M (src m)) → P.Bounded N (B * M) (P.parallel D src F n) ∧ P.Bounded N (B * M) (P.serial N src F n) ∧
      ∀ q : Quant, ∀ i < N, ∀ ir < P.Nr, ‖q.of (P.parallel D src F n i ir) - q.of (P.serial N src F n i ir)‖ ≤ E * M / ρ ^ G by
    obtain ⟨B, E, -, -, h⟩ := this
    exact ⟨E, fun N G _ D src F M h1 h2 => (h N G D src F M h1 h2).2.2⟩
  induction n with
  | zero =>
    refine ⟨1, 0, by norm_num, le_rfl, fun N G _ D src F M h1 h2 => ?_⟩
    have b0 : P.Bounded N (1 * M) (fun i ir => withSources (F i ir) (src 0 i ir)) := by
      intro q i hi ir hir
      rw [one_mul]
      by_cases hq : q.isField
      · rw [of_withSources_field hq]
        exact h1 q i hi ir hir
      · rw [of_withSources_source hq]
        exact h2 0 q i hi ir hir
    refine ⟨b0, b0, fun q i hi ir hir => ?_⟩
    simp [SolverPar.parallel, SolverPar.serial]
  | succ n ih =>
    obtain ⟨B, E, B0, E0, ih⟩ := ih
    refine ⟨K * B + 1, K * (E + B), by positivity, by positivity, fun N G _ D src F M h1 h2 => ?_⟩
    obtain ⟨bp, bs, hd⟩ := ih N G D src F M h1 h2
    have hN : 0 < N := Nat.pos_of_ne_zero (NeZero.ne N)
    have loc : ∀ p, P.Bounded (D.size p) (B * M) (fun j ir => P.parallel D src F n ((D.off p + j) % N) ir) := fun p q j hj ir hir =>
      bp q _ (Nat.mod_lt _ hN) ir hir
    have hG : (0 : ℝ) < ρ ^ G := pow_pos (by linarith) _
    refine ⟨fun q i hi ir hir => ?_, fun q i hi ir hir => ?_, fun q i hi ir hir => ?_⟩
    · have M0 : 0 ≤ M := (norm_nonneg _).trans (h1 .Ep i hi ir hir)
      unfold SolverPar.parallel
      by_cases hq : q.isField
      · rw [of_withSources_field hq]
        haveI := D.ne (D.own i)
        have := hb _ _ _ (loc (D.own i)) q hq (D.loc i) ir hir
        nlinarith
      · rw [of_withSources_source hq]
        have := h2 (n + 1) q i hi ir hir
        nlinarith [mul_nonneg (mul_nonneg K0 B0) M0]
    · have M0 : 0 ≤ M := (norm_nonneg _).trans (h1 .Ep i hi ir hir)
      unfold SolverPar.serial
      by_cases hq : q.isField
      · rw [of_withSources_field hq]
        have := hb _ _ _ bs q hq i ir hir
        nlinarith
      · rw [of_withSources_source hq]
        have := h2 (n + 1) q i hi ir hir
        nlinarith [mul_nonneg (mul_nonneg K0 B0) M0]
    · have M0 : 0 ≤ M := (norm_nonneg _).trans (h1 .Ep i hi ir hir)
      unfold SolverPar.parallel SolverPar.serial
      by_cases hq : q.isField
      · rw [of_withSources_field hq, of_withSources_field hq]
        haveI := D.ne (D.own i)
        have := hl N (D.size (D.own i)) (P.serial N src F n) (fun j ir => P.parallel D src F n ((D.off (D.own i) + j) % N) ir) (B * M)
          (E * M / ρ ^ G) (D.off (D.own i)) 0 (D.size (D.own i)) G bs (loc _) le_rfl (by positivity)
          (fun q j _ _ ir hir => hd q _ (Nat.mod_lt _ hN) ir hir) q hq (D.loc i) (by have := D.guardL i hi; omega) (D.guardR i hi) ir hir
        rw [D.cell i hi] at this
        refine this.trans (le_of_eq ?_)
        ring
      · rw [of_withSources_source hq, of_withSources_source hq, sub_self, norm_zero]
        positivity

/-! ### The division of the code -/

/-- The division of a periodic grid by the code, for which there are no damping cells. -/
def commDivision (c : Comm) (h : 0 < c.NzGlobal / c.size) : Division c.NzGlobal c.nGuard where
  size p := c.NzGlobal / c.size + (if p + 1 = c.size then c.NzGlobal % c.size else 0) + 2 * c.nGuard
  ne p := ⟨by omega⟩
  off p := p * (c.NzGlobal / c.size) + (c.NzGlobal * c.nGuard - c.nGuard)
  own i := min (i / (c.NzGlobal / c.size)) (c.size - 1)
  loc i := i - min (i / (c.NzGlobal / c.size)) (c.size - 1) * (c.NzGlobal / c.size) + c.nGuard
  guardL i _ := Nat.le_add_left _ _
  guardR i hi := by
    have hs : 0 < c.size := Nat.pos_of_ne_zero fun h0 => by rw [h0, Nat.div_zero] at h; exact lt_irrefl _ h
    set m := c.NzGlobal / c.size with hm
    have hdm := Nat.div_add_mod c.NzGlobal c.size
    rw [← hm] at hdm
    have hi2 := Nat.div_add_mod i m
    have hi3 := Nat.mod_lt i h
    by_cases hc : i / m ≤ c.size - 1
    · rw [min_eq_left hc]
      have : i / m * m = m * (i / m) := Nat.mul_comm _ _
      omega
    · rw [min_eq_right (by omega), if_pos (by omega)]
      obtain ⟨s, hs'⟩ : ∃ s, c.size = s + 1 := ⟨c.size - 1, by omega⟩
      rw [hs'] at hdm ⊢
      have : (s + 1) * m = s * m + m := by ring
      rw [Nat.add_sub_cancel]
      omega
  cell i hi := by
    set m := c.NzGlobal / c.size with hm
    have hle : min (i / m) (c.size - 1) * m ≤ i := (Nat.mul_le_mul_right _ (min_le_left _ _)).trans (Nat.div_mul_le_self _ _)
    have hg : c.nGuard ≤ c.NzGlobal * c.nGuard := Nat.le_mul_of_pos_left _ (by omega)
    have : min (i / m) (c.size - 1) * m + (c.NzGlobal * c.nGuard - c.nGuard) + (i - min (i / m) (c.size - 1) * m + c.nGuard)
        = i + c.NzGlobal * c.nGuard := by omega
    rw [this, Nat.add_mul_mod_self_left, Nat.mod_eq_of_lt hi]

/-- C112, the division of the code is one to which `C112_parallel` applies: the arrays of each process have the number of
cells and the first cell that the code determines, and each cell belongs to an existing process. -/
theorem C112_division (c : Comm) (h : 0 < c.NzGlobal / c.size) (hd : c.nzDamp = 0) (hj : c.nInject = 0) :
    (∀ p < c.size, ∃ iz : ℤ, c.getNzIz true true true (some p) = .ok ((commDivision c h).size p, iz) ∧
      ((commDivision c h).off p : ℤ) ≡ iz [ZMOD c.NzGlobal]) ∧ ∀ i < c.NzGlobal, (commDivision c h).own i < c.size := by
  have hs : 0 < c.size := Nat.pos_of_ne_zero fun h0 => by rw [h0, Nat.div_zero] at h; exact lt_irrefl _ h
  refine ⟨fun p hp => ⟨(p : ℤ) * ((c.NzGlobal / c.size : ℕ) : ℤ) - c.nGuard, ?_, ?_⟩, fun i hi => ?_⟩
  · unfold Comm.getNzIz commDivision
    simp only [hd, hj]
    by_cases h1 : p + 1 = c.size <;> simp [h1]
  · have hN : 0 < c.NzGlobal := by
      by_contra h0
      rw [Nat.eq_zero_of_not_pos h0, Nat.zero_div] at h
      exact lt_irrefl _ h
    have hg : c.nGuard ≤ c.NzGlobal * c.nGuard := Nat.le_mul_of_pos_left _ hN
    show ((p * (c.NzGlobal / c.size) + (c.NzGlobal * c.nGuard - c.nGuard) : ℕ) : ℤ) ≡ _ [ZMOD c.NzGlobal]
    rw [Nat.cast_add, Nat.cast_sub hg, Nat.cast_mul, Nat.cast_mul]
    refine Int.modEq_iff_dvd.2 ⟨-(c.nGuard : ℤ), ?_⟩
    ring
  · exact lt_of_le_of_lt (min_le_right _ _) (by omega)

/-! ### The number of guard cells of the code -/

private theorem find_ok {f : ℕ → ℝ} {n r : ℕ} {p : ℕ → Bool} (hp : ∀ j, p j = true ↔ f j < 1 / 10 ^ 16) :
    (List.range n).find? p = some r ↔ r < n ∧ f r < 1 / 10 ^ 16 ∧ ∀ j < r, 1 / 10 ^ 16 ≤ f j := by
  rw [List.find?_range_eq_some]
  have h' : ∀ j, (!p j) = true ↔ 1 / 10 ^ 16 ≤ f j := by
    intro j
    rw [← not_lt, ← hp]
    simp
  simp only [hp, h', List.mem_range]
  tauto

private theorem reach_iff {N : ℕ} [NeZero N] {c cdt : ℝ} {kz : ℕ → ℝ} {kp : ℝ} {v : Option ℝ} {gal : Bool} {th : ℕ → ℂ}
    (ht : reachTheta c kz cdt v gal = .ok th) (r : ℕ) : stencilReach N c kz kp cdt v gal = .ok r ↔
      r < N / 2 ∧ |reachAlpha N kz kp cdt th r| < 1 / 10 ^ 16 ∧ ∀ j < r, 1 / 10 ^ 16 ≤ |reachAlpha N kz kp cdt th j| := by
  classical
  refine Iff.trans ?_ (find_ok (f := fun j => |reachAlpha N kz kp cdt th j|) (p := fun j => decide (|reachAlpha N kz kp cdt th j| < 1 / 10 ^ 16)) (fun j => by simp))
  unfold stencilReach
  rw [ht]
  show (match (List.range (N / 2)).find? (fun j => decide (|reachAlpha N kz kp cdt th j| < 1 / 10 ^ 16)) with
    | some j => (.ok j : Except PyErr ℕ)
    | none => .error (.indexError "index 0 is out of bounds for axis 0 with size 0")) = .ok r ↔ _
  convert Iff.rfl using 1
  cases hf : (List.range (N / 2)).find? (fun j => decide (|reachAlpha N kz kp cdt th j| < 1 / 10 ^ 16)) with
  | none => simp
  | some r => simp

private theorem reach_ok {N : ℕ} [NeZero N] {c cdt : ℝ} {kz : ℕ → ℝ} {kp : ℝ} {v : Option ℝ} {gal : Bool} {th : ℕ → ℂ}
    (ht : reachTheta c kz cdt v gal = .ok th) {r0 : ℕ} (hr : r0 < N / 2) (hs : |reachAlpha N kz kp cdt th r0| < 1 / 10 ^ 16) :
    ∃ r ≤ r0, stencilReach N c kz kp cdt v gal = .ok r := by
  classical
  have ex : ∃ r, |reachAlpha N kz kp cdt th r| < 1 / 10 ^ 16 := ⟨r0, hs⟩
  have hle := Nat.find_min' ex hs
  refine ⟨Nat.find ex, hle, (reach_iff ht _).2 ⟨by omega, Nat.find_spec ex, fun j hj => not_lt.1 (Nat.find_min ex hj)⟩⟩

/-- C112, the number of guard cells that the code determines: for the grid spacing, the time step and the order of a
simulation there is a number of cells such that, on every longer grid, the reach of the stencil is determined without an
error and is at most half this number, whatever the length of the grid. This holds for the standard, the comoving and the
Galilean solver. -/
theorem C112_reach_partial (c dz cdt : ℝ) (hdz : 0 < dz) (half : ℕ) (hh : 1 ≤ half) (v : Option ℝ) (gal : Bool) (hv : gal = true → v ≠ none) :
    ∃ r0 : ℕ, ∀ (N : ℕ) [NeZero N], 2 * (r0 + 1) ≤ N → ∃ r ≤ r0, getStencilReach N c cdt dz (2 * half) v gal = .ok r := by
  have mk : ∃ x, modifiedK 0 (2 * (half : ℤ)) dz = .ok x := by
    unfold modifiedK
    rw [if_neg (by omega), if_neg (by omega)]
    exact ⟨_, rfl⟩
  obtain ⟨x, mk⟩ := mk
  have h1 : (1 : ℝ) ≤ 2 := by norm_num
  have hε : (0 : ℝ) < 1 / 10 ^ 16 := by positivity
  by_cases hg : gal = true
  · obtain ⟨w, hw⟩ := Option.ne_none_iff_exists'.1 (hv hg)
    subst hw
    subst hg
    have ht : Loc 2 (fun θ => exp (I * (|w| : ℝ) * cdt / c / 2 * (xsym half dz θ : ℂ))) := loc_exp h1 half dz _
    obtain ⟨r0, h0⟩ := alpha_small hh hdz.ne' cdt ht hε
    refine ⟨r0, fun N _ hN => ?_⟩
    have := h0 N (by omega)
    obtain ⟨r, hr, hr'⟩ := reach_ok (N := N) (c := c) (cdt := cdt) (kz := fun i => (modifiedK (kzTrue N dz i) (2 * (half : ℤ)) dz).toOption.getD 0)
      (kp := 0.5) (v := some w) (gal := true) (th := fun i => exp (I * (|w| : ℝ) * cdt / c / 2 * (xsym half dz (kzTrue N dz i * dz) : ℂ)))
      (by
        unfold reachTheta
        rw [if_pos rfl]
        simp only [mk_eq hh]
        refine congrArg Except.ok (funext fun i => congrArg exp ?_)
        ring) (show r0 < N / 2 by omega) this
    refine ⟨r, hr, ?_⟩
    unfold getStencilReach
    rw [mk]
    exact hr'
  · have hg : gal = false := by simpa using hg
    subst hg
    obtain ⟨r0, h0⟩ := alpha_small hh hdz.ne' cdt (loc_const 1) hε
    refine ⟨r0, fun N _ hN => ?_⟩
    obtain ⟨r, hr, hr'⟩ := reach_ok (N := N) (c := c) (v := v) (gal := false) (th := fun _ => 1) (by unfold reachTheta; rw [if_neg (by decide)]) (show r0 < N / 2 by omega) (h0 N (by omega))
    refine ⟨r, hr, ?_⟩
    unfold getStencilReach
    rw [mk]
    exact hr'

/-- C112, meaning of the reach: it is the first cell in the first half of the grid in which the stencil is below the
threshold. -/
theorem C112_reach_first (N : ℕ) [NeZero N] (c dz cdt : ℝ) (half : ℕ) (hh : 1 ≤ half) (v : Option ℝ) (r : ℕ) :
    getStencilReach N c cdt dz (2 * half) v false = .ok r ↔ r < N / 2 ∧
      ∀ j ≤ r, (|reachAlpha N (fun i => xsym half dz (kzTrue N dz i * dz)) 0.5 cdt (fun _ => 1) j| < 1 / 10 ^ 16 ↔ j = r) := by
  have mk : ∃ x, modifiedK 0 (2 * (half : ℤ)) dz = .ok x := by
    unfold modifiedK
    rw [if_neg (by omega), if_neg (by omega)]
    exact ⟨_, rfl⟩
  obtain ⟨x, mk⟩ := mk
  unfold getStencilReach
  rw [mk]
  show stencilReach N c _ 0.5 cdt v false = .ok r ↔ _
  rw [reach_iff (th := fun _ => 1) (by unfold reachTheta; rw [if_neg (by decide)])]
  simp only [mk_eq hh]
  refine and_congr_right fun _ => ⟨fun ⟨h1, h2⟩ j hj => ⟨fun h => ?_, fun h => h ▸ h1⟩, fun h => ⟨(h r le_rfl).2 rfl, fun j hj => ?_⟩⟩
  · by_contra hne
    exact absurd h (not_lt.2 (h2 j (by omega)))
  · exact not_lt.1 fun hlt => absurd ((h j hj.le).1 hlt) (by omega)

/-! ### What fails -/

/-- The full statement that fails: on every grid, the reach is determined without an error. -/
def ReachDetermined : Prop := ∀ (N : ℕ) [NeZero N] (c dz cdt : ℝ), 0 < dz → ∀ half : ℕ, 1 ≤ half →
  ∃ r, getStencilReach N c cdt dz (2 * half) none false = .ok r

/-- The full statement that fails: beyond the reach, the stencil is below the threshold. -/
def ReachSuffices : Prop := ∀ (N : ℕ) [NeZero N] (c dz cdt : ℝ), 0 < dz → ∀ half : ℕ, 1 ≤ half → ∀ r,
  getStencilReach N c cdt dz (2 * half) none false = .ok r → ∀ j, r ≤ j → 2 * j ≤ N →
    |reachAlpha N (fun i => xsym half dz (kzTrue N dz i * dz)) 0.5 cdt (fun _ => 1) j| < 1 / 10 ^ 16

/-! A grid of four cells and the order 2, with `dz = 2/√3`. -/

private noncomputable def dzW : ℝ := 2 / Real.sqrt 3

private theorem sqrt3 : Real.sqrt 3 ^ 2 = 3 := Real.sq_sqrt (by norm_num)

private theorem dzW_pos : 0 < dzW := div_pos (by norm_num) (Real.sqrt_pos.2 (by norm_num))

private theorem x_four (i : ℕ) : xsym 1 dzW (kzTrue 4 dzW i * dzW) = Real.sin (2 * Real.pi * ((if i ≤ 1 then (i : ℝ) else (i : ℝ) - 4) / 4)) * (Real.sqrt 3 / 2) := by
  have h3 : Real.sqrt 3 ≠ 0 := (Real.sqrt_pos.2 (by norm_num)).ne'
  have e : kzTrue 4 dzW i * dzW = 2 * Real.pi * ((if i ≤ 1 then (i : ℝ) else (i : ℝ) - 4) / 4) := by
    have := dzW_pos.ne'
    unfold kzTrue fftfreq
    norm_num
    field_simp
  rw [e]
  unfold xsym
  rw [Finset.Icc_self, Finset.sum_singleton]
  have : stencilCoef 1 1 = 1 := by norm_num [stencilCoef]
  rw [this]
  unfold dzW
  push_cast
  field_simp

private noncomputable def kzW (i : ℕ) : ℝ := xsym 1 dzW (kzTrue 4 dzW i * dzW)

private theorem kzW0 : kzW 0 = 0 := by simp [kzW, x_four]

private theorem kzW1 : kzW 1 = Real.sqrt 3 / 2 := by
  unfold kzW
  rw [x_four, if_pos le_rfl]
  have : 2 * Real.pi * (((1 : ℕ) : ℝ) / 4) = Real.pi / 2 := by push_cast; ring
  rw [this, Real.sin_pi_div_two, one_mul]

private theorem kzW2 : kzW 2 = 0 := by
  unfold kzW
  rw [x_four, if_neg (by norm_num)]
  have : 2 * Real.pi * ((((2 : ℕ) : ℝ) - 4) / 4) = -Real.pi := by push_cast; ring
  rw [this, Real.sin_neg, Real.sin_pi, neg_zero, zero_mul]

private theorem kzW3 : kzW 3 = -(Real.sqrt 3 / 2) := by
  unfold kzW
  rw [x_four, if_neg (by norm_num)]
  have : 2 * Real.pi * ((((3 : ℕ) : ℝ) - 4) / 4) = -(Real.pi / 2) := by push_cast; ring
  rw [this, Real.sin_neg, Real.sin_pi_div_two]
  ring

private theorem kW_even {x : ℝ} (h : x = 0) : Real.sqrt (x ^ 2 + 0.5 ^ 2) = 1 / 2 := by
  rw [h, show (0 : ℝ) ^ 2 + 0.5 ^ 2 = (1 / 2) ^ 2 by norm_num, Real.sqrt_sq (by norm_num)]

private theorem kW_odd {x : ℝ} (h : x ^ 2 = 3 / 4) : Real.sqrt (x ^ 2 + 0.5 ^ 2) = 1 := by
  rw [h]
  norm_num

private theorem kzW_all : Real.sqrt (kzW 0 ^ 2 + 0.5 ^ 2) = 1 / 2 ∧ Real.sqrt (kzW 1 ^ 2 + 0.5 ^ 2) = 1 ∧
    Real.sqrt (kzW 2 ^ 2 + 0.5 ^ 2) = 1 / 2 ∧ Real.sqrt (kzW 3 ^ 2 + 0.5 ^ 2) = 1 := by
  have := sqrt3
  refine ⟨kW_even kzW0, kW_odd ?_, kW_even kzW2, kW_odd ?_⟩
  · rw [kzW1, div_pow, this]
    norm_num
  · rw [kzW3, neg_sq, div_pow, this]
    norm_num

private theorem ifft_four (F : ZMod 4 → ℂ) : ifftZ 4 F 0 = (F 0 + F 1 + F 2 + F 3) / 4 ∧
    ifftZ 4 F 1 = (F 0 + I * F 1 - F 2 - I * F 3) / 4 ∧ ifftZ 4 F 2 = (F 0 - F 1 + F 2 - F 3) / 4 := by
  have s4 : ∀ f : ZMod 4 → ℂ, ∑ k : ZMod 4, f k = f 0 + f 1 + f 2 + f 3 := fun f => Fin.sum_univ_four f
  have e : ∀ n : ℕ, exp (2 * Real.pi * I * (n : ℂ) / ((4 : ℕ) : ℂ)) = I ^ n := by
    intro n
    rw [show 2 * (Real.pi : ℂ) * I * (n : ℂ) / ((4 : ℕ) : ℂ) = n * ((Real.pi : ℂ) / 2 * I) by push_cast; ring, exp_nat_mul, exp_pi_div_two_mul_I]
  unfold ifftZ
  simp only [e, s4]
  have v0 : (0 : ZMod 4).val = 0 := rfl
  have v1 : (1 : ZMod 4).val = 1 := rfl
  have v2 : (2 : ZMod 4).val = 2 := rfl
  have v3 : (3 : ZMod 4).val = 3 := rfl
  have i3 : I ^ 3 = -I := by rw [pow_succ, I_sq]; ring
  have i4 : I ^ 4 = 1 := I_pow_four
  have i6 : I ^ 6 = -1 := by rw [show 6 = 4 + 2 by norm_num, pow_add, i4, I_sq]; ring
  simp only [v0, v1, v2, v3, Nat.zero_mul, Nat.mul_zero, Nat.one_mul, Nat.mul_one, pow_zero, pow_one, Nat.reduceMul, I_sq, i3, i4, i6]
  push_cast
  refine ⟨by ring, by ring, by ring⟩

private theorem stencils_four (cdt : ℝ) :
    cosStencil 4 kzW 0.5 cdt (fun _ => 1) 0 = (Real.cos (cdt / 2) + Real.cos cdt : ℝ) / 2 ∧
    cosStencil 4 kzW 0.5 cdt (fun _ => 1) 1 = 0 ∧
    cosStencil 4 kzW 0.5 cdt (fun _ => 1) 2 = (Real.cos (cdt / 2) - Real.cos cdt : ℝ) / 2 ∧
    sinZStencil 4 kzW 0.5 cdt (fun _ => 1) 1 = I * ((Real.sin cdt * Real.sqrt 3 : ℝ) / 4) ∧
    sinPerpStencil 4 kzW 0.5 cdt (fun _ => 1) 1 = 0 := by
  obtain ⟨k0, k1, k2, k3⟩ := kzW_all
  have v0 : (0 : ZMod 4).val = 0 := rfl
  have v1 : (1 : ZMod 4).val = 1 := rfl
  have v2 : (2 : ZMod 4).val = 2 := rfl
  have v3 : (3 : ZMod 4).val = 3 := rfl
  unfold cosStencil sinZStencil sinPerpStencil reachK
  have c0 : ((0 : ℕ) : ZMod 4) = 0 := rfl
  have c1 : ((1 : ℕ) : ZMod 4) = 1 := rfl
  have c2 : ((2 : ℕ) : ZMod 4) = 2 := rfl
  rw [c0, c1, c2, (ifft_four _).1, (ifft_four _).2.1, (ifft_four _).2.2, (ifft_four _).2.1, (ifft_four _).2.1]
  have h2 : (1 / 2 : ℝ) * cdt = cdt / 2 := by ring
  simp only [v0, v1, v2, v3, k0, k1, k2, k3, h2, one_mul]
  simp only [kzW0, kzW1, kzW2, kzW3]
  refine ⟨?_, ?_, ?_, ?_, ?_⟩ <;> norm_num <;> ring

private theorem norm_le_alpha (cdt : ℝ) (j : ℕ) : ‖cosStencil 4 kzW 0.5 cdt (fun _ => 1) j‖ ≤ |reachAlpha 4 kzW 0.5 cdt (fun _ => 1) j| ∧
    ‖sinZStencil 4 kzW 0.5 cdt (fun _ => 1) j‖ ≤ |reachAlpha 4 kzW 0.5 cdt (fun _ => 1) j| := by
  unfold reachAlpha
  rw [abs_of_nonneg (Real.sqrt_nonneg _)]
  exact ⟨Real.le_sqrt_of_sq_le (by nlinarith [sq_nonneg ‖sinZStencil 4 kzW 0.5 cdt (fun _ => 1) j‖, sq_nonneg ‖sinPerpStencil 4 kzW 0.5 cdt (fun _ => 1) j‖]),
    Real.le_sqrt_of_sq_le (by nlinarith [sq_nonneg ‖cosStencil 4 kzW 0.5 cdt (fun _ => 1) j‖, sq_nonneg ‖sinPerpStencil 4 kzW 0.5 cdt (fun _ => 1) j‖])⟩

/-- C112: the reach is not determined on a grid of four cells, for `c dt = π/2` (`IndexError`). -/
theorem C112_reach_violated : ¬ ReachDetermined := by
  intro h
  obtain ⟨r, hr⟩ := h 4 1 dzW (Real.pi / 2) dzW_pos 1 le_rfl
  obtain ⟨h1, h2⟩ := (C112_reach_first 4 1 dzW (Real.pi / 2) 1 le_rfl none r).1 hr
  have h3 : |reachAlpha 4 kzW 0.5 (Real.pi / 2) (fun _ => 1) r| < 1 / 10 ^ 16 := (h2 r le_rfl).2 rfl
  obtain ⟨s0, -, -, s1, -⟩ := stencils_four (Real.pi / 2)
  obtain ⟨n1, n2⟩ := norm_le_alpha (Real.pi / 2) r
  have r2 : r = 0 ∨ r = 1 := by omega
  have q2 : 1 ≤ Real.sqrt 2 := Real.one_le_sqrt.2 (by norm_num)
  have q3 : 1 ≤ Real.sqrt 3 := Real.one_le_sqrt.2 (by norm_num)
  rcases r2 with rfl | rfl
  · rw [s0, show Real.pi / 2 / 2 = Real.pi / 4 by ring, Real.cos_pi_div_four, Real.cos_pi_div_two, norm_div, norm_real, Real.norm_of_nonneg (by linarith)] at n1
    norm_num at n1 h3
    linarith
  · rw [s1, Real.sin_pi_div_two, norm_mul, norm_I, norm_div, norm_real, Real.norm_of_nonneg (by linarith)] at n2
    norm_num at n2 h3
    linarith

/-- C112: on a grid of four cells, for `c dt = π`, the reach is one cell although the stencil is larger than the
threshold in the next cell. -/
theorem C112_suffices_violated : ¬ ReachSuffices := by
  intro h
  obtain ⟨s0, s1, s2, s3, s4⟩ := stencils_four Real.pi
  rw [Real.sin_pi, zero_mul, ofReal_zero, zero_div, mul_zero] at s3
  rw [Real.cos_pi_div_two, Real.cos_pi] at s0 s2
  have a1 : reachAlpha 4 kzW 0.5 Real.pi (fun _ => 1) 1 = 0 := by
    unfold reachAlpha
    rw [s1, s3, s4]
    simp
  have a0 := (norm_le_alpha Real.pi 0).1
  have a2 := (norm_le_alpha Real.pi 2).1
  rw [s0] at a0
  rw [s2] at a2
  norm_num at a0 a2
  have hr : getStencilReach 4 1 Real.pi dzW (2 * ((1 : ℕ) : ℤ)) none false = .ok 1 := by
    refine (C112_reach_first 4 1 dzW Real.pi 1 le_rfl none 1).2 ⟨by norm_num, fun j hj => ?_⟩
    show |reachAlpha 4 kzW 0.5 Real.pi (fun _ => 1) j| < 1 / 10 ^ 16 ↔ j = 1
    have : j = 0 ∨ j = 1 := by omega
    rcases this with rfl | rfl
    · refine ⟨fun hlt => ?_, fun h => absurd h (by norm_num)⟩
      norm_num at hlt
      linarith
    · rw [a1]
      norm_num
  have := h 4 1 dzW Real.pi dzW_pos 1 le_rfl 1 hr 2 (by norm_num) (by norm_num)
  change |reachAlpha 4 kzW 0.5 Real.pi (fun _ => 1) 2| < 1 / 10 ^ 16 at this
  norm_num at this
  linarith

/-! ### Concrete cases -/

private noncomputable def parW : SolverPar := ⟨⟨1, 1, 1⟩, 1, 16, 1, 2, fun ir => ir, false⟩

private theorem parW_ok : parW.Ok := ⟨⟨one_pos, one_pos, one_pos, by norm_num [parW]⟩, one_pos, by norm_num [parW], one_pos⟩

/-- 100 cells and three processes with 20 guard cells. -/
private def commW : Comm := ⟨100, 3, 20, 0, 0, .periodic, .reflective, 1⟩

private theorem commW_pos : 0 < commW.NzGlobal / commW.size := by decide

/-- The cell 40 belongs to the process 1, in whose array of 73 cells it is the cell 27. -/
example : (commDivision commW commW_pos).own 40 = 1 ∧ (commDivision commW commW_pos).size 1 = 73 ∧ (commDivision commW commW_pos).loc 40 = 27 ∧
    (commDivision commW commW_pos).size 2 = 74 := by decide

/-- A unit field in the cell 3, without sources. -/
private def spike : Rows := fun i ir => if i = 3 ∧ ir = 1 then ⟨1, 0, 0, 0, 0, 0, 0, 0, 0, 0, 0, 0, 0, 0, 0, 0, 0⟩ else
  ⟨0, 0, 0, 0, 0, 0, 0, 0, 0, 0, 0, 0, 0, 0, 0, 0, 0⟩

private theorem spike_bounded : parW.Bounded 100 1 spike := by
  intro q i _ ir _
  unfold spike
  split_ifs <;> cases q <;> norm_num [Quant.of]

/-- The hypotheses of `C112_parallel` hold for ten steps of a solver of order 32 on three processes. -/
example : ∃ K : ℝ, ∀ i < 100, ∀ ir < 2, ‖(parW.parallel (commDivision commW commW_pos) (fun _ => spike) spike 10 i ir).Ep
    - (parW.serial 100 (fun _ => spike) spike 10 i ir).Ep‖ ≤ K * 1 / 1000 ^ 20 := by
  obtain ⟨K, h⟩ := C112_parallel parW parW_ok 1000 (by norm_num) 10
  exact ⟨K, fun i hi ir hir => h 100 20 (commDivision commW commW_pos) (fun _ => spike) spike 1 spike_bounded (fun _ => spike_bounded) .Ep i hi ir hir⟩

/-- The hypotheses of `C112_local`: a window of 40 cells in the grid of 100 cells. -/
example : ∃ K : ℝ, ∀ ir < 2, ‖(parW.solve 40 (fun j ir => spike ((90 + j) % 100) ir) 12 ir).Ep - (parW.solve 100 spike ((90 + 12) % 100) ir).Ep‖
    ≤ K * (0 + 1 / 1000 ^ 12) := by
  obtain ⟨K, h⟩ := C112_local parW parW_ok 1000 (by norm_num)
  refine ⟨K, fun ir hir => ?_⟩
  exact h 100 40 spike (fun j ir => spike ((90 + j) % 100) ir) 1 0 90 0 40 12 spike_bounded
    (fun q i _ ir hir => spike_bounded q _ (Nat.mod_lt _ (by norm_num)) ir hir) le_rfl le_rfl (fun q i _ _ ir _ => by simp) .Ep trivial 12 (by norm_num) (by norm_num) ir hir

/-- The Galilean solver with the speed `0.9 c`. -/
example : ∃ r0 : ℕ, ∀ (N : ℕ) [NeZero N], 2 * (r0 + 1) ≤ N → ∃ r ≤ r0, getStencilReach N 1 1 1 (2 * (16 : ℕ)) (some 0.9) true = .ok r :=
  C112_reach_partial 1 1 1 one_pos 16 (by norm_num) _ _ (by simp)

end Fbpic
