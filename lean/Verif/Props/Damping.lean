import Verif.Model.Damping
import Verif.Lemmas.Tactics

/-!
# C36: radial PML; C37: longitudinal damping
-/

namespace Fbpic

/-! ### C37 -/

/-- **C37** (profile): between 0 and 1, zero in the guard and injection cells, never decreasing
toward the interior, and one from the middle of the damping cells on. -/
theorem C37_profile (ng nd ni : ℕ) :
    (∀ i, 0 ≤ dampArray ng nd ni i ∧ dampArray ng nd ni i ≤ 1) ∧
    (∀ i, i < ng + ni → dampArray ng nd ni i = 0) ∧
    (∀ i j, i ≤ j → dampArray ng nd ni i ≤ dampArray ng nd ni j) ∧
    (∀ i, ng + ni ≤ i → (ng + ni : ℝ) + nd / 2 ≤ i → dampArray ng nd ni i = 1) := by
  have hb : ∀ i, 0 ≤ dampArray ng nd ni i ∧ dampArray ng nd ni i ≤ 1 := by
    intro i
    unfold dampArray
    simp only []
    split_ifs
    · norm_num
    · exact ⟨sq_nonneg _, Real.sin_sq_le_one _⟩
    · norm_num
  refine ⟨hb, ?_, ?_, ?_⟩
  · intro i hi
    simp [dampArray, hi]
  · intro i j hij
    by_cases hi : i < ng + ni
    · rw [show dampArray ng nd ni i = 0 by simp [dampArray, hi]]
      exact (hb j).1
    by_cases hj : (j : ℝ) < ng + ni + nd / 2
    · have hij' : (i : ℝ) ≤ j := by exact_mod_cast hij
      have hi' : (ng + ni : ℝ) ≤ i := by exact_mod_cast Nat.not_lt.1 hi
      unfold dampArray
      simp only []
      rw [if_neg hi, if_neg (show ¬ j < ng + ni by omega), if_pos hj,
        if_pos (show (i : ℝ) < ng + ni + nd / 2 by linarith)]
      have hnd : (0 : ℝ) < nd := by linarith
      have hp := Real.pi_pos
      have e : (2 * nd / 2 : ℝ) = nd := by ring
      rw [e]
      have h0 : ∀ x : ℝ, (ng + ni : ℝ) ≤ x → 0 ≤ (x - (ng + ni)) * Real.pi / nd := by
        intro x hx
        have : 0 ≤ x - (ng + ni) := by linarith
        positivity
      have hle : ((i : ℝ) - (ng + ni)) * Real.pi / nd ≤ (j - (ng + ni)) * Real.pi / nd := by
        gcongr
      have hmax : ((j : ℝ) - (ng + ni)) * Real.pi / nd ≤ Real.pi / 2 := by
        rw [div_le_div_iff₀ hnd (by norm_num)]
        nlinarith
      have h1 : 0 ≤ Real.sin (((i : ℝ) - (ng + ni)) * Real.pi / nd) :=
        Real.sin_nonneg_of_nonneg_of_le_pi (h0 _ hi') (by linarith)
      have h2 := Real.sin_le_sin_of_le_of_le_pi_div_two (by linarith [h0 _ hi']) hmax hle
      exact pow_le_pow_left₀ h1 h2 2
    · have h1 : dampArray ng nd ni j = 1 := by
        unfold dampArray
        simp only []
        rw [if_neg hj, if_neg (show ¬ j < ng + ni by omega)]
      rw [h1]
      exact (hb i).2
  · intro i h1 h2
    unfold dampArray
    simp only []
    rw [if_neg (show ¬ i < ng + ni by omega),
      if_neg (show ¬ (i : ℝ) < ng + ni + nd / 2 by linarith)]

example : dampArray 2 8 1 3 = 0 ∧ dampArray 2 8 1 5 = 1 / 2 ∧ dampArray 2 8 1 7 = 1 := by
  refine ⟨?_, ?_, ?_⟩
  · norm_num [dampArray]
  · have : 2 * Real.pi / 8 = Real.pi / 4 := by ring
    norm_num [dampArray, this, div_pow, Real.sq_sqrt]
  · norm_num [dampArray]

/-- The factor by which every component in row `i` of the arrays of rank `rank` is multiplied. -/
noncomputable def openDamping (c : Comm) (rank Nz i : ℕ) : ℝ :=
  if c.bz = .opened ∧ c.nzDamp ≠ 0 then
    (if rank = 0 then dampArray c.nGuard c.nzDamp c.nInject i else 1) *
    (if rank + 1 = c.size then dampArray c.nGuard c.nzDamp c.nInject (Nz - 1 - i) else 1)
  else 1

/-- All components multiplied by a factor that depends on the row (the PML ones only with PML). -/
noncomputable def EBGrid.scaled (Nz : ℕ) (f : ℕ → ℝ) (usePml : Bool) (g g' : EBGrid) : Prop :=
  ∀ i j, i < Nz →
    g'.Er i j = g.Er i j * f i ∧ g'.Et i j = g.Et i j * f i ∧ g'.Ez i j = g.Ez i j * f i ∧
    g'.Br i j = g.Br i j * f i ∧ g'.Bt i j = g.Bt i j * f i ∧ g'.Bz i j = g.Bz i j * f i ∧
    (usePml = true → g'.ErPml i j = g.ErPml i j * f i ∧ g'.EtPml i j = g.EtPml i j * f i ∧
      g'.BrPml i j = g.BrPml i j * f i ∧ g'.BtPml i j = g.BtPml i j * f i) ∧
    (usePml = false → g'.ErPml i j = g.ErPml i j ∧ g'.EtPml i j = g.EtPml i j ∧
      g'.BrPml i j = g.BrPml i j ∧ g'.BtPml i j = g.BtPml i j)

private theorem dampRows_scaled (Nz lo up : ℕ) (f : ℕ → ℝ) (F : ℕ → ℝ) (usePml : Bool) (g : EBGrid)
    (h : ∀ i, i < Nz → F i = if lo ≤ i ∧ i < up then f (i - lo) else 1) :
    g.scaled Nz F usePml (dampRows lo up f usePml g) := by
  intro i j hi
  rw [h i hi]
  by_cases hc : lo ≤ i ∧ i < up
  · cases usePml <;> simp [dampRows, scaleRows, hc]
  · cases usePml <;> simp [dampRows, scaleRows, hc]

private theorem scaled_trans {Nz : ℕ} {f f' : ℕ → ℝ} {usePml : Bool} {g g' g'' : EBGrid}
    (h : g.scaled Nz f usePml g') (h' : g'.scaled Nz f' usePml g'') :
    g.scaled Nz (fun i => f i * f' i) usePml g'' := by
  intro i j hi
  obtain ⟨a1, a2, a3, a4, a5, a6, a7, a8⟩ := h i j hi
  obtain ⟨b1, b2, b3, b4, b5, b6, b7, b8⟩ := h' i j hi
  rw [b1, b2, b3, b4, b5, b6, a1, a2, a3, a4, a5, a6]
  push_cast
  refine ⟨by ring, by ring, by ring, by ring, by ring, by ring, ?_, ?_⟩
  · intro hp
    obtain ⟨c1, c2, c3, c4⟩ := a7 hp
    obtain ⟨d1, d2, d3, d4⟩ := b7 hp
    rw [d1, d2, d3, d4, c1, c2, c3, c4]
    exact ⟨by ring, by ring, by ring, by ring⟩
  · intro hp
    obtain ⟨c1, c2, c3, c4⟩ := a8 hp
    obtain ⟨d1, d2, d3, d4⟩ := b8 hp
    rw [d1, d2, d3, d4, c1, c2, c3, c4]
    exact ⟨rfl, rfl, rfl, rfl⟩

private theorem dampArray_one {ng nd ni i : ℕ} (h : ng + nd + ni ≤ i) : dampArray ng nd ni i = 1 := by
  refine (C37_profile ng nd ni).2.2.2 i (by omega) ?_
  have : ((ng + nd + ni : ℕ) : ℝ) ≤ i := by exact_mod_cast h
  push_cast at this
  have h0 : (0 : ℝ) ≤ nd := Nat.cast_nonneg _
  linarith

/-- **C37** (application): on every rank of every decomposition, with the number of rows that the
decomposition gives this rank, the damping succeeds, and it multiplies row `i` of all components by
the profile counted from the left end (first rank), by the mirrored profile (last rank), by both
(single process), and by 1 on interior ranks, for periodic boundaries and without damping cells. -/
theorem C37_applied (c : Comm) (rank : ℕ) (hs : rank < c.size) (usePml : Bool) (g : EBGrid)
    (Nz : ℕ) (iz0 : ℤ) (hN : c.getNzIz true true true (some rank) = .ok (Nz, iz0)) :
    ∃ g', dampOpenBoundary c rank Nz usePml g = .ok g' ∧
      g.scaled Nz (openDamping c rank Nz) usePml g' := by
  have hone : ∀ g : EBGrid, g.scaled Nz (fun _ => 1) usePml g := by intro g i j _; simp
  unfold dampOpenBoundary
  by_cases hnd : c.nzDamp = 0
  · refine ⟨g, by simp [hnd], ?_⟩
    have : openDamping c rank Nz = fun _ => 1 := by funext i; simp [openDamping, hnd]
    rw [this]; exact hone g
  rw [if_pos hnd]
  cases hb : c.bz with
  | periodic =>
    have hl : c.leftProc rank ≠ none := by simp only [Comm.leftProc, hb]; split_ifs <;> simp
    have hr : c.rightProc rank ≠ none := by simp only [Comm.rightProc, hb]; split_ifs <;> simp
    refine ⟨g, by simp [hl, hr, bind, Except.bind], ?_⟩
    have : openDamping c rank Nz = fun _ => 1 := by funext i; simp [openDamping, hb]
    rw [this]; exact hone g
  | opened =>
    have hl : c.leftProc rank = none ↔ rank = 0 := by
      simp only [Comm.leftProc, hb]; split_ifs with h <;> simp [h]
    have hr : c.rightProc rank = none ↔ rank + 1 = c.size := by
      simp only [Comm.rightProc, hb]; split_ifs with h <;> simp [h]
    set nd := c.nGuard + c.nzDamp + c.nInject with hndd
    have hNz : (rank = 0 ∨ rank + 1 = c.size) → nd ≤ Nz := by
      intro h
      simp only [Comm.getNzIz, if_true, Except.ok.injEq, Prod.mk.injEq, true_and] at hN
      obtain ⟨h1, -⟩ := hN
      generalize c.NzGlobal / c.size = q, c.NzGlobal % c.size = q' at h1
      rcases h with h | h
      · simp only [h, if_true] at h1
        split_ifs at h1 <;> omega
      · simp only [h, if_true] at h1
        split_ifs at h1 <;> omega
    have hL : ∀ g : EBGrid, rank = 0 → g.scaled Nz (dampArray c.nGuard c.nzDamp c.nInject) usePml
        (dampRows 0 nd (dampArray c.nGuard c.nzDamp c.nInject) usePml g) := by
      intro g _
      apply dampRows_scaled
      intro i _
      by_cases hi : i < nd
      · simp [hi]
      · simp only [hi, and_false, if_false]
        exact dampArray_one (by omega)
    have hR : ∀ g : EBGrid, rank + 1 = c.size → g.scaled Nz
        (fun i => dampArray c.nGuard c.nzDamp c.nInject (Nz - 1 - i)) usePml
        (dampRows (Nz - nd) Nz (fun i => dampArray c.nGuard c.nzDamp c.nInject (nd - 1 - i))
          usePml g) := by
      intro g hr'
      apply dampRows_scaled
      intro i hi
      have := hNz (Or.inr hr')
      by_cases hi2 : Nz - nd ≤ i
      · simp only [hi2, hi, and_self, if_true]
        congr 1
        omega
      · simp only [hi2, false_and, if_false]
        exact dampArray_one (by omega)
    by_cases h0 : rank = 0
    · by_cases h1 : rank + 1 = c.size
      · refine ⟨_, by
          simp only [hl.2 h0, hr.2 h1, if_true, not_lt.2 (hNz (Or.inl h0)), if_false, bind,
            Except.bind]
          rfl, ?_⟩
        have := scaled_trans (hL g h0) (hR _ h1)
        convert this using 1
        funext i
        simp [openDamping, hb, hnd, h0]
        intro h; exact absurd (by omega) h
      · have hr' : c.rightProc rank ≠ none := fun h => h1 (hr.1 h)
        refine ⟨_, by
          simp only [hl.2 h0, hr', if_true, not_lt.2 (hNz (Or.inl h0)), if_false, bind,
            Except.bind]
          rfl, ?_⟩
        convert hL g h0 using 1
        funext i
        simp only [openDamping, hb, hnd, h1, ne_eq, not_false_eq_true, and_self, if_true, if_false,
          mul_one, if_pos h0]
    · have hl' : c.leftProc rank ≠ none := fun h => h0 (hl.1 h)
      by_cases h1 : rank + 1 = c.size
      · refine ⟨_, by
          simp only [hl', hr.2 h1, if_true, not_lt.2 (hNz (Or.inr h1)), if_false, bind,
            Except.bind]
          rfl, ?_⟩
        convert hR g h1 using 1
        funext i
        simp only [openDamping, hb, hnd, h0, ne_eq, not_false_eq_true, and_self, if_true, if_false,
          one_mul, if_pos h1]
      · have hr' : c.rightProc rank ≠ none := fun h => h1 (hr.1 h)
        refine ⟨g, by simp only [hl', hr', if_false, bind, Except.bind], ?_⟩
        convert hone g using 1
        funext i
        simp only [openDamping, hb, hnd, h0, h1, ne_eq, not_false_eq_true, and_self, if_true,
          if_false, mul_one]

/-- **C37** (consequences): the factor is between 0 and 1; it is 1 in every row of the physical
domain of every rank, on interior ranks and for periodic boundaries; at an open end it is 0 in the
guard and injection cells. -/
theorem C37_interior (c : Comm) (rank Nz i : ℕ) :
    (0 ≤ openDamping c rank Nz i ∧ openDamping c rank Nz i ≤ 1) ∧
    (c.bz = .periodic → openDamping c rank Nz i = 1) ∧
    (rank ≠ 0 → rank + 1 ≠ c.size → openDamping c rank Nz i = 1) ∧
    (c.nGuard + c.nzDamp + c.nInject ≤ i → i + (c.nGuard + c.nzDamp + c.nInject) < Nz →
      openDamping c rank Nz i = 1) ∧
    (c.bz = .opened → c.nzDamp ≠ 0 → rank = 0 → i < c.nGuard + c.nInject →
      openDamping c rank Nz i = 0) ∧
    (c.bz = .opened → c.nzDamp ≠ 0 → rank + 1 = c.size → i < Nz →
      Nz ≤ i + (c.nGuard + c.nInject) → openDamping c rank Nz i = 0) := by
  have hb := (C37_profile c.nGuard c.nzDamp c.nInject).1
  refine ⟨?_, ?_, ?_, ?_, ?_, ?_⟩
  · unfold openDamping
    split_ifs
    · exact ⟨mul_nonneg (hb _).1 (hb _).1, mul_le_one₀ (hb _).2 (hb _).1 (hb _).2⟩
    · simpa using hb _
    · simpa using hb _
    · norm_num
    · norm_num
  · intro h; simp [openDamping, h]
  · intro h1 h2; simp [openDamping, h1, h2]
  · intro h1 h2
    unfold openDamping
    rw [dampArray_one h1, dampArray_one (by omega)]
    simp
  · intro h1 h2 h3 h4
    simp [openDamping, h1, h2, h3, (C37_profile c.nGuard c.nzDamp c.nInject).2.1 i h4]
  · intro h1 h2 h3 h4 h5
    simp [openDamping, h1, h2, h3,
      (C37_profile c.nGuard c.nzDamp c.nInject).2.1 (Nz - 1 - i) (by omega)]

/-- A decomposition to which the theorems apply. -/
example : (⟨100, 2, 4, 8, 2, .opened, .reflective, 1⟩ : Comm).getNzIz true true true (some 0)
    = .ok (68, -14) := by decide

/-! ### C36 -/

/-- The damping factor at radial index `j` (1 outside the PML). -/
noncomputable def pmlFactor (Nr nPml : ℕ) (cdtOverDr : ℝ) (j : ℕ) : ℝ :=
  if Nr - nPml ≤ j ∧ j < Nr then pmlDampArray nPml cdtOverDr (j - (Nr - nPml)) else 1

/-- **C36** (profile): the factors are in (0, 1], equal to 1 in the innermost PML cell and outside
the PML, and never increase outwards. -/
theorem C36_profile (Nr nPml : ℕ) (cdtOverDr : ℝ) (h : 0 ≤ cdtOverDr) (hp : nPml ≤ Nr) :
    (∀ j, 0 < pmlFactor Nr nPml cdtOverDr j ∧ pmlFactor Nr nPml cdtOverDr j ≤ 1) ∧
    (∀ j, j ≤ Nr - nPml → pmlFactor Nr nPml cdtOverDr j = 1) ∧
    (∀ j j', j ≤ j' → j' < Nr → pmlFactor Nr nPml cdtOverDr j' ≤ pmlFactor Nr nPml cdtOverDr j) ∧
    (0 < cdtOverDr → ∀ j, Nr - nPml < j → j < Nr → pmlFactor Nr nPml cdtOverDr j < 1) := by
  have hb : ∀ j, 0 < pmlFactor Nr nPml cdtOverDr j ∧ pmlFactor Nr nPml cdtOverDr j ≤ 1 := by
    intro j
    unfold pmlFactor pmlDampArray
    split_ifs
    · refine ⟨Real.exp_pos _, Real.exp_le_one_iff.2 ?_⟩
      have : 0 ≤ 4 * cdtOverDr * (((j - (Nr - nPml) : ℕ) : ℝ) * 1 / nPml) ^ 2 := by positivity
      linarith
    · norm_num
  refine ⟨hb, ?_, ?_, ?_⟩
  · intro j hj
    unfold pmlFactor pmlDampArray
    split_ifs with hc
    · rw [show j - (Nr - nPml) = 0 by omega]; simp
    · rfl
  · intro j j' hj hj'
    by_cases hc : Nr - nPml ≤ j
    · unfold pmlFactor pmlDampArray
      rw [if_pos ⟨by omega, hj'⟩, if_pos ⟨hc, by omega⟩, Real.exp_le_exp]
      have h1 : ((j - (Nr - nPml) : ℕ) : ℝ) ≤ ((j' - (Nr - nPml) : ℕ) : ℝ) := by
        exact_mod_cast Nat.sub_le_sub_right hj _
      have h2 : (((j - (Nr - nPml) : ℕ) : ℝ) * 1 / nPml) ^ 2
          ≤ (((j' - (Nr - nPml) : ℕ) : ℝ) * 1 / nPml) ^ 2 := by gcongr
      nlinarith
    · rw [show pmlFactor Nr nPml cdtOverDr j = 1 by simp [pmlFactor, hc]]
      exact (hb j').2
  · intro hc j h1 h2
    unfold pmlFactor pmlDampArray
    rw [if_pos ⟨h1.le, h2⟩, Real.exp_lt_one_iff]
    have h3 : (0 : ℝ) < ((j - (Nr - nPml) : ℕ) : ℝ) := by exact_mod_cast (by omega)
    have h4 : (0 : ℝ) < nPml := by
      have : 0 < nPml := by omega
      exact_mod_cast this
    have : 0 < 4 * cdtOverDr * (((j - (Nr - nPml) : ℕ) : ℝ) * 1 / nPml) ^ 2 := by positivity
    linarith

/-- What the PML damping does to one cell, with factor `f`. -/
def PmlDamped (f : ℝ) (g g' : EBGrid) (i j : ℕ) : Prop :=
  g'.Ez i j = f * g.Ez i j ∧ g'.Bz i j = f * g.Bz i j ∧
  g'.EtPml i j = f * g.EtPml i j ∧ g'.BtPml i j = f * g.BtPml i j ∧
  g'.Et i j - g'.EtPml i j = g.Et i j - g.EtPml i j ∧
  g'.Bt i j - g'.BtPml i j = g.Bt i j - g.BtPml i j ∧
  g'.Er i j = g.Er i j ∧ g'.Br i j = g.Br i j ∧
  g'.ErPml i j = g.ErPml i j ∧ g'.BrPml i j = g.BrPml i j

/-- **C36** (CPU): for every width `1 ≤ n_pml ≤ Nr` the damping succeeds; in every cell of the
arrays it multiplies the longitudinal fields and the PML parts of the azimuthal fields by the
factor of the profile, keeps the remaining part of the azimuthal fields, and changes nothing else.
With factor 1, i.e. outside the PML, nothing changes at all. -/
theorem C36_cpu (Nz Nr nPml : ℕ) (cdtOverDr : ℝ) (h1 : 1 ≤ nPml) (h2 : nPml ≤ Nr) (g : EBGrid) :
    ∃ g', dampPmlCpu Nz Nr nPml cdtOverDr g = .ok g' ∧
      (∀ i j, i < Nz → j < Nr → PmlDamped (pmlFactor Nr nPml cdtOverDr j) g g' i j) ∧
      (∀ i j, ¬ (i < Nz ∧ j < Nr) ∨ j < Nr - nPml → PmlDamped 1 g g' i j ∧
        g'.Et i j = g.Et i j ∧ g'.Bt i j = g.Bt i j) := by
  refine ⟨_, by unfold dampPmlCpu; rw [if_neg (by omega)], ?_, ?_⟩
  · intro i j hi hj
    by_cases hc : Nr - nPml ≤ j
    · simp only [PmlDamped, updCols, hi, hc, hj, and_self, if_true, pmlFactor]
      refine ⟨?_, ?_, ?_, ?_, ?_, ?_, ?_⟩ <;> first | ring | trivial
    · simp only [PmlDamped, updCols, hi, hc, hj, and_true, and_false, if_false, pmlFactor,
        Complex.ofReal_one, one_mul, false_and, and_self]
  · intro i j h
    have hc : ¬ (i < Nz ∧ Nr - nPml ≤ j ∧ j < Nr) := by omega
    simp only [PmlDamped, updCols, hc, if_false, Complex.ofReal_one, one_mul, and_self]

/-- **C36** (absorption): the longitudinal fields and the PML parts never grow in modulus. -/
theorem C36_absorbs (Nz Nr nPml : ℕ) (cdtOverDr : ℝ) (h1 : 1 ≤ nPml) (h2 : nPml ≤ Nr)
    (h0 : 0 ≤ cdtOverDr) (g g' : EBGrid) (h : dampPmlCpu Nz Nr nPml cdtOverDr g = .ok g')
    (i j : ℕ) (hi : i < Nz) (hj : j < Nr) :
    ‖g'.Ez i j‖ ≤ ‖g.Ez i j‖ ∧ ‖g'.Bz i j‖ ≤ ‖g.Bz i j‖ ∧
    ‖g'.EtPml i j‖ ≤ ‖g.EtPml i j‖ ∧ ‖g'.BtPml i j‖ ≤ ‖g.BtPml i j‖ := by
  obtain ⟨g1, e, hd, -⟩ := C36_cpu Nz Nr nPml cdtOverDr h1 h2 g
  rw [h] at e
  cases e
  obtain ⟨a1, a2, a3, a4, -⟩ := hd i j hi hj
  have hf := (C36_profile Nr nPml cdtOverDr h0 h2).1 j
  have key : ∀ z : ℂ, ‖(pmlFactor Nr nPml cdtOverDr j : ℂ) * z‖ ≤ ‖z‖ := by
    intro z
    rw [norm_mul, Complex.norm_real, Real.norm_of_nonneg hf.1.le]
    exact mul_le_of_le_one_left (norm_nonneg _) hf.2
  rw [a1, a2, a3, a4]
  exact ⟨key _, key _, key _, key _⟩

/-- The threads cover each PML cell exactly once (`cuda_tpb_bpg_2d(Nz, n_pml)` launches at least one
thread per cell, each index pair once), in any order. -/
def PmlThreads (Nz nPml : ℕ) (threads : List (ℕ × ℕ)) : Prop :=
  threads.Nodup ∧ ∀ i j, i < Nz → j < nPml → (i, j) ∈ threads

/-- Values of the damped components of one cell. -/
private structure CellIs (g' g : EBGrid) (f : ℂ) (i j : ℕ) : Prop where
  ez : g'.Ez i j = f * g.Ez i j
  bz : g'.Bz i j = f * g.Bz i j
  etp : g'.EtPml i j = f * g.EtPml i j
  btp : g'.BtPml i j = f * g.BtPml i j
  et : g'.Et i j = g.Et i j - g.EtPml i j + f * g.EtPml i j
  bt : g'.Bt i j = g.Bt i j - g.BtPml i j + f * g.BtPml i j

private structure SameRad (g' g : EBGrid) : Prop where
  er : g'.Er = g.Er
  br : g'.Br = g.Br
  erp : g'.ErPml = g.ErPml
  brp : g'.BrPml = g.BrPml

private theorem CellIs.trans_one {g g' g'' : EBGrid} {f : ℂ} {i j : ℕ} (h : CellIs g' g f i j)
    (h' : CellIs g'' g' 1 i j) : CellIs g'' g f i j := by
  obtain ⟨a1, a2, a3, a4, a5, a6⟩ := h
  obtain ⟨b1, b2, b3, b4, b5, b6⟩ := h'
  refine ⟨?_, ?_, ?_, ?_, ?_, ?_⟩
  · rw [b1, a1, one_mul]
  · rw [b2, a2, one_mul]
  · rw [b3, a3, one_mul]
  · rw [b4, a4, one_mul]
  · rw [b5, a5]; ring
  · rw [b6, a6]; ring

private theorem CellIs.one_trans {g g' g'' : EBGrid} {f : ℂ} {i j : ℕ} (h : CellIs g' g 1 i j)
    (h' : CellIs g'' g' f i j) : CellIs g'' g f i j := by
  obtain ⟨a1, a2, a3, a4, a5, a6⟩ := h
  obtain ⟨b1, b2, b3, b4, b5, b6⟩ := h'
  refine ⟨?_, ?_, ?_, ?_, ?_, ?_⟩
  · rw [b1, a1, one_mul]
  · rw [b2, a2, one_mul]
  · rw [b3, a3, one_mul]
  · rw [b4, a4, one_mul]
  · rw [b5, a5, a3]; ring
  · rw [b6, a6, a4]; ring

private theorem thread_cell (Nz Nr nPml : ℕ) (d : ℕ → ℝ) (t : ℕ × ℕ) (g : EBGrid) (i j : ℕ) :
    (t.1 = i ∧ Nr - nPml + t.2 = j ∧ t.2 < nPml ∧ i < Nz →
      CellIs (dampPmlThread Nz Nr nPml d t.1 t.2 g) g (d t.2) i j) ∧
    (¬ (t.1 = i ∧ Nr - nPml + t.2 = j ∧ t.2 < nPml ∧ i < Nz) →
      CellIs (dampPmlThread Nz Nr nPml d t.1 t.2 g) g 1 i j) ∧
    SameRad (dampPmlThread Nz Nr nPml d t.1 t.2 g) g := by
  obtain ⟨a, b⟩ := t
  refine ⟨?_, ?_, ?_⟩
  · rintro ⟨h1, h2, h3, h4⟩
    simp only at h1 h2 h3
    subst h1 h2
    simp only [dampPmlThread, h3, h4, if_true]
    constructor <;> simp only [setAt, and_self, if_true] <;> ring
  · intro h
    simp only at h
    unfold dampPmlThread
    by_cases h3 : b < nPml
    · by_cases h4 : a < Nz
      · have hc : ¬ (i = a ∧ j = Nr - nPml + b) := by
          rintro ⟨rfl, rfl⟩
          exact h ⟨rfl, rfl, h3, h4⟩
        simp only [h3, h4, if_true]
        constructor <;> simp only [setAt, hc, if_false] <;> ring
      · simp only [h3, h4, if_true, if_false]
        constructor <;> ring
    · simp only [h3, if_false]
      constructor <;> ring
  · unfold dampPmlThread
    by_cases h3 : b < nPml
    · by_cases h4 : a < Nz
      · simp only [h3, h4, if_true]; exact ⟨rfl, rfl, rfl, rfl⟩
      · simp only [h3, h4, if_true, if_false]; exact ⟨rfl, rfl, rfl, rfl⟩
    · simp only [h3, if_false]; exact ⟨rfl, rfl, rfl, rfl⟩

private theorem threads_cell (Nz Nr nPml : ℕ) (d : ℕ → ℝ) (i j : ℕ) (L : List (ℕ × ℕ))
    (hL : L.Nodup) (g : EBGrid) :
    ((∃ t ∈ L, t.1 = i ∧ Nr - nPml + t.2 = j ∧ t.2 < nPml ∧ i < Nz) →
      CellIs (L.foldl (fun g t => dampPmlThread Nz Nr nPml d t.1 t.2 g) g) g
        (d (j - (Nr - nPml))) i j) ∧
    (¬ (∃ t ∈ L, t.1 = i ∧ Nr - nPml + t.2 = j ∧ t.2 < nPml ∧ i < Nz) →
      CellIs (L.foldl (fun g t => dampPmlThread Nz Nr nPml d t.1 t.2 g) g) g 1 i j) ∧
    SameRad (L.foldl (fun g t => dampPmlThread Nz Nr nPml d t.1 t.2 g) g) g := by
  induction L generalizing g with
  | nil =>
    refine ⟨by simp, fun _ => ?_, ⟨rfl, rfl, rfl, rfl⟩⟩
    simp only [List.foldl_nil]
    constructor <;> ring
  | cons t L ih =>
    rw [List.nodup_cons] at hL
    rw [List.foldl_cons]
    obtain ⟨i1, i2, i3⟩ := ih hL.2 (dampPmlThread Nz Nr nPml d t.1 t.2 g)
    obtain ⟨t1, t2, t3⟩ := thread_cell Nz Nr nPml d t g i j
    refine ⟨?_, ?_, ⟨i3.er.trans t3.er, i3.br.trans t3.br, i3.erp.trans t3.erp,
      i3.brp.trans t3.brp⟩⟩
    · rintro ⟨t', ht', hc⟩
      by_cases hh : t.1 = i ∧ Nr - nPml + t.2 = j ∧ t.2 < nPml ∧ i < Nz
      · have hnot : ¬ ∃ t ∈ L, t.1 = i ∧ Nr - nPml + t.2 = j ∧ t.2 < nPml ∧ i < Nz := by
          rintro ⟨u, hu, u1, u2, -, -⟩
          have : u = t := Prod.ext (by omega) (by omega)
          exact hL.1 (this ▸ hu)
        have e : j - (Nr - nPml) = t.2 := by omega
        rw [e]
        exact (t1 hh).trans_one (i2 hnot)
      · have hin : t' ∈ L := by
          rcases List.mem_cons.1 ht' with rfl | h
          · exact absurd hc hh
          · exact h
        exact (t2 hh).one_trans (i1 ⟨t', hin, hc⟩)
    · intro hno
      have hh : ¬ (t.1 = i ∧ Nr - nPml + t.2 = j ∧ t.2 < nPml ∧ i < Nz) :=
        fun h => hno ⟨t, by simp, h⟩
      have hno' : ¬ ∃ t ∈ L, t.1 = i ∧ Nr - nPml + t.2 = j ∧ t.2 < nPml ∧ i < Nz := by
        rintro ⟨u, hu, h⟩; exact hno ⟨u, by simp [hu], h⟩
      exact (t2 hh).trans_one (i2 hno')

/-- **C36** (GPU): the GPU kernel, run by any set of threads that covers the PML cells, in any
order, gives the same grid as the CPU code. -/
theorem C36_gpu (Nz Nr nPml : ℕ) (cdtOverDr : ℝ) (h1 : 1 ≤ nPml) (h2 : nPml ≤ Nr)
    (threads : List (ℕ × ℕ)) (ht : PmlThreads Nz nPml threads) (g : EBGrid) :
    dampPmlCpu Nz Nr nPml cdtOverDr g = .ok (dampPmlGpu Nz Nr nPml cdtOverDr threads g) := by
  obtain ⟨g', e, hin, hout⟩ := C36_cpu Nz Nr nPml cdtOverDr h1 h2 g
  rw [e]
  refine congrArg Except.ok ?_
  have hcover : ∀ i j, (∃ t ∈ threads, t.1 = i ∧ Nr - nPml + t.2 = j ∧ t.2 < nPml ∧ i < Nz) ↔
      (i < Nz ∧ Nr - nPml ≤ j ∧ j < Nr) := by
    intro i j
    constructor
    · rintro ⟨t, -, rfl, rfl, h3, h4⟩; omega
    · rintro ⟨a1, a2, a3⟩
      exact ⟨(i, j - (Nr - nPml)), ht.2 _ _ a1 (by omega), rfl, by simp only; omega,
        by simp only; omega, a1⟩
  have hcell : ∀ i j, g'.Er i j = g.Er i j ∧ g'.Br i j = g.Br i j ∧ g'.ErPml i j = g.ErPml i j ∧
      g'.BrPml i j = g.BrPml i j ∧ ∃ f, CellIs g' g f i j ∧
      CellIs (dampPmlGpu Nz Nr nPml cdtOverDr threads g) g f i j := by
    intro i j
    obtain ⟨k1, k2, -⟩ := threads_cell Nz Nr nPml (pmlDampArray nPml cdtOverDr) i j threads ht.1 g
    rw [hcover] at k1 k2
    by_cases hc : i < Nz ∧ Nr - nPml ≤ j ∧ j < Nr
    · obtain ⟨p1, p2, p3, p4, p5, p6, p7, p8, p9, p10⟩ := hin i j hc.1 hc.2.2
      refine ⟨p7, p8, p9, p10, _, ?_, k1 hc⟩
      rw [pmlFactor, if_pos hc.2] at p1 p2 p3 p4
      exact ⟨p1, p2, p3, p4, by linear_combination p5 + p3, by linear_combination p6 + p4⟩
    · obtain ⟨⟨p1, p2, p3, p4, p5, p6, p7, p8, p9, p10⟩, p11, p12⟩ := hout i j (by omega)
      refine ⟨p7, p8, p9, p10, _, ?_, k2 hc⟩
      rw [Complex.ofReal_one] at p1 p2 p3 p4
      exact ⟨p1, p2, p3, p4, by linear_combination p11, by linear_combination p12⟩
  have hr := (threads_cell Nz Nr nPml (pmlDampArray nPml cdtOverDr) 0 0 threads ht.1 g).2.2
  apply EBGrid.ext <;> funext i j <;> obtain ⟨c1, c2, c3, c4, f, c5, c6⟩ := hcell i j
  · rw [c1]; exact (congrFun (congrFun hr.er i) j).symm
  · rw [c5.et, c6.et]
  · rw [c5.ez, c6.ez]
  · rw [c2]; exact (congrFun (congrFun hr.br i) j).symm
  · rw [c5.bt, c6.bt]
  · rw [c5.bz, c6.bz]
  · rw [c3]; exact (congrFun (congrFun hr.erp i) j).symm
  · rw [c5.etp, c6.etp]
  · rw [c4]; exact (congrFun (congrFun hr.brp i) j).symm
  · rw [c5.btp, c6.btp]

/-- **C36** (widths that are refused): `n_pml = 0` and `n_pml > Nr` raise an error. -/
theorem C36_refused (Nz Nr nPml : ℕ) (cdtOverDr : ℝ) (g : EBGrid) :
    (∃ e, dampPmlCpu Nz Nr nPml cdtOverDr g = .error e) ↔ nPml = 0 ∨ Nr < nPml := by
  unfold dampPmlCpu
  by_cases h : nPml = 0 ∨ Nr < nPml
  · simp [h]
  · simp [h]

example : PmlThreads 2 1 [(0, 0), (1, 0), (2, 0), (0, 1)] :=
  ⟨by decide, by
    intro i j hi hj
    interval_cases i <;> interval_cases j <;> simp⟩

end Fbpic
