import Verif.Lemmas.Vacuum
import Verif.Props.Deposit

/-!
# C30: charge conservation after the current correction; C58: divergence correction
-/

namespace Fbpic

open Complex Spec

/-- The continuity equation of the scheme selected by `v_comoving = V` and `use_galilean`, for the
sources stored in a cell. -/
def SpecCell.Conserving (kz kr dt : ℝ) (V : Option ℝ) (useGalilean : Bool) (s : SpecCell) : Prop :=
  (schemeOf V useGalilean).Continuity kz kr dt s.rhoPrev s.rhoNext s.J

private theorem conserving_curlFree {k : Consts} (kz kr dt : ℝ) (V : Option ℝ) (b : Bool)
    (h : Regular k kz dt V) (hk : kz ≠ 0 ∨ kr ≠ 0) (s : SpecCell) :
    (correctCurrents .curlFree kz kr (psatdCoefs k kz kr dt V b) s).Conserving kz kr dt V b := by
  unfold SpecCell.Conserving
  rw [continuity_iff_jcorr kz kr dt V b h]
  have hne : ¬ (kz = 0 ∧ kr = 0) := by rintro ⟨h1, h2⟩; exact hk.elim (· h1) (· h2)
  have hk2 : (kz : ℂ) ^ 2 + kr ^ 2 ≠ 0 := by
    have : kz ^ 2 + kr ^ 2 ≠ 0 := by
      rcases hk with h | h <;> positivity
    exact_mod_cast this
  have hi : (invK2 kz kr : ℂ) * (kz ^ 2 + kr ^ 2) = 1 := by
    rw [invK2, if_neg hne]; push_cast; field_simp
  match V with
  | none =>
    simp only [correctCurrents, psatdCoefs, Option.map_none, curlFreeStandard, TccOf, jcorrOf, TebOf,
      SpecCell.J, div]
    push_cast
    linear_combination (invK2 kz kr * kz ^ 2 * ((s.rhoNext - s.rhoPrev) * (1 / dt) + I * kz * s.Jz
      + kr * (s.Jp - s.Jm))) * I_sq - ((s.rhoNext - s.rhoPrev) * (1 / dt) + I * kz * s.Jz
      + kr * (s.Jp - s.Jm)) * hi
  | some v =>
    simp only [correctCurrents, psatdCoefs, Option.map_some, curlFreeComoving, TccOf, jcorrOf, TebOf,
      SpecCell.J, div]
    linear_combination (invK2 kz kr * kz ^ 2 * (coefTcc kz dt v b * coefJcorr kz dt v *
      (s.rhoNext - s.rhoPrev * coefTeb kz dt v b) + I * kz * s.Jz
      + kr * (s.Jp - s.Jm))) * I_sq - (coefTcc kz dt v b * coefJcorr kz dt v *
      (s.rhoNext - s.rhoPrev * coefTeb kz dt v b) + I * kz * s.Jz
      + kr * (s.Jp - s.Jm)) * hi

theorem rho_correct (k : Consts) (m : CurrentCorrection) (kz kr dt : ℝ) (V : Option ℝ)
    (b : Bool) (s : SpecCell) :
    (correctCurrents m kz kr (psatdCoefs k kz kr dt V b) s).rhoPrev = s.rhoPrev ∧
    (correctCurrents m kz kr (psatdCoefs k kz kr dt V b) s).rhoNext = s.rhoNext ∧
    (correctCurrents m kz kr (psatdCoefs k kz kr dt V b) s).em = s.em := by
  cases V <;> cases m <;>
    simp only [correctCurrents, psatdCoefs, Option.map_none, Option.map_some, curlFreeStandard,
      curlFreeComoving, crossDepStandard, crossDepComoving, crossCorrect, SpecCell.em] <;>
    (try split_ifs) <;> simp

/-- **C30** (curl-free correction): after it the sources satisfy the continuity equation of the
scheme in use at every non-zero wavenumber, for any sources, any time step and any (non-resonant)
drift velocity. The correction changes neither the charge densities nor the fields. -/
theorem C30_curl_free (k : Consts) (g : SpecGrid) (dt : ℝ) (V : Option ℝ) (useGalilean : Bool)
    (iz ir : ℕ) (hz : iz < g.Nz) (hr : ir < g.Nr) (hreg : Regular k (g.kz iz) dt V)
    (hk : g.kz iz ≠ 0 ∨ g.kr ir ≠ 0) :
    let s := (g.correctCurrents k .curlFree dt V useGalilean).cell iz ir
    s.Conserving (g.kz iz) (g.kr ir) dt V useGalilean ∧
      s.rhoPrev = (g.cell iz ir).rhoPrev ∧ s.rhoNext = (g.cell iz ir).rhoNext ∧
      s.em = (g.cell iz ir).em := by
  simp only [SpecGrid.correctCurrents]
  rw [mapCells_cell _ _ hz hr]
  exact ⟨conserving_curlFree _ _ _ _ _ hreg hk _, rho_correct _ _ _ _ _ _ _ _⟩

private theorem cross_residual {k : Consts} (kz kr dt : ℝ) (V : Option ℝ) (b : Bool)
    (h : Regular k kz dt V) (s : SpecCell) :
    (correctCurrents .crossDeposition kz kr (psatdCoefs k kz kr dt V b) s).Conserving kz kr dt V b ↔
      (if kz = 0 then TccOf kz dt V b * jcorrOf kz dt V / 2 * (s.rhoNext
          - TebOf kz dt V b * s.rhoNextXY + s.rhoNextZ - TebOf kz dt V b * s.rhoPrev) else 0)
      + (if kr = 0 then TccOf kz dt V b * jcorrOf kz dt V / 2 * (s.rhoNext
          - s.rhoNextZ + TebOf kz dt V b * s.rhoNextXY - TebOf kz dt V b * s.rhoPrev) else 0) = 0 := by
  unfold SpecCell.Conserving
  rw [continuity_iff_jcorr kz kr dt V b h]
  apply Eq.congr_left
  by_cases hz : kz = 0
  · by_cases hr : kr = 0
    · subst hz; subst hr
      match V with
      | none =>
        simp only [correctCurrents, psatdCoefs, Option.map_none, crossDepStandard, crossCorrect, TccOf,
          jcorrOf, TebOf, SpecCell.J, div, ne_eq, not_true_eq_false, if_true, if_false]
        push_cast; ring
      | some v =>
        simp only [correctCurrents, psatdCoefs, Option.map_some, crossDepComoving, crossCorrect, TccOf,
          jcorrOf, TebOf, SpecCell.J, div, ne_eq, not_true_eq_false, if_true, if_false]
        push_cast; ring
    · subst hz
      have hrc : (kr : ℂ) ≠ 0 := by exact_mod_cast hr
      match V with
      | none =>
        simp only [correctCurrents, psatdCoefs, Option.map_none, crossDepStandard, crossCorrect, TccOf,
          jcorrOf, TebOf, SpecCell.J, div, ne_eq, not_true_eq_false, if_true, if_false, hr,
          not_false_eq_true]
        push_cast; field_simp; ring
      | some v =>
        simp only [correctCurrents, psatdCoefs, Option.map_some, crossDepComoving, crossCorrect, TccOf,
          jcorrOf, TebOf, SpecCell.J, div, ne_eq, not_true_eq_false, if_true, if_false, hr,
          not_false_eq_true]
        push_cast; field_simp; ring
  · have hzc : (kz : ℂ) ≠ 0 := by exact_mod_cast hz
    have hc : ∀ x : ℂ, I * kz * (I * x * (1 / kz)) = -x := fun x => by
      field_simp; linear_combination x * I_sq
    by_cases hr : kr = 0
    · subst hr
      match V with
      | none =>
        simp only [correctCurrents, psatdCoefs, Option.map_none, crossDepStandard, crossCorrect, TccOf,
          jcorrOf, TebOf, SpecCell.J, div, ne_eq, not_true_eq_false, if_true, if_false, hz,
          not_false_eq_true, mul_add (I * (kz : ℂ)), hc]
        push_cast; ring
      | some v =>
        simp only [correctCurrents, psatdCoefs, Option.map_some, crossDepComoving, crossCorrect, TccOf,
          jcorrOf, TebOf, SpecCell.J, div, ne_eq, not_true_eq_false, if_true, if_false, hz,
          not_false_eq_true, mul_add (I * (kz : ℂ)), hc]
        push_cast; ring
    · have hrc : (kr : ℂ) ≠ 0 := by exact_mod_cast hr
      match V with
      | none =>
        simp only [correctCurrents, psatdCoefs, Option.map_none, crossDepStandard, crossCorrect, TccOf,
          jcorrOf, TebOf, SpecCell.J, div, ne_eq, not_true_eq_false, if_true, if_false, hr, hz,
          not_false_eq_true, hc, mul_add (I * (kz : ℂ))]
        push_cast; field_simp; ring
      | some v =>
        simp only [correctCurrents, psatdCoefs, Option.map_some, crossDepComoving, crossCorrect, TccOf,
          jcorrOf, TebOf, SpecCell.J, div, ne_eq, not_true_eq_false, if_true, if_false, hr, hz,
          not_false_eq_true, hc, mul_add (I * (kz : ℂ))]
        push_cast; field_simp; ring

/-- **C30** (cross-deposition), for the wavenumbers with `kz ≠ 0` and `kr ≠ 0`: after the
correction the sources satisfy the continuity equation, whatever was deposited. -/
theorem C30_cross (k : Consts) (g : SpecGrid) (dt : ℝ) (V : Option ℝ) (useGalilean : Bool)
    (iz ir : ℕ) (hz : iz < g.Nz) (hr : ir < g.Nr) (hreg : Regular k (g.kz iz) dt V)
    (hkz : g.kz iz ≠ 0) (hkr : g.kr ir ≠ 0) :
    let s := (g.correctCurrents k .crossDeposition dt V useGalilean).cell iz ir
    s.Conserving (g.kz iz) (g.kr ir) dt V useGalilean ∧
      s.rhoPrev = (g.cell iz ir).rhoPrev ∧ s.rhoNext = (g.cell iz ir).rhoNext ∧
      s.em = (g.cell iz ir).em := by
  simp only [SpecGrid.correctCurrents]
  rw [mapCells_cell _ _ hz hr]
  exact ⟨(cross_residual _ _ _ _ _ hreg _).2 (by simp [hkz, hkr]), rho_correct _ _ _ _ _ _ _ _⟩

/-- **C30** (cross-deposition, all wavenumbers): the continuity equation holds after the
correction also where `kz = 0` or `kr = 0`, if the charge density at `kz = 0` does not depend on the
longitudinal positions (moving the particles along z only does not change it) and the charge
density at `kr = 0` vanishes. Both hold for what fbpic deposits and transforms:
`C30_kz0` for the first; the second because the Hankel transform of order `m` of a scalar of
mode `m ≥ 1` has a zero first column (`fields/spectral_transform/hankel.py:116-120`) and
`kr > 0` in mode 0. -/
theorem C30_cross_all (k : Consts) (g : SpecGrid) (dt : ℝ) (V : Option ℝ) (useGalilean : Bool)
    (iz ir : ℕ) (hz : iz < g.Nz) (hr : ir < g.Nr) (hreg : Regular k (g.kz iz) dt V)
    (hkz : g.kz iz = 0 → (g.cell iz ir).rhoNextXY = (g.cell iz ir).rhoNext ∧
      (g.cell iz ir).rhoNextZ = (g.cell iz ir).rhoPrev)
    (hkr : g.kr ir = 0 → (g.cell iz ir).rhoPrev = 0 ∧ (g.cell iz ir).rhoNext = 0 ∧
      (g.cell iz ir).rhoNextZ = 0 ∧ (g.cell iz ir).rhoNextXY = 0) :
    ((g.correctCurrents k .crossDeposition dt V useGalilean).cell iz ir).Conserving
      (g.kz iz) (g.kr ir) dt V useGalilean := by
  simp only [SpecGrid.correctCurrents]
  rw [mapCells_cell _ _ hz hr, cross_residual _ _ _ _ _ hreg]
  have hT : g.kz iz = 0 → TebOf (g.kz iz) dt V useGalilean = 1 := by
    intro h
    cases V <;> simp [TebOf, coefTeb, coefT2, h]
  have h1 : (if g.kz iz = 0 then TccOf (g.kz iz) dt V useGalilean * jcorrOf (g.kz iz) dt V / 2 *
      ((g.cell iz ir).rhoNext - TebOf (g.kz iz) dt V useGalilean * (g.cell iz ir).rhoNextXY
        + (g.cell iz ir).rhoNextZ - TebOf (g.kz iz) dt V useGalilean * (g.cell iz ir).rhoPrev)
      else 0) = 0 := by
    split_ifs with h
    · rw [hT h, (hkz h).1, (hkz h).2]; ring
    · rfl
  rw [h1, zero_add]
  split_ifs with h
  · obtain ⟨a1, a2, a3, a4⟩ := hkr h
    rw [a1, a2, a3, a4]; ring
  · rfl

/-- The same weight and transverse position; another longitudinal position, and possibly another momentum. -/
def DepPtcl.SameButZ (p p' : DepPtcl) : Prop := p'.x = p.x ∧ p'.y = p.y ∧ p'.w = p.w

/-- The same species with particles at other longitudinal positions. -/
def DepSpecies.SameButZ (sp sp' : DepSpecies) : Prop :=
  sp'.q = sp.q ∧ sp'.shape = sp.shape ∧ List.Forall₂ DepPtcl.SameButZ sp.ptcls sp'.ptcls

private theorem map_eq_of_forall₂ {α β : Type} {R : α → α → Prop} {f f' : α → β}
    (hf : ∀ a b, R a b → f a = f' b) {l l' : List α} (h : List.Forall₂ R l l') :
    l.map f = l'.map f' := by
  induction h with
  | nil => rfl
  | cons hab _ ih => rw [List.map_cons, List.map_cons, ih, hf _ _ hab]

private theorem column_adds (s : Shape) (g : CylGrid) (bn flip : ℝ) (scal : ℂ) (r z : ℝ)
    (F : ℕ → ℂ) :
    ((ptclAdds s g bn flip scal r z).map (addVal g.Nz g.Nr (fun _ j => F j))).sum
      = ∑ b ∈ Finset.range s.width, ((s.sr (g.rCell r) b flip bn : ℝ) : ℂ) * scal *
        F (foldCol g.Nr (wrapIdx (g.Nr + 4) (irCell s (g.rCell r) g.Nr + b))) := by
  unfold ptclAdds
  simp only []
  rw [list_map_flatMap_sum]
  simp only [addVal, Complex.ofReal_mul]
  have h1 := congrArg (fun x : ℝ => (x : ℂ)) (C22_longitudinal s (g.zCell z)).1
  simp only [Complex.ofReal_sum, Complex.ofReal_one] at h1
  simp only [mul_assoc]
  rw [Finset.sum_comm]
  apply Finset.sum_congr rfl
  intro b _
  rw [← Finset.sum_mul, h1, one_mul]

/-- **C30** (deposited sources at `kz = 0`): the sum over z of the deposited charge (its Fourier
component at `kz = 0`) in every radial cell and mode does not change when the particles are moved
along z only. Applied to the positions (new x, y; old z) and (new x, y, z) this says that
`rho_next_xy` and `rho_next` agree at `kz = 0`, and applied to (old x, y; new z) that `rho_next_z`
and `rho_prev` do. The grid may be displaced in between (Galilean frame). -/
theorem C30_kz0 (c : ℝ) (g : CylGrid) (zmin' : ℝ) (beta : Shape → ℕ → List ℝ) (m n : ℕ) (hn : 0 < n)
    (sps sps' : List DepSpecies) (A A' : Buf) (hz : 2 ≤ g.Nz) (hr : 2 ≤ g.Nr)
    (hs : List.Forall₂ DepSpecies.SameButZ sps sps')
    (h : depositAll .rho c g beta m n sps = .ok A)
    (h' : depositAll .rho c { g with zmin := zmin' } beta m n sps' = .ok A') (ir : ℕ) (hir : ir < g.Nr) :
    ∑ iz ∈ Finset.range g.Nz, A iz ir = ∑ iz ∈ Finset.range g.Nz, A' iz ir := by
  have key := pair_depositAll .rho c g beta m n hn sps A (fun _ j => if j = ir then 1 else 0) hz hr h
  have key' := pair_depositAll .rho c { g with zmin := zmin' } beta m n hn sps' A' (fun _ j => if j = ir then 1 else 0)
    hz hr h'
  unfold pair at key key'
  simp only [mul_ite, mul_one, mul_zero, Finset.sum_ite_eq', Finset.mem_range, hir, if_true]
    at key key'
  rw [key, key']
  congr 1
  refine map_eq_of_forall₂ ?_ hs
  intro sp sp' ⟨hq, hshape, hp⟩
  rw [hq, hshape]
  split_ifs
  · rfl
  · congr 1
    refine map_eq_of_forall₂ ?_ hp
    intro p p' hpp
    unfold addsOf
    rw [column_adds sp.shape g _ _ _ _ p.z (fun j => if j = ir then 1 else 0),
      column_adds sp.shape { g with zmin := zmin' } _ _ _ _ p'.z (fun j => if j = ir then 1 else 0)]
    obtain ⟨hx, hy, hw⟩ := hpp
    unfold betaOf betaIdx scalOf DepField.scal0
    simp only [hx, hy, hw]
    rfl

/-- **C30** at zero wavenumber with the curl-free correction: it does nothing there, and the
continuity equation holds exactly if the total charge did not change. -/
theorem C30_zero_iff (k : Consts) (g : SpecGrid) (dt : ℝ) (V : Option ℝ) (useGalilean : Bool)
    (iz ir : ℕ) (hz : iz < g.Nz) (hr : ir < g.Nr) (hdt : dt ≠ 0)
    (hkz : g.kz iz = 0) (hkr : g.kr ir = 0) :
    ((g.correctCurrents k .curlFree dt V useGalilean).cell iz ir).Conserving
      (g.kz iz) (g.kr ir) dt V useGalilean ↔ (g.cell iz ir).rhoNext = (g.cell iz ir).rhoPrev := by
  simp only [SpecGrid.correctCurrents]
  rw [mapCells_cell _ _ hz hr, hkz, hkr, SpecCell.Conserving, continuity_iff _ _ _ hdt,
    (rho_correct k _ _ _ _ _ _ _).1, (rho_correct k _ _ _ _ _ _ _).2.1]
  have hT : TebOf 0 dt V useGalilean = 1 := by cases V <;> simp [TebOf, coefTeb, coefT2]
  rw [hT]
  simp [div, sub_eq_zero]

/-- **C30 does not hold for arbitrary sources**: at `kz = 0` the cross-deposition correction leaves
the longitudinal residual, at `kr = 0` the transverse one. Here `kz = 0`, `kr = 1`, `dt = 1`, and
the charge densities are 0, 1, 0, 0. -/
theorem C30_violated : ∃ (s : SpecCell),
    ¬ (correctCurrents .crossDeposition 0 1 (psatdCoefs ⟨1, 1, 1⟩ 0 1 1 none false) s).Conserving
      0 1 1 none false := by
  refine ⟨⟨0, 0, 0, 0, 0, 0, 0, 0, 0, 0, 1, 0, 0, 0, 0, 0, 0⟩, ?_⟩
  rw [cross_residual (k := ⟨1, 1, 1⟩) 0 1 1 none false ⟨one_ne_zero, by simp⟩]
  norm_num [TccOf, jcorrOf, TebOf]

/-- The hypotheses of `C30_curl_free` can be met with a drift velocity. -/
example : Regular ⟨1, 1, 1⟩ 1 1 (some 0.5) :=
  regular_of_lt one_ne_zero (by rw [abs_of_pos] <;> norm_num) (by
    rw [abs_of_pos (by norm_num)]
    norm_num
    have := Real.two_le_pi
    linarith)

/-! ### C58 -/

/-- **C58** (curl-free): after the divergence correction Gauss' law holds at every non-zero
wavenumber; the curl of E (its transverse part), the magnetic field and the sources are unchanged. -/
theorem C58_gauss_partial (k : Consts) (kz kr : ℝ) (hk : kz ≠ 0 ∨ kr ≠ 0)
    (s : SpecCell) : ∃ s', correctDivE k .curlFree kz kr s = .ok s' ∧
      div kz kr s'.em.E = s.rhoPrev / k.eps0 ∧ curl kz kr s'.em.E = curl kz kr s.em.E ∧
      s'.em.B = s.em.B ∧ s'.J = s.J ∧ s'.rhoPrev = s.rhoPrev ∧ s'.rhoNext = s.rhoNext := by
  have hne : ¬ (kz = 0 ∧ kr = 0) := by rintro ⟨h1, h2⟩; exact hk.elim (· h1) (· h2)
  have hk2 : (kz : ℂ) ^ 2 + kr ^ 2 ≠ 0 := by
    have : kz ^ 2 + kr ^ 2 ≠ 0 := by rcases hk with h | h <;> positivity
    exact_mod_cast this
  have hi : (invK2 kz kr : ℂ) * (kz ^ 2 + kr ^ 2) = 1 := by
    rw [invK2, if_neg hne]; push_cast; field_simp
  refine ⟨_, rfl, ?_, ?_, rfl, rfl, rfl, rfl⟩
  · simp only [SpecCell.em, div]
    linear_combination (invK2 kz kr * kz ^ 2 * (-s.rhoPrev / k.eps0 + I * kz * s.Ez
      + kr * (s.Ep - s.Em))) * I_sq - (-s.rhoPrev / k.eps0 + I * kz * s.Ez
      + kr * (s.Ep - s.Em)) * hi
  · have hI : ∀ x : ℂ, -(I / 2) * kr * (-I * kz * x) = -(1 / 2) * kr * kz * x := fun x => by
      linear_combination (1 / 2 * kr * kz * x) * I_sq
    simp only [SpecCell.em, curl, V3.mk.injEq]
    refine ⟨?_, ?_, ?_⟩
    · rw [mul_add (-(I / 2) * kr), hI]; ring
    · rw [mul_add (-(I / 2) * kr), hI]; ring
    · ring

/-- **C58** (zero wavenumber): the correction does nothing there. -/
theorem C58_zero_partial (k : Consts) (s : SpecCell) : correctDivE k .curlFree 0 0 s = .ok s := by
  simp [correctDivE, invK2]

/-- **C58 is false for `current_correction='cross-deposition'`**: the divergence correction reads an
array that only exists with the curl-free current correction, and raises an error for every state. -/
theorem C58_violated (k : Consts) (kz kr : ℝ) (s : SpecCell) :
    ∀ s', correctDivE k .crossDeposition kz kr s ≠ .ok s' := by
  simp [correctDivE]

end Fbpic
