import Verif.Props.CylCharge
import Verif.Props.StencilSign

/-!
# C30: cross-deposition, from the particles to the spectral grid
-/

namespace Fbpic

open Complex Spec Transform CellVolume

/-- `S` is what `deposit('rho_...')` leaves on the spectral grid of the mode `m` for the species `sps` (main.py:619-662,
without MPI exchange, as in `step`): charge deposited on the grid, divided by the volumes, transformed, multiplied by
the filter (`filt = 1` if `filter_currents` is false). -/
def Spec.DepositedRho (T : Trans) [NeZero T.Nz] (vol : ℕ → ℝ) (filt : ℕ → ℕ → ℝ) (c : ℝ) (G : CylGrid)
    (beta : Shape → ℕ → List ℝ) (m n : ℕ) (sps : List DepSpecies) (S : ℕ → ℕ → ℂ) : Prop :=
  ∃ (A : Buf) (mem : Mem) (interp spect : ℕ), depositAll .rho c G beta m n sps = .ok A ∧
    EqOn T.Nz T.Nr (mem interp) (divideByVolume vol A) ∧
    ∀ iz ir, iz < T.Nz → ir < T.Nr → S iz ir = filt iz ir * T.interp2spectScal interp spect mem spect iz ir

section
variable {T : Trans} [NeZero T.Nz] {vol : ℕ → ℝ} {filt : ℕ → ℕ → ℝ} {c : ℝ} {G : CylGrid} {beta : Shape → ℕ → List ℝ}
  {m n : ℕ} {sps sps' : List DepSpecies} {S S' : ℕ → ℕ → ℂ}

/-- At `kz = 0` the deposited density depends only on the transverse positions. -/
private theorem deposited_row0 (hT : TransOk m T) (hGz : G.Nz = T.Nz) (hGr : G.Nr = T.Nr) (hn : 0 < n) (h2z : 2 ≤ G.Nz)
    (h2r : 2 ≤ G.Nr) (hs : List.Forall₂ DepSpecies.SameButZ sps sps') {zmin' : ℝ}
    (h : DepositedRho T vol filt c G beta m n sps S)
    (h' : DepositedRho T vol filt c { G with zmin := zmin' } beta m n sps' S') {ir : ℕ} (hr : ir < T.Nr) :
    S 0 ir = S' 0 ir := by
  obtain ⟨A, mem, i, sp, hA, hm, hS⟩ := h
  obtain ⟨A', mem', i', sp', hA', hm', hS'⟩ := h'
  have h0 : 0 < T.Nz := Nat.pos_of_ne_zero (NeZero.ne _)
  rw [hS 0 ir h0 hr, hS' 0 ir h0 hr, (C66_scal_spect hT i sp mem).1 0 ir h0 hr,
    (C66_scal_spect hT i' sp' mem').1 0 ir h0 hr]
  congr 1
  unfold hankel
  refine Finset.sum_congr rfl fun l hl => ?_
  have hl := Finset.mem_range.1 hl
  rw [fftAxis0_zero, fftAxis0_zero]
  congr 1
  have key := C30_kz0 c G zmin' beta m n hn sps sps' A A' h2z h2r hs hA hA' l (by omega)
  rw [hGz] at key
  rw [Finset.sum_congr rfl fun k hk => hm k l (Finset.mem_range.1 hk) hl,
    Finset.sum_congr rfl fun k hk => hm' k l (Finset.mem_range.1 hk) hl]
  unfold divideByVolume
  rw [← Finset.sum_mul, ← Finset.sum_mul, key]

/-- The lowest radial component of the modes other than 0 is empty. -/
private theorem deposited_low (hT : TransOk m T) (hm : m ≠ 0) (h : DepositedRho T vol filt c G beta m n sps S) {iz : ℕ}
    (hz : iz < T.Nz) (hr : 0 < T.Nr) : S iz 0 = 0 := by
  obtain ⟨A, mem, i, sp, hA, _, hS⟩ := h
  rw [hS iz 0 hz hr, (C66_scal_spect hT i sp mem).2.1 (by exact_mod_cast hm) hr iz hz, mul_zero]

private theorem deposited_filt (h : DepositedRho T vol filt c G beta m n sps S) {iz ir : ℕ}
    (hz : iz < T.Nz) (hr : ir < T.Nr) (hf : filt iz ir = 0) : S iz ir = 0 := by
  obtain ⟨A, mem, i, sp, hA, _, hS⟩ := h
  rw [hS iz ir hz hr, hf]; simp

end

/-- **C30** (cross-deposition, from the particles to the corrected current): the four charge densities are those of the
particles at `(x, y, z)[n]`, `(x, y, z)[n+1]`, `(x, y)[n+1], z[n]` and `(x, y)[n], z[n+1]`, each deposited on the
grid at the place it has then (it moves in a Galilean frame), transformed and filtered. Then after the correction the
continuity equation holds at all wavenumbers. The array `kz` of the solver is 0 only at index 0 and where the filter
removes everything (for a finite `n_order`, at the Nyquist wavenumber: `C30_kz_zero`), and `kr` is 0 only in the
first column of the modes other than 0. -/
theorem C30_cross_deposited (k : Consts) (g : SpecGrid) (dt : ℝ) (V : Option ℝ) (useGalilean : Bool) (m : ℕ) {T : Trans}
    [NeZero T.Nz] (hT : TransOk m T) (hgz : g.Nz = T.Nz) (hgr : g.Nr = T.Nr)
    (hreg : ∀ iz, iz < g.Nz → Regular k (g.kz iz) dt V)
    (vol : ℕ → ℝ) (filt : ℕ → ℕ → ℝ) (c : ℝ) (G : CylGrid) (hGz : G.Nz = T.Nz) (hGr : G.Nr = T.Nr)
    (h2z : 2 ≤ G.Nz) (h2r : 2 ≤ G.Nr) (beta : Shape → ℕ → List ℝ) (n : ℕ) (hn : 0 < n)
    (hkz : ∀ iz, iz < g.Nz → g.kz iz = 0 → iz = 0 ∨ ∀ ir, filt iz ir = 0)
    (hkr : ∀ ir, ir < g.Nr → g.kr ir = 0 → m ≠ 0 ∧ ir = 0)
    (zmin zmin' : ℝ) (prev next nextXY nextZ : List DepSpecies)
    (hxy : List.Forall₂ DepSpecies.SameButZ nextXY next) (hz : List.Forall₂ DepSpecies.SameButZ prev nextZ)
    (h1 : DepositedRho T vol filt c { G with zmin := zmin } beta m n prev fun iz ir => (g.cell iz ir).rhoPrev)
    (h2 : DepositedRho T vol filt c { G with zmin := zmin' } beta m n next fun iz ir => (g.cell iz ir).rhoNext)
    (h3 : DepositedRho T vol filt c { G with zmin := zmin } beta m n nextXY fun iz ir => (g.cell iz ir).rhoNextXY)
    (h4 : DepositedRho T vol filt c { G with zmin := zmin' } beta m n nextZ fun iz ir => (g.cell iz ir).rhoNextZ)
    (iz ir : ℕ) (hiz : iz < g.Nz) (hir : ir < g.Nr) :
    ((g.correctCurrents k .crossDeposition dt V useGalilean).cell iz ir).Conserving (g.kz iz) (g.kr ir) dt V
      useGalilean := by
  have hiz' : iz < T.Nz := by omega
  have hir' : ir < T.Nr := by omega
  refine C30_cross_all k g dt V useGalilean iz ir hiz hir (hreg iz hiz) (fun h0 => ?_) (fun h0 => ?_)
  · rcases hkz iz hiz h0 with rfl | hf
    · exact ⟨deposited_row0 (G := { G with zmin := zmin }) hT hGz hGr hn h2z h2r hxy h3 h2 hir',
        (deposited_row0 (G := { G with zmin := zmin }) hT hGz hGr hn h2z h2r hz h1 h4 hir').symm⟩
    · have e1 := deposited_filt h1 hiz' hir' (hf ir)
      have e2 := deposited_filt h2 hiz' hir' (hf ir)
      have e3 := deposited_filt h3 hiz' hir' (hf ir)
      have e4 := deposited_filt h4 hiz' hir' (hf ir)
      exact ⟨e3.trans e2.symm, e4.trans e1.symm⟩
  · obtain ⟨hm, rfl⟩ := hkr ir hir h0
    exact ⟨deposited_low hT hm h1 hiz' hir', deposited_low hT hm h2 hiz' hir', deposited_low hT hm h4 hiz' hir',
      deposited_low hT hm h3 hiz' hir'⟩

/-- The hypotheses can be met, for the mode 1, with a particle that crosses cells in both directions, a Galilean
frame and no filter. -/
example : ∃ (T : Trans) (_ : NeZero T.Nz) (g : SpecGrid) (G : CylGrid) (prev next nextXY nextZ : List DepSpecies)
    (vol : ℕ → ℝ) (beta : Shape → ℕ → List ℝ),
    TransOk 1 T ∧ g.Nz = T.Nz ∧ g.Nr = T.Nr ∧ G.Nz = T.Nz ∧ G.Nr = T.Nr ∧ 2 ≤ G.Nz ∧ 2 ≤ G.Nr ∧
    (∀ iz, iz < g.Nz → Regular ⟨1, 1, 1⟩ (g.kz iz) 1 (some (1 / 2))) ∧
    (∀ iz, iz < g.Nz → g.kz iz = 0 → iz = 0) ∧ (∀ ir, ir < g.Nr → g.kr ir = 0 → (1 : ℕ) ≠ 0 ∧ ir = 0) ∧
    List.Forall₂ DepSpecies.SameButZ nextXY next ∧ List.Forall₂ DepSpecies.SameButZ prev nextZ ∧
    DepositedRho T vol (fun _ _ => 1) 1 { G with zmin := 0 } beta 1 2 prev (fun iz ir => (g.cell iz ir).rhoPrev) ∧
    DepositedRho T vol (fun _ _ => 1) 1 { G with zmin := 1 / 2 } beta 1 2 next (fun iz ir => (g.cell iz ir).rhoNext) ∧
    DepositedRho T vol (fun _ _ => 1) 1 { G with zmin := 0 } beta 1 2 nextXY (fun iz ir => (g.cell iz ir).rhoNextXY) ∧
    DepositedRho T vol (fun _ _ => 1) 1 { G with zmin := 1 / 2 } beta 1 2 nextZ (fun iz ir => (g.cell iz ir).rhoNextZ) ∧
    prev ≠ nextZ ∧ prev ≠ nextXY := by
  obtain ⟨T, hz, hr, hT⟩ : ∃ T : Trans, T.Nz = 3 ∧ T.Nr = 2 ∧ TransOk 1 T := ⟨_, rfl, rfl, exists_transOk⟩
  haveI hne : NeZero T.Nz := ⟨by omega⟩
  let beta : Shape → ℕ → List ℝ := fun _ _ => List.replicate 3 0
  let P : ℝ → ℝ → List DepSpecies := fun x z => [⟨1, .linear, [⟨x, 0, z, 1, 0, 0, 0, 1⟩]⟩]
  let G : CylGrid := ⟨1, 0, 3, 1, 0, 2⟩
  have hdep : ∀ (zmin x z : ℝ), 0 ≤ z - zmin → z - zmin ≤ 3 →
      ∃ S, DepositedRho T 1 (fun _ _ => 1) 1 { G with zmin := zmin } beta 1 2 (P x z) S := fun zmin x z h1 h2 => by
    obtain ⟨A, hA⟩ := C24_deposit_partial .rho 1 { G with zmin := zmin } beta 1 2 two_pos (P x z)
      (fun _ _ => by simp [beta, G]) (by norm_num [G]) rfl (fun sp hsp p hp => by
        obtain rfl := List.mem_singleton.1 hsp
        obtain rfl := List.mem_singleton.1 hp
        constructor <;> simp only [Shape.reach, G] <;> norm_num <;> linarith)
    exact ⟨_, A, fun _ => divideByVolume 1 A, 0, 1, hA, fun _ _ _ _ => rfl, fun iz ir _ _ => rfl⟩
  obtain ⟨S1, h1⟩ := hdep 0 1 1 (by norm_num) (by norm_num)
  obtain ⟨S2, h2⟩ := hdep (1 / 2) (3 / 2) 2 (by norm_num) (by norm_num)
  obtain ⟨S3, h3⟩ := hdep 0 (3 / 2) 1 (by norm_num) (by norm_num)
  obtain ⟨S4, h4⟩ := hdep (1 / 2) 1 2 (by norm_num) (by norm_num)
  let g : SpecGrid := ⟨3, 2, fun iz => if iz = 0 then 0 else 1, fun ir => ir, fun iz ir =>
    { (⟨0, 0, 0, 0, 0, 0, 0, 0, 0, 0, 0, 0, 0, 0, 0, 0, 0⟩ : SpecCell) with
      rhoPrev := S1 iz ir, rhoNext := S2 iz ir, rhoNextXY := S3 iz ir, rhoNextZ := S4 iz ir }⟩
  have hsame : ∀ x z z', List.Forall₂ DepSpecies.SameButZ (P x z) (P x z') := fun x z z' =>
    .cons ⟨rfl, rfl, .cons ⟨rfl, rfl, rfl⟩ .nil⟩ .nil
  refine ⟨T, hne, g, G, P 1 1, P (3 / 2) 2, P (3 / 2) 1, P 1 2, 1, beta, hT, hz.symm, hr.symm, hz.symm, hr.symm,
    by norm_num [G], by norm_num [G], fun iz _ => ?_, fun iz _ h => ?_, fun ir _ h => ⟨one_ne_zero, ?_⟩,
    hsame _ _ _, hsame _ _ _, h1, h2, h3, h4, by norm_num [P], by norm_num [P]⟩
  · have := Real.two_le_pi
    refine regular_of_lt one_ne_zero (by rw [abs_of_pos] <;> norm_num) ?_
    simp only [g]
    split_ifs
    · simp; positivity
    · rw [abs_of_pos (by norm_num)]
      norm_num
      linarith
  · by_contra h0
    simp [g, h0] at h
  · simpa [g] using h

/-- **C30** (where `kz` is 0): for `n_order = -1` only at index 0; for a finite order also at the Nyquist wavenumber,
which a filter of one or more passes along z removes. -/
theorem C30_kz_zero (Nz : ℕ) (hNz : 0 < Nz) (dz : ℝ) (hdz : 0 < dz) (nOrder : ℤ) (K : ℕ → ℝ)
    (hK : ∀ iz, iz < Nz → modifiedK (kzTrue Nz dz iz) nOrder dz = .ok (K iz)) (nPass : ℕ) (comp : Bool)
    (h : nOrder = -1 ∨ 1 ≤ nPass ∨ Nz % 2 = 1) (iz : ℕ) (hz : iz < Nz) (h0 : K iz = 0) :
    iz = 0 ∨ filterFactor nPass comp (kzTrue Nz dz iz) dz = 0 := by
  have hpi := Real.pi_pos
  have hN : (0 : ℝ) < Nz := by exact_mod_cast hNz
  obtain ⟨j, hj, hj1, hj2, hj3⟩ : ∃ j : ℤ, kzTrue Nz dz iz = Real.pi / dz * ((2 * j : ℤ) / (Nz : ℝ)) ∧ (j = 0 → iz = 0) ∧
      -(Nz : ℤ) ≤ 2 * j ∧ 2 * j ≤ Nz := by
    by_cases hi : iz ≤ (Nz - 1) / 2
    · refine ⟨iz, ?_, by omega, by omega, by omega⟩
      rw [kzTrue, fftfreq, if_pos hi]
      push_cast
      field_simp
    · refine ⟨(iz : ℤ) - Nz, ?_, by omega, by omega, by omega⟩
      rw [kzTrue, fftfreq, if_neg hi]
      push_cast
      field_simp
  have hzero : kzTrue Nz dz iz = 0 → iz = 0 := fun h0 => by
    rw [hj] at h0
    refine hj1 ?_
    have : ((2 * j : ℤ) : ℝ) = 0 := by
      rcases mul_eq_zero.1 h0 with h0 | h0
      · exact absurd h0 (by positivity)
      · exact (div_eq_zero_iff.1 h0).resolve_right hN.ne'
    have : 2 * j = 0 := by exact_mod_cast this
    omega
  have hk := hK iz hz
  by_cases h1 : nOrder = -1
  · rw [modifiedK, if_pos h1] at hk
    injection hk with hk
    exact Or.inl (hzero (hk.trans h0))
  · have hok : 0 < nOrder ∧ nOrder % 2 = 0 := by
      unfold modifiedK at hk
      rw [if_neg h1] at hk
      split_ifs at hk with h2
      omega
    obtain ⟨K', hK', _, _, h4⟩ := C39_sign nOrder hok.1 hok.2 dz hdz
    have e : K' (kzTrue Nz dz iz) = 0 := by
      have := (hK' (kzTrue Nz dz iz)).symm.trans hk
      injection this with this
      rw [this, h0]
    have habs : |kzTrue Nz dz iz| = Real.pi / dz * (((|2 * j| : ℤ) : ℝ) / Nz) := by
      rw [hj, abs_mul, abs_of_pos (by positivity : 0 < Real.pi / dz), abs_div, abs_of_pos hN, Int.cast_abs]
    have hle : |kzTrue Nz dz iz| ≤ Real.pi / dz := by
      rw [habs]
      have h5 : ((|2 * j| : ℤ) : ℝ) / Nz ≤ 1 := by
        rw [div_le_one hN]
        exact_mod_cast abs_le.2 ⟨hj2, hj3⟩
      have h6 : 0 < Real.pi / dz := by positivity
      nlinarith
    rcases (h4 _ hle).1 e with h5 | h5
    · exact Or.inl (hzero h5)
    · right
      refine C38_nyquist nPass ?_ comp _ _ (by rw [abs_mul, h5, abs_of_pos hdz, div_mul_cancel₀ _ hdz.ne'])
      rcases h with h | h | h
      · exact absurd h h1
      · exact h
      · exfalso
        rw [habs] at h5
        have h6 : ((|2 * j| : ℤ) : ℝ) / Nz = 1 := mul_left_cancel₀ (show Real.pi / dz ≠ 0 by positivity) (by rw [h5, mul_one])
        have h7 : ((|2 * j| : ℤ) : ℝ) = Nz := (div_eq_one_iff_eq hN.ne').1 h6
        have h8 : |2 * j| = (Nz : ℤ) := by exact_mod_cast h7
        rcases abs_choice (2 * j) with h9 | h9 <;> omega

example : kzTrue 4 1 2 ≠ 0 ∧ modifiedK (kzTrue 4 1 2) 2 1 = .ok 0 ∧ filterFactor 1 false (kzTrue 4 1 2) 1 = 0 := by
  have e : kzTrue 4 1 2 = -Real.pi := by
    rw [kzTrue, fftfreq, if_neg (by norm_num)]; norm_num; ring
  rw [e]
  refine ⟨by have := Real.pi_pos; simp [this.ne'], ?_, C38_nyquist 1 le_rfl false _ _ (by simp [Real.pi_pos.le])⟩
  norm_num [modifiedK, stencilCoef]

end Fbpic
