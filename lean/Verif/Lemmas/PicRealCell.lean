import Verif.Lemmas.PicReal
import Verif.Lemmas.PicGaussRun

/-!
# Lemmas: the kernels of the solver at opposite wavenumbers
-/

namespace Fbpic.Pic

open Transform ExternalField Step
open Spec (negIdx hankel)
open scoped ComplexConjugate

theorem Herm.of_zero {a b : SpecCell} (ha : Zero a) (hb : Zero b) : Herm a b := by
  obtain ⟨h1, h2, h3, h4, h5, h6, h7, h8, h9, h10, h11, h12, h13⟩ := ha
  obtain ⟨g1, g2, g3, g4, g5, g6, g7, g8, g9, g10, g11, g12, g13⟩ := hb
  constructor <;> simp [*]

section
variable {a b : SpecCell} (k : Consts) (kz kr dt : ℝ) (V : Option ℝ) (gal : Bool)

theorem correct_herm (m : CurrentCorrection) (h : Herm a b) :
    Herm (correctCurrents m kz kr (psatdCoefs k kz kr dt V gal) a)
      (correctCurrents m (-kz) kr (psatdCoefs k (-kz) kr dt V gal) b) := by
  obtain ⟨h1, h2, h3, h4, h5, h6, h7, h8, h9, h10, h11, h12, h13⟩ := h
  have h2c : conj (2 : ℂ) = 2 := map_ofNat _ 2
  unfold correctCurrents
  cases V with
  | none =>
    cases m with
    | curlFree =>
      simp only [psatdCoefs, Option.map_none, curlFreeStandard, invK2_neg]
      constructor <;>
        simp only [h1, h2, h3, h4, h5, h6, h7, h8, h9, h10, h11, h12, h13, map_add, map_sub, map_neg, map_mul,
          map_div₀, Complex.conj_I, Complex.conj_ofReal, conj_half, Complex.ofReal_neg, neg_neg, map_one] <;> ring
    | crossDeposition =>
      simp only [psatdCoefs, Option.map_none, crossDepStandard, crossCorrect]
      by_cases hk : kr = 0 <;> by_cases hz : kz = 0 <;>
      simp only [hk, hz, ne_eq, not_true_eq_false, not_false_eq_true, if_true, if_false, neg_eq_zero] <;>
      constructor <;>
        simp only [h1, h2, h3, h4, h5, h6, h7, h8, h9, h10, h11, h12, h13, map_add, map_sub, map_neg, map_mul,
          map_div₀, Complex.conj_I, Complex.conj_ofReal, conj_half, Complex.ofReal_neg, neg_neg, map_one] <;>
        first
          | ring
          | (have hz' : (kz : ℂ) ≠ 0 := Complex.ofReal_ne_zero.2 hz
             field_simp
             ring)
  | some V =>
    cases m with
    | curlFree =>
      simp only [psatdCoefs, Option.map_some, curlFreeComoving, invK2_neg, coefTcc_neg, coefTeb_neg, coefJcorr_neg]
      constructor <;>
        simp only [h1, h2, h3, h4, h5, h6, h7, h8, h9, h10, h11, h12, h13, map_add, map_sub, map_neg, map_mul,
          map_div₀, Complex.conj_I, Complex.conj_ofReal, conj_half, Complex.ofReal_neg, neg_neg, map_one] <;> ring
    | crossDeposition =>
      simp only [psatdCoefs, Option.map_some, crossDepComoving, crossCorrect, coefTcc_neg, coefTeb_neg, coefJcorr_neg]
      by_cases hk : kr = 0 <;> by_cases hz : kz = 0 <;>
      simp only [hk, hz, ne_eq, not_true_eq_false, not_false_eq_true, if_true, if_false, neg_eq_zero] <;>
      constructor <;>
        simp only [h1, h2, h3, h4, h5, h6, h7, h8, h9, h10, h11, h12, h13, map_add, map_sub, map_neg, map_mul,
          map_div₀, Complex.conj_I, Complex.conj_ofReal, conj_half, Complex.ofReal_neg, neg_neg, map_one] <;>
        first
          | ring
          | (have hz' : (kz : ℂ) ≠ 0 := Complex.ofReal_ne_zero.2 hz
             field_simp
             ring)

theorem correct_zero (m : CurrentCorrection) (ps : PsatdCoefs) (h : Zero a) : Zero (correctCurrents m kz kr ps a) := by
  obtain ⟨h1, h2, h3, h4, h5, h6, h7, h8, h9, h10, h11, h12, h13⟩ := h
  unfold correctCurrents
  cases ps.comov <;> cases m <;>
    simp only [curlFreeStandard, curlFreeComoving, crossDepStandard, crossDepComoving, crossCorrect]
  all_goals (try split_ifs) <;> constructor <;> simp [*]

theorem push_herm (tr : Bool) (h : Herm a b) :
    Herm (pushEBWith k kz kr (psatdCoefs k kz kr dt V gal) false tr a)
      (pushEBWith k (-kz) kr (psatdCoefs k (-kz) kr dt V gal) false tr b) := by
  obtain ⟨h1, h2, h3, h4, h5, h6, h7, h8, h9, h10, h11, h12, h13⟩ := h
  unfold pushEBWith
  cases V with
  | none =>
    simp only [psatdCoefs, Option.map_none, Bool.false_eq_true, if_false, pushEBStandard, coefC_neg, coefSw_neg,
      coefJ_neg, coefRhoPrev_neg, coefRhoNext_neg]
    cases tr <;> simp only [Bool.false_eq_true, if_false, if_true] <;> constructor <;>
      simp only [h1, h2, h3, h4, h5, h6, h7, h8, h9, h10, h11, h12, h13, map_add, map_sub, map_neg, map_mul, map_pow,
          map_div₀, Complex.conj_I, Complex.conj_ofReal, conj_half, Complex.ofReal_neg, neg_neg, map_one] <;> ring
  | some V =>
    simp only [psatdCoefs, Option.map_some, Bool.false_eq_true, if_false, pushEBComoving, coefC_neg, coefSw_neg,
      coefJ_neg, coefRhoPrev_neg, coefRhoNext_neg, coefTcc_neg, coefTeb_neg, coefTrho_neg]
    cases tr <;> simp only [Bool.false_eq_true, if_false, if_true] <;> constructor <;>
      simp only [h1, h2, h3, h4, h5, h6, h7, h8, h9, h10, h11, h12, h13, map_add, map_sub, map_neg, map_mul, map_pow,
          map_div₀, Complex.conj_I, Complex.conj_ofReal, conj_half, Complex.ofReal_neg, neg_neg, map_one] <;> ring

theorem push_zero (ps : PsatdCoefs) (tr : Bool) (h : Zero a) : Zero (pushEBWith k kz kr ps false tr a) := by
  obtain ⟨h1, h2, h3, h4, h5, h6, h7, h8, h9, h10, h11, h12, h13⟩ := h
  unfold pushEBWith
  cases ps.comov <;> simp only [Bool.false_eq_true, if_false, pushEBStandard, pushEBComoving] <;>
    cases tr <;> simp only [Bool.false_eq_true, if_false, if_true] <;> constructor <;> simp [*]

theorem pushRho_herm (h : Herm a b) : Herm (pushRho a) (pushRho b) := by
  obtain ⟨h1, h2, h3, h4, h5, h6, h7, h8, h9, h10, h11, h12, h13⟩ := h
  unfold pushRho
  constructor <;> simp [*]

theorem pushRho_zero (h : Zero a) : Zero (pushRho a) := by
  obtain ⟨h1, h2, h3, h4, h5, h6, h7, h8, h9, h10, h11, h12, h13⟩ := h
  unfold pushRho
  constructor <;> simp [*]

/-- The divergence correction in one cell. -/
noncomputable def divECell (kz kr : ℝ) (s : SpecCell) : SpecCell :=
  match Fbpic.correctDivE k .curlFree kz kr s with
  | .ok s' => s'
  | .error _ => s

theorem divE_herm (h : Herm a b) : Herm (divECell k kz kr a) (divECell k (-kz) kr b) := by
  obtain ⟨h1, h2, h3, h4, h5, h6, h7, h8, h9, h10, h11, h12, h13⟩ := h
  simp only [divECell, correctDivE, invK2_neg]
  constructor <;>
    simp only [h1, h2, h3, h4, h5, h6, h7, h8, h9, h10, h11, h12, h13, map_add, map_sub, map_neg, map_mul,
      map_div₀, Complex.conj_I, Complex.conj_ofReal, conj_half, Complex.ofReal_neg, neg_neg, map_one] <;> ring

theorem divE_zero (h : Zero a) : Zero (divECell k kz kr a) := by
  obtain ⟨h1, h2, h3, h4, h5, h6, h7, h8, h9, h10, h11, h12, h13⟩ := h
  simp only [divECell, correctDivE]
  constructor <;> simp [*]

theorem filter_herm (f : ℝ) (fld : FilterField) (h : Herm a b) : Herm (filterCell f fld a) (filterCell f fld b) := by
  obtain ⟨h1, h2, h3, h4, h5, h6, h7, h8, h9, h10, h11, h12, h13⟩ := h
  cases fld <;> simp only [filterCell] <;> constructor <;> simp [*]

theorem filter_zero (f : ℝ) (fld : FilterField) (h : Zero a) : Zero (filterCell f fld a) := by
  obtain ⟨h1, h2, h3, h4, h5, h6, h7, h8, h9, h10, h11, h12, h13⟩ := h
  cases fld <;> simp only [filterCell] <;> constructor <;> simp [*]

end

/-! ### Grids -/

/-- A spectral grid that holds the transform of real fields. Rows whose wavenumber is not the opposite of that of the
opposite row contain zeros. -/
structure GridReal (Nz Nr : ℕ) (g : SpecGrid) : Prop where
  sizeZ : g.Nz = Nz
  sizeR : g.Nr = Nr
  herm : ∀ iz < Nz, ∀ ir < Nr, Herm (g.cell iz ir) (g.cell (negIdx Nz iz) ir)
  zero : ∀ iz < Nz, g.kz (negIdx Nz iz) ≠ -g.kz iz → ∀ ir < Nr, Zero (g.cell iz ir)

theorem GridReal.mapCells {Nz Nr : ℕ} [NeZero Nz] {g : SpecGrid} (h : GridReal Nz Nr g) (f : ℝ → ℝ → SpecCell → SpecCell)
    (hf : ∀ kz kr a b, Herm a b → Herm (f kz kr a) (f (-kz) kr b)) (h0 : ∀ kz kr a, Zero a → Zero (f kz kr a)) :
    GridReal Nz Nr (g.mapCells f) where
  sizeZ := h.sizeZ
  sizeR := h.sizeR
  herm := by
    intro iz hz ir hr
    have hn := negIdx_lt (N := Nz) iz
    have e : ∀ i < Nz, (g.mapCells f).cell i ir = f (g.kz i) (g.kr ir) (g.cell i ir) := by
      intro i hi
      exact if_pos ⟨by rw [h.sizeZ]; exact hi, by rw [h.sizeR]; exact hr⟩
    rw [e iz hz, e _ hn]
    by_cases hk : g.kz (negIdx Nz iz) = -g.kz iz
    · rw [hk]; exact hf _ _ _ _ (h.herm iz hz ir hr)
    · have hk' : g.kz (negIdx Nz (negIdx Nz iz)) ≠ -g.kz (negIdx Nz iz) := by
        rw [negIdx_negIdx hz]; intro e; exact hk (by rw [e, neg_neg])
      exact .of_zero (h0 _ _ _ (h.zero iz hz hk ir hr)) (h0 _ _ _ (h.zero _ hn hk' ir hr))
  zero := by
    intro iz hz hk ir hr
    have : (g.mapCells f).cell iz ir = f (g.kz iz) (g.kr ir) (g.cell iz ir) :=
      if_pos ⟨by rw [h.sizeZ]; exact hz, by rw [h.sizeR]; exact hr⟩
    rw [this]
    exact h0 _ _ _ (h.zero iz hz hk ir hr)

theorem GridReal.endGrid (c : Cfg) [NeZero c.Nz] (o : Opts) {g : SpecGrid} (h : GridReal c.Nz c.Nr g) :
    GridReal c.Nz c.Nr (c.endGrid o g) := by
  unfold Cfg.endGrid
  have h1 : GridReal c.Nz c.Nr (if o.correctCurrents then g.correctCurrents c.k c.correction c.dt c.V c.galilean else g) := by
    split_ifs
    · exact h.mapCells _ (fun kz kr a b hab => correct_herm _ _ _ _ _ _ _ hab) (fun kz kr a ha => correct_zero _ _ _ _ ha)
    · exact h
  have h2 := h1.mapCells (fun kz kr s => pushEBWith c.k kz kr (psatdCoefs c.k kz kr c.dt c.V c.galilean) false o.useTrueRho s)
    (fun kz kr a b hab => push_herm _ _ _ _ _ _ _ hab) (fun kz kr a ha => push_zero _ _ _ _ _ ha)
  have h3 := h2.mapCells (fun _ _ s => pushRho s) (fun _ _ a b hab => pushRho_herm hab) (fun _ _ a ha => pushRho_zero ha)
  dsimp only
  by_cases hd : o.correctDivE = true
  · rw [if_pos hd]
    exact h3.mapCells (divECell c.k) (fun kz kr a b hab => divE_herm _ _ _ hab) (fun kz kr a ha => divE_zero _ _ _ ha)
  · rw [if_neg hd]; exact h3

end Fbpic.Pic
