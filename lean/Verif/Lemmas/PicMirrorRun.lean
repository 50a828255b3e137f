import Verif.Lemmas.PicMirror

/-!
# Lemmas on the reflection of the fields and of a whole run
-/

namespace Fbpic.Pic

open Transform ExternalField Step
open Spec (negIdx hankel Absent AbsentVec)
open Spec.Reflect (arr Cells ExtReflected Reflected OddAt Removed EvenSolver)
open scoped ComplexConjugate

/-! ### Cells -/

theorem cells_of_zero {a b : SpecCell} (ha : Zero a) (hb : Zero b) : Cells a b := by
  obtain ⟨h1, h2, h3, h4, h5, h6, h7, h8, h9, h10, h11, h12, h13⟩ := ha
  obtain ⟨g1, g2, g3, g4, g5, g6, g7, g8, g9, g10, g11, g12, g13⟩ := hb
  constructor <;> simp [*]

theorem cells_zero {a b : SpecCell} (h : Cells a b) (ha : Zero a) : Zero b := by
  obtain ⟨h1, h2, h3, h4, h5, h6, h7, h8, h9, h10, h11, h12, h13⟩ := h
  obtain ⟨g1, g2, g3, g4, g5, g6, g7, g8, g9, g10, g11, g12, g13⟩ := ha
  constructor <;> simp [*]

section
variable {a b : SpecCell} (k : Consts) (kz kr dt : ℝ) (V : Option ℝ) (gal : Bool)

theorem correct_cells (m : CurrentCorrection) (h : Cells a b) :
    Cells (correctCurrents m kz kr (psatdCoefs k kz kr dt V gal) a)
      (correctCurrents m (-kz) kr (psatdCoefs k (-kz) kr dt V gal) b) := by
  obtain ⟨h1, h2, h3, h4, h5, h6, h7, h8, h9, h10, h11, h12, h13⟩ := h
  unfold correctCurrents
  cases V with
  | none =>
    cases m with
    | curlFree =>
      simp only [psatdCoefs, Option.map_none, curlFreeStandard, invK2_neg]
      constructor <;>
        simp only [h1, h2, h3, h4, h5, h6, h7, h8, h9, h10, h11, h12, h13, map_add, map_sub, map_neg, map_mul,
          map_div₀, Complex.conj_I, Complex.conj_ofReal, conj_half, Complex.ofReal_neg, neg_neg, map_one] <;> ring
    | crossDeposition =>
      simp only [psatdCoefs, Option.map_none, crossDepStandard, crossCorrect]
      by_cases hk : kr = 0 <;> by_cases hz : kz = 0 <;>
      simp only [hk, hz, ne_eq, not_true_eq_false, not_false_eq_true, if_true, if_false, neg_eq_zero] <;>
      constructor <;>
        simp only [h1, h2, h3, h4, h5, h6, h7, h8, h9, h10, h11, h12, h13, map_add, map_sub, map_neg, map_mul,
          map_div₀, Complex.conj_I, Complex.conj_ofReal, conj_half, Complex.ofReal_neg, neg_neg, map_one] <;>
        first
          | ring
          | (have hz' : (kz : ℂ) ≠ 0 := Complex.ofReal_ne_zero.2 hz
             field_simp
             ring)
  | some V =>
    cases m with
    | curlFree =>
      simp only [psatdCoefs, Option.map_some, curlFreeComoving, invK2_neg, coefTcc_neg, coefTeb_neg, coefJcorr_neg]
      constructor <;>
        simp only [h1, h2, h3, h4, h5, h6, h7, h8, h9, h10, h11, h12, h13, map_add, map_sub, map_neg, map_mul,
          map_div₀, Complex.conj_I, Complex.conj_ofReal, conj_half, Complex.ofReal_neg, neg_neg, map_one] <;> ring
    | crossDeposition =>
      simp only [psatdCoefs, Option.map_some, crossDepComoving, crossCorrect, coefTcc_neg, coefTeb_neg, coefJcorr_neg]
      by_cases hk : kr = 0 <;> by_cases hz : kz = 0 <;>
      simp only [hk, hz, ne_eq, not_true_eq_false, not_false_eq_true, if_true, if_false, neg_eq_zero] <;>
      constructor <;>
        simp only [h1, h2, h3, h4, h5, h6, h7, h8, h9, h10, h11, h12, h13, map_add, map_sub, map_neg, map_mul,
          map_div₀, Complex.conj_I, Complex.conj_ofReal, conj_half, Complex.ofReal_neg, neg_neg, map_one] <;>
        first
          | ring
          | (have hz' : (kz : ℂ) ≠ 0 := Complex.ofReal_ne_zero.2 hz
             field_simp
             ring)

theorem push_cells (tr : Bool) (h : Cells a b) :
    Cells (pushEBWith k kz kr (psatdCoefs k kz kr dt V gal) false tr a)
      (pushEBWith k (-kz) kr (psatdCoefs k (-kz) kr dt V gal) false tr b) := by
  obtain ⟨h1, h2, h3, h4, h5, h6, h7, h8, h9, h10, h11, h12, h13⟩ := h
  unfold pushEBWith
  cases V with
  | none =>
    simp only [psatdCoefs, Option.map_none, Bool.false_eq_true, if_false, pushEBStandard, coefC_neg, coefSw_neg,
      coefJ_neg, coefRhoPrev_neg, coefRhoNext_neg]
    cases tr <;> simp only [Bool.false_eq_true, if_false, if_true] <;> constructor <;>
      simp only [h1, h2, h3, h4, h5, h6, h7, h8, h9, h10, h11, h12, h13, map_add, map_sub, map_neg, map_mul, map_pow,
          map_div₀, Complex.conj_I, Complex.conj_ofReal, conj_half, Complex.ofReal_neg, neg_neg, map_one] <;> ring
  | some V =>
    simp only [psatdCoefs, Option.map_some, Bool.false_eq_true, if_false, pushEBComoving, coefC_neg, coefSw_neg,
      coefJ_neg, coefRhoPrev_neg, coefRhoNext_neg, coefTcc_neg, coefTeb_neg, coefTrho_neg]
    cases tr <;> simp only [Bool.false_eq_true, if_false, if_true] <;> constructor <;>
      simp only [h1, h2, h3, h4, h5, h6, h7, h8, h9, h10, h11, h12, h13, map_add, map_sub, map_neg, map_mul, map_pow,
          map_div₀, Complex.conj_I, Complex.conj_ofReal, conj_half, Complex.ofReal_neg, neg_neg, map_one] <;> ring

theorem pushRho_cells (h : Cells a b) : Cells (pushRho a) (pushRho b) := by
  obtain ⟨h1, h2, h3, h4, h5, h6, h7, h8, h9, h10, h11, h12, h13⟩ := h
  unfold pushRho
  constructor <;> simp [*]

theorem divE_cells (h : Cells a b) : Cells (divECell k kz kr a) (divECell k (-kz) kr b) := by
  obtain ⟨h1, h2, h3, h4, h5, h6, h7, h8, h9, h10, h11, h12, h13⟩ := h
  simp only [divECell, correctDivE, invK2_neg]
  constructor <;>
    simp only [h1, h2, h3, h4, h5, h6, h7, h8, h9, h10, h11, h12, h13, map_add, map_sub, map_neg, map_mul,
      map_div₀, Complex.conj_I, Complex.conj_ofReal, conj_half, Complex.ofReal_neg, neg_neg, map_one] <;> ring

theorem filter_cells (f : ℝ) (fld : FilterField) (h : Cells a b) : Cells (filterCell f fld a) (filterCell f fld b) := by
  obtain ⟨h1, h2, h3, h4, h5, h6, h7, h8, h9, h10, h11, h12, h13⟩ := h
  cases fld <;> simp only [filterCell] <;> constructor <;> simp [*]

end

/-! ### Grids -/

/-- Two spectral grids of which the second holds the reflected fields. Rows whose wavenumber is not the opposite of that
of the opposite row contain zeros. -/
structure GridRefl (Nz Nr : ℕ) (g g' : SpecGrid) : Prop where
  sizeZ : g.Nz = Nz
  sizeR : g.Nr = Nr
  shape : g.SameShape g'
  cells : ∀ iz < Nz, ∀ ir < Nr, Cells (g.cell iz ir) (g'.cell (negIdx Nz iz) ir)
  zero : ∀ iz < Nz, g.kz (negIdx Nz iz) ≠ -g.kz iz → ∀ ir < Nr, Zero (g.cell iz ir)

theorem GridRefl.mapCells {Nz Nr : ℕ} [NeZero Nz] {g g' : SpecGrid} (h : GridRefl Nz Nr g g')
    (f : ℝ → ℝ → SpecCell → SpecCell) (hf : ∀ kz kr a b, Cells a b → Cells (f kz kr a) (f (-kz) kr b))
    (h0 : ∀ kz kr a, Zero a → Zero (f kz kr a)) : GridRefl Nz Nr (g.mapCells f) (g'.mapCells f) where
  sizeZ := h.sizeZ
  sizeR := h.sizeR
  shape := h.shape
  cells := by
    intro iz hz ir hr
    have hn := negIdx_lt (N := Nz) iz
    have e : (g.mapCells f).cell iz ir = f (g.kz iz) (g.kr ir) (g.cell iz ir) :=
      if_pos ⟨by rw [h.sizeZ]; exact hz, by rw [h.sizeR]; exact hr⟩
    have e' : (g'.mapCells f).cell (negIdx Nz iz) ir = f (g.kz (negIdx Nz iz)) (g.kr ir) (g'.cell (negIdx Nz iz) ir) := by
      obtain ⟨s1, s2, s3, s4⟩ := h.shape
      rw [← s3, ← s4]
      exact if_pos ⟨by rw [s1, h.sizeZ]; exact hn, by rw [s2, h.sizeR]; exact hr⟩
    rw [e, e']
    by_cases hk : g.kz (negIdx Nz iz) = -g.kz iz
    · rw [hk]; exact hf _ _ _ _ (h.cells iz hz ir hr)
    · have h1 := h.zero iz hz hk ir hr
      exact cells_of_zero (h0 _ _ _ h1) (h0 _ _ _ (cells_zero (h.cells iz hz ir hr) h1))
  zero := by
    intro iz hz hk ir hr
    have : (g.mapCells f).cell iz ir = f (g.kz iz) (g.kr ir) (g.cell iz ir) :=
      if_pos ⟨by rw [h.sizeZ]; exact hz, by rw [h.sizeR]; exact hr⟩
    rw [this]
    exact h0 _ _ _ (h.zero iz hz hk ir hr)

theorem GridRefl.endGrid (c : Cfg) [NeZero c.Nz] (ext : List Ext) (o : Opts) {g g' : SpecGrid} (h : GridRefl c.Nz c.Nr g g') :
    GridRefl c.Nz c.Nr (c.endGrid o g) ((c.withExt ext).endGrid o g') := by
  unfold Cfg.endGrid
  have h1 : GridRefl c.Nz c.Nr (if o.correctCurrents then g.correctCurrents c.k c.correction c.dt c.V c.galilean else g)
      (if o.correctCurrents then g'.correctCurrents c.k c.correction c.dt c.V c.galilean else g') := by
    split_ifs
    · exact h.mapCells _ (fun kz kr a b hab => correct_cells _ _ _ _ _ _ _ hab) (fun kz kr a ha => correct_zero _ _ _ _ ha)
    · exact h
  have h2 := h1.mapCells (fun kz kr s => pushEBWith c.k kz kr (psatdCoefs c.k kz kr c.dt c.V c.galilean) false o.useTrueRho s)
    (fun kz kr a b hab => push_cells _ _ _ _ _ _ _ hab) (fun kz kr a ha => push_zero _ _ _ _ _ ha)
  have h3 := h2.mapCells (fun _ _ s => pushRho s) (fun _ _ a b hab => pushRho_cells hab) (fun _ _ a ha => pushRho_zero ha)
  dsimp only
  by_cases hd : o.correctDivE = true
  · rw [if_pos hd, if_pos hd]
    exact h3.mapCells (divECell c.k) (fun kz kr a b hab => divE_cells _ _ _ hab) (fun kz kr a ha => divE_zero _ _ _ ha)
  · rw [if_neg hd, if_neg hd]; exact h3

/-! ### Transforms -/

section
variable (c : Cfg) [NeZero c.Nz]

theorem spectScal_refl (m : ℕ) (e : ℝ) (a out out' : Buf) {iz ir : ℕ} (hz : iz < c.Nz) (hr : ir < c.Nr) :
    c.toSpectScal m (arr e a) out' (negIdx c.Nz iz) ir = e * conj (c.toSpectScal m a out iz ir) := by
  rw [toSpectScal_eq, toSpectScal_eq]
  unfold fwd
  rw [if_pos ⟨negIdx_lt iz, hr⟩, if_pos ⟨hz, hr⟩]
  have e1 : ∀ j < c.Nr, fftAxis0 c.Nz false (arr e a) (negIdx c.Nz iz) j
      = conj ((fun i j => (e : ℂ) * fftAxis0 c.Nz false a i j) iz j) := by
    intro j hj
    have h1 := fftAxis0_scale c.Nz false (e : ℂ) a
    have h2 := fft_conj (N := c.Nz) (Nr := c.Nr) (a := arr e a) (b := scaleB e a) (fun i _ j _ => by
      simp [arr, scaleB]) hz hj
    rw [h2, h1]; rfl
  rw [hankel_conj (G := fun i j => (e : ℂ) * fftAxis0 c.Nz false a i j) _ _ e1]
  unfold hankel
  simp only [map_sum, map_mul, Complex.conj_ofReal, Finset.mul_sum, mul_assoc]

theorem spectVect_refl' (m : ℕ) (e : ℝ) (r t r' t' o o' p p' : Buf)
    (hr' : ∀ i < c.Nz, ∀ j < c.Nr, r' i j = arr e r i j) (ht' : ∀ i < c.Nz, ∀ j < c.Nr, t' i j = arr (-e) t i j)
    {iz ir : ℕ} (hz : iz < c.Nz) (hi : ir < c.Nr) :
    (c.toSpectVect m r' t' p p').1 (negIdx c.Nz iz) ir = e * conj ((c.toSpectVect m r t o o').1 iz ir) ∧
    (c.toSpectVect m r' t' p p').2 (negIdx c.Nz iz) ir = e * conj ((c.toSpectVect m r t o o').2 iz ir) := by
  have hs : ∀ (M : ℕ → ℕ → ℝ) (A B : Buf), (∀ i < c.Nz, ∀ j < c.Nr, A i j = e * conj (B i j)) → ∀ q q',
      fwd c.Nz c.Nr M A q (negIdx c.Nz iz) ir = e * conj (fwd c.Nz c.Nr M B q' iz ir) := by
    intro M A B hAB q q'
    unfold fwd
    rw [if_pos ⟨negIdx_lt iz, hi⟩, if_pos ⟨hz, hi⟩]
    have e1 : ∀ j < c.Nr, fftAxis0 c.Nz false A (negIdx c.Nz iz) j
        = conj ((fun i j => (e : ℂ) * fftAxis0 c.Nz false B i j) iz j) := by
      intro j hj
      have h1 := fftAxis0_scale c.Nz false (e : ℂ) B
      have h2 := fft_conj (N := c.Nz) (Nr := c.Nr) (a := A) (b := scaleB e B) (fun i hi j hj => by
        rw [hAB i hi j hj]; simp [scaleB]) hz hj
      rw [h2, h1]; rfl
    rw [hankel_conj (G := fun i j => (e : ℂ) * fftAxis0 c.Nz false B i j) _ _ e1]
    unfold hankel
    simp only [map_sum, map_mul, Complex.conj_ofReal, Finset.mul_sum, mul_assoc]
  rw [toSpectVect_eq, toSpectVect_eq]
  constructor
  · refine hs _ _ _ (fun i hi j hj => ?_) _ _
    rw [hr' i hi j hj, ht' i hi j hj]
    simp only [arr, map_mul, map_div₀, map_one, map_ofNat, map_sub, Complex.conj_I]
    push_cast; ring
  · refine hs _ _ _ (fun i hi j hj => ?_) _ _
    rw [hr' i hi j hj, ht' i hi j hj]
    simp only [arr, map_mul, map_div₀, map_one, map_ofNat, map_add, Complex.conj_I]
    push_cast; ring

theorem spectVect_refl (m : ℕ) (e : ℝ) (r t o o' p p' : Buf) {iz ir : ℕ} (hz : iz < c.Nz) (hi : ir < c.Nr) :
    (c.toSpectVect m (arr e r) (arr (-e) t) p p').1 (negIdx c.Nz iz) ir = e * conj ((c.toSpectVect m r t o o').1 iz ir) ∧
    (c.toSpectVect m (arr e r) (arr (-e) t) p p').2 (negIdx c.Nz iz) ir = e * conj ((c.toSpectVect m r t o o').2 iz ir) :=
  spectVect_refl' c m e r t _ _ o o' p p' (fun _ _ _ _ => rfl) (fun _ _ _ _ => rfl) hz hi

theorem interpScal_refl (m : ℕ) (e : ℝ) (a a' out : Buf)
    (h : ∀ iz < c.Nz, ∀ ir < c.Nr, a' (negIdx c.Nz iz) ir = e * conj (a iz ir)) :
    c.toInterpScal m a' (arr e out) = arr e (c.toInterpScal m a out) := by
  rw [toInterpScal_eq, toInterpScal_eq]
  funext iz ir
  unfold bwd
  dsimp only [arr]
  by_cases hi : iz < c.Nz ∧ ir < c.Nr
  · rw [if_pos hi, if_pos hi]
    have h1 := fftAxis0_scale c.Nz true (e : ℂ) (hankel c.Nr (c.mats m).invM0 a)
    have h2 := ifft_conj (N := c.Nz) (Nr := c.Nr) (F := hankel c.Nr (c.mats m).invM0 a')
      (G := scaleB e (hankel c.Nr (c.mats m).invM0 a)) (iz := iz) (ir := ir) (fun i hi j _ => by
        have := hankel_conj (N := c.Nz) (c.mats m).invM0 (F := a') (G := fun i j => (e : ℂ) * a i j) (iz := i) j
          (fun l hl => by rw [h i hi l hl]; simp)
        rw [this]
        unfold hankel scaleB
        simp only [map_sum, map_mul, Complex.conj_ofReal, Finset.mul_sum, mul_assoc]) hi.2
    rw [h2, h1]
    simp [scaleB]
  · rw [if_neg hi, if_neg hi]

theorem interpVect_refl (m : ℕ) (e : ℝ) (p q p' q' o o' : Buf)
    (hp : ∀ iz < c.Nz, ∀ ir < c.Nr, p' (negIdx c.Nz iz) ir = e * conj (p iz ir))
    (hq : ∀ iz < c.Nz, ∀ ir < c.Nr, q' (negIdx c.Nz iz) ir = e * conj (q iz ir)) :
    c.toInterpVect m p' q' (arr e o) (arr (-e) o')
      = (arr e (c.toInterpVect m p q o o').1, arr (-e) (c.toInterpVect m p q o o').2) := by
  have hh : ∀ (M : ℕ → ℕ → ℝ) (a a' : Buf), (∀ iz < c.Nz, ∀ ir < c.Nr, a' (negIdx c.Nz iz) ir = e * conj (a iz ir)) →
      ∀ i < c.Nz, ∀ j, hankel c.Nr M a' (negIdx c.Nz i) j = e * conj (hankel c.Nr M a i j) := by
    intro M a a' h i hi j
    have := hankel_conj (N := c.Nz) M (F := a') (G := fun i j => (e : ℂ) * a i j) (iz := i) j
      (fun l hl => by rw [h i hi l hl]; simp)
    rw [this]
    unfold hankel
    simp only [map_sum, map_mul, Complex.conj_ofReal, Finset.mul_sum, mul_assoc]
  have hf : ∀ (d : ℝ) (A B : Buf), (∀ i < c.Nz, ∀ j < c.Nr, A (negIdx c.Nz i) j = d * conj (B i j)) → ∀ iz, ∀ ir < c.Nr,
      fftAxis0 c.Nz true A iz ir = d * conj (fftAxis0 c.Nz true B iz ir) := by
    intro d A B h iz ir hr
    have h1 := fftAxis0_scale c.Nz true (d : ℂ) B
    have h2 := ifft_conj (N := c.Nz) (Nr := c.Nr) (F := A) (G := scaleB d B) (iz := iz) (ir := ir)
      (fun i hi j hj => by rw [h i hi j hj]; simp [scaleB]) hr
    rw [h2, h1]
    simp [scaleB]
  rw [toInterpVect_eq, toInterpVect_eq]
  refine Prod.ext ?_ ?_
  · funext iz ir
    dsimp only [arr]
    by_cases hi : iz < c.Nz ∧ ir < c.Nr
    · rw [if_pos hi, if_pos hi]
      refine hf e _ _ (fun i hi j _ => ?_) iz ir hi.2
      rw [hh _ _ _ hp i hi, hh _ _ _ hq i hi, map_add]; ring
    · rw [if_neg hi, if_neg hi]
  · funext iz ir
    dsimp only [arr]
    by_cases hi : iz < c.Nz ∧ ir < c.Nr
    · rw [if_pos hi, if_pos hi]
      refine hf (-e) _ _ (fun i hi j _ => ?_) iz ir hi.2
      rw [hh _ _ _ hp i hi, hh _ _ _ hq i hi, map_mul, map_sub, Complex.conj_I]
      push_cast; ring
    · rw [if_neg hi, if_neg hi]

end

/-! ### The relation -/

/-- The reflected grid of one mode. -/
noncomputable def reflI (i : Interp) : Interp := ⟨vecR 1 i.E, vecR (-1) i.B, vecR 1 i.J, arr 1 i.rho⟩

/-- The relation between the pieces of the cycle. -/
structure Cfg.ReflInv (c : Cfg) [NeZero c.Nz] (s s' : Sim) : Prop where
  zmin : s'.zmin = s.zmin
  zmax : s'.zmax = s.zmax
  time : s'.time = s.time
  iteration : s'.iteration = s.iteration
  species : s'.species = s.species.map Spec.Reflect.species
  interp : ∀ m, s'.interp m = reflI (s.interp m)
  grid : ∀ m < c.Nm, GridRefl c.Nz c.Nr (s.spect m) (s'.spect m)
  absent : ∀ m < c.Nm, ∀ iz < c.Nz, ¬ OddAt c s m iz → AbsentVec c iz (s.interp m).E ∧ AbsentVec c iz (s.interp m).B
  filt : ∀ m < c.Nm, ∀ iz < c.Nz, ¬ OddAt c s m iz → ∃ fz fr, c.filter = some (fz, fr) ∧ fz iz = 0

/-- What is needed of the smoother. -/
def Cfg.EvenFilter (c : Cfg) : Prop := ∀ fz fr, c.filter = some (fz, fr) → ∀ iz < c.Nz, fz (negIdx c.Nz iz) = fz iz

variable (c : Cfg) [NeZero c.Nz] (ext : List Ext)

/-- Only the particles and the box change. -/
theorem Cfg.ReflInv.congr {c : Cfg} [NeZero c.Nz] {s s' t t' : Sim} (h : c.ReflInv s s') (h1 : t.interp = s.interp)
    (h2 : t.spect = s.spect) (h1' : t'.interp = s'.interp) (h2' : t'.spect = s'.spect)
    (hz : t'.zmin = t.zmin) (hz' : t'.zmax = t.zmax) (ht : t'.time = t.time) (hi : t'.iteration = t.iteration)
    (hs : t'.species = t.species.map Spec.Reflect.species) : c.ReflInv t t' := by
  have e : ∀ m iz, OddAt c t m iz ↔ OddAt c s m iz := fun m iz => by unfold OddAt; rw [h2]
  refine ⟨hz, hz', ht, hi, hs, ?_, ?_, ?_, ?_⟩
  · rw [h1, h1']; exact h.interp
  · rw [h2, h2']; exact h.grid
  · intro m hm iz hz ho
    rw [h1]; exact h.absent m hm iz hz fun h => ho ((e m iz).2 h)
  · intro m hm iz hz ho
    exact h.filt m hm iz hz fun h => ho ((e m iz).2 h)

theorem filterSpect_refl (hc : c.EvenFilter) (fld : FilterField) (m : ℕ) {g g' : SpecGrid} (hNz : g.Nz = c.Nz)
    (hNr : g.Nr = c.Nr) (hsh : g.SameShape g')
    (hh : ∀ iz < c.Nz, ∀ ir < c.Nr, Cells (g.cell iz ir) (g'.cell (negIdx c.Nz iz) ir))
    (h0 : ∀ iz < c.Nz, g.kz (negIdx c.Nz iz) ≠ -g.kz iz → ∀ ir < c.Nr, Zero (filterCell 0 fld (g.cell iz ir)))
    (hf : ∀ iz < c.Nz, g.kz (negIdx c.Nz iz) ≠ -g.kz iz → ∃ fz fr, c.filter = some (fz, fr) ∧ fz iz = 0) :
    GridRefl c.Nz c.Nr (c.filterSpect fld m g) ((c.withExt ext).filterSpect fld m g') := by
  unfold Cfg.filterSpect
  rw [show (c.withExt ext).filter = c.filter from rfl]
  cases hflt : c.filter with
  | none =>
    refine ⟨hNz, hNr, hsh, hh, fun iz hz hk => ?_⟩
    obtain ⟨fz, fr, h, -⟩ := hf iz hz hk
    rw [hflt] at h; cases h
  | some F =>
    obtain ⟨fz, fr⟩ := F
    have e : ∀ i < c.Nz, ∀ j < c.Nr, (g.filter fz (fr m) fld).cell i j = filterCell (fz i * fr m j) fld (g.cell i j) := by
      intro i hi j hj
      exact if_pos ⟨by rw [hNz]; exact hi, by rw [hNr]; exact hj⟩
    have e' : ∀ i < c.Nz, ∀ j < c.Nr, (g'.filter fz (fr m) fld).cell i j = filterCell (fz i * fr m j) fld (g'.cell i j) := by
      intro i hi j hj
      exact if_pos ⟨by rw [hsh.1, hNz]; exact hi, by rw [hsh.2.1, hNr]; exact hj⟩
    refine ⟨hNz, hNr, hsh, ?_, ?_⟩
    · intro iz hz ir hr
      show Cells ((g.filter fz (fr m) fld).cell iz ir) ((g'.filter fz (fr m) fld).cell _ ir)
      rw [e iz hz ir hr, e' _ (negIdx_lt iz) ir hr, hc fz fr hflt iz hz]
      exact filter_cells _ _ (hh iz hz ir hr)
    · intro iz hz hk ir hr
      obtain ⟨fz', fr', h, h'⟩ := hf iz hz hk
      rw [hflt] at h
      obtain ⟨rfl, rfl⟩ := Prod.mk.inj (Option.some.inj h)
      show Zero ((g.filter fz (fr m) fld).cell iz ir)
      rw [e iz hz ir hr, h', zero_mul]
      exact h0 iz hz hk ir hr

theorem withRho_refl (hc : c.EvenFilter) (n : RhoName) {s s' : Sim} (h : c.ReflInv s s') :
    c.ReflInv (c.withRho n s) ((c.withExt ext).withRho n s') := by
  have hd : ∀ m, (c.withExt ext).depArr .rho s' m = arr 1 (c.depArr .rho s m) :=
    fun m => depArr_refl c ext .rho s s' h.zmin h.species m
  have hi : ∀ m, ((c.withExt ext).withRho n s').interp m = reflI ((c.withRho n s).interp m) := by
    intro m
    show (if m < c.Nm then { s'.interp m with rho := (c.withExt ext).depArr .rho s' m } else s'.interp m)
      = reflI (if m < c.Nm then { s.interp m with rho := c.depArr .rho s m } else s.interp m)
    by_cases hm : m < c.Nm
    · rw [if_pos hm, if_pos hm, hd, h.interp m]; rfl
    · rw [if_neg hm, if_neg hm, h.interp m]
  have hs : ∀ m < c.Nm, (c.withRho n s).spect m
      = c.filterSpect n.filterField m (c.spectRho n m ((c.withRho n s).interp m) (s.spect m)) := fun m hm => if_pos hm
  have hs' : ∀ m < c.Nm, ((c.withExt ext).withRho n s').spect m = (c.withExt ext).filterSpect n.filterField m
      ((c.withExt ext).spectRho n m (((c.withExt ext).withRho n s').interp m) (s'.spect m)) := fun m hm => if_pos hm
  have hk : ∀ m < c.Nm, ((c.withRho n s).spect m).kz = (s.spect m).kz := fun m hm => by
    rw [hs m hm, filterSpect_kz]; rfl
  have e : ∀ m < c.Nm, ∀ iz, OddAt c (c.withRho n s) m iz ↔ OddAt c s m iz := fun m hm iz => by
    unfold OddAt; rw [hk m hm]
  have hr : ∀ m < c.Nm, ((c.withRho n s).interp m).rho = c.depArr .rho s m := by
    intro m hm
    show (if m < c.Nm then { s.interp m with rho := c.depArr .rho s m } else s.interp m).rho = _
    rw [if_pos hm]
  refine ⟨h.zmin, h.zmax, h.time, h.iteration, h.species, hi, ?_, ?_, fun m hm iz hz ho =>
    h.filt m hm iz hz fun h => ho ((e m hm iz).2 h)⟩
  · intro m hm
    have g := h.grid m hm
    rw [hs m hm, hs' m hm]
    refine filterSpect_refl c ext hc _ m g.sizeZ g.sizeR g.shape ?_ ?_ fun iz hz ho => h.filt m hm iz hz ho
    · intro iz hz ir hr
      have v := spectScal_refl c m 1 ((c.withRho n s).interp m).rho (fun iz ir => n.get ((s.spect m).cell iz ir))
        (fun iz ir => n.get ((s'.spect m).cell iz ir)) hz hr
      rw [Complex.ofReal_one, one_mul] at v
      have v' : ((c.withExt ext).toSpectScal m (((c.withExt ext).withRho n s').interp m).rho
          (fun iz ir => n.get ((s'.spect m).cell iz ir))) (negIdx c.Nz iz) ir
          = conj (c.toSpectScal m ((c.withRho n s).interp m).rho (fun iz ir => n.get ((s.spect m).cell iz ir)) iz ir) := by
        rw [hi m]; exact v
      obtain ⟨h1, h2, h3, h4, h5, h6, h7, h8, h9, h10, h11, h12, h13⟩ := g.cells iz hz ir hr
      unfold Cfg.spectRho
      cases n <;> simp only [RhoName.set] <;> constructor <;> first | assumption | exact v'
    · intro iz hz ho ir hr
      obtain ⟨h1, h2, h3, h4, h5, h6, h7, h8, h9, h10, h11, h12, h13⟩ := g.zero iz hz ho ir hr
      unfold Cfg.spectRho
      cases n <;> simp only [RhoName.set, RhoName.filterField, filterCell] <;> constructor <;> simp [*]
  · intro m hm iz hz ho
    have hEB : ((c.withRho n s).interp m).E = (s.interp m).E ∧ ((c.withRho n s).interp m).B = (s.interp m).B := by
      constructor
      · show (if m < c.Nm then { s.interp m with rho := c.depArr .rho s m } else s.interp m).E = _
        rw [if_pos hm]
      · show (if m < c.Nm then { s.interp m with rho := c.depArr .rho s m } else s.interp m).B = _
        rw [if_pos hm]
    rw [hEB.1, hEB.2]; exact h.absent m hm iz hz fun h => ho ((e m hm iz).2 h)

theorem withJ_refl (hc : c.EvenFilter) {s s' : Sim} (h : c.ReflInv s s') :
    c.ReflInv (c.withJ s) ((c.withExt ext).withJ s') := by
  have hd : ∀ f m, (c.withExt ext).depArr f s' m = arr (depSign f) (c.depArr f s m) :=
    fun f m => depArr_refl c ext f s s' h.zmin h.species m
  have hw : ∀ m < c.Nm, (c.withJ s).interp m
      = { s.interp m with J := ⟨c.depArr .Jr s m, c.depArr .Jt s m, c.depArr .Jz s m⟩ } := fun m hm => if_pos hm
  have hi : ∀ m, ((c.withExt ext).withJ s').interp m = reflI ((c.withJ s).interp m) := by
    intro m
    show (if m < c.Nm then { s'.interp m with J := ⟨(c.withExt ext).depArr .Jr s' m, (c.withExt ext).depArr .Jt s' m,
        (c.withExt ext).depArr .Jz s' m⟩ } else s'.interp m)
      = reflI (if m < c.Nm then { s.interp m with J := ⟨c.depArr .Jr s m, c.depArr .Jt s m, c.depArr .Jz s m⟩ } else s.interp m)
    by_cases hm : m < c.Nm
    · rw [if_pos hm, if_pos hm, hd, hd, hd, h.interp m]; rfl
    · rw [if_neg hm, if_neg hm, h.interp m]
  have hs : ∀ m < c.Nm, (c.withJ s).spect m = c.filterSpect .J m (c.spectJ m ((c.withJ s).interp m) (s.spect m)) :=
    fun m hm => if_pos hm
  have hs' : ∀ m < c.Nm, ((c.withExt ext).withJ s').spect m = (c.withExt ext).filterSpect .J m
      ((c.withExt ext).spectJ m (((c.withExt ext).withJ s').interp m) (s'.spect m)) := fun m hm => if_pos hm
  have hk : ∀ m < c.Nm, ((c.withJ s).spect m).kz = (s.spect m).kz := fun m hm => by
    rw [hs m hm, filterSpect_kz]; rfl
  have e : ∀ m < c.Nm, ∀ iz, OddAt c (c.withJ s) m iz ↔ OddAt c s m iz := fun m hm iz => by
    unfold OddAt; rw [hk m hm]
  refine ⟨h.zmin, h.zmax, h.time, h.iteration, h.species, hi, ?_, ?_, fun m hm iz hz ho =>
    h.filt m hm iz hz fun h => ho ((e m hm iz).2 h)⟩
  · intro m hm
    have g := h.grid m hm
    rw [hs m hm, hs' m hm]
    refine filterSpect_refl c ext hc _ m g.sizeZ g.sizeR g.shape ?_ ?_ fun iz hz ho => h.filt m hm iz hz ho
    · intro iz hz ir hr
      have v := spectScal_refl c m 1 ((c.withJ s).interp m).J.z (fun iz ir => ((s.spect m).cell iz ir).Jz)
        (fun iz ir => ((s'.spect m).cell iz ir).Jz) hz hr
      have w := spectVect_refl c m 1 ((c.withJ s).interp m).J.r ((c.withJ s).interp m).J.t
        (fun iz ir => ((s.spect m).cell iz ir).Jp) (fun iz ir => ((s.spect m).cell iz ir).Jm)
        (fun iz ir => ((s'.spect m).cell iz ir).Jp) (fun iz ir => ((s'.spect m).cell iz ir).Jm) hz hr
      rw [Complex.ofReal_one, one_mul] at v
      rw [Complex.ofReal_one, one_mul, one_mul] at w
      obtain ⟨h1, h2, h3, h4, h5, h6, h7, h8, h9, h10, h11, h12, h13⟩ := g.cells iz hz ir hr
      rw [hi m]
      unfold Cfg.spectJ
      constructor <;> first | assumption | exact v | exact w.1 | exact w.2
    · intro iz hz ho ir hr
      obtain ⟨h1, h2, h3, h4, h5, h6, h7, h8, h9, h10, h11, h12, h13⟩ := g.zero iz hz ho ir hr
      unfold Cfg.spectJ
      simp only [filterCell]
      constructor <;> simp [*]
  · intro m hm iz hz ho
    rw [hw m hm]; exact h.absent m hm iz hz fun h => ho ((e m hm iz).2 h)

theorem start_refl {s s' : Sim} (h : c.ReflInv s s') : c.ReflInv (c.startFields s) ((c.withExt ext).startFields s') := by
  have hk : ∀ m < c.Nm, ((c.startFields s).spect m).kz = (s.spect m).kz := fun m hm => (start_shape c s hm).2.2.1
  have e : ∀ m < c.Nm, ∀ iz, OddAt c (c.startFields s) m iz ↔ OddAt c s m iz := fun m hm iz => by
    unfold OddAt; rw [hk m hm]
  refine ⟨h.zmin, h.zmax, h.time, h.iteration, h.species, h.interp, ?_, fun m hm iz hz ho =>
    h.absent m hm iz hz fun h => ho ((e m hm iz).2 h), fun m hm iz hz ho => h.filt m hm iz hz fun h => ho ((e m hm iz).2 h)⟩
  intro m hm
  have g := h.grid m hm
  have sh := start_shape c s hm
  have sh' := start_shape (c.withExt ext) s' hm
  refine ⟨by rw [sh.1]; exact g.sizeZ, by rw [sh.2.1]; exact g.sizeR, ?_, ?_, ?_⟩
  · obtain ⟨a1, a2, a3, a4⟩ := sh
    obtain ⟨b1, b2, b3, b4⟩ := sh'
    obtain ⟨d1, d2, d3, d4⟩ := g.shape
    exact ⟨by rw [b1, d1, a1], by rw [b2, d2, a2], by rw [b3, d3, a3], by rw [b4, d4, a4]⟩
  · intro iz hz ir hr
    rw [start_cell c s hm, start_cell (c.withExt ext) s' hm, h.interp m]
    have v := spectScal_refl c m 1 (s.interp m).E.z (fun iz ir => ((s.spect m).cell iz ir).Ez)
      (fun iz ir => ((s'.spect m).cell iz ir).Ez) hz hr
    have w := spectVect_refl c m 1 (s.interp m).E.r (s.interp m).E.t
      (fun iz ir => ((s.spect m).cell iz ir).Ep) (fun iz ir => ((s.spect m).cell iz ir).Em)
      (fun iz ir => ((s'.spect m).cell iz ir).Ep) (fun iz ir => ((s'.spect m).cell iz ir).Em) hz hr
    have v' := spectScal_refl c m (-1) (s.interp m).B.z (fun iz ir => ((s.spect m).cell iz ir).Bz)
      (fun iz ir => ((s'.spect m).cell iz ir).Bz) hz hr
    have w' := spectVect_refl c m (-1) (s.interp m).B.r (s.interp m).B.t
      (fun iz ir => ((s.spect m).cell iz ir).Bp) (fun iz ir => ((s.spect m).cell iz ir).Bm)
      (fun iz ir => ((s'.spect m).cell iz ir).Bp) (fun iz ir => ((s'.spect m).cell iz ir).Bm) hz hr
    rw [Complex.ofReal_one, one_mul] at v
    rw [Complex.ofReal_one, one_mul, one_mul] at w
    rw [Complex.ofReal_neg, Complex.ofReal_one, neg_one_mul] at v'
    rw [Complex.ofReal_neg, Complex.ofReal_one, neg_one_mul, neg_one_mul] at w'
    obtain ⟨h1, h2, h3, h4, h5, h6, h7, h8, h9, h10, h11, h12, h13⟩ := g.cells iz hz ir hr
    exact ⟨w.1, w.2, v, w'.1, w'.2, v', h7, h8, h9, h10, h11, h12, h13⟩
  · intro iz hz ho ir hr
    rw [hk m hm] at ho
    obtain ⟨⟨a1, a2, a3⟩, b1, b2, b3⟩ := h.absent m hm iz hz ho
    rw [start_cell c s hm]
    obtain ⟨h1, h2, h3, h4, h5, h6, h7, h8, h9, h10, h11, h12, h13⟩ := g.zero iz hz ho ir hr
    have w := spectVect_zero c (m := m) (o := fun iz ir => ((s.spect m).cell iz ir).Ep)
      (o' := fun iz ir => ((s.spect m).cell iz ir).Em) a1 a2 hz hr
    have w' := spectVect_zero c (m := m) (o := fun iz ir => ((s.spect m).cell iz ir).Bp)
      (o' := fun iz ir => ((s.spect m).cell iz ir).Bm) b1 b2 hz hr
    exact ⟨w.1, w.2, spectScal_zero c a3 hz hr, w'.1, w'.2, spectScal_zero c b3 hz hr, h7, h8, h9, h10, h11, h12, h13⟩

theorem end_refl {s s' : Sim} (h : c.ReflInv s s') : c.ReflInv (c.endFields s) ((c.withExt ext).endFields s') := by
  refine ⟨h.zmin, h.zmax, h.time, h.iteration, h.species, ?_, h.grid, ?_, h.filt⟩
  · intro m
    show (if m < c.Nm then (c.withExt ext).interpSources m (s'.spect m) (s'.interp m) else s'.interp m)
      = reflI (if m < c.Nm then c.interpSources m (s.spect m) (s.interp m) else s.interp m)
    by_cases hm : m < c.Nm
    · rw [if_pos hm, if_pos hm, h.interp m]
      have g := h.grid m hm
      have w := interpVect_refl c m 1 (fun iz ir => ((s.spect m).cell iz ir).Jp) (fun iz ir => ((s.spect m).cell iz ir).Jm)
        (fun iz ir => ((s'.spect m).cell iz ir).Jp) (fun iz ir => ((s'.spect m).cell iz ir).Jm) (s.interp m).J.r (s.interp m).J.t
        (fun iz hz ir hr => by rw [(g.cells iz hz ir hr).Jp]; simp) (fun iz hz ir hr => by rw [(g.cells iz hz ir hr).Jm]; simp)
      have v := interpScal_refl c m 1 (fun iz ir => ((s.spect m).cell iz ir).Jz) (fun iz ir => ((s'.spect m).cell iz ir).Jz)
        (s.interp m).J.z (fun iz hz ir hr => by rw [(g.cells iz hz ir hr).Jz]; simp)
      have u := interpScal_refl c m 1 (fun iz ir => ((s.spect m).cell iz ir).rhoPrev) (fun iz ir => ((s'.spect m).cell iz ir).rhoPrev)
        (s.interp m).rho (fun iz hz ir hr => by rw [(g.cells iz hz ir hr).rhoPrev]; simp)
      show Interp.mk _ _ (GridVec.mk (c.toInterpVect m _ _ _ _).1 (c.toInterpVect m _ _ _ _).2 (c.toInterpScal m _ _))
        (c.toInterpScal m _ _) = _
      show Interp.mk (vecR 1 (s.interp m).E) (vecR (-1) (s.interp m).B)
        (GridVec.mk (c.toInterpVect m _ _ (arr 1 (s.interp m).J.r) (arr (-1) (s.interp m).J.t)).1
        (c.toInterpVect m _ _ (arr 1 (s.interp m).J.r) (arr (-1) (s.interp m).J.t)).2
        (c.toInterpScal m _ (arr 1 (s.interp m).J.z))) (c.toInterpScal m _ (arr 1 (s.interp m).rho)) = _
      rw [w, v, u]; rfl
    · rw [if_neg hm, if_neg hm, h.interp m]
  · intro m hm iz hz ho
    have : (c.endFields s).interp m = c.interpSources m (s.spect m) (s.interp m) := if_pos hm
    rw [this]
    exact h.absent m hm iz hz ho

theorem iterEnd_refl (o : Opts) {s s' t : Sim} (h : c.ReflInv s s') (ht : c.iterEnd o s = .ok t) :
    ∃ t', (c.withExt ext).iterEnd o s' = .ok t' ∧ c.ReflInv t t' := by
  obtain ⟨hd, hspe, hzm, hzM, hsp, -⟩ := iterEnd_ok c o ht
  have ht' : ∃ t', (c.withExt ext).iterEnd o s' = .ok t' := by
    unfold Cfg.iterEnd
    by_cases hdv : o.correctDivE = true
    · have hcf : (c.withExt ext).correction = .curlFree := hd hdv
      simp only [hdv, if_true, Cfg.correctDivE, hcf]
      exact ⟨_, rfl⟩
    · simp only [hdv, Bool.false_eq_true, if_false]
      exact ⟨_, rfl⟩
  obtain ⟨t', ht'⟩ := ht'
  obtain ⟨-, hspe', hzm', hzM', hsp', -⟩ := iterEnd_ok (c.withExt ext) o ht'
  have key : ∀ (d : Cfg) [NeZero d.Nz] (s t : Sim), d.iterEnd o s = .ok t → t.time = s.time + d.dt ∧
      t.iteration = s.iteration + 1 ∧ t.interp = onModes d.Nm (fun m i => d.interpEB m (t.spect m) i) s.interp := by
    intro d _ s t ht
    unfold Cfg.iterEnd at ht
    obtain ⟨sp, -, ht⟩ := (except_bind_ok _ _ _).1 ht
    rw [← Except.ok.inj ht]
    exact ⟨rfl, rfl, rfl⟩
  obtain ⟨k1, k2, k3⟩ := key c s t ht
  obtain ⟨k1', k2', k3'⟩ := key (c.withExt ext) s' t' ht'
  have g : ∀ m < c.Nm, GridRefl c.Nz c.Nr (t.spect m) (t'.spect m) := fun m hm => by
    rw [hsp m hm, hsp' m hm]; exact (h.grid m hm).endGrid c ext o
  have hk : ∀ m < c.Nm, (t.spect m).kz = (s.spect m).kz := fun m hm => by rw [hsp m hm]; exact (endGrid_shape c o _).2.2.1
  have e : ∀ m < c.Nm, ∀ iz, OddAt c t m iz ↔ OddAt c s m iz := fun m hm iz => by
    unfold OddAt; rw [hk m hm]
  refine ⟨t', ht', by rw [hzm', hzm, h.zmin], by rw [hzM', hzM, h.zmax], by rw [k1', k1, h.time]; rfl,
    by rw [k2', k2, h.iteration], by rw [hspe', hspe, h.species], ?_, g, ?_, fun m hm iz hz ho =>
    h.filt m hm iz hz fun h => ho ((e m hm iz).2 h)⟩
  · intro m
    rw [k3, k3']
    show (if m < c.Nm then (c.withExt ext).interpEB m (t'.spect m) (s'.interp m) else s'.interp m)
      = reflI (if m < c.Nm then c.interpEB m (t.spect m) (s.interp m) else s.interp m)
    by_cases hm : m < c.Nm
    · rw [if_pos hm, if_pos hm, h.interp m]
      have g := g m hm
      have w := interpVect_refl c m 1 (fun iz ir => ((t.spect m).cell iz ir).Ep) (fun iz ir => ((t.spect m).cell iz ir).Em)
        (fun iz ir => ((t'.spect m).cell iz ir).Ep) (fun iz ir => ((t'.spect m).cell iz ir).Em) (s.interp m).E.r (s.interp m).E.t
        (fun iz hz ir hr => by rw [(g.cells iz hz ir hr).Ep]; simp) (fun iz hz ir hr => by rw [(g.cells iz hz ir hr).Em]; simp)
      have v := interpScal_refl c m 1 (fun iz ir => ((t.spect m).cell iz ir).Ez) (fun iz ir => ((t'.spect m).cell iz ir).Ez)
        (s.interp m).E.z (fun iz hz ir hr => by rw [(g.cells iz hz ir hr).Ez]; simp)
      have w' := interpVect_refl c m (-1) (fun iz ir => ((t.spect m).cell iz ir).Bp) (fun iz ir => ((t.spect m).cell iz ir).Bm)
        (fun iz ir => ((t'.spect m).cell iz ir).Bp) (fun iz ir => ((t'.spect m).cell iz ir).Bm) (s.interp m).B.r (s.interp m).B.t
        (fun iz hz ir hr => by rw [(g.cells iz hz ir hr).Bp]; simp) (fun iz hz ir hr => by rw [(g.cells iz hz ir hr).Bm]; simp)
      have v' := interpScal_refl c m (-1) (fun iz ir => ((t.spect m).cell iz ir).Bz) (fun iz ir => ((t'.spect m).cell iz ir).Bz)
        (s.interp m).B.z (fun iz hz ir hr => by rw [(g.cells iz hz ir hr).Bz]; simp)
      show Interp.mk (GridVec.mk (c.toInterpVect m _ _ (arr 1 (s.interp m).E.r) (arr (-1) (s.interp m).E.t)).1
        (c.toInterpVect m _ _ (arr 1 (s.interp m).E.r) (arr (-1) (s.interp m).E.t)).2
        (c.toInterpScal m _ (arr 1 (s.interp m).E.z)))
        (GridVec.mk (c.toInterpVect m _ _ (arr (-1) (s.interp m).B.r) (arr (- -1) (s.interp m).B.t)).1
        (c.toInterpVect m _ _ (arr (-1) (s.interp m).B.r) (arr (- -1) (s.interp m).B.t)).2
        (c.toInterpScal m _ (arr (-1) (s.interp m).B.z))) (vecR 1 (s.interp m).J) (arr 1 (s.interp m).rho) = _
      rw [w, v, w', v']; rfl
    · rw [if_neg hm, if_neg hm, h.interp m]
  · intro m hm iz hz ho
    have z := (g m hm).zero iz hz ho
    have hi : t.interp m = c.interpEB m (t.spect m) (s.interp m) := by
      rw [k3]; exact if_pos hm
    rw [hi]
    have w := interpVect_absent c (m := m) (p := fun iz ir => ((t.spect m).cell iz ir).Ep)
      (q := fun iz ir => ((t.spect m).cell iz ir).Em) (o := (s.interp m).E.r) (o' := (s.interp m).E.t) hz
      (fun ir hr => (z ir hr).Ep) (fun ir hr => (z ir hr).Em)
    have w' := interpVect_absent c (m := m) (p := fun iz ir => ((t.spect m).cell iz ir).Bp)
      (q := fun iz ir => ((t.spect m).cell iz ir).Bm) (o := (s.interp m).B.r) (o' := (s.interp m).B.t) hz
      (fun ir hr => (z ir hr).Bp) (fun ir hr => (z ir hr).Bm)
    exact ⟨⟨w.1, w.2, interpScal_absent c hz fun ir hr => (z ir hr).Ez⟩,
      w'.1, w'.2, interpScal_absent c hz fun ir hr => (z ir hr).Bz⟩

theorem reflSim (hext : ExtReflected c ext) (hn : 0 < c.nthreads) (hc : c.EvenFilter) :
    Simulates c (c.withExt ext) (fun _ => True) c.ReflInv where
  period := rfl
  correction := rfl
  dt := rfl
  iteration := fun s s' h => h.iteration
  wrap := by
    intro s s' h t ht _
    have := mapPtclM_refl _ (fun _ p => (c.withExt ext).wrap s'.zmin s'.zmax p) s s' t h.species ht
      (fun sp _ p _ p' hp => by rw [h.zmin, h.zmax]; exact wrap_refl c ext _ _ p p' hp)
    obtain ⟨sps, -, rfl⟩ := (mapPtclM_ok _ _ _).1 ht
    exact ⟨_, this, h.congr rfl rfl rfl rfl h.zmin h.zmax h.time h.iteration rfl⟩
  rho := by
    intro n s s' h t ht _
    obtain ⟨h1, rfl⟩ := (depositRho_ok c hn n s t).1 ht
    exact ⟨_, (depositRho_ok (c.withExt ext) hn n s' _).2 ⟨depOk_refl c ext _ s s' h.zmin h.species h1, rfl⟩,
      withRho_refl c ext hc n h⟩
  J := by
    intro s s' h t ht _
    obtain ⟨⟨h1, h2, h3⟩, rfl⟩ := (depositJ_ok c hn s t).1 ht
    exact ⟨_, (depositJ_ok (c.withExt ext) hn s' _).2 ⟨⟨depOk_refl c ext _ s s' h.zmin h.species h1,
      depOk_refl c ext _ s s' h.zmin h.species h2, depOk_refl c ext _ s s' h.zmin h.species h3⟩, rfl⟩,
      withJ_refl c ext hc h⟩
  gather := by
    intro s s' h t ht _
    have := mapPtclM_refl _ ((c.withExt ext).gatherPtcl s') s.record s'.record t h.species ht
      (fun sp _ p _ p' hp => gatherPtcl_refl c ext s s' h.zmin (fun m => by rw [h.interp m]; rfl)
        (fun m => by rw [h.interp m]; rfl) sp p p' hp)
    obtain ⟨sps, -, rfl⟩ := (mapPtclM_ok _ _ _).1 ht
    exact ⟨_, this, h.congr rfl rfl rfl rfl h.zmin h.zmax h.time h.iteration rfl⟩
  exts := by
    intro s s' h
    refine h.congr rfl rfl rfl rfl h.zmin h.zmax h.time h.iteration ?_
    show s'.species.mapIdx _ = (s.species.mapIdx _).map _
    rw [h.species, h.time]
    apply List.ext_getElem
    · simp
    · intro i h1 h2
      simp only [List.getElem_mapIdx, List.getElem_map, Function.comp]
      show Species.mk _ _ _ _ _ _ _ = Species.mk _ _ _ _ _ _ _
      congr 1
      show (List.map Spec.Reflect.ptcl _).map _ = (List.map _ _).map Spec.Reflect.ptcl
      rw [List.map_map, List.map_map]
      refine List.map_congr_left fun p _ => ?_
      exact hext s.time i p
  pushP := by
    intro s s' h t ht _
    have := mapPtclM_refl _ ((c.withExt ext).pushP (s'.time + 0.5 * (c.withExt ext).dt)) s s' t h.species ht
      (fun sp _ p _ p' hp => by rw [h.time]; exact cfgPushP_refl c ext _ sp p p' hp)
    obtain ⟨sps, -, rfl⟩ := (mapPtclM_ok _ _ _).1 ht
    exact ⟨_, this, h.congr rfl rfl rfl rfl h.zmin h.zmax h.time h.iteration rfl⟩
  pushX := by
    intro dt a b s s' h
    refine h.congr rfl rfl rfl rfl h.zmin h.zmax h.time h.iteration ?_
    show s'.species.map _ = (s.species.map _).map _
    rw [h.species, List.map_map, List.map_map]
    refine List.map_congr_left fun sp _ => ?_
    show Species.mk _ _ _ _ _ _ _ = Species.mk _ _ _ _ _ _ _
    congr 1
    show (List.map Spec.Reflect.ptcl _).map _ = (List.map _ _).map Spec.Reflect.ptcl
    rw [List.map_map, List.map_map]
    refine List.map_congr_left fun p _ => ?_
    show Ptcl.mk _ _ _ = Ptcl.mk _ _ _
    congr 1
    show PushPtcl.mk _ _ _ _ _ = PushPtcl.mk _ _ _ _ _
    congr 1
    simp only [Spec.Reflect.ptcl, Spec.Reflect.push, Fbpic.pushX]
    show _ + c.k.c * _ * _ * _ * _ = _; ring
  shift := by
    intro dt s s' h
    have e : (c.withExt ext).galilean = c.galilean := rfl
    have e' : (c.withExt ext).V = c.V := rfl
    unfold Cfg.shiftGalilean
    rw [e, e']
    split_ifs
    · exact h.congr rfl rfl rfl rfl (by rw [h.zmin]) (by rw [h.zmax]) h.time h.iteration h.species
    · exact h
  iterEnd := by
    intro o s s' h t ht _
    exact iterEnd_refl c ext o h ht
  start := fun s s' h => start_refl c ext h
  finish := fun s s' h => end_refl c ext h

/-! ### The relation of the specification -/

theorem zeroCell : Zero ⟨0, 0, 0, 0, 0, 0, 0, 0, 0, 0, 0, 0, 0, 0, 0, 0, 0⟩ := by constructor <;> rfl

theorem reflInv_of {s s' : Sim} (hs : EvenSolver c s) (h : Reflected c s s') : c.ReflInv s s' := by
  refine ⟨h.zmin, h.zmax, h.time, h.iteration, h.species, ?_, ?_, ?_, ?_⟩
  · intro m
    show s'.interp m = Interp.mk (GridVec.mk _ _ _) (GridVec.mk _ _ _) (GridVec.mk _ _ _) _
    have e : s'.interp m = ⟨⟨(s'.interp m).E.r, (s'.interp m).E.t, (s'.interp m).E.z⟩,
      ⟨(s'.interp m).B.r, (s'.interp m).B.t, (s'.interp m).B.z⟩,
      ⟨(s'.interp m).J.r, (s'.interp m).J.t, (s'.interp m).J.z⟩, (s'.interp m).rho⟩ := rfl
    rw [e, h.Er m, h.Et m, h.Ez m, h.Br m, h.Bt m, h.Bz m, h.Jr m, h.Jt m, h.Jz m, h.rho m, neg_neg]
  · intro m hm
    refine ⟨hs.Nz m hm, hs.Nr m hm, h.shape m hm, h.spect m hm, fun iz hz hk ir hr => ?_⟩
    rw [((hs.nyquist m hm iz hz).resolve_left hk).2.2.2 ir hr]
    exact zeroCell
  · intro m hm iz hz hk
    have := (hs.nyquist m hm iz hz).resolve_left hk
    exact ⟨this.2.1, this.2.2.1⟩
  · intro m hm iz hz hk
    exact ((hs.nyquist m hm iz hz).resolve_left hk).1

theorem reflected_of {s s' : Sim} (h : c.ReflInv s s') : Reflected c s s' := by
  refine ⟨h.zmin, h.zmax, h.time, h.iteration, h.species, ?_, ?_, ?_, ?_, ?_, ?_, ?_, ?_, ?_, ?_,
    fun m hm => (h.grid m hm).shape, fun m hm => (h.grid m hm).cells⟩ <;> intro m <;> rw [h.interp m]
  all_goals first | rfl | (show arr (- -1) _ = _; rw [neg_neg])

end Fbpic.Pic
