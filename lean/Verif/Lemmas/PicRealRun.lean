import Verif.Lemmas.PicRealCell

/-!
# Lemmas: the axisymmetric mode stays real through the cycle
-/

namespace Fbpic.Pic

open Transform ExternalField Step
open Spec (negIdx hankel RealArr RealVec Mode0Real Absent AbsentVec RealSolver)
open scoped ComplexConjugate

theorem im_zero_iff {z : ℂ} : z.im = 0 ↔ z = conj z := by
  rw [← Complex.conj_eq_iff_im, eq_comm]

/-! ### Deposited arrays -/

/-- The real arrays. -/
def realBufs : AddSubmonoid Buf where
  carrier := {A | ∀ i j, (A i j).im = 0}
  zero_mem' := fun _ _ => rfl
  add_mem' := by
    intro a b ha hb i j
    show (a i j + b i j).im = 0
    rw [Complex.add_im, ha i j, hb i j, add_zero]

theorem mem_realBufs {A : Buf} : A ∈ realBufs ↔ ∀ i j, (A i j).im = 0 := Iff.rfl

theorem cellBuf_real (i j : ℕ) {v : ℂ} (h : v.im = 0) : cellBuf i j v ∈ realBufs := by
  intro i' j'
  show (if i' = i ∧ j' = j then v else 0).im = 0
  split_ifs
  · exact h
  · rfl

theorem ptclBuf_real (sh : Shape) (f : DepField) (cc q : ℝ) (g : CylGrid) (beta : List ℝ) (p : DepPtcl) :
    ptclBuf sh f cc q g beta 0 p ∈ realBufs := by
  unfold ptclBuf
  refine list_sum_mem fun A hA => ?_
  obtain ⟨a, ha, rfl⟩ := List.mem_map.1 hA
  refine cellBuf_real _ _ ?_
  unfold addsOf ptclAdds at ha
  simp only [List.mem_flatMap, List.mem_map] at ha
  obtain ⟨u, -, v, -, rfl⟩ := ha
  show (_ * scalOf f cc q 0 p).im = 0
  unfold scalOf modeScal
  rw [← Complex.ofReal_mul, Complex.ofReal_im]

theorem speciesBuf_real (f : DepField) (cc : ℝ) (g : CylGrid) (beta : Shape → ℕ → List ℝ) (sp : DepSpecies) :
    speciesBuf f cc g beta 0 sp ∈ realBufs := by
  unfold speciesBuf
  split_ifs
  · exact realBufs.zero_mem
  · refine list_sum_mem fun A hA => ?_
    obtain ⟨p, -, rfl⟩ := List.mem_map.1 hA
    exact ptclBuf_real _ _ _ _ _ _ _

theorem depArr_real (c : Cfg) (f : DepField) (s : Sim) : c.depArr f s 0 ∈ realBufs := by
  unfold Cfg.depArr
  split_ifs
  · intro i j
    unfold CellVolume.divideByVolume
    have h : reduceBuf c.Nz c.Nr ((s.depositing.map (speciesBuf f c.k.c (c.grid s.zmin) c.beta 0)).sum) ∈ realBufs := by
      unfold reduceBuf
      refine sum_mem fun i _ => sum_mem fun j _ => cellBuf_real _ _ ?_
      have : ((s.depositing.map (speciesBuf f c.k.c (c.grid s.zmin) c.beta 0)).sum) ∈ realBufs := by
        refine list_sum_mem fun A hA => ?_
        obtain ⟨p, -, rfl⟩ := List.mem_map.1 hA
        exact speciesBuf_real _ _ _ _ _
      exact this i j
    rw [Complex.mul_im, h i j, Complex.ofReal_im]; simp
  · exact realBufs.zero_mem

/-! ### Transforms -/

section
variable (c : Cfg) [NeZero c.Nz]

theorem spectScal_herm {a out : Buf} (ha : RealArr c a) {iz ir : ℕ} (hz : iz < c.Nz) (hr : ir < c.Nr) :
    c.toSpectScal 0 a out (negIdx c.Nz iz) ir = conj (c.toSpectScal 0 a out iz ir) := by
  rw [toSpectScal_eq]
  unfold fwd
  rw [if_pos ⟨negIdx_lt iz, hr⟩, if_pos ⟨hz, hr⟩]
  exact hankel_conj _ _ fun j hj => fft_conj (fun i hi j hj => im_zero_iff.1 (ha i hi j hj)) hz hj

theorem spectScal_zero {m : ℕ} {a out : Buf} {iz ir : ℕ} (ha : Absent c iz a) (hz : iz < c.Nz) (hr : ir < c.Nr) :
    c.toSpectScal m a out iz ir = 0 := by
  rw [toSpectScal_eq]
  unfold fwd
  rw [if_pos ⟨hz, hr⟩]
  exact hankel_zero _ ha _

theorem spectVect_herm (hM : ∀ i < c.Nr, ∀ j < c.Nr, (c.mats 0).Mm i j = -(c.mats 0).Mp i j) {r t o o' : Buf}
    (hr : RealArr c r) (ht : RealArr c t) {iz ir : ℕ} (hz : iz < c.Nz) (hi : ir < c.Nr) :
    (c.toSpectVect 0 r t o o').1 (negIdx c.Nz iz) ir = -conj ((c.toSpectVect 0 r t o o').2 iz ir) ∧
    (c.toSpectVect 0 r t o o').2 (negIdx c.Nz iz) ir = -conj ((c.toSpectVect 0 r t o o').1 iz ir) := by
  rw [toSpectVect_eq]
  unfold fwd
  dsimp only
  rw [if_pos ⟨negIdx_lt iz, hi⟩, if_pos ⟨hz, hi⟩, if_pos ⟨negIdx_lt iz, hi⟩, if_pos ⟨hz, hi⟩]
  rw [hankel_neg hM _ _ hi, hankel_neg hM _ _ hi]
  have e : ∀ i < c.Nz, ∀ j < c.Nr, (1 : ℂ) / 2 * (r i j - Complex.I * t i j) = conj ((1 : ℂ) / 2 * (r i j + Complex.I * t i j)) := by
    intro i hi j hj
    simp only [map_mul, map_div₀, map_one, map_ofNat, map_add, Complex.conj_I]
    rw [← im_zero_iff.1 (hr i hi j hj), ← im_zero_iff.1 (ht i hi j hj)]
    ring
  constructor
  · rw [map_neg, neg_neg]
    exact hankel_conj _ _ fun j hj => fft_conj e hz hj
  · congr 1
    refine hankel_conj _ _ fun j hj => fft_conj (fun i hi j hj => ?_) hz hj
    rw [e i hi j hj, Complex.conj_conj]

theorem spectVect_zero {m : ℕ} {r t o o' : Buf} {iz ir : ℕ} (hr : Absent c iz r) (ht : Absent c iz t) (hz : iz < c.Nz)
    (hi : ir < c.Nr) : (c.toSpectVect m r t o o').1 iz ir = 0 ∧ (c.toSpectVect m r t o o').2 iz ir = 0 := by
  have hlin : ∀ (z : ℂ) (i j : ℕ), fftAxis0 c.Nz false (fun i j => 1 / 2 * (r i j + z * t i j)) i j
      = 1 / 2 * (fftAxis0 c.Nz false r i j + z * fftAxis0 c.Nz false t i j) := by
    intro z i j
    simp only [fftAxis0, Bool.false_eq_true, if_false, fftZ, Finset.mul_sum, ← Finset.sum_add_distrib]
    exact Finset.sum_congr rfl fun l _ => by ring
  have hlin' : ∀ (i j : ℕ), fftAxis0 c.Nz false (fun i j => 1 / 2 * (r i j - Complex.I * t i j)) i j
      = 1 / 2 * (fftAxis0 c.Nz false r i j - Complex.I * fftAxis0 c.Nz false t i j) := by
    intro i j
    have := hlin (-Complex.I) i j
    simp only [neg_mul, ← sub_eq_add_neg] at this
    exact this
  rw [toSpectVect_eq]
  unfold fwd
  dsimp only
  rw [if_pos ⟨hz, hi⟩, if_pos ⟨hz, hi⟩]
  constructor
  · exact hankel_zero _ (fun j hj => by rw [hlin', hr j hj, ht j hj]; simp) _
  · exact hankel_zero _ (fun j hj => by rw [hlin, hr j hj, ht j hj]; simp) _

theorem interpScal_real {a out : Buf} (h : ∀ iz < c.Nz, ∀ ir < c.Nr, a (negIdx c.Nz iz) ir = conj (a iz ir)) :
    RealArr c (c.toInterpScal 0 a out) := by
  intro iz hz ir hr
  rw [im_zero_iff, toInterpScal_eq]
  unfold bwd
  rw [if_pos ⟨hz, hr⟩]
  exact ifft_conj (fun i hi j _ => hankel_conj _ _ fun l hl => h i hi l hl) hr

theorem interpScal_absent {m : ℕ} {a out : Buf} {iz : ℕ} (hz : iz < c.Nz) (h : ∀ ir < c.Nr, a iz ir = 0) :
    Absent c iz (c.toInterpScal m a out) := by
  intro ir hr
  rw [fftAxis0_congr c.Nz c.Nr false (b := fftAxis0 c.Nz true (hankel c.Nr (c.mats m).invM0 a)) ?_ iz ir hz hr]
  · rw [(fftAxis0_inv c.Nz _ iz ir hz).2]
    exact hankel_zero _ h _
  · intro i j hi hj
    rw [toInterpScal_eq]
    unfold bwd
    rw [if_pos ⟨hi, hj⟩]

theorem interpVect_real (hM : ∀ i < c.Nr, ∀ j < c.Nr, (c.mats 0).invMm i j = -(c.mats 0).invMp i j) {p q o o' : Buf}
    (hp : ∀ iz < c.Nz, ∀ ir < c.Nr, p (negIdx c.Nz iz) ir = -conj (q iz ir))
    (hq : ∀ iz < c.Nz, ∀ ir < c.Nr, q (negIdx c.Nz iz) ir = -conj (p iz ir)) :
    RealArr c (c.toInterpVect 0 p q o o').1 ∧ RealArr c (c.toInterpVect 0 p q o o').2 := by
  have e1 : ∀ i < c.Nz, ∀ j < c.Nr, hankel c.Nr (c.mats 0).invMp p (negIdx c.Nz i) j
      = conj (hankel c.Nr (c.mats 0).invMm q i j) := by
    intro i hi j hj
    rw [hankel_neg hM _ _ hj, map_neg]
    have := hankel_conj (N := c.Nz) (Nr := c.Nr) (c.mats 0).invMp (F := p) (G := fun i j => -q i j) (iz := i) j
      (fun l hl => by rw [hp i hi l hl, map_neg])
    rw [this]
    unfold hankel
    rw [← map_neg, ← Finset.sum_neg_distrib]
    simp only [neg_mul]
  have e2 : ∀ i < c.Nz, ∀ j < c.Nr, hankel c.Nr (c.mats 0).invMm q (negIdx c.Nz i) j
      = conj (hankel c.Nr (c.mats 0).invMp p i j) := by
    intro i hi j hj
    rw [hankel_neg hM _ _ hj]
    have := hankel_conj (N := c.Nz) (Nr := c.Nr) (c.mats 0).invMp (F := q) (G := fun i j => -p i j) (iz := i) j
      (fun l hl => by rw [hq i hi l hl, map_neg])
    rw [this, ← map_neg]
    unfold hankel
    rw [← Finset.sum_neg_distrib]
    simp only [neg_mul, neg_neg]
  constructor
  · intro iz hz ir hr
    rw [im_zero_iff, toInterpVect_eq]
    dsimp only
    rw [if_pos ⟨hz, hr⟩]
    refine ifft_conj (Nr := c.Nr) (fun i hi j hj => ?_) hr
    rw [e1 i hi j hj, e2 i hi j hj, map_add, add_comm]
  · intro iz hz ir hr
    rw [im_zero_iff, toInterpVect_eq]
    dsimp only
    rw [if_pos ⟨hz, hr⟩]
    refine ifft_conj (Nr := c.Nr) (fun i hi j hj => ?_) hr
    rw [e1 i hi j hj, e2 i hi j hj, map_mul, map_sub, Complex.conj_I]
    ring

theorem interpVect_absent {m : ℕ} {p q o o' : Buf} {iz : ℕ} (hz : iz < c.Nz) (hp : ∀ ir < c.Nr, p iz ir = 0)
    (hq : ∀ ir < c.Nr, q iz ir = 0) :
    Absent c iz (c.toInterpVect m p q o o').1 ∧ Absent c iz (c.toInterpVect m p q o o').2 := by
  constructor
  · intro ir hr
    rw [fftAxis0_congr c.Nz c.Nr false (b := fftAxis0 c.Nz true (fun i j =>
      hankel c.Nr (c.mats m).invMp p i j + hankel c.Nr (c.mats m).invMm q i j)) ?_ iz ir hz hr]
    · rw [(fftAxis0_inv c.Nz _ iz ir hz).2, hankel_zero _ hp, hankel_zero _ hq, add_zero]
    · intro i j hi hj
      rw [toInterpVect_eq]
      dsimp only
      rw [if_pos ⟨hi, hj⟩]
  · intro ir hr
    rw [fftAxis0_congr c.Nz c.Nr false (b := fftAxis0 c.Nz true (fun i j => Complex.I *
      (hankel c.Nr (c.mats m).invMp p i j - hankel c.Nr (c.mats m).invMm q i j))) ?_ iz ir hz hr]
    · rw [(fftAxis0_inv c.Nz _ iz ir hz).2, hankel_zero _ hp, hankel_zero _ hq, sub_zero, mul_zero]
    · intro i j hi hj
      rw [toInterpVect_eq]
      dsimp only
      rw [if_pos ⟨hi, hj⟩]

end

/-! ### The invariant -/

/-- What is needed of the matrices and of the smoother. -/
structure Cfg.RealMats (c : Cfg) : Prop where
  modes : 0 < c.Nm
  M : ∀ i < c.Nr, ∀ j < c.Nr, (c.mats 0).Mm i j = -(c.mats 0).Mp i j
  invM : ∀ i < c.Nr, ∀ j < c.Nr, (c.mats 0).invMm i j = -(c.mats 0).invMp i j
  smooth : ∀ fz fr, c.filter = some (fz, fr) → ∀ iz < c.Nz, fz (negIdx c.Nz iz) = fz iz

/-- The state between the pieces of the cycle. -/
structure Cfg.RealInv (c : Cfg) [NeZero c.Nz] (s : Sim) : Prop where
  grid : GridReal c.Nz c.Nr (s.spect 0)
  real : Mode0Real c s
  absent : ∀ iz < c.Nz, ¬ Spec.Odd c s iz → AbsentVec c iz (s.interp 0).E ∧ AbsentVec c iz (s.interp 0).B
  filt : ∀ iz < c.Nz, ¬ Spec.Odd c s iz → ∃ fz fr, c.filter = some (fz, fr) ∧ fz iz = 0

variable (c : Cfg) [NeZero c.Nz]

theorem Cfg.RealInv.congr {c : Cfg} [NeZero c.Nz] {s t : Sim} (h : c.RealInv s) (h1 : t.interp = s.interp)
    (h2 : t.spect = s.spect) : c.RealInv t := by
  obtain ⟨g, r, a, f⟩ := h
  have e : ∀ iz, Spec.Odd c t iz ↔ Spec.Odd c s iz := fun iz => by unfold Spec.Odd; rw [h2]
  refine ⟨by rw [h2]; exact g, ?_, ?_, ?_⟩
  · obtain ⟨r1, r2, r3, r4⟩ := r
    exact ⟨by rw [h1]; exact r1, by rw [h1]; exact r2, by rw [h1]; exact r3, by rw [h1]; exact r4⟩
  · intro iz hz ho
    rw [h1]; exact a iz hz fun h => ho ((e iz).2 h)
  · intro iz hz ho
    exact f iz hz fun h => ho ((e iz).2 h)

theorem filterSpect_kz (fld : FilterField) (m : ℕ) (g : SpecGrid) : (c.filterSpect fld m g).kz = g.kz := by
  unfold Cfg.filterSpect
  split <;> rfl

theorem filterSpect_real (hc : c.RealMats) (fld : FilterField) {g : SpecGrid} (hNz : g.Nz = c.Nz) (hNr : g.Nr = c.Nr)
    (hh : ∀ iz < c.Nz, ∀ ir < c.Nr, Herm (g.cell iz ir) (g.cell (negIdx c.Nz iz) ir))
    (h0 : ∀ iz < c.Nz, g.kz (negIdx c.Nz iz) ≠ -g.kz iz → ∀ ir < c.Nr, Zero (filterCell 0 fld (g.cell iz ir)))
    (hf : ∀ iz < c.Nz, g.kz (negIdx c.Nz iz) ≠ -g.kz iz → ∃ fz fr, c.filter = some (fz, fr) ∧ fz iz = 0) :
    GridReal c.Nz c.Nr (c.filterSpect fld 0 g) := by
  unfold Cfg.filterSpect
  cases hflt : c.filter with
  | none =>
    refine ⟨hNz, hNr, hh, fun iz hz hk => ?_⟩
    obtain ⟨fz, fr, h, -⟩ := hf iz hz hk
    rw [hflt] at h; cases h
  | some F =>
    obtain ⟨fz, fr⟩ := F
    have e : ∀ i < c.Nz, ∀ j < c.Nr, (g.filter fz (fr 0) fld).cell i j = filterCell (fz i * fr 0 j) fld (g.cell i j) := by
      intro i hi j hj
      exact if_pos ⟨by rw [hNz]; exact hi, by rw [hNr]; exact hj⟩
    refine ⟨hNz, hNr, ?_, ?_⟩
    · intro iz hz ir hr
      show Herm ((g.filter fz (fr 0) fld).cell iz ir) ((g.filter fz (fr 0) fld).cell _ ir)
      rw [e iz hz ir hr, e _ (negIdx_lt iz) ir hr, hc.smooth fz fr hflt iz hz]
      exact filter_herm _ _ (hh iz hz ir hr)
    · intro iz hz hk ir hr
      obtain ⟨fz', fr', h, h'⟩ := hf iz hz hk
      rw [hflt] at h
      obtain ⟨rfl, rfl⟩ := Prod.mk.inj (Option.some.inj h)
      show Zero ((g.filter fz (fr 0) fld).cell iz ir)
      rw [e iz hz ir hr, h', zero_mul]
      exact h0 iz hz hk ir hr

theorem realArr_of_mem {A : Buf} (h : A ∈ realBufs) : RealArr c A := fun i _ j _ => h i j

theorem withRho_real (hc : c.RealMats) (n : RhoName) {s : Sim} (h : c.RealInv s) : c.RealInv (c.withRho n s) := by
  obtain ⟨g, r, a, f⟩ := h
  have hi : (c.withRho n s).interp 0 = { s.interp 0 with rho := c.depArr .rho s 0 } := if_pos hc.modes
  have hs : (c.withRho n s).spect 0 = c.filterSpect n.filterField 0 (c.spectRho n 0 ((c.withRho n s).interp 0) (s.spect 0)) :=
    if_pos hc.modes
  have hk : ((c.withRho n s).spect 0).kz = (s.spect 0).kz := by rw [hs, filterSpect_kz]; rfl
  have e : ∀ iz, Spec.Odd c (c.withRho n s) iz ↔ Spec.Odd c s iz := fun iz => by unfold Spec.Odd; rw [hk]
  have hρ : RealArr c (c.depArr .rho s 0) := realArr_of_mem c (depArr_real c _ s)
  refine ⟨?_, ?_, ?_, fun iz hz ho => f iz hz fun h => ho ((e iz).2 h)⟩
  · rw [hs, hi]
    refine filterSpect_real c hc _ g.sizeZ g.sizeR ?_ ?_ f
    · intro iz hz ir hr
      have k := g.herm iz hz ir hr
      have v := spectScal_herm c (out := fun iz ir => n.get ((s.spect 0).cell iz ir)) hρ hz hr
      obtain ⟨h1, h2, h3, h4, h5, h6, h7, h8, h9, h10, h11, h12, h13⟩ := k
      unfold Cfg.spectRho
      cases n <;> simp only [RhoName.set] <;> constructor <;> first | assumption | exact v
    · intro iz hz ho ir hr
      obtain ⟨h1, h2, h3, h4, h5, h6, h7, h8, h9, h10, h11, h12, h13⟩ := g.zero iz hz ho ir hr
      unfold Cfg.spectRho
      cases n <;> simp only [RhoName.set, RhoName.filterField, filterCell] <;> constructor <;> simp [*]
  · rw [show Mode0Real c (c.withRho n s) ↔ _ from Iff.rfl]
    obtain ⟨r1, r2, r3, r4⟩ := r
    exact ⟨by rw [hi]; exact r1, by rw [hi]; exact r2, by rw [hi]; exact r3, by rw [hi]; exact hρ⟩
  · intro iz hz ho
    rw [hi]; exact a iz hz fun h => ho ((e iz).2 h)

theorem withJ_real (hc : c.RealMats) {s : Sim} (h : c.RealInv s) : c.RealInv (c.withJ s) := by
  obtain ⟨g, r, a, f⟩ := h
  have hi : (c.withJ s).interp 0 = { s.interp 0 with J := ⟨c.depArr .Jr s 0, c.depArr .Jt s 0, c.depArr .Jz s 0⟩ } :=
    if_pos hc.modes
  have hs : (c.withJ s).spect 0 = c.filterSpect .J 0 (c.spectJ 0 ((c.withJ s).interp 0) (s.spect 0)) := if_pos hc.modes
  have hk : ((c.withJ s).spect 0).kz = (s.spect 0).kz := by rw [hs, filterSpect_kz]; rfl
  have e : ∀ iz, Spec.Odd c (c.withJ s) iz ↔ Spec.Odd c s iz := fun iz => by unfold Spec.Odd; rw [hk]
  have hJ : ∀ fld, RealArr c (c.depArr fld s 0) := fun fld => realArr_of_mem c (depArr_real c _ s)
  refine ⟨?_, ?_, ?_, fun iz hz ho => f iz hz fun h => ho ((e iz).2 h)⟩
  · rw [hs, hi]
    refine filterSpect_real c hc _ g.sizeZ g.sizeR ?_ ?_ f
    · intro iz hz ir hr
      have k := g.herm iz hz ir hr
      have v := spectScal_herm c (out := fun iz ir => ((s.spect 0).cell iz ir).Jz) (hJ .Jz) hz hr
      have w := spectVect_herm c hc.M (o := fun iz ir => ((s.spect 0).cell iz ir).Jp)
        (o' := fun iz ir => ((s.spect 0).cell iz ir).Jm) (hJ .Jr) (hJ .Jt) hz hr
      obtain ⟨h1, h2, h3, h4, h5, h6, h7, h8, h9, h10, h11, h12, h13⟩ := k
      unfold Cfg.spectJ
      constructor <;> first | assumption | exact v | exact w.1 | exact w.2
    · intro iz hz ho ir hr
      obtain ⟨h1, h2, h3, h4, h5, h6, h7, h8, h9, h10, h11, h12, h13⟩ := g.zero iz hz ho ir hr
      unfold Cfg.spectJ
      simp only [filterCell]
      constructor <;> simp [*]
  · obtain ⟨r1, r2, r3, r4⟩ := r
    exact ⟨by rw [hi]; exact r1, by rw [hi]; exact r2, by rw [hi]; exact ⟨hJ _, hJ _, hJ _⟩, by rw [hi]; exact r4⟩
  · intro iz hz ho
    rw [hi]; exact a iz hz fun h => ho ((e iz).2 h)

theorem start_real (hc : c.RealMats) {s : Sim} (h : c.RealInv s) : c.RealInv (c.startFields s) := by
  obtain ⟨g, r, a, f⟩ := h
  have hk : ((c.startFields s).spect 0).kz = (s.spect 0).kz := (start_shape c s hc.modes).2.2.1
  have e : ∀ iz, Spec.Odd c (c.startFields s) iz ↔ Spec.Odd c s iz := fun iz => by unfold Spec.Odd; rw [hk]
  refine ⟨⟨?_, ?_, ?_, ?_⟩, ⟨r.E, r.B, r.J, r.rho⟩, fun iz hz ho => a iz hz fun h => ho ((e iz).2 h),
    fun iz hz ho => f iz hz fun h => ho ((e iz).2 h)⟩
  · rw [(start_shape c s hc.modes).1]; exact g.sizeZ
  · rw [(start_shape c s hc.modes).2.1]; exact g.sizeR
  · intro iz hz ir hr
    have v := spectScal_herm c (out := fun iz ir => ((s.spect 0).cell iz ir).Ez) r.E.2.2 hz hr
    have w := spectVect_herm c hc.M (o := fun iz ir => ((s.spect 0).cell iz ir).Ep)
      (o' := fun iz ir => ((s.spect 0).cell iz ir).Em) r.E.1 r.E.2.1 hz hr
    have v' := spectScal_herm c (out := fun iz ir => ((s.spect 0).cell iz ir).Bz) r.B.2.2 hz hr
    have w' := spectVect_herm c hc.M (o := fun iz ir => ((s.spect 0).cell iz ir).Bp)
      (o' := fun iz ir => ((s.spect 0).cell iz ir).Bm) r.B.1 r.B.2.1 hz hr
    rw [start_cell c s hc.modes, start_cell c s hc.modes]
    obtain ⟨h1, h2, h3, h4, h5, h6, h7, h8, h9, h10, h11, h12, h13⟩ := g.herm iz hz ir hr
    exact ⟨w.1, w.2, v, w'.1, w'.2, v', h7, h8, h9, h10, h11, h12, h13⟩
  · intro iz hz ho ir hr
    rw [hk] at ho
    obtain ⟨⟨a1, a2, a3⟩, b1, b2, b3⟩ := a iz hz ho
    rw [start_cell c s hc.modes]
    obtain ⟨h1, h2, h3, h4, h5, h6, h7, h8, h9, h10, h11, h12, h13⟩ := g.zero iz hz ho ir hr
    have w := spectVect_zero c (m := 0) (o := fun iz ir => ((s.spect 0).cell iz ir).Ep) (o' := fun iz ir => ((s.spect 0).cell iz ir).Em)
      a1 a2 hz hr
    have w' := spectVect_zero c (m := 0) (o := fun iz ir => ((s.spect 0).cell iz ir).Bp) (o' := fun iz ir => ((s.spect 0).cell iz ir).Bm)
      b1 b2 hz hr
    exact ⟨w.1, w.2, spectScal_zero c a3 hz hr, w'.1, w'.2, spectScal_zero c b3 hz hr, h7, h8, h9, h10, h11, h12, h13⟩

theorem end_real (hc : c.RealMats) {s : Sim} (h : c.RealInv s) : c.RealInv (c.endFields s) := by
  obtain ⟨g, r, a, f⟩ := h
  have hi : (c.endFields s).interp 0 = c.interpSources 0 (s.spect 0) (s.interp 0) := if_pos hc.modes
  refine ⟨g, ?_, ?_, f⟩
  · have w := interpVect_real c hc.invM (p := fun iz ir => ((s.spect 0).cell iz ir).Jp)
      (q := fun iz ir => ((s.spect 0).cell iz ir).Jm) (o := (s.interp 0).J.r) (o' := (s.interp 0).J.t)
      (fun iz hz ir hr => (g.herm iz hz ir hr).Jp) (fun iz hz ir hr => (g.herm iz hz ir hr).Jm)
    obtain ⟨r1, r2, r3, r4⟩ := r
    refine ⟨by rw [hi]; exact r1, by rw [hi]; exact r2, ?_, ?_⟩
    · rw [hi]
      exact ⟨w.1, w.2, interpScal_real c fun iz hz ir hr => (g.herm iz hz ir hr).Jz⟩
    · rw [hi]
      exact interpScal_real c fun iz hz ir hr => (g.herm iz hz ir hr).rhoPrev
  · intro iz hz ho
    rw [hi]
    exact a iz hz ho

theorem iterEnd_real (hc : c.RealMats) (o : Opts) {s t : Sim} (h : c.RealInv s) (ht : c.iterEnd o s = .ok t) :
    c.RealInv t := by
  obtain ⟨g, r, a, f⟩ := h
  obtain ⟨-, -, -, -, hsp, -⟩ := iterEnd_ok c o ht
  have hs := hsp 0 hc.modes
  have hi : t.interp 0 = c.interpEB 0 (t.spect 0) (s.interp 0) := by
    unfold Cfg.iterEnd at ht
    obtain ⟨sp, -, ht⟩ := (except_bind_ok _ _ _).1 ht
    rw [← Except.ok.inj ht]
    exact if_pos hc.modes
  have hk : (t.spect 0).kz = (s.spect 0).kz := by rw [hs]; exact (endGrid_shape c o _).2.2.1
  have e : ∀ iz, Spec.Odd c t iz ↔ Spec.Odd c s iz := fun iz => by unfold Spec.Odd; rw [hk]
  have g' : GridReal c.Nz c.Nr (t.spect 0) := by rw [hs]; exact GridReal.endGrid c o g
  have f' : ∀ iz < c.Nz, ¬ Spec.Odd c t iz → ∃ fz fr, c.filter = some (fz, fr) ∧ fz iz = 0 :=
    fun iz hz ho => f iz hz fun h => ho ((e iz).2 h)
  refine ⟨g', ?_, ?_, f'⟩
  · obtain ⟨r1, r2, r3, r4⟩ := r
    refine ⟨?_, ?_, by rw [hi]; exact r3, by rw [hi]; exact r4⟩
    · rw [hi]
      have w := interpVect_real c hc.invM (p := fun iz ir => ((t.spect 0).cell iz ir).Ep)
        (q := fun iz ir => ((t.spect 0).cell iz ir).Em) (o := (s.interp 0).E.r) (o' := (s.interp 0).E.t)
        (fun iz hz ir hr => (g'.herm iz hz ir hr).Ep) (fun iz hz ir hr => (g'.herm iz hz ir hr).Em)
      exact ⟨w.1, w.2, interpScal_real c fun iz hz ir hr => (g'.herm iz hz ir hr).Ez⟩
    · rw [hi]
      have w := interpVect_real c hc.invM (p := fun iz ir => ((t.spect 0).cell iz ir).Bp)
        (q := fun iz ir => ((t.spect 0).cell iz ir).Bm) (o := (s.interp 0).B.r) (o' := (s.interp 0).B.t)
        (fun iz hz ir hr => (g'.herm iz hz ir hr).Bp) (fun iz hz ir hr => (g'.herm iz hz ir hr).Bm)
      exact ⟨w.1, w.2, interpScal_real c fun iz hz ir hr => (g'.herm iz hz ir hr).Bz⟩
  · intro iz hz ho
    have z := g'.zero iz hz ho
    rw [hi]
    have w := interpVect_absent c (m := 0) (p := fun iz ir => ((t.spect 0).cell iz ir).Ep)
      (q := fun iz ir => ((t.spect 0).cell iz ir).Em) (o := (s.interp 0).E.r) (o' := (s.interp 0).E.t) hz
      (fun ir hr => (z ir hr).Ep) (fun ir hr => (z ir hr).Em)
    have w' := interpVect_absent c (m := 0) (p := fun iz ir => ((t.spect 0).cell iz ir).Bp)
      (q := fun iz ir => ((t.spect 0).cell iz ir).Bm) (o := (s.interp 0).B.r) (o' := (s.interp 0).B.t) hz
      (fun ir hr => (z ir hr).Bp) (fun ir hr => (z ir hr).Bm)
    exact ⟨⟨w.1, w.2, interpScal_absent c hz fun ir hr => (z ir hr).Ez⟩,
      w'.1, w'.2, interpScal_absent c hz fun ir hr => (z ir hr).Bz⟩

end Fbpic.Pic
