import Verif.Lemmas.PicGauss

/-!
# Lemmas: Gauss' law through the cycle
-/

namespace Fbpic.Pic

open Transform ExternalField Step
open Spec (SolverOk GaussLaw NoMonopoles dropLow TransOk V3 div EqOn hankel)

variable (c : Cfg) [NeZero c.Nz]

/-! ### Round trips -/

theorem rt_scal {m : ℕ} (hT : TransOk m (c.trans m)) (a out out' : Buf) {iz ir : ℕ} (hz : iz < c.Nz) (hr : ir < c.Nr) :
    fwd c.Nz c.Nr (c.mats m).M0 (bwd c.Nz c.Nr (c.mats m).invM0 a out) out' iz ir = dropLow m a iz ir := by
  unfold fwd
  rw [if_pos ⟨hz, hr⟩]
  have h1 : EqOn c.Nz c.Nr (fftAxis0 c.Nz false (bwd c.Nz c.Nr (c.mats m).invM0 a out))
      (hankel c.Nr (c.mats m).invM0 a) := by
    intro i j hi hj
    rw [fftAxis0_congr c.Nz c.Nr false (b := fftAxis0 c.Nz true (hankel c.Nr (c.mats m).invM0 a)) ?_ i j hi hj]
    · exact (fftAxis0_inv c.Nz _ i j hi).2
    · intro i j hi hj
      unfold bwd
      rw [if_pos ⟨hi, hj⟩]
  rw [hankel_congr c.Nz c.Nr _ h1 iz ir hz hr]
  exact hankel_drop hT.ok0 (by omega) a iz ir hz hr

theorem rt_vect {m : ℕ} (hT : TransOk m (c.trans m)) (p q outR outT out out' : Buf) {iz ir : ℕ} (hz : iz < c.Nz)
    (hr : ir < c.Nr) :
    (c.toSpectVect m (c.toInterpVect m p q outR outT).1 (c.toInterpVect m p q outR outT).2 out out').1 iz ir
      = dropLow m p iz ir ∧
    (c.toSpectVect m (c.toInterpVect m p q outR outT).1 (c.toInterpVect m p q outR outT).2 out out').2 iz ir
      = q iz ir := by
  have hI : ∀ z : ℂ, Complex.I * (Complex.I * z) = -z := fun z => by rw [← mul_assoc, Complex.I_mul_I]; ring
  set R := (c.toInterpVect m p q outR outT).1 with hR
  set T := (c.toInterpVect m p q outR outT).2 with hT'
  rw [toInterpVect_eq] at hR hT'
  have lin : ∀ (z : ℂ) (i j : ℕ), fftAxis0 c.Nz false (fun i j => 1 / 2 * (R i j + z * T i j)) i j
      = 1 / 2 * (fftAxis0 c.Nz false R i j + z * fftAxis0 c.Nz false T i j) := by
    intro z i j
    simp only [fftAxis0, Bool.false_eq_true, if_false, fftZ, Finset.mul_sum, ← Finset.sum_add_distrib]
    exact Finset.sum_congr rfl fun l _ => by ring
  have eR : EqOn c.Nz c.Nr (fftAxis0 c.Nz false R) (fun i j =>
      hankel c.Nr (c.mats m).invMp p i j + hankel c.Nr (c.mats m).invMm q i j) := by
    intro i j hi hj
    rw [fftAxis0_congr c.Nz c.Nr false (b := fftAxis0 c.Nz true (fun i j =>
      hankel c.Nr (c.mats m).invMp p i j + hankel c.Nr (c.mats m).invMm q i j)) ?_ i j hi hj]
    · exact (fftAxis0_inv c.Nz _ i j hi).2
    · intro i j hi hj
      rw [hR]
      dsimp only
      rw [if_pos ⟨hi, hj⟩]
  have eT : EqOn c.Nz c.Nr (fftAxis0 c.Nz false T) (fun i j => Complex.I *
      (hankel c.Nr (c.mats m).invMp p i j - hankel c.Nr (c.mats m).invMm q i j)) := by
    intro i j hi hj
    rw [fftAxis0_congr c.Nz c.Nr false (b := fftAxis0 c.Nz true (fun i j => Complex.I *
      (hankel c.Nr (c.mats m).invMp p i j - hankel c.Nr (c.mats m).invMm q i j))) ?_ i j hi hj]
    · exact (fftAxis0_inv c.Nz _ i j hi).2
    · intro i j hi hj
      rw [hT']
      dsimp only
      rw [if_pos ⟨hi, hj⟩]
  rw [toSpectVect_eq]
  unfold fwd
  dsimp only
  rw [if_pos ⟨hz, hr⟩, if_pos ⟨hz, hr⟩]
  constructor
  · rw [hankel_congr c.Nz c.Nr _ (b := hankel c.Nr (c.mats m).invMp p) ?_ iz ir hz hr]
    · exact hankel_drop hT.okp (by omega) p iz ir hz hr
    · intro i j hi hj
      have := lin (-Complex.I) i j
      simp only [neg_mul, ← sub_eq_add_neg] at this
      rw [this, eR i j hi hj, eT i j hi hj, hI]
      ring
  · rw [hankel_congr c.Nz c.Nr _ (b := hankel c.Nr (c.mats m).invMm q) ?_ iz ir hz hr]
    · exact hankel_inverse c.Nz c.Nr _ _ (dhtOk_full hT.okm (Or.inr rfl)).1 q iz ir hz hr
    · intro i j hi hj
      rw [lin, eR i j hi hj, eT i j hi hj, hI]
      ring

theorem start_cell (s : Sim) {m : ℕ} (hm : m < c.Nm) (iz ir : ℕ) : ((c.startFields s).spect m).cell iz ir =
    { (s.spect m).cell iz ir with
      Ez := c.toSpectScal m (s.interp m).E.z (fun iz ir => ((s.spect m).cell iz ir).Ez) iz ir
      Ep := (c.toSpectVect m (s.interp m).E.r (s.interp m).E.t (fun iz ir => ((s.spect m).cell iz ir).Ep)
        (fun iz ir => ((s.spect m).cell iz ir).Em)).1 iz ir
      Em := (c.toSpectVect m (s.interp m).E.r (s.interp m).E.t (fun iz ir => ((s.spect m).cell iz ir).Ep)
        (fun iz ir => ((s.spect m).cell iz ir).Em)).2 iz ir
      Bz := c.toSpectScal m (s.interp m).B.z (fun iz ir => ((s.spect m).cell iz ir).Bz) iz ir
      Bp := (c.toSpectVect m (s.interp m).B.r (s.interp m).B.t (fun iz ir => ((s.spect m).cell iz ir).Bp)
        (fun iz ir => ((s.spect m).cell iz ir).Bm)).1 iz ir
      Bm := (c.toSpectVect m (s.interp m).B.r (s.interp m).B.t (fun iz ir => ((s.spect m).cell iz ir).Bp)
        (fun iz ir => ((s.spect m).cell iz ir).Bm)).2 iz ir } := by
  show (onModes c.Nm _ s.spect m).cell iz ir = _
  unfold onModes
  rw [if_pos hm]
  rfl

theorem start_shape (s : Sim) {m : ℕ} (hm : m < c.Nm) : (s.spect m).SameShape ((c.startFields s).spect m) := by
  show (s.spect m).SameShape (onModes c.Nm _ s.spect m)
  unfold onModes
  rw [if_pos hm]
  exact ⟨rfl, rfl, rfl, rfl⟩

/-- Fields on the grid that agree give the same fields in spectral space. -/
theorem start_em {s s' : Sim} {m iz ir : ℕ} (hm : m < c.Nm) (hz : iz < c.Nz) (hr : ir < c.Nr)
    (hE : (s'.interp m).E = (s.interp m).E) (hB : (s'.interp m).B = (s.interp m).B) :
    (((c.startFields s').spect m).cell iz ir).em = (((c.startFields s).spect m).cell iz ir).em := by
  have hs : ∀ a o o', c.toSpectScal m a o iz ir = c.toSpectScal m a o' iz ir := by
    intro a o o'
    rw [toSpectScal_eq, toSpectScal_eq]
    unfold fwd
    rw [if_pos ⟨hz, hr⟩, if_pos ⟨hz, hr⟩]
  have hv : ∀ a b o1 o2 o1' o2', (c.toSpectVect m a b o1 o2).1 iz ir = (c.toSpectVect m a b o1' o2').1 iz ir ∧
      (c.toSpectVect m a b o1 o2).2 iz ir = (c.toSpectVect m a b o1' o2').2 iz ir := by
    intro a b o1 o2 o1' o2'
    rw [toSpectVect_eq, toSpectVect_eq]
    unfold fwd
    dsimp only
    rw [if_pos ⟨hz, hr⟩, if_pos ⟨hz, hr⟩, if_pos ⟨hz, hr⟩, if_pos ⟨hz, hr⟩]
    exact ⟨rfl, rfl⟩
  rw [start_cell c s' hm, start_cell c s hm, hE, hB]
  unfold SpecCell.em
  dsimp only
  rw [hs _ _ (fun iz ir => ((s.spect m).cell iz ir).Ez),
    hs (s.interp m).B.z _ (fun iz ir => ((s.spect m).cell iz ir).Bz),
    (hv _ _ _ _ (fun iz ir => ((s.spect m).cell iz ir).Ep) (fun iz ir => ((s.spect m).cell iz ir).Em)).1,
    (hv _ _ _ _ (fun iz ir => ((s.spect m).cell iz ir).Ep) (fun iz ir => ((s.spect m).cell iz ir).Em)).2,
    (hv (s.interp m).B.r _ _ _ (fun iz ir => ((s.spect m).cell iz ir).Bp) (fun iz ir => ((s.spect m).cell iz ir).Bm)).1,
    (hv (s.interp m).B.r _ _ _ (fun iz ir => ((s.spect m).cell iz ir).Bp) (fun iz ir => ((s.spect m).cell iz ir).Bm)).2]

/-- The fields on the interpolation grid are those of the spectral grid. -/
def Cfg.Synced (s : Sim) : Prop := ∀ m < c.Nm, ∃ i, (s.interp m).E = (c.interpEB m (s.spect m) i).E ∧
  (s.interp m).B = (c.interpEB m (s.spect m) i).B

/-- To the interpolation grid and back. -/
theorem Cfg.Synced.back {s : Sim} (h : c.Synced s) {m : ℕ} (hm : m < c.Nm) (hT : TransOk m (c.trans m)) {iz ir : ℕ}
    (hz : iz < c.Nz) (hr : ir < c.Nr) :
    (¬ (m ≠ 0 ∧ ir = 0) → (((c.startFields s).spect m).cell iz ir).em = ((s.spect m).cell iz ir).em) ∧
    (m ≠ 0 ∧ ir = 0 → (((c.startFields s).spect m).cell iz ir).em.E.z = 0 ∧
      (((c.startFields s).spect m).cell iz ir).em.B.z = 0) := by
  obtain ⟨i, hE, hB⟩ := h m hm
  have e1 : ∀ a o o', c.toSpectScal m (c.toInterpScal m a o) o' iz ir = dropLow m a iz ir := by
    intro a o o'
    rw [toSpectScal_eq, toInterpScal_eq]
    exact rt_scal c hT a o o' hz hr
  have e2 := fun p q a b x y => rt_vect c hT p q a b x y hz hr
  have hm0 : ((m : ℤ) ≠ 0 ∧ ir = 0) ↔ (m ≠ 0 ∧ ir = 0) := by simp
  rw [start_cell c s hm, hE, hB]
  unfold SpecCell.em Cfg.interpEB
  dsimp only
  rw [e1, e1, (e2 _ _ _ _ _ _).1, (e2 _ _ _ _ _ _).2, (e2 _ _ _ _ _ _).1, (e2 _ _ _ _ _ _).2]
  unfold dropLow
  constructor
  · intro hd
    rw [if_neg (fun h => hd (hm0.1 h)), if_neg (fun h => hd (hm0.1 h)), if_neg (fun h => hd (hm0.1 h)),
      if_neg (fun h => hd (hm0.1 h))]
  · intro hd
    rw [if_pos (hm0.2 hd), if_pos (hm0.2 hd)]
    exact ⟨rfl, rfl⟩

/-! ### The solver -/

theorem SolverOk_of {s t : Sim} (h : SolverOk c s) (ht : ∀ m < c.Nm, (s.spect m).SameShape (t.spect m)) :
    SolverOk c t where
  consts := h.consts
  Nz := fun m hm => (ht m hm).1.trans (h.Nz m hm)
  Nr := fun m hm => (ht m hm).2.1.trans (h.Nr m hm)
  trans := h.trans
  regular := fun m hm iz hz => by rw [(ht m hm).2.2.1]; exact h.regular m hm iz hz
  kr := fun m hm ir hr => by rw [(ht m hm).2.2.2]; exact h.kr m hm ir hr
  kz := fun hc m hm iz hz h0 => by rw [(ht m hm).2.2.1] at h0; exact h.kz hc m hm iz hz h0

theorem sized_of {s : Sim} (h : SolverOk c s) : c.Sized s := fun m hm => ⟨h.Nz m hm, h.Nr m hm⟩

/-- No charge density where the radial wavenumber is 0. -/
theorem rhoHat_low {s₀ : Sim} (h : SolverOk c s₀) (s : Sim) {m : ℕ} (hm : m < c.Nm) (h0 : m ≠ 0) {iz : ℕ}
    (hz : iz < c.Nz) (hN : 0 < c.Nr) : c.rhoHat s m iz 0 = 0 := by
  unfold Cfg.rhoHat fwd
  rw [if_pos ⟨hz, hN⟩]
  have := hankel_low (h.trans m hm).ok0 (by exact_mod_cast h0) (by omega)
    (fftAxis0 c.Nz false (c.depArr .rho s m)) iz
  rw [show hankel c.Nr (c.mats m).M0 (fftAxis0 c.Nz false (c.depArr .rho s m)) iz 0 = 0 from this, mul_zero]

theorem rhoHat_filtered (s : Sim) {fz : ℕ → ℝ} {fr : ℕ → ℕ → ℝ} (hf : c.filter = some (fz, fr)) {iz : ℕ}
    (h0 : fz iz = 0) (m ir : ℕ) : c.rhoHat s m iz ir = 0 := by
  unfold Cfg.rhoHat Cfg.filt
  rw [hf]
  simp [h0]

/-- What the particles of two states have in common with the cross-deposition. -/
def Cfg.Crossed (s₁ s : Sim) : Prop := ∃ sZ sXY, c.Holds .nextZ (c.rhoHat sZ) s ∧ c.Holds .nextXY (c.rhoHat sXY) s ∧
  c.TX 0 s₁ sZ ∧ c.TX 0 sXY s ∧ c.depOk .rho s₁ ∧ c.depOk .rho sZ ∧ c.depOk .rho sXY ∧ c.depOk .rho s

/-- Gauss' law in spectral space. -/
def Cfg.Gauss (rho : ℕ → ℕ → ℕ → ℂ) (s : Sim) : Prop := ∀ m < c.Nm, ∀ iz < c.Nz, ∀ ir < c.Nr,
  div ((s.spect m).kz iz) ((s.spect m).kr ir) ((s.spect m).cell iz ir).em.E = rho m iz ir / c.k.eps0

/-- The spectral grid of one mode at the end of an iteration. -/
noncomputable def Cfg.endGrid (o : Opts) (g : SpecGrid) : SpecGrid :=
  let g := if o.correctCurrents then g.correctCurrents c.k c.correction c.dt c.V c.galilean else g
  let g := g.push c.k c.dt c.V c.galilean false o.useTrueRho
  if o.correctDivE then g.mapCells (fun kz kr s => match Fbpic.correctDivE c.k .curlFree kz kr s with
      | .ok s' => s'
      | .error _ => s) else g

theorem iterEnd_ok (o : Opts) {s t : Sim} (h : c.iterEnd o s = .ok t) :
    (o.correctDivE = true → c.correction = .curlFree) ∧ t.species = s.species ∧ t.zmin = s.zmin ∧ t.zmax = s.zmax ∧
    (∀ m < c.Nm, t.spect m = c.endGrid o (s.spect m)) ∧ c.Synced t := by
  unfold Cfg.iterEnd at h
  obtain ⟨sp, h1, h⟩ := (except_bind_ok _ _ _).1 h
  have ht := Except.ok.inj h
  have key : (o.correctDivE = true → c.correction = .curlFree) ∧ ∀ m < c.Nm, sp m = c.endGrid o (s.spect m) := by
    by_cases hd : o.correctDivE = true
    · rw [if_pos hd] at h1
      unfold Cfg.correctDivE at h1
      cases hc : c.correction with
      | crossDeposition => rw [hc] at h1; cases h1
      | curlFree =>
        rw [hc] at h1
        have h1 := Except.ok.inj h1
        refine ⟨fun _ => rfl, fun m hm => ?_⟩
        rw [← h1]
        unfold Cfg.endGrid onModes
        simp only [if_pos hm, if_pos hd, hc]
        split_ifs <;> first | (simp only [if_pos hm]; done) | (simp only [if_pos hm]; rfl) | rfl
    · rw [if_neg hd] at h1
      have h1 := Except.ok.inj h1
      refine ⟨fun h => absurd h hd, fun m hm => ?_⟩
      rw [← h1]
      unfold Cfg.endGrid onModes
      simp only [if_pos hm, if_neg hd]
      split_ifs <;> first | (simp only [if_pos hm]; done) | (simp only [if_pos hm]; rfl) | rfl
  rw [← ht]
  refine ⟨key.1, rfl, rfl, rfl, key.2, fun m hm => ⟨s.interp m, ?_, ?_⟩⟩
  · show (onModes c.Nm _ s.interp m).E = _
    unfold onModes; rw [if_pos hm]
  · show (onModes c.Nm _ s.interp m).B = _
    unfold onModes; rw [if_pos hm]

theorem endGrid_shape (o : Opts) (g : SpecGrid) : g.SameShape (c.endGrid o g) := by
  unfold Cfg.endGrid
  cases o.correctCurrents <;> cases o.correctDivE <;> exact ⟨rfl, rfl, rfl, rfl⟩

theorem endGrid_divB (o : Opts) (g : SpecGrid) (h : g.All fun kz kr f => div kz kr f.em.B = 0) :
    (c.endGrid o g).All fun kz kr f => div kz kr f.em.B = 0 := by
  have h1 : (if o.correctCurrents then g.correctCurrents c.k c.correction c.dt c.V c.galilean else g).All
      fun kz kr f => div kz kr f.em.B = 0 := by
    split_ifs
    · intro iz ir hz hr
      unfold SpecGrid.correctCurrents
      rw [mapCells_cell _ _ (by exact hz) (by exact hr), (rho_correct _ _ _ _ _ _ _ _).2.2]
      exact h iz ir hz hr
    · exact h
  have h2 := C32_divB c.k _ c.dt c.V c.galilean false o.useTrueRho h1
  unfold Cfg.endGrid
  dsimp only
  by_cases hd : o.correctDivE = true
  · rw [if_pos hd]
    intro iz ir hz hr
    rw [mapCells_cell _ _ (by exact hz) (by exact hr)]
    exact h2 iz ir hz hr
  · rw [if_neg hd]; exact h2

/-- The end of an iteration keeps Gauss' law. -/
theorem end_gauss (o : Opts) (hN : 2 ≤ c.Nz) (hR : 2 ≤ c.Nr) (hn : 0 < c.nthreads) {s₁ s t : Sim} (hs : SolverOk c s)
    (hprev : c.Holds .prev (c.rhoHat s₁) s) (hnext : c.Holds .next (c.rhoHat s) s)
    (hcross : o.correctCurrents = true → c.correction = .crossDeposition →
      ∃ s₂, (∀ m < c.Nm, ∀ ir < c.Nr, c.rhoHat s₂ m 0 ir = c.rhoHat s₁ m 0 ir) ∧ c.Crossed s₂ s)
    (ho : o.correctDivE = true ∨ (o.correctCurrents = true ∧ c.Gauss (c.rhoHat s₁) s))
    (h : c.iterEnd o s = .ok t) : c.Gauss (c.rhoHat t) t := by
  obtain ⟨hcd, e1, e2, -, hsp, -⟩ := iterEnd_ok c o h
  have hrt : c.rhoHat t = c.rhoHat s := rhoHat_congr c fun m => depArr_congr c e1 e2 _ m
  intro m hm iz hz ir hr
  rw [hrt]
  have hsh := endGrid_shape c o (s.spect m)
  rw [← hsp m hm] at hsh
  rw [hsh.2.2.1, hsh.2.2.2, hsp m hm]
  set g := s.spect m with hg
  have hz' : iz < g.Nz := by rw [hs.Nz m hm]; exact hz
  have hr' : ir < g.Nr := by rw [hs.Nr m hm]; exact hr
  have hp : (g.cell iz ir).rhoPrev = c.rhoHat s₁ m iz ir := hprev m hm iz hz ir hr
  have hx : (g.cell iz ir).rhoNext = c.rhoHat s m iz ir := hnext m hm iz hz ir hr
  have hlow : ∀ u, g.kr ir = 0 → c.rhoHat u m iz ir = 0 := by
    intro u h0
    obtain ⟨a, b⟩ := (hs.kr m hm ir hr).1 h0
    rw [b]
    exact rhoHat_low c hs u hm a hz (by omega)
  set g1 := if o.correctCurrents then g.correctCurrents c.k c.correction c.dt c.V c.galilean else g with hg1
  have hsh1 : g.SameShape g1 := by
    rw [hg1]; split_ifs <;> exact ⟨rfl, rfl, rfl, rfl⟩
  have hc1 : (g1.cell iz ir).rhoPrev = c.rhoHat s₁ m iz ir ∧ (g1.cell iz ir).rhoNext = c.rhoHat s m iz ir ∧
      (g1.cell iz ir).em = (g.cell iz ir).em := by
    rw [← hp, ← hx, hg1]
    split_ifs
    · unfold SpecGrid.correctCurrents
      rw [mapCells_cell _ _ hz' hr']
      exact rho_correct _ _ _ _ _ _ _ _
    · exact ⟨rfl, rfl, rfl⟩
  have hz1 : iz < g1.Nz := by rw [hsh1.1]; exact hz'
  have hr1 : ir < g1.Nr := by rw [hsh1.2.1]; exact hr'
  set g2 := g1.push c.k c.dt c.V c.galilean false o.useTrueRho with hg2
  have hr2 : (g2.cell iz ir).rhoPrev = c.rhoHat s m iz ir := by
    rw [hg2, push_cell _ _ _ _ _ _ _ hz1 hr1, ← hc1.2.1]
    exact (pushEBWith_sources _ _ _ _ _ _ _).2.2
  have hend : (c.endGrid o g).cell iz ir = if o.correctDivE then
      (match Fbpic.correctDivE c.k .curlFree (g.kz iz) (g.kr ir) (g2.cell iz ir) with
      | .ok s' => s'
      | .error _ => g2.cell iz ir) else g2.cell iz ir := by
    unfold Cfg.endGrid
    dsimp only
    rw [← hg1, ← hg2]
    by_cases hd : o.correctDivE = true
    · rw [if_pos hd, if_pos hd, mapCells_cell _ _ (by exact hz1) (by exact hr1)]
      rw [show g2.kz = g.kz from hsh1.2.2.1, show g2.kr = g.kr from hsh1.2.2.2]
    · rw [if_neg hd, if_neg hd]
  rw [hend]
  by_cases hd : o.correctDivE = true
  · rw [if_pos hd]
    by_cases hk : g.kz iz ≠ 0 ∨ g.kr ir ≠ 0
    · obtain ⟨f, e, hdiv, -⟩ := C58_gauss_partial c.k (g.kz iz) (g.kr ir) hk (g2.cell iz ir)
      rw [e]
      dsimp only
      rw [hdiv, hr2]
    · push Not at hk
      rw [hk.1, hk.2, C58_zero_partial, hlow s hk.2]
      simp [div]
  · rw [if_neg hd]
    obtain ⟨hcc, hG⟩ := ho.resolve_left hd
    have hreg : Regular c.k (g.kz iz) c.dt c.V := hs.regular m hm iz hz
    have hcons : (g1.cell iz ir).Conserving (g1.kz iz) (g1.kr ir) c.dt c.V c.galilean := by
      rw [hsh1.2.2.1, hsh1.2.2.2, hg1, if_pos hcc]
      cases hco : c.correction with
      | curlFree =>
        by_cases hk : g.kz iz ≠ 0 ∨ g.kr ir ≠ 0
        · exact (C30_curl_free c.k g c.dt c.V c.galilean iz ir hz' hr' hreg hk).1
        · push Not at hk
          refine (C30_zero_iff c.k g c.dt c.V c.galilean iz ir hz' hr' hreg.1 hk.1 hk.2).2 ?_
          rw [hp, hx, hlow _ hk.2, hlow _ hk.2]
      | crossDeposition =>
        obtain ⟨s₂, hrow, sZ, sXY, hZ, hXY, t1, t2, d1, d2, d3, d4⟩ := hcross hcc hco
        have hZ' : (g.cell iz ir).rhoNextZ = c.rhoHat sZ m iz ir := hZ m hm iz hz ir hr
        have hXY' : (g.cell iz ir).rhoNextXY = c.rhoHat sXY m iz ir := hXY m hm iz hz ir hr
        refine C30_cross_all c.k g c.dt c.V c.galilean iz ir hz' hr' hreg ?_ ?_
        · intro h0
          rw [hp, hx, hZ', hXY']
          rcases hs.kz hco m hm iz hz h0 with rfl | ⟨fz, fr, hf, hfz⟩
          · exact ⟨(t2.row0 c hn hN hR d3 d4 hm hr).symm, (t1.row0 c hn hN hR d1 d2 hm hr).trans (hrow m hm ir hr)⟩
          · rw [rhoHat_filtered c _ hf hfz, rhoHat_filtered c _ hf hfz, rhoHat_filtered c _ hf hfz,
              rhoHat_filtered c _ hf hfz]
            exact ⟨rfl, rfl⟩
        · intro h0
          rw [hp, hx, hZ', hXY', hlow _ h0, hlow _ h0, hlow _ h0, hlow _ h0]
          exact ⟨rfl, rfl, rfl, rfl⟩
    have hG1 : (g1.cell iz ir).Gauss c.k (g1.kz iz) (g1.kr ir) := by
      unfold SpecCell.Gauss
      rw [hc1.1, hc1.2.2, hsh1.2.2.1, hsh1.2.2.2]
      exact hG m hm iz hz ir hr
    have := (C31_gauss c.k hs.consts g1 c.dt c.V c.galilean false o.useTrueRho iz ir hz1 hr1
      (by rw [hsh1.2.2.1]; exact hreg) hcons hG1).1
    unfold SpecCell.Gauss at this
    rw [← hg2, hr2, hsh1.2.2.1, hsh1.2.2.2] at this
    exact this

/-! ### An iteration up to the fields -/

theorem record_spect (s : Sim) : s.record.spect = s.spect := rfl

theorem withRho_species (n : RhoName) (s : Sim) : (c.withRho n s).species = s.species ∧ (c.withRho n s).zmin = s.zmin :=
  ⟨rfl, rfl⟩

theorem TX_species {a : ℝ} {s t t' : Sim} (h : c.TX a s t) (e : t'.species = t.species) : c.TX a s t' := by
  unfold Cfg.TX; rw [e]; exact h

theorem TX_left {a : ℝ} {s s' t : Sim} (h : c.TX a s t) (e : s'.species = s.species) : c.TX a s' t := by
  unfold Cfg.TX; rw [e]; exact h

theorem depOk_congr {f : DepField} {s s' : Sim} (h : s'.species = s.species) (hz : s'.zmin = s.zmin)
    (hd : c.depOk f s) : c.depOk f s' := by
  unfold Cfg.depOk Sim.depositing at *
  rw [h, hz]; exact hd

theorem start_fields (hn : 0 < c.nthreads) (i : ℕ) (hp : c.exchangePeriod = 1 ∨ i = 0) {s t : Sim} (hs : c.Sized s)
    (h : c.iterStart i s = .ok t) : ∃ s₁, c.wrapAll s = .ok s₁ ∧ c.Keeps (fun _ => False) s t ∧
      c.Holds .prev (c.rhoHat s₁) t ∧ c.TX 0 s₁ t ∧ c.depOk .rho s₁ ∧ c.Sized t := by
  rw [iterStart_eq] at h
  rw [if_pos (hp.imp (fun hp => by rw [hp]; exact Nat.mod_one _) id)] at h
  obtain ⟨s2, h2, h⟩ := (except_bind_ok _ _ _).1 h
  obtain ⟨s1, h1, h2⟩ := (except_bind_ok _ _ _).1 h2
  obtain ⟨s3, h3, h⟩ := (except_bind_ok _ _ _).1 h
  obtain ⟨s4, h4, h⟩ := (except_bind_ok _ _ _).1 h
  have ht : c.applyExts s4 = t := Except.ok.inj h
  obtain ⟨d1, rfl⟩ := (depositRho_ok c hn _ _ _).1 h2
  have k1 : c.Keeps (fun _ => True) s s1 := .of_eq c _ (by rw [mapPtclM_rest _ _ _ h1])
  have z1 := k1.sized c hs
  obtain ⟨k2, r2⟩ := withRho_keeps c .prev s1 z1
  have z2 := k2.sized c z1
  have tx2 : c.TX 0 s1 (c.withRho .prev s1) := TX_species c (.refl c s1) rfl
  have k3 : c.Keeps (fun _ => True) (c.withRho .prev s1) s3 ∧ s3.species = s1.species := by
    split_ifs at h3
    · obtain ⟨-, rfl⟩ := (depositJ_ok c hn _ _).1 h3
      exact ⟨withJ_keeps c _, rfl⟩
    · rw [← Except.ok.inj h3]
      exact ⟨.of_eq c _ rfl, rfl⟩
  have tx3 : c.TX 0 s1 s3 := TX_species c (.refl c s1) k3.2
  have tx4 := tx3.gather c h4
  have k4 : c.Keeps (fun _ => True) s3 s4 := .of_eq c _ (by rw [mapPtclM_rest _ _ _ h4]; rfl)
  have k5 : c.Keeps (fun _ => True) s4 t := by rw [← ht]; exact .of_eq c _ rfl
  refine ⟨s1, h1, ?_, ?_, ?_, d1, ?_⟩
  · exact ((((k1.trans c k2).trans c k3.1).trans c k4).trans c k5).mono c fun _ h => h.elim
  · exact k5.holds c trivial (k4.holds c trivial (k3.1.holds c trivial r2))
  · rw [← ht]; exact tx4.exts c
  · exact k5.sized c (k4.sized c (k3.1.sized c z2))

theorem half_fields (o : Opts) {s₁ s t : Sim} (htx : c.TX 0 s₁ s) (h : c.iterHalf o s = .ok t) :
    t.spect = s.spect ∧ c.TX (if o.movePositions then 0.5 * c.dt else 0) s₁ t := by
  rw [iterHalf_eq] at h
  obtain ⟨s1, h1, h⟩ := (except_bind_ok _ _ _).1 h
  have ht : c.movePush o.movePositions (0.5 * c.dt) 1 1 1 (0.5 * c.dt) s1 = t := Except.ok.inj h
  have key : s1.spect = s.spect ∧ c.TX 0 s₁ s1 := by
    split_ifs at h1
    · exact ⟨by rw [mapPtclM_rest _ _ _ h1], htx.pushP c h1⟩
    · rw [← Except.ok.inj h1]; exact ⟨rfl, htx⟩
  rw [← ht]
  refine ⟨(movePush_spect c _ _ _ _ _ _ _).trans key.1, ?_⟩
  have := key.2.move c (dt := 0.5 * c.dt) (px := 1) (pz := 1) (dtg := 0.5 * c.dt) o.movePositions
  simpa using this

theorem deposit_fields (hn : 0 < c.nthreads) (o : Opts) {s₁ s t : Sim} (hs : c.Sized s)
    (htx : c.TX (if o.movePositions then 0.5 * c.dt else 0) s₁ s) (hd : c.depOk .rho s₁)
    (h : c.iterDeposit o s = .ok t) : c.Keeps (fun n => n = .prev) s t ∧ c.Holds .next (c.rhoHat t) t ∧
      (o.correctCurrents = true → c.correction = .crossDeposition → c.Crossed s₁ t) := by
  rw [iterDeposit_eq] at h
  obtain ⟨s2, h2, h⟩ := (except_bind_ok _ _ _).1 h
  obtain ⟨-, rfl⟩ := (depositJ_ok c hn _ _).1 h2
  obtain ⟨s3, h3, h⟩ := (except_bind_ok _ _ _).1 h
  obtain ⟨d4, rfl⟩ := (depositRho_ok c hn _ _ _).1 h
  set s4 := c.movePush o.movePositions (0.5 * c.dt) 1 1 1 (0.5 * c.dt) s3 with hs4
  have k2 := withJ_keeps c s
  have z2 := k2.sized c hs
  have tx2 : c.TX (if o.movePositions then 0.5 * c.dt else 0) s₁ (c.withJ s) := TX_species c htx rfl
  have k4 : c.Keeps (fun _ => True) s3 s4 := .of_eq c _ (movePush_spect c _ _ _ _ _ _ _)
  have fin : ∀ z4 : c.Sized s4, c.Holds .next (c.rhoHat (c.withRho .next s4)) (c.withRho .next s4) := by
    intro z4
    rw [rhoHat_congr c (s := s4) (s' := c.withRho .next s4) fun m => depArr_congr c rfl rfl _ m]
    exact (withRho_keeps c .next s4 z4).2
  unfold Cfg.maybeCross at h3
  have plain : s3 = c.withJ s → c.Keeps (fun n => n = .prev) s (c.withRho .next s4) ∧
      c.Holds .next (c.rhoHat (c.withRho .next s4)) (c.withRho .next s4) := by
    rintro rfl
    have z4 := k4.sized c z2
    refine ⟨((k2.trans c k4).trans c (withRho_keeps c .next s4 z4).1).mono c ?_, fin z4⟩
    rintro n rfl
    exact ⟨⟨trivial, trivial⟩, by decide⟩
  split at h3
  · rename_i hcc hco
    rw [crossDeposit_eq] at h3
    obtain ⟨sX, hX, h3⟩ := (except_bind_ok _ _ _).1 h3
    obtain ⟨sZ, hZ, h3⟩ := (except_bind_ok _ _ _).1 h3
    have h3 : c.movePush o.movePositions (0.5 * c.dt) 1 1 (-1) (-0.5 * c.dt) sZ = s3 := Except.ok.inj h3
    obtain ⟨dX, rfl⟩ := (depositRho_ok c hn _ _ _).1 hX
    obtain ⟨dZ, rfl⟩ := (depositRho_ok c hn _ _ _).1 hZ
    set a := c.movePush o.movePositions (0.5 * c.dt) 1 1 (-1) (-0.5 * c.dt) (c.withJ s) with ha
    set b := c.movePush o.movePositions c.dt (-1) (-1) 1 c.dt (c.withRho .nextXY a) with hb
    have ka : c.Keeps (fun _ => True) (c.withJ s) a := .of_eq c _ (movePush_spect c _ _ _ _ _ _ _)
    have za := ka.sized c z2
    obtain ⟨kX, rX⟩ := withRho_keeps c .nextXY a za
    have zX := kX.sized c za
    have kb : c.Keeps (fun _ => True) (c.withRho .nextXY a) b := .of_eq c _ (movePush_spect c _ _ _ _ _ _ _)
    have zb := kb.sized c zX
    obtain ⟨kZ, rZ⟩ := withRho_keeps c .nextZ b zb
    have zZ := kZ.sized c zb
    have k3 : c.Keeps (fun _ => True) (c.withRho .nextZ b) s3 := by
      rw [← h3]; exact .of_eq c _ (movePush_spect c _ _ _ _ _ _ _)
    have z3 := k3.sized c zZ
    have z4 := k4.sized c z3
    obtain ⟨k5, r5⟩ := withRho_keeps c .next s4 z4
    refine ⟨?_, fin z4, fun _ _ => ⟨b, a, ?_, ?_, ?_, ?_, hd, dZ, dX, ?_⟩⟩
    · refine (((((((k2.trans c ka).trans c kX).trans c kb).trans c kZ).trans c k3).trans c k4).trans c k5).mono c ?_
      rintro n rfl
      simp
    · exact k5.holds c (by decide) (k4.holds c trivial (k3.holds c trivial rZ))
    · exact k5.holds c (by decide) (k4.holds c trivial (k3.holds c trivial (kZ.holds c (by decide)
        (kb.holds c trivial rX))))
    · have ta := tx2.move c (dt := 0.5 * c.dt) (px := 1) (pz := -1) (dtg := -0.5 * c.dt) o.movePositions
      have tb := (TX_species c (t' := c.withRho .nextXY a) ta rfl).move c (dt := c.dt) (px := -1) (pz := 1)
        (dtg := c.dt) o.movePositions
      have e : (if o.movePositions then (if o.movePositions then (if o.movePositions then 0.5 * c.dt else 0)
          + 0.5 * c.dt * 1 else (if o.movePositions then 0.5 * c.dt else 0)) + c.dt * -1
          else (if o.movePositions then (if o.movePositions then 0.5 * c.dt else 0)
          + 0.5 * c.dt * 1 else (if o.movePositions then 0.5 * c.dt else 0))) = 0 := by
        cases o.movePositions
        · simp
        · simp only [if_true]; ring
      rw [e] at tb
      exact tb
    · have t0 : c.TX 0 a (c.withRho .nextXY a) := TX_species c (.refl c a) rfl
      have tb := t0.move c (dt := c.dt) (px := -1) (pz := 1) (dtg := c.dt) o.movePositions
      have t3 := (TX_species c (t' := c.withRho .nextZ b) tb rfl).move c (dt := 0.5 * c.dt) (px := 1) (pz := -1)
        (dtg := -0.5 * c.dt) o.movePositions
      rw [h3] at t3
      have t4 := t3.move c (dt := 0.5 * c.dt) (px := 1) (pz := 1) (dtg := 0.5 * c.dt) o.movePositions
      rw [← hs4] at t4
      have e : ∀ x y z : ℝ, x = -1 → y = 1 → z = 1 → (if o.movePositions then (if o.movePositions then
          (if o.movePositions then 0 + c.dt * x else 0) + 0.5 * c.dt * y else
          (if o.movePositions then 0 + c.dt * x else 0)) + 0.5 * c.dt * z else (if o.movePositions then
          (if o.movePositions then 0 + c.dt * x else 0) + 0.5 * c.dt * y else
          (if o.movePositions then 0 + c.dt * x else 0))) = 0 := by
        rintro _ _ _ rfl rfl rfl
        cases o.movePositions
        · simp
        · simp only [if_true]; ring
      rw [e _ _ _ rfl rfl rfl] at t4
      exact TX_species c t4 rfl
    · exact depOk_congr c (s := s4) rfl rfl d4
  · rename_i hne
    obtain ⟨p1, p2⟩ := plain (Except.ok.inj h3).symm
    exact ⟨p1, p2, fun h1 h2 => absurd h2 (fun h2 => hne h1 h2)⟩

/-- One iteration. -/
theorem iter_gauss (hN : 2 ≤ c.Nz) (hR : 2 ≤ c.Nr) (hn : 0 < c.nthreads) (hp : c.exchangePeriod = 1) (o : Opts) (i : ℕ)
    {s t : Sim} (hs : SolverOk c s) (h : c.iter o i s = .ok t) :
    (∀ m < c.Nm, (s.spect m).SameShape (t.spect m)) ∧ c.Synced t ∧
    ((o.correctDivE = true ∨ (o.correctCurrents = true ∧ ∃ w, c.wrapAll s = .ok w ∧ c.Gauss (c.rhoHat w) s)) →
      c.Gauss (c.rhoHat t) t) := by
  rw [iter_eq, if_neg (by rw [hp]; norm_num)] at h
  obtain ⟨a, ha, h⟩ := (except_bind_ok _ _ _).1 h
  obtain ⟨b, hb, h⟩ := (except_bind_ok _ _ _).1 h
  obtain ⟨d, hd, h⟩ := (except_bind_ok _ _ _).1 h
  obtain ⟨s₁, hw, ka, ra, ta, d1, za⟩ := start_fields c hn i (Or.inl hp) (sized_of c hs) ha
  obtain ⟨eb, tb⟩ := half_fields c o ta hb
  have kb : c.Keeps (fun _ => True) a b := .of_eq c _ eb
  obtain ⟨kd, rd, cd⟩ := deposit_fields c hn o (kb.sized c za) tb d1 hd
  have kall := (ka.trans c kb).trans c kd
  have hsd := SolverOk_of c hs fun m hm => (kall m hm).1
  have rp : c.Holds .prev (c.rhoHat s₁) d := kd.holds c rfl (kb.holds c trivial ra)
  obtain ⟨hcd, -, -, -, hsp, hsync⟩ := iterEnd_ok c o h
  have shp : ∀ m < c.Nm, (s.spect m).SameShape (t.spect m) := by
    intro m hm
    obtain ⟨a1, a2, a3, a4⟩ := (kall m hm).1
    obtain ⟨b1, b2, b3, b4⟩ := endGrid_shape c o (d.spect m)
    rw [hsp m hm]
    exact ⟨b1.trans a1, b2.trans a2, b3.trans a3, b4.trans a4⟩
  refine ⟨shp, hsync, ?_⟩
  · intro ho
    refine end_gauss c o hN hR hn hsd rp rd (fun h1 h2 => ⟨s₁, fun _ _ _ _ => rfl, cd h1 h2⟩) ?_ h
    refine ho.imp id fun ⟨h1, w, hw', hG⟩ => ⟨h1, ?_⟩
    have : w = s₁ := Except.ok.inj (hw'.symm.trans hw)
    subst this
    intro m hm iz hz ir hr
    rw [((kall m hm).2 iz hz ir hr).1, (kall m hm).1.2.2.1, (kall m hm).1.2.2.2]
    exact hG m hm iz hz ir hr

/-! ### Any run -/

theorem depositRho_keeps (hn : 0 < c.nthreads) (n : RhoName) {s t : Sim} (hs : c.Sized s) (h : c.depositRho n s = .ok t) :
    c.Keeps (fun _ => False) s t := by
  obtain ⟨-, rfl⟩ := (depositRho_ok c hn _ _ _).1 h
  exact (withRho_keeps c n s hs).1.mono c fun _ h => h.elim

theorem depositJ_keeps (hn : 0 < c.nthreads) {s t : Sim} (h : c.depositJ s = .ok t) : c.Keeps (fun _ => False) s t := by
  obtain ⟨-, rfl⟩ := (depositJ_ok c hn _ _).1 h
  exact (withJ_keeps c s).mono c fun _ h => h.elim

theorem Cfg.Keeps.comp {s t u : Sim} (h : c.Keeps (fun _ => False) s t) (h' : c.Keeps (fun _ => False) t u) :
    c.Keeps (fun _ => False) s u := (h.trans c h').mono c fun _ h => h.elim

theorem keeps_move (move : Bool) (dt px py pz dtg : ℝ) (s : Sim) :
    c.Keeps (fun _ => False) s (c.movePush move dt px py pz dtg s) := .of_eq c _ (movePush_spect c _ _ _ _ _ _ _)

theorem iter_keeps (hn : 0 < c.nthreads) (o : Opts) (i : ℕ) {s t : Sim} (hs : c.Sized s) (h : c.iter o i s = .ok t) :
    ∃ d, c.Keeps (fun _ => False) s d ∧ c.iterEnd o d = .ok t := by
  rw [iter_eq] at h
  split_ifs at h
  obtain ⟨a, ha, h⟩ := (except_bind_ok _ _ _).1 h
  obtain ⟨b, hb, h⟩ := (except_bind_ok _ _ _).1 h
  obtain ⟨d, hd, h⟩ := (except_bind_ok _ _ _).1 h
  have k1 : c.Keeps (fun _ => False) s a := by
    rw [iterStart_eq] at ha
    obtain ⟨s2, h2, ha⟩ := (except_bind_ok _ _ _).1 ha
    obtain ⟨s3, h3, ha⟩ := (except_bind_ok _ _ _).1 ha
    obtain ⟨s4, h4, ha⟩ := (except_bind_ok _ _ _).1 ha
    have ht : c.applyExts s4 = a := Except.ok.inj ha
    have q2 : c.Keeps (fun _ => False) s s2 := by
      split_ifs at h2
      · obtain ⟨s1, h1, h2⟩ := (except_bind_ok _ _ _).1 h2
        have q1 : c.Keeps (fun _ => False) s s1 := .of_eq c _ (by rw [mapPtclM_rest _ _ _ h1])
        exact q1.comp c (depositRho_keeps c hn _ (q1.sized c hs) h2)
      · rw [← Except.ok.inj h2]; exact .of_eq c _ rfl
    have q3 : c.Keeps (fun _ => False) s2 s3 := by
      split_ifs at h3
      · exact depositJ_keeps c hn h3
      · rw [← Except.ok.inj h3]; exact .of_eq c _ rfl
    have q4 : c.Keeps (fun _ => False) s3 a := .of_eq c _ (by
      rw [← ht]; show s4.spect = s3.spect; rw [mapPtclM_rest _ _ _ h4]; rfl)
    exact (q2.comp c q3).comp c q4
  have k2 : c.Keeps (fun _ => False) a b := by
    rw [iterHalf_eq] at hb
    obtain ⟨s1, h1, hb⟩ := (except_bind_ok _ _ _).1 hb
    rw [← Except.ok.inj hb]
    refine Cfg.Keeps.comp c (.of_eq c _ ?_) (keeps_move c _ _ _ _ _ _ s1)
    split_ifs at h1
    · rw [mapPtclM_rest _ _ _ h1]
    · rw [← Except.ok.inj h1]
  have k3 : c.Keeps (fun _ => False) b d := by
    rw [iterDeposit_eq] at hd
    obtain ⟨s2, h2, hd⟩ := (except_bind_ok _ _ _).1 hd
    obtain ⟨s3, h3, hd⟩ := (except_bind_ok _ _ _).1 hd
    have q2 := depositJ_keeps c hn h2
    have z2 := q2.sized c (k2.sized c (k1.sized c hs))
    have q3 : c.Keeps (fun _ => False) s2 s3 := by
      unfold Cfg.maybeCross at h3
      split at h3
      · rw [crossDeposit_eq] at h3
        obtain ⟨sX, hX, h3⟩ := (except_bind_ok _ _ _).1 h3
        obtain ⟨sZ, hZ, h3⟩ := (except_bind_ok _ _ _).1 h3
        rw [← Except.ok.inj h3]
        have m1 := keeps_move c o.movePositions (0.5 * c.dt) 1 1 (-1) (-0.5 * c.dt) s2
        have r1 := depositRho_keeps c hn _ (m1.sized c z2) hX
        have m2 := keeps_move c o.movePositions c.dt (-1) (-1) 1 c.dt sX
        have r2 := depositRho_keeps c hn _ (m2.sized c (r1.sized c (m1.sized c z2))) hZ
        exact (((m1.comp c r1).comp c m2).comp c r2).comp c (keeps_move c _ _ _ _ _ _ sZ)
      · rw [← Except.ok.inj h3]; exact .of_eq c _ rfl
    have m3 := keeps_move c o.movePositions (0.5 * c.dt) 1 1 1 (0.5 * c.dt) s3
    exact ((q2.comp c q3).comp c m3).comp c (depositRho_keeps c hn _ (m3.sized c (q3.sized c z2)) hd)
  exact ⟨d, (k1.comp c k2).comp c k3, h⟩

theorem iter_divB (hn : 0 < c.nthreads) (o : Opts) (i : ℕ) {s t : Sim} (hs : SolverOk c s) (h : c.iter o i s = .ok t) :
    (∀ m < c.Nm, (s.spect m).SameShape (t.spect m)) ∧ c.Synced t ∧
    ((∀ m < c.Nm, (s.spect m).All fun kz kr f => div kz kr f.em.B = 0) →
      ∀ m < c.Nm, (t.spect m).All fun kz kr f => div kz kr f.em.B = 0) := by
  obtain ⟨d, kall, h⟩ := iter_keeps c hn o i (sized_of c hs) h
  have hsd := SolverOk_of c hs fun m hm => (kall m hm).1
  obtain ⟨-, -, -, -, hsp, hsync⟩ := iterEnd_ok c o h
  refine ⟨?_, hsync, ?_⟩
  · intro m hm
    obtain ⟨a1, a2, a3, a4⟩ := (kall m hm).1
    obtain ⟨b1, b2, b3, b4⟩ := endGrid_shape c o (d.spect m)
    rw [hsp m hm]
    exact ⟨b1.trans a1, b2.trans a2, b3.trans a3, b4.trans a4⟩
  · intro hB m hm
    rw [hsp m hm]
    apply endGrid_divB
    intro iz ir hz hr
    have hz' : iz < c.Nz := by rw [← hsd.Nz m hm]; exact hz
    have hr' : ir < c.Nr := by rw [← hsd.Nr m hm]; exact hr
    rw [((kall m hm).2 iz hz' ir hr').1, (kall m hm).1.2.2.1, (kall m hm).1.2.2.2]
    exact hB m hm iz ir (by rw [hs.Nz m hm]; exact hz') (by rw [hs.Nr m hm]; exact hr')

end Fbpic.Pic
