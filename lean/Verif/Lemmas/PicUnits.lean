import Verif.Lemmas.PicUnitsCell
import Verif.Lemmas.PicSym

/-!
# Units: transforms, particles, and the whole cycle
-/

namespace Fbpic.Pic

open Transform ExternalField Step
open Spec (Rescaling)

namespace Units

variable (U : Rescaling)

/-- The arrays of the interpolation grid. -/
noncomputable def interp (i : Interp) : Interp :=
  ⟨scaleV (U.E : ℝ) i.E, scaleV (U.B : ℝ) i.B, scaleV (U.J : ℝ) i.J, scaleB (U.rho : ℝ) i.rho⟩

/-- The factor of the spectral arrays. -/
noncomputable def sp (x : ℝ) : ℂ := ((U.len ^ 2 * x : ℝ) : ℂ)

/-! ### Transforms -/

theorem hankel_mat (Nr : ℕ) (M : ℕ → ℕ → ℝ) (x : ℝ) (l : ℂ) (a : Buf) :
    Spec.hankel Nr (fun i j => x * M i j) (scaleB l a) = scaleB (x * l) (Spec.hankel Nr M a) := by
  funext i j
  simp only [Spec.hankel, scaleB, Finset.mul_sum]
  exact Finset.sum_congr rfl fun _ _ => by push_cast; ring

theorem fwd_mat (Nz Nr : ℕ) [NeZero Nz] (M : ℕ → ℕ → ℝ) (x : ℝ) (l : ℂ) (a out : Buf) :
    fwd Nz Nr (fun i j => x * M i j) (scaleB l a) (scaleB (x * l) out) = scaleB (x * l) (fwd Nz Nr M a out) := by
  funext i j
  unfold fwd
  rw [fftAxis0_scale, hankel_mat]
  simp only [scaleB]
  split_ifs <;> rfl

theorem bwd_mat (Nz Nr : ℕ) [NeZero Nz] (M : ℕ → ℕ → ℝ) (x : ℝ) (l : ℂ) (a out : Buf) :
    bwd Nz Nr (fun i j => x * M i j) (scaleB l a) (scaleB (x * l) out) = scaleB (x * l) (bwd Nz Nr M a out) := by
  funext i j
  unfold bwd
  rw [hankel_mat, fftAxis0_scale]
  simp only [scaleB]
  split_ifs <;> rfl

theorem sp_eq (x : ℝ) : ((U.len ^ 2 : ℝ) : ℂ) * (x : ℂ) = sp U x := by unfold sp; push_cast; ring

theorem sp_inv (x : ℝ) : (((U.len ^ 2)⁻¹ : ℝ) : ℂ) * sp U x = x := by
  have := len_neC U
  unfold sp; push_cast; field_simp

variable (c : Cfg) (ext : List Ext)

section
variable [NeZero c.Nz]

theorem toSpectScal_u (m : ℕ) (x : ℝ) (a out : Buf) :
    (U.cfg c ext).toSpectScal m (scaleB x a) (scaleB (sp U x) out) = scaleB (sp U x) (c.toSpectScal m a out) := by
  rw [toSpectScal_eq, toSpectScal_eq, ← sp_eq]
  exact fwd_mat c.Nz c.Nr _ _ _ _ _

theorem inv_mat (M : ℕ → ℕ → ℝ) : (fun i j => M i j / U.len ^ 2) = fun i j => (U.len ^ 2)⁻¹ * M i j := by
  funext i j; rw [div_eq_inv_mul]

theorem toInterpScal_u (m : ℕ) (x : ℝ) (a out : Buf) :
    (U.cfg c ext).toInterpScal m (scaleB (sp U x) a) (scaleB x out) = scaleB x (c.toInterpScal m a out) := by
  rw [toInterpScal_eq, toInterpScal_eq]
  have := bwd_mat c.Nz c.Nr (c.mats m).invM0 (U.len ^ 2)⁻¹ (sp U x) a out
  rw [sp_inv, ← inv_mat] at this
  exact this

theorem toSpectVect_u (m : ℕ) (x : ℝ) (r t outP outM : Buf) :
    (U.cfg c ext).toSpectVect m (scaleB x r) (scaleB x t) (scaleB (sp U x) outP) (scaleB (sp U x) outM)
      = (scaleB (sp U x) (c.toSpectVect m r t outP outM).1, scaleB (sp U x) (c.toSpectVect m r t outP outM).2) := by
  have h : (fun i j => 1 / 2 * (scaleB x r i j + Complex.I * scaleB x t i j))
      = scaleB x fun i j => 1 / 2 * (r i j + Complex.I * t i j) := by
    funext i j; simp only [scaleB]; ring
  have h' : (fun i j => 1 / 2 * (scaleB x r i j - Complex.I * scaleB x t i j))
      = scaleB x fun i j => 1 / 2 * (r i j - Complex.I * t i j) := by
    funext i j; simp only [scaleB]; ring
  rw [toSpectVect_eq, toSpectVect_eq, h, h', ← sp_eq]
  exact Prod.ext (fwd_mat c.Nz c.Nr _ _ _ _ _) (fwd_mat c.Nz c.Nr _ _ _ _ _)

theorem toInterpVect_u (m : ℕ) (x : ℝ) (p q outR outT : Buf) :
    (U.cfg c ext).toInterpVect m (scaleB (sp U x) p) (scaleB (sp U x) q) (scaleB x outR) (scaleB x outT)
      = (scaleB x (c.toInterpVect m p q outR outT).1, scaleB x (c.toInterpVect m p q outR outT).2) := by
  have hk : ∀ (M : ℕ → ℕ → ℝ) (a : Buf), Spec.hankel c.Nr (fun i j => M i j / U.len ^ 2) (scaleB (sp U x) a)
      = scaleB x (Spec.hankel c.Nr M a) := by
    intro M a
    rw [inv_mat, hankel_mat, sp_inv]
  rw [toInterpVect_eq, toInterpVect_eq]
  have h1 : (fun i j => Spec.hankel c.Nr (fun i j => (c.mats m).invMp i j / U.len ^ 2) (scaleB (sp U x) p) i j
        + Spec.hankel c.Nr (fun i j => (c.mats m).invMm i j / U.len ^ 2) (scaleB (sp U x) q) i j)
      = scaleB x fun i j => Spec.hankel c.Nr (c.mats m).invMp p i j
        + Spec.hankel c.Nr (c.mats m).invMm q i j := by
    funext i j
    rw [hk, hk]
    simp only [scaleB]; ring
  have h2 : (fun i j => Complex.I * (Spec.hankel c.Nr (fun i j => (c.mats m).invMp i j / U.len ^ 2)
        (scaleB (sp U x) p) i j
        - Spec.hankel c.Nr (fun i j => (c.mats m).invMm i j / U.len ^ 2) (scaleB (sp U x) q) i j))
      = scaleB x fun i j => Complex.I * (Spec.hankel c.Nr (c.mats m).invMp p i j
        - Spec.hankel c.Nr (c.mats m).invMm q i j) := by
    funext i j
    rw [hk, hk]
    simp only [scaleB]; ring
  refine Prod.ext ?_ ?_
  · funext i j
    show (if i < c.Nz ∧ j < c.Nr then fftAxis0 c.Nz true (fun i j => Spec.hankel c.Nr
      (fun i j => (c.mats m).invMp i j / U.len ^ 2) (scaleB (sp U x) p) i j
        + Spec.hankel c.Nr (fun i j => (c.mats m).invMm i j / U.len ^ 2) (scaleB (sp U x) q) i j) i j
      else scaleB x outR i j) = _
    rw [h1, fftAxis0_scale]
    simp only [scaleB]
    split_ifs <;> rfl
  · funext i j
    show (if i < c.Nz ∧ j < c.Nr then fftAxis0 c.Nz true (fun i j => Complex.I * (Spec.hankel c.Nr
      (fun i j => (c.mats m).invMp i j / U.len ^ 2) (scaleB (sp U x) p) i j
        - Spec.hankel c.Nr (fun i j => (c.mats m).invMm i j / U.len ^ 2) (scaleB (sp U x) q) i j)) i j
      else scaleB x outT i j) = _
    rw [h2, fftAxis0_scale]
    simp only [scaleB]
    split_ifs <;> rfl

theorem spectE_u (m : ℕ) (i : Interp) (g : SpecGrid) :
    (U.cfg c ext).spectE m (interp U i) (U.grid g) = U.grid (c.spectE m i g) := by
  have h1 := toSpectScal_u U c ext m U.E i.E.z (fun iz ir => (g.cell iz ir).Ez)
  have h2 := toSpectVect_u U c ext m U.E i.E.r i.E.t (fun iz ir => (g.cell iz ir).Ep) (fun iz ir => (g.cell iz ir).Em)
  unfold Cfg.spectE
  change ({ U.grid g with cell := fun iz ir => { U.cell (g.cell iz ir) with
    Ez := (U.cfg c ext).toSpectScal m (scaleB U.E i.E.z) (scaleB (sp U U.E) fun iz ir => (g.cell iz ir).Ez) iz ir
    Ep := ((U.cfg c ext).toSpectVect m (scaleB U.E i.E.r) (scaleB U.E i.E.t)
      (scaleB (sp U U.E) fun iz ir => (g.cell iz ir).Ep) (scaleB (sp U U.E) fun iz ir => (g.cell iz ir).Em)).1 iz ir
    Em := ((U.cfg c ext).toSpectVect m (scaleB U.E i.E.r) (scaleB U.E i.E.t)
      (scaleB (sp U U.E) fun iz ir => (g.cell iz ir).Ep) (scaleB (sp U U.E) fun iz ir => (g.cell iz ir).Em)).2 iz ir
    } } : SpecGrid) = _
  rw [h1, h2]
  rfl

theorem spectB_u (m : ℕ) (i : Interp) (g : SpecGrid) :
    (U.cfg c ext).spectB m (interp U i) (U.grid g) = U.grid (c.spectB m i g) := by
  have h1 := toSpectScal_u U c ext m U.B i.B.z (fun iz ir => (g.cell iz ir).Bz)
  have h2 := toSpectVect_u U c ext m U.B i.B.r i.B.t (fun iz ir => (g.cell iz ir).Bp) (fun iz ir => (g.cell iz ir).Bm)
  unfold Cfg.spectB
  change ({ U.grid g with cell := fun iz ir => { U.cell (g.cell iz ir) with
    Bz := (U.cfg c ext).toSpectScal m (scaleB U.B i.B.z) (scaleB (sp U U.B) fun iz ir => (g.cell iz ir).Bz) iz ir
    Bp := ((U.cfg c ext).toSpectVect m (scaleB U.B i.B.r) (scaleB U.B i.B.t)
      (scaleB (sp U U.B) fun iz ir => (g.cell iz ir).Bp) (scaleB (sp U U.B) fun iz ir => (g.cell iz ir).Bm)).1 iz ir
    Bm := ((U.cfg c ext).toSpectVect m (scaleB U.B i.B.r) (scaleB U.B i.B.t)
      (scaleB (sp U U.B) fun iz ir => (g.cell iz ir).Bp) (scaleB (sp U U.B) fun iz ir => (g.cell iz ir).Bm)).2 iz ir
    } } : SpecGrid) = _
  rw [h1, h2]
  rfl

theorem spectJ_u (m : ℕ) (i : Interp) (g : SpecGrid) :
    (U.cfg c ext).spectJ m (interp U i) (U.grid g) = U.grid (c.spectJ m i g) := by
  have h1 := toSpectScal_u U c ext m U.J i.J.z (fun iz ir => (g.cell iz ir).Jz)
  have h2 := toSpectVect_u U c ext m U.J i.J.r i.J.t (fun iz ir => (g.cell iz ir).Jp) (fun iz ir => (g.cell iz ir).Jm)
  unfold Cfg.spectJ
  change ({ U.grid g with cell := fun iz ir => { U.cell (g.cell iz ir) with
    Jz := (U.cfg c ext).toSpectScal m (scaleB U.J i.J.z) (scaleB (sp U U.J) fun iz ir => (g.cell iz ir).Jz) iz ir
    Jp := ((U.cfg c ext).toSpectVect m (scaleB U.J i.J.r) (scaleB U.J i.J.t)
      (scaleB (sp U U.J) fun iz ir => (g.cell iz ir).Jp) (scaleB (sp U U.J) fun iz ir => (g.cell iz ir).Jm)).1 iz ir
    Jm := ((U.cfg c ext).toSpectVect m (scaleB U.J i.J.r) (scaleB U.J i.J.t)
      (scaleB (sp U U.J) fun iz ir => (g.cell iz ir).Jp) (scaleB (sp U U.J) fun iz ir => (g.cell iz ir).Jm)).2 iz ir
    } } : SpecGrid) = _
  rw [h1, h2]
  rfl

theorem spectRho_u (n : RhoName) (m : ℕ) (i : Interp) (g : SpecGrid) :
    (U.cfg c ext).spectRho n m (interp U i) (U.grid g) = U.grid (c.spectRho n m i g) := by
  have h0 : (fun iz ir => n.get ((U.grid g).cell iz ir)) = scaleB (sp U U.rho) fun iz ir => n.get (g.cell iz ir) := by
    funext iz ir; cases n <;> rfl
  unfold Cfg.spectRho
  rw [h0]
  change ({ U.grid g with cell := fun iz ir => n.set ((U.cfg c ext).toSpectScal m (scaleB U.rho i.rho)
    (scaleB (sp U U.rho) fun iz ir => n.get (g.cell iz ir)) iz ir) (U.cell (g.cell iz ir)) } : SpecGrid) = _
  rw [toSpectScal_u]
  cases n <;> rfl

theorem interpEB_u (m : ℕ) (g : SpecGrid) (i : Interp) :
    (U.cfg c ext).interpEB m (U.grid g) (interp U i) = interp U (c.interpEB m g i) := by
  have h1 := toInterpScal_u U c ext m U.E (fun iz ir => (g.cell iz ir).Ez) i.E.z
  have h2 := toInterpVect_u U c ext m U.E (fun iz ir => (g.cell iz ir).Ep) (fun iz ir => (g.cell iz ir).Em) i.E.r i.E.t
  have h3 := toInterpScal_u U c ext m U.B (fun iz ir => (g.cell iz ir).Bz) i.B.z
  have h4 := toInterpVect_u U c ext m U.B (fun iz ir => (g.cell iz ir).Bp) (fun iz ir => (g.cell iz ir).Bm) i.B.r i.B.t
  unfold Cfg.interpEB
  change ({ interp U i with
    E := ⟨((U.cfg c ext).toInterpVect m (scaleB (sp U U.E) fun iz ir => (g.cell iz ir).Ep)
        (scaleB (sp U U.E) fun iz ir => (g.cell iz ir).Em) (scaleB U.E i.E.r) (scaleB U.E i.E.t)).1,
        ((U.cfg c ext).toInterpVect m (scaleB (sp U U.E) fun iz ir => (g.cell iz ir).Ep)
        (scaleB (sp U U.E) fun iz ir => (g.cell iz ir).Em) (scaleB U.E i.E.r) (scaleB U.E i.E.t)).2,
        (U.cfg c ext).toInterpScal m (scaleB (sp U U.E) fun iz ir => (g.cell iz ir).Ez) (scaleB U.E i.E.z)⟩
    B := ⟨((U.cfg c ext).toInterpVect m (scaleB (sp U U.B) fun iz ir => (g.cell iz ir).Bp)
        (scaleB (sp U U.B) fun iz ir => (g.cell iz ir).Bm) (scaleB U.B i.B.r) (scaleB U.B i.B.t)).1,
        ((U.cfg c ext).toInterpVect m (scaleB (sp U U.B) fun iz ir => (g.cell iz ir).Bp)
        (scaleB (sp U U.B) fun iz ir => (g.cell iz ir).Bm) (scaleB U.B i.B.r) (scaleB U.B i.B.t)).2,
        (U.cfg c ext).toInterpScal m (scaleB (sp U U.B) fun iz ir => (g.cell iz ir).Bz) (scaleB U.B i.B.z)⟩
    } : Interp) = _
  rw [h1, h2, h3, h4]
  rfl

theorem interpSources_u (m : ℕ) (g : SpecGrid) (i : Interp) :
    (U.cfg c ext).interpSources m (U.grid g) (interp U i) = interp U (c.interpSources m g i) := by
  have h1 := toInterpScal_u U c ext m U.J (fun iz ir => (g.cell iz ir).Jz) i.J.z
  have h2 := toInterpVect_u U c ext m U.J (fun iz ir => (g.cell iz ir).Jp) (fun iz ir => (g.cell iz ir).Jm) i.J.r i.J.t
  have h3 := toInterpScal_u U c ext m U.rho (fun iz ir => (g.cell iz ir).rhoPrev) i.rho
  unfold Cfg.interpSources
  change ({ interp U i with
    J := ⟨((U.cfg c ext).toInterpVect m (scaleB (sp U U.J) fun iz ir => (g.cell iz ir).Jp)
        (scaleB (sp U U.J) fun iz ir => (g.cell iz ir).Jm) (scaleB U.J i.J.r) (scaleB U.J i.J.t)).1,
        ((U.cfg c ext).toInterpVect m (scaleB (sp U U.J) fun iz ir => (g.cell iz ir).Jp)
        (scaleB (sp U U.J) fun iz ir => (g.cell iz ir).Jm) (scaleB U.J i.J.r) (scaleB U.J i.J.t)).2,
        (U.cfg c ext).toInterpScal m (scaleB (sp U U.J) fun iz ir => (g.cell iz ir).Jz) (scaleB U.J i.J.z)⟩
    rho := (U.cfg c ext).toInterpScal m (scaleB (sp U U.rho) fun iz ir => (g.cell iz ir).rhoPrev)
      (scaleB U.rho i.rho) } : Interp) = _
  rw [h1, h2, h3]
  rfl

end

theorem filterSpect_u (f : FilterField) (m : ℕ) (g : SpecGrid) :
    (U.cfg c ext).filterSpect f m (U.grid g) = U.grid (c.filterSpect f m g) := by
  unfold Cfg.filterSpect
  show (match c.filter with
    | some (fz, fr) => (U.grid g).filter fz (fr m) f
    | none => U.grid g) = _
  cases c.filter with
  | none => rfl
  | some a =>
    refine congrArg (fun cl => ({ U.grid g with cell := cl } : SpecGrid)) ?_
    funext iz ir
    show (if iz < g.Nz ∧ ir < g.Nr then filterCell (a.1 iz * a.2 m ir) f (U.cell (g.cell iz ir))
      else U.cell (g.cell iz ir)) = U.cell (if iz < g.Nz ∧ ir < g.Nr then
        filterCell (a.1 iz * a.2 m ir) f (g.cell iz ir) else g.cell iz ir)
    rw [filterCell_u]
    split_ifs <;> rfl

theorem mapCells_u (f f' : ℝ → ℝ → SpecCell → SpecCell)
    (hf : ∀ kz kr s, f' (kz / U.len) (kr / U.len) (U.cell s) = U.cell (f kz kr s)) (g : SpecGrid) :
    (U.grid g).mapCells f' = U.grid (g.mapCells f) := by
  unfold SpecGrid.mapCells Rescaling.grid
  simp only [hf]
  congr 1
  funext iz ir
  split_ifs <;> rfl

theorem gridCurrents_u (hc : 0 < c.k.c) (hV : ∀ v, c.V = some v → |v| < c.k.c) (g : SpecGrid) :
    (U.grid g).correctCurrents (U.consts c.k) c.correction (U.tim * c.dt) (c.V.map fun v => U.len / U.tim * v)
        c.galilean
      = U.grid (g.correctCurrents c.k c.correction c.dt c.V c.galilean) :=
  mapCells_u U _ _ (fun kz kr s => by
    rw [psatdCoefs_u U _ _ _ _ _ _ hc hV]; exact correctCurrents_u U _ _ _ _ _) g

theorem gridPush_u (hc : 0 < c.k.c) (hV : ∀ v, c.V = some v → |v| < c.k.c) (t : Bool) (g : SpecGrid) :
    (U.grid g).push (U.consts c.k) (U.tim * c.dt) (c.V.map fun v => U.len / U.tim * v) c.galilean false t
      = U.grid (g.push c.k c.dt c.V c.galilean false t) := by
  unfold SpecGrid.push
  rw [mapCells_u U (fun kz kr s => pushEBWith c.k kz kr (psatdCoefs c.k kz kr c.dt c.V c.galilean) false t s) _
    (fun kz kr s => by rw [psatdCoefs_u U _ _ _ _ _ _ hc hV]; exact pushEBWith_u U _ _ _ _ _ _)]
  refine mapCells_u U _ _ (fun _ _ s => ?_) _
  simp only [pushRho, Rescaling.cell, mul_zero]

theorem correctDivE_u (spect t : ℕ → SpecGrid) (h : c.correctDivE spect = .ok t) :
    (U.cfg c ext).correctDivE (fun m => U.grid (spect m)) = .ok fun m => U.grid (t m) := by
  unfold Cfg.correctDivE at *
  have e : (U.cfg c ext).correction = c.correction := rfl
  rw [e]
  cases hc : c.correction with
  | crossDeposition => rw [hc] at h; cases h
  | curlFree =>
    rw [hc] at h
    simp only at h ⊢
    rw [← Except.ok.inj h]
    refine congrArg _ ?_
    funext m
    show (if m < c.Nm then _ else _) = U.grid (if m < c.Nm then _ else _)
    split_ifs
    · exact mapCells_u U _ _ (fun kz kr s => divE_u U c.k kz kr s) _
    · rfl

theorem onModes_u {α : Type} (Nm : ℕ) (f f' : ℕ → α → α) (sc : α → α) (a : ℕ → α)
    (h : ∀ m x, f' m (sc x) = sc (f m x)) :
    onModes Nm f' (fun m => sc (a m)) = fun m => sc (onModes Nm f a m) := by
  funext m
  unfold onModes
  split_ifs
  · rw [h]
  · rfl

/-! ### Deposition -/

theorem cylR_u (x y : ℝ) : cylR (U.len * x) (U.len * y) = U.len * cylR x y := by
  unfold cylR
  rw [show (U.len * x) ^ 2 + (U.len * y) ^ 2 = U.len ^ 2 * (x ^ 2 + y ^ 2) by ring,
    Real.sqrt_mul (by positivity), Real.sqrt_sq U.len_pos.le]

theorem cylCos_u (x y : ℝ) : cylCos (U.len * x) (U.len * y) = cylCos x y := by
  have := len_ne U
  unfold cylCos
  rw [cylR_u]
  by_cases h : cylR x y = 0
  · simp [h]
  · rw [if_pos h, if_pos (mul_ne_zero this h)]
    field_simp

theorem cylSin_u (x y : ℝ) : cylSin (U.len * x) (U.len * y) = cylSin x y := by
  have := len_ne U
  unfold cylSin
  rw [cylR_u]
  by_cases h : cylR x y = 0
  · simp [h]
  · rw [if_pos h, if_pos (mul_ne_zero this h)]
    field_simp

/-- The grid of the second simulation. -/
theorem zCell_u (zmin z : ℝ) : ((U.cfg c ext).grid (U.len * zmin)).zCell (U.len * z) = (c.grid zmin).zCell z := by
  have := len_ne U
  show c.invdz / U.len * (U.len * z - U.len * zmin) - 1 / 2 = c.invdz * (z - zmin) - 1 / 2
  field_simp

theorem rCell_u (zmin r : ℝ) : ((U.cfg c ext).grid (U.len * zmin)).rCell (U.len * r) = (c.grid zmin).rCell r := by
  have := len_ne U
  show c.invdr / U.len * (U.len * r - 0) - 1 / 2 = c.invdr * (r - 0) - 1 / 2
  rw [sub_zero, sub_zero]
  field_simp

/-- The factor of a deposited quantity, before the division by the volume. -/
noncomputable def depFac : DepField → ℝ
  | .rho => U.chg * U.wgt
  | _ => U.chg * U.wgt * (U.len / U.tim)

theorem depFac_rho : depFac U .rho / U.len ^ 3 = U.rho := rfl

theorem depFac_J (f : DepField) (h : f ≠ .rho) : depFac U f / U.len ^ 3 = U.J := by
  have := len_ne U
  have := tim_ne U
  have e : depFac U f = U.chg * U.wgt * (U.len / U.tim) := by cases f <;> first | rfl | exact absurd rfl h
  rw [e]
  unfold Rescaling.J
  field_simp

theorem scal0_u (f : DepField) (q : ℝ) (ion : Bool) (p : Ptcl) :
    f.scal0 (U.len / U.tim * c.k.c) (U.chg * q) ((U.ptcl p).dep ion) = depFac U f * f.scal0 c.k.c q (p.dep ion) := by
  have hc := cylCos_u U p.push.x p.push.y
  have hs := cylSin_u U p.push.x p.push.y
  cases f <;>
    simp only [DepField.scal0, Ptcl.dep, Rescaling.ptcl, Rescaling.push, depFac, hc, hs] <;> split_ifs <;> ring

theorem scalOf_u (f : DepField) (q : ℝ) (m : ℕ) (ion : Bool) (p : Ptcl) :
    scalOf f (U.len / U.tim * c.k.c) (U.chg * q) m ((U.ptcl p).dep ion)
      = (depFac U f : ℝ) * scalOf f c.k.c q m (p.dep ion) := by
  have hc := cylCos_u U p.push.x p.push.y
  have hs := cylSin_u U p.push.x p.push.y
  unfold scalOf
  rw [modeScal_eq, modeScal_eq, scal0_u]
  show ((cylCos (U.len * p.push.x) (U.len * p.push.y) : ℂ) + Complex.I *
    (cylSin (U.len * p.push.x) (U.len * p.push.y) : ℂ)) ^ m * _ = _
  rw [hc, hs]
  show (((cylCos p.push.x p.push.y : ℂ) + Complex.I * (cylSin p.push.x p.push.y : ℂ)) ^ m * _)
    = _ * (((cylCos p.push.x p.push.y : ℂ) + Complex.I * (cylSin p.push.x p.push.y : ℂ)) ^ m * _)
  push_cast
  ring

theorem betaIdx_u (zmin : ℝ) (ion : Bool) (p : Ptcl) :
    betaIdx ((U.cfg c ext).grid (U.len * zmin)) ((U.ptcl p).dep ion) = betaIdx (c.grid zmin) (p.dep ion) := by
  show min ⌈((U.cfg c ext).grid (U.len * zmin)).rCell (cylR (U.len * p.push.x) (U.len * p.push.y))⌉ _ = _
  rw [cylR_u, rCell_u]
  rfl

theorem addsOf_u (sh : Shape) (f : DepField) (q zmin : ℝ) (beta : List ℝ) (m : ℕ) (ion : Bool) (p : Ptcl) :
    addsOf sh f (U.len / U.tim * c.k.c) (U.chg * q) ((U.cfg c ext).grid (U.len * zmin)) beta m ((U.ptcl p).dep ion)
      = (addsOf sh f c.k.c q (c.grid zmin) beta m (p.dep ion)).map
          fun a => (a.1, a.2.1, ((depFac U f : ℝ) : ℂ) * a.2.2) := by
  unfold addsOf
  rw [scalOf_u]
  have hb : betaOf ((U.cfg c ext).grid (U.len * zmin)) beta ((U.ptcl p).dep ion)
      = betaOf (c.grid zmin) beta (p.dep ion) := by
    unfold betaOf; rw [betaIdx_u]
  rw [hb]
  show ptclAdds sh ((U.cfg c ext).grid (U.len * zmin)) _ _ _ (cylR (U.len * p.push.x) (U.len * p.push.y))
    (U.len * p.push.z) = (ptclAdds sh (c.grid zmin) _ _ _ (cylR p.push.x p.push.y) p.push.z).map _
  rw [cylR_u]
  simp only [ptclAdds]
  rw [zCell_u, rCell_u]
  simp only [List.map_flatMap, List.map_map]
  refine congrArg (fun g => List.flatMap g _) ?_
  funext a
  refine congrArg (fun g => List.map g _) ?_
  funext b
  simp only [Function.comp]
  refine Prod.ext rfl (Prod.ext rfl ?_)
  show _ = (depFac U f : ℂ) * _
  rw [mul_left_comm]

theorem ptclOk_u (sh : Shape) (f : DepField) (q zmin : ℝ) (beta : List ℝ) (m : ℕ) (ion : Bool) (p : Ptcl)
    (hok : ptclOk sh f c.k.c q (c.grid zmin) beta m (p.dep ion)) :
    ptclOk sh f (U.len / U.tim * c.k.c) (U.chg * q) ((U.cfg c ext).grid (U.len * zmin)) beta m
      ((U.ptcl p).dep ion) := by
  refine ⟨?_, ?_⟩
  · rw [betaIdx_u]; exact hok.1
  · rw [addsOf_u]
    intro a ha
    obtain ⟨b, hb, rfl⟩ := List.mem_map.1 ha
    exact hok.2 b hb

theorem ptclBuf_u (sh : Shape) (f : DepField) (q zmin : ℝ) (beta : List ℝ) (m : ℕ) (ion : Bool) (p : Ptcl) :
    ptclBuf sh f (U.len / U.tim * c.k.c) (U.chg * q) ((U.cfg c ext).grid (U.len * zmin)) beta m ((U.ptcl p).dep ion)
      = scaleB (depFac U f : ℝ) (ptclBuf sh f c.k.c q (c.grid zmin) beta m (p.dep ion)) := by
  unfold ptclBuf
  rw [addsOf_u, scaleB_sum, List.map_map, List.map_map]
  refine congrArg List.sum (List.map_congr_left fun a _ => ?_)
  show cellBuf _ _ ((depFac U f : ℂ) * a.2.2) = _
  rw [cellBuf_scale]
  rfl

theorem speciesOk_u (f : DepField) (zmin : ℝ) (m : ℕ) (sp : Species)
    (hok : speciesOk f c.k.c (c.grid zmin) c.beta m sp.dep) :
    speciesOk f (U.len / U.tim * c.k.c) ((U.cfg c ext).grid (U.len * zmin)) c.beta m (U.species sp).dep := by
  intro hq p hp
  have hq' : sp.q ≠ 0 := fun h0 => hq (by show U.chg * sp.q = 0; rw [h0, mul_zero])
  obtain ⟨p1, hp1, rfl⟩ := List.mem_map.1 hp
  obtain ⟨p2, hp2, rfl⟩ := List.mem_map.1 hp1
  exact ptclOk_u U c ext _ f _ zmin _ m _ p2 (hok hq' _ (List.mem_map.2 ⟨p2, hp2, rfl⟩))

theorem speciesBuf_u (f : DepField) (zmin : ℝ) (m : ℕ) (sp : Species) :
    speciesBuf f (U.len / U.tim * c.k.c) ((U.cfg c ext).grid (U.len * zmin)) c.beta m (U.species sp).dep
      = scaleB (depFac U f : ℝ) (speciesBuf f c.k.c (c.grid zmin) c.beta m sp.dep) := by
  unfold speciesBuf
  by_cases hq : sp.q = 0
  · have hq' : (U.species sp).dep.q = 0 := by show U.chg * sp.q = 0; rw [hq, mul_zero]
    rw [if_pos hq', if_pos (show sp.dep.q = 0 from hq), scaleB_zero]
  · have hq' : (U.species sp).dep.q ≠ 0 := mul_ne_zero U.chg_ne hq
    rw [if_neg hq', if_neg (show ¬ sp.dep.q = 0 from hq), scaleB_sum]
    show ((List.map _ (List.map U.ptcl sp.ptcl)).map _).sum = _
    show _ = (List.map _ ((List.map _ sp.ptcl).map _)).sum
    simp only [List.map_map]
    refine congrArg List.sum (List.map_congr_left fun p hp => ?_)
    exact ptclBuf_u U c ext _ f _ zmin _ m _ p

theorem depositing_u (L : List Species) :
    ((L.map U.species).filter fun sp => !sp.isTracer) = (L.filter fun sp => !sp.isTracer).map U.species := by
  rw [List.filter_map]
  rfl

theorem divide_u (vol : ℕ → ℝ) (x : ℝ) (B : Buf) :
    CellVolume.divideByVolume (fun i => U.len ^ 3 * vol i) (scaleB x B)
      = scaleB ((x / U.len ^ 3 : ℝ) : ℂ) (CellVolume.divideByVolume vol B) := by
  funext i j
  simp only [CellVolume.divideByVolume, scaleB]
  push_cast
  rw [one_div, mul_inv, one_div]
  ring

theorem depArr_u (f : DepField) (s s' : Sim) (hz : s'.zmin = U.len * s.zmin)
    (hsp : s'.species = s.species.map U.species) (m : ℕ) :
    (U.cfg c ext).depArr f s' m = scaleB ((depFac U f / U.len ^ 3 : ℝ) : ℂ) (c.depArr f s m) := by
  unfold Cfg.depArr
  by_cases hm : m < c.Nm
  · rw [if_pos hm, if_pos (show m < (U.cfg c ext).Nm from hm), ← divide_u]
    change CellVolume.divideByVolume (fun i => U.len ^ 3 * c.vol m i) (reduceBuf c.Nz c.Nr ((s'.depositing.map
      (speciesBuf f (U.len / U.tim * c.k.c) ((U.cfg c ext).grid s'.zmin) c.beta m)).sum)) = _
    refine congrArg _ ?_
    unfold Sim.depositing
    rw [hsp, hz, depositing_u, ← reduceBuf_scale, scaleB_sum]
    simp only [List.map_map]
    refine congrArg _ (congrArg List.sum (List.map_congr_left fun sp hp => ?_))
    exact speciesBuf_u U c ext f _ m sp
  · rw [if_neg hm, if_neg (show ¬ m < (U.cfg c ext).Nm from hm)]
    exact (scaleB_zero _).symm

theorem depOk_u (f : DepField) (s s' : Sim) (hz : s'.zmin = U.len * s.zmin)
    (hsp : s'.species = s.species.map U.species) (h : c.depOk f s) : (U.cfg c ext).depOk f s' := by
  intro m hm sp hs
  unfold Sim.depositing at hs
  rw [hsp, depositing_u] at hs
  obtain ⟨sp1, h1, rfl⟩ := List.mem_map.1 hs
  obtain ⟨sp2, h2, rfl⟩ := List.mem_map.1 h1
  rw [hz]
  exact speciesOk_u U c ext f _ m sp2 (h m hm _ (List.mem_map.2 ⟨sp2, h2, rfl⟩))

/-! ### Gathering -/

theorem cells_u (sh : Shape) (zmin : ℝ) (m : ℕ) (r z : ℝ) :
    sh.cells ((U.cfg c ext).grid (U.len * zmin)) m (U.len * r) (U.len * z) = sh.cells (c.grid zmin) m r z := by
  have hz := zCell_u U c ext zmin z
  have hr := rCell_u U c ext zmin r
  cases sh
  · simp only [Shape.cells, linearCells, hz, hr]; rfl
  · simp only [Shape.cells, cubicCells, hz, hr]; rfl

/-- A field on a particle. -/
def fvec (x : ℝ) (E : ℝ × ℝ × ℝ) : ℝ × ℝ × ℝ := (x * E.1, x * E.2.1, x * E.2.2)

theorem addGather_u (sh : Shape) (zmin : ℝ) (m : ℕ) (F : GridVec) (x : ℝ) (e : ℂ) (r z : ℝ) (acc v : ℝ × ℝ × ℝ)
    (h : addGather sh (c.grid zmin) m F e r z acc = .ok v) :
    addGather sh ((U.cfg c ext).grid (U.len * zmin)) m (scaleV x F) e (U.len * r) (U.len * z) (fvec x acc)
      = .ok (fvec x v) := by
  obtain ⟨h1, rfl⟩ := (addGather_ok _ _ _ _ _ _ _ _ _).1 h
  refine (addGather_ok _ _ _ _ _ _ _ _ _).2 ⟨?_, ?_⟩
  · rw [cells_u]; exact h1
  · have key : ∀ w B, (cellsVal ((U.cfg c ext).grid (U.len * zmin)) w (scaleB x B)
        (sh.cells ((U.cfg c ext).grid (U.len * zmin)) m (U.len * r) (U.len * z)) * e).re
        = x * (cellsVal (c.grid zmin) w B (sh.cells (c.grid zmin) m r z) * e).re := by
      intro w B
      rw [cells_u, cellsVal_scale, mul_assoc, Complex.re_ofReal_mul]
      rfl
    simp only [scaleV, key, fvec]
    refine Prod.ext ?_ (Prod.ext ?_ ?_) <;> simp only <;> ring

theorem fvec_zero (x : ℝ) : fvec x (0, 0, 0) = (0, 0, 0) := by simp [fvec]

theorem lt_u (r rmax : ℝ) : U.len * r < U.len * rmax ↔ r < rmax := mul_lt_mul_iff_right₀ U.len_pos

theorem gatherOneMode_u (sh : Shape) (zmin rmax : ℝ) (m : ℕ) (F : GridVec) (a x y z : ℝ) (E v : ℝ × ℝ × ℝ)
    (h : gatherOneMode sh (c.grid zmin) rmax m F x y z E = .ok v) :
    gatherOneMode sh ((U.cfg c ext).grid (U.len * zmin)) (U.len * rmax) m (scaleV a F) (U.len * x) (U.len * y)
      (U.len * z) (fvec a E) = .ok (fvec a v) := by
  unfold gatherOneMode at *
  dsimp only at *
  rw [cylR_u, cylCos_u, cylSin_u]
  by_cases hr : cylR x y < rmax
  · rw [if_pos hr] at h
    rw [if_pos ((lt_u U _ _).2 hr)]
    obtain ⟨b, hb, hv⟩ := (except_bind_ok _ _ _).1 h
    have h1 := addGather_u U c ext sh zmin m F a _ _ _ _ _ hb
    rw [fvec_zero] at h1
    refine (except_bind_ok _ _ _).2 ⟨_, h1, ?_⟩
    rw [← Except.ok.inj hv]
    refine congrArg Except.ok ?_
    refine Prod.ext ?_ (Prod.ext ?_ ?_) <;> simp only [fvec] <;> ring
  · rw [if_neg hr] at h
    rw [if_neg ((lt_u U _ _).not.2 hr), ← Except.ok.inj h]; rfl

theorem gatherTwoModes_u (sh : Shape) (zmin rmax : ℝ) (F0 F1 : GridVec) (a x y z : ℝ) (v : ℝ × ℝ × ℝ)
    (h : gatherTwoModes sh (c.grid zmin) rmax F0 F1 x y z = .ok v) :
    gatherTwoModes sh ((U.cfg c ext).grid (U.len * zmin)) (U.len * rmax) (scaleV a F0) (scaleV a F1)
      (U.len * x) (U.len * y) (U.len * z) = .ok (fvec a v) := by
  unfold gatherTwoModes at *
  dsimp only at *
  rw [cylR_u, cylCos_u, cylSin_u]
  by_cases hr : cylR x y < rmax
  · rw [if_pos hr] at h
    rw [if_pos ((lt_u U _ _).2 hr)]
    obtain ⟨b, hb, h⟩ := (except_bind_ok _ _ _).1 h
    obtain ⟨d, hd, hv⟩ := (except_bind_ok _ _ _).1 h
    have h1 := addGather_u U c ext sh zmin 0 F0 a _ _ _ _ _ hb
    have h2 := addGather_u U c ext sh zmin 1 F1 a _ _ _ _ _ hd
    rw [fvec_zero] at h1
    refine (except_bind_ok _ _ _).2 ⟨_, h1, (except_bind_ok _ _ _).2 ⟨_, h2, ?_⟩⟩
    rw [← Except.ok.inj hv]
    refine congrArg Except.ok ?_
    refine Prod.ext ?_ (Prod.ext ?_ ?_) <;> simp only [fvec] <;> ring
  · rw [if_neg hr] at h
    rw [if_neg ((lt_u U _ _).not.2 hr)]
    obtain ⟨b, hb, hv⟩ := (except_bind_ok _ _ _).1 h
    refine (except_bind_ok _ _ _).2 ⟨(0, 0, 0), rfl, ?_⟩
    rw [← Except.ok.inj hv, ← Except.ok.inj hb]
    refine congrArg Except.ok ?_
    simp [fvec]

theorem foldModes_u (sh : Shape) (zmin rmax a x y z : ℝ) (Fs : List GridVec) :
    ∀ (i : ℕ) (E v : ℝ × ℝ × ℝ), (Fs.zipIdx i).foldlM (fun (E : ℝ × ℝ × ℝ) (Fm : GridVec × ℕ) =>
      gatherOneMode sh (c.grid zmin) rmax Fm.2 Fm.1 x y z E) E = .ok v →
    ((Fs.map fun F => scaleV a F).zipIdx i).foldlM
      (fun (E : ℝ × ℝ × ℝ) (Fm : GridVec × ℕ) => gatherOneMode sh ((U.cfg c ext).grid (U.len * zmin)) (U.len * rmax)
        Fm.2 Fm.1 (U.len * x) (U.len * y) (U.len * z) E) (fvec a E) = .ok (fvec a v) := by
  induction Fs with
  | nil =>
    intro i E v h
    rw [← Except.ok.inj h]; rfl
  | cons F Fs ih =>
    intro i E v h
    rw [List.zipIdx_cons, List.foldlM_cons] at h
    obtain ⟨b, hb, h⟩ := (except_bind_ok _ _ _).1 h
    rw [List.map_cons, List.zipIdx_cons, List.foldlM_cons]
    refine (except_bind_ok _ _ _).2 ⟨fvec a b, ?_, ?_⟩
    · exact gatherOneMode_u U c ext sh zmin rmax i F a x y z E b hb
    · exact ih (i + 1) b v h

theorem gatherField_u (sh : Shape) (zmin rmax : ℝ) (Nm : ℕ) (A : ℕ → GridVec) (a x y z : ℝ) (v : ℝ × ℝ × ℝ)
    (h : gatherField sh (c.grid zmin) rmax ((List.range Nm).map A) x y z = .ok v) :
    gatherField sh ((U.cfg c ext).grid (U.len * zmin)) (U.len * rmax) ((List.range Nm).map fun m => scaleV a (A m))
      (U.len * x) (U.len * y) (U.len * z) = .ok (fvec a v) := by
  by_cases h2 : Nm = 2
  · subst h2
    exact gatherTwoModes_u U c ext sh zmin rmax _ _ a x y z v h
  · have hne : ∀ (B : ℕ → GridVec) (F0 F1 : GridVec), (List.range Nm).map B ≠ [F0, F1] := by
      intro B F0 F1 he
      have := congrArg List.length he
      simp at this
      exact h2 this
    have hg : ∀ (B : ℕ → GridVec) (g : CylGrid) (rmax x y z : ℝ),
        gatherField sh g rmax ((List.range Nm).map B) x y z
        = ((List.range Nm).map B).zipIdx.foldlM (fun (E : ℝ × ℝ × ℝ) (Fm : GridVec × ℕ) =>
          gatherOneMode sh g rmax Fm.2 Fm.1 x y z E) (0, 0, 0) := by
      intro B g rmax x y z
      unfold gatherField
      split
      · rename_i F0 F1 he
        exact absurd he (hne B F0 F1)
      · rfl
    rw [hg] at h ⊢
    have := foldModes_u U c ext sh zmin rmax a x y z _ 0 _ _ h
    rw [fvec_zero, List.map_map] at this
    exact this

/-! ### Particles -/

theorem mapPtclM_u (f f' : Species → Ptcl → Except PyErr Ptcl) (s s' t : Sim)
    (hR : s'.species = s.species.map U.species) (h : s.mapPtclM f = .ok t)
    (hf : ∀ sp p p', f sp p = .ok p' → f' (U.species sp) (U.ptcl p) = .ok (U.ptcl p')) :
    s'.mapPtclM f' = .ok { s' with species := t.species.map U.species } := by
  obtain ⟨sps, hs, rfl⟩ := (mapPtclM_ok _ _ _).1 h
  refine (mapPtclM_ok _ _ _).2 ⟨_, ?_, rfl⟩
  rw [hR]
  show List.Forall₂ _ (s.species.map U.species) (sps.map U.species)
  generalize s.species = L at hs
  clear hR h
  induction hs with
  | nil => exact List.Forall₂.nil
  | @cons a b L L' hab hL ih =>
    rw [List.map_cons, List.map_cons]
    refine List.Forall₂.cons ?_ ih
    refine ⟨?_, ?_, hab.shape, hab.tracer, hab.ionizable, ?_, ?_⟩
    · show U.chg * b.q = U.chg * a.q; rw [hab.q]
    · show U.mass * b.m = U.mass * a.m; rw [hab.m]
    · show b.plane.map _ = a.plane.map _; rw [hab.plane]
    · show List.Forall₂ _ (a.ptcl.map U.ptcl) (b.ptcl.map U.ptcl)
      have h1 := hab.ptcl
      have h2 := hf a
      generalize a.ptcl = l at h1
      generalize b.ptcl = l' at h1
      clear hab ih hL hf
      induction h1 with
      | nil => exact List.Forall₂.nil
      | @cons p p' l l' hpp _ ih =>
        rw [List.map_cons, List.map_cons]
        exact List.Forall₂.cons (h2 p p' hpp) ih

theorem loopDown_u (zmax L : ℝ) (n : ℕ) : ∀ z, loopDown (U.len * zmax) (U.len * L) n (U.len * z)
    = (loopDown zmax L n z).map (U.len * ·) := by
  induction n with
  | zero => intro z; rfl
  | succ n ih =>
    intro z
    unfold loopDown
    by_cases h : zmax ≤ z
    · rw [if_pos h, if_pos (mul_le_mul_of_nonneg_left h U.len_pos.le), ← mul_sub, ih]
    · rw [if_neg h, if_neg (by rw [mul_le_mul_iff_right₀ U.len_pos]; exact h)]; rfl

theorem loopUp_u (zmin L : ℝ) (n : ℕ) : ∀ z, loopUp (U.len * zmin) (U.len * L) n (U.len * z)
    = (loopUp zmin L n z).map (U.len * ·) := by
  induction n with
  | zero => intro z; rfl
  | succ n ih =>
    intro z
    unfold loopUp
    by_cases h : z < zmin
    · rw [if_pos h, if_pos ((lt_u U _ _).2 h), ← mul_add, ih]
    · rw [if_neg h, if_neg ((lt_u U _ _).not.2 h)]; rfl

theorem wrapZ_u (zmin zmax : ℝ) (n : ℕ) (z : ℝ) : wrapZ (U.len * zmin) (U.len * zmax) n (U.len * z)
    = (wrapZ zmin zmax n z).map (U.len * ·) := by
  unfold wrapZ
  rw [← mul_sub, loopDown_u]
  cases loopDown zmax (zmax - zmin) n z with
  | none => rfl
  | some z => exact loopUp_u U zmin (zmax - zmin) n z

theorem wrap_u (zmin zmax : ℝ) (p p' : Ptcl) (h : c.wrap zmin zmax p = .ok p') :
    (U.cfg c ext).wrap (U.len * zmin) (U.len * zmax) (U.ptcl p) = .ok (U.ptcl p') := by
  unfold Cfg.wrap at *
  show (match wrapZ (U.len * zmin) (U.len * zmax) c.fuel (U.len * p.push.z) with
    | some z => _
    | none => _) = _
  rw [wrapZ_u]
  cases hz : wrapZ zmin zmax c.fuel p.push.z with
  | none => rw [hz] at h; cases h
  | some z =>
    rw [hz] at h
    rw [← Except.ok.inj h]
    rfl

theorem pushVay_u (e : ElecMom) (F : Comp → ℝ) (a b a' b' : ℝ) (ha : a' * U.E = a) (hb : b' * U.B = b) :
    pushVay e ⟨U.fields F .Ex, U.fields F .Ey, U.fields F .Ez⟩ ⟨U.fields F .Bx, U.fields F .By, U.fields F .Bz⟩ a' b'
      = pushVay e ⟨F .Ex, F .Ey, F .Ez⟩ ⟨F .Bx, F .By, F .Bz⟩ a b := by
  have h1 : ∀ x, a' * (U.E * x) = a * x := fun x => by rw [← ha]; ring
  have h2 : ∀ x, b' * (U.B * x) = b * x := fun x => by rw [← hb]; ring
  unfold pushVay
  simp only [Rescaling.fields, h1, h2]

theorem econst_u (q m dt k : ℝ) :
    U.chg * q * (U.tim * dt) / (U.mass * m * (U.len / U.tim * k)) * U.E = q * dt / (m * k) := by
  have h1 := len_ne U
  have h2 := tim_ne U
  have h3 := mass_ne U
  have h4 := U.chg_ne
  unfold Rescaling.E
  rcases eq_or_ne m 0 with h | h
  · simp [h]
  rcases eq_or_ne k 0 with h' | h'
  · simp [h']
  field_simp

theorem bconst_u (q m dt : ℝ) :
    0.5 * (U.chg * q) * (U.tim * dt) / (U.mass * m) * U.B = 0.5 * q * dt / m := by
  have h1 := len_ne U
  have h2 := tim_ne U
  have h3 := mass_ne U
  have h4 := U.chg_ne
  unfold Rescaling.B
  rcases eq_or_ne m 0 with h | h
  · simp [h]
  field_simp

theorem pushP_one (k q m dt : ℝ) (p : Ptcl) :
    Fbpic.pushP (U.len / U.tim * k) (U.chg * q) (U.mass * m) (U.tim * dt) (U.ptcl p).fields (U.ptcl p).push
      = U.push (Fbpic.pushP k q m dt p.fields p.push) := by
  unfold Fbpic.pushP
  have := pushVay_u U p.push.mom p.F _ _ _ _ (econst_u U q m dt k) (bconst_u U q m dt)
  simp only [Ptcl.fields, Rescaling.ptcl, Rescaling.push]
  rw [this]

theorem pushPIoniz_one (k e m dt : ℝ) (p : Ptcl) :
    pushPIoniz (U.len / U.tim * k) (U.chg * e) (U.mass * m) (U.tim * dt) (U.ptcl p).fields (U.ptcl p).push
      = U.push (pushPIoniz k e m dt p.fields p.push) := by
  unfold pushPIoniz
  have hl : (U.ptcl p).push.level = p.push.level := rfl
  rw [hl]
  by_cases h : p.push.level = 0
  · rw [if_pos h, if_pos h]; rfl
  · rw [if_neg h, if_neg h]
    have := pushVay_u U p.push.mom p.F (e * dt / (m * k) * (p.push.level : ℝ)) (0.5 * e * dt / m * (p.push.level : ℝ))
      (U.chg * e * (U.tim * dt) / (U.mass * m * (U.len / U.tim * k)) * (p.push.level : ℝ))
      (0.5 * (U.chg * e) * (U.tim * dt) / (U.mass * m) * (p.push.level : ℝ))
      (by rw [mul_right_comm, econst_u]) (by rw [mul_right_comm, bconst_u])
    simp only [Ptcl.fields, Rescaling.ptcl, Rescaling.push]
    rw [this]

theorem pushPAfterPlane_one (k zp q m dt : ℝ) (p : Ptcl) :
    pushPAfterPlane (U.len / U.tim * k) (U.len * zp) (U.chg * q) (U.mass * m) (U.tim * dt) (U.ptcl p).fields
        (U.ptcl p).push
      = U.push (pushPAfterPlane k zp q m dt p.fields p.push) := by
  unfold pushPAfterPlane
  by_cases h : p.push.z > zp
  · rw [if_pos h, if_pos (show (U.ptcl p).push.z > U.len * zp from (lt_u U _ _).2 h)]
    exact pushP_one U k q m dt p
  · rw [if_neg h, if_neg (show ¬ (U.ptcl p).push.z > U.len * zp from (lt_u U _ _).not.2 h)]
    rfl

theorem plane_position (b : BallisticPlane) (k t : ℝ) :
    (U.plane b).position (U.len / U.tim * k) (U.tim * t) = U.len * b.position k t := by
  have h2 := tim_ne U
  unfold BallisticPlane.position Rescaling.plane
  simp only
  field_simp

theorem pushP_u (t : ℝ) (sp : Species) (p p' : Ptcl) (h : c.pushP t sp p = .ok p') :
    (U.cfg c ext).pushP (U.tim * t) (U.species sp) (U.ptcl p) = .ok (U.ptcl p') := by
  unfold Cfg.pushP at *
  by_cases hq : sp.q = 0
  · rw [if_pos hq] at h
    rw [if_pos (show (U.species sp).q = 0 by show U.chg * sp.q = 0; rw [hq, mul_zero]), ← Except.ok.inj h]
  rw [if_neg hq] at h
  rw [if_neg (show ¬ (U.species sp).q = 0 from mul_ne_zero U.chg_ne hq)]
  cases hpl : sp.plane with
  | some b =>
    have e : (U.species sp).plane = some (U.plane b) := by show sp.plane.map U.plane = _; rw [hpl]; rfl
    rw [hpl] at h
    simp only at h
    rw [e]
    simp only
    by_cases hi : sp.ionizable = true
    · rw [if_pos hi] at h; cases h
    · rw [if_neg hi] at h
      rw [if_neg (show ¬ (U.species sp).ionizable = true from hi), ← Except.ok.inj h]
      refine congrArg Except.ok ?_
      have := pushPAfterPlane_one U c.k.c (b.position c.k.c t) sp.q sp.m c.dt p
      show Ptcl.mk (pushPAfterPlane (U.len / U.tim * c.k.c) ((U.plane b).position (U.len / U.tim * c.k.c) (U.tim * t))
        (U.chg * sp.q) (U.mass * sp.m) (U.tim * c.dt) _ _) _ _ = _
      rw [plane_position, this]; rfl
  | none =>
    have e : (U.species sp).plane = none := by show sp.plane.map U.plane = _; rw [hpl]; rfl
    rw [hpl] at h
    simp only at h
    rw [e]
    simp only
    by_cases hi : sp.ionizable = true
    · rw [if_pos hi] at h
      rw [if_pos (show (U.species sp).ionizable = true from hi), ← Except.ok.inj h]
      refine congrArg Except.ok ?_
      show Ptcl.mk (pushPIoniz (U.len / U.tim * c.k.c) (U.chg * c.eCharge) (U.mass * sp.m) (U.tim * c.dt) _ _) _ _ = _
      rw [pushPIoniz_one]; rfl
    · rw [if_neg hi] at h
      rw [if_neg (show ¬ (U.species sp).ionizable = true from hi), ← Except.ok.inj h]
      refine congrArg Except.ok ?_
      show Ptcl.mk (Fbpic.pushP (U.len / U.tim * c.k.c) (U.chg * sp.q) (U.mass * sp.m) (U.tim * c.dt) _ _) _ _ = _
      rw [pushP_one]; rfl

theorem gather_u (s s' : Sim) (hz : s'.zmin = U.len * s.zmin)
    (hi : s'.interp = fun m => interp U (s.interp m)) (sp : Species) (p p' : Ptcl)
    (h : c.gatherPtcl s sp p = .ok p') :
    (U.cfg c ext).gatherPtcl s' (U.species sp) (U.ptcl p) = .ok (U.ptcl p') := by
  unfold Cfg.gatherPtcl at *
  by_cases hq : sp.q = 0
  · rw [if_pos hq] at h
    rw [if_pos (show (U.species sp).q = 0 by show U.chg * sp.q = 0; rw [hq, mul_zero]), ← Except.ok.inj h]
  rw [if_neg hq] at h
  rw [if_neg (show ¬ (U.species sp).q = 0 from mul_ne_zero U.chg_ne hq)]
  obtain ⟨E, hE, h⟩ := (except_bind_ok _ _ _).1 h
  obtain ⟨B, hB, h⟩ := (except_bind_ok _ _ _).1 h
  have h1 := gatherField_u U c ext sp.shape s.zmin c.rmaxGather _ _ U.E _ _ _ _ hE
  have h2 := gatherField_u U c ext sp.shape s.zmin c.rmaxGather _ _ U.B _ _ _ _ hB
  rw [hz, hi]
  refine (except_bind_ok _ _ _).2 ⟨_, h1, (except_bind_ok _ _ _).2 ⟨_, h2, ?_⟩⟩
  rw [← Except.ok.inj h]
  refine congrArg (fun F => Except.ok (Ptcl.mk (U.push p.push) (U.wgt * p.w) F)) ?_
  funext cp
  cases cp <;> rfl

end Units

end Fbpic.Pic
