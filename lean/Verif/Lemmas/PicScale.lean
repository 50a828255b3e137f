import Verif.Lemmas.Pic

/-!
# Multiplication of all the arrays of a mode by a number

Every operation of the cycle on the grids is linear over ℂ, mode by mode.
-/

namespace Fbpic.Pic

open Transform ExternalField Step

/-- Multiplication of an array. -/
noncomputable def scaleB (l : ℂ) (a : Buf) : Buf := fun i j => l * a i j

noncomputable def scaleV (l : ℂ) (v : GridVec) : GridVec := ⟨scaleB l v.r, scaleB l v.t, scaleB l v.z⟩

/-- Multiplication of all the arrays of an interpolation grid. -/
noncomputable def scaleI (l : ℂ) (i : Interp) : Interp := ⟨scaleV l i.E, scaleV l i.B, scaleV l i.J, scaleB l i.rho⟩

/-- Multiplication of all the values of a spectral cell. -/
noncomputable def scaleC (l : ℂ) (s : SpecCell) : SpecCell where
  Ep := l * s.Ep
  Em := l * s.Em
  Ez := l * s.Ez
  Bp := l * s.Bp
  Bm := l * s.Bm
  Bz := l * s.Bz
  Jp := l * s.Jp
  Jm := l * s.Jm
  Jz := l * s.Jz
  rhoPrev := l * s.rhoPrev
  rhoNext := l * s.rhoNext
  rhoNextZ := l * s.rhoNextZ
  rhoNextXY := l * s.rhoNextXY
  EpPml := l * s.EpPml
  EmPml := l * s.EmPml
  BpPml := l * s.BpPml
  BmPml := l * s.BmPml

/-- Multiplication of all the arrays of a spectral grid. -/
noncomputable def scaleG (l : ℂ) (g : SpecGrid) : SpecGrid := { g with cell := fun iz ir => scaleC l (g.cell iz ir) }

/-! ### Transforms -/

theorem fftAxis0_scale (Nz : ℕ) [NeZero Nz] (inv : Bool) (l : ℂ) (a : Buf) :
    fftAxis0 Nz inv (scaleB l a) = scaleB l (fftAxis0 Nz inv a) := by
  funext i j
  cases inv
  · simp only [fftAxis0, Bool.false_eq_true, if_false, fftZ, scaleB, Finset.mul_sum]
    exact Finset.sum_congr rfl fun _ _ => by ring
  · simp only [fftAxis0, if_true, ifftZ, scaleB, Finset.mul_sum, Finset.sum_div, mul_div_assoc]
    exact Finset.sum_congr rfl fun _ _ => by ring

theorem hankel_scale (Nr : ℕ) (M : ℕ → ℕ → ℝ) (l : ℂ) (a : Buf) :
    Spec.hankel Nr M (scaleB l a) = scaleB l (Spec.hankel Nr M a) := by
  funext i j
  simp only [Spec.hankel, scaleB, Finset.mul_sum]
  exact Finset.sum_congr rfl fun _ _ => by ring

theorem fwd_scale (Nz Nr : ℕ) [NeZero Nz] (M : ℕ → ℕ → ℝ) (l : ℂ) (a out : Buf) :
    fwd Nz Nr M (scaleB l a) (scaleB l out) = scaleB l (fwd Nz Nr M a out) := by
  funext i j
  unfold fwd
  rw [fftAxis0_scale, hankel_scale]
  simp only [scaleB]
  split_ifs <;> rfl

theorem bwd_scale (Nz Nr : ℕ) [NeZero Nz] (M : ℕ → ℕ → ℝ) (l : ℂ) (a out : Buf) :
    bwd Nz Nr M (scaleB l a) (scaleB l out) = scaleB l (bwd Nz Nr M a out) := by
  funext i j
  unfold bwd
  rw [hankel_scale, fftAxis0_scale]
  simp only [scaleB]
  split_ifs <;> rfl

variable (c : Cfg)

section
variable [NeZero c.Nz]

theorem toSpectScal_scale (m : ℕ) (l : ℂ) (a out : Buf) :
    c.toSpectScal m (scaleB l a) (scaleB l out) = scaleB l (c.toSpectScal m a out) := by
  rw [toSpectScal_eq, toSpectScal_eq, fwd_scale]

theorem toInterpScal_scale (m : ℕ) (l : ℂ) (a out : Buf) :
    c.toInterpScal m (scaleB l a) (scaleB l out) = scaleB l (c.toInterpScal m a out) := by
  rw [toInterpScal_eq, toInterpScal_eq, bwd_scale]

theorem toSpectVect_scale (m : ℕ) (l : ℂ) (r t outP outM : Buf) :
    c.toSpectVect m (scaleB l r) (scaleB l t) (scaleB l outP) (scaleB l outM)
      = (scaleB l (c.toSpectVect m r t outP outM).1, scaleB l (c.toSpectVect m r t outP outM).2) := by
  have h : ∀ z : ℂ, (fun i j => 1 / 2 * (scaleB l r i j + z * scaleB l t i j))
      = scaleB l fun i j => 1 / 2 * (r i j + z * t i j) := by
    intro z; funext i j; simp only [scaleB]; ring
  have h' : (fun i j => 1 / 2 * (scaleB l r i j - Complex.I * scaleB l t i j))
      = scaleB l fun i j => 1 / 2 * (r i j - Complex.I * t i j) := by
    funext i j; simp only [scaleB]; ring
  rw [toSpectVect_eq, toSpectVect_eq, h, h', fwd_scale, fwd_scale]

theorem toInterpVect_scale (m : ℕ) (l : ℂ) (p q outR outT : Buf) :
    c.toInterpVect m (scaleB l p) (scaleB l q) (scaleB l outR) (scaleB l outT)
      = (scaleB l (c.toInterpVect m p q outR outT).1, scaleB l (c.toInterpVect m p q outR outT).2) := by
  rw [toInterpVect_eq, toInterpVect_eq]
  have h1 : (fun i j => Spec.hankel c.Nr (c.mats m).invMp (scaleB l p) i j
        + Spec.hankel c.Nr (c.mats m).invMm (scaleB l q) i j)
      = scaleB l fun i j => Spec.hankel c.Nr (c.mats m).invMp p i j
        + Spec.hankel c.Nr (c.mats m).invMm q i j := by
    funext i j
    rw [hankel_scale, hankel_scale]
    simp only [scaleB]; ring
  have h2 : (fun i j => Complex.I * (Spec.hankel c.Nr (c.mats m).invMp (scaleB l p) i j
        - Spec.hankel c.Nr (c.mats m).invMm (scaleB l q) i j))
      = scaleB l fun i j => Complex.I * (Spec.hankel c.Nr (c.mats m).invMp p i j
        - Spec.hankel c.Nr (c.mats m).invMm q i j) := by
    funext i j
    rw [hankel_scale, hankel_scale]
    simp only [scaleB]; ring
  refine Prod.ext ?_ ?_
  · funext i j
    dsimp only
    rw [h1, fftAxis0_scale]
    simp only [scaleB]
    split_ifs <;> rfl
  · funext i j
    dsimp only
    rw [h2, fftAxis0_scale]
    simp only [scaleB]
    split_ifs <;> rfl

theorem spectE_scale (m : ℕ) (l : ℂ) (i : Interp) (g : SpecGrid) :
    c.spectE m (scaleI l i) (scaleG l g) = scaleG l (c.spectE m i g) := by
  have h1 := toSpectScal_scale c m l i.E.z (fun iz ir => (g.cell iz ir).Ez)
  have h2 := toSpectVect_scale c m l i.E.r i.E.t (fun iz ir => (g.cell iz ir).Ep) (fun iz ir => (g.cell iz ir).Em)
  unfold Cfg.spectE
  change ({ g with cell := fun iz ir => { scaleC l (g.cell iz ir) with
    Ez := c.toSpectScal m (scaleB l i.E.z) (scaleB l fun iz ir => (g.cell iz ir).Ez) iz ir
    Ep := (c.toSpectVect m (scaleB l i.E.r) (scaleB l i.E.t) (scaleB l fun iz ir => (g.cell iz ir).Ep)
      (scaleB l fun iz ir => (g.cell iz ir).Em)).1 iz ir
    Em := (c.toSpectVect m (scaleB l i.E.r) (scaleB l i.E.t) (scaleB l fun iz ir => (g.cell iz ir).Ep)
      (scaleB l fun iz ir => (g.cell iz ir).Em)).2 iz ir } } : SpecGrid) = _
  rw [h1, h2]
  rfl

theorem spectB_scale (m : ℕ) (l : ℂ) (i : Interp) (g : SpecGrid) :
    c.spectB m (scaleI l i) (scaleG l g) = scaleG l (c.spectB m i g) := by
  have h1 := toSpectScal_scale c m l i.B.z (fun iz ir => (g.cell iz ir).Bz)
  have h2 := toSpectVect_scale c m l i.B.r i.B.t (fun iz ir => (g.cell iz ir).Bp) (fun iz ir => (g.cell iz ir).Bm)
  unfold Cfg.spectB
  change ({ g with cell := fun iz ir => { scaleC l (g.cell iz ir) with
    Bz := c.toSpectScal m (scaleB l i.B.z) (scaleB l fun iz ir => (g.cell iz ir).Bz) iz ir
    Bp := (c.toSpectVect m (scaleB l i.B.r) (scaleB l i.B.t) (scaleB l fun iz ir => (g.cell iz ir).Bp)
      (scaleB l fun iz ir => (g.cell iz ir).Bm)).1 iz ir
    Bm := (c.toSpectVect m (scaleB l i.B.r) (scaleB l i.B.t) (scaleB l fun iz ir => (g.cell iz ir).Bp)
      (scaleB l fun iz ir => (g.cell iz ir).Bm)).2 iz ir } } : SpecGrid) = _
  rw [h1, h2]
  rfl

theorem spectJ_scale (m : ℕ) (l : ℂ) (i : Interp) (g : SpecGrid) :
    c.spectJ m (scaleI l i) (scaleG l g) = scaleG l (c.spectJ m i g) := by
  have h1 := toSpectScal_scale c m l i.J.z (fun iz ir => (g.cell iz ir).Jz)
  have h2 := toSpectVect_scale c m l i.J.r i.J.t (fun iz ir => (g.cell iz ir).Jp) (fun iz ir => (g.cell iz ir).Jm)
  unfold Cfg.spectJ
  change ({ g with cell := fun iz ir => { scaleC l (g.cell iz ir) with
    Jz := c.toSpectScal m (scaleB l i.J.z) (scaleB l fun iz ir => (g.cell iz ir).Jz) iz ir
    Jp := (c.toSpectVect m (scaleB l i.J.r) (scaleB l i.J.t) (scaleB l fun iz ir => (g.cell iz ir).Jp)
      (scaleB l fun iz ir => (g.cell iz ir).Jm)).1 iz ir
    Jm := (c.toSpectVect m (scaleB l i.J.r) (scaleB l i.J.t) (scaleB l fun iz ir => (g.cell iz ir).Jp)
      (scaleB l fun iz ir => (g.cell iz ir).Jm)).2 iz ir } } : SpecGrid) = _
  rw [h1, h2]
  rfl

theorem spectRho_scale (n : RhoName) (m : ℕ) (l : ℂ) (i : Interp) (g : SpecGrid) :
    c.spectRho n m (scaleI l i) (scaleG l g) = scaleG l (c.spectRho n m i g) := by
  have h0 : (fun iz ir => n.get ((scaleG l g).cell iz ir)) = scaleB l fun iz ir => n.get (g.cell iz ir) := by
    funext iz ir; cases n <;> rfl
  unfold Cfg.spectRho
  rw [h0]
  change ({ g with cell := fun iz ir => n.set (c.toSpectScal m (scaleB l i.rho)
    (scaleB l fun iz ir => n.get (g.cell iz ir)) iz ir) (scaleC l (g.cell iz ir)) } : SpecGrid) = _
  rw [toSpectScal_scale]
  cases n <;> rfl

theorem interpEB_scale (m : ℕ) (l : ℂ) (g : SpecGrid) (i : Interp) :
    c.interpEB m (scaleG l g) (scaleI l i) = scaleI l (c.interpEB m g i) := by
  have h1 := toInterpScal_scale c m l (fun iz ir => (g.cell iz ir).Ez) i.E.z
  have h2 := toInterpVect_scale c m l (fun iz ir => (g.cell iz ir).Ep) (fun iz ir => (g.cell iz ir).Em) i.E.r i.E.t
  have h3 := toInterpScal_scale c m l (fun iz ir => (g.cell iz ir).Bz) i.B.z
  have h4 := toInterpVect_scale c m l (fun iz ir => (g.cell iz ir).Bp) (fun iz ir => (g.cell iz ir).Bm) i.B.r i.B.t
  unfold Cfg.interpEB
  change ({ scaleI l i with
    E := ⟨(c.toInterpVect m (scaleB l fun iz ir => (g.cell iz ir).Ep) (scaleB l fun iz ir => (g.cell iz ir).Em)
        (scaleB l i.E.r) (scaleB l i.E.t)).1, (c.toInterpVect m (scaleB l fun iz ir => (g.cell iz ir).Ep)
        (scaleB l fun iz ir => (g.cell iz ir).Em) (scaleB l i.E.r) (scaleB l i.E.t)).2,
        c.toInterpScal m (scaleB l fun iz ir => (g.cell iz ir).Ez) (scaleB l i.E.z)⟩
    B := ⟨(c.toInterpVect m (scaleB l fun iz ir => (g.cell iz ir).Bp) (scaleB l fun iz ir => (g.cell iz ir).Bm)
        (scaleB l i.B.r) (scaleB l i.B.t)).1, (c.toInterpVect m (scaleB l fun iz ir => (g.cell iz ir).Bp)
        (scaleB l fun iz ir => (g.cell iz ir).Bm) (scaleB l i.B.r) (scaleB l i.B.t)).2,
        c.toInterpScal m (scaleB l fun iz ir => (g.cell iz ir).Bz) (scaleB l i.B.z)⟩ } : Interp) = _
  rw [h1, h2, h3, h4]
  rfl

theorem interpSources_scale (m : ℕ) (l : ℂ) (g : SpecGrid) (i : Interp) :
    c.interpSources m (scaleG l g) (scaleI l i) = scaleI l (c.interpSources m g i) := by
  have h1 := toInterpScal_scale c m l (fun iz ir => (g.cell iz ir).Jz) i.J.z
  have h2 := toInterpVect_scale c m l (fun iz ir => (g.cell iz ir).Jp) (fun iz ir => (g.cell iz ir).Jm) i.J.r i.J.t
  have h3 := toInterpScal_scale c m l (fun iz ir => (g.cell iz ir).rhoPrev) i.rho
  unfold Cfg.interpSources
  change ({ scaleI l i with
    J := ⟨(c.toInterpVect m (scaleB l fun iz ir => (g.cell iz ir).Jp) (scaleB l fun iz ir => (g.cell iz ir).Jm)
        (scaleB l i.J.r) (scaleB l i.J.t)).1, (c.toInterpVect m (scaleB l fun iz ir => (g.cell iz ir).Jp)
        (scaleB l fun iz ir => (g.cell iz ir).Jm) (scaleB l i.J.r) (scaleB l i.J.t)).2,
        c.toInterpScal m (scaleB l fun iz ir => (g.cell iz ir).Jz) (scaleB l i.J.z)⟩
    rho := c.toInterpScal m (scaleB l fun iz ir => (g.cell iz ir).rhoPrev) (scaleB l i.rho) } : Interp) = _
  rw [h1, h2, h3]
  rfl

end

/-! ### Spectral cells -/

theorem specCell_ext (a b : SpecCell) (h1 : a.Ep = b.Ep) (h2 : a.Em = b.Em) (h3 : a.Ez = b.Ez) (h4 : a.Bp = b.Bp)
    (h5 : a.Bm = b.Bm) (h6 : a.Bz = b.Bz) (h7 : a.Jp = b.Jp) (h8 : a.Jm = b.Jm) (h9 : a.Jz = b.Jz)
    (h10 : a.rhoPrev = b.rhoPrev) (h11 : a.rhoNext = b.rhoNext) (h12 : a.rhoNextZ = b.rhoNextZ)
    (h13 : a.rhoNextXY = b.rhoNextXY) (h14 : a.EpPml = b.EpPml) (h15 : a.EmPml = b.EmPml)
    (h16 : a.BpPml = b.BpPml) (h17 : a.BmPml = b.BmPml) : a = b := by
  cases a; cases b; simp only at *; simp only [*]

theorem scale_eq (l : ℂ) (a b : SpecCell) (h1 : a.Ep = l * b.Ep) (h2 : a.Em = l * b.Em) (h3 : a.Ez = l * b.Ez)
    (h4 : a.Bp = l * b.Bp) (h5 : a.Bm = l * b.Bm) (h6 : a.Bz = l * b.Bz) (h7 : a.Jp = l * b.Jp)
    (h8 : a.Jm = l * b.Jm) (h9 : a.Jz = l * b.Jz) (h10 : a.rhoPrev = l * b.rhoPrev)
    (h11 : a.rhoNext = l * b.rhoNext) (h12 : a.rhoNextZ = l * b.rhoNextZ)
    (h13 : a.rhoNextXY = l * b.rhoNextXY) (h14 : a.EpPml = l * b.EpPml) (h15 : a.EmPml = l * b.EmPml)
    (h16 : a.BpPml = l * b.BpPml) (h17 : a.BmPml = l * b.BmPml) : a = scaleC l b :=
  specCell_ext _ _ h1 h2 h3 h4 h5 h6 h7 h8 h9 h10 h11 h12 h13 h14 h15 h16 h17

theorem filterCell_scale (a : ℝ) (f : FilterField) (l : ℂ) (s : SpecCell) :
    filterCell a f (scaleC l s) = scaleC l (filterCell a f s) := by
  cases f <;> apply scale_eq <;> (try simp only [filterCell, scaleC]) <;> (try ring)

theorem filterSpect_scale (f : FilterField) (m : ℕ) (l : ℂ) (g : SpecGrid) :
    c.filterSpect f m (scaleG l g) = scaleG l (c.filterSpect f m g) := by
  unfold Cfg.filterSpect
  cases c.filter with
  | none => rfl
  | some a =>
    refine congrArg (fun cl => ({ g with cell := cl } : SpecGrid)) ?_
    funext iz ir
    show (if iz < g.Nz ∧ ir < g.Nr then filterCell (a.1 iz * a.2 m ir) f (scaleC l (g.cell iz ir))
      else scaleC l (g.cell iz ir)) = scaleC l (if iz < g.Nz ∧ ir < g.Nr then
        filterCell (a.1 iz * a.2 m ir) f (g.cell iz ir) else g.cell iz ir)
    rw [filterCell_scale]
    split_ifs <;> rfl

theorem mapCells_scale (l : ℂ) (f : ℝ → ℝ → SpecCell → SpecCell)
    (hf : ∀ kz kr s, f kz kr (scaleC l s) = scaleC l (f kz kr s)) (g : SpecGrid) :
    (scaleG l g).mapCells f = scaleG l (g.mapCells f) := by
  unfold SpecGrid.mapCells scaleG
  simp only [hf]
  congr 1
  funext iz ir
  split_ifs <;> rfl

theorem crossCorrect_scale (l : ℂ) (kz kr : ℝ) (Dz Dxy : ℂ) (s : SpecCell) :
    crossCorrect kz kr (l * Dz) (l * Dxy) (scaleC l s) = scaleC l (crossCorrect kz kr Dz Dxy s) := by
  unfold crossCorrect
  by_cases h1 : kr = 0 <;> by_cases h2 : kz = 0 <;>
    simp only [h1, h2, ne_eq, not_true, not_false_eq_true, if_true, if_false] <;>
    apply scale_eq <;> (try simp only [scaleC]) <;> (try ring)

theorem correctCurrents_scale (l : ℂ) (cc : CurrentCorrection) (kz kr : ℝ) (ps : PsatdCoefs) (s : SpecCell) :
    Fbpic.correctCurrents cc kz kr ps (scaleC l s) = scaleC l (Fbpic.correctCurrents cc kz kr ps s) := by
  unfold Fbpic.correctCurrents
  cases ps.comov with
  | none =>
    cases cc with
    | curlFree =>
      apply scale_eq <;> (try simp only [curlFreeStandard, scaleC]) <;> (try ring)
    | crossDeposition =>
      simp only [crossDepStandard]
      rw [← crossCorrect_scale]
      congr 1 <;> simp only [scaleC] <;> ring
  | some a =>
    cases cc with
    | curlFree =>
      apply scale_eq <;> (try simp only [curlFreeComoving, scaleC]) <;> (try ring)
    | crossDeposition =>
      simp only [crossDepComoving]
      rw [← crossCorrect_scale]
      congr 1 <;> simp only [scaleC] <;> ring

theorem pushEBWith_scale (l : ℂ) (k : Consts) (kz kr : ℝ) (ps : PsatdCoefs) (u : Bool) (s : SpecCell) :
    pushEBWith k kz kr ps false u (scaleC l s) = scaleC l (pushEBWith k kz kr ps false u s) := by
  unfold pushEBWith
  simp only [Bool.false_eq_true, if_false]
  cases ps.comov with
  | none =>
    cases u <;> apply scale_eq <;> (try simp only [pushEBStandard, Bool.false_eq_true, if_false, if_true, scaleC]) <;>
      (try ring)
  | some a =>
    cases u <;> apply scale_eq <;> (try simp only [pushEBComoving, Bool.false_eq_true, if_false, if_true, scaleC]) <;>
      (try ring)

theorem gridCurrents_scale (l : ℂ) (k : Consts) (cc : CurrentCorrection) (dt : ℝ) (V : Option ℝ) (u : Bool)
    (g : SpecGrid) : (scaleG l g).correctCurrents k cc dt V u = scaleG l (g.correctCurrents k cc dt V u) :=
  mapCells_scale l _ (fun _ _ _ => correctCurrents_scale l _ _ _ _ _) g

theorem gridPush_scale (l : ℂ) (k : Consts) (dt : ℝ) (V : Option ℝ) (u t : Bool) (g : SpecGrid) :
    (scaleG l g).push k dt V u false t = scaleG l (g.push k dt V u false t) := by
  unfold SpecGrid.push
  rw [mapCells_scale l _ (fun _ _ _ => pushEBWith_scale l _ _ _ _ _ _), mapCells_scale]
  intro _ _ s
  simp only [pushRho, scaleC, mul_zero]

theorem divE_scale (l : ℂ) (k : Consts) (g : SpecGrid) :
    (scaleG l g).mapCells (fun kz kr s => match Fbpic.correctDivE k .curlFree kz kr s with
      | .ok s' => s'
      | .error _ => s)
    = scaleG l (g.mapCells fun kz kr s => match Fbpic.correctDivE k .curlFree kz kr s with
      | .ok s' => s'
      | .error _ => s) := by
  refine mapCells_scale l _ (fun kz kr s => ?_) g
  apply scale_eq <;> (try simp only [Fbpic.correctDivE, scaleC]) <;> (try ring)

theorem correctDivE_ok (spect : ℕ → SpecGrid) (t : ℕ → SpecGrid) (lam : ℕ → ℂ) (h : c.correctDivE spect = .ok t) :
    c.correctDivE (fun m => scaleG (lam m) (spect m)) = .ok fun m => scaleG (lam m) (t m) := by
  unfold Cfg.correctDivE at *
  cases hc : c.correction with
  | crossDeposition => rw [hc] at h; cases h
  | curlFree =>
    rw [hc] at h
    simp only at h ⊢
    rw [← Except.ok.inj h]
    refine congrArg _ ?_
    funext m
    unfold onModes
    split_ifs
    · exact divE_scale _ _ _
    · rfl

theorem onModes_scale {α : Type} (Nm : ℕ) (f f' : ℕ → α → α) (sc : ℂ → α → α) (lam : ℕ → ℂ) (a : ℕ → α)
    (h : ∀ m x, f' m (sc (lam m) x) = sc (lam m) (f m x)) :
    onModes Nm f' (fun m => sc (lam m) (a m)) = fun m => sc (lam m) (onModes Nm f a m) := by
  funext m
  unfold onModes
  split_ifs
  · rw [h]
  · rfl

/-! ### Two runs whose grids are proportional -/

/-- The second run: the same grid (shifted by `d`), the arrays of mode `m` multiplied by `lam m`, and related
species. -/
structure Scaled (lam : ℕ → ℂ) (d : ℝ) (RS : List Species → List Species → Prop) (s s' : Sim) : Prop where
  zmin : s'.zmin = s.zmin + d
  zmax : s'.zmax = s.zmax + d
  time : s'.time = s.time
  iteration : s'.iteration = s.iteration
  species : RS s.species s'.species
  interp : s'.interp = fun m => scaleI (lam m) (s.interp m)
  spect : s'.spect = fun m => scaleG (lam m) (s.spect m)

/-- What may be different in the second run. -/
def Cfg.alt (c : Cfg) (eCharge : ℝ) (nthreads : ℕ) (ext : List Ext) : Cfg :=
  { c with eCharge := eCharge, nthreads := nthreads, ext := ext }

instance [h : NeZero c.Nz] (e : ℝ) (n : ℕ) (x : List Ext) : NeZero (c.alt e n x).Nz := h

/-- The conditions on the particles under which the runs stay proportional. -/
structure PtclSim (c c' : Cfg) [NeZero c.Nz] [NeZero c'.Nz] (ok : Seen → Prop) (lam : ℕ → ℂ) (d : ℝ)
    (RS : List Species → List Species → Prop) : Prop where
  wrap : ∀ s s', Scaled lam d RS s s' → ∀ t, c.wrapAll s = .ok t →
    ∃ sps, c'.wrapAll s' = .ok { s' with species := sps } ∧ RS t.species sps
  dep : ∀ f s s', Scaled lam d RS s s' → (∀ p ∈ s.record.seen, ok p) → c.depOk f s →
    c'.depOk f s' ∧ ∀ m, c'.depArr f s' m = scaleB (lam m) (c.depArr f s m)
  gather : ∀ s s', Scaled lam d RS s s' → (∀ p ∈ s.record.seen, ok p) → ∀ t, c.gatherAll s = .ok t →
    ∃ sps, c'.gatherAll s' = .ok { s'.record with species := sps } ∧ RS t.species sps
  exts : ∀ s s', Scaled lam d RS s s' → RS (c.applyExts s).species (c'.applyExts s').species
  pushP : ∀ s s', Scaled lam d RS s s' → ∀ t, c.pushPAll s = .ok t →
    ∃ sps, c'.pushPAll s' = .ok { s' with species := sps } ∧ RS t.species sps
  pushX : ∀ dt a b s s', Scaled lam d RS s s' → RS (c.pushX dt a a b s).species (c'.pushX dt a a b s').species

theorem mapPtclM_rest (f : Species → Ptcl → Except PyErr Ptcl) (s t : Sim) (h : s.mapPtclM f = .ok t) :
    t = { s with species := t.species } := by
  obtain ⟨sps, -, rfl⟩ := (mapPtclM_ok _ _ _).1 h
  rfl

theorem PtclSim.simulates {c : Cfg} [NeZero c.Nz] {e : ℝ} {n : ℕ} {x : List Ext} {ok : Seen → Prop}
    {lam : ℕ → ℂ} {d : ℝ} {RS : List Species → List Species → Prop} (hn : 0 < c.nthreads) (hn' : 0 < n)
    (h : PtclSim c (c.alt e n x) ok lam d RS) : Simulates c (c.alt e n x) ok (Scaled lam d RS) where
  period := rfl
  correction := rfl
  dt := rfl
  iteration := fun _ _ hR => hR.iteration
  wrap := by
    intro s s' hR t ht _
    obtain ⟨sps, h1, h2⟩ := h.wrap s s' hR t ht
    have := mapPtclM_rest _ _ _ ht
    rw [this]
    exact ⟨_, h1, hR.zmin, hR.zmax, hR.time, hR.iteration, h2, hR.interp, hR.spect⟩
  rho := by
    intro nm s s' hR t ht hs
    obtain ⟨h1, rfl⟩ := (depositRho_ok c hn nm s t).1 ht
    obtain ⟨h2, h3⟩ := h.dep .rho s s' hR hs h1
    refine ⟨_, (depositRho_ok (c.alt e n x) hn' nm s' _).2 ⟨h2, rfl⟩, hR.zmin, hR.zmax, hR.time, hR.iteration,
      hR.species, ?_, ?_⟩
    · unfold Cfg.withRho
      dsimp only
      rw [hR.interp]
      refine onModes_scale _ _ _ scaleI _ _ fun m i => ?_
      rw [h3]; rfl
    · unfold Cfg.withRho
      dsimp only
      rw [hR.spect, hR.interp]
      refine onModes_scale _ _ _ scaleG _ _ fun m g => ?_
      have h4 : onModes (c.alt e n x).Nm (fun m i => { i with rho := (c.alt e n x).depArr .rho s' m })
          (fun m => scaleI (lam m) (s.interp m)) = fun m => scaleI (lam m)
          (onModes c.Nm (fun m i => { i with rho := c.depArr .rho s m }) s.interp m) := by
        refine onModes_scale _ _ _ scaleI _ _ fun m i => ?_
        rw [h3]; rfl
      rw [h4]
      show c.filterSpect _ m (c.spectRho nm m _ _) = _
      rw [spectRho_scale, filterSpect_scale]
  J := by
    intro s s' hR t ht hs
    obtain ⟨⟨h1, h1', h1''⟩, rfl⟩ := (depositJ_ok c hn s t).1 ht
    obtain ⟨h2, h3⟩ := h.dep .Jr s s' hR hs h1
    obtain ⟨h2', h3'⟩ := h.dep .Jt s s' hR hs h1'
    obtain ⟨h2'', h3''⟩ := h.dep .Jz s s' hR hs h1''
    have h4 : onModes (c.alt e n x).Nm (fun m i => { i with J := ⟨(c.alt e n x).depArr .Jr s' m,
          (c.alt e n x).depArr .Jt s' m, (c.alt e n x).depArr .Jz s' m⟩ })
        (fun m => scaleI (lam m) (s.interp m)) = fun m => scaleI (lam m)
        (onModes c.Nm (fun m i => { i with J := ⟨c.depArr .Jr s m, c.depArr .Jt s m, c.depArr .Jz s m⟩ })
          s.interp m) := by
      refine onModes_scale _ _ _ scaleI _ _ fun m i => ?_
      rw [h3, h3', h3'']; rfl
    refine ⟨_, (depositJ_ok (c.alt e n x) hn' s' _).2 ⟨⟨h2, h2', h2''⟩, rfl⟩, hR.zmin, hR.zmax, hR.time,
      hR.iteration, hR.species, ?_, ?_⟩
    · unfold Cfg.withJ
      dsimp only
      rw [hR.interp, h4]
    · unfold Cfg.withJ
      dsimp only
      rw [hR.spect, hR.interp]
      refine onModes_scale _ _ _ scaleG _ _ fun m g => ?_
      rw [h4]
      show c.filterSpect _ m (c.spectJ m _ _) = _
      rw [spectJ_scale, filterSpect_scale]
  gather := by
    intro s s' hR t ht hs
    have ht' := mapPtclM_rest _ _ _ ht
    have hs' : ∀ p ∈ s.record.seen, ok p := by rw [ht'] at hs; exact hs
    obtain ⟨sps, h1, h2⟩ := h.gather s s' hR hs' t ht
    rw [ht']
    exact ⟨_, h1, hR.zmin, hR.zmax, hR.time, hR.iteration, h2, hR.interp, hR.spect⟩
  exts := fun s s' hR => ⟨hR.zmin, hR.zmax, hR.time, hR.iteration, h.exts s s' hR, hR.interp, hR.spect⟩
  pushP := by
    intro s s' hR t ht _
    obtain ⟨sps, h1, h2⟩ := h.pushP s s' hR t ht
    have := mapPtclM_rest _ _ _ ht
    rw [this]
    exact ⟨_, h1, hR.zmin, hR.zmax, hR.time, hR.iteration, h2, hR.interp, hR.spect⟩
  pushX := fun dt a b s s' hR =>
    ⟨hR.zmin, hR.zmax, hR.time, hR.iteration, h.pushX dt a b s s' hR, hR.interp, hR.spect⟩
  shift := by
    intro dt s s' hR
    have hg : (c.alt e n x).galilean = c.galilean := rfl
    have hV : (c.alt e n x).V = c.V := rfl
    unfold Cfg.shiftGalilean
    rw [hg, hV]
    by_cases hc : c.galilean = true
    · rw [if_pos hc, if_pos hc]
      refine ⟨?_, ?_, hR.time, hR.iteration, hR.species, hR.interp, hR.spect⟩
      · show s'.zmin + _ = s.zmin + _ + d
        rw [hR.zmin]; ring
      · show s'.zmax + _ = s.zmax + _ + d
        rw [hR.zmax]; ring
    · rw [if_neg hc, if_neg hc]; exact hR
  iterEnd := by
    intro o s s' hR t ht _
    unfold Cfg.iterEnd at ht
    obtain ⟨sp, hsp, ht2⟩ := (except_bind_ok _ _ _).1 ht
    clear ht
    have h1 : (if o.correctCurrents = true then onModes c.Nm (fun _ g => g.correctCurrents c.k c.correction c.dt c.V
        c.galilean) s'.spect else s'.spect) = fun m => scaleG (lam m) ((if o.correctCurrents = true then onModes c.Nm
        (fun _ g => g.correctCurrents c.k c.correction c.dt c.V c.galilean) s.spect else s.spect) m) := by
      rw [hR.spect]
      split_ifs
      · exact onModes_scale _ _ _ scaleG _ _ fun m g => gridCurrents_scale _ _ _ _ _ _ _
      · rfl
    generalize (if o.correctCurrents = true then onModes c.Nm (fun _ g => g.correctCurrents c.k c.correction c.dt c.V
        c.galilean) s.spect else s.spect) = A at *
    have h2 : onModes c.Nm (fun _ g => g.push c.k c.dt c.V c.galilean false o.useTrueRho)
        (fun m => scaleG (lam m) (A m)) = fun m => scaleG (lam m) (onModes c.Nm
        (fun _ g => g.push c.k c.dt c.V c.galilean false o.useTrueRho) A m) :=
      onModes_scale _ _ _ scaleG _ _ fun m g => gridPush_scale _ _ _ _ _ _ _
    generalize onModes c.Nm (fun _ g => g.push c.k c.dt c.V c.galilean false o.useTrueRho) A = A' at *
    have h3 : (if o.correctDivE = true then c.correctDivE (fun m => scaleG (lam m) (A' m))
        else pure fun m => scaleG (lam m) (A' m)) = .ok fun m => scaleG (lam m) (sp m) := by
      by_cases hd : o.correctDivE = true
      · rw [if_pos hd] at hsp ⊢
        exact correctDivE_ok c A' sp lam hsp
      · rw [if_neg hd] at hsp ⊢
        rw [Except.ok.inj hsp]; rfl
    have h4 : (c.alt e n x).iterEnd o s' = .ok { s' with
        spect := fun m => scaleG (lam m) (sp m)
        interp := onModes c.Nm (fun m i => c.interpEB m (scaleG (lam m) (sp m)) i) s'.interp
        time := s'.time + c.dt
        iteration := s'.iteration + 1 } := by
      unfold Cfg.iterEnd
      refine (except_bind_ok _ _ _).2 ⟨fun m => scaleG (lam m) (sp m), ?_, rfl⟩
      change (fun X : ℕ → SpecGrid => (if o.correctDivE = true then c.correctDivE X else pure X :
        Except PyErr (ℕ → SpecGrid))) (onModes c.Nm (fun _ g => g.push c.k c.dt c.V c.galilean false o.useTrueRho)
          (if o.correctCurrents = true then onModes c.Nm (fun _ g => g.correctCurrents c.k c.correction c.dt c.V
            c.galilean) s'.spect else s'.spect)) = _
      rw [h1, h2]
      exact h3
    rw [← Except.ok.inj ht2]
    refine ⟨_, h4, hR.zmin, hR.zmax, ?_, ?_, hR.species, ?_, rfl⟩
    · show s'.time + _ = _; rw [hR.time]
    · show s'.iteration + _ = _; rw [hR.iteration]
    · show onModes c.Nm _ s'.interp = _
      rw [hR.interp]
      exact onModes_scale _ _ _ scaleI _ _ fun m i => interpEB_scale _ _ _ _ _
  start := by
    intro s s' hR
    refine ⟨hR.zmin, hR.zmax, hR.time, hR.iteration, hR.species, hR.interp, ?_⟩
    show onModes c.Nm (fun m g => c.spectB m (s'.interp m) (c.spectE m (s'.interp m) g)) s'.spect = _
    rw [hR.spect, hR.interp]
    refine onModes_scale _ _ _ scaleG _ _ fun m g => ?_
    rw [spectE_scale, spectB_scale]
  finish := by
    intro s s' hR
    refine ⟨hR.zmin, hR.zmax, hR.time, hR.iteration, hR.species, ?_, hR.spect⟩
    show onModes c.Nm (fun m i => c.interpSources m (s'.spect m) i) s'.interp = _
    rw [hR.spect, hR.interp]
    refine onModes_scale _ _ _ scaleI _ _ fun m g => ?_
    rw [interpSources_scale]

end Fbpic.Pic
