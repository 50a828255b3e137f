import Verif.Spec.PicSplit
import Verif.Lemmas.PicGaussRun

/-!
# Lemmas: what a run depends on
-/

namespace Fbpic.Pic

open Transform ExternalField Step
open Spec (SamePtcl SameSpecies' SameStored SameSeen SameResult SolverOk TransOk EqOn hankel dropLow)

variable (c : Cfg)

/-! ### Spectral cells -/

/-- The fields agree; where `D` holds, only those that can be seen. -/
structure CellEq (D : Prop) (x y : SpecCell) : Prop where
  Em : y.Em = x.Em
  Bm : y.Bm = x.Bm
  Ep : ¬ D → y.Ep = x.Ep
  Ez : ¬ D → y.Ez = x.Ez
  Bp : ¬ D → y.Bp = x.Bp
  Bz : ¬ D → y.Bz = x.Bz

/-- The same current. -/
structure CellJ (x y : SpecCell) : Prop where
  p : y.Jp = x.Jp
  m : y.Jm = x.Jm
  z : y.Jz = x.Jz

theorem correct_cell {D : Prop} (cr : CurrentCorrection) (kz kr : ℝ) (ps : PsatdCoefs) {x y : SpecCell}
    (h : CellEq D x y) (hj : CellJ x y) (h1 : y.rhoPrev = x.rhoPrev) (h2 : y.rhoNext = x.rhoNext)
    (h3 : cr = .crossDeposition → y.rhoNextZ = x.rhoNextZ ∧ y.rhoNextXY = x.rhoNextXY) :
    CellEq D (correctCurrents cr kz kr ps x) (correctCurrents cr kz kr ps y) ∧
    CellJ (correctCurrents cr kz kr ps x) (correctCurrents cr kz kr ps y) ∧
    (correctCurrents cr kz kr ps y).rhoPrev = (correctCurrents cr kz kr ps x).rhoPrev ∧
    (correctCurrents cr kz kr ps y).rhoNext = (correctCurrents cr kz kr ps x).rhoNext := by
  obtain ⟨a1, a2, a3, a4, a5, a6⟩ := h
  obtain ⟨j1, j2, j3⟩ := hj
  unfold correctCurrents
  cases ps.comov <;> cases cr <;>
    simp only [curlFreeStandard, curlFreeComoving, crossDepStandard, crossDepComoving, crossCorrect]
  · exact ⟨⟨a1, a2, a3, a4, a5, a6⟩, ⟨by simp only [j1, j2, j3, h1, h2], by simp only [j1, j2, j3, h1, h2],
      by simp only [j1, j2, j3, h1, h2]⟩, h1, h2⟩
  · obtain ⟨h3, h4⟩ := h3 rfl
    refine ⟨⟨?_, ?_, ?_, ?_, ?_, ?_⟩, ⟨?_, ?_, ?_⟩, ?_, ?_⟩ <;> split_ifs <;>
      first | assumption | simp only [j1, j2, j3, h1, h2, h3, h4]
  · exact ⟨⟨a1, a2, a3, a4, a5, a6⟩, ⟨by simp only [j1, j2, j3, h1, h2], by simp only [j1, j2, j3, h1, h2],
      by simp only [j1, j2, j3, h1, h2]⟩, h1, h2⟩
  · obtain ⟨h3, h4⟩ := h3 rfl
    refine ⟨⟨?_, ?_, ?_, ?_, ?_, ?_⟩, ⟨?_, ?_, ?_⟩, ?_, ?_⟩ <;> split_ifs <;>
      first | assumption | simp only [j1, j2, j3, h1, h2, h3, h4]

theorem push_cellEq {D : Prop} (k : Consts) (kz kr : ℝ) (hD : D → kr = 0) (ps : PsatdCoefs) (tr : Bool) {x y : SpecCell}
    (h : CellEq D x y) (hj : CellJ x y) (h1 : y.rhoPrev = x.rhoPrev) (h2 : y.rhoNext = x.rhoNext) :
    CellEq D (pushRho (pushEBWith k kz kr ps false tr x)) (pushRho (pushEBWith k kz kr ps false tr y)) ∧
    CellJ (pushRho (pushEBWith k kz kr ps false tr x)) (pushRho (pushEBWith k kz kr ps false tr y)) ∧
    (pushRho (pushEBWith k kz kr ps false tr y)).rhoPrev = (pushRho (pushEBWith k kz kr ps false tr x)).rhoPrev := by
  obtain ⟨a1, a2, a3, a4, a5, a6⟩ := h
  obtain ⟨j1, j2, j3⟩ := hj
  unfold pushEBWith pushRho
  by_cases hd : D
  · have hk := hD hd
    subst hk
    cases ps.comov <;> refine ⟨⟨?_, ?_, fun h => absurd hd h, fun h => absurd hd h, fun h => absurd hd h,
        fun h => absurd hd h⟩, ⟨?_, ?_, ?_⟩, ?_⟩ <;>
      simp [pushEBStandard, pushEBComoving, j1, j2, j3, h2, a1, a2]
  · have b3 := a3 hd
    have b4 := a4 hd
    have b5 := a5 hd
    have b6 := a6 hd
    cases ps.comov <;> refine ⟨⟨?_, ?_, fun _ => ?_, fun _ => ?_, fun _ => ?_, fun _ => ?_⟩, ⟨?_, ?_, ?_⟩, ?_⟩ <;>
      simp only [pushEBStandard, pushEBComoving, j1, j2, j3, h1, h2, a1, a2, b3, b4, b5, b6, Bool.false_eq_true,
        if_false]

theorem divE_cell {D : Prop} (k : Consts) (kz kr : ℝ) (hD : D → kr = 0) {x y : SpecCell}
    (h : CellEq D x y) (hj : CellJ x y) (h1 : y.rhoPrev = x.rhoPrev) :
    ∃ x' y', Fbpic.correctDivE k .curlFree kz kr x = .ok x' ∧ Fbpic.correctDivE k .curlFree kz kr y = .ok y' ∧
      CellEq D x' y' ∧ CellJ x' y' ∧ y'.rhoPrev = x'.rhoPrev := by
  obtain ⟨a1, a2, a3, a4, a5, a6⟩ := h
  refine ⟨_, _, rfl, rfl, ?_, ⟨hj.p, hj.m, hj.z⟩, h1⟩
  by_cases hd : D
  · have hk := hD hd
    subst hk
    refine ⟨?_, a2, fun h => absurd hd h, fun h => absurd hd h, fun h => absurd hd h, fun h => absurd hd h⟩
    simp [a1]
  · refine ⟨?_, a2, fun _ => ?_, fun _ => ?_, a5, a6⟩ <;> simp only [a1, a3 hd, a4 hd, h1]

/-! ### Transforms that do not see some cells -/

theorem bwd_blind (Nz Nr : ℕ) [NeZero Nz] (M : ℕ → ℕ → ℝ) (a b out : Buf)
    (h : ∀ iz < Nz, ∀ ir < Nr, b iz ir = a iz ir ∨ ∀ j < Nr, M ir j = 0) : bwd Nz Nr M b out = bwd Nz Nr M a out := by
  funext iz ir
  unfold bwd
  by_cases hh : iz < Nz ∧ ir < Nr
  swap
  · rw [if_neg hh, if_neg hh]
  rw [if_pos hh, if_pos hh]
  refine fftAxis0_congr Nz Nr true ?_ iz ir hh.1 hh.2
  intro i j hi hj
  unfold hankel
  refine Finset.sum_congr rfl fun l hl => ?_
  rcases h i hi l (Finset.mem_range.1 hl) with e | e
  · rw [e]
  · rw [e j hj]; simp

variable [NeZero c.Nz]

/-- The inverse transforms do not see the cells where `D` holds. -/
def Cfg.Blind (D : ℕ → ℕ → Prop) : Prop := ∀ m < c.Nm, ∀ ir < c.Nr, D m ir → ∀ j < c.Nr,
  (c.mats m).invM0 ir j = 0 ∧ (c.mats m).invMp ir j = 0

theorem interpScal_blind {D : ℕ → ℕ → Prop} (hD : c.Blind D) {m : ℕ} (hm : m < c.Nm) (a b out : Buf)
    (h : ∀ iz < c.Nz, ∀ ir < c.Nr, ¬ D m ir → b iz ir = a iz ir) :
    c.toInterpScal m b out = c.toInterpScal m a out := by
  rw [toInterpScal_eq, toInterpScal_eq]
  refine bwd_blind _ _ _ _ _ _ fun iz hz ir hr => ?_
  by_cases hd : D m ir
  · exact Or.inr fun j hj => (hD m hm ir hr hd j hj).1
  · exact Or.inl (h iz hz ir hr hd)

theorem interpVect_blind {D : ℕ → ℕ → Prop} (hD : c.Blind D) {m : ℕ} (hm : m < c.Nm) (a b a' b' o o' : Buf)
    (h : ∀ iz < c.Nz, ∀ ir < c.Nr, ¬ D m ir → a' iz ir = a iz ir)
    (h' : ∀ iz < c.Nz, ∀ ir < c.Nr, b' iz ir = b iz ir) :
    c.toInterpVect m a' b' o o' = c.toInterpVect m a b o o' := by
  have e1 : EqOn c.Nz c.Nr (hankel c.Nr (c.mats m).invMp a') (hankel c.Nr (c.mats m).invMp a) := by
    intro i j hi hj
    unfold hankel
    refine Finset.sum_congr rfl fun l hl => ?_
    by_cases hd : D m l
    · rw [(hD m hm l (Finset.mem_range.1 hl) hd j hj).2]; simp
    · rw [h i hi l (Finset.mem_range.1 hl) hd]
  have e2 : EqOn c.Nz c.Nr (hankel c.Nr (c.mats m).invMm b') (hankel c.Nr (c.mats m).invMm b) :=
    hankel_congr _ _ _ fun i j hi hj => h' i hi j hj
  rw [toInterpVect_eq, toInterpVect_eq]
  refine Prod.ext ?_ ?_
  · funext iz ir
    dsimp only
    by_cases hh : iz < c.Nz ∧ ir < c.Nr
    swap
    · rw [if_neg hh, if_neg hh]
    rw [if_pos hh, if_pos hh]
    exact fftAxis0_congr c.Nz c.Nr true (fun i j hi hj => by rw [e1 i j hi hj, e2 i j hi hj]) iz ir hh.1 hh.2
  · funext iz ir
    dsimp only
    by_cases hh : iz < c.Nz ∧ ir < c.Nr
    swap
    · rw [if_neg hh, if_neg hh]
    rw [if_pos hh, if_pos hh]
    exact fftAxis0_congr c.Nz c.Nr true (fun i j hi hj => by rw [e1 i j hi hj, e2 i j hi hj]) iz ir hh.1 hh.2

/-! ### The relation -/

/-- Two states in the middle of a run. The charge densities in `A` agree, the currents if `j` holds, the fields on the
particles if `f` holds. -/
structure Twin (D : ℕ → ℕ → Prop) (f : Prop) (A : RhoName → Prop) (j r : Prop) (s s' : Sim) : Prop where
  zmin : s'.zmin = s.zmin
  zmax : s'.zmax = s.zmax
  time : s'.time = s.time
  iteration : s'.iteration = s.iteration
  species : List.Forall₂ (SameSpecies' f) s.species s'.species
  E : ∀ m < c.Nm, (s'.interp m).E = (s.interp m).E
  B : ∀ m < c.Nm, (s'.interp m).B = (s.interp m).B
  sized : c.Sized s
  sized' : c.Sized s'
  kz : ∀ m < c.Nm, (s'.spect m).kz = (s.spect m).kz
  kr : ∀ m < c.Nm, (s'.spect m).kr = (s.spect m).kr
  em : ∀ m < c.Nm, ∀ iz < c.Nz, ∀ ir < c.Nr, CellEq (D m ir) ((s.spect m).cell iz ir) ((s'.spect m).cell iz ir)
  rho : ∀ n, A n → ∀ m < c.Nm, ∀ iz < c.Nz, ∀ ir < c.Nr,
    n.get ((s'.spect m).cell iz ir) = n.get ((s.spect m).cell iz ir)
  J : j → (∀ m < c.Nm, ∀ iz < c.Nz, ∀ ir < c.Nr, CellJ ((s.spect m).cell iz ir) ((s'.spect m).cell iz ir)) ∧
    ∀ m < c.Nm, (s'.interp m).J = (s.interp m).J
  irho : r → ∀ m < c.Nm, (s'.interp m).rho = (s.interp m).rho

theorem forall₂_diamond {α β γ δ : Type} {R : α → β → Prop} {S : α → γ → Prop} {S' : β → δ → Prop} {T : γ → δ → Prop}
    (H : ∀ a b c, R a b → S a c → ∃ d, S' b d ∧ T c d) {l : List α} {l' : List β} {m : List γ}
    (h : List.Forall₂ R l l') (h' : List.Forall₂ S l m) : ∃ m', List.Forall₂ S' l' m' ∧ List.Forall₂ T m m' := by
  induction h generalizing m with
  | nil => cases h'; exact ⟨[], .nil, .nil⟩
  | cons hab _ ih =>
    cases h' with
    | cons hac h' =>
      obtain ⟨d, h1, h2⟩ := H _ _ _ hab hac
      obtain ⟨m', h3, h4⟩ := ih h'
      exact ⟨d :: m', .cons h1 h3, .cons h2 h4⟩

section

variable {c} {D : ℕ → ℕ → Prop} {f f' : Prop} {A A' : RhoName → Prop} {j j' r r' : Prop} {s s' t t' : Sim}

theorem Twin.mono (h : Twin c D f A j r s s') (hA : ∀ n, A' n → A n) (hj : j' → j) (hr : r' → r) :
    Twin c D f A' j' r' s s' :=
  { h with rho := fun n hn => h.rho n (hA n hn), J := fun x => h.J (hj x), irho := fun x => h.irho (hr x) }

theorem SamePtcl.symm {p : Prop} {a b : Ptcl} (h : SamePtcl p a b) : SamePtcl p b a :=
  ⟨h.push.symm, h.w.symm, fun x => (h.F x).symm⟩

theorem SameSpecies'.symm {a b : Species} (h : SameSpecies' f a b) : SameSpecies' f b a :=
  ⟨h.q.symm, h.m.symm, h.shape.symm, h.tracer.symm, h.ionizable.symm, h.plane.symm, by
    rw [h.q]
    exact h.ptcl.flip.imp fun _ _ h => SamePtcl.symm h⟩

theorem Twin.symm (h : Twin c D f A j r s s') : Twin c D f A j r s' s where
  zmin := h.zmin.symm
  zmax := h.zmax.symm
  time := h.time.symm
  iteration := h.iteration.symm
  species := h.species.flip.imp fun _ _ h => SameSpecies'.symm h
  E := fun m hm => (h.E m hm).symm
  B := fun m hm => (h.B m hm).symm
  sized := h.sized'
  sized' := h.sized
  kz := fun m hm => (h.kz m hm).symm
  kr := fun m hm => (h.kr m hm).symm
  em := fun m hm iz hz ir hr =>
    let e := h.em m hm iz hz ir hr
    ⟨e.Em.symm, e.Bm.symm, fun d => (e.Ep d).symm, fun d => (e.Ez d).symm, fun d => (e.Bp d).symm, fun d => (e.Bz d).symm⟩
  rho := fun n hn m hm iz hz ir hr => (h.rho n hn m hm iz hz ir hr).symm
  J := fun x => ⟨fun m hm iz hz ir hr =>
    let e := (h.J x).1 m hm iz hz ir hr
    ⟨e.p.symm, e.m.symm, e.z.symm⟩, fun m hm => ((h.J x).2 m hm).symm⟩
  irho := fun x m hm => (h.irho x m hm).symm

/-- Other species, nothing else. -/
theorem Twin.withSpecies (h : Twin c D f A j r s s') {l l' : List Species} (hl : List.Forall₂ (SameSpecies' f') l l') :
    Twin c D f' A j r { s with species := l } { s' with species := l' } :=
  { h with species := hl }

theorem Twin.mapM (h : Twin c D f A j r s s') (g g' : Species → Ptcl → Except PyErr Ptcl)
    (hg : ∀ sp sp' p p' q, SameSpecies' f sp sp' → SamePtcl (f ∧ sp.q ≠ 0) p p' → g sp p = .ok q →
      ∃ q', g' sp' p' = .ok q' ∧ SamePtcl (f' ∧ sp.q ≠ 0) q q')
    (ht : s.mapPtclM g = .ok t) : ∃ t', s'.mapPtclM g' = .ok t' ∧ Twin c D f' A j r t t' := by
  obtain ⟨sps, hsp, rfl⟩ := (mapPtclM_ok _ _ _).1 ht
  obtain ⟨sps', h1, h2⟩ := forall₂_diamond
    (S' := SpRel fun sp p p' => g' sp p = .ok p') (T := SameSpecies' f') (fun sp sp' x hss hx => by
      obtain ⟨l, e1, e2⟩ := forall₂_diamond (S' := fun p p' => g' sp' p = .ok p')
        (T := SamePtcl (f' ∧ sp.q ≠ 0)) (fun p p' q hp hq => hg sp sp' p p' q hss hp hq) hss.ptcl hx.ptcl
      refine ⟨{ sp' with ptcl := l }, ⟨rfl, rfl, rfl, rfl, rfl, rfl, e1⟩, hss.q.trans hx.q.symm, hss.m.trans hx.m.symm,
        hss.shape.trans hx.shape.symm, hss.tracer.trans hx.tracer.symm, hss.ionizable.trans hx.ionizable.symm,
        hss.plane.trans hx.plane.symm, ?_⟩
      rw [hx.q]
      exact e2) h.species hsp
  exact ⟨_, (mapPtclM_ok _ _ _).2 ⟨sps', h1, rfl⟩, h.withSpecies h2⟩

theorem Twin.record (h : Twin c D f A j r s s') : Twin c D f A j r s.record s'.record := { h with }

theorem Twin.wrap (h : Twin c D f A j r s s') (ht : c.wrapAll s = .ok t) :
    ∃ t', c.wrapAll s' = .ok t' ∧ Twin c D f A j r t t' := by
  refine h.mapM _ _ ?_ ht
  intro sp sp' p p' q hs hp hq
  unfold Cfg.wrap at hq ⊢
  rw [h.zmin, h.zmax, hp.push]
  split at hq
  · cases hq
    exact ⟨_, rfl, rfl, hp.w, hp.F⟩
  · cases hq

theorem Twin.gather (h : Twin c D f A j r s s') (ht : c.gatherAll s = .ok t) :
    ∃ t', c.gatherAll s' = .ok t' ∧ Twin c D True A j r t t' := by
  refine h.record.mapM _ _ ?_ ht
  intro sp sp' p p' q hs hp hq
  unfold Cfg.gatherPtcl at hq ⊢
  have eE : ((List.range c.Nm).map fun m => (s'.interp m).E) = (List.range c.Nm).map fun m => (s.interp m).E :=
    List.map_congr_left fun m hm => h.E m (List.mem_range.1 hm)
  have eB : ((List.range c.Nm).map fun m => (s'.interp m).B) = (List.range c.Nm).map fun m => (s.interp m).B :=
    List.map_congr_left fun m hm => h.B m (List.mem_range.1 hm)
  rw [hs.q, hs.shape, hp.push, h.zmin, eE, eB]
  by_cases h0 : sp.q = 0
  · rw [if_pos h0] at hq ⊢
    cases hq
    exact ⟨_, rfl, hp.push, hp.w, fun x => absurd h0 x.2⟩
  · rw [if_neg h0] at hq ⊢
    obtain ⟨E, hE, hq⟩ := (except_bind_ok _ _ _).1 hq
    obtain ⟨B, hB, hq⟩ := (except_bind_ok _ _ _).1 hq
    cases hq
    refine ⟨_, (except_bind_ok _ _ _).2 ⟨E, hE, (except_bind_ok _ _ _).2 ⟨B, hB, rfl⟩⟩, rfl, hp.w,
      fun _ => rfl⟩

theorem foldExt_same {p : Prop} (L : List Ext) (tm : ℝ) (id : ℕ) : ∀ a b : Ptcl, SamePtcl p a b →
    SamePtcl p (L.foldl (fun p e => applyExt e tm id p) a) (L.foldl (fun p e => applyExt e tm id p) b) := by
  induction L with
  | nil => intro a b h; exact h
  | cons e L ih =>
    intro a b h
    refine ih _ _ ?_
    show SamePtcl p (applyExt e tm id a) (applyExt e tm id b)
    unfold applyExt
    split_ifs
    · refine ⟨h.push, h.w, fun x => ?_⟩
      dsimp only
      rw [h.push, h.F x]
    · exact h

theorem Twin.exts (h : Twin c D f A j r s s') : Twin c D f A j r (c.applyExts s) (c.applyExts s') := by
  refine h.withSpecies ?_
  rw [List.forall₂_iff_get]
  have hl := h.species.length_eq
  refine ⟨by simp [hl], fun i h1 h2 => ?_⟩
  simp only [List.get_eq_getElem, List.getElem_mapIdx]
  simp only [List.length_mapIdx] at h1 h2
  have e := (List.forall₂_iff_get.1 h.species).2 i h1 h2
  simp only [List.get_eq_getElem] at e
  refine ⟨e.q, e.m, e.shape, e.tracer, e.ionizable, e.plane, ?_⟩
  rw [List.forall₂_map_left_iff, List.forall₂_map_right_iff]
  refine e.ptcl.imp fun a b hab => ?_
  rw [h.time]
  exact foldExt_same c.ext s.time i a b hab

theorem Twin.pushP (h : Twin c D True A j r s s') (ht : c.pushPAll s = .ok t) :
    ∃ t', c.pushPAll s' = .ok t' ∧ Twin c D True A j r t t' := by
  refine h.mapM _ _ ?_ ht
  intro sp sp' p p' q hs hp hq
  unfold Cfg.pushP at hq ⊢
  rw [hs.q, hs.plane, hs.ionizable, hs.m, h.time]
  by_cases h0 : sp.q = 0
  · rw [if_pos h0] at hq ⊢
    cases hq
    exact ⟨_, rfl, hp⟩
  · rw [if_neg h0] at hq ⊢
    have hf : p'.fields = p.fields := by unfold Ptcl.fields; rw [hp.F ⟨trivial, h0⟩]
    rw [hf, hp.push]
    cases hb : sp.plane with
    | none =>
      rw [hb] at hq
      dsimp only at hq ⊢
      split_ifs at hq ⊢ <;> cases hq <;> exact ⟨_, rfl, rfl, hp.w, hp.F⟩
    | some b =>
      rw [hb] at hq
      dsimp only at hq ⊢
      split_ifs at hq ⊢
      cases hq
      exact ⟨_, rfl, rfl, hp.w, hp.F⟩

theorem Twin.shift (h : Twin c D f A j r s s') (dtg : ℝ) :
    Twin c D f A j r (c.shiftGalilean dtg s) (c.shiftGalilean dtg s') := by
  unfold Cfg.shiftGalilean
  split_ifs
  · exact { h with zmin := by rw [h.zmin], zmax := by rw [h.zmax] }
  · exact h

theorem Twin.move (h : Twin c D f A j r s s') (move : Bool) (dt px py pz dtg : ℝ) :
    Twin c D f A j r (c.movePush move dt px py pz dtg s) (c.movePush move dt px py pz dtg s') := by
  unfold Cfg.movePush
  have h1 : Twin c D f A j r (if move then c.pushX dt px py pz s else s) (if move then c.pushX dt px py pz s' else s') := by
    cases move
    · exact h
    · refine h.withSpecies ?_
      rw [List.forall₂_map_left_iff, List.forall₂_map_right_iff]
      refine h.species.imp fun a b e => ⟨e.q, e.m, e.shape, e.tracer, e.ionizable, e.plane, ?_⟩
      rw [List.forall₂_map_left_iff, List.forall₂_map_right_iff]
      exact e.ptcl.imp fun p p' hp => ⟨by dsimp only; rw [hp.push], hp.w, hp.F⟩
  exact h1.shift dtg

/-! ### Depositions -/

theorem Twin.depositing (h : Twin c D f A j r s s') : s'.depositing = s.depositing := by
  unfold Sim.depositing
  have hf := filter_forall₂ (p := fun sp => !sp.isTracer) (q := fun sp => !sp.isTracer) h.species
    (fun a b hab => by rw [hab.tracer])
  refine (map_forall₂ hf ?_).symm
  intro a b _ e
  unfold Species.dep
  rw [e.q, e.shape, e.ionizable]
  refine congrArg _ (map_forall₂ e.ptcl fun p p' _ hp => ?_)
  unfold Ptcl.dep
  rw [hp.push, hp.w]

theorem Twin.depArr (h : Twin c D f A j r s s') (x : DepField) : c.depArr x s' = c.depArr x s := by
  funext m
  unfold Cfg.depArr
  rw [h.depositing, h.zmin]

theorem Twin.depOk (h : Twin c D f A j r s s') (x : DepField) : c.depOk x s' ↔ c.depOk x s := by
  unfold Cfg.depOk
  rw [h.depositing, h.zmin]

theorem Twin.rhoHat (h : Twin c D f A j r s s') : c.rhoHat s' = c.rhoHat s :=
  rhoHat_congr c fun m => by rw [h.depArr]

theorem Twin.withRho (n : RhoName) (h : Twin c D f A j r s s') :
    Twin c D f (fun n' => A n' ∨ n' = n) j True (c.withRho n s) (c.withRho n s') where
  zmin := h.zmin
  zmax := h.zmax
  time := h.time
  iteration := h.iteration
  species := h.species
  E := fun m hm => by
    show (onModes c.Nm _ s'.interp m).E = (onModes c.Nm _ s.interp m).E
    unfold onModes; rw [if_pos hm, if_pos hm]; exact h.E m hm
  B := fun m hm => by
    show (onModes c.Nm _ s'.interp m).B = (onModes c.Nm _ s.interp m).B
    unfold onModes; rw [if_pos hm, if_pos hm]; exact h.B m hm
  sized := (withRho_keeps c n s h.sized).1.sized c h.sized
  sized' := (withRho_keeps c n s' h.sized').1.sized c h.sized'
  kz := fun m hm => by
    rw [((withRho_keeps c n s h.sized).1 m hm).1.2.2.1, ((withRho_keeps c n s' h.sized').1 m hm).1.2.2.1, h.kz m hm]
  kr := fun m hm => by
    rw [((withRho_keeps c n s h.sized).1 m hm).1.2.2.2, ((withRho_keeps c n s' h.sized').1 m hm).1.2.2.2, h.kr m hm]
  em := fun m hm iz hz ir hr => by
    rw [withRho_cell c n s h.sized hm hz hr, withRho_cell c n s' h.sized' hm hz hr]
    have e := h.em m hm iz hz ir hr
    cases n <;> exact ⟨e.Em, e.Bm, e.Ep, e.Ez, e.Bp, e.Bz⟩
  rho := fun n' hn m hm iz hz ir hr => by
    rw [withRho_cell c n s h.sized hm hz hr, withRho_cell c n s' h.sized' hm hz hr, h.rhoHat]
    rcases hn with hn | rfl
    · have e := h.rho n' hn m hm iz hz ir hr
      cases n <;> cases n' <;> first | rfl | exact e
    · cases n' <;> rfl
  J := fun x => ⟨fun m hm iz hz ir hr => by
    rw [withRho_cell c n s h.sized hm hz hr, withRho_cell c n s' h.sized' hm hz hr]
    have e := (h.J x).1 m hm iz hz ir hr
    cases n <;> exact ⟨e.p, e.m, e.z⟩, fun m hm => by
    show (onModes c.Nm _ s'.interp m).J = (onModes c.Nm _ s.interp m).J
    unfold onModes; rw [if_pos hm, if_pos hm]; exact (h.J x).2 m hm⟩
  irho := fun _ m hm => by
    show (onModes c.Nm _ s'.interp m).rho = (onModes c.Nm _ s.interp m).rho
    unfold onModes; rw [if_pos hm, if_pos hm, h.depArr]

theorem Twin.depRho (hn : 0 < c.nthreads) (n : RhoName) (h : Twin c D f A j r s s') (ht : c.depositRho n s = .ok t) :
    ∃ t', c.depositRho n s' = .ok t' ∧ Twin c D f (fun n' => A n' ∨ n' = n) j True t t' := by
  obtain ⟨h1, rfl⟩ := (depositRho_ok c hn _ _ _).1 ht
  exact ⟨_, (depositRho_ok c hn _ _ _).2 ⟨(h.depOk _).2 h1, rfl⟩, h.withRho n⟩

/-- The current in spectral space. -/
noncomputable def Cfg.jHat (c : Cfg) [NeZero c.Nz] (s : Sim) (m iz ir : ℕ) : ℂ × ℂ × ℂ :=
  (c.filt m iz ir * (c.toSpectVect m (c.depArr .Jr s m) (c.depArr .Jt s m) 0 0).1 iz ir,
   c.filt m iz ir * (c.toSpectVect m (c.depArr .Jr s m) (c.depArr .Jt s m) 0 0).2 iz ir,
   c.filt m iz ir * c.toSpectScal m (c.depArr .Jz s m) 0 iz ir)

theorem withJ_cell (c : Cfg) [NeZero c.Nz] (s : Sim) (hs : c.Sized s) {m iz ir : ℕ} (hm : m < c.Nm) (hz : iz < c.Nz)
    (hr : ir < c.Nr) : ((c.withJ s).spect m).cell iz ir = { (s.spect m).cell iz ir with
      Jp := (c.jHat s m iz ir).1, Jm := (c.jHat s m iz ir).2.1, Jz := (c.jHat s m iz ir).2.2 } := by
  obtain ⟨h1, h2⟩ := hs m hm
  have e1 : ∀ a o o', c.toSpectScal m a o iz ir = c.toSpectScal m a o' iz ir := by
    intro a o o'
    rw [toSpectScal_eq, toSpectScal_eq]
    unfold fwd
    rw [if_pos ⟨hz, hr⟩, if_pos ⟨hz, hr⟩]
  have e2 : ∀ a b o1 o2 o1' o2', (c.toSpectVect m a b o1 o2).1 iz ir = (c.toSpectVect m a b o1' o2').1 iz ir ∧
      (c.toSpectVect m a b o1 o2).2 iz ir = (c.toSpectVect m a b o1' o2').2 iz ir := by
    intro a b o1 o2 o1' o2'
    rw [toSpectVect_eq, toSpectVect_eq]
    unfold fwd
    dsimp only
    rw [if_pos ⟨hz, hr⟩, if_pos ⟨hz, hr⟩, if_pos ⟨hz, hr⟩, if_pos ⟨hz, hr⟩]
    exact ⟨rfl, rfl⟩
  have : (c.withJ s).spect m = c.filterSpect .J m (c.spectJ m
      (onModes c.Nm (fun m i => { i with J := ⟨c.depArr .Jr s m, c.depArr .Jt s m, c.depArr .Jz s m⟩ }) s.interp m)
      (s.spect m)) := if_pos hm
  rw [this]
  have hi : onModes c.Nm (fun m (i : Interp) => { i with J := ⟨c.depArr .Jr s m, c.depArr .Jt s m, c.depArr .Jz s m⟩ })
      s.interp m = { s.interp m with J := ⟨c.depArr .Jr s m, c.depArr .Jt s m, c.depArr .Jz s m⟩ } := if_pos hm
  rw [hi]
  unfold Cfg.filterSpect Cfg.jHat Cfg.filt
  rw [(e2 _ _ 0 0 (fun iz ir => ((s.spect m).cell iz ir).Jp) (fun iz ir => ((s.spect m).cell iz ir).Jm)).1,
    (e2 _ _ 0 0 (fun iz ir => ((s.spect m).cell iz ir).Jp) (fun iz ir => ((s.spect m).cell iz ir).Jm)).2,
    e1 _ 0 (fun iz ir => ((s.spect m).cell iz ir).Jz)]
  cases hf : c.filter with
  | none =>
    simp only [one_mul]
    rfl
  | some ff =>
    obtain ⟨fz, fr⟩ := ff
    show (if iz < (s.spect m).Nz ∧ ir < (s.spect m).Nr then _ else _) = _
    rw [if_pos ⟨h1 ▸ hz, h2 ▸ hr⟩]
    rfl

theorem Twin.jHat (h : Twin c D f A j r s s') : c.jHat s' = c.jHat s := by
  funext m iz ir
  unfold Cfg.jHat
  rw [h.depArr, h.depArr, h.depArr]

theorem Twin.withJ (h : Twin c D f A j r s s') : Twin c D f A True r (c.withJ s) (c.withJ s') where
  zmin := h.zmin
  zmax := h.zmax
  time := h.time
  iteration := h.iteration
  species := h.species
  E := fun m hm => by
    show (onModes c.Nm _ s'.interp m).E = (onModes c.Nm _ s.interp m).E
    unfold onModes; rw [if_pos hm, if_pos hm]; exact h.E m hm
  B := fun m hm => by
    show (onModes c.Nm _ s'.interp m).B = (onModes c.Nm _ s.interp m).B
    unfold onModes; rw [if_pos hm, if_pos hm]; exact h.B m hm
  sized := (withJ_keeps c s).sized c h.sized
  sized' := (withJ_keeps c s').sized c h.sized'
  kz := fun m hm => by rw [(withJ_keeps c s m hm).1.2.2.1, (withJ_keeps c s' m hm).1.2.2.1, h.kz m hm]
  kr := fun m hm => by rw [(withJ_keeps c s m hm).1.2.2.2, (withJ_keeps c s' m hm).1.2.2.2, h.kr m hm]
  em := fun m hm iz hz ir hr => by
    rw [withJ_cell c s h.sized hm hz hr, withJ_cell c s' h.sized' hm hz hr]
    have e := h.em m hm iz hz ir hr
    exact ⟨e.Em, e.Bm, e.Ep, e.Ez, e.Bp, e.Bz⟩
  rho := fun n hn m hm iz hz ir hr => by
    rw [withJ_cell c s h.sized hm hz hr, withJ_cell c s' h.sized' hm hz hr]
    have e := h.rho n hn m hm iz hz ir hr
    cases n <;> exact e
  J := fun _ => ⟨fun m hm iz hz ir hr => by
    rw [withJ_cell c s h.sized hm hz hr, withJ_cell c s' h.sized' hm hz hr, h.jHat]
    exact ⟨rfl, rfl, rfl⟩, fun m hm => by
    show (onModes c.Nm _ s'.interp m).J = (onModes c.Nm _ s.interp m).J
    unfold onModes; rw [if_pos hm, if_pos hm, h.depArr, h.depArr, h.depArr]⟩
  irho := fun x m hm => by
    show (onModes c.Nm _ s'.interp m).rho = (onModes c.Nm _ s.interp m).rho
    unfold onModes; rw [if_pos hm, if_pos hm]; exact h.irho x m hm

theorem Twin.depJ (hn : 0 < c.nthreads) (h : Twin c D f A j r s s') (ht : c.depositJ s = .ok t) :
    ∃ t', c.depositJ s' = .ok t' ∧ Twin c D f A True r t t' := by
  obtain ⟨⟨h1, h2, h3⟩, rfl⟩ := (depositJ_ok c hn _ _).1 ht
  exact ⟨_, (depositJ_ok c hn _ _).2 ⟨⟨(h.depOk _).2 h1, (h.depOk _).2 h2, (h.depOk _).2 h3⟩, rfl⟩, h.withJ⟩

/-- The deposition of the current changes nothing else. -/
theorem twin_withJ (s : Sim) (hs : c.Sized s) : Twin c D f (fun _ => True) False True s (c.withJ s) where
  zmin := rfl
  zmax := rfl
  time := rfl
  iteration := rfl
  species := List.forall₂_same.2 fun sp _ => ⟨rfl, rfl, rfl, rfl, rfl, rfl, List.forall₂_same.2 fun p _ => ⟨rfl, rfl, fun _ => rfl⟩⟩
  E := fun m hm => by
    show (onModes c.Nm _ s.interp m).E = _
    unfold onModes; rw [if_pos hm]
  B := fun m hm => by
    show (onModes c.Nm _ s.interp m).B = _
    unfold onModes; rw [if_pos hm]
  sized := hs
  sized' := (withJ_keeps c s).sized c hs
  kz := fun m hm => (withJ_keeps c s m hm).1.2.2.1
  kr := fun m hm => (withJ_keeps c s m hm).1.2.2.2
  em := fun m hm iz hz ir hr => by
    rw [withJ_cell c s hs hm hz hr]
    exact ⟨rfl, rfl, fun _ => rfl, fun _ => rfl, fun _ => rfl, fun _ => rfl⟩
  rho := fun n hn m hm iz hz ir hr => by
    rw [withJ_cell c s hs hm hz hr]
    cases n <;> rfl
  J := fun h => h.elim
  irho := fun _ m hm => by
    show (onModes c.Nm _ s.interp m).rho = _
    unfold onModes; rw [if_pos hm]

theorem SamePtcl.trans {p : Prop} {a b d : Ptcl} (h : SamePtcl p a b) (h' : SamePtcl p b d) : SamePtcl p a d :=
  ⟨h'.push.trans h.push, h'.w.trans h.w, fun x => (h'.F x).trans (h.F x)⟩

theorem SameSpecies'.trans {a b d : Species} (h : SameSpecies' f a b) (h' : SameSpecies' f b d) : SameSpecies' f a d :=
  ⟨h'.q.trans h.q, h'.m.trans h.m, h'.shape.trans h.shape, h'.tracer.trans h.tracer, h'.ionizable.trans h.ionizable,
    h'.plane.trans h.plane, by
    have e := h'.ptcl
    rw [h.q] at e
    exact forall₂_trans h.ptcl e fun _ _ _ h1 h2 => SamePtcl.trans h1 h2⟩

theorem Twin.trans {u : Sim} (h : Twin c D f A j r s s') (h' : Twin c D f A j r s' u) : Twin c D f A j r s u where
  zmin := h'.zmin.trans h.zmin
  zmax := h'.zmax.trans h.zmax
  time := h'.time.trans h.time
  iteration := h'.iteration.trans h.iteration
  species := forall₂_trans h.species h'.species fun _ _ _ h1 h2 => SameSpecies'.trans h1 h2
  E := fun m hm => (h'.E m hm).trans (h.E m hm)
  B := fun m hm => (h'.B m hm).trans (h.B m hm)
  sized := h.sized
  sized' := h'.sized'
  kz := fun m hm => (h'.kz m hm).trans (h.kz m hm)
  kr := fun m hm => (h'.kr m hm).trans (h.kr m hm)
  em := fun m hm iz hz ir hr =>
    let e := h.em m hm iz hz ir hr
    let e' := h'.em m hm iz hz ir hr
    ⟨e'.Em.trans e.Em, e'.Bm.trans e.Bm, fun d => (e'.Ep d).trans (e.Ep d), fun d => (e'.Ez d).trans (e.Ez d),
      fun d => (e'.Bp d).trans (e.Bp d), fun d => (e'.Bz d).trans (e.Bz d)⟩
  rho := fun n hn m hm iz hz ir hr => (h'.rho n hn m hm iz hz ir hr).trans (h.rho n hn m hm iz hz ir hr)
  J := fun x => ⟨fun m hm iz hz ir hr =>
    let e := (h.J x).1 m hm iz hz ir hr
    let e' := (h'.J x).1 m hm iz hz ir hr
    ⟨e'.p.trans e.p, e'.m.trans e.m, e'.z.trans e.z⟩, fun m hm => ((h'.J x).2 m hm).trans ((h.J x).2 m hm)⟩
  irho := fun x m hm => (h'.irho x m hm).trans (h.irho x m hm)

end

end Fbpic.Pic
