import Verif.Lemmas.PicSplit

/-!
# Lemmas: two runs that agree on what is stored
-/

namespace Fbpic.Pic

open Transform ExternalField Step
open Spec (SamePtcl SameSpecies' SameStored SameSeen SameResult SolverOk TransOk EqOn hankel dropLow DhtOk)

variable {c : Cfg} [NeZero c.Nz] {D : ℕ → ℕ → Prop} {f : Prop} {A : RhoName → Prop} {j r : Prop} {s s' t t' : Sim}

/-- The accesses of the deposition do not depend on the quantity. -/
theorem depOk_field (x y : DepField) (s : Sim) (h : c.depOk x s) : c.depOk y s := by
  intro m hm sp hsp hq p hp
  obtain ⟨h1, h2⟩ := h m hm sp hsp hq p hp
  refine ⟨h1, fun a ha => ?_⟩
  unfold addsOf ptclAdds at ha h2
  simp only [List.mem_flatMap, List.mem_map] at ha h2
  obtain ⟨i, hi, k, hk, rfl⟩ := ha
  have := h2 _ ⟨i, hi, k, hk, rfl⟩
  exact this

theorem Twin.iterStart (hn : 0 < c.nthreads) (hp : c.exchangePeriod = 1) (i i' : ℕ) (h : Twin c D False A j r s s')
    (ht : c.iterStart i s = .ok t) : ∃ t', c.iterStart i' s' = .ok t' ∧ Twin c D True (fun n => n = .prev) False True t t' := by
  rw [iterStart_eq] at ht
  rw [if_pos (Or.inl (by rw [hp]; exact Nat.mod_one _))] at ht
  obtain ⟨s2, h2, ht⟩ := (except_bind_ok _ _ _).1 ht
  obtain ⟨s1, h1, h2⟩ := (except_bind_ok _ _ _).1 h2
  obtain ⟨s3, h3, ht⟩ := (except_bind_ok _ _ _).1 ht
  obtain ⟨s4, h4, ht⟩ := (except_bind_ok _ _ _).1 ht
  have ht : c.applyExts s4 = t := Except.ok.inj ht
  obtain ⟨s1', h1', T1⟩ := h.wrap h1
  obtain ⟨s2', h2', T2⟩ := T1.depRho hn .prev h2
  have T2 : Twin c D False (fun n => n = .prev) False True s2 s2' :=
    T2.mono (fun n hn => Or.inr hn) (fun x => x.elim) fun _ => trivial
  have hd : c.depOk .rho s2' := by
    obtain ⟨d, e⟩ := (depositRho_ok c hn _ _ _).1 h2'
    exact depOk_congr c (s := s1') (by rw [e]; rfl) (by rw [e]; rfl) d
  have T3 : ∃ s3', (if i' = 0 then c.depositJ s2' else pure s2') = .ok s3' ∧
      Twin c D False (fun n => n = .prev) False True s3 s3' := by
    have left : Twin c D False (fun n => n = .prev) False True s3 s2' := by
      split_ifs at h3
      · obtain ⟨-, rfl⟩ := (depositJ_ok c hn _ _).1 h3
        exact Twin.trans ((twin_withJ s2 T2.sized).symm.mono (fun _ _ => trivial) id id) T2
      · rw [← Except.ok.inj h3]; exact T2
    by_cases hi : i' = 0
    · rw [if_pos hi]
      refine ⟨_, (depositJ_ok c hn _ _).2 ⟨⟨depOk_field _ _ _ hd, depOk_field _ _ _ hd, depOk_field _ _ _ hd⟩, rfl⟩, ?_⟩
      exact left.trans ((twin_withJ s2' T2.sized').mono (fun _ _ => trivial) id id)
    · rw [if_neg hi]
      exact ⟨_, rfl, left⟩
  obtain ⟨s3', h3', T3⟩ := T3
  obtain ⟨s4', h4', T4⟩ := T3.gather h4
  refine ⟨c.applyExts s4', ?_, by rw [← ht]; exact T4.exts⟩
  rw [iterStart_eq, if_pos (Or.inl (by rw [hp]; exact Nat.mod_one _))]
  exact (except_bind_ok _ _ _).2 ⟨s2', (except_bind_ok _ _ _).2 ⟨s1', h1', h2'⟩, (except_bind_ok _ _ _).2 ⟨s3', h3',
    (except_bind_ok _ _ _).2 ⟨s4', h4', rfl⟩⟩⟩

theorem Twin.iterHalf (o : Opts) (h : Twin c D True A j r s s') (ht : c.iterHalf o s = .ok t) :
    ∃ t', c.iterHalf o s' = .ok t' ∧ Twin c D True A j r t t' := by
  rw [iterHalf_eq] at ht
  obtain ⟨s1, h1, ht⟩ := (except_bind_ok _ _ _).1 ht
  have ht : c.movePush o.movePositions (0.5 * c.dt) 1 1 1 (0.5 * c.dt) s1 = t := Except.ok.inj ht
  have key : ∃ s1', (if o.moveMomenta then c.pushPAll s' else pure s') = .ok s1' ∧ Twin c D True A j r s1 s1' := by
    split_ifs at h1 with hm
    · rw [if_pos hm]; exact h.pushP h1
    · rw [if_neg hm, ← Except.ok.inj h1]; exact ⟨_, rfl, h⟩
  obtain ⟨s1', h1', T1⟩ := key
  refine ⟨c.movePush o.movePositions (0.5 * c.dt) 1 1 1 (0.5 * c.dt) s1', ?_, by rw [← ht]; exact T1.move _ _ _ _ _ _⟩
  rw [iterHalf_eq]
  exact (except_bind_ok _ _ _).2 ⟨s1', h1', rfl⟩

/-- The charge densities that the last part of an iteration uses. -/
def Cfg.Needed (c : Cfg) (o : Opts) (n : RhoName) : Prop :=
  n = .prev ∨ n = .next ∨ (o.correctCurrents = true ∧ c.correction = .crossDeposition)

theorem Twin.iterDeposit (hn : 0 < c.nthreads) (o : Opts) (h : Twin c D True (fun n => n = .prev) j r s s')
    (ht : c.iterDeposit o s = .ok t) : ∃ t', c.iterDeposit o s' = .ok t' ∧ Twin c D True (c.Needed o) True True t t' := by
  rw [iterDeposit_eq] at ht
  obtain ⟨s2, h2, ht⟩ := (except_bind_ok _ _ _).1 ht
  obtain ⟨s3, h3, ht⟩ := (except_bind_ok _ _ _).1 ht
  obtain ⟨s2', h2', T2⟩ := h.depJ hn h2
  have key : ∃ s3', c.maybeCross o s2' = .ok s3' ∧ Twin c D True (fun n => n = .prev ∨ n ≠ .next ∧
      (o.correctCurrents = true ∧ c.correction = .crossDeposition)) True False s3 s3' := by
    unfold Cfg.maybeCross at h3 ⊢
    split at h3
    · rename_i hcc hco
      rw [crossDeposit_eq] at h3
      obtain ⟨sX, hX, h3⟩ := (except_bind_ok _ _ _).1 h3
      obtain ⟨sZ, hZ, h3⟩ := (except_bind_ok _ _ _).1 h3
      have h3 : c.movePush o.movePositions (0.5 * c.dt) 1 1 (-1) (-0.5 * c.dt) sZ = s3 := Except.ok.inj h3
      obtain ⟨sX', hX', TX⟩ := (T2.move o.movePositions (0.5 * c.dt) 1 1 (-1) (-0.5 * c.dt)).depRho hn .nextXY hX
      obtain ⟨sZ', hZ', TZ⟩ := (TX.move o.movePositions c.dt (-1) (-1) 1 c.dt).depRho hn .nextZ hZ
      refine ⟨c.movePush o.movePositions (0.5 * c.dt) 1 1 (-1) (-0.5 * c.dt) sZ', ?_, ?_⟩
      · rw [crossDeposit_eq]
        exact (except_bind_ok _ _ _).2 ⟨sX', hX', (except_bind_ok _ _ _).2 ⟨sZ', hZ', rfl⟩⟩
      · rw [← h3]
        refine (TZ.move o.movePositions (0.5 * c.dt) 1 1 (-1) (-0.5 * c.dt)).mono ?_ id fun x => x.elim
        rintro n (rfl | ⟨hne, -⟩)
        · exact Or.inl (Or.inl rfl)
        · cases n with
          | prev => exact Or.inl (Or.inl rfl)
          | next => exact absurd rfl hne
          | nextZ => exact Or.inr rfl
          | nextXY => exact Or.inl (Or.inr rfl)
    · rename_i hne
      have e := Except.ok.inj h3
      subst e
      refine ⟨s2', rfl, T2.mono ?_ id fun x => x.elim⟩
      rintro n (rfl | ⟨-, h1, h2⟩)
      · rfl
      · exact absurd h2 (hne h1)
  obtain ⟨s3', h3', T3⟩ := key
  obtain ⟨t', ht', T⟩ := (T3.move o.movePositions (0.5 * c.dt) 1 1 1 (0.5 * c.dt)).depRho hn .next ht
  refine ⟨t', ?_, T.mono ?_ id id⟩
  · rw [iterDeposit_eq]
    exact (except_bind_ok _ _ _).2 ⟨s2', h2', (except_bind_ok _ _ _).2 ⟨s3', h3', ht'⟩⟩
  · rintro n (rfl | rfl | hh)
    · exact Or.inl (Or.inl rfl)
    · exact Or.inr rfl
    · cases n with
      | prev => exact Or.inl (Or.inl rfl)
      | next => exact Or.inr rfl
      | nextZ => exact Or.inl (Or.inr ⟨by decide, hh⟩)
      | nextXY => exact Or.inl (Or.inr ⟨by decide, hh⟩)

theorem endGrid_twin (o : Opts) {g g' : SpecGrid} {P : ℕ → Prop} (hz0 : g.Nz = c.Nz) (hr0 : g.Nr = c.Nr)
    (hz0' : g'.Nz = c.Nz) (hr0' : g'.Nr = c.Nr) (hkz : g'.kz = g.kz) (hkr : g'.kr = g.kr) {iz ir : ℕ} (hz : iz < c.Nz)
    (hr : ir < c.Nr) (hP : P ir → g.kr ir = 0) (h : CellEq (P ir) (g.cell iz ir) (g'.cell iz ir))
    (hj : CellJ (g.cell iz ir) (g'.cell iz ir))
    (hrho : ∀ n, c.Needed o n → n.get (g'.cell iz ir) = n.get (g.cell iz ir)) :
    CellEq (P ir) ((c.endGrid o g).cell iz ir) ((c.endGrid o g').cell iz ir) ∧
    CellJ ((c.endGrid o g).cell iz ir) ((c.endGrid o g').cell iz ir) ∧
    ((c.endGrid o g').cell iz ir).rhoPrev = ((c.endGrid o g).cell iz ir).rhoPrev := by
  have hp := hrho .prev (Or.inl rfl)
  have hx := hrho .next (Or.inr (Or.inl rfl))
  set g1 := if o.correctCurrents then g.correctCurrents c.k c.correction c.dt c.V c.galilean else g with hg1
  set g1' := if o.correctCurrents then g'.correctCurrents c.k c.correction c.dt c.V c.galilean else g' with hg1'
  have s1 : g.SameShape g1 := by rw [hg1]; split_ifs <;> exact ⟨rfl, rfl, rfl, rfl⟩
  have s1' : g'.SameShape g1' := by rw [hg1']; split_ifs <;> exact ⟨rfl, rfl, rfl, rfl⟩
  have k1 : CellEq (P ir) (g1.cell iz ir) (g1'.cell iz ir) ∧ CellJ (g1.cell iz ir) (g1'.cell iz ir) ∧
      (g1'.cell iz ir).rhoPrev = (g1.cell iz ir).rhoPrev ∧ (g1'.cell iz ir).rhoNext = (g1.cell iz ir).rhoNext := by
    rw [hg1, hg1']
    by_cases hc : o.correctCurrents = true
    · rw [if_pos hc, if_pos hc]
      unfold SpecGrid.correctCurrents
      rw [mapCells_cell _ _ (by rw [hz0]; exact hz) (by rw [hr0]; exact hr),
        mapCells_cell _ _ (by rw [hz0']; exact hz) (by rw [hr0']; exact hr), hkz, hkr]
      exact correct_cell _ _ _ _ h hj hp hx fun hcr =>
        ⟨hrho .nextZ (Or.inr (Or.inr ⟨hc, hcr⟩)), hrho .nextXY (Or.inr (Or.inr ⟨hc, hcr⟩))⟩
    · rw [if_neg hc, if_neg hc]
      exact ⟨h, hj, hp, hx⟩
  obtain ⟨k1, j1, p1, x1⟩ := k1
  have z1 : iz < g1.Nz := by rw [s1.1, hz0]; exact hz
  have r1 : ir < g1.Nr := by rw [s1.2.1, hr0]; exact hr
  have z1' : iz < g1'.Nz := by rw [s1'.1, hz0']; exact hz
  have r1' : ir < g1'.Nr := by rw [s1'.2.1, hr0']; exact hr
  set g2 := g1.push c.k c.dt c.V c.galilean false o.useTrueRho with hg2
  set g2' := g1'.push c.k c.dt c.V c.galilean false o.useTrueRho with hg2'
  have k2 : CellEq (P ir) (g2.cell iz ir) (g2'.cell iz ir) ∧ CellJ (g2.cell iz ir) (g2'.cell iz ir) ∧
      (g2'.cell iz ir).rhoPrev = (g2.cell iz ir).rhoPrev := by
    rw [hg2, hg2', push_cell _ _ _ _ _ _ _ z1 r1, push_cell _ _ _ _ _ _ _ z1' r1', s1'.2.2.1, s1'.2.2.2, hkz, hkr,
      s1.2.2.1, s1.2.2.2]
    exact push_cellEq c.k _ _ hP _ _ k1 j1 p1 x1
  have e : c.endGrid o g = if o.correctDivE then g2.mapCells (fun kz kr s =>
      match Fbpic.correctDivE c.k .curlFree kz kr s with
      | .ok s' => s'
      | .error _ => s) else g2 := rfl
  have e' : c.endGrid o g' = if o.correctDivE then g2'.mapCells (fun kz kr s =>
      match Fbpic.correctDivE c.k .curlFree kz kr s with
      | .ok s' => s'
      | .error _ => s) else g2' := rfl
  rw [e, e']
  by_cases hd : o.correctDivE = true
  · rw [if_pos hd, if_pos hd, mapCells_cell _ _ (by exact z1) (by exact r1), mapCells_cell _ _ (by exact z1') (by exact r1')]
    obtain ⟨x', y', ex, ey, q⟩ := divE_cell c.k (g.kz iz) (g.kr ir) hP k2.1 k2.2.1 k2.2.2
    rw [show g2.kz = g.kz from s1.2.2.1, show g2.kr = g.kr from s1.2.2.2, show g2'.kz = g.kz from s1'.2.2.1.trans hkz,
      show g2'.kr = g.kr from s1'.2.2.2.trans hkr, ex, ey]
    exact q
  · rw [if_neg hd, if_neg hd]
    exact k2

/-- What the end of an iteration gives. -/
theorem iterEnd_full (o : Opts) (h : c.iterEnd o s = .ok t) : t.species = s.species ∧ t.zmin = s.zmin ∧
    t.zmax = s.zmax ∧ t.time = s.time + c.dt ∧ t.iteration = s.iteration + 1 ∧
    (∀ m < c.Nm, t.interp m = c.interpEB m (t.spect m) (s.interp m)) := by
  unfold Cfg.iterEnd at h
  obtain ⟨sp, -, h⟩ := (except_bind_ok _ _ _).1 h
  rw [← Except.ok.inj h]
  refine ⟨rfl, rfl, rfl, rfl, rfl, fun m hm => ?_⟩
  dsimp only [onModes]
  rw [if_pos hm]

theorem iterEnd_total (o : Opts) (h : o.correctDivE = true → c.correction = .curlFree) (s : Sim) :
    ∃ t, c.iterEnd o s = .ok t := by
  unfold Cfg.iterEnd
  by_cases hd : o.correctDivE = true
  · simp only [if_pos hd, Cfg.correctDivE, h hd]
    exact ⟨_, rfl⟩
  · simp only [if_neg hd]
    exact ⟨_, rfl⟩

theorem interpEB_same (hB : c.Blind D) {m : ℕ} (hm : m < c.Nm) {g g' : SpecGrid} {i i' : Interp}
    (h : ∀ iz < c.Nz, ∀ ir < c.Nr, CellEq (D m ir) (g.cell iz ir) (g'.cell iz ir)) (hE : i'.E = i.E) (hBi : i'.B = i.B) :
    (c.interpEB m g' i').E = (c.interpEB m g i).E ∧ (c.interpEB m g' i').B = (c.interpEB m g i).B := by
  unfold Cfg.interpEB
  dsimp only
  rw [hE, hBi]
  rw [interpScal_blind c hB hm (fun iz ir => (g.cell iz ir).Ez) (fun iz ir => (g'.cell iz ir).Ez) _
      fun iz hz ir hr hd => (h iz hz ir hr).Ez hd,
    interpScal_blind c hB hm (fun iz ir => (g.cell iz ir).Bz) (fun iz ir => (g'.cell iz ir).Bz) _
      fun iz hz ir hr hd => (h iz hz ir hr).Bz hd,
    interpVect_blind c hB hm (fun iz ir => (g.cell iz ir).Ep) (fun iz ir => (g.cell iz ir).Em)
      (fun iz ir => (g'.cell iz ir).Ep) (fun iz ir => (g'.cell iz ir).Em) _ _
      (fun iz hz ir hr hd => (h iz hz ir hr).Ep hd) (fun iz hz ir hr => (h iz hz ir hr).Em),
    interpVect_blind c hB hm (fun iz ir => (g.cell iz ir).Bp) (fun iz ir => (g.cell iz ir).Bm)
      (fun iz ir => (g'.cell iz ir).Bp) (fun iz ir => (g'.cell iz ir).Bm) _ _
      (fun iz hz ir hr hd => (h iz hz ir hr).Bp hd) (fun iz hz ir hr => (h iz hz ir hr).Bm)]
  exact ⟨rfl, rfl⟩

theorem Twin.iterEnd (hB : c.Blind D) (o : Opts) (h : Twin c D True (c.Needed o) True True s s')
    (hk : ∀ m < c.Nm, ∀ ir < c.Nr, D m ir → (s.spect m).kr ir = 0) (ht : c.iterEnd o s = .ok t) :
    ∃ t', c.iterEnd o s' = .ok t' ∧ Twin c D True (fun n => n = .prev) True True t t' ∧
      (∀ m < c.Nm, (t.spect m).kr = (s.spect m).kr) ∧ c.Synced t := by
  obtain ⟨hcd, -, -, -, hsp, hsync⟩ := iterEnd_ok c o ht
  obtain ⟨t', ht'⟩ := iterEnd_total o hcd s'
  obtain ⟨-, -, -, -, hsp', -⟩ := iterEnd_ok c o ht'
  obtain ⟨a1, a2, a3, a4, a5, a6⟩ := iterEnd_full o ht
  obtain ⟨b1, b2, b3, b4, b5, b6⟩ := iterEnd_full o ht'
  have cells := fun m (hm : m < c.Nm) iz (hz : iz < c.Nz) ir (hr : ir < c.Nr) =>
    endGrid_twin o (P := D m) (h.sized m hm).1 (h.sized m hm).2 (h.sized' m hm).1 (h.sized' m hm).2 (h.kz m hm) (h.kr m hm)
      hz hr (hk m hm ir hr) (h.em m hm iz hz ir hr) ((h.J trivial).1 m hm iz hz ir hr)
      (fun n hn => h.rho n hn m hm iz hz ir hr)
  have em : ∀ m < c.Nm, ∀ iz < c.Nz, ∀ ir < c.Nr,
      CellEq (D m ir) ((t.spect m).cell iz ir) ((t'.spect m).cell iz ir) := by
    intro m hm iz hz ir hr
    rw [hsp m hm, hsp' m hm]
    exact (cells m hm iz hz ir hr).1
  refine ⟨t', ht', ?_, fun m hm => by rw [hsp m hm]; exact (endGrid_shape c o (s.spect m)).2.2.2, hsync⟩
  exact
  { zmin := by rw [a2, b2, h.zmin]
    zmax := by rw [a3, b3, h.zmax]
    time := by rw [a4, b4, h.time]
    iteration := by rw [a5, b5, h.iteration]
    species := by rw [a1, b1]; exact h.species
    E := fun m hm => by
      rw [a6 m hm, b6 m hm]
      exact (interpEB_same hB hm (em m hm) (h.E m hm) (h.B m hm)).1
    B := fun m hm => by
      rw [a6 m hm, b6 m hm]
      exact (interpEB_same hB hm (em m hm) (h.E m hm) (h.B m hm)).2
    sized := fun m hm => by
      rw [hsp m hm, (endGrid_shape c o (s.spect m)).1, (endGrid_shape c o (s.spect m)).2.1]
      exact h.sized m hm
    sized' := fun m hm => by
      rw [hsp' m hm, (endGrid_shape c o (s'.spect m)).1, (endGrid_shape c o (s'.spect m)).2.1]
      exact h.sized' m hm
    kz := fun m hm => by
      rw [hsp m hm, hsp' m hm, (endGrid_shape c o (s.spect m)).2.2.1, (endGrid_shape c o (s'.spect m)).2.2.1, h.kz m hm]
    kr := fun m hm => by
      rw [hsp m hm, hsp' m hm, (endGrid_shape c o (s.spect m)).2.2.2, (endGrid_shape c o (s'.spect m)).2.2.2, h.kr m hm]
    em := em
    rho := fun n hn m hm iz hz ir hr => by
      subst hn
      rw [hsp m hm, hsp' m hm]
      exact (cells m hm iz hz ir hr).2.2
    J := fun _ => ⟨fun m hm iz hz ir hr => by
      rw [hsp m hm, hsp' m hm]
      exact (cells m hm iz hz ir hr).2.1, fun m hm => by
      rw [a6 m hm, b6 m hm]
      exact (h.J trivial).2 m hm⟩
    irho := fun _ m hm => by
      rw [a6 m hm, b6 m hm]
      exact h.irho trivial m hm }

theorem Twin.iter (hn : 0 < c.nthreads) (hp : c.exchangePeriod = 1) (hB : c.Blind D) (o : Opts) (i i' : ℕ)
    (h : Twin c D False A j r s s') (hk : ∀ m < c.Nm, ∀ ir < c.Nr, D m ir → (s.spect m).kr ir = 0)
    (ht : c.iter o i s = .ok t) : ∃ t', c.iter o i' s' = .ok t' ∧ Twin c D True (fun n => n = .prev) True True t t' ∧
      (∀ m < c.Nm, (t.spect m).kr = (s.spect m).kr) ∧ c.Synced t := by
  have ht0 := ht
  rw [iter_eq, if_neg (by rw [hp]; norm_num)] at ht
  obtain ⟨a, ha, ht⟩ := (except_bind_ok _ _ _).1 ht
  obtain ⟨b, hb, ht⟩ := (except_bind_ok _ _ _).1 ht
  obtain ⟨d, hd, ht⟩ := (except_bind_ok _ _ _).1 ht
  obtain ⟨a', ha', Ta⟩ := h.iterStart hn hp i i' ha
  obtain ⟨b', hb', Tb⟩ := Ta.iterHalf o hb
  obtain ⟨d', hd', Td⟩ := Tb.iterDeposit hn o hd
  have hkd : ∀ m < c.Nm, (d.spect m).kr = (s.spect m).kr := by
    obtain ⟨s₁, -, ka, -, ta, d1, za⟩ := start_fields c hn i (Or.inl hp) h.sized ha
    obtain ⟨eb, tb⟩ := half_fields c o ta hb
    obtain ⟨kd, -, -⟩ := deposit_fields c hn o (by intro m hm; rw [eb]; exact za m hm) tb d1 hd
    intro m hm
    rw [(kd m hm).1.2.2.2, eb, (ka m hm).1.2.2.2]
  obtain ⟨t', ht', T, hkt, hsync⟩ := Td.iterEnd hB o (fun m hm ir hr hD => by rw [hkd m hm]; exact hk m hm ir hr hD) ht
  refine ⟨t', ?_, T, fun m hm => (hkt m hm).trans (hkd m hm), hsync⟩
  rw [iter_eq, if_neg (by rw [hp]; norm_num)]
  exact (except_bind_ok _ _ _).2 ⟨a', ha', (except_bind_ok _ _ _).2 ⟨b', hb', (except_bind_ok _ _ _).2 ⟨d', hd', ht'⟩⟩⟩

theorem SamePtcl.weaken {p q : Prop} (hpq : q → p) {a b : Ptcl} (h : SamePtcl p a b) : SamePtcl q a b :=
  ⟨h.push, h.w, fun x => h.F (hpq x)⟩

theorem SameSpecies'.weaken {p q : Prop} (hpq : q → p) {a b : Species} (h : SameSpecies' p a b) : SameSpecies' q a b :=
  ⟨h.q, h.m, h.shape, h.tracer, h.ionizable, h.plane, h.ptcl.imp fun _ _ => SamePtcl.weaken fun x => ⟨hpq x.1, x.2⟩⟩

theorem Twin.forget {f' : Prop} (hf : f' → f) (h : Twin c D f A j r s s') : Twin c D f' A j r s s' :=
  { h with species := h.species.imp fun _ _ => SameSpecies'.weaken hf }

/-- The end of a call. -/
theorem Twin.finish (h : Twin c D True (fun n => n = .prev) True True s s') :
    SameSeen c (c.endFields s) (c.endFields s') := by
  have blind : c.Blind fun _ _ => False := fun _ _ _ _ h => h.elim
  have hi : ∀ (s : Sim) m, m < c.Nm → (c.endFields s).interp m = c.interpSources m (s.spect m) (s.interp m) := by
    intro s m hm
    unfold Cfg.endFields
    dsimp only [onModes]
    rw [if_pos hm]
  have src : ∀ m, m < c.Nm → (c.interpSources m (s'.spect m) (s'.interp m)).J = (c.interpSources m (s.spect m) (s.interp m)).J ∧
      (c.interpSources m (s'.spect m) (s'.interp m)).rho = (c.interpSources m (s.spect m) (s.interp m)).rho := by
    intro m hm
    have hj := (h.J trivial).1 m hm
    unfold Cfg.interpSources
    dsimp only
    rw [(h.J trivial).2 m hm, h.irho trivial m hm]
    rw [interpScal_blind c blind hm (fun iz ir => ((s.spect m).cell iz ir).Jz) (fun iz ir => ((s'.spect m).cell iz ir).Jz) _
        fun iz hz ir hr _ => (hj iz hz ir hr).z,
      interpScal_blind c blind hm (fun iz ir => ((s.spect m).cell iz ir).rhoPrev)
        (fun iz ir => ((s'.spect m).cell iz ir).rhoPrev) _ fun iz hz ir hr _ => h.rho .prev rfl m hm iz hz ir hr,
      interpVect_blind c blind hm (fun iz ir => ((s.spect m).cell iz ir).Jp) (fun iz ir => ((s.spect m).cell iz ir).Jm)
        (fun iz ir => ((s'.spect m).cell iz ir).Jp) (fun iz ir => ((s'.spect m).cell iz ir).Jm) _ _
        (fun iz hz ir hr _ => (hj iz hz ir hr).p) (fun iz hz ir hr => (hj iz hz ir hr).m)]
    exact ⟨rfl, rfl⟩
  exact
  { zmin := h.zmin
    zmax := h.zmax
    time := h.time
    iteration := h.iteration
    species := h.species.imp fun _ _ => SameSpecies'.weaken fun _ => trivial
    E := fun m hm => by rw [hi s m hm, hi s' m hm]; exact h.E m hm
    B := fun m hm => by rw [hi s m hm, hi s' m hm]; exact h.B m hm
    Nz := fun m hm => ⟨(h.sized m hm).1, (h.sized' m hm).1⟩
    Nr := fun m hm => ⟨(h.sized m hm).2, (h.sized' m hm).2⟩
    kz := h.kz
    kr := h.kr
    ptcl := h.species
    J := fun m hm => by rw [hi s m hm, hi s' m hm]; exact (src m hm).1
    rho := fun m hm => by rw [hi s m hm, hi s' m hm]; exact (src m hm).2 }

/-- The beginning of a call. -/
theorem twin_start (h : SameStored c s s') :
    Twin c (fun _ _ => False) False (fun _ => False) False False (c.startFields s) (c.startFields s') where
  zmin := h.zmin
  zmax := h.zmax
  time := h.time
  iteration := h.iteration
  species := h.species
  E := h.E
  B := h.B
  sized := fun m hm => ⟨(start_shape c s hm).1.trans (h.Nz m hm).1, (start_shape c s hm).2.1.trans (h.Nr m hm).1⟩
  sized' := fun m hm => ⟨(start_shape c s' hm).1.trans (h.Nz m hm).2, (start_shape c s' hm).2.1.trans (h.Nr m hm).2⟩
  kz := fun m hm => by rw [(start_shape c s hm).2.2.1, (start_shape c s' hm).2.2.1, h.kz m hm]
  kr := fun m hm => by rw [(start_shape c s hm).2.2.2, (start_shape c s' hm).2.2.2, h.kr m hm]
  em := fun m hm iz hz ir hr => by
    have e := start_em c hm hz hr (h.E m hm) (h.B m hm)
    unfold SpecCell.em at e
    simp only [Spec.EM.mk.injEq, Spec.V3.mk.injEq] at e
    obtain ⟨⟨e1, e2, e3⟩, e4, e5, e6⟩ := e
    exact ⟨e2, e5, fun _ => e1, fun _ => e3, fun _ => e4, fun _ => e6⟩
  rho := fun n h => h.elim
  J := fun h => h.elim
  irho := fun h => h.elim

end Fbpic.Pic
