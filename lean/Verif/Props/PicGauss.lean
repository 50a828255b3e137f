import Verif.Lemmas.PicGaussRun
import Verif.Props.Pic

/-!
# C91: Gauss' law and the absence of magnetic charges over whole runs
-/

namespace Fbpic.Pic

open Transform ExternalField Step
open Spec (SolverOk GaussLaw NoMonopoles TransOk V3 div)

/-! ### Between the calls -/

section
variable {Old : Seen → Prop}
variable (c : Cfg) [NeZero c.Nz]

/-- Gauss' law in spectral space, for the particles in the box. -/
def GW (s : Sim) : Prop := ∃ w, c.wrapAll s = .ok w ∧ c.Gauss (c.rhoHat w) s

theorem wrap_congr {s s' w : Sim} (h : c.wrapAll s = .ok w) (e1 : s'.species = s.species)
    (e2 : s'.zmin = s.zmin) (e3 : s'.zmax = s.zmax) :
    ∃ w', c.wrapAll s' = .ok w' ∧ c.rhoHat w' = c.rhoHat w := by
  obtain ⟨sps, h1, rfl⟩ := (mapPtclM_ok _ _ _).1 h
  refine ⟨{ s' with species := sps }, (mapPtclM_ok _ _ _).2 ⟨sps, ?_, rfl⟩,
    rhoHat_congr c fun m => depArr_congr c (s := { s with species := sps }) (s' := { s' with species := sps }) rfl e2 _ m⟩
  rw [e1, e2, e3]
  exact h1

theorem gaussLaw_iff (hn : 0 < c.nthreads) {s w : Sim} (hs : SolverOk c s) (hw : c.wrapAll s = .ok w)
    (hd : c.depOk .rho w) : GaussLaw c s ↔ GW c (c.startFields s) := by
  have hww : s.mapPtclM (fun _ p => c.wrap s.zmin s.zmax p) = .ok w := hw
  obtain ⟨w', hw', hr'⟩ := wrap_congr c (s' := c.startFields s) hw rfl rfl rfl
  have ew : w = { s with species := w.species } := mapPtclM_rest _ _ _ hww
  have es : w.spect = s.spect := by rw [ew]
  have ei : w.interp = s.interp := by rw [ew]
  have hsw : c.Sized w := by intro m hm; rw [es]; exact sized_of c hs m hm
  have key : (∀ m < c.Nm, ((c.startFields (c.withRho .prev w)).spect m).All
      fun kz kr f => div kz kr f.em.E = f.rhoPrev / c.k.eps0) ↔ c.Gauss (c.rhoHat w) (c.startFields s) := by
    have e : ∀ m, m < c.Nm → ∀ iz, iz < c.Nz → ∀ ir, ir < c.Nr →
        (((c.startFields (c.withRho .prev w)).spect m).cell iz ir).em = (((c.startFields s).spect m).cell iz ir).em ∧
        (((c.startFields (c.withRho .prev w)).spect m).cell iz ir).rhoPrev = c.rhoHat w m iz ir ∧
        (s.spect m).SameShape ((c.startFields (c.withRho .prev w)).spect m) := by
      intro m hm iz hz ir hr
      obtain ⟨k1, k2⟩ := withRho_keeps c .prev w hsw
      have hi : (c.withRho .prev w).interp m = { s.interp m with rho := c.depArr .rho w m } := by
        rw [← ei]; exact if_pos hm
      refine ⟨start_em c hm hz hr (by rw [hi]) (by rw [hi]), ?_, ?_⟩
      · rw [start_cell c _ hm]
        exact k2 m hm iz hz ir hr
      · obtain ⟨a1, a2, a3, a4⟩ := (k1 m hm).1
        obtain ⟨b1, b2, b3, b4⟩ := start_shape c (c.withRho .prev w) hm
        rw [← es]
        exact ⟨b1.trans a1, b2.trans a2, b3.trans a3, b4.trans a4⟩
    constructor
    · intro h m hm iz hz ir hr
      obtain ⟨e1, e2, e3⟩ := e m hm iz hz ir hr
      have := h m hm iz ir (by rw [e3.1, hs.Nz m hm]; exact hz) (by rw [e3.2.1, hs.Nr m hm]; exact hr)
      dsimp only at this
      rw [e1, e2, e3.2.2.1, e3.2.2.2] at this
      rw [(start_shape c s hm).2.2.1, (start_shape c s hm).2.2.2]
      exact this
    · intro h m hm iz ir hz hr
      have hN : 0 < c.Nz := Nat.pos_of_ne_zero (NeZero.ne _)
      have hz' : iz < c.Nz := by
        have e3 := (start_shape c (c.withRho .prev w) hm).1
        rw [((withRho_keeps c .prev w hsw).1 m hm).1.1, (hsw m hm).1] at e3
        rw [← e3]; exact hz
      have hr' : ir < c.Nr := by
        have e3 := (start_shape c (c.withRho .prev w) hm).2.1
        rw [((withRho_keeps c .prev w hsw).1 m hm).1.2.1, (hsw m hm).2] at e3
        rw [← e3]; exact hr
      obtain ⟨e1, e2, e3⟩ := e m hm iz hz' ir hr'
      rw [e1, e2, e3.2.2.1, e3.2.2.2]
      have := h m hm iz hz' ir hr'
      rw [(start_shape c s hm).2.2.1, (start_shape c s hm).2.2.2] at this
      exact this
  constructor
  · rintro ⟨w1, r, h1, h2, h3⟩
    have : w1 = w := Except.ok.inj (h1.symm.trans hww)
    subst this
    obtain ⟨-, rfl⟩ := (depositRho_ok c hn _ _ _).1 h2
    exact ⟨w', hw', by rw [hr']; exact key.1 h3⟩
  · rintro ⟨w1, h1, h2⟩
    have : w1 = w' := Except.ok.inj (h1.symm.trans hw')
    subst this
    refine ⟨w, _, hww, (depositRho_ok c hn _ _ _).2 ⟨hd, rfl⟩, key.2 ?_⟩
    rw [← hr']; exact h2

/-- `div E` in spectral space does not change if the fields go to the interpolation grid and back. -/
theorem synced_gauss {s : Sim} (hs : SolverOk c s) (hy : c.Synced s) (hR : 2 ≤ c.Nr) (u : Sim)
    (h : c.Gauss (c.rhoHat u) s) : c.Gauss (c.rhoHat u) (c.startFields s) := by
  intro m hm iz hz ir hr
  obtain ⟨h1, h2⟩ := hy.back c hm (hs.trans m hm) hz hr
  rw [(start_shape c s hm).2.2.1, (start_shape c s hm).2.2.2]
  by_cases hd : m ≠ 0 ∧ ir = 0
  · have hk := (hs.kr m hm ir hr).2 hd
    rw [hk]
    rw [hd.2, rhoHat_low c hs u hm hd.1 hz (by omega), ← hd.2]
    simp [div, (h2 hd).1]
  · rw [h1 hd]
    exact h m hm iz hz ir hr

private theorem synced_divB {s : Sim} (hs : SolverOk c s) (hy : c.Synced s)
    (h : ∀ m < c.Nm, (s.spect m).All fun kz kr f => div kz kr f.em.B = 0) :
    ∀ m < c.Nm, ((c.startFields s).spect m).All fun kz kr f => div kz kr f.em.B = 0 := by
  intro m hm iz ir hz hr
  obtain ⟨b1, b2, b3, b4⟩ := start_shape c s hm
  have hz' : iz < c.Nz := by rw [← hs.Nz m hm, ← b1]; exact hz
  have hr' : ir < c.Nr := by rw [← hs.Nr m hm, ← b2]; exact hr
  obtain ⟨h1, h2⟩ := hy.back c hm (hs.trans m hm) hz' hr'
  rw [b3, b4]
  by_cases hd : m ≠ 0 ∧ ir = 0
  · rw [(hs.kr m hm ir hr').2 hd]
    simp [div, (h2 hd).2]
  · rw [h1 hd]
    exact h m hm iz ir (by rw [hs.Nz m hm]; exact hz') (by rw [hs.Nr m hm]; exact hr')

/-- The loop of a call. -/
private theorem loop_gauss (hc : Sane c) (o : Opts) (ho : o.correctDivE = true → c.correction = .curlFree) (n : ℕ) :
    ∀ (i : ℕ) (rho : ℝ) (s : Sim), Loose c Old rho s → SolverOk c s →
      (o.correctDivE = true ∧ n ≠ 0 ∨ (o.correctDivE = true ∨ o.correctCurrents = true) ∧ GW c s) →
      ∃ t rho', c.loop o i n s = .ok t ∧ Loose c Old rho' t ∧ SolverOk c t ∧ GW c t ∧ (t = s ∨ c.Synced t) := by
  induction n with
  | zero =>
    intro i rho s hl hs hg
    exact ⟨s, rho, rfl, hl, hs, (hg.resolve_left fun h => h.2 rfl).2, Or.inl rfl⟩
  | succ n ih =>
    intro i rho s hl hs hg
    obtain ⟨s1, e1, h1⟩ := hl.iterInv c hc o ho i
    obtain ⟨i1, i2, i4⟩ := iter_gauss c hc.Nz hc.Nr hc.threads hc.period o i hs e1
    have hd := hc.dt_pos
    have ha : |if o.movePositions then c.dt else 0| ≤ c.dt := by
      split_ifs
      · rw [abs_of_pos hd]
      · rw [abs_zero]; exact hd.le
    have hb : |c.dt| ≤ c.dt := by rw [abs_of_pos hd]
    have hl1 := h1.loose c hc ha hb
    obtain ⟨w, hw, -⟩ := hl1.wrap c hc
    have hG : c.Gauss (c.rhoHat s1) s1 := by
      apply i4
      rcases hg with h | ⟨h | h, h'⟩
      · exact Or.inl h.1
      · exact Or.inl h
      · exact Or.inr ⟨h, h'⟩
    have hGW : GW c s1 := by
      refine ⟨w, hw, ?_⟩
      rw [rhoHat_congr c fun m => h1.wrap_dep c hc ha hb hw .rho m]
      exact hG
    have hopt : o.correctDivE = true ∨ o.correctCurrents = true := by
      rcases hg with h | h
      · exact Or.inl h.1
      · exact h.1
    obtain ⟨t, rho', e2, l2, g2, g3, g4⟩ := ih (i + 1) _ s1 hl1 (SolverOk_of c hs i1) (Or.inr ⟨hopt, hGW⟩)
    refine ⟨t, rho', (except_bind_ok _ _ _).2 ⟨s1, e1, e2⟩, l2, g2, g3, Or.inr ?_⟩
    rcases g4 with rfl | h
    · exact i2
    · exact h

/-- One call. -/
private theorem step_gauss (hc : Sane c) (o : Opts) (ho : o.correctDivE = true → c.correction = .curlFree) (n : ℕ)
    (rho : ℝ) (s : Sim) (hl : Loose c Old rho s) (hs : SolverOk c s)
    (hg : o.correctDivE = true ∧ n ≠ 0 ∨ (o.correctDivE = true ∨ o.correctCurrents = true) ∧ GaussLaw c s) :
    ∃ t rho', c.step n o s = .ok t ∧ Loose c Old rho' t ∧ SolverOk c t ∧ GaussLaw c t := by
  have law : ∀ (rho : ℝ) (u : Sim), Loose c Old rho u → SolverOk c u → (GaussLaw c u ↔ GW c (c.startFields u)) := by
    intro rho u hu hsu
    obtain ⟨w, hw, hi⟩ := hu.wrap c hc
    exact gaussLaw_iff c hc.threads hsu hw (hi.depOk c hc (by rw [abs_zero]; exact hc.dt_pos.le)
      (by rw [abs_zero]; exact hc.dt_pos.le) _)
  have h0 : Loose c Old rho (c.startFields s) := ⟨hl.box, hl.sp, hl.ptcl, hl.seen⟩
  have hs0 : SolverOk c (c.startFields s) := SolverOk_of c hs fun m hm => start_shape c s hm
  obtain ⟨t, rho', e1, l1, s1, g1, g2⟩ := loop_gauss c hc o ho n 0 rho _ h0 hs0
    (hg.imp id fun h => ⟨h.1, (law rho s hl hs).1 h.2⟩)
  have l2 : Loose c Old rho' (c.endFields t) := ⟨l1.box, l1.sp, l1.ptcl, l1.seen⟩
  have s2 : SolverOk c (c.endFields t) := SolverOk_of c s1 fun m _ => ⟨rfl, rfl, rfl, rfl⟩
  refine ⟨c.endFields t, rho', (except_bind_ok _ _ _).2 ⟨t, e1, rfl⟩, l2, s2, (law rho' _ l2 s2).2 ?_⟩
  obtain ⟨w, hw, hG⟩ := g1
  obtain ⟨w', hw', hr'⟩ := wrap_congr c (s' := c.startFields (c.endFields t)) hw rfl rfl rfl
  refine ⟨w', hw', ?_⟩
  rw [hr']
  have hi : ∀ m, m < c.Nm → ((c.endFields t).interp m).E = (t.interp m).E ∧
      ((c.endFields t).interp m).B = (t.interp m).B := by
    intro m hm
    have : (c.endFields t).interp m = c.interpSources m (t.spect m) (t.interp m) := if_pos hm
    rw [this]
    exact ⟨rfl, rfl⟩
  rcases g2 with rfl | hy
  · intro m hm iz hz ir hr
    have e := start_em c (s := s) (s' := c.endFields (c.startFields s)) hm hz hr (hi m hm).1 (hi m hm).2
    rw [e]
    have hsh : (c.endFields (c.startFields s)).spect m = (c.startFields s).spect m := rfl
    rw [(start_shape c _ hm).2.2.1, (start_shape c _ hm).2.2.2, hsh]
    exact hG m hm iz hz ir hr
  · intro m hm iz hz ir hr
    have := synced_gauss c s1 hy hc.Nr w hG m hm iz hz ir hr
    rw [start_em c (s := t) hm hz hr (hi m hm).1 (hi m hm).2]
    rw [(start_shape c _ hm).2.2.1, (start_shape c _ hm).2.2.2] at this ⊢
    exact this

private theorem calls_gauss (hc : Sane c) (L : List (ℕ × Opts)) :
    ∀ (rho : ℝ) (s : Sim), (∀ x ∈ L, x.2.correctDivE = true → c.correction = .curlFree) →
      (∀ x ∈ L, x.2.correctDivE = true ∨ x.2.correctCurrents = true) → Loose c Old rho s → SolverOk c s → GaussLaw c s →
      ∃ t, c.calls L s = .ok t ∧ SolverOk c t ∧ GaussLaw c t := by
  induction L with
  | nil => intro rho s _ _ _ hs hg; exact ⟨s, rfl, hs, hg⟩
  | cons x L ih =>
    obtain ⟨n, o⟩ := x
    intro rho s ho hoo hl hs hg
    obtain ⟨s1, rho1, e1, l1, s1', g1⟩ := step_gauss c hc o (ho (n, o) (by simp)) n rho s hl hs
      (Or.inr ⟨hoo (n, o) (by simp), hg⟩)
    obtain ⟨t, e2, g2⟩ := ih rho1 s1 (fun x hx => ho x (by simp [hx])) (fun x hx => hoo x (by simp [hx])) l1 s1' g1
    exact ⟨t, (except_bind_ok _ _ _).2 ⟨s1, e1, e2⟩, g2⟩

private theorem iter_shape {L : List (ℕ × Opts)} (hc : Sane c) :
    ∀ (rho : ℝ) (s : Sim), (∀ x ∈ L, x.2.correctDivE = true → c.correction = .curlFree) → Loose c Old rho s →
      SolverOk c s → ∃ t rho', c.calls L s = .ok t ∧ Loose c Old rho' t ∧ SolverOk c t := by
  have hloop : ∀ (o : Opts), (o.correctDivE = true → c.correction = .curlFree) → ∀ (n i : ℕ) (rho : ℝ) (s : Sim),
      Loose c Old rho s → SolverOk c s → ∃ t rho', c.loop o i n s = .ok t ∧ Loose c Old rho' t ∧ SolverOk c t := by
    intro o ho n
    induction n with
    | zero => intro i rho s hl hs; exact ⟨s, rho, rfl, hl, hs⟩
    | succ n ih =>
      intro i rho s hl hs
      obtain ⟨s1, e1, h1⟩ := hl.iter c hc o ho i
      obtain ⟨t, rho', e2, h2, h3⟩ := ih (i + 1) _ s1 h1
        (SolverOk_of c hs (iter_gauss c hc.Nz hc.Nr hc.threads hc.period o i hs e1).1)
      exact ⟨t, rho', (except_bind_ok _ _ _).2 ⟨s1, e1, e2⟩, h2, h3⟩
  induction L with
  | nil => intro rho s _ hl hs; exact ⟨s, rho, rfl, hl, hs⟩
  | cons x L ih =>
    obtain ⟨n, o⟩ := x
    intro rho s ho hl hs
    obtain ⟨t, rho', e1, l1, s1⟩ := hloop o (ho (n, o) (by simp)) n 0 rho (c.startFields s)
      ⟨hl.box, hl.sp, hl.ptcl, hl.seen⟩ (SolverOk_of c hs fun m hm => start_shape c s hm)
    obtain ⟨u, rho'', e2, l2, s2⟩ := ih rho' (c.endFields t) (fun x hx => ho x (by simp [hx]))
      ⟨l1.box, l1.sp, l1.ptcl, l1.seen⟩ (SolverOk_of c s1 fun m _ => ⟨rfl, rfl, rfl, rfl⟩)
    exact ⟨u, rho'', (except_bind_ok _ _ _).2 ⟨_, (except_bind_ok _ _ _).2 ⟨t, e1, rfl⟩, e2⟩, l2, s2⟩

private theorem calls_append (L L' : List (ℕ × Opts)) : ∀ {s t : Sim}, c.calls L s = .ok t →
    c.calls (L ++ L') s = c.calls L' t := by
  induction L with
  | nil => intro s t h; rw [← Except.ok.inj h]; rfl
  | cons x L ih =>
    obtain ⟨n, o⟩ := x
    intro s t h
    obtain ⟨s1, e1, e2⟩ := (except_bind_ok _ _ _).1 h
    show (c.step n o s >>= fun s => c.calls (L ++ L') s) = _
    rw [e1]
    exact ih e2

private theorem loop_divB (hn : 0 < c.nthreads) (o : Opts) (n : ℕ) : ∀ (i : ℕ) (s t : Sim), SolverOk c s →
    (∀ m < c.Nm, (s.spect m).All fun kz kr f => div kz kr f.em.B = 0) → c.loop o i n s = .ok t →
      SolverOk c t ∧ (∀ m < c.Nm, (t.spect m).All fun kz kr f => div kz kr f.em.B = 0) ∧ (t = s ∨ c.Synced t) := by
  induction n with
  | zero => intro i s t hs hB h; rw [← Except.ok.inj h]; exact ⟨hs, hB, Or.inl rfl⟩
  | succ n ih =>
    intro i s t hs hB h
    obtain ⟨s1, e1, e2⟩ := (except_bind_ok _ _ _).1 h
    obtain ⟨h1, h2, h3⟩ := iter_divB c hn o i hs e1
    obtain ⟨g1, g2, g3⟩ := ih (i + 1) s1 t (SolverOk_of c hs h1) (h3 hB) e2
    refine ⟨g1, g2, Or.inr ?_⟩
    rcases g3 with rfl | g
    · exact h2
    · exact g

end

/-! ### C91 -/

/-- **C91** (Gauss' law). If Gauss' law holds between the particles and the electric field on the grid at the
beginning, it holds at the end of any number of calls to `step` that correct the currents or the divergence of E, with
any other options: any particles and fields, any number of modes and time steps, with or without filter, comoving or
Galilean frame, curl-free correction or cross-deposition. -/
theorem C91_gauss (c : Cfg) [NeZero c.Nz] (L : List (ℕ × Opts)) (s : Sim) (h : Spec.Reasonable c L s)
    (hs : SolverOk c s) (ho : ∀ x ∈ L, x.2.correctDivE = true ∨ x.2.correctCurrents = true) (hg : GaussLaw c s) :
    ∃ t, c.calls L s = .ok t ∧ SolverOk c t ∧ GaussLaw c t := by
  have neg : ∀ x y : ℝ, (-1 : ℝ) < cylR x y := fun x y => lt_of_lt_of_le (by norm_num) (Real.sqrt_nonneg _)
  obtain ⟨hc, hl⟩ := reasonable_loose c L s h (-1) (fun _ _ _ _ => neg _ _) fun _ _ => neg _ _
  exact calls_gauss c hc L (-1) s h.opts ho hl hs hg

/-- **C91** (divergence correction). After a call with `correct_divE=True` of at least one step Gauss' law holds,
whatever happened before and whatever the initial fields are. -/
theorem C91_divE (c : Cfg) [NeZero c.Nz] (L : List (ℕ × Opts)) (n : ℕ) (o : Opts) (s : Sim)
    (h : Spec.Reasonable c (L ++ [(n, o)]) s) (hs : SolverOk c s) (hn : n ≠ 0) (ho : o.correctDivE = true) :
    ∃ t, c.calls (L ++ [(n, o)]) s = .ok t ∧ SolverOk c t ∧ GaussLaw c t := by
  have neg : ∀ x y : ℝ, (-1 : ℝ) < cylR x y := fun x y => lt_of_lt_of_le (by norm_num) (Real.sqrt_nonneg _)
  obtain ⟨hc, hl⟩ := reasonable_loose c _ s h (-1) (fun _ _ _ _ => neg _ _) fun _ _ => neg _ _
  obtain ⟨s1, rho1, e1, l1, h1⟩ := iter_shape c (L := L) hc (-1) s (fun x hx => h.opts x (by simp [hx])) hl hs
  obtain ⟨t, -, e2, -, g', g⟩ := step_gauss c hc o (h.opts (n, o) (by simp)) n rho1 s1 l1 h1 (Or.inl ⟨ho, hn⟩)
  refine ⟨t, ?_, g', g⟩
  rw [calls_append c L _ e1]
  show (c.step n o s1 >>= fun s => c.calls [] s) = _
  rw [e2]
  rfl

/-- **C91** (no magnetic charges). If the magnetic field on the grid has no divergence at the beginning, it has none at
the end of any run, with any options, external fields and particles. -/
theorem C91_divB (c : Cfg) [NeZero c.Nz] (hn : 0 < c.nthreads) (L : List (ℕ × Opts)) (s t : Sim)
    (hs : SolverOk c s) (hB : NoMonopoles c s) (h : c.calls L s = .ok t) : NoMonopoles c t := by
  induction L generalizing s with
  | nil => rw [← Except.ok.inj h]; exact hB
  | cons x L ih =>
    obtain ⟨n, o⟩ := x
    obtain ⟨s1, e1, e2⟩ := (except_bind_ok _ _ _).1 h
    obtain ⟨u, e3, e4⟩ := (except_bind_ok _ _ _).1 e1
    have e4 : c.endFields u = s1 := Except.ok.inj e4
    obtain ⟨g1, g2, g3⟩ := loop_divB c hn o n 0 (c.startFields s) u
      (SolverOk_of c hs fun m hm => start_shape c s hm) hB e3
    have hsu : SolverOk c s1 := by
      rw [← e4]; exact SolverOk_of c g1 fun m _ => ⟨rfl, rfl, rfl, rfl⟩
    refine ih s1 hsu ?_ e2
    have hi : ∀ m, m < c.Nm → (s1.interp m).E = (u.interp m).E ∧ (s1.interp m).B = (u.interp m).B := by
      intro m hm
      rw [← e4]
      have : (c.endFields u).interp m = c.interpSources m (u.spect m) (u.interp m) := if_pos hm
      rw [this]
      exact ⟨rfl, rfl⟩
    have key : ∀ v : Sim, (∀ m < c.Nm, (v.interp m).E = (s1.interp m).E ∧ (v.interp m).B = (s1.interp m).B ∧
        (s1.spect m).SameShape (v.spect m)) → NoMonopoles c v → NoMonopoles c s1 := by
      intro v hv hm0 m hm iz ir hz hr
      obtain ⟨v1, v2, v3⟩ := hv m hm
      obtain ⟨b1, b2, b3, b4⟩ := start_shape c s1 hm
      obtain ⟨d1, d2, d3, d4⟩ := start_shape c v hm
      have hz' : iz < c.Nz := by rw [← hsu.Nz m hm, ← b1]; exact hz
      have hr' : ir < c.Nr := by rw [← hsu.Nr m hm, ← b2]; exact hr
      have := hm0 m hm iz ir (by rw [d1, v3.1, hsu.Nz m hm]; exact hz') (by rw [d2, v3.2.1, hsu.Nr m hm]; exact hr')
      dsimp only at this ⊢
      rw [start_em c hm hz' hr' v1 v2, d3, d4, v3.2.2.1, v3.2.2.2] at this
      rw [b3, b4]
      exact this
    rcases g3 with rfl | hy
    · refine key s (fun m hm => ⟨(hi m hm).1.symm, (hi m hm).2.symm, ?_⟩) hB
      rw [← e4]
      obtain ⟨b1, b2, b3, b4⟩ := start_shape c s hm
      exact ⟨b1.symm, b2.symm, b3.symm, b4.symm⟩
    · refine key u (fun m hm => ⟨(hi m hm).1.symm, (hi m hm).2.symm, ?_⟩) (synced_divB c g1 hy g2)
      rw [← e4]
      exact ⟨rfl, rfl, rfl, rfl⟩

/-! ### An example: two modes and two radial cells -/

/-- The matrices of the transforms of two modes. -/
noncomputable def gaussMats (m : ℕ) : Mats :=
  if m = 0 then
    let one : ℕ → ℕ → ℝ := fun i j => if i = j then 1 else 0
    ⟨one, one, one, one, one, one⟩
  else
    let row : ℕ → ℕ → ℝ := fun _ j => if j = 1 then 1 else 0
    let r : ℕ → ℝ := fun j => (j + 1 / 2) / 2
    ⟨hankelM 1 1 (fun _ _ => 0) (fun l _ => if l = 1 then 1 else 0), hankelInvM 1 1 1 r row,
      hankelM 1 2 (fun _ _ => 0) (fun l _ => if l = 1 then 1 else 0), hankelInvM 1 2 1 r row,
      hankelM 1 0 (fun i j => if i = 0 then (if j = 0 then Real.pi else -1) else if j = 0 then 0 else 1) (fun _ _ => 0),
      hankelInvM 1 0 1 r row⟩

noncomputable def gaussCfg (corr : CurrentCorrection) : Cfg :=
  { cubicCfg with Nm := 2, Nr := 2, beta := fun _ _ => List.replicate 3 0, mats := gaussMats, correction := corr }

instance (corr : CurrentCorrection) : NeZero (gaussCfg corr).Nz := ⟨by show (8 : ℕ) ≠ 0; norm_num⟩

/-- An electron at the distance 1 from the axis. -/
noncomputable def gaussSim : Sim :=
  { cubicSim ⟨1, 0, 7.9, ⟨0, 0, 4 / 3, 3 / 5⟩, 0⟩ .linear with
    spect := fun m => ⟨8, 2, fun iz => iz, fun ir => if m ≠ 0 ∧ ir = 0 then 0 else 1,
      fun _ _ => ⟨0, 0, 0, 0, 0, 0, 0, 0, 0, 0, 0, 0, 0, 0, 0, 0, 0⟩⟩ }

theorem gauss_reasonable (corr : CurrentCorrection) (L : List (ℕ × Opts))
    (h : ∀ x ∈ L, x.2.correctDivE = true → corr = .curlFree) : Spec.Reasonable (gaussCfg corr) L gaussSim := by
  constructor <;> try (norm_num [gaussCfg, cubicCfg, gaussSim, cubicSim, Spec.maxCells, Spec.frameVelocity]; done)
  · exact h
  · norm_num [gaussCfg, cubicCfg, gaussSim, cubicSim, Spec.maxCells, Spec.frameVelocity]
    rw [show (9 : ℝ) = 3 ^ 2 by norm_num, show (25 : ℝ) = 5 ^ 2 by norm_num, Real.sqrt_sq (by norm_num),
      Real.sqrt_sq (by norm_num)]

theorem gauss_solver (corr : CurrentCorrection) : SolverOk (gaussCfg corr) gaussSim where
  consts := ⟨one_pos, one_pos, one_pos, by norm_num [gaussCfg, cubicCfg]⟩
  Nz := fun _ _ => rfl
  Nr := fun _ _ => rfl
  trans := by
    intro m hm
    have hm : m < 2 := hm
    have hc : Spec.Covers 8 2 (loop2d 8 2) := covers_loop2d 8 2
    have one : ∀ p, Spec.DhtOk 0 p 2 (fun i j => if i = j then 1 else 0) (fun i j => if i = j then 1 else 0) := by
      intro p
      refine ⟨1, fun _ => 0, fun i j => if i = j then 1 else 0, fun i j => if i = j then 1 else 0, fun _ _ => 0,
        ?_, ?_, ?_, ?_⟩
      · funext i j; simp [hankelInvM]
      · funext i j; simp [hankelM]
      · intro _
        constructor <;>
        · intro i j hi hj
          interval_cases i <;> interval_cases j <;> simp [Finset.sum_range_succ]
      · intro h; exact absurd rfl h.1
    interval_cases m
    · exact ⟨hc, one _, one _, one _⟩
    · exact ⟨hc, exists_transOk.ok0, exists_transOk.okp, exists_transOk.okm⟩
  regular := fun _ _ _ _ => ⟨one_ne_zero, fun v hv => by simp [gaussCfg, cubicCfg] at hv⟩
  kr := by
    intro m _ ir _
    show (if m ≠ 0 ∧ ir = 0 then (0 : ℝ) else 1) = 0 ↔ _
    split_ifs with h <;> simp [h]
  kz := by
    intro _ m _ iz _ h
    left
    have h : (iz : ℝ) = 0 := h
    exact_mod_cast h

example : SolverOk (gaussCfg .crossDeposition) gaussSim := gauss_solver _

/-- The hypotheses of `C91_gauss` can be met, with an electron: one step with the divergence correction from zero
fields leads to such a state. -/
example (L : List (ℕ × Opts)) : ∃ s, (gaussCfg .curlFree).calls [(1, { correctDivE := true })] gaussSim = .ok s ∧
    Spec.Reasonable (gaussCfg .curlFree) L s ∧ SolverOk (gaussCfg .curlFree) s ∧ GaussLaw (gaussCfg .curlFree) s ∧
    GaussLaw (gaussCfg .crossDeposition) s := by
  obtain ⟨t, h1, h2, h3⟩ := C91_divE (gaussCfg .curlFree) [] 1 { correctDivE := true } gaussSim
    (gauss_reasonable _ _ fun _ _ _ => rfl) (gauss_solver _) one_ne_zero rfl
  obtain ⟨t', h1', h4⟩ := C87_total_partial (gaussCfg .curlFree) [(1, { correctDivE := true })] gaussSim
    (gauss_reasonable _ _ fun _ _ _ => rfl)
  have : t' = t := Except.ok.inj (h1'.symm.trans h1)
  subst this
  exact ⟨t', h1, ⟨h4.light, h4.dt, h4.invdz, h4.invdr, h4.Nz, h4.Nr, h4.threads, h4.period, h4.fuel, h4.beta,
    fun _ _ _ => rfl, h4.box, h4.plane, h4.speed, h4.mom, h4.near⟩, h2, h3, h3⟩

/-- A state with a radial magnetic field in mode 0. -/
noncomputable def radialSim : Sim :=
  { gaussSim with interp := fun m => ⟨⟨0, 0, 0⟩, ⟨if m = 0 then fun iz _ => (iz : ℂ) else 0, 0, 0⟩, ⟨0, 0, 0⟩, 0⟩ }

/-- With these matrices it has no divergence. -/
example (corr : CurrentCorrection) : NoMonopoles (gaussCfg corr) radialSim := by
  intro m hm iz ir hz hr
  have hsh := start_shape (gaussCfg corr) radialSim hm
  have hz' : iz < (gaussCfg corr).Nz := by rw [hsh.1] at hz; exact hz
  have hr' : ir < (gaussCfg corr).Nr := by rw [hsh.2.1] at hr; exact hr
  have hm' : m < 2 := hm
  have f0 : ∀ M : ℕ → ℕ → ℝ, Spec.hankel (gaussCfg corr).Nr M (fftAxis0 (gaussCfg corr).Nz false 0) iz ir = 0 := by
    intro M
    unfold Spec.hankel
    refine Finset.sum_eq_zero fun l _ => ?_
    simp [fftAxis0, fftZ]
  rw [start_cell _ _ hm, toSpectScal_eq, toSpectScal_eq, toSpectVect_eq, toSpectVect_eq]
  unfold fwd
  simp only [if_pos (And.intro hz' hr'), SpecCell.em, div]
  have hB : (radialSim.interp m).B.z = 0 := rfl
  have ht : ∀ i j, (radialSim.interp m).B.t i j = 0 := fun _ _ => rfl
  simp only [hB, f0, ht, mul_zero, sub_zero, add_zero]
  interval_cases m
  · simp [gaussCfg, gaussMats]
  · have hr0 : (fun i j => 1 / 2 * (radialSim.interp 1).B.r i j) = 0 := by
      funext i j; simp [radialSim]
    rw [hr0, f0, f0]
    simp

end Fbpic.Pic
