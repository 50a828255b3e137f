import Verif.Lemmas.PicEvent
import Verif.Props.PicGauss

/-!
# Gauss' law in runs with neutral processes
-/

namespace Fbpic.Pic

open Transform ExternalField Step
open Spec (SolverOk GaussLaw)

variable {Old : Seen → Prop}
variable (c : Cfg) [NeZero c.Nz] {Q : List Species → Prop} {ev : Sim → Except PyErr Sim}

/-- Back along the velocity. -/
theorem TX_back (move : Bool) (s : Sim) :
    c.TX (if move then 0.5 * c.dt else 0) (c.movePush move (0.5 * c.dt) (-1) (-1) (-1) (-0.5 * c.dt) s) s := by
  unfold Cfg.movePush Cfg.TX
  rw [shift_species]
  cases move
  · exact Cfg.TX.refl c s
  · show List.Forall₂ _ (s.species.map _) s.species
    rw [List.forall₂_map_left_iff]
    refine List.forall₂_same.2 fun sp _ => ⟨rfl, rfl, rfl, rfl, rfl, rfl, ?_⟩
    show List.Forall₂ _ (sp.ptcl.map _) sp.ptcl
    rw [List.forall₂_map_left_iff]
    refine List.forall₂_same.2 fun p _ => ⟨rfl, rfl, ?_, ?_⟩
    · simp only [Fbpic.pushX, if_true]; ring
    · simp only [Fbpic.pushX, if_true]; ring

/-- One iteration. -/
theorem iterEv_gauss (hc : Sane c) (hev : NeutralEvent Q ev) {rho : ℝ} (o : Opts)
    (ho : o.correctDivE = true → c.correction = .curlFree) (i : ℕ) {s : Sim} (hl : Loose c Old rho s) (hQ : Q s.species)
    (hs : SolverOk c s) : ∃ t, c.iterEv ev o i s = .ok t ∧
      SInv c Old (if o.movePositions then c.dt else 0) c.dt (rho - 3 * (c.k.c * c.dt)) t ∧ Q t.species ∧
      (∀ m < c.Nm, (s.spect m).SameShape (t.spect m)) ∧ c.Synced t ∧
      ((o.correctDivE = true ∨ (o.correctCurrents = true ∧ ∃ w, c.wrapAll s = .ok w ∧ c.Gauss (c.rhoHat w) s)) →
        c.Gauss (c.rhoHat t) t) := by
  obtain ⟨a, b, sps, d, t, ha, hb, -, -, hne, hd, h, hrun, hib, hit, hQt⟩ := iterEv_run c hc hev o ho i hl hQ
  refine ⟨t, hrun, hit, hQt, ?_⟩
  have hn := hc.threads
  have hdt := hc.dt_pos
  obtain ⟨s₁, hw, ka, ra, ta, d1, za⟩ := start_fields c hn i (Or.inl hc.period) (sized_of c hs) ha
  obtain ⟨eb, tb⟩ := half_fields c o ta hb
  have kb : c.Keeps (fun _ => True) a b := .of_eq c _ eb
  set e : Sim := { b with species := sps } with he
  have ke : c.Keeps (fun _ => True) b e := .of_eq c _ rfl
  have hie : SInv c Old (if o.movePositions then 0.5 * c.dt else 0) (0.5 * c.dt) (rho - c.k.c * c.dt / 2) e := hne.inv c hib
  -- the particles of the beginning of the iteration, with and without the process
  set b0 := c.movePush o.movePositions (0.5 * c.dt) (-1) (-1) (-1) (-0.5 * c.dt) b with hb0
  set e0 := c.movePush o.movePositions (0.5 * c.dt) (-1) (-1) (-1) (-0.5 * c.dt) e with he0
  have hz : |(0 : ℝ)| ≤ c.dt := by rw [abs_zero]; exact hdt.le
  have back : ∀ u : Sim, SInv c Old (if o.movePositions then 0.5 * c.dt else 0) (0.5 * c.dt) (rho - c.k.c * c.dt / 2) u →
      c.depOk .rho (c.movePush o.movePositions (0.5 * c.dt) (-1) (-1) (-1) (-0.5 * c.dt) u) := by
    intro u hu
    have := hu.move c hc (dt := 0.5 * c.dt) (px := -1) (pz := -1) (dtg := -0.5 * c.dt) o.movePositions (by norm_num)
    rw [show (if o.movePositions = true then (if o.movePositions = true then 0.5 * c.dt else 0) + 0.5 * c.dt * -1 else
        (if o.movePositions = true then 0.5 * c.dt else 0)) = 0 by split_ifs <;> ring,
      show 0.5 * c.dt + -0.5 * c.dt = 0 by ring] at this
    exact this.depOk c hc hz hz _
  have hdb := back b hib
  have hde := back e hie
  have hn0 : Neutral b0.species e0.species := Neutral.move c (s := b) (t := e) hne _ _ _ _ _ _
  have tb0 : c.TX 0 s₁ b0 := by
    have := tb.move c (dt := 0.5 * c.dt) (px := -1) (pz := -1) (dtg := -0.5 * c.dt) o.movePositions
    rw [show (if o.movePositions = true then (if o.movePositions = true then 0.5 * c.dt else 0) + 0.5 * c.dt * -1 else
        (if o.movePositions = true then 0.5 * c.dt else 0)) = 0 by split_ifs <;> ring] at this
    exact this
  have te : c.TX (if o.movePositions then 0.5 * c.dt else 0) e0 e := TX_back c o.movePositions e
  obtain ⟨kd, rd, cd⟩ := deposit_fields c hn o (ke.sized c (kb.sized c za)) te hde hd
  have kall := ((ka.trans c kb).trans c ke).trans c kd
  have hsd := SolverOk_of c hs fun m hm => (kall m hm).1
  have rp : c.Holds .prev (c.rhoHat s₁) d := kd.holds c rfl (ke.holds c trivial (kb.holds c trivial ra))
  obtain ⟨hcd, -, -, -, hsp, hsync⟩ := iterEnd_ok c o h
  have shp : ∀ m < c.Nm, (s.spect m).SameShape (t.spect m) := by
    intro m hm
    obtain ⟨a1, a2, a3, a4⟩ := (kall m hm).1
    obtain ⟨b1, b2, b3, b4⟩ := endGrid_shape c o (d.spect m)
    rw [hsp m hm]
    exact ⟨b1.trans a1, b2.trans a2, b3.trans a3, b4.trans a4⟩
  refine ⟨shp, hsync, fun ho => ?_⟩
  refine end_gauss c o hc.Nz hc.Nr hn hsd rp rd (fun h1 h2 => ⟨e0, fun m hm ir hr => ?_, cd h1 h2⟩) ?_ h
  · rw [rhoHat_congr c (s := b0) (s' := e0) fun m => hn0.depArr c (movePush_frame c _ _ _ _ _ _ (s := b) (t := e) rfl) _ m]
    exact tb0.row0 c hn hc.Nz hc.Nr d1 hdb hm hr
  · refine ho.imp id fun ⟨h1, w, hw', hG⟩ => ⟨h1, ?_⟩
    have : w = s₁ := Except.ok.inj (hw'.symm.trans hw)
    subst this
    intro m hm iz hz ir hr
    rw [((kall m hm).2 iz hz ir hr).1, (kall m hm).1.2.2.1, (kall m hm).1.2.2.2]
    exact hG m hm iz hz ir hr

/-- The loop of a call. -/
theorem loopEv_gauss (hc : Sane c) (hev : NeutralEvent Q ev) (o : Opts)
    (ho : o.correctDivE = true → c.correction = .curlFree) (n : ℕ) :
    ∀ (i : ℕ) (rho : ℝ) (s : Sim), Loose c Old rho s → Q s.species → SolverOk c s →
      (o.correctDivE = true ∧ n ≠ 0 ∨ (o.correctDivE = true ∨ o.correctCurrents = true) ∧ GW c s) →
      ∃ t rho', c.loopEv ev o i n s = .ok t ∧ Loose c Old rho' t ∧ Q t.species ∧ SolverOk c t ∧ GW c t ∧
        (t = s ∨ c.Synced t) := by
  induction n with
  | zero =>
    intro i rho s hl hQ hs hg
    exact ⟨s, rho, rfl, hl, hQ, hs, (hg.resolve_left fun h => h.2 rfl).2, Or.inl rfl⟩
  | succ n ih =>
    intro i rho s hl hQ hs hg
    obtain ⟨s1, e1, h1, hQ1, i1, i2, i4⟩ := iterEv_gauss c hc hev o ho i hl hQ hs
    have hd := hc.dt_pos
    have ha : |if o.movePositions then c.dt else 0| ≤ c.dt := by
      split_ifs
      · rw [abs_of_pos hd]
      · rw [abs_zero]; exact hd.le
    have hb : |c.dt| ≤ c.dt := by rw [abs_of_pos hd]
    have hl1 := h1.loose c hc ha hb
    obtain ⟨w, hw, -⟩ := hl1.wrap c hc
    have hG : c.Gauss (c.rhoHat s1) s1 := by
      apply i4
      rcases hg with h | ⟨h | h, h'⟩
      · exact Or.inl h.1
      · exact Or.inl h
      · exact Or.inr ⟨h, h'⟩
    have hGW : GW c s1 := by
      refine ⟨w, hw, ?_⟩
      rw [rhoHat_congr c fun m => h1.wrap_dep c hc ha hb hw .rho m]
      exact hG
    have hopt : o.correctDivE = true ∨ o.correctCurrents = true := by
      rcases hg with h | h
      · exact Or.inl h.1
      · exact h.1
    obtain ⟨t, rho', e2, l2, q2, g2, g3, g4⟩ := ih (i + 1) _ s1 hl1 hQ1 (SolverOk_of c hs i1) (Or.inr ⟨hopt, hGW⟩)
    refine ⟨t, rho', (except_bind_ok _ _ _).2 ⟨s1, e1, e2⟩, l2, q2, g2, g3, Or.inr ?_⟩
    rcases g4 with rfl | h
    · exact i2
    · exact h

/-- One call. -/
theorem stepEv_gauss (hc : Sane c) (hev : NeutralEvent Q ev) (o : Opts)
    (ho : o.correctDivE = true → c.correction = .curlFree) (n : ℕ) (rho : ℝ) (s : Sim) (hl : Loose c Old rho s)
    (hQ : Q s.species) (hs : SolverOk c s)
    (hg : o.correctDivE = true ∧ n ≠ 0 ∨ (o.correctDivE = true ∨ o.correctCurrents = true) ∧ GaussLaw c s) :
    ∃ t rho', c.stepEv ev n o s = .ok t ∧ Loose c Old rho' t ∧ Q t.species ∧ SolverOk c t ∧ GaussLaw c t := by
  have law : ∀ (rho : ℝ) (u : Sim), Loose c Old rho u → SolverOk c u → (GaussLaw c u ↔ GW c (c.startFields u)) := by
    intro rho u hu hsu
    obtain ⟨w, hw, hi⟩ := hu.wrap c hc
    exact gaussLaw_iff c hc.threads hsu hw (hi.depOk c hc (by rw [abs_zero]; exact hc.dt_pos.le)
      (by rw [abs_zero]; exact hc.dt_pos.le) _)
  have h0 : Loose c Old rho (c.startFields s) := ⟨hl.box, hl.sp, hl.ptcl, hl.seen⟩
  have hs0 : SolverOk c (c.startFields s) := SolverOk_of c hs fun m hm => start_shape c s hm
  obtain ⟨t, rho', e1, l1, q1, s1, g1, g2⟩ := loopEv_gauss c hc hev o ho n 0 rho _ h0 hQ hs0
    (hg.imp id fun h => ⟨h.1, (law rho s hl hs).1 h.2⟩)
  have l2 : Loose c Old rho' (c.endFields t) := ⟨l1.box, l1.sp, l1.ptcl, l1.seen⟩
  have s2 : SolverOk c (c.endFields t) := SolverOk_of c s1 fun m _ => ⟨rfl, rfl, rfl, rfl⟩
  refine ⟨c.endFields t, rho', (except_bind_ok _ _ _).2 ⟨t, e1, rfl⟩, l2, q1, s2, (law rho' _ l2 s2).2 ?_⟩
  obtain ⟨w, hw, hG⟩ := g1
  obtain ⟨w', hw', hr'⟩ := wrap_congr c (s' := c.startFields (c.endFields t)) hw rfl rfl rfl
  refine ⟨w', hw', ?_⟩
  rw [hr']
  have hi : ∀ m, m < c.Nm → ((c.endFields t).interp m).E = (t.interp m).E ∧
      ((c.endFields t).interp m).B = (t.interp m).B := by
    intro m hm
    have : (c.endFields t).interp m = c.interpSources m (t.spect m) (t.interp m) := if_pos hm
    rw [this]
    exact ⟨rfl, rfl⟩
  rcases g2 with rfl | hy
  · intro m hm iz hz ir hr
    have e := start_em c (s := s) (s' := c.endFields (c.startFields s)) hm hz hr (hi m hm).1 (hi m hm).2
    rw [e]
    have hsh : (c.endFields (c.startFields s)).spect m = (c.startFields s).spect m := rfl
    rw [(start_shape c _ hm).2.2.1, (start_shape c _ hm).2.2.2, hsh]
    exact hG m hm iz hz ir hr
  · intro m hm iz hz ir hr
    have := synced_gauss c s1 hy hc.Nr w hG m hm iz hz ir hr
    rw [start_em c (s := t) hm hz hr (hi m hm).1 (hi m hm).2]
    rw [(start_shape c _ hm).2.2.1, (start_shape c _ hm).2.2.2] at this ⊢
    exact this

theorem callsEv_gauss (hc : Sane c) (hev : NeutralEvent Q ev) (L : List (ℕ × Opts)) :
    ∀ (rho : ℝ) (s : Sim), (∀ x ∈ L, x.2.correctDivE = true → c.correction = .curlFree) →
      (∀ x ∈ L, x.2.correctDivE = true ∨ x.2.correctCurrents = true) → Loose c Old rho s → Q s.species → SolverOk c s →
      GaussLaw c s → ∃ t, c.callsEv ev L s = .ok t ∧ Q t.species ∧ SolverOk c t ∧ GaussLaw c t := by
  induction L with
  | nil => intro rho s _ _ _ hQ hs hg; exact ⟨s, rfl, hQ, hs, hg⟩
  | cons x L ih =>
    obtain ⟨n, o⟩ := x
    intro rho s ho hoo hl hQ hs hg
    obtain ⟨s1, rho1, e1, l1, q1, s1', g1⟩ := stepEv_gauss c hc hev o (ho (n, o) (by simp)) n rho s hl hQ hs
      (Or.inr ⟨hoo (n, o) (by simp), hg⟩)
    obtain ⟨t, e2, g2⟩ := ih rho1 s1 (fun x hx => ho x (by simp [hx])) (fun x hx => hoo x (by simp [hx])) l1 q1 s1' g1
    exact ⟨t, (except_bind_ok _ _ _).2 ⟨s1, e1, e2⟩, g2⟩

end Fbpic.Pic
