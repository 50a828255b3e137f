import Verif.Lemmas.PicOpenTotal
import Verif.Lemmas.PicSplitCalls

/-!
# Lemmas: two runs with open boundaries that agree on what is stored
-/

namespace Fbpic.Pic

open Transform ExternalField Step
open Spec (SamePtcl SameSpecies' SameStored SameSeen TransOk charges pairSpecies Placed OneProcess transmission MovedHat MovedScal)

/-- Two states in the middle of a run with open boundaries. -/
structure OTwin (c : OCfg) (D : ℕ → ℕ → Prop) (f : Prop) (A : RhoName → Prop) (j r : Prop) (S S' : OSim) : Prop where
  twin : Twin c.base D f A j r S.sim S'.sim
  zminG : S'.zminG = S.zminG
  win : S'.win = S.win
  inj : S'.inj = S.inj
  ants : S'.ants = S.ants

variable {c : OCfg} [NeZero c.base.Nz] {D : ℕ → ℕ → Prop} {f f' : Prop} {A A' : RhoName → Prop} {j j' r r' : Prop}
  {S S' T T' : OSim}

theorem OTwin.mono (h : OTwin c D f A j r S S') (hA : ∀ n, A' n → A n) (hj : j' → j) (hr : r' → r) :
    OTwin c D f A' j' r' S S' := { h with twin := h.twin.mono hA hj hr }

theorem OTwin.symm (h : OTwin c D f A j r S S') : OTwin c D f A j r S' S :=
  ⟨h.twin.symm, h.zminG.symm, h.win.symm, h.inj.symm, h.ants.symm⟩

theorem OTwin.trans (h : OTwin c D f A j r S S') (h' : OTwin c D f A j r S' T) : OTwin c D f A j r S T :=
  ⟨h.twin.trans h'.twin, h'.zminG.trans h.zminG, h'.win.trans h.win, h'.inj.trans h.inj, h'.ants.trans h.ants⟩

theorem OTwin.forget (hf : f' → f) (h : OTwin c D f A j r S S') : OTwin c D f' A j r S S' :=
  { h with twin := h.twin.forget hf }

omit [NeZero c.base.Nz] in
/-- The same relation for states with the same grids. -/
theorem Twin.reframe {b : Cfg} {s s' u u' : Sim} (h : Twin b D f A j r s s') (h1 : u.zmin = s.zmin) (h2 : u.zmax = s.zmax)
    (h3 : u.time = s.time) (h4 : u.iteration = s.iteration) (h5 : u.interp = s.interp) (h6 : u.spect = s.spect)
    (h1' : u'.zmin = s'.zmin) (h2' : u'.zmax = s'.zmax) (h3' : u'.time = s'.time) (h4' : u'.iteration = s'.iteration)
    (h5' : u'.interp = s'.interp) (h6' : u'.spect = s'.spect) (hs : List.Forall₂ (SameSpecies' f') u.species u'.species) :
    Twin b D f' A j r u u' where
  zmin := by rw [h1, h1', h.zmin]
  zmax := by rw [h2, h2', h.zmax]
  time := by rw [h3, h3', h.time]
  iteration := by rw [h4, h4', h.iteration]
  species := hs
  E := by rw [h5, h5']; exact h.E
  B := by rw [h5, h5']; exact h.B
  sized := by unfold Cfg.Sized; rw [h6]; exact h.sized
  sized' := by unfold Cfg.Sized; rw [h6']; exact h.sized'
  kz := by rw [h6, h6']; exact h.kz
  kr := by rw [h6, h6']; exact h.kr
  em := by rw [h6, h6']; exact h.em
  rho := by rw [h6, h6']; exact h.rho
  J := by rw [h5, h5', h6, h6']; exact h.J
  irho := by rw [h5, h5']; exact h.irho

theorem OTwin.charges (h : OTwin c D f A j r S S') : Twin c.base D f A j r (charges c S) (charges c S') := by
  refine h.twin.withSpecies (List.rel_append h.twin.species ?_)
  rw [h.ants]
  exact species_refl _ _

/-! ### Depositions -/

theorem OTwin.depositModes (h : OTwin c D f A j r S S') (x : DepField) : c.depositModes x S' = c.depositModes x S := by
  rw [depositModes_charges c x (S := S') (s := Spec.charges c S') rfl rfl,
    depositModes_charges c x (S := S) (s := Spec.charges c S) rfl rfl]
  unfold Cfg.depositModes
  rw [h.charges.depositing, h.charges.zmin]

theorem OTwin.depRho (hn : 0 < c.base.nthreads) (n : RhoName) (h : OTwin c D f A j r S S') (ht : c.depositRho n S = .ok T) :
    ∃ T', c.depositRho n S' = .ok T' ∧ OTwin c D f (fun n' => A n' ∨ n' = n) j True T T' := by
  have ex : ∃ T', c.depositRho n S' = .ok T' := by
    unfold OCfg.depositRho at ht ⊢
    obtain ⟨a, ha, -⟩ := (except_bind_ok _ _ _).1 ht
    exact ⟨_, (except_bind_ok _ _ _).2 ⟨a, (h.depositModes _).trans ha, rfl⟩⟩
  obtain ⟨T', ht'⟩ := ex
  obtain ⟨t, e, i, m⟩ := emb_rho c n (emb_charges c S) ht
  obtain ⟨t', e', i', m'⟩ := emb_rho c n (emb_charges c S') ht'
  obtain ⟨t'', e'', tw⟩ := h.charges.depRho hn n e
  obtain rfl : t'' = t' := Except.ok.inj (e''.symm.trans e')
  refine ⟨T', ht', ⟨tw.reframe i.zmin.symm i.zmax.symm i.time.symm i.iteration.symm i.interp.symm i.spect.symm i'.zmin.symm
    i'.zmax.symm i'.time.symm i'.iteration.symm i'.interp.symm i'.spect.symm ?_, ?_, ?_, ?_, ?_⟩⟩
  · rw [m.species, m'.species, shiftAll_zero, shiftAll_zero]; exact h.twin.species
  · rw [m.zminG, m'.zminG, h.zminG]
  · rw [m.win, m'.win, h.win]
  · rw [m.inj, m'.inj, h.inj]
  · rw [m.ants, m'.ants, h.ants]

theorem OTwin.depJ (hn : 0 < c.base.nthreads) (h : OTwin c D f A j r S S') (ht : c.depositJ S = .ok T) :
    ∃ T', c.depositJ S' = .ok T' ∧ OTwin c D f A True r T T' := by
  have ex : ∃ T', c.depositJ S' = .ok T' := by
    unfold OCfg.depositJ at ht ⊢
    obtain ⟨a, ha, ht⟩ := (except_bind_ok _ _ _).1 ht
    obtain ⟨a1, ha1, ht⟩ := (except_bind_ok _ _ _).1 ht
    obtain ⟨a2, ha2, -⟩ := (except_bind_ok _ _ _).1 ht
    exact ⟨_, (except_bind_ok _ _ _).2 ⟨a, (h.depositModes _).trans ha, (except_bind_ok _ _ _).2 ⟨a1, (h.depositModes _).trans ha1,
      (except_bind_ok _ _ _).2 ⟨a2, (h.depositModes _).trans ha2, rfl⟩⟩⟩⟩
  obtain ⟨T', ht'⟩ := ex
  obtain ⟨t, e, i, m⟩ := emb_J c (emb_charges c S) ht
  obtain ⟨t', e', i', m'⟩ := emb_J c (emb_charges c S') ht'
  obtain ⟨t'', e'', tw⟩ := h.charges.depJ hn e
  obtain rfl : t'' = t' := Except.ok.inj (e''.symm.trans e')
  refine ⟨T', ht', ⟨tw.reframe i.zmin.symm i.zmax.symm i.time.symm i.iteration.symm i.interp.symm i.spect.symm i'.zmin.symm
    i'.zmax.symm i'.time.symm i'.iteration.symm i'.interp.symm i'.spect.symm ?_, ?_, ?_, ?_, ?_⟩⟩
  · rw [m.species, m'.species, shiftAll_zero, shiftAll_zero]; exact h.twin.species
  · rw [m.zminG, m'.zminG, h.zminG]
  · rw [m.win, m'.win, h.win]
  · rw [m.inj, m'.inj, h.inj]
  · rw [m.ants, m'.ants, h.ants]

/-- The deposition of the current changes nothing else. -/
theorem otwin_J (hn : 0 < c.base.nthreads) (hs : c.base.Sized S.sim) (ht : c.depositJ S = .ok T) :
    OTwin c D f (fun _ => True) False True S T := by
  obtain ⟨t, e, i, m⟩ := emb_J c (emb_charges c S) ht
  obtain ⟨-, rfl⟩ := (depositJ_ok c.base hn _ _).1 e
  refine ⟨(twin_withJ (f := False) (Spec.charges c S) hs).reframe rfl rfl rfl rfl rfl rfl i.zmin.symm
    i.zmax.symm i.time.symm i.iteration.symm i.interp.symm i.spect.symm ?_, ?_, m.win, m.inj, ?_⟩
  · rw [m.species, shiftAll_zero]; exact species_refl _ _
  · rw [m.zminG, drift_zero, add_zero]
  · rw [m.ants, slides_zero]

theorem depJ_total (hn : 0 < c.base.nthreads) (h : c.base.depOk .rho (charges c S)) : ∃ T, c.depositJ S = .ok T := by
  have e := (depositJ_ok c.base hn (charges c S) _).2 ⟨⟨depOk_field _ _ _ h, depOk_field _ _ _ h, depOk_field _ _ _ h⟩, rfl⟩
  unfold Cfg.depositJ at e
  obtain ⟨a, ha, e⟩ := (except_bind_ok _ _ _).1 e
  obtain ⟨a1, ha1, e⟩ := (except_bind_ok _ _ _).1 e
  obtain ⟨a2, ha2, -⟩ := (except_bind_ok _ _ _).1 e
  unfold OCfg.depositJ
  exact ⟨_, (except_bind_ok _ _ _).2 ⟨a, (depositModes_charges c _ (s := charges c S) rfl rfl).trans ha, (except_bind_ok _ _ _).2 ⟨a1,
    (depositModes_charges c _ (s := charges c S) rfl rfl).trans ha1, (except_bind_ok _ _ _).2 ⟨a2, (depositModes_charges c _ (s := charges c S) rfl rfl).trans ha2, rfl⟩⟩⟩⟩

theorem OTwin.move (h : OTwin c D f A j r S S') (move : Bool) (dt px pz dtg : ℝ) :
    OTwin c D f A j r (c.movePush move dt px pz dtg S) (c.movePush move dt px pz dtg S') := by
  have m := moved_push c move dt px pz dtg S
  have m' := moved_push c move dt px pz dtg S'
  refine ⟨?_, ?_, ?_, ?_, ?_⟩
  · rw [movePush_sim, movePush_sim]; exact h.twin.move _ _ _ _ _ _
  · rw [m.zminG, m'.zminG, h.zminG]
  · rw [m.win, m'.win, h.win]
  · rw [m.inj, m'.inj, h.inj]
  · rw [m.ants, m'.ants, h.ants]

/-! ### Exchange -/

theorem zipIdx_forall₂ {α β : Type} {R : α → β → Prop} {l : List α} {l' : List β} (h : List.Forall₂ R l l') :
    ∀ k, List.Forall₂ (fun x y => R x.1 y.1 ∧ y.2 = x.2) (l.zipIdx k) (l'.zipIdx k) := by
  induction h with
  | nil => intro k; exact .nil
  | cons hab _ ih => intro k; exact .cons ⟨hab, rfl⟩ (ih _)

theorem OTwin.exchangeSpecies (h : OTwin c D f A j r S S') (id : ℕ) {sp sp' : Species} (hsp : SameSpecies' f sp sp')
    {x : Species × Option (Injector ℝ)} (hx : c.exchangeSpecies S id sp = .ok x) :
    ∃ x', c.exchangeSpecies S' id sp' = .ok x' ∧ SameSpecies' f x.1 x'.1 ∧ x'.2 = x.2 := by
  unfold OCfg.exchangeSpecies at hx ⊢
  rw [h.inj, h.win, h.twin.zmin, h.twin.zmax, h.twin.time]
  dsimp only at hx ⊢
  by_cases hg : c.comm.nGuard = 0
  · rw [if_pos hg] at hx ⊢
    obtain ⟨l, hl, hx⟩ := (except_bind_ok _ _ _).1 hx
    have hx := Except.ok.inj hx
    obtain ⟨l', e1, e2⟩ := forall₂_diamond (S' := fun p p' => c.base.wrap S.sim.zmin S.sim.zmax p = .ok p')
      (T := SamePtcl (f ∧ sp.q ≠ 0)) (fun p p' q hp hq => by
        unfold Cfg.wrap at hq ⊢
        rw [hp.push]
        split at hq
        · cases hq
          exact ⟨_, rfl, rfl, hp.w, hp.F⟩
        · cases hq) hsp.ptcl ((mapM_ok _ _ _).1 hl)
    refine ⟨_, (except_bind_ok _ _ _).2 ⟨l', (mapM_ok _ _ _).2 e1, rfl⟩, ?_, ?_⟩
    · rw [← hx]; exact ⟨hsp.q, hsp.m, hsp.shape, hsp.tracer, hsp.ionizable, hsp.plane, e2⟩
    · rw [← hx]
  · rw [if_neg hg] at hx ⊢
    have stay := filter_forall₂ (p := fun p : Ptcl => !decide (p.push.z < S.sim.zmin + c.comm.nGuard * c.dz) &&
        !decide (p.push.z > S.sim.zmax - c.comm.nGuard * c.dz)) (q := fun p : Ptcl => !decide (p.push.z < S.sim.zmin +
        c.comm.nGuard * c.dz) && !decide (p.push.z > S.sim.zmax - c.comm.nGuard * c.dz)) hsp.ptcl
        (fun a b hab => by rw [hab.push])
    have keep : ∀ new : List Ptcl, SameSpecies' f { sp with ptcl := sp.ptcl.filter (fun p : Ptcl => !decide (p.push.z < S.sim.zmin +
        c.comm.nGuard * c.dz) && !decide (p.push.z > S.sim.zmax - c.comm.nGuard * c.dz)) ++ new }
        { sp' with ptcl := sp'.ptcl.filter (fun p : Ptcl => !decide (p.push.z < S.sim.zmin +
        c.comm.nGuard * c.dz) && !decide (p.push.z > S.sim.zmax - c.comm.nGuard * c.dz)) ++ new } := fun new =>
      ⟨hsp.q, hsp.m, hsp.shape, hsp.tracer, hsp.ionizable, hsp.plane,
        List.rel_append stay (List.forall₂_same.2 fun _ _ => ⟨rfl, rfl, fun _ => rfl⟩)⟩
    have keep0 := keep []
    rw [List.append_nil, List.append_nil] at keep0
    split at hx
    · split at hx
      · have hx := Except.ok.inj hx
        refine ⟨_, rfl, ?_, ?_⟩
        · rw [← hx]; exact keep _
        · rw [← hx]
      · cases hx
    · have hx := Except.ok.inj hx
      refine ⟨_, rfl, ?_, ?_⟩
      · rw [← hx]; exact keep0
      · rw [← hx]

theorem OTwin.exchange (h : OTwin c D f A j r S S') (ht : c.exchange S = .ok T) :
    ∃ T', c.exchange S' = .ok T' ∧ OTwin c D f A j r T T' := by
  unfold OCfg.exchange at ht ⊢
  obtain ⟨x, hx, ht⟩ := (except_bind_ok _ _ _).1 ht
  obtain ⟨ants, ha, ht⟩ := (except_bind_ok _ _ _).1 ht
  have ht := Except.ok.inj ht
  obtain ⟨x', e1, e2⟩ := forall₂_diamond (S' := fun y z => c.exchangeSpecies S' y.2 y.1 = .ok z)
    (T := fun y z => SameSpecies' f y.1 z.1 ∧ z.2 = y.2) (fun a b y hab hy => by
      rw [hab.2]
      exact h.exchangeSpecies a.2 hab.1 hy) (zipIdx_forall₂ h.twin.species 0) ((mapM_ok _ _ _).1 hx)
  refine ⟨_, (except_bind_ok _ _ _).2 ⟨x', (mapM_ok _ _ _).2 e1, (except_bind_ok _ _ _).2 ⟨ants, ?_, rfl⟩⟩, ?_⟩
  · rw [h.ants, h.zminG]; exact ha
  · rw [← ht]
    refine ⟨h.twin.withSpecies ?_, h.zminG, h.win, ?_, rfl⟩
    · rw [List.forall₂_map_left_iff, List.forall₂_map_right_iff]
      exact e2.imp fun _ _ h => h.1
    · exact (map_forall₂ e2 fun _ _ _ h => h.2.symm).symm

/-! ### The parts of an iteration -/

theorem OTwin.iterStart (hn : 0 < c.base.nthreads) (i i' : ℕ) (h : OTwin c D False A j r S S')
    (hx : c.exchanges i S ↔ c.exchanges i' S') (hA : ¬ c.exchanges i S → A .prev) (ht : c.iterStart i S = .ok T) :
    ∃ T', c.iterStart i' S' = .ok T' ∧ OTwin c D True (fun n => n = .prev) False False T T' := by
  rw [ostart_eq] at ht
  obtain ⟨S2, h2, ht⟩ := (except_bind_ok _ _ _).1 ht
  obtain ⟨S3, h3, ht⟩ := (except_bind_ok _ _ _).1 ht
  obtain ⟨s4, h4, ht⟩ := (except_bind_ok _ _ _).1 ht
  have ht := Except.ok.inj ht
  have st2 : ∃ S2', (if c.exchanges i' S' then c.exchange S' >>= c.depositRho .prev else pure S') = .ok S2' ∧
      OTwin c D False (fun n => n = .prev) False False S2 S2' ∧ (i' = 0 → c.base.depOk .rho (Spec.charges c S2')) := by
    by_cases he : c.exchanges i S
    · rw [if_pos he] at h2
      rw [if_pos (hx.1 he)]
      obtain ⟨S1, h1, h2⟩ := (except_bind_ok _ _ _).1 h2
      obtain ⟨S1', h1', T1⟩ := h.exchange h1
      obtain ⟨S2', h2', T2⟩ := T1.depRho hn .prev h2
      refine ⟨S2', (except_bind_ok _ _ _).2 ⟨S1', h1', h2'⟩, T2.mono (fun n hn => Or.inr hn) (fun x => x.elim) fun x => x.elim, fun _ => ?_⟩
      obtain ⟨f1, f2, f3, -, d, -⟩ := rho_frame c hn _ h2'
      refine depOk_congr c.base (s := Spec.charges c S1') ?_ ?_ d
      · unfold Spec.charges; dsimp only; rw [f2, f3]
      · exact f1.zmin
    · rw [if_neg he] at h2
      rw [if_neg (fun x => he (hx.2 x))]
      have h2 := Except.ok.inj h2
      subst h2
      refine ⟨S', rfl, h.mono (fun n hn => by rw [hn]; exact hA he) (fun x => x.elim) fun x => x.elim, fun h0 => ?_⟩
      exact absurd (hx.2 (Or.inr h0)) he
  obtain ⟨S2', h2', T2, hd⟩ := st2
  have T3 : ∃ S3', (if i' = 0 then c.depositJ S2' else pure S2') = .ok S3' ∧
      OTwin c D False (fun n => n = .prev) False False S3 S3' := by
    have left : OTwin c D False (fun n => n = .prev) False False S3 S2' := by
      split_ifs at h3
      · exact ((otwin_J hn T2.twin.sized h3).symm.mono (fun _ _ => trivial) id fun x => x.elim).trans T2
      · rw [← Except.ok.inj h3]; exact T2
    by_cases hi : i' = 0
    · rw [if_pos hi]
      obtain ⟨S3', e⟩ := depJ_total hn (hd hi)
      exact ⟨S3', e, left.trans ((otwin_J hn T2.twin.sized' e).mono (fun _ _ => trivial) id fun x => x.elim)⟩
    · rw [if_neg hi]
      exact ⟨_, rfl, left⟩
  obtain ⟨S3', h3', T3⟩ := T3
  obtain ⟨s4', h4', T4⟩ := T3.twin.gather h4
  refine ⟨{ S3' with sim := c.base.applyExts s4' }, ?_, ?_⟩
  · rw [ostart_eq]
    exact (except_bind_ok _ _ _).2 ⟨S2', h2', (except_bind_ok _ _ _).2 ⟨S3', h3', (except_bind_ok _ _ _).2 ⟨s4', h4', rfl⟩⟩⟩
  · rw [← ht]
    exact ⟨T4.exts, T3.zminG, T3.win, T3.inj, T3.ants⟩

theorem OTwin.iterHalf (o : Opts) (h : OTwin c D True A j r S S') (ht : c.iterHalf o S = .ok T) :
    ∃ T', c.iterHalf o S' = .ok T' ∧ OTwin c D True A j r T T' := by
  have hs := half_sim c o ht
  obtain ⟨t', hs', tw⟩ := h.twin.iterHalf o hs
  have ex : ∃ T', c.iterHalf o S' = .ok T' := by
    rw [iterHalf_eq] at hs'
    obtain ⟨s1, h1, -⟩ := (except_bind_ok _ _ _).1 hs'
    unfold OCfg.iterHalf
    exact ⟨_, (except_bind_ok _ _ _).2 ⟨s1, h1, rfl⟩⟩
  obtain ⟨T', ht'⟩ := ex
  have hs'' := half_sim c o ht'
  obtain rfl : T'.sim = t' := Except.ok.inj (hs''.symm.trans hs')
  obtain ⟨r1, r2, r3, r4⟩ := half_rest c o ht
  obtain ⟨q1, q2, q3, q4⟩ := half_rest c o ht'
  refine ⟨T', ht', tw, ?_, ?_, ?_, ?_⟩
  · rw [q2, r2, h.zminG]
  · rw [q3, r3, h.win]
  · rw [q4, r4, h.inj]
  · rw [q1, r1, h.ants, h.twin.time]

theorem OTwin.iterDeposit (hn : 0 < c.base.nthreads) (o : Opts) (h : OTwin c D True (fun n => n = .prev) j r S S')
    (ht : c.iterDeposit o S = .ok T) : ∃ T', c.iterDeposit o S' = .ok T' ∧ OTwin c D True (c.base.Needed o) True True T T' := by
  rw [oiterDeposit_eq] at ht
  obtain ⟨s2, h2, ht⟩ := (except_bind_ok _ _ _).1 ht
  obtain ⟨s3, h3, ht⟩ := (except_bind_ok _ _ _).1 ht
  obtain ⟨s2', h2', T2⟩ := h.depJ hn h2
  have key : ∃ s3', c.maybeCross o s2' = .ok s3' ∧ OTwin c D True (fun n => n = .prev ∨ n ≠ .next ∧
      (o.correctCurrents = true ∧ c.base.correction = .crossDeposition)) True False s3 s3' := by
    unfold OCfg.maybeCross at h3 ⊢
    split at h3
    · rename_i hcc hco
      rw [ocrossDeposit_eq] at h3
      obtain ⟨sX, hX, h3⟩ := (except_bind_ok _ _ _).1 h3
      obtain ⟨sZ, hZ, h3⟩ := (except_bind_ok _ _ _).1 h3
      have h3 := Except.ok.inj h3
      obtain ⟨sX', hX', TX⟩ := (T2.move o.movePositions (0.5 * c.base.dt) 1 (-1) (-0.5 * c.base.dt)).depRho hn .nextXY hX
      obtain ⟨sZ', hZ', TZ⟩ := (TX.move o.movePositions c.base.dt (-1) 1 c.base.dt).depRho hn .nextZ hZ
      refine ⟨c.movePush o.movePositions (0.5 * c.base.dt) 1 (-1) (-0.5 * c.base.dt) sZ', ?_, ?_⟩
      · rw [ocrossDeposit_eq]
        exact (except_bind_ok _ _ _).2 ⟨sX', hX', (except_bind_ok _ _ _).2 ⟨sZ', hZ', rfl⟩⟩
      · rw [← h3]
        refine (TZ.move o.movePositions (0.5 * c.base.dt) 1 (-1) (-0.5 * c.base.dt)).mono ?_ id fun x => x.elim
        rintro n (rfl | ⟨hne, -⟩)
        · exact Or.inl (Or.inl rfl)
        · cases n with
          | prev => exact Or.inl (Or.inl rfl)
          | next => exact absurd rfl hne
          | nextZ => exact Or.inr rfl
          | nextXY => exact Or.inl (Or.inr rfl)
    · rename_i hne
      have e := Except.ok.inj h3
      subst e
      refine ⟨s2', rfl, T2.mono ?_ id fun x => x.elim⟩
      rintro n (rfl | ⟨-, h1, h2⟩)
      · rfl
      · exact absurd h2 (hne h1)
  obtain ⟨s3', h3', T3⟩ := key
  obtain ⟨t', ht', T⟩ := (T3.move o.movePositions (0.5 * c.base.dt) 1 1 (0.5 * c.base.dt)).depRho hn .next ht
  refine ⟨t', ?_, T.mono ?_ id id⟩
  · rw [oiterDeposit_eq]
    exact (except_bind_ok _ _ _).2 ⟨s2', h2', (except_bind_ok _ _ _).2 ⟨s3', h3', ht'⟩⟩
  · rintro n (rfl | rfl | hh)
    · exact Or.inl (Or.inl rfl)
    · exact Or.inr rfl
    · cases n with
      | prev => exact Or.inl (Or.inl rfl)
      | next => exact Or.inr rfl
      | nextZ => exact Or.inl (Or.inr ⟨by decide, hh⟩)
      | nextXY => exact Or.inl (Or.inr ⟨by decide, hh⟩)

end Fbpic.Pic
