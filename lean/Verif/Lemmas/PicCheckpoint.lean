import Verif.Spec.PicCheckpoint
import Verif.Lemmas.PicSplitCalls
import Verif.Lemmas.PicCycleStep

/-!
# Lemmas: what a run keeps
-/

namespace Fbpic.Pic

open Transform ExternalField Step
open Spec (SameStored SameSeen SameResult perIteration cut SetUpLike)

variable (c : Cfg) [NeZero c.Nz]

/-- What no part of the cycle changes in a particle. -/
def Still (_ : Species) (p p' : Ptcl) : Prop :=
  p'.w = p.w ∧ p'.push.level = p.push.level ∧ (p.push.mom.ok → p'.push.mom.ok)

/-- The fields outside of the grid are the same. -/
def Cfg.SameOut (s t : Sim) : Prop := ∀ m < c.Nm, ∀ iz ir, ¬ (iz < c.Nz ∧ ir < c.Nr) →
  (t.interp m).E.r iz ir = (s.interp m).E.r iz ir ∧ (t.interp m).E.t iz ir = (s.interp m).E.t iz ir ∧
  (t.interp m).E.z iz ir = (s.interp m).E.z iz ir ∧ (t.interp m).B.r iz ir = (s.interp m).B.r iz ir ∧
  (t.interp m).B.t iz ir = (s.interp m).B.t iz ir ∧ (t.interp m).B.z iz ir = (s.interp m).B.z iz ir

/-- What is kept between two states of a run. -/
structure Cfg.Kept (s t : Sim) : Prop where
  shape : ∀ m < c.Nm, (s.spect m).SameShape (t.spect m)
  out : c.SameOut s t
  species : List.Forall₂ (SpRel Still) s.species t.species

variable {c}

theorem SameOut_of_EB {s t : Sim} (h : c.SameEB s t) : c.SameOut s t := by
  intro m hm iz ir _
  rw [(h m hm).1, (h m hm).2]
  exact ⟨rfl, rfl, rfl, rfl, rfl, rfl⟩

theorem still_trans {a b d : List Species} (h : List.Forall₂ (SpRel Still) a b) (h' : List.Forall₂ (SpRel Still) b d) :
    List.Forall₂ (SpRel Still) a d := by
  refine forall₂_trans h h' fun x y z h h' => ⟨h'.q.trans h.q, h'.m.trans h.m, h'.shape.trans h.shape, h'.tracer.trans h.tracer,
    h'.ionizable.trans h.ionizable, h'.plane.trans h.plane, ?_⟩
  exact forall₂_trans h.ptcl h'.ptcl fun p q r g g' => ⟨g'.1.trans g.1, g'.2.1.trans g.2.1, fun x => g'.2.2 (g.2.2 x)⟩

theorem still_refl (a : List Species) : List.Forall₂ (SpRel Still) a a :=
  List.forall₂_same.2 fun _ _ => ⟨rfl, rfl, rfl, rfl, rfl, rfl, List.forall₂_same.2 fun _ _ => ⟨rfl, rfl, id⟩⟩

omit [NeZero c.Nz] in
theorem Cfg.Kept.trans {s t u : Sim} (h : c.Kept s t) (h' : c.Kept t u) : c.Kept s u where
  shape := fun m hm => ⟨(h'.shape m hm).1.trans (h.shape m hm).1, (h'.shape m hm).2.1.trans (h.shape m hm).2.1,
    (h'.shape m hm).2.2.1.trans (h.shape m hm).2.2.1, (h'.shape m hm).2.2.2.trans (h.shape m hm).2.2.2⟩
  out := fun m hm iz ir ho => by
    obtain ⟨a1, a2, a3, a4, a5, a6⟩ := h.out m hm iz ir ho
    obtain ⟨b1, b2, b3, b4, b5, b6⟩ := h'.out m hm iz ir ho
    exact ⟨b1.trans a1, b2.trans a2, b3.trans a3, b4.trans a4, b5.trans a5, b6.trans a6⟩
  species := still_trans h.species h'.species

omit [NeZero c.Nz] in
theorem Cfg.Kept.refl (s : Sim) : c.Kept s s where
  shape := fun _ _ => ⟨rfl, rfl, rfl, rfl⟩
  out := fun _ _ _ _ _ => ⟨rfl, rfl, rfl, rfl, rfl, rfl⟩
  species := still_refl _

theorem kept_ptcl {s t : Sim} (hs : t.spect = s.spect) (hi : t.interp = s.interp)
    (h : List.Forall₂ (SpRel Still) s.species t.species) : c.Kept s t where
  shape := fun m _ => by rw [hs]; exact ⟨rfl, rfl, rfl, rfl⟩
  out := SameOut_of_EB (.of_eq c hi)
  species := h

theorem kept_mapM {f : Species → Ptcl → Except PyErr Ptcl} {s t : Sim} (h : s.mapPtclM f = .ok t)
    (hf : ∀ sp p p', f sp p = .ok p' → Still sp p p') : c.Kept s t := by
  obtain ⟨sps, h1, rfl⟩ := (mapPtclM_ok _ _ _).1 h
  exact kept_ptcl rfl rfl (h1.imp fun a b h => ⟨h.q, h.m, h.shape, h.tracer, h.ionizable, h.plane, h.ptcl.imp fun p p' => hf _ _ _⟩)

theorem kept_rho (n : RhoName) (s : Sim) : c.Kept s (c.withRho n s) where
  shape := fun m hm => by
    show (s.spect m).SameShape (onModes c.Nm _ s.spect m)
    simp only [onModes, if_pos hm]
    unfold Cfg.filterSpect
    cases c.filter <;> exact ⟨rfl, rfl, rfl, rfl⟩
  out := SameOut_of_EB (withRho_sameEB c n s)
  species := still_refl _

theorem kept_J (s : Sim) : c.Kept s (c.withJ s) where
  shape := fun m hm => by
    show (s.spect m).SameShape (onModes c.Nm _ s.spect m)
    simp only [onModes, if_pos hm]
    unfold Cfg.filterSpect
    cases c.filter <;> exact ⟨rfl, rfl, rfl, rfl⟩
  out := SameOut_of_EB (withJ_sameEB c s)
  species := still_refl _

theorem interpEB_out (m : ℕ) (g : SpecGrid) (i : Interp) (iz ir : ℕ) (h : ¬ (iz < c.Nz ∧ ir < c.Nr)) :
    (c.interpEB m g i).E.r iz ir = i.E.r iz ir ∧ (c.interpEB m g i).E.t iz ir = i.E.t iz ir ∧
    (c.interpEB m g i).E.z iz ir = i.E.z iz ir ∧ (c.interpEB m g i).B.r iz ir = i.B.r iz ir ∧
    (c.interpEB m g i).B.t iz ir = i.B.t iz ir ∧ (c.interpEB m g i).B.z iz ir = i.B.z iz ir := by
  unfold Cfg.interpEB
  simp only [toInterpVect_eq, toInterpScal_eq, bwd, if_neg h, and_self]

theorem kept_end {o : Opts} {s t : Sim} (h : c.iterEnd o s = .ok t) : c.Kept s t where
  shape := fun m hm => by
    obtain ⟨-, -, -, -, e, -⟩ := iterEnd_ok c o h
    rw [e m hm]
    exact endGrid_shape c o _
  out := fun m hm iz ir ho => by
    obtain ⟨-, -, -, -, -, e⟩ := iterEnd_full o h
    rw [e m hm]
    exact interpEB_out m _ _ iz ir ho
  species := by
    obtain ⟨e, -⟩ := iterEnd_full o h
    rw [e]
    exact still_refl _

theorem pushP_still {t : ℝ} {sp : Species} {p p' : Ptcl} (h : c.pushP t sp p = .ok p') : Still sp p p' := by
  have base : p'.w = p.w ∧ p'.push.level = p.push.level := by
    unfold Cfg.pushP at h
    by_cases hq : sp.q = 0
    · rw [if_pos hq] at h; obtain rfl := Except.ok.inj h; exact ⟨rfl, rfl⟩
    rw [if_neg hq] at h
    cases hp : sp.plane with
    | some b =>
      rw [hp] at h
      dsimp only at h
      by_cases hi : sp.ionizable = true
      · rw [if_pos hi] at h; cases h
      · rw [if_neg hi] at h; obtain rfl := Except.ok.inj h
        refine ⟨rfl, ?_⟩
        show (pushPAfterPlane _ _ _ _ _ _ _).level = _
        unfold pushPAfterPlane
        split_ifs <;> rfl
    | none =>
      rw [hp] at h
      dsimp only at h
      by_cases hi : sp.ionizable = true
      · rw [if_pos hi] at h; obtain rfl := Except.ok.inj h
        refine ⟨rfl, ?_⟩
        show (pushPIoniz _ _ _ _ _ _).level = _
        unfold pushPIoniz
        split_ifs <;> rfl
      · rw [if_neg hi] at h; obtain rfl := Except.ok.inj h; exact ⟨rfl, rfl⟩
  refine ⟨base.1, base.2, fun hok => ?_⟩
  have e : t = (⟨0, 0, t - 0.5 * c.dt, 0, [], fun _ => ⟨⟨0, 0, 0⟩, ⟨0, 0, 0⟩, ⟨0, 0, 0⟩, 0⟩,
    fun _ => ⟨0, 0, fun _ => 0, fun _ => 0, fun _ _ => ⟨0, 0, 0, 0, 0, 0, 0, 0, 0, 0, 0, 0, 0, 0, 0, 0, 0⟩⟩, []⟩ : Sim).time + 0.5 * c.dt := by
    show t = t - 0.5 * c.dt + 0.5 * c.dt
    ring
  rw [e] at h
  exact (pushP_spec c _ sp hok h).2.2.2.2.2.2.1

theorem keptSim (hn : 0 < c.nthreads) (s0 : Sim) : Simulates c c (fun _ => True) (fun s s' => s' = s ∧ c.Kept s0 s) where
  period := rfl
  correction := rfl
  dt := rfl
  iteration := by rintro s _ ⟨rfl, -⟩; rfl
  wrap := by
    rintro _ s ⟨rfl, h⟩ t ht -
    refine ⟨t, ht, rfl, h.trans (kept_mapM ht ?_)⟩
    intro sp p p' hp
    unfold Cfg.wrap at hp
    cases hw : wrapZ s.zmin s.zmax c.fuel p.push.z with
    | none => rw [hw] at hp; cases hp
    | some z => rw [hw] at hp; obtain rfl := Except.ok.inj hp; exact ⟨rfl, rfl, id⟩
  rho := by
    rintro n s _ ⟨rfl, h⟩ t ht -
    obtain ⟨-, e⟩ := (depositRho_ok c hn n _ t).1 ht
    exact ⟨t, ht, rfl, by rw [e]; exact h.trans (kept_rho n _)⟩
  J := by
    rintro _ s ⟨rfl, h⟩ t ht -
    obtain ⟨-, e⟩ := (depositJ_ok c hn _ t).1 ht
    exact ⟨t, ht, rfl, by rw [e]; exact h.trans (kept_J _)⟩
  gather := by
    rintro _ s ⟨rfl, h⟩ t ht -
    refine ⟨t, ht, rfl, h.trans ((kept_ptcl (s := s) (t := s.record) rfl rfl (still_refl s.species)).trans (kept_mapM ht ?_))⟩
    intro sp p p' hp
    unfold Cfg.gatherPtcl at hp
    by_cases hq : sp.q = 0
    · rw [if_pos hq] at hp; obtain rfl := Except.ok.inj hp; exact ⟨rfl, rfl, id⟩
    · rw [if_neg hq] at hp
      obtain ⟨E, -, hp⟩ := (except_bind_ok _ _ _).1 hp
      obtain ⟨B, -, hp⟩ := (except_bind_ok _ _ _).1 hp
      obtain rfl := Except.ok.inj hp; exact ⟨rfl, rfl, id⟩
  exts := by
    rintro _ s ⟨rfl, h⟩
    refine ⟨rfl, h.trans (kept_ptcl rfl rfl ?_)⟩
    unfold Cfg.applyExts
    dsimp only
    rw [List.forall₂_iff_get]
    refine ⟨by simp, fun i h1 h2 => ?_⟩
    simp only [List.get_eq_getElem, List.getElem_mapIdx]
    refine ⟨rfl, rfl, rfl, rfl, rfl, rfl, ?_⟩
    refine (forall₂_fun _ _ _).2 rfl |>.imp ?_
    rintro p _ rfl
    obtain ⟨e1, e2, -⟩ := exts_F c s i .Ex p
    exact ⟨e2, by rw [e1], fun x => by rw [e1]; exact x⟩
  pushP := by
    rintro _ s ⟨rfl, h⟩ t ht -
    exact ⟨t, ht, rfl, h.trans (kept_mapM ht fun _ _ _ => pushP_still)⟩
  pushX := by
    rintro dt a b s _ ⟨rfl, h⟩
    refine ⟨rfl, h.trans (kept_ptcl rfl rfl ?_)⟩
    refine (forall₂_fun _ _ _).2 rfl |>.imp ?_
    rintro sp _ rfl
    refine ⟨rfl, rfl, rfl, rfl, rfl, rfl, ?_⟩
    refine (forall₂_fun _ _ _).2 rfl |>.imp ?_
    rintro p _ rfl
    exact ⟨rfl, rfl, id⟩
  shift := by
    rintro dt s _ ⟨rfl, h⟩
    refine ⟨rfl, h.trans ?_⟩
    unfold Cfg.shiftGalilean
    split_ifs
    · exact kept_ptcl rfl rfl (still_refl _)
    · exact .refl _
  iterEnd := by
    rintro o s _ ⟨rfl, h⟩ t ht -
    exact ⟨t, ht, rfl, h.trans (kept_end ht)⟩
  start := by
    rintro _ s ⟨rfl, h⟩
    exact ⟨rfl, h.trans ⟨fun m hm => start_shape c _ hm, SameOut_of_EB fun _ _ => ⟨rfl, rfl⟩, still_refl _⟩⟩
  finish := by
    rintro _ s ⟨rfl, h⟩
    exact ⟨rfl, h.trans ⟨fun m hm => ⟨rfl, rfl, rfl, rfl⟩, SameOut_of_EB fun m hm => end_EB _ hm, still_refl _⟩⟩

theorem kept_calls (hn : 0 < c.nthreads) {L : List (ℕ × Opts)} {s t : Sim} (h : c.calls L s = .ok t) : c.Kept s t := by
  obtain ⟨t', -, rfl, ht⟩ := (keptSim hn s).calls L s s ⟨rfl, .refl _⟩ t h fun _ _ => trivial
  exact ht

end Fbpic.Pic
