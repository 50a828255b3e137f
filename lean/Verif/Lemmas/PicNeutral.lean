import Verif.Lemmas.PicCycleStep
import Verif.Spec.PicNeutral

/-!
# Lemmas: the fields stored on the particles
-/

namespace Fbpic.Pic

open Transform ExternalField Step
open Spec (Paired Wrapped external FieldsAt FieldsOf Adds)

variable (c : Cfg)

/-- What an iteration does to the fields of a particle. -/
def Cfg.Refilled (s : Sim) (id : ℕ) (sp : Species) (p p' : Ptcl) : Prop :=
  ∃ (z : ℝ) (n : ℤ), z = p.push.z + n * (s.zmax - s.zmin) ∧
    (sp.q ≠ 0 → FieldsAt c s id sp p.push.x p.push.y z p'.F) ∧
    (sp.q = 0 → ∀ k, p'.F k = external c s.time id p.push.x p.push.y z k (p.F k))

theorem gather_neutral (s : Sim) (id : ℕ) (sp : Species) {p p1 p2 : Ptcl} (hq : sp.q = 0)
    (h1 : c.gatherPtcl s sp p = .ok p1) (h2 : p2 = c.ext.foldl (fun p e => applyExt e s.time id p) p1) (k : Comp) :
    p2.F k = external c s.time id p.push.x p.push.y p.push.z k (p.F k) := by
  unfold Cfg.gatherPtcl at h1
  rw [if_pos hq] at h1
  rw [h2, ← Except.ok.inj h1]
  exact (exts_F c s id k p).2.2

section
variable [NeZero c.Nz]

/-- The depositions and the exchange before the fields are gathered. -/
theorem before_gather (hn : 0 < c.nthreads) (i : ℕ) {s s3 : Sim}
    (h : ((if s.iteration % c.exchangePeriod = 0 ∨ i = 0 then c.wrapAll s >>= c.depositRho .prev else pure s)
      >>= fun s => (if i = 0 then c.depositJ s else pure s)) = .ok s3) :
    Paired (fun _ _ p p' => ∃ (z : ℝ) (n : ℤ), z = p.push.z + n * (s.zmax - s.zmin) ∧
      p' = { p with push := { p.push with z := z } }) s s3 ∧ c.SameEB s s3 ∧ s3.zmin = s.zmin ∧ s3.time = s.time := by
  obtain ⟨s2, h2, h3⟩ := (except_bind_ok _ _ _).1 h
  have one : Paired (fun _ _ p p' => ∃ (z : ℝ) (n : ℤ), z = p.push.z + n * (s.zmax - s.zmin) ∧
      p' = { p with push := { p.push with z := z } }) s s2 ∧ c.SameEB s s2 ∧ s2.zmin = s.zmin ∧ s2.time = s.time := by
    by_cases he : s.iteration % c.exchangePeriod = 0 ∨ i = 0
    · rw [if_pos he] at h2
      obtain ⟨s1, h1, h2⟩ := (except_bind_ok _ _ _).1 h2
      obtain ⟨-, rfl⟩ := (depositRho_ok c hn _ _ _).1 h2
      obtain ⟨l1, f1, e1⟩ := (mapPtclM_ok _ _ _).1 h1
      have p1 : Paired (fun _ _ p p' => c.wrap s.zmin s.zmax p = .ok p') s s1 := Paired.of_forall₂ (by rw [e1]; exact f1)
      refine ⟨(p1.of_eq (s' := s) (t' := c.withRho .prev s1) rfl rfl).mono ?_, ?_, ?_, ?_⟩
      · intro _ _ p p' hw
        obtain ⟨z, hz, rfl⟩ := wrap_spec c hw
        obtain ⟨n, hn⟩ := hz.periods
        exact ⟨z, n, hn, rfl⟩
      · exact (Cfg.SameEB.of_eq c (s := s) (t := s1) (by rw [e1])).trans c (withRho_sameEB c _ s1)
      · show s1.zmin = _; rw [e1]
      · show s1.time = _; rw [e1]
    · rw [if_neg he] at h2
      rw [← Except.ok.inj h2]
      refine ⟨(Paired.refl s).mono ?_, .of_eq c rfl, rfl, rfl⟩
      rintro _ _ p p' rfl
      exact ⟨p'.push.z, 0, by simp, rfl⟩
  obtain ⟨a1, a2, a3, a4⟩ := one
  by_cases hi : i = 0
  · rw [if_pos hi] at h3
    obtain ⟨-, rfl⟩ := (depositJ_ok c hn _ _).1 h3
    exact ⟨a1.of_eq rfl rfl, a2.trans c (withJ_sameEB c s2), a3, a4⟩
  · rw [if_neg hi] at h3
    rw [← Except.ok.inj h3]
    exact ⟨a1, a2, a3, a4⟩

theorem start_refilled (hn : 0 < c.nthreads) (i : ℕ) {s t : Sim} (h : c.iterStart i s = .ok t) :
    Paired (c.Refilled s) s t := by
  rw [iterStart_eq] at h
  obtain ⟨s2, h2, h⟩ := (except_bind_ok _ _ _).1 h
  obtain ⟨s3, h3, h⟩ := (except_bind_ok _ _ _).1 h
  obtain ⟨s4, h4, h⟩ := (except_bind_ok _ _ _).1 h
  have ht : c.applyExts s4 = t := Except.ok.inj h
  obtain ⟨p1, q3, hz3, ht3⟩ := before_gather c hn i (s := s) (s3 := s3) ((except_bind_ok _ _ _).2 ⟨s2, h2, h3⟩)
  obtain ⟨l4, f4, e4⟩ := (mapPtclM_ok _ _ _).1 h4
  have p4 : Paired (fun _ sp p p' => c.gatherPtcl s3 sp p = .ok p') s3 s4 := by
    refine (Paired.of_forall₂ (s := s3.record) (t := s4) (P := fun sp p p' => c.gatherPtcl s3 sp p = .ok p') (by rw [e4]; exact f4)).of_eq rfl rfl
  have p5 := Paired.exts c s4
  rw [ht] at p5
  refine ((p1.trans p4).trans p5).mono ?_
  rintro id sp p p' ⟨p2, ⟨p1, ⟨z, n, hz, rfl⟩, l, hg⟩, l', he⟩
  have htime : s4.time = s3.time := by rw [e4]; rfl
  rw [htime] at he
  refine ⟨z, n, hz, fun hq => ?_, fun hq k => ?_⟩
  · exact FieldsAt_congr c q3 hz3 ht3 ((gather_fields c s3 id { sp with ptcl := l } hg he).2.2 hq)
  · rw [← ht3]
    exact gather_neutral c s3 id { sp with ptcl := l } hq hg he k

theorem pushP_F (t : ℝ) (sp : Species) {p p' : Ptcl} (h : c.pushP t sp p = .ok p') : p'.F = p.F := by
  unfold Cfg.pushP at h
  by_cases hq : sp.q = 0
  · rw [if_pos hq] at h; rw [← Except.ok.inj h]
  rw [if_neg hq] at h
  split at h
  · by_cases hi : sp.ionizable = true
    · rw [if_pos hi] at h; cases h
    · rw [if_neg hi] at h; rw [← Except.ok.inj h]
  · by_cases hi : sp.ionizable = true
    · rw [if_pos hi] at h; rw [← Except.ok.inj h]
    · rw [if_neg hi] at h; rw [← Except.ok.inj h]

theorem half_F (o : Opts) {a b : Sim} (h : c.iterHalf o a = .ok b) : Paired (fun _ _ p p' => p'.F = p.F) a b := by
  rw [iterHalf_eq] at h
  obtain ⟨a1, h1, h⟩ := (except_bind_ok _ _ _).1 h
  have hb : c.movePush o.movePositions (0.5 * c.dt) 1 1 1 (0.5 * c.dt) a1 = b := Except.ok.inj h
  have k1 : Paired (fun _ _ p p' => p'.F = p.F) a a1 := by
    by_cases hm : o.moveMomenta = true
    · rw [if_pos hm] at h1
      obtain ⟨l1, f1, e1⟩ := (mapPtclM_ok _ _ _).1 h1
      refine (Paired.of_forall₂ (P := fun sp p p' => c.pushP (a.time + 0.5 * c.dt) sp p = .ok p') (by rw [e1]; exact f1)).mono ?_
      exact fun _ sp p p' hp => pushP_F c _ sp hp
    · rw [if_neg hm] at h1
      rw [← Except.ok.inj h1]
      exact (Paired.refl a).mono fun _ _ p p' e => by rw [e]
  have mv : b.species = c.shiftAll (if o.movePositions then 0.5 * c.dt else 0) (if o.movePositions then 0.5 * c.dt else 0)
      a1.species := by
    rw [← hb, movePush_species]; simp
  refine (k1.trans (shiftAll_paired c mv)).mono ?_
  rintro _ sp p p' ⟨p2, h2, l, rfl⟩
  exact h2

/-- One iteration. -/
theorem iter_refilled (hn : 0 < c.nthreads) (o : Opts) (i : ℕ) {s t : Sim} (h : c.iter o i s = .ok t) :
    Paired (c.Refilled s) s t := by
  rw [iter_eq] at h
  by_cases hp : c.exchangePeriod = 0
  · rw [if_pos hp] at h; cases h
  rw [if_neg hp] at h
  obtain ⟨a, ha, h⟩ := (except_bind_ok _ _ _).1 h
  obtain ⟨b, hb, h⟩ := (except_bind_ok _ _ _).1 h
  obtain ⟨d, hd, hu⟩ := (except_bind_ok _ _ _).1 h
  have pa := start_refilled c hn i ha
  have pb := half_F c o hb
  have pd := shiftAll_paired c (deposit_ptcl c hn o hd).1
  have e1 := (iterEnd_full o hu).1
  refine (((pa.trans pb).trans pd).of_eq (s' := s) (t' := t) rfl e1).mono ?_
  rintro id sp p p' ⟨p2, ⟨p1, ⟨z, n, hz, h1, h2⟩, l, hF⟩, l', rfl⟩
  refine ⟨z, n, hz, fun hq => ?_, fun hq k => ?_⟩
  · have : (c.shiftP (if o.movePositions then 0.5 * c.dt else 0) (if o.movePositions then 0.5 * c.dt else 0) p2).F = p1.F := hF
    rw [this]; exact h1 hq
  · have : (c.shiftP (if o.movePositions then 0.5 * c.dt else 0) (if o.movePositions then 0.5 * c.dt else 0) p2).F = p1.F := hF
    rw [this]; exact h2 hq k

/-- The last iteration of several. -/
theorem loop_last (o : Opts) (n : ℕ) : ∀ (i : ℕ) (s : Sim), c.loop o i (n + 1) s = c.loop o i n s >>= c.iter o (i + n) := by
  induction n with
  | zero =>
    intro i s
    show (c.iter o i s >>= fun s => c.loop o (i + 1) 0 s) = c.iter o (i + 0) s
    rw [add_zero]
    cases c.iter o i s <;> rfl
  | succ n ih =>
    intro i s
    show (c.iter o i s >>= fun s => c.loop o (i + 1) (n + 1) s) = (c.iter o i s >>= fun s => c.loop o (i + 1) n s) >>= _
    cases hs : c.iter o i s with
    | error e => rfl
    | ok s' =>
      show c.loop o (i + 1) (n + 1) s' = c.loop o (i + 1) n s' >>= _
      rw [ih, show i + 1 + n = i + (n + 1) by omega]

theorem loop_adds (hn : 0 < c.nthreads) (id : ℕ) (k : Comp) (a : ℝ) (ha : Adds c id k a) (o : Opts) (n : ℕ) :
    ∀ (i : ℕ) (s t : Sim), c.loop o i n s = .ok t →
      Paired (fun j sp p p' => j = id → sp.q = 0 → p'.F k = p.F k + n * a) s t := by
  induction n with
  | zero =>
    intro i s t h
    rw [← Except.ok.inj h]
    exact (Paired.refl s).mono fun _ _ p p' e _ _ => by rw [e]; simp
  | succ n ih =>
    intro i s t h
    obtain ⟨u, hu, h⟩ := (except_bind_ok _ _ _).1 h
    refine ((iter_refilled c hn o i hu).trans (ih _ _ _ h)).mono ?_
    rintro j sp p p' ⟨p1, ⟨z, m, hz, -, h2⟩, l, h3⟩ rfl hq
    rw [h3 rfl hq, h2 hq k, ha]
    push_cast
    ring

end

end Fbpic.Pic
