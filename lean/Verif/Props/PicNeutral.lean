import Verif.Lemmas.PicNeutral
import Verif.Props.PicGauss

/-!
# C122: the fields stored on the particles

The fields on a charged particle are those of its position in the last iteration. On a neutral species they are the sum
of the external fields of all iterations.
-/

namespace Fbpic.Pic

open Transform ExternalField Step
open Spec (Paired FieldsOf Adds external)

/-- **C122.** After a call of `step` with at least one iteration, the fields stored on a charged particle are those of
the grid and the external ones, at the position and the time at which the last iteration began: nothing is left of the
fields that were stored before. -/
theorem C122_charged (c : Cfg) [NeZero c.Nz] (hn : 0 < c.nthreads) (n : ℕ) (o : Opts) (s t : Sim)
    (h : c.step (n + 1) o s = .ok t) :
    ∃ u, c.loop o 0 n (c.startFields s) = .ok u ∧
      Paired (fun id sp p p' => sp.q ≠ 0 → FieldsOf c u id sp p p'.F) u t := by
  unfold Cfg.step at h
  obtain ⟨v, hv, h⟩ := (except_bind_ok _ _ _).1 h
  rw [loop_last] at hv
  obtain ⟨u, hu, hv⟩ := (except_bind_ok _ _ _).1 hv
  refine ⟨u, hu, ((iter_refilled c hn o _ hv).of_eq (s' := u) (t' := t) rfl ?_).mono ?_⟩
  · rw [← Except.ok.inj h]; rfl
  · rintro id sp p p' ⟨z, m, hz, h1, -⟩ hq
    exact ⟨z, m, hz, h1 hq⟩

/-- **C122, what happens to neutral species.** With a uniform external field, `n` iterations add it `n` times to the field
stored on a neutral particle. -/
theorem C122_neutral (c : Cfg) [NeZero c.Nz] (hn : 0 < c.nthreads) (id : ℕ) (k : Comp) (a : ℝ) (ha : Adds c id k a)
    (n : ℕ) (o : Opts) (s t : Sim) (h : c.step n o s = .ok t) :
    Paired (fun j sp p p' => j = id → sp.q = 0 → p'.F k = p.F k + n * a) s t := by
  unfold Cfg.step at h
  obtain ⟨v, hv, h⟩ := (except_bind_ok _ _ _).1 h
  refine (loop_adds c hn id k a ha o n 0 _ _ hv).of_eq (s' := s) (t' := t) rfl ?_
  rw [← Except.ok.inj h]; rfl

/-- A uniform external field along z, of 1. -/
noncomputable def uniformCfg : Cfg :=
  { gaussCfg .curlFree with ext := [⟨fun F _ _ _ _ a _ => F + a, [(.Ez, 1)], 1, none⟩] }

instance : NeZero uniformCfg.Nz := ⟨by show (8 : ℕ) ≠ 0; norm_num⟩

/-- A particle of the given charge in an empty box. -/
noncomputable def neutralSim (q : ℝ) : Sim :=
  { gaussSim with species := [⟨q, 1, .linear, false, false, none, [⟨⟨1, 0, 7.9, ⟨0, 0, 4 / 3, 3 / 5⟩, 0⟩, 1, fun _ => 0⟩]⟩] }

theorem uniform_adds (id : ℕ) : Adds uniformCfg id .Ez 1 := by
  intro time x y z v
  unfold external
  simp [uniformCfg]

theorem uniform_reasonable (q : ℝ) (L : List (ℕ × Opts)) : Spec.Reasonable uniformCfg L (neutralSim q) := by
  have h := gauss_reasonable .curlFree L fun _ _ _ => rfl
  refine ⟨h.light, h.dt, h.invdz, h.invdr, h.Nz, h.Nr, h.threads, h.period, h.fuel, h.beta, h.opts, h.box, ?_, ?_, ?_, ?_⟩
  · intro sp hs _
    simp only [neutralSim, List.mem_singleton] at hs
    rw [hs]
  · intro sp hs
    simp only [neutralSim, List.mem_singleton] at hs
    rw [hs]
    norm_num [uniformCfg, gaussCfg, cubicCfg, Spec.maxCells, Spec.frameVelocity]
  · intro sp hs p hp
    simp only [neutralSim, List.mem_singleton] at hs
    subst hs
    simp only [List.mem_singleton] at hp
    subst hp
    norm_num
    rw [show (9 : ℝ) = 3 ^ 2 by norm_num, show (25 : ℝ) = 5 ^ 2 by norm_num, Real.sqrt_sq (by norm_num),
      Real.sqrt_sq (by norm_num)]
  · intro sp hs p hp
    simp only [neutralSim, List.mem_singleton] at hs
    subst hs
    simp only [List.mem_singleton] at hp
    subst hp
    norm_num [neutralSim, gaussSim, cubicSim]

theorem uniform_runs (q : ℝ) (n : ℕ) : ∃ t, uniformCfg.step n {} (neutralSim q) = .ok t := by
  obtain ⟨t, ht, -⟩ := C87_total_partial uniformCfg [(n, {})] (neutralSim q) (uniform_reasonable q _)
  obtain ⟨t', ht', -⟩ := (except_bind_ok _ _ _).1 ht
  exact ⟨t', ht'⟩

/-- **C122, not true of neutral species.** In a box without charges and fields, with a uniform external field of 1, the
field stored on a neutral particle is `n` after `n` iterations. -/
theorem C122_neutral_violated : ∃ (c : Cfg) (_ : NeZero c.Nz) (s : Sim),
    (∀ L, Spec.Reasonable c L s) ∧ (∀ id, Adds c id .Ez 1) ∧ (∀ sp ∈ s.species, sp.q = 0) ∧
    (∀ m, (s.interp m).E = ⟨0, 0, 0⟩ ∧ (s.interp m).B = ⟨0, 0, 0⟩) ∧
    ∀ n : ℕ, ∃ (t : Sim) (sp : Species) (p : Ptcl), c.step n {} s = .ok t ∧ t.species[0]? = some sp ∧ sp.ptcl[0]? = some p ∧ p.F .Ez = (n : ℝ) := by
  refine ⟨uniformCfg, inferInstance, neutralSim 0, uniform_reasonable 0, uniform_adds, ?_, fun m => ⟨rfl, rfl⟩, fun n => ?_⟩
  · intro sp hs
    simp only [neutralSim, List.mem_singleton] at hs
    rw [hs]
  obtain ⟨t, ht⟩ := uniform_runs 0 n
  have hp := C122_neutral uniformCfg (uniform_reasonable 0 []).threads 0 .Ez 1 (uniform_adds 0) n {} _ _ ht
  have h0 : (neutralSim 0).species[0]? = some ⟨0, 1, .linear, false, false, none, [⟨⟨1, 0, 7.9, ⟨0, 0, 4 / 3, 3 / 5⟩, 0⟩, 1, fun _ => 0⟩]⟩ := rfl
  have l : 0 < t.species.length := by rw [hp.count]; exact Nat.one_pos
  have h1 : t.species[0]? = some t.species[0] := List.getElem?_eq_getElem l
  have l' : 0 < t.species[0].ptcl.length := by rw [(hp.same 0 _ _ h0 h1).2]; exact Nat.one_pos
  have h2 : t.species[0].ptcl[0]? = some t.species[0].ptcl[0] := List.getElem?_eq_getElem l'
  refine ⟨t, _, _, ht, h1, h2, ?_⟩
  have := hp.ptcl 0 _ _ h0 h1 0 _ _ rfl h2 rfl rfl
  rw [this]
  simp

/-- A run with a charged and a run with a neutral particle in a uniform field. -/
example (n : ℕ) : ∃ t, uniformCfg.step (n + 1) {} (neutralSim (-1)) = .ok t ∧ 0 < uniformCfg.nthreads ∧
    ∃ sp ∈ (neutralSim (-1)).species, sp.q ≠ 0 ∧ sp.ptcl ≠ [] := by
  obtain ⟨t, ht⟩ := uniform_runs (-1) (n + 1)
  exact ⟨t, ht, (uniform_reasonable 0 []).threads, _, List.mem_singleton.2 rfl, by norm_num, by simp⟩

example (n : ℕ) : ∃ t, uniformCfg.step n {} (neutralSim 0) = .ok t ∧ 0 < uniformCfg.nthreads ∧ Adds uniformCfg 0 .Ez 1 := by
  obtain ⟨t, ht⟩ := uniform_runs 0 n
  exact ⟨t, ht, (uniform_reasonable 0 []).threads, uniform_adds 0⟩

end Fbpic.Pic
