import Verif.Lemmas.PicSplitCalls
import Verif.Props.PicGauss

/-!
# C92: what a run depends on, and its division into calls of `step`
-/

namespace Fbpic.Pic

open Transform ExternalField Step
open Spec (SamePtcl SameSpecies' SameStored SameSeen SameResult SolverOk TransOk perIteration)

private theorem both_trans {c : Cfg} [NeZero c.Nz] {x y z : Except PyErr Sim} (h : Both (fun a b => SameSeen c a (c.endFields b)) x y)
    (h' : Both (fun a b => SameSeen c a (c.endFields b)) z y) : SameResult c x z := by
  constructor
  · intro a ha
    obtain ⟨b, hb, h1⟩ := h.1 a ha
    obtain ⟨d, hd, h2⟩ := h'.2 b hb
    exact ⟨d, hd, SameSeen.trans h1 (SameSeen.symm h2)⟩
  · intro a ha
    obtain ⟨b, hb, h1⟩ := h'.1 a ha
    obtain ⟨d, hd, h2⟩ := h.2 b hb
    exact ⟨d, hd, SameSeen.trans h2 (SameSeen.symm h1)⟩

private theorem stored_step {c : Cfg} [NeZero c.Nz] (hn : 0 < c.nthreads) (hp : c.exchangePeriod = 1) (n : ℕ) (o : Opts) {s s' : Sim}
    (h : SameStored c s s') : Both (SameSeen c) (c.step (n + 1) o s) (c.step (n + 1) o s') := by
  have blind : c.Blind fun _ _ => False := fun _ _ _ _ h => h.elim
  have hb := (twin_start h).both hn hp blind ((List.range' 0 (n + 1)).map fun i => (o, i))
    ((List.range' 0 (n + 1)).map fun i => (o, i)) (by rw [List.range'_succ]; simp) rfl (fun _ _ _ _ h => h.elim)
  have e : ∀ t, c.step (n + 1) o t = (c.iters ((List.range' 0 (n + 1)).map fun i => (o, i)) (c.startFields t)) >>=
      fun a => Except.ok (c.endFields a) := by
    intro t
    unfold Cfg.step
    rw [loop_iters]
    rfl
  rw [e, e]
  exact hb.bind fun a b h => Both.pure h.1.finish

/-- **C92** (what a run depends on): the position of the grid, the time, the particles and the fields E and B on the
grid are all that matters. Two states that agree on these lead to the same results, or to an exception in both
cases, whatever the other arrays hold: the spectral grids, J, rho, and the fields on the particles. No hypothesis is
needed about the transforms. -/
theorem C92_stored (c : Cfg) [NeZero c.Nz] (hn : 0 < c.nthreads) (hp : c.exchangePeriod = 1) (L : List (ℕ × Opts))
    (hL : L ≠ []) (hpos : ∀ x ∈ L, 0 < x.1) (s s' : Sim) (h : SameStored c s s') :
    SameResult c (c.calls L s) (c.calls L s') := by
  suffices H : Both (SameSeen c) (c.calls L s) (c.calls L s') from H
  induction L generalizing s s' with
  | nil => exact absurd rfl hL
  | cons x L ih =>
    obtain ⟨n, o⟩ := x
    obtain ⟨k, rfl⟩ : ∃ k, n = k + 1 := ⟨n - 1, by have := hpos (n, o) (by simp); simp only at this; omega⟩
    refine (stored_step hn hp k o h).bind fun a b hab => ?_
    by_cases hl : L = []
    · subst hl
      exact Both.pure hab
    · exact ih hl (fun x hx => hpos x (by simp [hx])) a b hab.toSameStored

/-- **C92** (division into calls): if two sequences of calls of `step` make the same iterations with the same options,
and at least one, then they lead to the same results from states that agree on what is stored: particles, fields, current
and charge density on the grid, time and iteration; or there is an exception in both cases. -/
theorem C92_calls (c : Cfg) [NeZero c.Nz] (hn : 0 < c.nthreads) (hp : c.exchangePeriod = 1)
    (hT : ∀ m < c.Nm, TransOk m (c.trans m)) (L L' : List (ℕ × Opts)) (hL : perIteration L = perIteration L')
    (hne : perIteration L ≠ []) (s s' : Sim) (h : SameStored c s s')
    (hk : ∀ m < c.Nm, m ≠ 0 → 0 < c.Nr → (s.spect m).kr 0 = 0) :
    SameResult c (c.calls L s) (c.calls L' s') := by
  have hkr : ∀ m < c.Nm, ∀ ir < c.Nr, Low m ir → ((c.startFields s).spect m).kr ir = 0 := by
    rintro m hm ir hr ⟨h0, rfl⟩
    rw [(start_shape c s hm).2.2.2]
    exact hk m hm h0 hr
  have hs : SameStored c s s :=
    { zmin := rfl, zmax := rfl, time := rfl, iteration := rfl, species := species_refl _ _
      E := fun _ _ => rfl, B := fun _ _ => rfl
      Nz := fun m hm => ⟨(h.Nz m hm).1, (h.Nz m hm).1⟩
      Nr := fun m hm => ⟨(h.Nr m hm).1, (h.Nr m hm).1⟩
      kz := fun _ _ => rfl
      kr := fun _ _ => rfl }
  have b1 : c.Before s (c.startFields s) := ⟨(twin_start hs).widen fun _ _ x => x.elim, hkr⟩
  have b2 : c.Before s' (c.startFields s) := ⟨((twin_start h).symm).widen fun _ _ x => x.elim, hkr⟩
  have e : ((perIteration L).map fun o => (o, 0)).map Prod.fst = perIteration L := by
    rw [List.map_map]
    exact List.map_id _
  have c1 := calls_both hn hp hT L ((perIteration L).map fun o => (o, 0)) _ _ e b1
  have c2 := calls_both hn hp hT L' ((perIteration L).map fun o => (o, 0)) _ _ (e.trans hL) b2
  exact both_trans (c1.mono fun _ _ q => (q.2 (Or.inl hne)).same) (c2.mono fun _ _ q => (q.2 (Or.inl (hL ▸ hne))).same)

/-- **C92** (interruption): to make `N + M` iterations in one call, or `N` and then `M`. -/
theorem C92_split (c : Cfg) [NeZero c.Nz] (hn : 0 < c.nthreads) (hp : c.exchangePeriod = 1) (N M : ℕ) (hN : 0 < N + M) (o : Opts)
    (s : Sim) (hs : SolverOk c s) : SameResult c (c.calls [(N + M, o)] s) (c.calls [(N, o), (M, o)] s) := by
  refine C92_calls c hn hp hs.trans _ _ ?_ ?_ s s ?_ ?_
  · show List.replicate (N + M) o ++ [] = List.replicate N o ++ (List.replicate M o ++ [])
    rw [List.append_nil, List.append_nil, List.replicate_append_replicate]
  · intro h
    have := congrArg List.length h
    simp only [perIteration, List.flatMap_cons, List.flatMap_nil, List.append_nil, List.length_replicate, List.length_nil] at this
    omega
  · exact
    { zmin := rfl, zmax := rfl, time := rfl, iteration := rfl, species := species_refl _ _
      E := fun _ _ => rfl, B := fun _ _ => rfl
      Nz := fun m hm => ⟨hs.Nz m hm, hs.Nz m hm⟩
      Nr := fun m hm => ⟨hs.Nr m hm, hs.Nr m hm⟩
      kz := fun _ _ => rfl
      kr := fun _ _ => rfl }
  · intro m hm h0 hr
    exact (hs.kr m hm 0 hr).2 ⟨h0, rfl⟩

/-- The hypotheses can be met with an electron that moves, and both runs succeed. -/
example (corr : CurrentCorrection) : ∃ t t', (gaussCfg corr).calls [(5, {})] gaussSim = .ok t ∧
    (gaussCfg corr).calls [(2, {}), (0, { correctDivE := true }), (3, {})] gaussSim = .ok t' ∧
    SameSeen (gaussCfg corr) t t' := by
  have hk := gauss_solver corr
  obtain ⟨t, ht, -⟩ := C87_total_partial (gaussCfg corr) [(5, {})] gaussSim
    (gauss_reasonable _ _ fun x hx h => by simp at hx; subst hx; cases h)
  obtain ⟨t', ht', h⟩ := (C92_calls (gaussCfg corr) (by norm_num [gaussCfg, cubicCfg]) rfl hk.trans [(5, {})]
    [(2, {}), (0, { correctDivE := true }), (3, {})] (by simp [perIteration, List.replicate]) (by simp [perIteration]) gaussSim gaussSim
    { zmin := rfl, zmax := rfl, time := rfl, iteration := rfl, species := species_refl _ _
      E := fun _ _ => rfl, B := fun _ _ => rfl
      Nz := fun m hm => ⟨hk.Nz m hm, hk.Nz m hm⟩
      Nr := fun m hm => ⟨hk.Nr m hm, hk.Nr m hm⟩
      kz := fun _ _ => rfl
      kr := fun _ _ => rfl } fun m hm h0 hr => (hk.kr m hm 0 hr).2 ⟨h0, rfl⟩).1 t ht
  exact ⟨t, t', ht, ht', h⟩

/-- Two different states that agree on what is stored: the second holds other values in J, in rho and on the spectral
grids. -/
example : ∃ s', SameStored (gaussCfg .curlFree) gaussSim s' ∧ (s'.interp 0).rho ≠ (gaussSim.interp 0).rho ∧
    ((s'.spect 0).cell 0 0).Em ≠ ((gaussSim.spect 0).cell 0 0).Em := by
  refine ⟨{ gaussSim with
    interp := fun m => { gaussSim.interp m with rho := fun _ _ => 1 }
    spect := fun m => { gaussSim.spect m with cell := fun _ _ => ⟨1, 1, 1, 1, 1, 1, 1, 1, 1, 1, 1, 1, 1, 1, 1, 1, 1⟩ } }, ?_, ?_, ?_⟩
  · exact
    { zmin := rfl, zmax := rfl, time := rfl, iteration := rfl, species := species_refl _ _
      E := fun _ _ => rfl, B := fun _ _ => rfl
      Nz := fun m hm => ⟨rfl, rfl⟩
      Nr := fun m hm => ⟨rfl, rfl⟩
      kz := fun _ _ => rfl
      kr := fun _ _ => rfl }
  · intro h
    have := congrFun (congrFun h 0) 0
    exact one_ne_zero this
  · exact one_ne_zero

end Fbpic.Pic
