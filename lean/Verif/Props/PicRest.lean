import Verif.Lemmas.PicRestRun

/-!
# C111: a plasma at rest without fields stays at rest
-/

namespace Fbpic.Pic

open Transform ExternalField Step
open Spec (noField NoFields Motionless AllAtRest Undisturbed Stands Paired OneProcess Healthy Sensible Runs InTheBox OldOrNew)

variable {c : OCfg} [NeZero c.base.Nz]

private theorem calm_of {L : List (ℕ × Opts)} {S : OSim} (h : Undisturbed c L S) : c.Calm := ⟨h.frame, h.ext, h.fill⟩

/-- **C111** (moving window, open boundaries): a sensible simulation in which nothing drives the plasma runs to its end,
for any calls of `step`. In all iterations there are no fields on the grid, and all particles are at rest; this includes
the plasma that a moving window injects. Each particle at the end stands exactly where a particle of the same species
stood at the beginning, or where one was injected. -/
theorem C111_rest (L : List (ℕ × Opts)) (S : OSim) (h : Sensible c L S) (hu : Undisturbed c L S) :
    ∃ T l, c.calls L S = .ok T ∧ Runs c L S l T ∧ NoFields c T ∧ AllAtRest T.sim ∧
      (∀ y ∈ l, NoFields c y.2 ∧ AllAtRest y.2.sim) ∧ OldOrNew c l S T := by
  obtain ⟨T, l, hR, -, h1, h2, h3, h4⟩ := rest_runs
    ⟨h.one, h.dt, h.invdz, h.invdr, h.Nr, h.beta, h.period, h.guard, h.frame⟩ (calm_of hu) L hu.opts 0 S (between_of h) hu.ants hu.ptcl hu.fields
  exact ⟨T, l, (runs_iff L S T).2 ⟨l, hR⟩, hR, h2, h1, fun y hy => ⟨(h3 y hy).fields, (h3 y hy).ptcl⟩, h4⟩

/-- **C111** (no moving window, periodic or open boundaries): in every run in which nothing drives the plasma there are
never fields on the grid, and all particles are at rest at the beginning of each iteration. If all particles are in the
box at the beginning, then they are all still there at the end, in the same order, at the same positions. -/
theorem C111_still (hc : OneProcess c) (L : List (ℕ × Opts)) (S T : OSim) (hS : Healthy c S) (hw : S.win = none) (hu : Undisturbed c L S)
    (l : List (ℕ × OSim)) (h : Runs c L S l T) :
    NoFields c T ∧ AllAtRest T.sim ∧ (∀ y ∈ l, NoFields c y.2 ∧ AllAtRest y.2.sim) ∧
      (InTheBox c S.sim → Paired (fun _ _ p p' => Stands p p') S.sim T.sim ∧ InTheBox c T.sim) := by
  obtain ⟨h1, h2, h3, h4, h5, h6⟩ := still_runs hc (calm_of hu) h hu.opts hS hw hu.ants hu.ptcl hu.fields
  exact ⟨h4, h3, fun y hy => ⟨(h5 y hy).fields, (h5 y hy).ptcl⟩, fun hb => ⟨h6 hb, stands_box (h6 hb) h1 h2 hb⟩⟩

/-! ### Examples -/

/-- An electron at rest, with a moving window that injects plasma in front of it. -/
noncomputable def quietSim : OSim := { frontSim with ants := [] }

theorem quiet_sensible (L : List (ℕ × Opts)) : Sensible openCfg L quietSim :=
  have h := front_sensible L
  ⟨h.one, ⟨h.healthy.sized, h.healthy.regular, h.healthy.zmin, h.healthy.zmax, h.healthy.mom⟩, h.dt, h.invdz, h.invdr, h.Nr, h.beta, h.period,
    h.guard, h.opts, h.frame, h.plane, fun a ha => (List.not_mem_nil ha).elim, h.window,
    fun w h1 id sp i h2 h3 => (by obtain ⟨a, b, d, e, f⟩ := h.inj w h1 id sp i h2 h3; exact ⟨a, b, d, e, f⟩)⟩

theorem quiet_undisturbed (L : List (ℕ × Opts)) (ho : ∀ x ∈ L, x.2.useTrueRho = false ∧ x.2.correctDivE = false) (w : Option (MovWin ℝ)) :
    Undisturbed openCfg L { quietSim with win := w } where
  frame := rfl
  ext := rfl
  ants := rfl
  fill := fun _ _ _ _ => ⟨rfl, rfl, rfl⟩
  opts := ho
  fields := fun _ _ => ⟨⟨fun _ _ _ _ => rfl, fun _ _ _ _ => rfl, fun _ _ _ _ => rfl⟩, ⟨fun _ _ _ _ => rfl, fun _ _ _ _ => rfl, fun _ _ _ _ => rfl⟩⟩
  ptcl := by
    intro sp hsp p hp
    rw [List.mem_singleton.1 hsp] at hp
    rw [List.mem_singleton.1 hp]
    exact ⟨rfl, rfl, rfl⟩

example (n : ℕ) : ∃ T l, openCfg.calls [(n, {})] quietSim = .ok T ∧ Runs openCfg [(n, {})] quietSim l T ∧ NoFields openCfg T ∧
    AllAtRest T.sim ∧ OldOrNew openCfg l quietSim T := by
  obtain ⟨T, l, h1, h2, h3, h4, -, h5⟩ := C111_rest (c := openCfg) [(n, {})] quietSim (quiet_sensible _)
    (quiet_undisturbed _ (by simp) quietSim.win)
  exact ⟨T, l, h1, h2, h3, h4, h5⟩

/-- Without the window the electron is still there after any number of iterations. -/
example (n : ℕ) : ∃ T, openCfg.calls [(n, {})] { quietSim with win := none } = .ok T ∧ NoFields openCfg T ∧
    Paired (fun _ _ p p' => Stands p p') quietSim.sim T.sim := by
  have h := quiet_sensible [(n, {})]
  have hs : Sensible openCfg [(n, {})] { quietSim with win := none } :=
    ⟨h.one, ⟨h.healthy.sized, h.healthy.regular, h.healthy.zmin, h.healthy.zmax, h.healthy.mom⟩, h.dt, h.invdz, h.invdr, h.Nr, h.beta, h.period,
      h.guard, h.opts, h.frame, h.plane, h.ants, fun w hw => (by cases hw), fun w hw => (by cases hw)⟩
  have hu := quiet_undisturbed [(n, {})] (by simp) none
  obtain ⟨T, l, h1, h2, -⟩ := C111_rest _ _ hs hu
  obtain ⟨a, -, -, b⟩ := C111_still open_one _ _ T hs.healthy rfl hu l h2
  refine ⟨T, h1, a, (b ?_).1⟩
  intro sp hsp p hp
  rw [List.mem_singleton.1 hsp] at hp
  rw [List.mem_singleton.1 hp]
  refine ⟨fun h => by norm_num [openCfg] at h, fun _ => ?_⟩
  norm_num [openCfg, quietSim, frontSim]

end Fbpic.Pic
