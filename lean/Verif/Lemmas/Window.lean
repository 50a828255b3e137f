import Verif.Model.Window
import Verif.Lemmas.Comm
import Mathlib.Tactic.FieldSimp

namespace Fbpic

variable {K : Type} [Field K] [LinearOrder K] [IsStrictOrderedRing K] [FloorRing K]

theorem Comm.getZminZmax_of {c : Comm} {l d g : Bool} {r : Option ℕ} {N : ℕ} {iz : ℤ}
    (h : c.getNzIz l d g r = .ok (N, iz)) (Z dz : K) :
    c.getZminZmax Z dz l d g r = .ok (Z + (iz : K) * dz, Z + (iz : K) * dz + (N : K) * dz) := by
  simp [Comm.getZminZmax, h, bind, Except.bind, pure, Except.pure]

theorem Comm.getZminZmax_phys (c : Comm) (Z dz : K) :
    c.getZminZmax Z dz false false false none = .ok (Z, Z + (c.NzGlobal : K) * dz) := by
  rw [Comm.getZminZmax_of (Comm.getNzIz_global c false false none)]
  simp

/-- The invariant of the grid positions. -/
def World.Inv (c : Comm) (dz : K) (w : World K) : Prop :=
  ∃ Z : K, (∀ r, w.zminG r = Z) ∧ ∀ r < c.size, ∀ m, ∃ N iz,
    c.getNzIz true true true (some r) = .ok (N, iz) ∧ N ≠ 0 ∧
    w.interp r m = { Nz := N, zmin := Z + (iz : K) * dz,
                     zmax := Z + (iz : K) * dz + (N : K) * dz, dz := dz }

omit [IsStrictOrderedRing K] [FloorRing K] in
theorem initGrid_spec {c : Comm} {z0 dz : K} {r : ℕ} {g : InterpGrid K}
    [CharZero K] (h : initGrid c z0 dz r = .ok g) : ∃ N iz,
    c.getNzIz true true true (some r) = .ok (N, iz) ∧ N ≠ 0 ∧
    g = { Nz := N, zmin := z0 + (iz : K) * dz,
          zmax := z0 + (iz : K) * dz + (N : K) * dz, dz := dz } := by
  have hl := Comm.getNzIz_local c true true r
  generalize hN' : c.nzLoc true r + (if true = true then 2 * c.nGuard else 0) = N at hl
  generalize c.izLoc true r - (if true = true then (c.nGuard : ℤ) else 0) = iz at hl
  rw [initGrid, Comm.divideIntoDomain, Comm.getZminZmax, hl] at h
  simp only [bind, Except.bind, pure, Except.pure, throw, throwThe, MonadExceptOf.throw] at h
  by_cases hlt : N < 4 * c.nGuard
  · simp [hlt] at h
  · by_cases hN : N = 0
    · simp only [hlt, if_false] at h
      simp only [InterpGrid.mk', hN, if_true] at h
      cases h
    · simp only [hlt, hN, InterpGrid.mk', if_false, Except.ok.injEq] at h
      subst h
      refine ⟨_, _, hl, hN, ?_⟩
      have : ((N : ℕ) : K) ≠ 0 := by exact_mod_cast hN
      congr 1
      field_simp
      ring

theorem World.inv_start {c : Comm} {z0 dz : K} {g : ℕ → InterpGrid K}
    (h : ∀ r < c.size, initGrid c z0 dz r = .ok (g r)) : (World.start z0 g).Inv c dz := by
  refine ⟨z0, fun _ => rfl, fun r hr m => ?_⟩
  exact initGrid_spec (h r hr)

theorem decideMove_eq (c : Comm) (dz : K) (w : World K) (win : MovWin K) (t : K) :
    decideMove c dz w win t =
      .ok (pyInt ((win.zmin + win.v * (t - win.tLast) - w.zminG 0) / dz),
        { win with zmin := win.zmin + win.v * (t - win.tLast) }) := by
  simp [decideMove, Comm.getZminZmax_phys, bind, Except.bind, pure, Except.pure]

/-- Closed form of `moveGrids`: the `n = 0` branch is the general one. -/
theorem moveGrids_eq (c : Comm) (dz : K) (w : World K) (win : MovWin K) (hw : w.win = some win)
    (t : K) : ∃ n : ℤ, n = pyInt ((win.zmin + win.v * (t - win.tLast) - w.zminG 0) / dz) ∧
    moveGrids c dz w t = .ok
      ({ zminG := fun r => w.zminG r + (n : K) * dz
         interp := fun r m => { w.interp r m with
            zmin := (w.interp r m).zmin + (n : K) * (w.interp r m).dz
            zmax := (w.interp r m).zmax + (n : K) * (w.interp r m).dz }
         win := some { v := win.v, tLast := t,
                       zmin := win.zmin + win.v * (t - win.tLast) } }, n) := by
  refine ⟨_, rfl, ?_⟩
  unfold moveGrids
  simp only [hw, decideMove_eq, bind, Except.bind, pure, Except.pure]
  by_cases hn : pyInt ((win.zmin + win.v * (t - win.tLast) - w.zminG 0) / dz) = 0
  · simp [hn]
  · simp [hn, Comm.shiftGlobalDomainPositions]

theorem World.inv_shift {c : Comm} {dz : K} {w w' : World K} (h : w.Inv c dz) (s : K)
    (hz : ∀ r, w'.zminG r = w.zminG r + s)
    (hg : ∀ r < c.size, ∀ m, w'.interp r m = { w.interp r m with
      zmin := (w.interp r m).zmin + s, zmax := (w.interp r m).zmax + s }) :
    w'.Inv c dz := by
  obtain ⟨Z, hZ, hI⟩ := h
  refine ⟨Z + s, fun r => by rw [hz, hZ], fun r hr m => ?_⟩
  obtain ⟨N, iz, h1, h2, h3⟩ := hI r hr m
  refine ⟨N, iz, h1, h2, ?_⟩
  rw [hg r hr m, h3]
  simp only [InterpGrid.mk.injEq, true_and]
  constructor <;> first | constructor | skip
  all_goals first | ring | trivial

theorem World.inv_step {c : Comm} {dz : K} {w w' : World K} {o : PosOp K} (h : w.Inv c dz)
    (hs : w.step c dz o = .ok w') : w'.Inv c dz := by
  cases o with
  | setWindow v time dt =>
    simp only [World.step, bind, Except.bind] at hs
    split at hs
    · cases hs
    · cases hs; exact h
  | galilean v dt =>
    simp only [World.step, pure, Except.pure, Except.ok.injEq] at hs
    subst hs
    exact World.inv_shift h (v * dt) (fun r => rfl) (fun r _ m => rfl)
  | move t =>
    simp only [World.step] at hs
    cases hw : w.win with
    | none => simp [hw, pure, Except.pure] at hs; subst hs; exact h
    | some win =>
      obtain ⟨n, _, hn⟩ := moveGrids_eq c dz w win hw t
      simp only [hw, Option.isNone_some, Bool.false_eq_true, if_false, hn, bind, Except.bind,
        pure, Except.pure, Except.ok.injEq] at hs
      subst hs
      refine World.inv_shift h ((n : K) * dz) (fun r => rfl) (fun r hr m => ?_)
      obtain ⟨Z, hZ, hI⟩ := h
      obtain ⟨N, iz, h1, h2, h3⟩ := hI r hr m
      simp [h3]

theorem World.inv_run {c : Comm} {dz : K} {ops : List (PosOp K)} : ∀ {w w' : World K},
    w.Inv c dz → World.run c dz w ops = .ok w' → w'.Inv c dz := by
  induction ops with
  | nil => intro w w' h hr; cases hr; exact h
  | cons o os ih =>
    intro w w' h hr
    simp only [World.run, bind, Except.bind] at hr
    cases hs : w.step c dz o with
    | error e => simp [hs] at hr
    | ok w1 => simp only [hs] at hr; exact ih (World.inv_step h hs) hr

theorem World.run_append (c : Comm) (dz : K) (a b : List (PosOp K)) : ∀ w : World K,
    World.run c dz w (a ++ b) = (World.run c dz w a).bind (fun w' => World.run c dz w' b) := by
  induction a with
  | nil => intro w; rfl
  | cons o os ih =>
    intro w
    simp only [List.cons_append, World.run, bind]
    cases w.step c dz o with
    | error e => rfl
    | ok w1 => exact ih w1

theorem movWin_open (c : Comm) (h : c.bz = .opened) :
    (List.range c.size).any (movWinRaises c) = false := by
  rw [List.any_eq_false]
  intro r _
  simp only [movWinRaises, Comm.leftProc, Comm.rightProc, h, decide_eq_true_eq]
  rintro (⟨h1, h2⟩ | ⟨h1, h2⟩)
  · simp [h1] at h2
  · simp [h1] at h2

end Fbpic
