import Verif.Lemmas.Window
import Verif.Lemmas.Tactics

namespace Fbpic

variable {K : Type} [Field K] [LinearOrder K] [IsStrictOrderedRing K] [FloorRing K]

/-- The operation does not replace the moving window object. -/
def PosOp.notSet : PosOp K → Prop
  | .setWindow _ _ _ => False
  | _ => True

/-- The operation is a `move_grids` call. -/
def PosOp.isMove : PosOp K → Prop
  | .move _ => True
  | _ => False

theorem World.step_notSet_ok (c : Comm) (dz : K) (w : World K) (o : PosOp K) (ho : o.notSet) :
    ∃ w', w.step c dz o = .ok w' := by
  cases o with
  | setWindow v t dt => exact absurd ho (by simp [PosOp.notSet])
  | galilean v dt => exact ⟨_, rfl⟩
  | move t =>
    simp only [World.step]
    cases hw : w.win with
    | none => exact ⟨w, by simp [pure, Except.pure]⟩
    | some win =>
      obtain ⟨n, _, hn⟩ := moveGrids_eq c dz w win hw t
      exact ⟨_, by simp only [hn, Option.isNone_some, Bool.false_eq_true, if_false, bind,
        Except.bind, pure, Except.pure]; rfl⟩

/-- The continuous position of the window follows `z = a + v*(tLast - b)`. -/
theorem World.step_win {c : Comm} {dz : K} {w w' : World K} {o : PosOp K} (ho : o.notSet)
    {v a b : K} (h : ∃ win, w.win = some win ∧ win.v = v ∧ win.zmin = a + v * (win.tLast - b))
    (hs : w.step c dz o = .ok w') :
    ∃ win, w'.win = some win ∧ win.v = v ∧ win.zmin = a + v * (win.tLast - b) := by
  obtain ⟨win, h1, h2, h3⟩ := h
  cases o with
  | setWindow v t dt => exact absurd ho (by simp [PosOp.notSet])
  | galilean v dt => simp only [World.step, pure, Except.pure, Except.ok.injEq] at hs
                     subst hs; exact ⟨win, h1, h2, h3⟩
  | move t =>
    obtain ⟨n, _, hn⟩ := moveGrids_eq c dz w win h1 t
    simp only [World.step, hn, h1, Option.isNone_some, Bool.false_eq_true, if_false, bind,
        Except.bind, pure, Except.pure, Except.ok.injEq] at hs
    subst hs
    exact ⟨_, rfl, h2, by simp only [h2, h3]; ring⟩

theorem World.run_win {c : Comm} {dz : K} {v a b : K} {ops : List (PosOp K)}
    (ho : ∀ o ∈ ops, o.notSet) : ∀ {w w' : World K},
    (∃ win, w.win = some win ∧ win.v = v ∧ win.zmin = a + v * (win.tLast - b)) →
    World.run c dz w ops = .ok w' →
    ∃ win, w'.win = some win ∧ win.v = v ∧ win.zmin = a + v * (win.tLast - b) := by
  induction ops with
  | nil => intro w w' h hr; cases hr; exact h
  | cons o os ih =>
    intro w w' h hr
    simp only [World.run, bind, Except.bind] at hr
    cases hs : w.step c dz o with
    | error e => simp [hs] at hr
    | ok w1 =>
      simp only [hs] at hr
      exact ih (fun o h => ho o (List.mem_cons_of_mem _ h))
        (World.step_win (ho o List.mem_cons_self) h hs) hr

theorem step_setWindow {c : Comm} {dz : K} {w w1 : World K} {v t0 dt : K}
    (h : w.step c dz (.setWindow v t0 dt) = .ok w1) :
    w1 = { w with win := some { v := v, tLast := t0 - dt, zmin := w.zminG 0 } } := by
  simp only [World.step, mkMovWin, Comm.getZminZmax_phys, bind, Except.bind, pure,
    Except.pure] at h
  split at h
  · cases h
  · rename_i win hwin
    split at hwin
    · split at hwin
      · cases hwin
      · cases hwin
        cases h; rfl
    · cases hwin; cases h; rfl

/-- After a shift by the truncated number of cells less than one cell is left. -/
theorem abs_sub_shift_lt {dz : K} (hdz : 0 < dz) (a b : K) :
    |b + ((pyInt ((a - b) / dz) : ℤ) : K) * dz - a| < dz := by
  have h := abs_sub_pyInt_lt ((a - b) / dz)
  have e : b + ((pyInt ((a - b) / dz) : ℤ) : K) * dz - a
      = -(((a - b) / dz - (pyInt ((a - b) / dz) : ℤ)) * dz) := by
    field_simp; ring
  rw [e, abs_neg, abs_mul, abs_of_pos hdz]
  calc _ < 1 * dz := by exact mul_lt_mul_of_pos_right h hdz
    _ = dz := one_mul dz

end Fbpic
