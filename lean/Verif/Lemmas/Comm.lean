import Verif.Model.Comm
import Verif.Lemmas.Prelude
import Mathlib.Tactic.Linarith
import Mathlib.Tactic.Ring

namespace Fbpic.Comm

/-- Number of local cells without guard cells (closed form, helper). -/
def nzLoc (c : Comm) (d : Bool) (r : ℕ) : ℕ :=
  c.NzGlobal / c.size + (if r + 1 = c.size then c.NzGlobal % c.size else 0)
    + (if d ∧ r = 0 then c.nzDamp + c.nInject else 0)
    + (if d ∧ r + 1 = c.size then c.nzDamp + c.nInject else 0)

/-- First local cell without guard cells (closed form, helper). -/
def izLoc (c : Comm) (d : Bool) (r : ℕ) : ℤ :=
  (r : ℤ) * (c.NzGlobal / c.size : ℕ) - (if d ∧ r = 0 then ((c.nzDamp + c.nInject : ℕ) : ℤ) else 0)

theorem getNzIz_local (c : Comm) (d g : Bool) (r : ℕ) :
    c.getNzIz true d g (some r) = .ok (c.nzLoc d r + (if g then 2 * c.nGuard else 0),
      c.izLoc d r - (if g then (c.nGuard : ℤ) else 0)) := by
  unfold getNzIz nzLoc izLoc
  simp only [if_true]
  congr 2
  · split_ifs <;> omega
  · split_ifs <;> push_cast <;> omega

theorem getNzIz_global (c : Comm) (d g : Bool) (r : Option ℕ) :
    c.getNzIz false d g r = .ok (c.NzGlobal + (if d then 2 * (c.nzDamp + c.nInject) else 0)
        + (if g then 2 * c.nGuard else 0),
      - (if d then ((c.nzDamp + c.nInject : ℕ) : ℤ) else 0) - (if g then (c.nGuard : ℤ) else 0)) := by
  unfold getNzIz
  simp only [Bool.false_eq_true, if_false]
  congr 2
  · split_ifs <;> omega
  · split_ifs <;> push_cast <;> omega

theorem izLoc_succ (c : Comm) (d : Bool) (r : ℕ) (h : r + 1 < c.size) :
    c.izLoc d (r + 1) = c.izLoc d r + c.nzLoc d r := by
  unfold izLoc nzLoc
  have h1 : ¬ (r + 1 = c.size) := by omega
  simp only [h1, if_false, and_false, Nat.add_eq_zero_iff, one_ne_zero]
  by_cases hd : d = true ∧ r = 0
  · simp only [hd]; push_cast; simp; ring
  · simp only [hd]; push_cast; simp; ring

theorem izLoc_zero (c : Comm) (d : Bool) :
    c.izLoc d 0 = - (if d then ((c.nzDamp + c.nInject : ℕ) : ℤ) else 0) := by
  unfold izLoc; simp

theorem izLoc_last (c : Comm) (d : Bool) (h : 0 < c.size) :
    c.izLoc d (c.size - 1) + c.nzLoc d (c.size - 1)
      = (c.NzGlobal : ℤ) + (if d then ((c.nzDamp + c.nInject : ℕ) : ℤ) else 0) := by
  obtain ⟨n, hn⟩ : ∃ n, c.size = n + 1 := ⟨c.size - 1, by omega⟩
  have hdm : (n + 1) * (c.NzGlobal / (n + 1)) + c.NzGlobal % (n + 1) = c.NzGlobal :=
    Nat.div_add_mod _ _
  unfold izLoc nzLoc
  rw [hn]
  simp only [Nat.add_sub_cancel, if_true, and_true]
  have : ((n : ℤ) + 1) * ((c.NzGlobal / (n + 1) : ℕ) : ℤ) + ((c.NzGlobal % (n + 1) : ℕ) : ℤ)
      = c.NzGlobal := by exact_mod_cast hdm
  cases d <;> simp only [if_true, if_false, true_and, false_and, Bool.false_eq_true]
  · push_cast at *; linarith
  · split_ifs <;> push_cast at * <;> linarith

end Fbpic.Comm

namespace Fbpic

variable {K : Type} [Field K] [LinearOrder K] [FloorRing K]

/-- What `mkComm` guarantees about its result. -/
theorem mkComm_spec {a : CommArgs K} {c : Comm} (h : mkComm a = .ok c) :
    c.NzGlobal = a.Nz ∧ c.size = a.size ∧
    (c.bz = .periodic → c.nzDamp = 0 ∧ c.nInject = 0) ∧
    (c.bz = .periodic → c.size = 1 → c.nGuard = 0) ∧
    (c.bz = .opened → c.nzDamp = a.nDampZ) := by
  unfold mkComm at h
  cases hb : parseBoundaries a.boundaries with
  | error e => simp [hb, bind, Except.bind] at h
  | ok b =>
    obtain ⟨bz, br⟩ := b
    cases hg : initialGuard a with
    | error e => simp [hb, hg, bind, Except.bind] at h
    | ok g =>
      simp only [hb, hg, bind, Except.bind] at h
      split at h
      · simp at h
      · simp only [pure, Except.pure, Except.ok.injEq] at h
        subst h
        simp only
        refine ⟨trivial, trivial, ?_, ?_, ?_⟩
        · intro hp; simp [hp]
        · intro hp hs; simp [hp, hs]
        · intro ho; simp [ho]

end Fbpic
