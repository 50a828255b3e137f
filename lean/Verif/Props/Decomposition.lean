import Verif.Spec.Partition
import Verif.Lemmas.Partition
import Verif.Lemmas.Comm
import Mathlib.Algebra.Order.Field.Rat
import Mathlib.Data.Rat.Floor

/-!
# C01: the domain decomposition is an exact partition
-/

namespace Fbpic

/-- **C01.** With and without damping cells: every rank `r < size` gets an answer
`(len r, start r)` from `get_Nz_and_iz(local=True, with_guard=False, rank=r)`, the global request
is answered by `(N, lo)`, and the intervals of the ranks, in rank order, partition `[lo, lo+N)`.
Without damping cells the global interval is `[0, Nz)`. -/
theorem C01_partition (c : Comm) (hs : 0 < c.size) (withDamp : Bool) :
    ∃ (start : ℕ → ℤ) (len : ℕ → ℕ) (N : ℕ) (lo : ℤ),
      (∀ r < c.size, c.getNzIz true withDamp false (some r) = .ok (len r, start r)) ∧
      (∀ r, c.getNzIz false withDamp false r = .ok (N, lo)) ∧
      Spec.IntervalPartition c.size start len lo (lo + N) ∧
      N = c.NzGlobal + (if withDamp then 2 * (c.nzDamp + c.nInject) else 0) ∧
      lo = -(if withDamp then ((c.nzDamp + c.nInject : ℕ) : ℤ) else 0) := by
  refine ⟨c.izLoc withDamp, c.nzLoc withDamp, _, _, ?_, ?_, ?_, rfl, rfl⟩
  · intro r _; rw [Comm.getNzIz_local]; simp
  · intro r; rw [Comm.getNzIz_global]; simp
  · apply Spec.IntervalPartition.of_contiguous hs (Comm.izLoc_zero c withDamp)
    · rw [Comm.izLoc_last c withDamp hs]; cases withDamp <;> simp; ring
    · exact fun r hr => Comm.izLoc_succ c withDamp r hr

/-- **C01** (guard cells): the array of a rank is its sub-domain extended by exactly `n_guard`
cells on both sides. -/
theorem C01_guard_extension (c : Comm) (withDamp : Bool) (r N : ℕ) (iz : ℤ)
    (h : c.getNzIz true withDamp false (some r) = .ok (N, iz)) :
    c.getNzIz true withDamp true (some r) = .ok (N + 2 * c.nGuard, iz - c.nGuard) := by
  rw [Comm.getNzIz_local] at h ⊢
  simp only [Bool.false_eq_true, if_false, Except.ok.injEq, Prod.mk.injEq] at h
  simp [← h.1, ← h.2]

/-- **C01** (even distribution): no rank gets fewer than `Nz / size` physical cells, and all but
the last exactly that. -/
theorem C01_even (c : Comm) (r : ℕ) :
    ∃ N iz, c.getNzIz true false false (some r) = .ok (N, iz) ∧ c.NzGlobal / c.size ≤ N ∧
      (r + 1 ≠ c.size → N = c.NzGlobal / c.size) := by
  refine ⟨_, _, Comm.getNzIz_local _ _ _ _, ?_, ?_⟩
  · simp [Comm.nzLoc]
  · intro h; simp [Comm.nzLoc, h]

/-- **C01** (missing rank): a local request without a rank is an error, not a wrong layout. -/
theorem C01_missing_rank (c : Comm) (d g : Bool) :
    ∃ m, c.getNzIz true d g none = .error (.valueError m) := ⟨_, rfl⟩

/-- **C01** (rejection): `divide_into_domain` raises exactly when the local array would have
fewer than `4*n_guard` cells, and otherwise returns that array size. -/
theorem C01_reject_iff {K : Type} [Field K] (c : Comm) (z0 dz : K) (r N : ℕ) (iz : ℤ)
    (h : c.getNzIz true true true (some r) = .ok (N, iz)) :
    ((∃ m, c.divideIntoDomain z0 dz r = .error (.valueError m)) ↔ N < 4 * c.nGuard) ∧
    (4 * c.nGuard ≤ N → ∃ zmin zmax, c.divideIntoDomain z0 dz r = .ok (zmin, zmax, N)) := by
  unfold Comm.divideIntoDomain Comm.getZminZmax
  simp only [h, bind, Except.bind, pure, Except.pure, throw, throwThe, MonadExceptOf.throw]
  by_cases hN : N < 4 * c.nGuard
  · simp [hN]
  · simp [hN]

/-- **C01** (acceptance is enough for guard exchange): if a rank is accepted by
`divide_into_domain`, the cells it owns (with damping cells) number at least `2*n_guard`,
so that the left and right zones of `n_guard` owned cells that it sends are disjoint. -/
theorem C01_accepted_size {K : Type} [Field K] (c : Comm) (z0 dz : K) (r : ℕ)
    (res : K × K × ℕ) (hok : c.divideIntoDomain z0 dz r = .ok res) (N : ℕ) (iz : ℤ)
    (hN : c.getNzIz true true false (some r) = .ok (N, iz)) :
    2 * c.nGuard ≤ N := by
  have hg := C01_guard_extension c true r N iz hN
  by_contra hlt
  have h1 := ((C01_reject_iff c z0 dz r _ _ hg).1).2 (by omega)
  obtain ⟨m, hm⟩ := h1
  rw [hm] at hok
  cases hok

/-- Non-vacuity: 7 cells on 3 ranks, open boundaries with 2+1 damping/injection cells. -/
example : ∃ c : Comm, 0 < c.size ∧
    c.getNzIz true true false (some 0) = .ok (5, -3) ∧
    c.getNzIz true true false (some 1) = .ok (2, 2) ∧
    c.getNzIz true true false (some 2) = .ok (6, 4) ∧
    c.getNzIz false true false none = .ok (13, -3) :=
  ⟨{ NzGlobal := 7, size := 3, nGuard := 1, nzDamp := 2, nInject := 1, bz := .opened,
     br := .reflective, exchangePeriod := 1 }, by decide, by decide, by decide, by decide, by decide⟩

/-- Non-vacuity: one accepted and one rejected rank. -/
example : ∃ (c : Comm) (zmin zmax : ℚ), c.divideIntoDomain (0 : ℚ) 1 1 = .ok (zmin, zmax, 8) ∧
    ∃ c' : Comm, ∃ m, c'.divideIntoDomain (0 : ℚ) 1 1 = .error (.valueError m) :=
  ⟨{ NzGlobal := 16, size := 4, nGuard := 2, nzDamp := 0, nInject := 0, bz := .periodic,
     br := .reflective, exchangePeriod := 1 }, _, _, rfl,
   { NzGlobal := 12, size := 4, nGuard := 2, nzDamp := 0, nInject := 0, bz := .periodic,
     br := .reflective, exchangePeriod := 1 }, _, rfl⟩

end Fbpic
