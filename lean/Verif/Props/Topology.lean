import Verif.Lemmas.Exchange

/-!
# C03: neighbour topology is symmetric and every message is matched
-/

namespace Fbpic

/-- **C03** (symmetry). `a` is the left neighbour of `b` iff `b` is the right neighbour of `a`. -/
theorem C03_symmetric (c : Comm) (a b : ℕ) (ha : a < c.size) (hb : b < c.size) :
    c.leftProc b = some (a : ℤ) ↔ c.rightProc a = some (b : ℤ) :=
  ⟨fun h => (Comm.right_of_left hb h).2, fun h => (Comm.left_of_right ha h).2⟩

/-- **C03** (valid peers). A neighbour is always an existing rank; only the two ends of an open
domain have no neighbour. -/
theorem C03_peers (c : Comm) (r : ℕ) (hr : r < c.size) :
    (∀ l, c.leftProc r = some l → 0 ≤ l ∧ l < c.size) ∧
    (∀ p, c.rightProc r = some p → 0 ≤ p ∧ p < c.size) ∧
    (c.leftProc r = none ↔ c.bz = .opened ∧ r = 0) ∧
    (c.rightProc r = none ↔ c.bz = .opened ∧ r + 1 = c.size) := by
  refine ⟨?_, ?_, ?_, ?_⟩
  · intro l h; obtain ⟨l', rfl, h1, -⟩ := Comm.leftProc_nat hr h; omega
  · intro p h; obtain ⟨p', rfl, h1, -⟩ := Comm.rightProc_nat hr h; omega
  · unfold Comm.leftProc; cases c.bz <;> simp <;> split <;> simp
  · unfold Comm.rightProc; cases c.bz <;> simp <;> split <;> simp

/-- **C03** (matching). In one `exchange_domains` over all ranks, the list of
(source, destination, tag) of the posted sends is a permutation of that of the posted receives, and
no triple occurs twice: each send has exactly one receive and vice versa. -/
theorem C03_matched {B : Type} (c : Comm) (sendLeft sendRight : ℕ → B) :
    ((c.network sendLeft sendRight).map fun m => (m.src, m.dst, m.tag)).Perm
      ((List.range c.size).flatMap c.postedRecvs) ∧
    ((List.range c.size).flatMap c.postedRecvs).Nodup := by
  refine ⟨?_, Comm.nodup_recvs c⟩
  exact (List.perm_ext_iff_of_nodup (Comm.nodup_network_keys c sendLeft sendRight)
    (Comm.nodup_recvs c)).mpr (Comm.mem_network_keys_iff_recvs c sendLeft sendRight)

/-- **C03** (delivery). Each rank receives from the left what its left neighbour sent to the right
and from the right what its right neighbour sent to the left, and nothing at an open end. -/
theorem C03_delivery {B : Type} (c : Comm) (sendLeft sendRight : ℕ → B) (r : ℕ) (hr : r < c.size) :
    (∀ l : ℕ, c.leftProc r = some (l : ℤ) →
      (c.exchangeDomains sendLeft sendRight r).1 = some (sendRight l)) ∧
    (∀ p : ℕ, c.rightProc r = some (p : ℤ) →
      (c.exchangeDomains sendLeft sendRight r).2 = some (sendLeft p)) ∧
    (c.leftProc r = none → (c.exchangeDomains sendLeft sendRight r).1 = none) ∧
    (c.rightProc r = none → (c.exchangeDomains sendLeft sendRight r).2 = none) := by
  refine ⟨fun l h => Comm.exchangeDomains_left _ _ hr h,
    fun p h => Comm.exchangeDomains_right _ _ hr h, ?_, ?_⟩
  · intro h; simp [Comm.exchangeDomains, h]
  · intro h; simp [Comm.exchangeDomains, h]

/-- Non-vacuity: two periodic ranks (the same rank is both neighbours); rank 0 receives from the
left what rank 1 sent to the right. -/
example : ∃ c : Comm, c.size = 2 ∧ c.leftProc 0 = some 1 ∧ c.rightProc 0 = some 1 ∧
    c.exchangeDomains (fun r => ("L", r)) (fun r => ("R", r)) 0 = (some ("R", 1), some ("L", 1)) :=
  ⟨{ NzGlobal := 16, size := 2, nGuard := 2, nzDamp := 0, nInject := 0, bz := .periodic
     br := .reflective, exchangePeriod := 1 }, by decide⟩

/-- Non-vacuity: three open ranks, the ends have one neighbour. -/
example : ∃ c : Comm, c.size = 3 ∧ c.leftProc 0 = none ∧ c.rightProc 2 = none ∧
    c.exchangeDomains (fun r => ("L", r)) (fun r => ("R", r)) 2 = (some ("R", 1), none) :=
  ⟨{ NzGlobal := 16, size := 3, nGuard := 2, nzDamp := 0, nInject := 0, bz := .opened
     br := .reflective, exchangePeriod := 1 }, by decide⟩

end Fbpic
