import Verif.Lemmas.Window
import Verif.Lemmas.Tactics

/-! # Every position of the global domain is in exactly one sub-domain -/

namespace Fbpic

/-- Consecutive intervals of a monotone sequence. -/
theorem exists_unique_interval {K : Type} [LinearOrder K] (b : ℕ → K) (n : ℕ)
    (hb : ∀ r, r < n → b r ≤ b (r + 1)) (z : K) :
    (b 0 ≤ z ∧ z < b n ↔ ∃ r, r < n ∧ b r ≤ z ∧ z < b (r + 1)) ∧
    ∀ r r', r < n → r' < n → b r ≤ z ∧ z < b (r + 1) → b r' ≤ z ∧ z < b (r' + 1) → r = r' := by
  have hmono : ∀ i j, i ≤ j → j ≤ n → b i ≤ b j := by
    intro i j hij hjn
    induction j, hij using Nat.le_induction with
    | base => exact le_rfl
    | succ j _ ih => exact (ih (by omega)).trans (hb j (by omega))
  refine ⟨⟨?_, ?_⟩, ?_⟩
  · rintro ⟨h0, h1⟩
    induction n with
    | zero => exact absurd h0 (not_le.mpr h1)
    | succ n ih =>
      by_cases h : z < b n
      · obtain ⟨r, hr, h2⟩ := ih (fun r hr => hb r (by omega)) (fun i j hij hj => hmono i j hij (by omega)) h
        exact ⟨r, by omega, h2⟩
      · exact ⟨n, by omega, not_lt.mp h, h1⟩
  · rintro ⟨r, hr, h1, h2⟩
    exact ⟨(hmono 0 r (by omega) (by omega)).trans h1, h2.trans_le (hmono (r + 1) n (by omega) le_rfl)⟩
  · rintro r r' hr hr' ⟨h1, h2⟩ ⟨h3, h4⟩
    by_contra hne
    rcases Nat.lt_or_gt_of_ne hne with h | h
    · exact absurd (h2.trans_le ((hmono (r + 1) r' h (by omega)).trans h3)) (lt_irrefl _)
    · exact absurd (h4.trans_le ((hmono (r' + 1) r h (by omega)).trans h1)) (lt_irrefl _)

namespace Comm

variable {K : Type} [Field K] [LinearOrder K] [IsStrictOrderedRing K] [FloorRing K]

/-- A position is in the sub-domain (without guard cells) of exactly one rank if it is in the global domain, and of none otherwise. -/
theorem partition (c : Comm) (hsize : 0 < c.size) (Z dz : K) (hdz : 0 < dz) (d : Bool) (z : K) :
    ∃ zmin zmax : K, c.getZminZmax Z dz false d false none = .ok (zmin, zmax) ∧
    ∃ lo hi : ℕ → K, (∀ r, c.getZminZmax Z dz true d false (some r) = .ok (lo r, hi r)) ∧
      (zmin ≤ z ∧ z < zmax ↔ ∃ r, r < c.size ∧ lo r ≤ z ∧ z < hi r) ∧
      ∀ r r', r < c.size → r' < c.size → lo r ≤ z ∧ z < hi r → lo r' ≤ z ∧ z < hi r' → r = r' := by
  refine ⟨_, _, Comm.getZminZmax_of (Comm.getNzIz_global c d false none) Z dz,
    fun r => Z + (c.izLoc d r : K) * dz, fun r => Z + (c.izLoc d r : K) * dz + (c.nzLoc d r : K) * dz, ?_, ?_⟩
  · intro r
    rw [Comm.getZminZmax_of (Comm.getNzIz_local c d false r) Z dz]
    simp
  · let b : ℕ → K := fun r => if r = 0 then Z + (c.izLoc d 0 : K) * dz
      else Z + (c.izLoc d (r - 1) : K) * dz + (c.nzLoc d (r - 1) : K) * dz
    have hlo : ∀ r, r < c.size → b r = Z + (c.izLoc d r : K) * dz := by
      intro r hr
      rcases r with _ | r
      · simp [b]
      · have := izLoc_succ c d r hr
        simp only [b, Nat.add_sub_cancel, Nat.succ_ne_zero, if_false, this]
        push_cast; ring
    have hhi : ∀ r, b (r + 1) = Z + (c.izLoc d r : K) * dz + (c.nzLoc d r : K) * dz := by
      intro r; simp [b]
    obtain ⟨h1, h2⟩ := exists_unique_interval b c.size (by
      intro r hr
      rw [hlo r hr, hhi r, le_add_iff_nonneg_right]
      positivity) z
    have hl : (c.izLoc d (c.size - 1) : K) + (c.nzLoc d (c.size - 1) : K) =
        (c.NzGlobal : K) + (if d then ((c.nzDamp + c.nInject : ℕ) : K) else 0) := by
      have := congrArg (fun x : ℤ => (x : K)) (izLoc_last c d hsize)
      push_cast at this
      rw [this]
      split_ifs <;> simp
    have h0 : b 0 = Z + (c.izLoc d 0 : K) * dz := hlo 0 hsize
    have hn : b c.size = Z + (c.izLoc d (c.size - 1) : K) * dz + (c.nzLoc d (c.size - 1) : K) * dz := by
      have := hhi (c.size - 1)
      rwa [Nat.sub_add_cancel hsize] at this
    constructor
    · have e : ∀ r, (r < c.size ∧ Z + (c.izLoc d r : K) * dz ≤ z ∧
          z < Z + (c.izLoc d r : K) * dz + (c.nzLoc d r : K) * dz) ↔ (r < c.size ∧ b r ≤ z ∧ z < b (r + 1)) := by
        intro r
        constructor
        · rintro ⟨hr, h⟩; rw [hlo r hr, hhi r]; exact ⟨hr, h⟩
        · rintro ⟨hr, h⟩; rw [hlo r hr, hhi r] at h; exact ⟨hr, h⟩
      simp only [e]
      rw [← h1, h0, hn, izLoc_zero]
      have e2 : Z + (c.izLoc d (c.size - 1) : K) * dz + (c.nzLoc d (c.size - 1) : K) * dz =
          Z + ((c.NzGlobal : K) + (if d then ((c.nzDamp + c.nInject : ℕ) : K) else 0)) * dz := by
        rw [← hl]; ring
      rw [e2]
      cases d <;> simp <;> intro _ <;> ring_nf
    · intro r r' hr hr' h h'
      refine h2 r r' hr hr' ?_ ?_
      · rw [hlo r hr, hhi r]; exact h
      · rw [hlo r' hr', hhi r']; exact h'

end Comm
end Fbpic
