import Verif.Model.Gather
import Verif.Lemmas.Comm
import Verif.Lemmas.Partition
import Verif.Lemmas.Tactics
import Mathlib.Data.List.Flatten
import Mathlib.Algebra.BigOperators.Group.List.Basic

namespace Fbpic

/-- With disjoint target intervals the order of the ranks does not matter. -/
theorem gatherv_apply {A : Type} {cnt disp : ℕ → ℕ} {send : ℕ → ℕ → A} {init : ℕ → A} {k i : ℕ} :
    ∀ n : ℕ, (∀ a b, a < b → b < n → disp a + cnt a ≤ disp b) → k < n →
      disp k ≤ i → i < disp k + cnt k → gatherv n cnt disp send init i = send k (i - disp k) := by
  intro n
  induction n with
  | zero => intro _ hk; omega
  | succ n ih =>
    intro hmono hk h1 h2
    unfold gatherv
    rw [List.range_succ, List.foldl_append]
    simp only [List.foldl_cons, List.foldl_nil]
    by_cases hkn : k = n
    · subst hkn; simp [h1, h2]
    · have := hmono k n (by omega) (by omega)
      have hno : ¬ (disp n ≤ i ∧ i < disp n + cnt n) := by omega
      rw [if_neg hno]
      exact ih (fun a b hab hb => hmono a b hab (by omega)) (by omega) h1 h2

theorem nat_mul_sub_toNat (Nr : ℕ) {x : ℤ} (h : 0 ≤ x) : ((Nr : ℤ) * x).toNat = Nr * x.toNat := by
  rw [Int.toNat_mul (by omega) h, Int.toNat_natCast]

/-- Where the sub-domain of a rank starts in the global array. -/
theorem izLoc_sub_nonneg (c : Comm) (d : Bool) {r : ℕ} (hr : r < c.size) :
    0 ≤ c.izLoc d r - c.izLoc d 0 := by
  rcases Nat.eq_zero_or_pos r with h | h
  · subst h; simp
  · have := Spec.mono_of_contiguous (n := c.size) (start := c.izLoc d) (len := c.nzLoc d)
      (fun r hr => Comm.izLoc_succ c d r hr) 0 r h hr
    omega

theorem getNzIz_global_eq (c : Comm) (d : Bool) (r : Option ℕ) :
    (okOr (0, 0) (c.getNzIz false d false r)).2 = c.izLoc d 0 := by
  rw [Comm.getNzIz_global, Comm.izLoc_zero]; simp [okOr]

theorem okOr_local (c : Comm) (d : Bool) (k : ℕ) :
    okOr (0, 0) (c.getNzIz true d false (some k)) = (c.nzLoc d k, c.izLoc d k) := by
  rw [Comm.getNzIz_local]; simp [okOr]

theorem okOr_array (c : Comm) (k : ℕ) :
    (okOr (0, 0) (c.getNzIz true true true (some k))).2 = c.izLoc true k - c.nGuard := by
  rw [Comm.getNzIz_local]; simp [okOr]

variable {A : Type} [Zero A]

/-- Index of the first (un-guarded) row in the local array. -/
def izIn (c : Comm) (d : Bool) (k : ℕ) : ℕ :=
  (c.izLoc d k - (c.izLoc true k - c.nGuard)).toNat

theorem disp_eq (c : Comm) (d : Bool) (Nr : ℕ) {k : ℕ} (hk : k < c.size) :
    ((Nr : ℤ) * (c.izLoc d k - c.izLoc d 0)).toNat = Nr * (c.izLoc d k - c.izLoc d 0).toNat :=
  nat_mul_sub_toNat Nr (izLoc_sub_nonneg c d hk)

theorem gather_apply (c : Comm) (d : Bool) (Nr : ℕ) (arr : ℕ → ℕ → ℕ → A) {k t j : ℕ}
    (hk : k < c.size) (ht : t < c.nzLoc d k) (hj : j < Nr) :
    gatherGridArray c Nr d arr ((c.izLoc d k - c.izLoc d 0).toNat + t) j
      = arr k (izIn c d k + t) j := by
  unfold gatherGridArray
  simp only [okOr_local, okOr_array, getNzIz_global_eq]
  split
  · rename_i hs
    unfold unflat
    have hNr : 0 < Nr := by omega
    have key : ∀ a < c.size, ((Nr : ℤ) * (c.izLoc d a - c.izLoc d 0)).toNat
        = Nr * (c.izLoc d a - c.izLoc d 0).toNat := fun a ha => disp_eq c d Nr ha
    rw [gatherv_apply (k := k) c.size]
    · rw [key k hk]
      have e : ((c.izLoc d k - c.izLoc d 0).toNat + t) * Nr + j
          - Nr * (c.izLoc d k - c.izLoc d 0).toNat = j + Nr * t := by
        have : ((c.izLoc d k - c.izLoc d 0).toNat + t) * Nr + j
          = Nr * (c.izLoc d k - c.izLoc d 0).toNat + (j + Nr * t) := by ring
        omega
      rw [e]
      unfold flat
      rw [Nat.add_mul_div_left _ _ hNr, Nat.add_mul_mod_self_left, Nat.div_eq_of_lt hj,
        Nat.mod_eq_of_lt hj, Nat.zero_add]
      rfl
    · intro a b hab hb
      rw [key a (by omega), key b hb]
      have := Spec.mono_of_contiguous (n := c.size) (start := c.izLoc d) (len := c.nzLoc d)
        (fun r hr => Comm.izLoc_succ c d r hr) a b hab hb
      have h0 := izLoc_sub_nonneg c d (r := a) (by omega)
      have : (c.izLoc d a - c.izLoc d 0).toNat + c.nzLoc d a ≤ (c.izLoc d b - c.izLoc d 0).toNat := by
        omega
      calc Nr * (c.izLoc d a - c.izLoc d 0).toNat + Nr * c.nzLoc d a
          = Nr * ((c.izLoc d a - c.izLoc d 0).toNat + c.nzLoc d a) := by ring
        _ ≤ _ := Nat.mul_le_mul_left _ this
    · exact hk
    · rw [key k hk]
      have : ((c.izLoc d k - c.izLoc d 0).toNat + t) * Nr + j
        = Nr * (c.izLoc d k - c.izLoc d 0).toNat + (j + Nr * t) := by ring
      omega
    · rw [key k hk]
      have h1 : ((c.izLoc d k - c.izLoc d 0).toNat + t) * Nr + j
        = Nr * (c.izLoc d k - c.izLoc d 0).toNat + (j + Nr * t) := by ring
      have h2 : j + Nr * t < Nr * c.nzLoc d k := by
        calc j + Nr * t < Nr + Nr * t := by omega
          _ = Nr * (t + 1) := by ring
          _ ≤ _ := Nat.mul_le_mul_left _ ht
      omega
  · have hk0 : k = 0 := by omega
    subst hk0
    simp [izIn]

theorem scatter_apply (c : Comm) (d : Bool) (Nr : ℕ) (array : ℕ → ℕ → A) {k t j : ℕ}
    (hk : k < c.size) (ht : t < c.nzLoc d k) (hj : j < Nr) :
    scatterGridArray c Nr d array k t j = array ((c.izLoc d k - c.izLoc d 0).toNat + t) j := by
  unfold scatterGridArray
  simp only [okOr_local, getNzIz_global_eq]
  split
  · have hNr : 0 < Nr := by omega
    unfold unflat scatterv
    have h2 : t * Nr + j < Nr * c.nzLoc d k := by
      calc t * Nr + j < t * Nr + Nr := by omega
        _ = Nr * (t + 1) := by ring
        _ ≤ _ := Nat.mul_le_mul_left _ ht
    rw [if_pos h2]
    show flat Nr array (((Nr : ℤ) * (c.izLoc d k - c.izLoc d 0)).toNat + (t * Nr + j)) = _
    rw [disp_eq c d Nr hk]
    unfold flat
    have e : Nr * (c.izLoc d k - c.izLoc d 0).toNat + (t * Nr + j)
        = j + Nr * ((c.izLoc d k - c.izLoc d 0).toNat + t) := by ring
    rw [e, Nat.add_mul_div_left _ _ hNr, Nat.add_mul_mod_self_left, Nat.div_eq_of_lt hj,
        Nat.mod_eq_of_lt hj, Nat.zero_add]
  · exact if_pos ht

end Fbpic
