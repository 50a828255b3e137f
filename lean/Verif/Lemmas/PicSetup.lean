import Verif.Spec.PicSetup
import Verif.Lemmas.PicUnitsRun

/-!
# The arrays of the constructor for a rescaled box
-/

namespace Fbpic.Pic.Setup

open Transform
open Spec (Rescaling GridSetup PseudoInverse DhtPair Inverse)

variable {L : ℝ}

theorem invM_u (hL : 0 < L) (p m : ℤ) (Nr : ℕ) (rmax : ℝ) (zeros : ℕ → ℝ) :
    Hankel.invM p m Nr (L * rmax) zeros = fun i j => Hankel.invM p m Nr rmax zeros i j / L ^ 2 := by
  have hr : ∀ j, Hankel.rGrid Nr (L * rmax) j = L * Hankel.rGrid Nr rmax j := fun j => by
    unfold Hankel.rGrid; ring
  have hn : ∀ i j, Hankel.num p m Nr (L * rmax) zeros i j = Hankel.num p m Nr rmax zeros i j := by
    intro i j
    unfold Hankel.num Hankel.nu
    rw [hr]
    refine congrArg (Spec.besselJ p) ?_
    rw [one_div, one_div, show 2 * Real.pi * (L * rmax) = L * (2 * Real.pi * rmax) by ring, mul_inv]
    field_simp
  have hd : ∀ i, Hankel.denom p m (L * rmax) zeros i = L ^ 2 * Hankel.denom p m rmax zeros i := by
    intro i
    unfold Hankel.denom; ring
  funext i j
  unfold Hankel.invM hankelInvM
  simp only [hn, hd, hr]
  have hb : Hankel.num p m Nr rmax zeros i j / (L ^ 2 * Hankel.denom p m rmax zeros i)
      = Hankel.num p m Nr rmax zeros i j / Hankel.denom p m rmax zeros i / L ^ 2 := by
    rw [mul_comm, div_div]
  split_ifs
  · rw [mul_zpow, mul_zpow, show (m + 1 : ℤ) = (m - 1) + 2 by ring, zpow_add₀ hL.ne']
    have := zpow_ne_zero (m - 1) hL.ne'
    rw [one_div, one_div, mul_inv, mul_inv, mul_inv, mul_inv]
    field_simp
  · simp
  · exact hb
  · exact hb

theorem inverse_u (hL : 0 < L) (Nr : ℕ) (A B : ℕ → ℕ → ℝ) (h : Inverse Nr A B) :
    Inverse Nr (fun i j => A i j / L ^ 2) (fun i j => L ^ 2 * B i j) ∧
    Inverse Nr (fun i j => L ^ 2 * A i j) (fun i j => B i j / L ^ 2) := by
  have hL' := hL.ne'
  constructor <;> intro i j hi hj <;> rw [← h i j hi hj] <;> refine Finset.sum_congr rfl fun l _ => ?_ <;> field_simp

theorem pinv_u (hL : 0 < L) (n k : ℕ) (A X : ℕ → ℕ → ℝ) (h : PseudoInverse n k A X) :
    PseudoInverse n k (fun i j => A i j / L ^ 2) (fun i j => L ^ 2 * X i j) := by
  have hL' := hL.ne'
  have e1 : ∀ a x : ℝ, a / L ^ 2 * (L ^ 2 * x) = a * x := fun a x => by field_simp
  have e2 : ∀ a x : ℝ, L ^ 2 * x * (a / L ^ 2) = x * a := fun a x => by field_simp
  constructor
  · intro i j hi hj
    rw [← h.axa i j hi hj, Finset.sum_div]
    refine Finset.sum_congr rfl fun l _ => ?_
    rw [Finset.sum_div]
    refine Finset.sum_congr rfl fun p _ => ?_
    rw [e1]; ring
  · intro i j hi hj
    rw [← h.xax i j hi hj, Finset.mul_sum]
    refine Finset.sum_congr rfl fun l _ => ?_
    rw [Finset.mul_sum]
    refine Finset.sum_congr rfl fun p _ => ?_
    rw [e2]; ring
  · intro i j hi hj
    simp only [e1]
    exact h.symm_ax i j hi hj
  · intro i j hi hj
    simp only [e2]
    exact h.symm_xa i j hi hj

theorem dhtPair_u (hL : 0 < L) (p m : ℤ) (Nr : ℕ) (rmax : ℝ) (zeros : ℕ → ℝ) (M invM : ℕ → ℕ → ℝ)
    (h : DhtPair p m Nr rmax zeros M invM) :
    DhtPair p m Nr (L * rmax) zeros (fun i j => L ^ 2 * M i j) (fun i j => invM i j / L ^ 2) := by
  obtain ⟨h1, inv, pinv, h2, h3, h4⟩ := h
  refine ⟨?_, fun i j => L ^ 2 * inv i j, fun i j => L ^ 2 * pinv i j, ?_, ?_, ?_⟩
  · rw [invM_u hL, h1]
  · rw [h2]
    funext i j
    unfold hankelM
    split_ifs <;> simp
  · intro hc
    exact ⟨(inverse_u hL Nr _ _ (h3 hc).1).1, (inverse_u hL Nr _ _ (h3 hc).2).2⟩
  · intro hc
    exact pinv_u hL _ _ _ _ (h4 hc)

theorem stdVol_u (L : ℝ) (dr dz : ℝ) : CellVolume.stdVol (L * dr) (L * dz) = fun i => L ^ 3 * CellVolume.stdVol dr dz i := by
  funext i
  unfold CellVolume.stdVol
  dsimp only
  ring

theorem hankelVol_u (L : ℝ) (dz : ℝ) (Nr : ℕ) (M : ℕ → ℕ → ℝ) (al j1 : ℕ → ℝ) :
    CellVolume.hankelVol (L * dz) Nr (fun i j => L ^ 2 * M i j) al j1
      = fun i => L ^ 3 * CellVolume.hankelVol dz Nr M al j1 i := by
  funext i
  unfold CellVolume.hankelVol
  have : ∑ p ∈ Finset.range Nr, L ^ 2 * M i p * 2 / (al p * j1 p) = L ^ 2 * ∑ p ∈ Finset.range Nr, M i p * 2 / (al p * j1 p) := by
    rw [Finset.mul_sum]
    refine Finset.sum_congr rfl fun p _ => ?_
    ring
  rw [this]; ring

theorem cellVol_u (L : ℝ) (b : Bool) (m : ℕ) (dr dz : ℝ) (Nr : ℕ) (M : ℕ → ℕ → ℝ) (al j1 : ℕ → ℝ) :
    CellVolume.cellVol b m (L * dr) (L * dz) Nr (fun i j => L ^ 2 * M i j) al j1
      = fun i => L ^ 3 * CellVolume.cellVol b m dr dz Nr M al j1 i := by
  unfold CellVolume.cellVol
  by_cases h : (b = true ∧ m = 0)
  · rw [if_pos h, if_pos h, hankelVol_u]
  · rw [if_neg h, if_neg h, stdVol_u]

theorem normVol_u (hL : 0 < L) (vol : ℕ → ℝ) (dr dz : ℝ) :
    CellVolume.normVol (fun i => L ^ 3 * vol i) (L * dr) (L * dz) = CellVolume.normVol vol dr dz := by
  funext i
  unfold CellVolume.normVol
  rw [show 2 * Real.pi * (L * dr) ^ 2 * (L * dz) = L ^ 3 * (2 * Real.pi * dr ^ 2 * dz) by ring,
    mul_div_mul_left _ _ (pow_ne_zero 3 hL.ne')]

theorem ruyten_u (hL : 0 < L) (b : Bool) (sh : Shape) (vol : ℕ → ℝ) (dr dz : ℝ) (Nr : ℕ) :
    CellVolume.ruytenCoefs b sh (fun i => L ^ 3 * vol i) (L * dr) (L * dz) Nr
      = CellVolume.ruytenCoefs b sh vol dr dz Nr := by
  have h1 : CellVolume.linearCoef (fun i => L ^ 3 * vol i) (L * dr) (L * dz) = CellVolume.linearCoef vol dr dz := by
    funext i
    unfold CellVolume.linearCoef
    rw [normVol_u hL]
  have h2 : CellVolume.cubicCoef (fun i => L ^ 3 * vol i) (L * dr) (L * dz) = CellVolume.cubicCoef vol dr dz := by
    funext i
    unfold CellVolume.cubicCoef
    rw [normVol_u hL]
  unfold CellVolume.ruytenCoefs
  rw [h1, h2]

theorem kzTrue_u (L : ℝ) (Nz : ℕ) (dz : ℝ) (iz : ℕ) : kzTrue Nz (L * dz) iz = kzTrue Nz dz iz / L := by
  unfold kzTrue fftfreq
  rw [show (Nz : ℝ) * (L * dz) = (Nz * dz) * L by ring, ← div_div, mul_div_assoc]

theorem filterFactor_u (hL : 0 < L) (n : ℕ) (b : Bool) (k d : ℝ) : filterFactor n b (k / L) (L * d) = filterFactor n b k d := by
  unfold filterFactor
  rw [show 0.5 * (k / L) * (L * d) = 0.5 * k * d by have := hL.ne'; field_simp]

theorem kr_u (L : ℝ) (m : ℤ) (rmax : ℝ) (zeros : ℕ → ℝ) :
    Hankel.kr m (L * rmax) zeros = fun i => Hankel.kr m rmax zeros i / L := by
  funext i
  unfold Hankel.kr Hankel.nu
  rw [one_div, one_div, show 2 * Real.pi * (L * rmax) = L * (2 * Real.pi * rmax) by ring, mul_inv]
  ring

theorem modifiedK_u (hL : 0 < L) (k : ℝ) (n : ℤ) (dz v : ℝ) (h : modifiedK k n dz = .ok v) :
    modifiedK (k / L) n (L * dz) = .ok (v / L) := by
  unfold modifiedK at *
  split_ifs at h ⊢
  · rw [← Except.ok.inj h]
  · rw [← Except.ok.inj h]
    refine congrArg Except.ok ?_
    rw [Finset.sum_div]
    refine Finset.sum_congr rfl fun i _ => ?_
    rw [show k / L * i * (L * dz) = k * i * dz by have := hL.ne'; field_simp,
      show (i : ℝ) * (L * dz) = (i * dz) * L by ring, ← div_div]
    ring

end Fbpic.Pic.Setup
