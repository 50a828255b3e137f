import Verif.Lemmas.PicRealRun
import Verif.Lemmas.Bessel
import Verif.Model.Hankel
import Verif.Props.CrossDeposit
import Verif.Props.StencilSign
import Verif.Props.PicGauss

/-!
# C97: the axisymmetric mode of the fields stays real
-/

namespace Fbpic.Pic

open Transform ExternalField Step
open Spec (negIdx hankel RealArr RealVec Mode0Real Absent AbsentVec RealSolver BlankSpect)
open scoped ComplexConjugate

section
variable (c : Cfg) [NeZero c.Nz]

private theorem realSim (hn : 0 < c.nthreads) (hc : c.RealMats) :
    Simulates c c (fun _ => True) (fun s s' => s' = s ∧ c.RealInv s) where
  period := rfl
  correction := rfl
  dt := rfl
  iteration := by rintro s _ ⟨rfl, -⟩; rfl
  wrap := by
    rintro s _ ⟨rfl, h⟩ t ht -
    obtain ⟨sps, -, e⟩ := (mapPtclM_ok _ _ _).1 ht
    exact ⟨t, ht, rfl, h.congr (by rw [e]) (by rw [e])⟩
  rho := by
    rintro n s _ ⟨rfl, h⟩ t ht -
    obtain ⟨-, e⟩ := (depositRho_ok c hn n _ t).1 ht
    exact ⟨t, ht, rfl, by rw [e]; exact withRho_real c hc n h⟩
  J := by
    rintro s _ ⟨rfl, h⟩ t ht -
    obtain ⟨-, e⟩ := (depositJ_ok c hn _ t).1 ht
    exact ⟨t, ht, rfl, by rw [e]; exact withJ_real c hc h⟩
  gather := by
    rintro s _ ⟨rfl, h⟩ t ht -
    obtain ⟨sps, -, e⟩ := (mapPtclM_ok _ _ _).1 ht
    exact ⟨t, ht, rfl, h.congr (by rw [e]; rfl) (by rw [e]; rfl)⟩
  exts := by
    rintro s _ ⟨rfl, h⟩
    exact ⟨rfl, h.congr rfl rfl⟩
  pushP := by
    rintro s _ ⟨rfl, h⟩ t ht -
    obtain ⟨sps, -, e⟩ := (mapPtclM_ok _ _ _).1 ht
    exact ⟨t, ht, rfl, h.congr (by rw [e]) (by rw [e])⟩
  pushX := by
    rintro dt a b s _ ⟨rfl, h⟩
    exact ⟨rfl, h.congr rfl rfl⟩
  shift := by
    rintro dt s _ ⟨rfl, h⟩
    refine ⟨rfl, h.congr ?_ ?_⟩ <;> · unfold Cfg.shiftGalilean; split_ifs <;> rfl
  iterEnd := by
    rintro o s _ ⟨rfl, h⟩ t ht -
    exact ⟨t, ht, rfl, iterEnd_real c hc o h ht⟩
  start := by
    rintro s _ ⟨rfl, h⟩
    exact ⟨rfl, start_real c hc h⟩
  finish := by
    rintro s _ ⟨rfl, h⟩
    exact ⟨rfl, end_real c hc h⟩

private theorem inv_of {s : Sim} (hs : RealSolver c s) (hb : BlankSpect s) (hr : Mode0Real c s) :
    c.RealMats ∧ c.RealInv s := by
  obtain ⟨h1, h2, h3, h4, h5, h6, h7⟩ := hs
  refine ⟨⟨h1, h4, h5, h6⟩, ⟨h2, h3, fun iz _ ir _ => ?_, fun iz _ _ ir _ => ?_⟩, hr, fun iz hz ho => ?_, fun iz hz ho => ?_⟩
  · rw [hb, hb]
    constructor <;> simp
  · rw [hb]
    constructor <;> rfl
  · exact ((h7 iz hz).resolve_left ho).2
  · exact ((h7 iz hz).resolve_left ho).1

/-- **C97**: in a new simulation whose fields of the azimuthal mode 0 are real, the fields, the current and the charge
density of this mode are real after any sequence of calls to `step`. The diagnostics and the checkpoints, which keep
only the real part of this mode, thus lose nothing. -/
theorem C97_real (hn : 0 < c.nthreads) (L : List (ℕ × Opts)) (s t : Sim) (hs : RealSolver c s) (hb : BlankSpect s)
    (hr : Mode0Real c s) (h : c.calls L s = .ok t) : Mode0Real c t := by
  obtain ⟨hc, hi⟩ := inv_of c hs hb hr
  obtain ⟨t', -, rfl, ht⟩ := (realSim c hn hc).calls L s s ⟨rfl, hi⟩ t h fun _ _ => trivial
  exact ht.real

end

/-! ### The matrices, the wavenumbers and the smoother of the code -/

private theorem inverse_unique {N : ℕ} {A B C : ℕ → ℕ → ℝ} (h1 : Spec.Inverse N A B) (h2 : Spec.Inverse N B C)
    (i j : ℕ) (hi : i < N) (hj : j < N) : A i j = C i j := by
  have e1 : ∑ l ∈ Finset.range N, (∑ n ∈ Finset.range N, A i n * B n l) * C l j = C i j := by
    rw [Finset.sum_eq_single i]
    · rw [h1 i i hi hi, if_pos rfl, one_mul]
    · intro l hl hne
      rw [h1 i l hi (Finset.mem_range.1 hl), if_neg (Ne.symm hne), zero_mul]
    · intro h; exact absurd (Finset.mem_range.2 hi) h
  have e2 : ∑ n ∈ Finset.range N, A i n * ∑ l ∈ Finset.range N, B n l * C l j = A i j := by
    rw [Finset.sum_eq_single j]
    · rw [h2 j j hj hj, if_pos rfl, mul_one]
    · intro n hn hne
      rw [h2 n j (Finset.mem_range.1 hn) hj, if_neg hne, mul_zero]
    · intro h; exact absurd (Finset.mem_range.2 hj) h
  rw [← e1, ← e2]
  simp only [Finset.mul_sum, Finset.sum_mul]
  rw [Finset.sum_comm]
  exact Finset.sum_congr rfl fun l _ => Finset.sum_congr rfl fun n _ => by ring

/-- **C97** (matrices): for mode 0 the matrices of the Hankel transforms of order -1 are opposite to those of order 1. -/
theorem C97_matrices (Nr : ℕ) (rmax : ℝ) (zeros : ℕ → ℝ) (Mp Mm : ℕ → ℕ → ℝ)
    (hp : Spec.Inverse Nr Mp (Hankel.invM 1 0 Nr rmax zeros)) (hm : Spec.Inverse Nr Mm (Hankel.invM (-1) 0 Nr rmax zeros))
    (hp' : Spec.Inverse Nr (Hankel.invM 1 0 Nr rmax zeros) Mp) :
    (∀ i j, Hankel.invM (-1) 0 Nr rmax zeros i j = -Hankel.invM 1 0 Nr rmax zeros i j) ∧
    ∀ i < Nr, ∀ j < Nr, Mm i j = -Mp i j := by
  have hJ : ∀ x, Spec.besselJ (-1) x = -Spec.besselJ 1 x := by
    intro x
    unfold Spec.besselJ
    norm_num
  have h1 : ∀ i j, Hankel.invM (-1) 0 Nr rmax zeros i j = -Hankel.invM 1 0 Nr rmax zeros i j := by
    intro i j
    unfold Hankel.invM hankelInvM Hankel.num Hankel.denom Hankel.pDenom
    norm_num [hJ]
    ring
  refine ⟨h1, fun i hi j hj => ?_⟩
  refine inverse_unique (B := Hankel.invM (-1) 0 Nr rmax zeros) (C := fun i j => -Mp i j) hm ?_ i j hi hj
  intro i j hi hj
  rw [← hp' i j hi hj]
  refine Finset.sum_congr rfl fun l _ => ?_
  rw [h1]; ring

private theorem modifiedK_neg (k : ℝ) (nOrder : ℤ) (dz v : ℝ) (h : modifiedK k nOrder dz = .ok v) :
    modifiedK (-k) nOrder dz = .ok (-v) := by
  unfold modifiedK at h ⊢
  split_ifs at h ⊢ with h1 h2
  · rw [Except.ok.inj h]
  · rw [← Except.ok.inj h, ← Finset.sum_neg_distrib]
    refine congrArg _ (Finset.sum_congr rfl fun n _ => ?_)
    rw [show -k * n * dz = -(k * n * dz) by ring, Real.sin_neg]
    ring

private theorem kzTrue_neg {Nz : ℕ} (hN : 0 < Nz) (dz : ℝ) {iz : ℕ} (hz : iz < Nz) (h : 2 * iz ≠ Nz) :
    kzTrue Nz dz (negIdx Nz iz) = -kzTrue Nz dz iz := by
  unfold kzTrue fftfreq
  rcases negIdx_cases hz with ⟨h1, rfl⟩ | ⟨h1, h2⟩
  · rw [h1]; simp
  · rw [h1]
    by_cases hi : iz ≤ (Nz - 1) / 2
    · rw [if_neg (by omega), if_pos hi]
      push_cast [Nat.cast_sub hz.le]
      ring
    · rw [if_pos (by omega), if_neg hi]
      push_cast [Nat.cast_sub hz.le]
      ring

theorem kzTrue_nyquist {Nz : ℕ} (hN : 0 < Nz) (dz : ℝ) (hdz : 0 < dz) {iz : ℕ} (h : 2 * iz = Nz) :
    kzTrue Nz dz iz = -(Real.pi / dz) ∧ negIdx Nz iz = iz := by
  constructor
  · unfold kzTrue fftfreq
    rw [if_neg (by omega)]
    have : (Nz : ℝ) = 2 * iz := by exact_mod_cast h.symm
    have h0 : (iz : ℝ) ≠ 0 := by
      have : iz ≠ 0 := by omega
      exact_mod_cast this
    rw [this]
    field_simp
    ring
  · rcases negIdx_cases (show iz < Nz by omega) with ⟨h1, h2⟩ | ⟨h1, h2⟩ <;> omega

private theorem filterFactor_neg (n : ℕ) (comp : Bool) (k d : ℝ) : filterFactor n comp (-k) d = filterFactor n comp k d := by
  unfold filterFactor
  rw [show 0.5 * -k * d = -(0.5 * k * d) by ring, Real.sin_neg, neg_sq]

/-- **C97** (wavenumbers): the modified wavenumbers of opposite rows are opposite, except with `n_order = -1` at the Nyquist
wavenumber of an even number of cells; the smoother acts in the same way on opposite rows; and one or more passes along z
remove the Nyquist wavenumber. -/
theorem C97_wavenumbers (Nz : ℕ) (hN : 0 < Nz) (dz : ℝ) (hdz : 0 < dz) (nOrder : ℤ) (K : ℕ → ℝ)
    (hK : ∀ iz < Nz, modifiedK (kzTrue Nz dz iz) nOrder dz = .ok (K iz)) (iz : ℕ) (hz : iz < Nz) :
    (2 * iz ≠ Nz ∨ nOrder ≠ -1 → K (negIdx Nz iz) = -K iz) ∧
    (2 * iz = Nz → nOrder = -1 → K (negIdx Nz iz) ≠ -K iz) ∧
    (∀ nPass comp, filterFactor nPass comp (kzTrue Nz dz (negIdx Nz iz)) dz = filterFactor nPass comp (kzTrue Nz dz iz) dz) ∧
    ∀ nPass comp, 2 * iz = Nz → 1 ≤ nPass → filterFactor nPass comp (kzTrue Nz dz iz) dz = 0 := by
  have : NeZero Nz := ⟨hN.ne'⟩
  have hpi : 0 < Real.pi / dz := div_pos Real.pi_pos hdz
  refine ⟨fun h => ?_, fun h h' => ?_, fun nPass comp => ?_, fun nPass comp h h1 => ?_⟩
  · by_cases hny : 2 * iz = Nz
    · have ho : nOrder ≠ -1 := h.resolve_left (by simpa using hny)
      obtain ⟨e1, e2⟩ := kzTrue_nyquist hN dz hdz hny
      have hk := hK iz hz
      have hok : 0 < nOrder ∧ nOrder % 2 = 0 := by
        unfold modifiedK at hk
        rw [if_neg ho] at hk
        split_ifs at hk with h2
        omega
      obtain ⟨K', hK', _, _, h4⟩ := C39_sign nOrder hok.1 hok.2 dz hdz
      have e : K iz = 0 := by
        rw [hK', e1] at hk
        rw [← Except.ok.inj hk]
        refine (h4 _ ?_).2 (Or.inr ?_) <;> rw [abs_neg, abs_of_pos hpi]
      rw [e2, e, neg_zero]
    · have h1 := hK _ (negIdx_lt iz)
      rw [kzTrue_neg hN dz hz hny, modifiedK_neg _ _ _ _ (hK iz hz)] at h1
      exact (Except.ok.inj h1).symm
  · obtain ⟨e1, e2⟩ := kzTrue_nyquist hN dz hdz h
    have hk := hK iz hz
    unfold modifiedK at hk
    rw [if_pos h', e1] at hk
    have hk := Except.ok.inj hk
    rw [e2, ← hk]
    intro h
    linarith
  · by_cases hny : 2 * iz = Nz
    · rw [(kzTrue_nyquist hN dz hdz hny).2]
    · rw [kzTrue_neg hN dz hz hny, filterFactor_neg]
  · refine C38_nyquist nPass h1 comp _ _ ?_
    rw [(kzTrue_nyquist hN dz hdz h).1, neg_mul, div_mul_cancel₀ _ hdz.ne', abs_neg, abs_of_pos Real.pi_pos]

/-- **C97** (the code): with the wavenumbers, the matrices and the smoother of the code, the hypothesis on the solver holds if
the number of cells along z is odd, or the stencil has a finite order, or the smoother makes one or more passes along z and
the fields have no component at the Nyquist wavenumber at the start. -/
theorem C97_solver (c : Cfg) [NeZero c.Nz] (s : Sim) (dz rmax : ℝ) (hdz : 0 < dz) (nOrder : ℤ) (zeros : ℕ → ℝ)
    (nPass : ℕ) (comp : Bool) (hm : 0 < c.Nm) (hNz : (s.spect 0).Nz = c.Nz) (hNr : (s.spect 0).Nr = c.Nr)
    (hK : ∀ iz < c.Nz, modifiedK (kzTrue c.Nz dz iz) nOrder dz = .ok ((s.spect 0).kz iz))
    (hp : (c.mats 0).invMp = Hankel.invM 1 0 c.Nr rmax zeros) (hm' : (c.mats 0).invMm = Hankel.invM (-1) 0 c.Nr rmax zeros)
    (h1 : Spec.Inverse c.Nr (c.mats 0).Mp (c.mats 0).invMp) (h2 : Spec.Inverse c.Nr (c.mats 0).invMp (c.mats 0).Mp)
    (h3 : Spec.Inverse c.Nr (c.mats 0).Mm (c.mats 0).invMm)
    (hf : ∀ fz fr, c.filter = some (fz, fr) → ∀ iz, fz iz = filterFactor nPass comp (kzTrue c.Nz dz iz) dz)
    (h : c.Nz % 2 = 1 ∨ nOrder ≠ -1 ∨ (c.filter ≠ none ∧ 1 ≤ nPass ∧ ∀ iz, 2 * iz = c.Nz →
      AbsentVec c iz (s.interp 0).E ∧ AbsentVec c iz (s.interp 0).B)) : RealSolver c s := by
  have hN : 0 < c.Nz := Nat.pos_of_ne_zero (NeZero.ne _)
  have hM := C97_matrices c.Nr rmax zeros (c.mats 0).Mp (c.mats 0).Mm (by rw [← hp]; exact h1) (by rw [← hm']; exact h3)
    (by rw [← hp]; exact h2)
  refine ⟨hm, hNz, hNr, hM.2, fun i _ j _ => by rw [hp, hm']; exact hM.1 i j, ?_, ?_⟩
  · intro fz fr hc iz hz
    rw [hf fz fr hc, hf fz fr hc]
    exact (C97_wavenumbers c.Nz hN dz hdz nOrder _ hK iz hz).2.2.1 nPass comp
  · intro iz hz
    obtain ⟨w1, -, -, w4⟩ := C97_wavenumbers c.Nz hN dz hdz nOrder _ hK iz hz
    rcases h with h | h | ⟨h, h', h''⟩
    · exact Or.inl (w1 (Or.inl (by omega)))
    · exact Or.inl (w1 (Or.inr h))
    · by_cases hny : 2 * iz = c.Nz
      · right
        obtain ⟨⟨fz, fr⟩, hc⟩ := Option.ne_none_iff_exists'.1 h
        exact ⟨⟨fz, fr, hc, by rw [hf fz fr hc]; exact w4 nPass comp hny h'⟩, h'' iz hny⟩
      · exact Or.inl (w1 (Or.inl hny))

end Fbpic.Pic
