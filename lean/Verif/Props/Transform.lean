import Verif.Lemmas.Transform
import Verif.Model.Spectral

/-!
# C55: conversions between components and storage; C66: the transforms and their inverses
-/

namespace Fbpic

open Complex Spec Transform

/-! ### C55 -/

/-- **C55** (threads): the loops on the CPU and the launch on the GPU (with any number of threads per block)
treat every grid point exactly once. -/
theorem C55_threads (Nz Nr : ℕ) (TPBx TPBy : ℕ) (hx : 0 < TPBx) (hy : 0 < TPBy) :
    Covers Nz Nr (loop2d Nz Nr) ∧ Covers Nz Nr (grid2d Nz Nr TPBx TPBy) := by
  have hb : ∀ x T : ℕ, 0 < T → x < (x / T + 1) * T := by
    intro x T hT
    have := Nat.div_add_mod x T
    have := Nat.mod_lt x hT
    rw [Nat.add_mul, Nat.one_mul, Nat.mul_comm (x / T) T]
    omega
  refine ⟨⟨?_, ?_⟩, ⟨?_, ?_⟩⟩
  · exact List.Nodup.product List.nodup_range List.nodup_range
  · intro i j hi hj
    exact List.mem_product.mpr ⟨List.mem_range.mpr hi, List.mem_range.mpr hj⟩
  · exact List.Nodup.product List.nodup_range List.nodup_range
  · intro i j hi hj
    exact List.mem_product.mpr ⟨List.mem_range.mpr (hi.trans (hb Nz TPBx hx)),
      List.mem_range.mpr (hj.trans (hb Nr TPBy hy))⟩

/-- **C55** (r, t to +, -): for any arrays `r`, `t` and two different arrays `p`, `m`, which may be the same
as `r`, `t` (in any combination), and any order of the threads, the result in `p` and `m` is computed from
the values before the call, and no other array changes. -/
theorem C55_rt_to_pm (Nz Nr : ℕ) (threads : List (ℕ × ℕ)) (hc : Covers Nz Nr threads) (r t p m : ℕ)
    (hpm : p ≠ m) (mem : Mem) :
    EqOn Nz Nr (rtToPm Nz Nr threads r t p m mem p) (fun i j => (mem r i j - I * mem t i j) / 2) ∧
    EqOn Nz Nr (rtToPm Nz Nr threads r t p m mem m) (fun i j => (mem r i j + I * mem t i j) / 2) ∧
    ∀ b, b ≠ p → b ≠ m → rtToPm Nz Nr threads r t p m mem b = mem b := by
  refine ⟨?_, ?_, ?_⟩
  · intro i j hi hj
    rw [rtToPm_apply _ _ _ hc, if_pos ⟨hi, hj⟩, if_neg hpm, if_pos rfl]; ring
  · intro i j hi hj
    rw [rtToPm_apply _ _ _ hc, if_pos ⟨hi, hj⟩, if_pos rfl]; ring
  · intro b h1 h2
    funext i j
    rw [rtToPm_apply _ _ _ hc, if_neg h1, if_neg h2]; simp

/-- **C55** (+, - to r, t), likewise. -/
theorem C55_pm_to_rt (Nz Nr : ℕ) (threads : List (ℕ × ℕ)) (hc : Covers Nz Nr threads) (p m r t : ℕ)
    (hrt : r ≠ t) (mem : Mem) :
    EqOn Nz Nr (pmToRt Nz Nr threads p m r t mem r) (fun i j => mem p i j + mem m i j) ∧
    EqOn Nz Nr (pmToRt Nz Nr threads p m r t mem t) (fun i j => I * (mem p i j - mem m i j)) ∧
    ∀ b, b ≠ r → b ≠ t → pmToRt Nz Nr threads p m r t mem b = mem b := by
  refine ⟨?_, ?_, ?_⟩
  · intro i j hi hj
    rw [pmToRt_apply _ _ _ hc, if_pos ⟨hi, hj⟩, if_neg hrt, if_pos rfl]
  · intro i j hi hj
    rw [pmToRt_apply _ _ _ hc, if_pos ⟨hi, hj⟩, if_pos rfl]
  · intro b h1 h2
    funext i j
    rw [pmToRt_apply _ _ _ hc, if_neg h1, if_neg h2]; simp

/-- **C55** (round trips): converting to the other components and back gives the original values, in both
orders, for any sharing of memory between the input and output arrays (in particular all in place). -/
theorem C55_roundtrip (Nz Nr : ℕ) (th1 th2 : List (ℕ × ℕ)) (h1 : Covers Nz Nr th1) (h2 : Covers Nz Nr th2)
    (a b c d e f : ℕ) (hcd : c ≠ d) (hef : e ≠ f) (mem : Mem) :
    (EqOn Nz Nr (pmToRt Nz Nr th2 c d e f (rtToPm Nz Nr th1 a b c d mem) e) (mem a) ∧
     EqOn Nz Nr (pmToRt Nz Nr th2 c d e f (rtToPm Nz Nr th1 a b c d mem) f) (mem b)) ∧
    (EqOn Nz Nr (rtToPm Nz Nr th2 c d e f (pmToRt Nz Nr th1 a b c d mem) e) (mem a) ∧
     EqOn Nz Nr (rtToPm Nz Nr th2 c d e f (pmToRt Nz Nr th1 a b c d mem) f) (mem b)) := by
  have hI : ∀ z : ℂ, I * (I * z) = -z := fun z => by rw [← mul_assoc, I_mul_I]; ring
  obtain ⟨p1, p2, -⟩ := C55_rt_to_pm Nz Nr th1 h1 a b c d hcd mem
  obtain ⟨q1, q2, -⟩ := C55_pm_to_rt Nz Nr th1 h1 a b c d hcd mem
  refine ⟨⟨?_, ?_⟩, ⟨?_, ?_⟩⟩ <;> intro i j hi hj
  · refine ((C55_pm_to_rt Nz Nr th2 h2 c d e f hef _).1 i j hi hj).trans ?_
    beta_reduce
    rw [p1 i j hi hj, p2 i j hi hj]; ring
  · refine ((C55_pm_to_rt Nz Nr th2 h2 c d e f hef _).2.1 i j hi hj).trans ?_
    beta_reduce
    rw [p1 i j hi hj, p2 i j hi hj]
    have : (mem a i j - I * mem b i j) / 2 - (mem a i j + I * mem b i j) / 2 = -(I * mem b i j) := by ring
    rw [this, mul_neg, hI]; ring
  · refine ((C55_rt_to_pm Nz Nr th2 h2 c d e f hef _).1 i j hi hj).trans ?_
    beta_reduce
    rw [q1 i j hi hj, q2 i j hi hj, hI]; ring
  · refine ((C55_rt_to_pm Nz Nr th2 h2 c d e f hef _).2.1 i j hi hj).trans ?_
    beta_reduce
    rw [q1 i j hi hj, q2 i j hi hj, hI]; ring

/-- In place on a grid of 2 x 1 points: `(r, t) = (1, I)` becomes `(1, 0)`. -/
example : rtToPm 2 1 (loop2d 2 1) 0 1 0 1 (fun b _ _ => if b = 0 then 1 else I) 0 1 0 = 1 := by
  have := (C55_rt_to_pm 2 1 (loop2d 2 1) (C55_threads 2 1 1 1 one_pos one_pos).1 0 1 0 1 (by decide)
    (fun b _ _ => if b = 0 then 1 else I)).1 1 0 (by decide) (by decide)
  rw [this]
  norm_num

/-- **C55** (complex array as two real halves): storing and reading back is the identity, in both orders,
whatever the arrays contained before and for any order of the threads. -/
theorem C55_halves (Nz Nr : ℕ) (th1 th2 : List (ℕ × ℕ)) (h1 : Covers Nz Nr th1) (h2 : Covers Nz Nr th2)
    (F outC : ℕ → ℕ → ℂ) (a outR : ℕ → ℕ → ℝ) :
    EqOn Nz Nr (rToC Nz Nr th2 (cToR Nz Nr th1 F outR) outC) F ∧
    ∀ i j, i < 2 * Nz → j < Nr → cToR Nz Nr th2 (rToC Nz Nr th1 a outC) outR i j = a i j := by
  constructor
  · intro i j hi hj
    obtain ⟨c1, c2⟩ := cToR_apply Nz Nr th1 h1 F outR i j hi hj
    rw [rToC_apply _ _ _ h2, if_pos ⟨hi, hj⟩, c1, c2, mul_comm, Complex.re_add_im]
  · intro i j hi hj
    by_cases hlt : i < Nz
    · rw [(cToR_apply Nz Nr th2 h2 _ outR i j hlt hj).1, rToC_apply _ _ _ h1, if_pos ⟨hlt, hj⟩]
      simp
    · obtain ⟨k, rfl⟩ : ∃ k, i = k + Nz := ⟨i - Nz, by omega⟩
      have hk : k < Nz := by omega
      rw [(cToR_apply Nz Nr th2 h2 _ outR k j hk hj).2, rToC_apply _ _ _ h1, if_pos ⟨hk, hj⟩]
      simp

/-! ### C66 -/

/-- **C66** (Hankel transform): on the CPU and on the GPU, in place or not, whatever the buffers contained, the
result is the product with the matrix; no other array changes. -/
theorem C66_hankel (Nz Nr : ℕ) (L : Launch) (hc : Covers Nz Nr L.threads) (mat : ℕ → ℕ → ℝ) (src dst : ℕ)
    (mem : Mem) :
    EqOn Nz Nr (dht Nz Nr L mat src dst mem dst) (hankel Nr mat (mem src)) ∧
      ∀ b, b ≠ dst → dht Nz Nr L mat src dst mem b = mem b :=
  dht_apply Nz Nr L hc mat src dst mem

/-- **C66** (Fourier transform): the GPU path (copy to columns, batched transform, normalisation, copy back)
computes the same as the transform along the first axis on the CPU; no other array changes. -/
theorem C66_fourier (Nz Nr : ℕ) [NeZero Nz] (inv : Bool) (threads : List (ℕ × ℕ)) (hc : Covers Nz Nr threads)
    (buf buf' : ℕ → ℂ) (src dst : ℕ) (mem : Mem) :
    EqOn Nz Nr (fft Nz Nr true inv threads buf src dst mem dst) (fft Nz Nr false inv threads buf' src dst mem dst) ∧
    ∀ gpu b, b ≠ dst → fft Nz Nr gpu inv threads buf src dst mem b = mem b := by
  constructor
  · intro i j hi hj
    rw [(fft_apply Nz Nr true inv threads hc buf src dst mem).1 i j hi hj,
      (fft_apply Nz Nr false inv threads hc buf' src dst mem).1 i j hi hj]
  · intro gpu b hb
    exact (fft_apply Nz Nr gpu inv threads hc buf src dst mem).2 b hb

/-- What the constructor computes for the order `p` and the mode `m`, where `np.linalg.inv` gives a two-sided
inverse, and `np.linalg.pinv` a right inverse of the rows of the Bessel functions (they are independent). -/
def Spec.DhtOk (m p : ℤ) (Nr : ℕ) (M invM : ℕ → ℕ → ℝ) : Prop :=
  ∃ (rmax : ℝ) (r : ℕ → ℝ) (bessel inv pinv : ℕ → ℕ → ℝ),
    invM = hankelInvM m p rmax r bessel ∧ M = hankelM m p inv pinv ∧
    ((m = 0 ∨ p = m - 1) → Inverse Nr invM inv ∧ Inverse Nr inv invM) ∧
    ((m ≠ 0 ∧ p ≠ m - 1) → ∀ i j, i + 1 < Nr → j + 1 < Nr →
      ∑ l ∈ Finset.range Nr, invM (i + 1) l * pinv l j = if i = j then 1 else 0)

theorem dhtOk_full {m p : ℤ} {Nr : ℕ} {M invM : ℕ → ℕ → ℝ} (h : DhtOk m p Nr M invM)
    (hm : m = 0 ∨ p = m - 1) : Inverse Nr invM M ∧ Inverse Nr M invM := by
  obtain ⟨rmax, r, bessel, inv, pinv, h1, h2, h3, -⟩ := h
  have : M = inv := by
    rw [h2]
    funext i j
    unfold hankelM
    rw [if_neg]
    rintro ⟨a, b⟩
    exact hm.elim a b
  rw [this]
  exact h3 hm

private theorem dhtOk_off0 {m p : ℤ} {Nr : ℕ} {M invM : ℕ → ℕ → ℝ} (h : DhtOk m p Nr M invM)
    (hm : m ≠ 0 ∧ p ≠ m - 1) : InverseOff0 Nr invM M ∧ ∀ i, M i 0 = 0 := by
  obtain ⟨rmax, r, bessel, inv, pinv, h1, h2, -, h4⟩ := h
  have h4 := h4 hm
  have hM0 : ∀ i, M i 0 = 0 := fun i => by rw [h2]; simp [hankelM, hm]
  have hI0 : ∀ j, invM 0 j = 0 := fun j => by rw [h1]; simp [hankelInvM, hm]
  refine ⟨?_, hM0⟩
  intro i j hi hj
  rcases Nat.eq_zero_or_pos j with rfl | hj0
  · simp only [hM0, mul_zero, Finset.sum_const_zero]
    rw [if_neg (by rintro ⟨a, b⟩; exact b a)]
  · rcases Nat.eq_zero_or_pos i with rfl | hi0
    · simp only [hI0, zero_mul, Finset.sum_const_zero]
      simp
    · obtain ⟨i, rfl⟩ : ∃ k, i = k + 1 := ⟨i - 1, by omega⟩
      obtain ⟨j, rfl⟩ : ∃ k, j = k + 1 := ⟨j - 1, by omega⟩
      have : ∀ l, M l (j + 1) = pinv l j := fun l => by rw [h2]; simp [hankelM, hm]
      simp only [this]
      rw [h4 i j hi hj]
      simp

/-- A transformer of the azimuthal mode `m`. -/
structure Spec.TransOk (m : ℤ) (T : Trans) : Prop where
  covers : Covers T.Nz T.Nr T.threads
  ok0 : DhtOk m m T.Nr T.M0 T.invM0
  okp : DhtOk m (m + 1) T.Nr T.Mp T.invMp
  okm : DhtOk m (m - 1) T.Nr T.Mm T.invMm

/-- Drop the lowest radial component if the mode is not 0. -/
noncomputable def Spec.dropLow (m : ℤ) (F : ℕ → ℕ → ℂ) : ℕ → ℕ → ℂ := fun i j =>
  if m ≠ 0 ∧ j = 0 then 0 else F i j

theorem hankel_drop {m p : ℤ} {Nz Nr : ℕ} {M invM : ℕ → ℕ → ℝ} (h : DhtOk m p Nr M invM)
    (hp : p ≠ m - 1) (F : ℕ → ℕ → ℂ) : EqOn Nz Nr (hankel Nr M (hankel Nr invM F)) (dropLow m F) := by
  intro i j hi hj
  by_cases hm : m = 0
  · rw [hankel_inverse Nz Nr _ _ (dhtOk_full h (Or.inl hm)).1 F i j hi hj]
    simp [dropLow, hm]
  · rw [hankel_inverseOff0 Nz Nr _ _ (dhtOk_off0 h ⟨hm, hp⟩).1 F i j hj]
    simp [dropLow, hm]

theorem hankel_low {m p : ℤ} {Nr : ℕ} {M invM : ℕ → ℕ → ℝ} (h : DhtOk m p Nr M invM)
    (hm : m ≠ 0) (hp : p ≠ m - 1) (F : ℕ → ℕ → ℂ) (i : ℕ) : hankel Nr M F i 0 = 0 := by
  unfold hankel
  apply Finset.sum_eq_zero
  intro l _
  rw [(dhtOk_off0 h ⟨hm, hp⟩).2 l]
  simp

section
variable {T : Trans} [NeZero T.Nz] {m : ℤ} (hT : TransOk m T)

include hT

/-- **C66** (scalar field to the spectral grid): the result is the product of the Fourier transform along z
with the matrix; for the modes other than 0 its lowest radial component is 0. Only the buffer and the
result change. -/
theorem C66_scal_spect (interp spect : ℕ) (mem : Mem) :
    EqOn T.Nz T.Nr (T.interp2spectScal interp spect mem spect)
      (hankel T.Nr T.M0 (fftAxis0 T.Nz false (mem interp))) ∧
    (m ≠ 0 → 0 < T.Nr → ∀ i, i < T.Nz → T.interp2spectScal interp spect mem spect i 0 = 0) ∧
    ∀ b, b ≠ spect → b ≠ T.bufR → T.interp2spectScal interp spect mem b = mem b := by
  have d := dht_apply T.Nz T.Nr ⟨T.gpu, T.threads, T.dhtIn, T.dhtOut⟩ hT.covers T.M0 T.bufR spect
    (T.fft false interp T.bufR mem)
  have f := fft_apply T.Nz T.Nr T.gpu false T.threads hT.covers T.fftIn interp T.bufR mem
  have h1 : EqOn T.Nz T.Nr (T.interp2spectScal interp spect mem spect)
      (hankel T.Nr T.M0 (fftAxis0 T.Nz false (mem interp))) := by
    intro i j hi hj
    exact (d.1 i j hi hj).trans (hankel_congr T.Nz T.Nr _ f.1 i j hi hj)
  refine ⟨h1, ?_, ?_⟩
  · intro hm hN i hi
    rw [h1 i 0 hi hN]
    exact hankel_low hT.ok0 hm (by omega) _ i
  · intro b hb hb'
    exact (d.2 b hb).trans (f.2 b hb')

/-- **C66** (scalar field to the interpolation grid). -/
theorem C66_scal_interp (spect interp : ℕ) (mem : Mem) :
    EqOn T.Nz T.Nr (T.spect2interpScal spect interp mem interp)
      (fftAxis0 T.Nz true (hankel T.Nr T.invM0 (mem spect))) ∧
    ∀ b, b ≠ interp → b ≠ T.bufR → T.spect2interpScal spect interp mem b = mem b := by
  have d := dht_apply T.Nz T.Nr ⟨T.gpu, T.threads, T.dhtIn, T.dhtOut⟩ hT.covers T.invM0 spect T.bufR mem
  have f := fft_apply T.Nz T.Nr T.gpu true T.threads hT.covers T.fftIn T.bufR interp
    (T.dht T.invM0 spect T.bufR mem)
  refine ⟨fun i j hi hj => (f.1 i j hi hj).trans (fftAxis0_congr T.Nz T.Nr true d.1 i j hi hj), ?_⟩
  intro b hb hb'
  exact (f.2 b hb).trans (d.2 b hb')

/-- **C66** (scalar round trip from the spectral grid): the field comes back unchanged, except that for the modes
other than 0 the lowest radial component is dropped. -/
theorem C66_scal_roundtrip (spect interp spect' : ℕ) (mem : Mem) :
    EqOn T.Nz T.Nr (T.interp2spectScal interp spect' (T.spect2interpScal spect interp mem) spect')
      (dropLow m (mem spect)) := by
  intro i j hi hj
  rw [(C66_scal_spect hT interp spect' _).1 i j hi hj]
  have h1 := fftAxis0_congr T.Nz T.Nr false (C66_scal_interp hT spect interp mem).1
  have h2 : EqOn T.Nz T.Nr (fftAxis0 T.Nz false (T.spect2interpScal spect interp mem interp))
      (hankel T.Nr T.invM0 (mem spect)) := fun i j hi hj =>
    (h1 i j hi hj).trans (fftAxis0_inv T.Nz _ i j hi).2
  rw [hankel_congr T.Nz T.Nr T.M0 h2 i j hi hj]
  exact hankel_drop hT.ok0 (by omega) (mem spect) i j hi hj

/-- **C66** (scalar round trip from the interpolation grid, mode 0): the field comes back unchanged. -/
theorem C66_scal_interp_roundtrip (hm : m = 0) (interp spect interp' : ℕ) (mem : Mem) :
    EqOn T.Nz T.Nr (T.spect2interpScal spect interp' (T.interp2spectScal interp spect mem) interp')
      (mem interp) := by
  intro i j hi hj
  rw [(C66_scal_interp hT spect interp' _).1 i j hi hj]
  have h1 := hankel_congr T.Nz T.Nr T.invM0 (C66_scal_spect hT interp spect mem).1
  have h2 : EqOn T.Nz T.Nr (hankel T.Nr T.invM0 (T.interp2spectScal interp spect mem spect))
      (fftAxis0 T.Nz false (mem interp)) := fun i j hi hj =>
    (h1 i j hi hj).trans (hankel_inverse T.Nz T.Nr _ _ (dhtOk_full hT.ok0 (Or.inl hm)).2 _ i j hi hj)
  rw [fftAxis0_congr T.Nz T.Nr true h2 i j hi hj]
  exact (fftAxis0_inv T.Nz _ i j hi).1

/-- **C66** (transverse field to the spectral grid, with the two shared buffers): the + component is the matrix
product of the Fourier transform of `(F_r - i F_t)/2`, the - component of `(F_r + i F_t)/2`; for modes other
than 0 the lowest component of + is 0. -/
theorem C66_vect_spect (ir it sp sm : ℕ) (hbuf : T.bufR ≠ T.bufT) (h1 : it ≠ T.bufR) (h2 : sp ≠ T.bufT)
    (h3 : sp ≠ sm) (mem : Mem) :
    EqOn T.Nz T.Nr (T.interp2spectVect ir it sp sm mem sp)
      (hankel T.Nr T.Mp fun i j => (fftAxis0 T.Nz false (mem ir) i j - I * fftAxis0 T.Nz false (mem it) i j) / 2) ∧
    EqOn T.Nz T.Nr (T.interp2spectVect ir it sp sm mem sm)
      (hankel T.Nr T.Mm fun i j => (fftAxis0 T.Nz false (mem ir) i j + I * fftAxis0 T.Nz false (mem it) i j) / 2) ∧
    (m ≠ 0 → 0 < T.Nr → ∀ i, i < T.Nz → T.interp2spectVect ir it sp sm mem sp i 0 = 0) ∧
    ∀ b, b ≠ sp → b ≠ sm → b ≠ T.bufR → b ≠ T.bufT → T.interp2spectVect ir it sp sm mem b = mem b := by
  let mem1 := T.fft false ir T.bufR mem
  let mem2 := T.fft false it T.bufT mem1
  let mem3 := rtToPm T.Nz T.Nr T.threads T.bufR T.bufT T.bufR T.bufT mem2
  let mem4 := T.dht T.Mp T.bufR sp mem3
  have f1 := fft_apply T.Nz T.Nr T.gpu false T.threads hT.covers T.fftIn ir T.bufR mem
  have f2 := fft_apply T.Nz T.Nr T.gpu false T.threads hT.covers T.fftIn it T.bufT mem1
  have r := C55_rt_to_pm T.Nz T.Nr T.threads hT.covers T.bufR T.bufT T.bufR T.bufT hbuf mem2
  have d1 := dht_apply T.Nz T.Nr ⟨T.gpu, T.threads, T.dhtIn, T.dhtOut⟩ hT.covers T.Mp T.bufR sp mem3
  have d2 := dht_apply T.Nz T.Nr ⟨T.gpu, T.threads, T.dhtIn, T.dhtOut⟩ hT.covers T.Mm T.bufT sm mem4
  have e2R : mem2 T.bufR = mem1 T.bufR := f2.2 _ hbuf
  have e1t : mem1 it = mem it := f1.2 _ h1
  have hR : EqOn T.Nz T.Nr (mem2 T.bufR) (fftAxis0 T.Nz false (mem ir)) := by rw [e2R]; exact f1.1
  have hTt : EqOn T.Nz T.Nr (mem2 T.bufT) (fftAxis0 T.Nz false (mem it)) := by
    have := f2.1; rwa [e1t] at this
  have hp : EqOn T.Nz T.Nr (mem3 T.bufR)
      (fun i j => (fftAxis0 T.Nz false (mem ir) i j - I * fftAxis0 T.Nz false (mem it) i j) / 2) := by
    intro i j hi hj
    refine (r.1 i j hi hj).trans ?_
    beta_reduce
    rw [hR i j hi hj, hTt i j hi hj]
  have hm3 : EqOn T.Nz T.Nr (mem3 T.bufT)
      (fun i j => (fftAxis0 T.Nz false (mem ir) i j + I * fftAxis0 T.Nz false (mem it) i j) / 2) := by
    intro i j hi hj
    refine (r.2.1 i j hi hj).trans ?_
    beta_reduce
    rw [hR i j hi hj, hTt i j hi hj]
  have e4T : mem4 T.bufT = mem3 T.bufT := d1.2 _ (Ne.symm h2)
  have hsp : EqOn T.Nz T.Nr (T.interp2spectVect ir it sp sm mem sp) _ := fun i j hi hj => by
    have := d2.2 sp h3
    exact (congrFun (congrFun this i) j).trans ((d1.1 i j hi hj).trans (hankel_congr T.Nz T.Nr T.Mp hp i j hi hj))
  refine ⟨hsp, ?_, ?_, ?_⟩
  · intro i j hi hj
    refine (d2.1 i j hi hj).trans ?_
    rw [e4T]
    exact hankel_congr T.Nz T.Nr T.Mm hm3 i j hi hj
  · intro hm0 hN i hi
    rw [hsp i 0 hi hN]
    exact hankel_low hT.okp hm0 (by omega) _ i
  · intro b b1 b2 b3 b4
    exact (d2.2 b b2).trans ((d1.2 b b1).trans ((r.2.2 b b3 b4).trans ((f2.2 b b4).trans (f1.2 b b3))))

/-- **C66** (transverse field to the interpolation grid, with the two shared buffers). -/
theorem C66_vect_interp (sp sm ir it : ℕ) (hbuf : T.bufR ≠ T.bufT) (h1 : sm ≠ T.bufR) (h2 : ir ≠ T.bufT)
    (h3 : ir ≠ it) (mem : Mem) :
    EqOn T.Nz T.Nr (T.spect2interpVect sp sm ir it mem ir)
      (fftAxis0 T.Nz true fun i j =>
        hankel T.Nr T.invMp (mem sp) i j + hankel T.Nr T.invMm (mem sm) i j) ∧
    EqOn T.Nz T.Nr (T.spect2interpVect sp sm ir it mem it)
      (fftAxis0 T.Nz true fun i j =>
        I * (hankel T.Nr T.invMp (mem sp) i j - hankel T.Nr T.invMm (mem sm) i j)) ∧
    ∀ b, b ≠ ir → b ≠ it → b ≠ T.bufR → b ≠ T.bufT → T.spect2interpVect sp sm ir it mem b = mem b := by
  let mem1 := T.dht T.invMp sp T.bufR mem
  let mem2 := T.dht T.invMm sm T.bufT mem1
  let mem3 := pmToRt T.Nz T.Nr T.threads T.bufR T.bufT T.bufR T.bufT mem2
  let mem4 := T.fft true T.bufR ir mem3
  have d1 := dht_apply T.Nz T.Nr ⟨T.gpu, T.threads, T.dhtIn, T.dhtOut⟩ hT.covers T.invMp sp T.bufR mem
  have d2 := dht_apply T.Nz T.Nr ⟨T.gpu, T.threads, T.dhtIn, T.dhtOut⟩ hT.covers T.invMm sm T.bufT mem1
  have r := C55_pm_to_rt T.Nz T.Nr T.threads hT.covers T.bufR T.bufT T.bufR T.bufT hbuf mem2
  have f1 := fft_apply T.Nz T.Nr T.gpu true T.threads hT.covers T.fftIn T.bufR ir mem3
  have f2 := fft_apply T.Nz T.Nr T.gpu true T.threads hT.covers T.fftIn T.bufT it mem4
  have e2R : mem2 T.bufR = mem1 T.bufR := d2.2 _ hbuf
  have e1t : mem1 sm = mem sm := d1.2 _ h1
  have hP : EqOn T.Nz T.Nr (mem2 T.bufR) (hankel T.Nr T.invMp (mem sp)) := by rw [e2R]; exact d1.1
  have hM : EqOn T.Nz T.Nr (mem2 T.bufT) (hankel T.Nr T.invMm (mem sm)) := by
    have := d2.1; rwa [e1t] at this
  have hr : EqOn T.Nz T.Nr (mem3 T.bufR)
      (fun i j => hankel T.Nr T.invMp (mem sp) i j + hankel T.Nr T.invMm (mem sm) i j) := by
    intro i j hi hj
    refine (r.1 i j hi hj).trans ?_
    beta_reduce
    rw [hP i j hi hj, hM i j hi hj]
  have ht : EqOn T.Nz T.Nr (mem3 T.bufT)
      (fun i j => I * (hankel T.Nr T.invMp (mem sp) i j - hankel T.Nr T.invMm (mem sm) i j)) := by
    intro i j hi hj
    refine (r.2.1 i j hi hj).trans ?_
    beta_reduce
    rw [hP i j hi hj, hM i j hi hj]
  have e4T : mem4 T.bufT = mem3 T.bufT := f1.2 _ (Ne.symm h2)
  refine ⟨?_, ?_, ?_⟩
  · intro i j hi hj
    have := f2.2 ir h3
    exact (congrFun (congrFun this i) j).trans
      ((f1.1 i j hi hj).trans (fftAxis0_congr T.Nz T.Nr true hr i j hi hj))
  · intro i j hi hj
    refine (f2.1 i j hi hj).trans ?_
    rw [e4T]
    exact fftAxis0_congr T.Nz T.Nr true ht i j hi hj
  · intro b b1 b2 b3 b4
    exact (f2.2 b b2).trans ((f1.2 b b1).trans ((r.2.2 b b3 b4).trans ((d2.2 b b4).trans (d1.2 b b3))))

/-- **C66** (transverse round trip from the spectral grid): both components come back unchanged, except that for
the modes other than 0 the lowest radial component of + is dropped. -/
theorem C66_vect_roundtrip (sp sm ir it sp' sm' : ℕ) (hbuf : T.bufR ≠ T.bufT) (h1 : sm ≠ T.bufR)
    (h2 : ir ≠ T.bufT) (h3 : ir ≠ it) (h4 : it ≠ T.bufR) (h5 : sp' ≠ T.bufT) (h6 : sp' ≠ sm') (mem : Mem) :
    EqOn T.Nz T.Nr (T.interp2spectVect ir it sp' sm' (T.spect2interpVect sp sm ir it mem) sp')
      (dropLow m (mem sp)) ∧
    EqOn T.Nz T.Nr (T.interp2spectVect ir it sp' sm' (T.spect2interpVect sp sm ir it mem) sm') (mem sm) := by
  obtain ⟨a1, a2, -⟩ := C66_vect_interp hT sp sm ir it hbuf h1 h2 h3 mem
  obtain ⟨b1, b2, -, -⟩ := C66_vect_spect hT ir it sp' sm' hbuf h4 h5 h6 (T.spect2interpVect sp sm ir it mem)
  have hI : ∀ z : ℂ, I * (I * z) = -z := fun z => by rw [← mul_assoc, I_mul_I]; ring
  have c1 : EqOn T.Nz T.Nr (fftAxis0 T.Nz false (T.spect2interpVect sp sm ir it mem ir)) _ :=
    fun i j hi hj => (fftAxis0_congr T.Nz T.Nr false a1 i j hi hj).trans (fftAxis0_inv T.Nz _ i j hi).2
  have c2 : EqOn T.Nz T.Nr (fftAxis0 T.Nz false (T.spect2interpVect sp sm ir it mem it)) _ :=
    fun i j hi hj => (fftAxis0_congr T.Nz T.Nr false a2 i j hi hj).trans (fftAxis0_inv T.Nz _ i j hi).2
  constructor
  · intro i j hi hj
    rw [b1 i j hi hj]
    have : EqOn T.Nz T.Nr (fun i j => (fftAxis0 T.Nz false (T.spect2interpVect sp sm ir it mem ir) i j -
        I * fftAxis0 T.Nz false (T.spect2interpVect sp sm ir it mem it) i j) / 2)
        (hankel T.Nr T.invMp (mem sp)) := by
      intro i j hi hj
      simp only []
      rw [c1 i j hi hj, c2 i j hi hj, hI]
      ring
    rw [hankel_congr T.Nz T.Nr T.Mp this i j hi hj]
    exact hankel_drop hT.okp (by omega) (mem sp) i j hi hj
  · intro i j hi hj
    rw [b2 i j hi hj]
    have : EqOn T.Nz T.Nr (fun i j => (fftAxis0 T.Nz false (T.spect2interpVect sp sm ir it mem ir) i j +
        I * fftAxis0 T.Nz false (T.spect2interpVect sp sm ir it mem it) i j) / 2)
        (hankel T.Nr T.invMm (mem sm)) := by
      intro i j hi hj
      simp only []
      rw [c1 i j hi hj, c2 i j hi hj, hI]
      ring
    rw [hankel_congr T.Nz T.Nr T.Mm this i j hi hj]
    exact hankel_inverse T.Nz T.Nr _ _ (dhtOk_full hT.okm (Or.inr rfl)).1 (mem sm) i j hi hj

/-- **C66** (transverse round trip from the interpolation grid, mode 0): both components come back unchanged. -/
theorem C66_vect_interp_roundtrip (hm : m = 0) (ir it sp sm ir' it' : ℕ) (hbuf : T.bufR ≠ T.bufT)
    (h1 : it ≠ T.bufR) (h2 : sp ≠ T.bufT) (h3 : sp ≠ sm) (h4 : sm ≠ T.bufR) (h5 : ir' ≠ T.bufT)
    (h6 : ir' ≠ it') (mem : Mem) :
    EqOn T.Nz T.Nr (T.spect2interpVect sp sm ir' it' (T.interp2spectVect ir it sp sm mem) ir') (mem ir) ∧
    EqOn T.Nz T.Nr (T.spect2interpVect sp sm ir' it' (T.interp2spectVect ir it sp sm mem) it') (mem it) := by
  obtain ⟨a1, a2, -, -⟩ := C66_vect_spect hT ir it sp sm hbuf h1 h2 h3 mem
  obtain ⟨b1, b2, -⟩ := C66_vect_interp hT sp sm ir' it' hbuf h4 h5 h6 (T.interp2spectVect ir it sp sm mem)
  have hI : ∀ z : ℂ, I * (I * z) = -z := fun z => by rw [← mul_assoc, I_mul_I]; ring
  have c1 : EqOn T.Nz T.Nr (hankel T.Nr T.invMp (T.interp2spectVect ir it sp sm mem sp)) _ :=
    fun i j hi hj => (hankel_congr T.Nz T.Nr T.invMp a1 i j hi hj).trans
      (hankel_inverse T.Nz T.Nr _ _ (dhtOk_full hT.okp (Or.inl hm)).2 _ i j hi hj)
  have c2 : EqOn T.Nz T.Nr (hankel T.Nr T.invMm (T.interp2spectVect ir it sp sm mem sm)) _ :=
    fun i j hi hj => (hankel_congr T.Nz T.Nr T.invMm a2 i j hi hj).trans
      (hankel_inverse T.Nz T.Nr _ _ (dhtOk_full hT.okm (Or.inl hm)).2 _ i j hi hj)
  constructor
  · intro i j hi hj
    rw [b1 i j hi hj]
    have : EqOn T.Nz T.Nr (fun i j => hankel T.Nr T.invMp (T.interp2spectVect ir it sp sm mem sp) i j +
        hankel T.Nr T.invMm (T.interp2spectVect ir it sp sm mem sm) i j) (fftAxis0 T.Nz false (mem ir)) := by
      intro i j hi hj
      simp only []
      rw [c1 i j hi hj, c2 i j hi hj]
      ring
    rw [fftAxis0_congr T.Nz T.Nr true this i j hi hj]
    exact (fftAxis0_inv T.Nz _ i j hi).1
  · intro i j hi hj
    rw [b2 i j hi hj]
    have : EqOn T.Nz T.Nr (fun i j => I * (hankel T.Nr T.invMp (T.interp2spectVect ir it sp sm mem sp) i j -
        hankel T.Nr T.invMm (T.interp2spectVect ir it sp sm mem sm) i j)) (fftAxis0 T.Nz false (mem it)) := by
      intro i j hi hj
      simp only []
      rw [c1 i j hi hj, c2 i j hi hj]
      have : ∀ x y : ℂ, (x - I * y) / 2 - (x + I * y) / 2 = -(I * y) := fun x y => by ring
      rw [this, mul_neg, hI]
      ring
    rw [fftAxis0_congr T.Nz T.Nr true this i j hi hj]
    exact (fftAxis0_inv T.Nz _ i j hi).1

/-- **C66** (projection): for every mode, a scalar field that has gone to the spectral grid and back once is not
changed by doing so again. -/
theorem C66_scal_projection (spect interp spect' interp' : ℕ) (h1 : spect ≠ interp)
    (h2 : spect ≠ T.bufR) (a : ℕ) (mem : Mem) :
    EqOn T.Nz T.Nr
      (T.spect2interpScal spect' interp'
        (T.interp2spectScal interp spect' (T.spect2interpScal spect interp (T.interp2spectScal a spect mem))) interp')
      (T.spect2interpScal spect interp (T.interp2spectScal a spect mem) interp) := by
  set mem1 := T.interp2spectScal a spect mem with hm1
  have hz := C66_scal_spect hT a spect mem
  have hr := C66_scal_roundtrip hT spect interp spect' mem1
  have hs : EqOn T.Nz T.Nr (T.interp2spectScal interp spect' (T.spect2interpScal spect interp mem1) spect')
      (mem1 spect) := by
    intro i j hi hj
    rw [hr i j hi hj]
    unfold dropLow
    split_ifs with h
    · obtain ⟨hm, rfl⟩ := h
      exact (hz.2.1 hm hj i hi).symm
    · rfl
  intro i j hi hj
  rw [(C66_scal_interp hT spect' interp' _).1 i j hi hj, (C66_scal_interp hT spect interp mem1).1 i j hi hj]
  exact fftAxis0_congr T.Nz T.Nr true (hankel_congr T.Nz T.Nr T.invM0 hs) i j hi hj

end

/-- The hypotheses on the matrices can be met for the mode 1 with two radial cells. -/
theorem exists_transOk : TransOk 1
    { Nz := 3, Nr := 2, gpu := true, threads := grid2d 3 2 2 16, bufR := 0, bufT := 1
      M0 := hankelM 1 1 (fun _ _ => 0) (fun l _ => if l = 1 then 1 else 0)
      invM0 := hankelInvM 1 1 1 (fun j => (j + 1 / 2) / 2) (fun _ j => if j = 1 then 1 else 0)
      Mp := hankelM 1 2 (fun _ _ => 0) (fun l _ => if l = 1 then 1 else 0)
      invMp := hankelInvM 1 2 1 (fun j => (j + 1 / 2) / 2) (fun _ j => if j = 1 then 1 else 0)
      Mm := hankelM 1 0 (fun i j => if i = 0 then (if j = 0 then Real.pi else -1) else if j = 0 then 0 else 1)
        (fun _ _ => 0)
      invMm := hankelInvM 1 0 1 (fun j => (j + 1 / 2) / 2) (fun _ j => if j = 1 then 1 else 0)
      dhtIn := fun _ _ => 0, dhtOut := fun _ _ => 7, fftIn := fun _ => 5 } := by
  have hpi := Real.pi_pos.ne'
  constructor
  · exact (C55_threads 3 2 2 16 (by decide) (by decide)).2
  · refine ⟨_, _, _, fun _ _ => 0, fun l _ => if l = 1 then 1 else 0, rfl, rfl, fun h => by omega,
      fun _ i j hi hj => ?_⟩
    simp only [Nat.lt_succ_iff] at hi hj
    obtain rfl : i = 0 := by omega
    obtain rfl : j = 0 := by omega
    simp [Finset.sum_range_succ, hankelInvM]
  · refine ⟨_, _, _, fun _ _ => 0, fun l _ => if l = 1 then 1 else 0, rfl, rfl, fun h => by omega,
      fun _ i j hi hj => ?_⟩
    simp only [Nat.lt_succ_iff] at hi hj
    obtain rfl : i = 0 := by omega
    obtain rfl : j = 0 := by omega
    simp [Finset.sum_range_succ, hankelInvM]
  · refine ⟨_, _, _, fun i j => if i = 0 then (if j = 0 then Real.pi else -1) else if j = 0 then 0 else 1,
      fun _ _ => 0, rfl, rfl, fun _ => ⟨?_, ?_⟩, fun h => by omega⟩ <;> intro i j hi hj <;>
      (have hi : i = 0 ∨ i = 1 := by simp only [] at hi; omega) <;>
      (have hj : j = 0 ∨ j = 1 := by simp only [] at hj; omega) <;>
      rcases hi with rfl | rfl <;> rcases hj with rfl | rfl <;>
      simp [Finset.sum_range_succ, hankelInvM, hpi]

/-! ### The component that is dropped is never used -/

/-- The components of order `m` and `m+1` vanish in this cell. -/
def Spec.LowZero (s : SpecCell) : Prop :=
  s.Ep = 0 ∧ s.Ez = 0 ∧ s.Bp = 0 ∧ s.Bz = 0 ∧ s.Jp = 0 ∧ s.Jz = 0 ∧ s.rhoPrev = 0 ∧ s.rhoNext = 0 ∧
    s.rhoNextZ = 0 ∧ s.rhoNextXY = 0 ∧ s.EpPml = 0 ∧ s.BpPml = 0

/-- **C66** (nothing is lost in a simulation): for the modes other than 0 the lowest radial wavenumber is 0, and
there, if the components that the transforms drop are 0, they stay 0 under the current correction (both kinds),
the field push (with or without PML, standard, comoving or Galilean) and the update of the charge. So the round
trips above are exact for the fields that occur. -/
theorem C66_low_kept (k : Consts) (cc : CurrentCorrection) (kz dt : ℝ) (V : Option ℝ) (gal pml rho : Bool)
    (s : SpecCell) (h : LowZero s) :
    LowZero (correctCurrents cc kz 0 (psatdCoefs k kz 0 dt V gal) s) ∧
    LowZero (pushEBWith k kz 0 (psatdCoefs k kz 0 dt V gal) pml rho s) ∧ LowZero (pushRho s) := by
  obtain ⟨h1, h2, h3, h4, h5, h6, h7, h8, h9, h10, h11, h12⟩ := h
  refine ⟨?_, ?_, ?_⟩
  · unfold correctCurrents psatdCoefs
    cases V <;> cases cc <;> simp only [Option.map_none, Option.map_some] <;>
      simp only [curlFreeStandard, crossDepStandard, curlFreeComoving, crossDepComoving, crossCorrect] <;>
      by_cases hk : kz = 0 <;>
      simp [LowZero, h1, h2, h3, h4, h5, h6, h7, h8, h9, h10, h11, h12, hk]
  · unfold pushEBWith psatdCoefs
    cases V <;> cases pml <;> cases rho <;> simp only [Option.map_none, Option.map_some] <;>
      simp [LowZero, pushEBStandard, pushEBComoving, pushPmlStandard, pushPmlComoving,
        h1, h2, h3, h4, h5, h6, h7, h8, h9, h10, h11, h12]
  · simp [LowZero, pushRho, h1, h2, h3, h4, h5, h6, h8, h9, h10, h11, h12]

/-- With a nonzero `-` component the hypothesis holds without all fields being zero. -/
example : LowZero ⟨0, 1, 0, 0, I, 0, 0, 2, 0, 0, 0, 0, 0, 0, 3, 0, 0⟩ := by
  simp [LowZero]

end Fbpic
