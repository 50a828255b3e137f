import Verif.Props.LaserParaxial

/-! # C74: energy of the laser pulses -/

namespace Fbpic.LaserProf

open Complex (I)
open Spec MeasureTheory

/-- **C74** `squared_profile_integral()` of each transverse profile is the integral of the squared modulus over the plane, at every `z`. -/
theorem C74_transverse (lambda0 dir : ℝ) (T : Trans) (hT : Created lambda0 dir T) (z : ℝ) :
    planeIntegral (fun x y => T.evaluate x y z) = T.sqInt := by
  have hd := hT.dir_ok
  cases hT with
  | gaussian w zf hw h =>
    rw [gaussTrans_ok _ _ _ _ hd] at h; injection h with h; subst h
    simp only [gaussTrans_eq]
    rw [donut_plane _ _ _ _ _ _ _ _ hw]
    simp
  | laguerreGauss p m w zf th hw h =>
    obtain ⟨n, rfl⟩ := (lgTrans_inv h).2
    rw [lgTrans_ok _ _ _ _ _ _ _ hd] at h; injection h with h; subst h
    simp only
    rw [lg_plane _ _ _ _ _ _ _ _ _ hw, Real.sq_sqrt (by positivity), add_comm p n]
    have h1 : ((n + p).factorial : ℝ) ≠ 0 := by positivity
    have h2 : (p.factorial : ℝ) ≠ 0 := by positivity
    by_cases hn : n = 0
    · simp only [if_pos hn]; field_simp
    · simp only [if_neg hn]; field_simp
  | donut p m w zf hw h =>
    rw [donutTrans_ok _ _ _ _ _ _ hd] at h; injection h with h; subst h
    simp only
    rw [donut_plane _ _ _ _ _ _ _ _ hw, Real.sq_sqrt (by positivity), add_comm p m.natAbs]
    have h1 : ((m.natAbs + p).factorial : ℝ) ≠ 0 := by positivity
    have h2 : (p.factorial : ℝ) ≠ 0 := by positivity
    field_simp
  | flattened w N zf hw h =>
    rw [flatTrans_ok _ _ _ _ _ hd] at h; injection h with h; subst h
    simp only
    rw [flat_plane _ _ _ _ _ _ _ (mul_pos hw (Real.sqrt_pos.mpr (by positivity)))]
    congr 1

theorem gaussLong_ok (c tau z0 lambda0 cep phi2 dir : ℝ) (hd : dir = 1 ∨ dir = -1) :
    gaussLong c tau z0 lambda0 cep phi2 dir = .ok ⟨gaussLongEval c (2 * Real.pi / lambda0) z0 cep phi2 (1 / (c * tau) ^ 2) dir,
      Real.sqrt (1 / 2 * Real.pi * 1 / (1 / (c * tau) ^ 2)), 2 * Real.pi / lambda0, dir⟩ := by
  unfold gaussLong; rw [checkDir_ok hd]; rfl

theorem gaussLong_dir {c tau z0 lambda0 cep phi2 dir : ℝ} {l : Long} (h : gaussLong c tau z0 lambda0 cep phi2 dir = .ok l) :
    dir = 1 ∨ dir = -1 := by
  by_contra hd
  unfold gaussLong at h; simp [checkDir_refused hd, bind, Except.bind] at h

/-- **C74** `squared_profile_integral()` of the chirped longitudinal profile is the integral of the squared modulus along `z`, at every time
and for every chirp. -/
theorem C74_longitudinal (c tau z0 lambda0 cep phi2 dir : ℝ) (hc : 0 < c) (htau : 0 < tau) (l : Long)
    (h : gaussLong c tau z0 lambda0 cep phi2 dir = .ok l) (t : ℝ) : axisIntegral (fun z => l.evaluate z t) = l.sqInt := by
  have hd := gaussLong_dir h
  have hd2 : dir ^ 2 = 1 := by rcases hd with h | h <;> rw [h] <;> norm_num
  rw [gaussLong_ok _ _ _ _ _ _ _ hd] at h
  injection h with h
  subst h
  exact gaussLong_axis c _ z0 cep phi2 _ dir t (by positivity) hd2

/-- A quarter of an oscillation: the real part becomes the imaginary part. -/
theorem gaussLong_quarter (c k0 z0 cep phi2 invCtau2 dir z t : ℝ) :
    gaussLongEval c k0 z0 (cep + Real.pi / 2) phi2 invCtau2 dir z t = -I * gaussLongEval c k0 z0 cep phi2 invCtau2 dir z t := by
  rw [gaussLongEval_eq, gaussLongEval_eq, ← mul_assoc]
  congr 1
  rw [show ((k0 * (dir * (z - z0) - c * t) - (cep + Real.pi / 2) : ℝ) : ℂ) * I =
    -((Real.pi : ℂ) / 2 * I) + ((k0 * (dir * (z - z0) - c * t) - cep : ℝ) : ℂ) * I by push_cast; ring, Complex.exp_add]
  congr 1
  rw [Complex.exp_neg, Complex.exp_pi_div_two_mul_I, Complex.inv_I]

theorem energy_of (eps0 c k0 z0 cep phi2 invCtau2 dir E0 thetaPol a b t : ℝ) (T : Trans) (hi : 0 < invCtau2) (hd : dir ^ 2 = 1)
    (hT : ∀ z, planeIntegral (fun x y => T.evaluate x y z) = T.sqInt) :
    pulseEnergy eps0
      (fun x y z => combine (E0 * Real.cos thetaPol) (E0 * Real.sin thetaPol) ⟨gaussLongEval c k0 z0 cep phi2 invCtau2 dir, a, k0, dir⟩ T x y z t)
      (fun x y z => combine (E0 * Real.cos thetaPol) (E0 * Real.sin thetaPol)
        ⟨gaussLongEval c k0 z0 (cep + Real.pi / 2) phi2 invCtau2 dir, b, k0, dir⟩ T x y z t) =
      eps0 * E0 ^ 2 / 2 * (Real.sqrt (1 / 2 * Real.pi * 1 / invCtau2) * T.sqInt) := by
  unfold pulseEnergy
  have e : ∀ (z : ℝ) (p : ℝ × ℝ), eps0 * (((combine (E0 * Real.cos thetaPol) (E0 * Real.sin thetaPol)
        ⟨gaussLongEval c k0 z0 cep phi2 invCtau2 dir, a, k0, dir⟩ T p.1 p.2 z t).1 ^ 2 +
      (combine (E0 * Real.cos thetaPol) (E0 * Real.sin thetaPol) ⟨gaussLongEval c k0 z0 cep phi2 invCtau2 dir, a, k0, dir⟩ T p.1 p.2 z t).2 ^ 2) +
      ((combine (E0 * Real.cos thetaPol) (E0 * Real.sin thetaPol)
        ⟨gaussLongEval c k0 z0 (cep + Real.pi / 2) phi2 invCtau2 dir, b, k0, dir⟩ T p.1 p.2 z t).1 ^ 2 +
      (combine (E0 * Real.cos thetaPol) (E0 * Real.sin thetaPol)
        ⟨gaussLongEval c k0 z0 (cep + Real.pi / 2) phi2 invCtau2 dir, b, k0, dir⟩ T p.1 p.2 z t).2 ^ 2)) / 2 =
      (eps0 * E0 ^ 2 / 2 * ‖gaussLongEval c k0 z0 cep phi2 invCtau2 dir z t‖ ^ 2) * ‖T.evaluate p.1 p.2 z‖ ^ 2 := by
    intro z p
    unfold combine
    simp only [gaussLong_quarter, Complex.re_ofReal_mul]
    rw [mul_assoc (-I), mul_assoc (eps0 * E0 ^ 2 / 2), ← mul_pow ‖_‖, ← norm_mul]
    generalize gaussLongEval c k0 z0 cep phi2 invCtau2 dir z t * T.evaluate p.1 p.2 z = P
    have h1 : (-I * P).re = P.im := by simp
    rw [h1, ← Complex.normSq_eq_norm_sq, Complex.normSq_apply]
    linear_combination (eps0 * E0 ^ 2 / 2 * (P.re ^ 2 + P.im ^ 2)) * Real.cos_sq_add_sin_sq thetaPol
  simp only [e, integral_const_mul]
  have hT' : ∀ z, ∫ p : ℝ × ℝ, ‖T.evaluate p.1 p.2 z‖ ^ 2 = T.sqInt := hT
  simp only [hT', integral_mul_const, integral_const_mul]
  have := gaussLong_axis c k0 z0 cep phi2 invCtau2 dir t hi hd
  unfold axisIntegral at this
  rw [this]
  ring

/-- **C74** A `ParaxialApproximationLaser` made of the chirped longitudinal profile and any of the transverse profiles has the energy
`E_laser` that was asked, at every time, for every phase, chirp, polarization, position of the focal plane and direction. -/
theorem C74_energy (k : Phys) (tau z0 lambda0 cep phi2 dir energy thetaPol : ℝ) (T : Trans) (l l' : Long) (L L' : Laser)
    (hc : 0 < k.c) (heps : 0 < k.eps0) (htau : 0 < tau) (hE : 0 ≤ energy)
    (hT : Created lambda0 dir T) (hsq : 0 < T.sqInt)
    (hl : gaussLong k.c tau z0 lambda0 cep phi2 dir = .ok l) (hl' : gaussLong k.c tau z0 lambda0 (cep + Real.pi / 2) phi2 dir = .ok l')
    (hL : paraxial k l T energy thetaPol = .ok L) (hL' : paraxial k l' T energy thetaPol = .ok L') (t : ℝ) :
    pulseEnergy k.eps0 (fun x y z => L.field x y z t) (fun x y z => L'.field x y z t) = energy := by
  have hd := hT.dir_ok
  have hd2 : dir ^ 2 = 1 := by rcases hd with h | h <;> rw [h] <;> norm_num
  rw [gaussLong_ok _ _ _ _ _ _ _ hd] at hl hl'
  injection hl with hl
  injection hl' with hl'
  subst hl hl'
  obtain ⟨h1, h2⟩ := hT.props
  unfold paraxial at hL hL'
  simp only [h1, h2, ne_eq, not_true_eq_false, if_false, bind, Except.bind, pure, Except.pure] at hL hL'
  injection hL with hL
  injection hL' with hL'
  subst hL hL'
  have hi : 0 < 1 / (k.c * tau) ^ 2 := by positivity
  simp only
  rw [energy_of k.eps0 k.c _ z0 cep phi2 _ dir _ thetaPol _ _ t T hi hd2 (C74_transverse lambda0 dir T hT)]
  have hsl : 0 < Real.sqrt (1 / 2 * Real.pi * 1 / (1 / (k.c * tau) ^ 2)) := Real.sqrt_pos.mpr (by have := Real.pi_pos; positivity)
  rw [Real.sq_sqrt (by positivity)]
  field_simp

/-- **C74** The energy of a pulse of given `a0`: the one of the Gaussian pulse does not depend on the chirp, and the Laguerre-Gauss and
the donut-like pulses of the same `a0`, waist and duration have the same energy for all `p`, `m` (as documented). -/
theorem C74_same_energy (k : Phys) (p p' n : ℕ) (m : ℤ) (a0 waist tau z0 : ℝ) (zf : Option ℝ) (thetaPol lambda0 cep phi2 theta0 dir : ℝ)
    (hc : 0 < k.c) (htau : 0 < tau) (hw : 0 < waist) (hd : dir = 1 ∨ dir = -1) (t : ℝ) :
    let W := k.eps0 * (a0 * (k.me * k.c ^ 2 * (2 * Real.pi / lambda0) / k.e)) ^ 2 / 2 *
      (Real.sqrt (Real.pi / 2) * (k.c * tau) * (Real.pi * waist ^ 2 / 2))
    let HasEnergy := fun (a b : Except PyErr Laser) => ∃ L L', a = .ok L ∧ b = .ok L' ∧
      pulseEnergy k.eps0 (fun x y z => L.field x y z t) (fun x y z => L'.field x y z t) = W
    HasEnergy (gaussianLaser k a0 waist tau z0 zf thetaPol lambda0 cep phi2 dir)
      (gaussianLaser k a0 waist tau z0 zf thetaPol lambda0 (cep + Real.pi / 2) phi2 dir) ∧
    HasEnergy (laguerreGaussLaser k p n a0 waist tau z0 zf thetaPol lambda0 cep theta0 dir)
      (laguerreGaussLaser k p n a0 waist tau z0 zf thetaPol lambda0 (cep + Real.pi / 2) theta0 dir) ∧
    HasEnergy (donutLaser k p' m a0 waist tau z0 zf thetaPol lambda0 cep dir)
      (donutLaser k p' m a0 waist tau z0 zf thetaPol lambda0 (cep + Real.pi / 2) dir) := by
  intro W HasEnergy
  have hd2 : dir ^ 2 = 1 := by rcases hd with h | h <;> rw [h] <;> norm_num
  have hi : 0 < 1 / (k.c * tau) ^ 2 := by positivity
  have hpi := Real.pi_pos
  have key : ∀ (phi2 : ℝ) (tr : ℝ → ℝ → Except PyErr Trans) (T : Trans), tr (zf.getD z0) dir = .ok T → Created lambda0 dir T →
      T.sqInt = 1 / 2 * Real.pi * waist ^ 2 →
      HasEnergy (pulse k a0 tau z0 zf thetaPol lambda0 cep phi2 dir tr) (pulse k a0 tau z0 zf thetaPol lambda0 (cep + Real.pi / 2) phi2 dir tr) := by
    intro phi2 tr T h hT hsq
    refine ⟨_, _, pulse_ok k a0 tau z0 zf thetaPol lambda0 cep phi2 dir tr hd T h,
      pulse_ok k a0 tau z0 zf thetaPol lambda0 (cep + Real.pi / 2) phi2 dir tr hd T h, ?_⟩
    simp only
    rw [energy_of k.eps0 k.c _ z0 cep phi2 _ dir _ thetaPol _ _ t T hi hd2 (C74_transverse lambda0 dir T hT), hsq]
    have hs : Real.sqrt (1 / 2 * Real.pi * 1 / (1 / (k.c * tau) ^ 2)) = Real.sqrt (Real.pi / 2) * (k.c * tau) := by
      rw [show 1 / 2 * Real.pi * 1 / (1 / (k.c * tau) ^ 2) = Real.pi / 2 * (k.c * tau) ^ 2 by field_simp,
        Real.sqrt_mul (by positivity), Real.sqrt_sq (by positivity)]
    rw [hs]
    simp only [W, amplitude]
    ring
  refine ⟨key phi2 (fun zf dir => gaussTrans waist zf lambda0 dir) _ (gaussTrans_ok _ _ _ _ hd)
      (.gaussian waist _ hw (gaussTrans_ok _ _ _ _ hd)) rfl,
    key 0 (fun zf dir => lgTrans p n waist zf lambda0 theta0 dir) _ (lgTrans_ok _ _ _ _ _ _ _ hd)
      (.laguerreGauss p n waist _ theta0 hw (lgTrans_ok _ _ _ _ _ _ _ hd)) rfl,
    key 0 (fun zf dir => donutTrans p' m waist zf lambda0 dir) _ (donutTrans_ok _ _ _ _ _ _ hd)
      (.donut p' m waist _ hw (donutTrans_ok _ _ _ _ _ _ hd)) rfl⟩

theorem paraxial_ok (k : Phys) (l : Long) (T : Trans) (energy thetaPol : ℝ) (h1 : l.dir = T.dir) (h2 : l.k0 = T.k0) :
    ∃ L, paraxial k l T energy thetaPol = .ok L := by
  unfold paraxial
  simp [h1, h2, bind, Except.bind, pure, Except.pure]

/-- **C74** The combination of profiles of different directions is refused. -/
theorem C74_refused (k : Phys) (l : Long) (T : Trans) (energy thetaPol : ℝ) :
    (∃ s, paraxial k l T energy thetaPol = .error (.assertionError s)) ↔ (l.dir ≠ T.dir ∨ l.k0 ≠ T.k0) := by
  unfold paraxial
  by_cases h1 : l.dir = T.dir <;> by_cases h2 : l.k0 = T.k0 <;>
    simp [h1, h2, bind, Except.bind, pure, Except.pure, throw, throwThe, MonadExceptOf.throw]

/-- The hypotheses of `C74_energy` are met: a flattened chirped pulse of 5 J to the left. -/
example : ∃ T l l' L L', Created 1 (-1) T ∧ 0 < T.sqInt ∧ gaussLong 3 1 0 1 0 7 (-1) = .ok l ∧ gaussLong 3 1 0 1 (0 + Real.pi / 2) 7 (-1) = .ok l' ∧
    paraxial ⟨3, 1, 1, 1⟩ l T 5 0 = .ok L ∧ paraxial ⟨3, 1, 1, 1⟩ l' T 5 0 = .ok L' := by
  have hd : (-1 : ℝ) = 1 ∨ (-1 : ℝ) = -1 := Or.inr rfl
  have hT := flatTrans_ok 1 2 4 1 (-1) hd
  have hl := gaussLong_ok 3 1 0 1 0 7 (-1) hd
  have hl' := gaussLong_ok 3 1 0 1 (0 + Real.pi / 2) 7 (-1) hd
  obtain ⟨L, hL⟩ := paraxial_ok ⟨3, 1, 1, 1⟩ (⟨gaussLongEval 3 (2 * Real.pi / 1) 0 0 7 (1 / (3 * 1) ^ 2) (-1), _, _, _⟩ : Long)
    ⟨flatEval 2 (flatCn 2) _ _ 4 (-1), _, _, _⟩ 5 0 rfl rfl
  obtain ⟨L', hL'⟩ := paraxial_ok ⟨3, 1, 1, 1⟩ (⟨gaussLongEval 3 (2 * Real.pi / 1) 0 (0 + Real.pi / 2) 7 (1 / (3 * 1) ^ 2) (-1), _, _, _⟩ : Long)
    ⟨flatEval 2 (flatCn 2) _ _ 4 (-1), _, _, _⟩ 5 0 rfl rfl
  refine ⟨_, _, _, L, L', .flattened 1 2 4 one_pos hT, ?_, hl, hl', hL, hL'⟩
  · simp only
    have h0 : 0 < flatCn 2 0 := by
      unfold flatCn
      refine div_pos (Finset.sum_pos (fun m _ => by simp) ⟨0, by simp⟩) (by positivity)
    have : 0 < ((List.range (2 + 1)).map fun n => flatCn 2 n ^ 2).sum := by
      simp only [List.range_succ, List.range_zero, List.map_append, List.map_cons, List.map_nil, List.sum_append, List.sum_cons, List.sum_nil]
      nlinarith [sq_nonneg (flatCn 2 1), sq_nonneg (flatCn 2 2), pow_pos h0 2]
    have h3 : 0 < (1 * Real.sqrt ((2 : ℕ) + 1 : ℝ)) ^ 2 := by positivity
    have := Real.pi_pos
    positivity

end Fbpic.LaserProf
