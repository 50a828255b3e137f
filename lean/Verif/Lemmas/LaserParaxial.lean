import Verif.Spec.LaserProfile
import Verif.Lemmas.Laguerre
import Mathlib.Analysis.SpecialFunctions.ExpDeriv
import Mathlib.Analysis.Calculus.Deriv.Polynomial
import Mathlib.Analysis.Calculus.Deriv.Inv
import Mathlib.Analysis.Complex.RealDeriv

/-! # The transverse profiles obey the paraxial wave equation -/

namespace Fbpic.LaserProf

open Complex (I)
open Spec

theorem _root_.Fbpic.Spec.ParaxialWave.add {k0 dir : ℝ} {u v : ℝ → ℝ → ℝ → ℂ} (hu : ParaxialWave k0 dir u) (hv : ParaxialWave k0 dir v) :
    ParaxialWave k0 dir fun x y z => u x y z + v x y z := by
  obtain ⟨ux, uxx, uy, uyy, uz, hu⟩ := hu
  obtain ⟨vx, vxx, vy, vyy, vz, hv⟩ := hv
  refine ⟨fun x y z => ux x y z + vx x y z, fun x y z => uxx x y z + vxx x y z, fun x y z => uy x y z + vy x y z,
    fun x y z => uyy x y z + vyy x y z, fun x y z => uz x y z + vz x y z, fun x y z => ?_⟩
  obtain ⟨h1, h2, h3, h4, h5, h6⟩ := hu x y z
  obtain ⟨g1, g2, g3, g4, g5, g6⟩ := hv x y z
  exact ⟨h1.add g1, h2.add g2, h3.add g3, h4.add g4, h5.add g5, by linear_combination h6 + g6⟩

theorem _root_.Fbpic.Spec.ParaxialWave.smul {k0 dir : ℝ} {u : ℝ → ℝ → ℝ → ℂ} (hu : ParaxialWave k0 dir u) (a : ℂ) :
    ParaxialWave k0 dir fun x y z => a * u x y z := by
  obtain ⟨ux, uxx, uy, uyy, uz, hu⟩ := hu
  refine ⟨fun x y z => a * ux x y z, fun x y z => a * uxx x y z, fun x y z => a * uy x y z,
    fun x y z => a * uyy x y z, fun x y z => a * uz x y z, fun x y z => ?_⟩
  obtain ⟨h1, h2, h3, h4, h5, h6⟩ := hu x y z
  exact ⟨h1.const_mul a, h2.const_mul a, h3.const_mul a, h4.const_mul a, h5.const_mul a, by linear_combination a * h6⟩

theorem _root_.Fbpic.Spec.ParaxialWave.zero (k0 dir : ℝ) : ParaxialWave k0 dir fun _ _ _ => 0 :=
  ⟨fun _ _ _ => 0, fun _ _ _ => 0, fun _ _ _ => 0, fun _ _ _ => 0, fun _ _ _ => 0, fun x y z =>
    ⟨hasDerivAt_const _ _, hasDerivAt_const _ _, hasDerivAt_const _ _, hasDerivAt_const _ _, hasDerivAt_const _ _, by simp⟩⟩

theorem _root_.Fbpic.Spec.ParaxialWave.congr {k0 dir : ℝ} {u v : ℝ → ℝ → ℝ → ℂ} (hu : ParaxialWave k0 dir u) (h : ∀ x y z, v x y z = u x y z) :
    ParaxialWave k0 dir v := by
  have : v = u := by funext x y z; exact h x y z
  rw [this]; exact hu

/-- A harmonic polynomial `(x + i ε y)^m` times a function of `r²` and `z`. -/
theorem paraxial_of (k0 dir b : ℝ) (ε : ℂ) (hε : ε ^ 2 = 1) (m : ℕ) (F F1 F2 Fz : ℂ → ℝ → ℂ)
    (h1 : ∀ s z, HasDerivAt (fun s => F s z) (F1 s z) s) (h2 : ∀ s z, HasDerivAt (fun s => F1 s z) (F2 s z) s)
    (hz : ∀ s z, HasDerivAt (fun z : ℝ => F s z) (Fz s z) z)
    (hp : ∀ s z, 4 * b * (s * F2 s z + (m + 1) * F1 s z) + 2 * I * k0 * dir * Fz s z = 0) :
    ParaxialWave k0 dir fun x y z => ((x : ℂ) + I * ε * y) ^ m * F (((x : ℂ) ^ 2 + (y : ℂ) ^ 2) * b) z := by
  have hI : I ^ 2 = -1 := Complex.I_sq
  have dv : ∀ (n : ℕ) (a w : ℂ) (e : ℂ), HasDerivAt (fun x : ℂ => (a + e * x) ^ n) ((n : ℂ) * (a + e * w) ^ (n - 1) * e) w := by
    intro n a w e
    have := ((((hasDerivAt_id w).const_mul e).const_add a).pow n)
    refine (this.congr_deriv (by simp)).congr_of_eventuallyEq (Filter.Eventually.of_forall fun t => ?_)
    simp
  have ds : ∀ (a w : ℂ), HasDerivAt (fun x : ℂ => (x ^ 2 + a) * b) (2 * w * b) w := by
    intro a w
    have := (((hasDerivAt_id w).pow 2).add_const a).mul_const (b : ℂ)
    simpa using this
  -- derivative along one axis of `v^n G(s)`
  have key : ∀ (n : ℕ) (G G1 : ℂ → ℂ) (_ : ∀ s, HasDerivAt G (G1 s) s) (a a' w e : ℂ),
      HasDerivAt (fun x : ℂ => (a + e * x) ^ n * G ((x ^ 2 + a') * b))
        ((n : ℂ) * (a + e * w) ^ (n - 1) * e * G ((w ^ 2 + a') * b) + (a + e * w) ^ n * (G1 ((w ^ 2 + a') * b) * (2 * w * b))) w := by
    intro n G G1 hG a a' w e
    exact (dv n a w e).mul ((hG _).comp w (ds a' w))
  have key2 : ∀ (G G1 G2 : ℂ → ℂ) (_ : ∀ s, HasDerivAt G (G1 s) s) (_ : ∀ s, HasDerivAt G1 (G2 s) s) (a a' w e : ℂ),
      HasDerivAt (fun w : ℂ => (m : ℂ) * (a + e * w) ^ (m - 1) * e * G ((w ^ 2 + a') * b) +
          (a + e * w) ^ m * (G1 ((w ^ 2 + a') * b) * (2 * w * b)))
        ((m : ℂ) * ((m - 1 : ℕ) * (a + e * w) ^ (m - 1 - 1) * e ^ 2 * G ((w ^ 2 + a') * b)) +
          2 * ((m : ℂ) * (a + e * w) ^ (m - 1) * e * (G1 ((w ^ 2 + a') * b) * (2 * w * b))) +
          (a + e * w) ^ m * (G2 ((w ^ 2 + a') * b) * (2 * w * b) ^ 2 + G1 ((w ^ 2 + a') * b) * (2 * b))) w := by
    intro G G1 G2 hG hG1 a a' w e
    have hk := ((key (m - 1) G G1 hG a a' w e).const_mul ((m : ℂ) * e)).add ((dv m a w e).mul
      (((hG1 _).comp w (ds a' w)).mul ((hasDerivAt_id w).const_mul (2 * (b : ℂ)))))
    have e1 : (fun w : ℂ => (m : ℂ) * (a + e * w) ^ (m - 1) * e * G ((w ^ 2 + a') * b) +
          (a + e * w) ^ m * (G1 ((w ^ 2 + a') * b) * (2 * w * b))) =
        ((fun x : ℂ => (m : ℂ) * e * ((a + e * x) ^ (m - 1) * G ((x ^ 2 + a') * b))) + (fun x : ℂ => (a + e * x) ^ m) *
          ((G1 ∘ fun x : ℂ => (x ^ 2 + a') * b) * fun y : ℂ => 2 * (b : ℂ) * id y)) := by
      funext x
      simp only [Pi.add_apply, Pi.mul_apply, Function.comp, id]
      ring
    rw [e1]
    refine hk.congr_deriv ?_
    simp only [Pi.mul_apply, Function.comp, id]
    ring
  refine ⟨fun x y z => (m : ℂ) * (I * ε * y + 1 * x) ^ (m - 1) * 1 * F ((x ^ 2 + y ^ 2) * b) z +
      (I * ε * y + 1 * x) ^ m * (F1 ((x ^ 2 + y ^ 2) * b) z * (2 * x * b)),
    fun x y z => (m : ℂ) * ((m - 1 : ℕ) * (I * ε * y + 1 * x) ^ (m - 1 - 1) * 1 ^ 2 * F ((x ^ 2 + y ^ 2) * b) z) +
          2 * ((m : ℂ) * (I * ε * y + 1 * x) ^ (m - 1) * 1 * (F1 ((x ^ 2 + y ^ 2) * b) z * (2 * x * b))) +
          (I * ε * y + 1 * x) ^ m * (F2 ((x ^ 2 + y ^ 2) * b) z * (2 * x * b) ^ 2 + F1 ((x ^ 2 + y ^ 2) * b) z * (2 * b)),
    fun x y z => (m : ℂ) * (x + I * ε * y) ^ (m - 1) * (I * ε) * F ((y ^ 2 + x ^ 2) * b) z +
      (x + I * ε * y) ^ m * (F1 ((y ^ 2 + x ^ 2) * b) z * (2 * y * b)),
    fun x y z => (m : ℂ) * ((m - 1 : ℕ) * (x + I * ε * y) ^ (m - 1 - 1) * (I * ε) ^ 2 * F ((y ^ 2 + x ^ 2) * b) z) +
          2 * ((m : ℂ) * (x + I * ε * y) ^ (m - 1) * (I * ε) * (F1 ((y ^ 2 + x ^ 2) * b) z * (2 * y * b))) +
          (x + I * ε * y) ^ m * (F2 ((y ^ 2 + x ^ 2) * b) z * (2 * y * b) ^ 2 + F1 ((y ^ 2 + x ^ 2) * b) z * (2 * b)),
    fun x y z => (x + I * ε * y) ^ m * Fz ((x ^ 2 + y ^ 2) * b) z, fun x y z => ⟨?_, ?_, ?_, ?_, ?_, ?_⟩⟩
  · have := (key m (fun s => F s z) (fun s => F1 s z) (fun s => h1 s z) (I * ε * y) ((y : ℂ) ^ 2) (x : ℂ) 1).comp_ofReal
    refine this.congr_of_eventuallyEq (Filter.Eventually.of_forall fun t => ?_)
    simp only
    ring
  · exact (key2 (fun s => F s z) (fun s => F1 s z) (fun s => F2 s z) (fun s => h1 s z) (fun s => h2 s z) (I * ε * y) ((y : ℂ) ^ 2)
      (x : ℂ) 1).comp_ofReal
  · have := (key m (fun s => F s z) (fun s => F1 s z) (fun s => h1 s z) (x : ℂ) ((x : ℂ) ^ 2) (y : ℂ) (I * ε)).comp_ofReal
    refine this.congr_of_eventuallyEq (Filter.Eventually.of_forall fun t => ?_)
    simp only
    rw [add_comm ((x : ℂ) ^ 2)]
  · exact (key2 (fun s => F s z) (fun s => F1 s z) (fun s => F2 s z) (fun s => h1 s z) (fun s => h2 s z) (x : ℂ) ((x : ℂ) ^ 2)
      (y : ℂ) (I * ε)).comp_ofReal
  · exact (hz _ z).const_mul _
  · have hp' := hp (((x : ℂ) ^ 2 + (y : ℂ) ^ 2) * b) z
    simp only
    rw [add_comm ((y : ℂ) ^ 2), one_mul, add_comm (I * ε * (y : ℂ))]
    generalize F1 (((x : ℂ) ^ 2 + (y : ℂ) ^ 2) * b) z = f1 at *
    generalize F2 (((x : ℂ) ^ 2 + (y : ℂ) ^ 2) * b) z = f2 at *
    generalize F (((x : ℂ) ^ 2 + (y : ℂ) ^ 2) * b) z = f0 at *
    generalize Fz (((x : ℂ) ^ 2 + (y : ℂ) ^ 2) * b) z = fz at *
    have hIe : (I * ε) ^ 2 = -1 := by rw [mul_pow, hI, hε]; ring
    have hvm : (m : ℂ) * ((x : ℂ) + I * ε * y) ^ (m - 1) * ((x : ℂ) + I * ε * y) = (m : ℂ) * ((x : ℂ) + I * ε * y) ^ m := by
      cases m with
      | zero => simp
      | succ n => simp only [Nat.add_sub_cancel]; ring
    rw [hIe]
    linear_combination ((x : ℂ) + I * ε * y) ^ m * hp' + 4 * b * f1 * hvm

/-- The function of `s = r²/w0²` and `z` in the Laguerre-Gauss profiles. -/
noncomputable def lgF (p m : ℕ) (invZr zf dir : ℝ) (s : ℂ) (z : ℝ) : ℂ :=
  let d := diffract invZr zf dir z
  (2 - d) ^ p / d ^ (p + m + 1) * ((lagPoly p m).map Complex.ofRealHom).eval (2 * s / (d * (2 - d))) * Complex.exp (-s / d)

theorem diffract_re (invZr zf dir z : ℝ) : (diffract invZr zf dir z).re = 1 := by simp [diffract]

theorem diffract_ne (invZr zf dir z : ℝ) : diffract invZr zf dir z ≠ 0 := by
  intro h
  have := diffract_re invZr zf dir z
  rw [h] at this; simp at this

theorem diffract_conj (invZr zf dir z : ℝ) : 2 - diffract invZr zf dir z = starRingEnd ℂ (diffract invZr zf dir z) := by
  apply Complex.ext <;> simp [diffract]; norm_num

theorem diffract_conj_ne (invZr zf dir z : ℝ) : 2 - diffract invZr zf dir z ≠ 0 := by
  rw [diffract_conj]
  exact (map_ne_zero _).mpr (diffract_ne _ _ _ _)

theorem lgF_paraxial (k0 w0 zf dir : ℝ) (hk : k0 ≠ 0) (hw : w0 ≠ 0) (hd : dir ^ 2 = 1) (ε : ℂ) (hε : ε ^ 2 = 1) (p m : ℕ) :
    ParaxialWave k0 dir fun x y z => ((x : ℂ) + I * ε * y) ^ m *
      lgF p m (1 / (1 / 2 * k0 * w0 ^ 2)) zf dir (((x : ℂ) ^ 2 + (y : ℂ) ^ 2) * (1 / w0 ^ 2 : ℝ)) z := by
  set iz := 1 / (1 / 2 * k0 * w0 ^ 2) with hiz
  set P := (lagPoly p m).map Complex.ofRealHom with hP
  set D := fun z => diffract iz zf dir z with hD
  have hdd : ∀ z, HasDerivAt (fun z : ℝ => D z) (I * dir * iz) z := by
    intro z
    have := (((((hasDerivAt_id (z : ℂ)).sub_const (zf : ℂ)).const_mul (I * dir)).mul_const (iz : ℂ)).const_add 1).comp_ofReal
    refine (this.congr_deriv (by simp)).congr_of_eventuallyEq (Filter.Eventually.of_forall fun t => ?_)
    simp [hD, diffract]
  refine paraxial_of k0 dir (1 / w0 ^ 2) ε hε m _
    (fun s z => (2 - D z) ^ p / D z ^ (p + m + 1) * ((2 / (D z * (2 - D z)) * P.derivative.eval (2 * s / (D z * (2 - D z))) -
      1 / D z * P.eval (2 * s / (D z * (2 - D z)))) * Complex.exp (-s / D z)))
    (fun s z => (2 - D z) ^ p / D z ^ (p + m + 1) * (((2 / (D z * (2 - D z))) ^ 2 * P.derivative.derivative.eval (2 * s / (D z * (2 - D z))) -
      2 / D z * (2 / (D z * (2 - D z))) * P.derivative.eval (2 * s / (D z * (2 - D z))) +
      1 / D z ^ 2 * P.eval (2 * s / (D z * (2 - D z)))) * Complex.exp (-s / D z)))
    (fun s z => I * dir * iz * ((2 - D z) ^ p / D z ^ (p + m + 1) * (((-(p + m + 1) / D z - p / (2 - D z) + s / D z ^ 2) *
      P.eval (2 * s / (D z * (2 - D z))) - 2 * s * (2 - 2 * D z) / (D z * (2 - D z)) ^ 2 *
      P.derivative.eval (2 * s / (D z * (2 - D z)))) * Complex.exp (-s / D z)))) ?_ ?_ ?_ ?_
  · intro s z
    have d0 : D z ≠ 0 := diffract_ne _ _ _ _
    have d1 : 2 - D z ≠ 0 := diffract_conj_ne _ _ _ _
    have hx : HasDerivAt (fun s : ℂ => 2 * s / (D z * (2 - D z))) (2 / (D z * (2 - D z))) s := by
      have := ((hasDerivAt_id s).const_mul 2).div_const (D z * (2 - D z)); simpa using this
    have he : HasDerivAt (fun s : ℂ => Complex.exp (-s / D z)) (Complex.exp (-s / D z) * (-1 / D z)) s := by
      have := (((hasDerivAt_id s).neg).div_const (D z)).cexp; simpa using this
    have := (((P.hasDerivAt _).comp s hx).const_mul ((2 - D z) ^ p / D z ^ (p + m + 1))).mul he
    refine this.congr_deriv ?_
    simp only [Function.comp]
    ring
  · intro s z
    have d0 : D z ≠ 0 := diffract_ne _ _ _ _
    have d1 : 2 - D z ≠ 0 := diffract_conj_ne _ _ _ _
    have hx : HasDerivAt (fun s : ℂ => 2 * s / (D z * (2 - D z))) (2 / (D z * (2 - D z))) s := by
      have := ((hasDerivAt_id s).const_mul 2).div_const (D z * (2 - D z)); simpa using this
    have he : HasDerivAt (fun s : ℂ => Complex.exp (-s / D z)) (Complex.exp (-s / D z) * (-1 / D z)) s := by
      have := (((hasDerivAt_id s).neg).div_const (D z)).cexp; simpa using this
    have := (((((P.derivative.hasDerivAt _).comp s hx).const_mul (2 / (D z * (2 - D z)))).sub
      (((P.hasDerivAt _).comp s hx).const_mul (1 / D z))).mul he).const_mul ((2 - D z) ^ p / D z ^ (p + m + 1))
    refine this.congr_deriv ?_
    simp only [Function.comp, Pi.sub_apply]
    ring
  · intro s z
    have d0 : D z ≠ 0 := diffract_ne _ _ _ _
    have d1 : 2 - D z ≠ 0 := diffract_conj_ne _ _ _ _
    have hD0 := hdd z
    have hD1 : HasDerivAt (fun z : ℝ => 2 - D z) (-(I * dir * iz)) z := by
      have := (hD0.const_sub (2 : ℂ)); simpa using this
    have hx : HasDerivAt (fun z : ℝ => 2 * s / (D z * (2 - D z)))
        (-(2 * s * ((I * dir * iz) * (2 - D z) + D z * (-(I * dir * iz)))) / (D z * (2 - D z)) ^ 2) z := by
      have := (hasDerivAt_const z (2 * s)).div (hD0.mul hD1) (mul_ne_zero d0 d1)
      refine this.congr_deriv ?_
      simp
    have he : HasDerivAt (fun z : ℝ => Complex.exp (-s / D z)) (Complex.exp (-s / D z) * (s * (I * dir * iz) / D z ^ 2)) z := by
      have := ((hasDerivAt_const z (-s)).div hD0 d0).cexp
      refine this.congr_deriv ?_
      simp
    have hpre := (hD1.pow p).div (hD0.pow (p + m + 1)) (pow_ne_zero _ d0)
    have := (hpre.mul ((P.hasDerivAt _).comp z hx)).mul he
    refine this.congr_deriv ?_
    have e1 : (p : ℂ) * (2 - D z) ^ (p - 1) = p * (2 - D z) ^ p / (2 - D z) := by
      cases p with
      | zero => simp
      | succ n => simp only [Nat.add_sub_cancel]; field_simp; ring
    simp only [Function.comp, Pi.mul_apply, Pi.div_apply, Pi.pow_apply, Nat.add_sub_cancel]
    rw [e1]
    push_cast
    field_simp
    ring
  · intro s z
    have d0 : D z ≠ 0 := diffract_ne _ _ _ _
    have d1 : 2 - D z ≠ 0 := diffract_conj_ne _ _ _ _
    have hI : I ^ 2 = -1 := Complex.I_sq
    have hode := congrArg (Polynomial.map Complex.ofRealHom) (lagPoly_ode p m)
    have hode := congrArg (Polynomial.eval (2 * s / (D z * (2 - D z)))) hode
    simp only [Polynomial.map_add, Polynomial.map_mul, Polynomial.map_sub, Polynomial.map_X, Polynomial.map_C, Polynomial.map_zero,
      Polynomial.eval_add, Polynomial.eval_mul, Polynomial.eval_sub, Polynomial.eval_X, Polynomial.eval_C, Polynomial.eval_zero,
      ← Polynomial.derivative_map, ← hP] at hode
    generalize P.derivative.derivative.eval (2 * s / (D z * (2 - D z))) = L2 at *
    generalize P.derivative.eval (2 * s / (D z * (2 - D z))) = L1 at *
    generalize P.eval (2 * s / (D z * (2 - D z))) = L0 at *
    simp only [Complex.ofRealHom_eq_coe, Complex.ofReal_add, Complex.ofReal_natCast, Complex.ofReal_one] at hode
    have hdir : (dir : ℂ) ^ 2 = 1 := by exact_mod_cast congrArg Complex.ofReal hd
    have hkz : (k0 : ℂ) * iz = 2 * (1 / w0 ^ 2 : ℝ) := by
      have : k0 * iz = 2 * (1 / w0 ^ 2) := by rw [hiz]; field_simp
      exact_mod_cast congrArg Complex.ofReal this
    have hpre : 2 * I * k0 * dir * (I * dir * iz) = -(4 * (1 / w0 ^ 2 : ℝ)) := by
      linear_combination (2 * I ^ 2 * (dir : ℂ) ^ 2) * hkz + (4 * (1 / w0 ^ 2 : ℝ)) * I ^ 2 * hdir + (4 * (1 / w0 ^ 2 : ℝ)) * hI
    have split : ∀ A B C : ℂ, 4 * ((1 / w0 ^ 2 : ℝ) : ℂ) * (s * A + (m + 1) * B) + 2 * I * k0 * dir * (I * dir * iz * C) =
        4 * ((1 / w0 ^ 2 : ℝ) : ℂ) * (s * A + (m + 1) * B - C) := by
      intro A B C
      linear_combination C * hpre
    rw [split]
    generalize (2 - D z) ^ p / D z ^ (p + m + 1) = pre
    generalize Complex.exp (-s / D z) = ex
    generalize D z = d at *
    refine mul_eq_zero_of_right _ ?_
    have : s * (pre * (((2 / (d * (2 - d))) ^ 2 * L2 - 2 / d * (2 / (d * (2 - d))) * L1 + 1 / d ^ 2 * L0) * ex)) +
        ((m : ℂ) + 1) * (pre * ((2 / (d * (2 - d)) * L1 - 1 / d * L0) * ex)) -
        pre * (((-((p : ℂ) + m + 1) / d - p / (2 - d) + s / d ^ 2) * L0 - 2 * s * (2 - 2 * d) / (d * (2 - d)) ^ 2 * L1) * ex) =
        pre * ex * (2 / (d * (2 - d))) * (2 * s / (d * (2 - d)) * L2 + ((m : ℂ) + 1 - 2 * s / (d * (2 - d))) * L1 + p * L0) := by
      field_simp
      ring
    rw [this, hode, mul_zero]

/-! ### The profiles of the code have this form -/

theorem norm_mul_exp_neg_arg (v : ℂ) : (‖v‖ : ℂ) * Complex.exp (-(I * Complex.arg v)) = starRingEnd ℂ v := by
  conv_rhs => rw [← Complex.norm_mul_exp_arg_mul_I v]
  rw [map_mul, Complex.conj_ofReal, ← Complex.exp_conj]
  congr 2
  simp [mul_comm]

theorem xy_norm (x y : ℝ) : ‖(x : ℂ) + I * y‖ = Real.sqrt (x ^ 2 + y ^ 2) := by
  rw [mul_comm I, Complex.norm_add_mul_I]

theorem diffract_norm_sq (invZr zf dir z : ℝ) :
    ((‖diffract invZr zf dir z‖ : ℂ)) ^ 2 = diffract invZr zf dir z * (2 - diffract invZr zf dir z) := by
  rw [diffract_conj, Complex.mul_conj, Complex.normSq_eq_norm_sq]; push_cast; ring

/-- Common part of the Laguerre-Gauss profiles: everything but the dependence on the angle. -/
theorem lg_common (p n : ℕ) (w0 invZr zf dir x y z : ℝ) (hw : 0 < w0) :
    let d := diffract invZr zf dir z
    let r2 := 2 * (x ^ 2 + y ^ 2) / (w0 * ‖d‖) ^ 2
    Complex.exp (-((x : ℂ) ^ 2 + y ^ 2) / (w0 ^ 2 * d) - I * (2 * p + n) * Complex.arg d) / d * ((Real.sqrt r2) ^ n : ℝ) *
      (laguerre p n r2 : ℝ) =
    ((Real.sqrt 2 / w0) ^ n : ℝ) * ((‖(x : ℂ) + I * y‖ : ℂ) ^ n * lgF p n invZr zf dir (((x : ℂ) ^ 2 + (y : ℂ) ^ 2) * (1 / w0 ^ 2 : ℝ)) z) := by
  intro d r2
  have d0 : d ≠ 0 := diffract_ne _ _ _ _
  have d1 : 2 - d ≠ 0 := diffract_conj_ne _ _ _ _
  have hn : (‖d‖ : ℂ) ≠ 0 := by exact_mod_cast norm_ne_zero_iff.mpr d0
  have hnr : 0 < ‖d‖ := norm_pos_iff.mpr d0
  have hsq : (‖d‖ : ℂ) ^ 2 = d * (2 - d) := diffract_norm_sq _ _ _ _
  have hw' : (w0 : ℂ) ≠ 0 := by exact_mod_cast hw.ne'
  have hr2 : ((r2 : ℝ) : ℂ) = 2 * (((x : ℂ) ^ 2 + (y : ℂ) ^ 2) * (1 / w0 ^ 2 : ℝ)) / (d * (2 - d)) := by
    rw [← hsq]
    simp only [r2]
    push_cast
    field_simp
  have hsr : Real.sqrt r2 = Real.sqrt 2 / w0 * (‖(x : ℂ) + I * y‖ / ‖d‖) := by
    rw [xy_norm]
    simp only [r2]
    rw [Real.sqrt_div (by positivity), Real.sqrt_sq (by positivity), Real.sqrt_mul (by norm_num)]
    field_simp
  have hph : Complex.exp (-((x : ℂ) ^ 2 + y ^ 2) / (w0 ^ 2 * d) - I * (2 * p + n) * Complex.arg d) =
      Complex.exp (-(((x : ℂ) ^ 2 + (y : ℂ) ^ 2) * (1 / w0 ^ 2 : ℝ)) / d) * ((2 - d) / ‖d‖) ^ (2 * p + n) := by
    have : (2 - d) / ‖d‖ = Complex.exp (-(I * Complex.arg d)) := by
      rw [diffract_conj, ← norm_mul_exp_neg_arg]
      change (‖d‖ : ℂ) * _ / ‖d‖ = _
      field_simp
      rfl
    rw [this, ← Complex.exp_nat_mul, ← Complex.exp_add]
    congr 1
    push_cast
    field_simp
    ring
  have hlag : ((laguerre p n r2 : ℝ) : ℂ) = ((lagPoly p n).map Complex.ofRealHom).eval (r2 : ℂ) := by
    rw [← lagPoly_eval, Polynomial.eval_map]
    exact (Polynomial.eval₂_at_apply Complex.ofRealHom r2).symm
  rw [hph, hsr, hlag, hr2]
  unfold lgF
  change _ = _ * (_ * ((2 - d) ^ p / d ^ (p + n + 1) * _ * Complex.exp (-_ / d)))
  generalize Polynomial.eval _ ((lagPoly p n).map Complex.ofRealHom) = L
  generalize Complex.exp _ = E
  have hpow : ((2 - d) / (‖d‖ : ℂ)) ^ (2 * p + n) * (1 / (‖d‖ : ℂ)) ^ n = (2 - d) ^ p / d ^ (p + n) := by
    rw [div_pow, div_pow, one_pow, div_mul_div_comm, mul_one, ← pow_add, show 2 * p + n + n = 2 * (p + n) by ring, pow_mul, hsq, mul_pow,
      div_eq_div_iff (by positivity) (by positivity)]
    ring
  push_cast
  rw [pow_succ d (p + n), mul_pow, div_pow (‖(x : ℂ) + I * y‖ : ℂ)]
  have : ((2 - d) ^ p / (d ^ (p + n) * d) : ℂ) = (2 - d) ^ p / d ^ (p + n) / d := by rw [div_div]
  rw [this, ← hpow]
  rw [div_pow 1, one_pow]
  field_simp

theorem donut_eq (p : ℕ) (m : ℤ) (amp w0 invZr zf dir x y z : ℝ) (hw : 0 < w0) :
    donutEval p m amp w0 invZr zf dir x y z = (amp * ((Real.sqrt 2 / w0) ^ m.natAbs : ℝ)) *
      (((x : ℂ) + I * (if 0 ≤ m then -1 else 1) * y) ^ m.natAbs *
        lgF p m.natAbs invZr zf dir (((x : ℂ) ^ 2 + (y : ℂ) ^ 2) * (1 / w0 ^ 2 : ℝ)) z) := by
  have hc := lg_common p m.natAbs w0 invZr zf dir x y z hw
  simp only at hc
  unfold donutEval
  simp only
  have hv : (‖(x : ℂ) + I * y‖ : ℂ) ^ m.natAbs * Complex.exp (-I * m * Complex.arg ((x : ℂ) + I * y)) =
      ((x : ℂ) + I * (if 0 ≤ m then -1 else 1) * y) ^ m.natAbs := by
    by_cases hm : 0 ≤ m
    · have e : (m : ℂ) = (m.natAbs : ℂ) := by
        have : m = (m.natAbs : ℤ) := by omega
        rw [← Int.cast_natCast, ← this]
      rw [if_pos hm, e, show -I * (m.natAbs : ℂ) * Complex.arg ((x : ℂ) + I * y) =
        (m.natAbs : ℂ) * (-(I * Complex.arg ((x : ℂ) + I * y))) by ring, Complex.exp_nat_mul, ← mul_pow, norm_mul_exp_neg_arg]
      congr 1
      apply Complex.ext <;> simp
    · have e : (m : ℂ) = -(m.natAbs : ℂ) := by
        have : m = -(m.natAbs : ℤ) := by omega
        rw [← Int.cast_natCast, ← Int.cast_neg, ← this]
      rw [if_neg hm, e, show -I * -(m.natAbs : ℂ) * Complex.arg ((x : ℂ) + I * y) =
        (m.natAbs : ℂ) * (Complex.arg ((x : ℂ) + I * y) * I) by ring, Complex.exp_nat_mul, ← mul_pow, Complex.norm_mul_exp_arg_mul_I]
      simp
  rw [← hv]
  have hE : Complex.exp (-I * m * Complex.arg ((x : ℂ) + I * y) - ((x : ℂ) ^ 2 + y ^ 2) / (w0 ^ 2 * diffract invZr zf dir z) -
      I * (2 * p + (m.natAbs : ℂ)) * Complex.arg (diffract invZr zf dir z)) =
      Complex.exp (-I * m * Complex.arg ((x : ℂ) + I * y)) *
      Complex.exp (-((x : ℂ) ^ 2 + y ^ 2) / (w0 ^ 2 * diffract invZr zf dir z) -
        I * (2 * p + (m.natAbs : ℂ)) * Complex.arg (diffract invZr zf dir z)) := by
    rw [← Complex.exp_add]; congr 1; ring
  rw [hE]
  linear_combination (amp : ℂ) * Complex.exp (-I * m * Complex.arg ((x : ℂ) + I * y)) * hc

theorem donut_paraxial (p : ℕ) (m : ℤ) (amp w0 k0 zf dir : ℝ) (hw : 0 < w0) (hk : k0 ≠ 0) (hd : dir ^ 2 = 1) :
    ParaxialWave k0 dir (donutEval p m amp w0 (1 / (1 / 2 * k0 * w0 ^ 2)) zf dir) :=
  ((lgF_paraxial k0 w0 zf dir hk hw.ne' hd (if 0 ≤ m then -1 else 1) (by split_ifs <;> norm_num) p m.natAbs).smul
    (amp * ((Real.sqrt 2 / w0) ^ m.natAbs : ℝ))).congr fun x y z => donut_eq p m amp w0 _ zf dir x y z hw

theorem lg_eq (p m : ℕ) (amp theta0 w0 invZr zf dir x y z : ℝ) (hw : 0 < w0) :
    lgEval p m amp theta0 w0 invZr zf dir x y z =
      Complex.exp (I * m * theta0) / 2 * donutEval p m amp w0 invZr zf dir x y z +
      Complex.exp (-(I * m * theta0)) / 2 * donutEval p (-m) amp w0 invZr zf dir x y z := by
  unfold lgEval donutEval
  simp only [Int.natAbs_natCast, Int.natAbs_neg]
  generalize Complex.arg (diffract invZr zf dir z) = psi
  generalize Complex.arg ((x : ℂ) + I * y) = th
  push_cast
  rw [Complex.cos]
  have e1 : ∀ a b c : ℂ, Complex.exp (a - b - c) = Complex.exp a * Complex.exp (-b - c) := by
    intro a b c; rw [← Complex.exp_add]; congr 1; ring
  rw [e1, e1, neg_div]
  generalize Complex.exp (-(((x : ℂ) ^ 2 + y ^ 2) / (w0 ^ 2 * diffract invZr zf dir z)) - I * (2 * p + m) * psi) = E
  have h1 : Complex.exp ((m : ℂ) * (th - theta0) * I) = Complex.exp (-(I * m * theta0)) * Complex.exp (-I * -m * th) := by
    rw [← Complex.exp_add]; congr 1; ring
  have h2 : Complex.exp (-((m : ℂ) * (th - theta0)) * I) = Complex.exp (I * m * theta0) * Complex.exp (-I * m * th) := by
    rw [← Complex.exp_add]; congr 1; ring
  rw [h1, h2]
  ring

theorem lg_paraxial (p m : ℕ) (amp theta0 w0 k0 zf dir : ℝ) (hw : 0 < w0) (hk : k0 ≠ 0) (hd : dir ^ 2 = 1) :
    ParaxialWave k0 dir (lgEval p m amp theta0 w0 (1 / (1 / 2 * k0 * w0 ^ 2)) zf dir) :=
  (((donut_paraxial p m amp w0 k0 zf dir hw hk hd).smul _).add ((donut_paraxial p (-m) amp w0 k0 zf dir hw hk hd).smul _)).congr
    fun x y z => lg_eq p m amp theta0 w0 _ zf dir x y z hw

theorem gaussTrans_eq (w0 invZr zf dir x y z : ℝ) : gaussTransEval w0 invZr zf dir x y z = donutEval 0 0 1 w0 invZr zf dir x y z := by
  simp only [gaussTransEval, donutEval, laguerre_zero, Int.natAbs_zero, pow_zero]
  simp only [Complex.ofReal_one, mul_one]
  congr 2
  push_cast
  ring

theorem gaussTrans_paraxial (w0 k0 zf dir : ℝ) (hw : 0 < w0) (hk : k0 ≠ 0) (hd : dir ^ 2 = 1) :
    ParaxialWave k0 dir (gaussTransEval w0 (1 / (1 / 2 * k0 * w0 ^ 2)) zf dir) :=
  (donut_paraxial 0 0 1 w0 k0 zf dir hw hk hd).congr fun x y z => gaussTrans_eq w0 _ zf dir x y z

theorem flat_fold (cn : ℕ → ℝ) (psi r2 : ℝ) (n : ℕ) :
    (List.range (n + 1)).foldl (flatStep cn psi r2) ⟨0, 0, 0⟩ =
      ⟨∑ i ∈ Finset.range (n + 1), (cn i : ℂ) * Complex.exp (-(2 * I * i) * psi) * (laguerre i 0 r2 : ℝ), laguerre n 0 r2,
        if n = 0 then 0 else laguerre (n - 1) 0 r2⟩ := by
  induction n with
  | zero => simp [flatStep, laguerre_zero]
  | succ n ih =>
    rw [List.range_succ, List.foldl_append, ih, List.foldl_cons, List.foldl_nil, Finset.sum_range_succ _ (n + 1)]
    unfold flatStep
    cases n with
    | zero => simp [laguerre_zero, laguerre_one]
    | succ n =>
      have h := laguerre_rec n r2
      simp only [if_neg (show n + 1 + 1 ≠ 0 by omega), if_neg (show n + 1 + 1 ≠ 1 by omega), if_neg (show n + 1 ≠ 0 by omega),
        Nat.add_sub_cancel]
      rw [← h]

theorem flat_eq (N : ℕ) (cn : ℕ → ℝ) (w invZr zf dir x y z : ℝ) :
    flatEval N cn w invZr zf dir x y z = ∑ n ∈ Finset.range (N + 1), donutEval n 0 (cn n) w invZr zf dir x y z := by
  unfold flatEval donutEval
  simp only [flat_fold, Finset.sum_mul, Finset.sum_div]
  refine Finset.sum_congr rfl fun n _ => ?_
  simp only [Int.natAbs_zero, pow_zero, Int.cast_zero]
  have : Complex.exp (-I * 0 * Complex.arg ((x : ℂ) + I * y) - ((x : ℂ) ^ 2 + y ^ 2) / (w ^ 2 * diffract invZr zf dir z) -
      I * (2 * n + ((0 : ℕ) : ℂ)) * Complex.arg (diffract invZr zf dir z)) =
      Complex.exp (-(2 * I * n) * Complex.arg (diffract invZr zf dir z)) *
        Complex.exp (-((x : ℂ) ^ 2 + y ^ 2) / (w ^ 2 * diffract invZr zf dir z)) := by
    rw [← Complex.exp_add]; congr 1; push_cast; ring
  rw [this]
  push_cast
  ring

theorem flat_paraxial (N : ℕ) (cn : ℕ → ℝ) (w k0 zf dir : ℝ) (hw : 0 < w) (hk : k0 ≠ 0) (hd : dir ^ 2 = 1) :
    ParaxialWave k0 dir (flatEval N cn w (1 / (1 / 2 * k0 * w ^ 2)) zf dir) := by
  have : ∀ M : ℕ, ParaxialWave k0 dir fun x y z => ∑ n ∈ Finset.range M, donutEval n 0 (cn n) w (1 / (1 / 2 * k0 * w ^ 2)) zf dir x y z := by
    intro M
    induction M with
    | zero => exact (ParaxialWave.zero k0 dir).congr fun x y z => by simp
    | succ M ih => exact (ih.add (donut_paraxial M 0 (cn M) w k0 zf dir hw hk hd)).congr fun x y z => by rw [Finset.sum_range_succ]
  exact (this (N + 1)).congr fun x y z => flat_eq N cn w _ zf dir x y z

end Fbpic.LaserProf
