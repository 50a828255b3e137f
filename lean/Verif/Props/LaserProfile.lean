import Verif.Lemmas.LaserEnergy
import Verif.Lemmas.LaserLong

/-!
# C72: Gaussian, Laguerre-Gauss and flattened laser pulses

The fields of the pulses in the focal plane are the ones of the documentation; they are mirrored with the direction of propagation; the
amplitude is bounded by the one given by `a0`; a chirp delays the frequencies as documented.
-/

namespace Fbpic.LaserProf

open Complex (I)
open Spec

theorem checkDir_ok {dir : ℝ} (h : dir = 1 ∨ dir = -1) : checkDir dir = .ok dir := by
  unfold checkDir; rw [if_pos h.symm]

theorem checkDir_refused {dir : ℝ} (h : ¬(dir = 1 ∨ dir = -1)) : checkDir dir = .error (.assertionError "") := by
  unfold checkDir; rw [if_neg fun h' => h h'.symm]

theorem pulse_ok (k : Phys) (a0 tau z0 : ℝ) (zf : Option ℝ) (thetaPol lambda0 cep phi2 dir : ℝ) (tr : ℝ → ℝ → Except PyErr Trans)
    (hd : dir = 1 ∨ dir = -1) (T : Trans) (hT : tr (zf.getD z0) dir = .ok T) :
    pulse k a0 tau z0 zf thetaPol lambda0 cep phi2 dir tr = .ok ⟨combine (amplitude k a0 lambda0 * Real.cos thetaPol)
      (amplitude k a0 lambda0 * Real.sin thetaPol)
      ⟨gaussLongEval k.c (2 * Real.pi / lambda0) z0 cep phi2 (1 / (k.c * tau) ^ 2) dir,
        Real.sqrt (1 / 2 * Real.pi * 1 / (1 / (k.c * tau) ^ 2)), 2 * Real.pi / lambda0, dir⟩ T, dir⟩ := by
  unfold pulse gaussLong
  simp only [checkDir_ok hd, bind, Except.bind, pure, Except.pure, hT]

theorem gaussTrans_ok (waist zf lambda0 dir : ℝ) (hd : dir = 1 ∨ dir = -1) :
    gaussTrans waist zf lambda0 dir = .ok ⟨gaussTransEval waist (1 / (1 / 2 * (2 * Real.pi / lambda0) * waist ^ 2)) zf dir,
      1 / 2 * Real.pi * waist ^ 2, 2 * Real.pi / lambda0, dir⟩ := by
  unfold gaussTrans; rw [checkDir_ok hd]; rfl

theorem lgTrans_ok (p m : ℕ) (waist zf lambda0 theta0 dir : ℝ) (hd : dir = 1 ∨ dir = -1) :
    lgTrans p m waist zf lambda0 theta0 dir = .ok ⟨lgEval p m (Real.sqrt (p.factorial * (if m = 0 then 1 else 2) / (m + p).factorial)) theta0
      waist (1 / (1 / 2 * (2 * Real.pi / lambda0) * waist ^ 2)) zf dir, 1 / 2 * Real.pi * waist ^ 2, 2 * Real.pi / lambda0, dir⟩ := by
  unfold lgTrans; rw [checkDir_ok hd]
  simp only [bind, Except.bind, pure, Except.pure, if_neg (show ¬((m : ℤ) < 0) by omega), Int.toNat_natCast]
  by_cases hm : m = 0
  · subst hm
    simp only [Nat.cast_zero, if_pos, ne_eq, not_true_eq_false, if_false, zero_add, mul_one]
    rw [div_self (by positivity), Real.sqrt_one]
  · simp only [if_neg hm, if_neg (show ¬((m : ℤ) = 0) by omega), if_pos (show (m : ℤ) ≠ 0 by omega)]
    rw [show (p.factorial : ℝ) * 2 / (m + p).factorial = p.factorial / (m + p).factorial * 2 by ring, Real.sqrt_mul (by positivity)]

theorem lgTrans_neg (p : ℕ) (m : ℤ) (waist zf lambda0 theta0 dir : ℝ) (hd : dir = 1 ∨ dir = -1) (hm : m < 0) :
    lgTrans p m waist zf lambda0 theta0 dir = .error (.valueError "m should be an integer positive number.") := by
  unfold lgTrans; rw [checkDir_ok hd]
  simp only [bind, Except.bind, if_pos hm]
  rfl

theorem pulse_err (k : Phys) (a0 tau z0 : ℝ) (zf : Option ℝ) (thetaPol lambda0 cep phi2 dir : ℝ) (tr : ℝ → ℝ → Except PyErr Trans)
    (hd : dir = 1 ∨ dir = -1) (e : PyErr) (hT : tr (zf.getD z0) dir = .error e) :
    pulse k a0 tau z0 zf thetaPol lambda0 cep phi2 dir tr = .error e := by
  unfold pulse gaussLong
  simp only [checkDir_ok hd, bind, Except.bind, pure, Except.pure, hT]

theorem donutTrans_ok (p : ℕ) (m : ℤ) (waist zf lambda0 dir : ℝ) (hd : dir = 1 ∨ dir = -1) :
    donutTrans p m waist zf lambda0 dir = .ok ⟨donutEval p m (Real.sqrt (p.factorial / (m.natAbs + p).factorial))
      waist (1 / (1 / 2 * (2 * Real.pi / lambda0) * waist ^ 2)) zf dir, 1 / 2 * Real.pi * waist ^ 2, 2 * Real.pi / lambda0, dir⟩ := by
  unfold donutTrans; rw [checkDir_ok hd]; rfl

theorem flatTrans_ok (w0 : ℝ) (N : ℕ) (zf lambda0 dir : ℝ) (hd : dir = 1 ∨ dir = -1) :
    flatTrans w0 N zf lambda0 dir = .ok ⟨flatEval N (flatCn N) (w0 * Real.sqrt (N + 1))
      (1 / (1 / 2 * (2 * Real.pi / lambda0) * (w0 * Real.sqrt (N + 1)) ^ 2)) zf dir,
      1 / 2 * Real.pi * (w0 * Real.sqrt (N + 1)) ^ 2 * ((List.range (N + 1)).map fun n => flatCn N n ^ 2).sum, 2 * Real.pi / lambda0, dir⟩ := by
  unfold flatTrans; rw [checkDir_ok hd]; rfl

/-- A field `combine` where the transverse profile at the point is `f exp(i φ)` with real `f`, `φ`, without chirp. -/
theorem combine_real (c k0 z0 cep invCtau2 dir E0x E0y a b f φ x y z t : ℝ) (ev : ℝ → ℝ → ℝ → ℂ) (sq : ℝ)
    (h : ev x y z = f * Complex.exp (φ * I)) :
    combine E0x E0y ⟨gaussLongEval c k0 z0 cep 0 invCtau2 dir, a, k0, dir⟩ ⟨ev, sq, k0, b⟩ x y z t =
      (E0x * (f * Real.exp (-(invCtau2 * (dir * (z - z0) - c * t) ^ 2)) * Real.cos (k0 * (dir * (z - z0) - c * t) - cep + φ)),
       E0y * (f * Real.exp (-(invCtau2 * (dir * (z - z0) - c * t) ^ 2)) * Real.cos (k0 * (dir * (z - z0) - c * t) - cep + φ))) := by
  have hs : stretchOf (2 * 0 * c ^ 2 * invCtau2) = 1 := by simp [stretchOf]
  have e : gaussLongEval c k0 z0 cep 0 invCtau2 dir z t * ev x y z =
      ((f * Real.exp (-(invCtau2 * (dir * (z - z0) - c * t) ^ 2)) : ℝ) : ℂ) *
        Complex.exp (((k0 * (dir * (z - z0) - c * t) - cep + φ : ℝ) : ℂ) * I) := by
    rw [gaussLongEval_eq, hs, h, Complex.one_cpow, div_one, div_one, ← Complex.ofReal_neg, ← Complex.ofReal_exp,
      show ((k0 * (dir * (z - z0) - c * t) - cep + φ : ℝ) : ℂ) * I = ((k0 * (dir * (z - z0) - c * t) - cep : ℝ) : ℂ) * I + φ * I by
        push_cast; ring, Complex.exp_add]
    push_cast
    ring
  unfold combine
  simp only [e]
  simp only [Complex.re_ofReal_mul, Complex.exp_ofReal_mul_I_re]

theorem diffract_focus (invZr zf dir : ℝ) : diffract invZr zf dir zf = 1 := by simp [diffract]

/-- **C72** A `GaussianLaser` has, in the focal plane, the documented field
`a0 E0 exp(-r²/w0² - (z-z0-ct)²/(cτ)²) cos(k0(z-z0-ct) - φ)`, along the given direction of polarization. -/
theorem C72_gaussian (k : Phys) (a0 waist tau z0 : ℝ) (zf : Option ℝ) (thetaPol lambda0 cep dir : ℝ) (hd : dir = 1 ∨ dir = -1) :
    ∃ L, gaussianLaser k a0 waist tau z0 zf thetaPol lambda0 cep 0 dir = .ok L ∧ L.dir = dir ∧ ∀ x y t : ℝ,
      let k0 := 2 * Real.pi / lambda0
      let E0 := k.me * k.c ^ 2 * k0 / k.e
      let ζ := dir * (zf.getD z0 - z0) - k.c * t
      let E := a0 * E0 * Real.exp (-(x ^ 2 + y ^ 2) / waist ^ 2 - ζ ^ 2 / (k.c ^ 2 * tau ^ 2)) * Real.cos (k0 * ζ - cep)
      L.field x y (zf.getD z0) t = (E * Real.cos thetaPol, E * Real.sin thetaPol) := by
  refine ⟨_, pulse_ok k a0 tau z0 zf thetaPol lambda0 cep 0 dir _ hd _ (gaussTrans_ok _ _ _ _ hd), rfl, fun x y t => ?_⟩
  intro k0 E0 ζ E
  have h : gaussTransEval waist (1 / (1 / 2 * (2 * Real.pi / lambda0) * waist ^ 2)) (zf.getD z0) dir x y (zf.getD z0) =
      ((Real.exp (-(x ^ 2 + y ^ 2) / waist ^ 2) : ℝ) : ℂ) * Complex.exp ((0 : ℝ) * I) := by
    unfold gaussTransEval
    simp only [diffract_focus]
    push_cast
    simp
  refine (combine_real _ _ _ _ _ _ _ _ _ _ _ _ _ _ _ _ _ _ h).trans ?_
  have e : E = amplitude k a0 lambda0 * (Real.exp (-(x ^ 2 + y ^ 2) / waist ^ 2) * Real.exp (-(1 / (k.c * tau) ^ 2 * ζ ^ 2)) *
      Real.cos (k0 * ζ - cep + 0)) := by
    rw [← Real.exp_add, add_zero]
    simp only [E, amplitude, E0]
    rw [show -(x ^ 2 + y ^ 2) / waist ^ 2 - ζ ^ 2 / (k.c ^ 2 * tau ^ 2) = -(x ^ 2 + y ^ 2) / waist ^ 2 + -(1 / (k.c * tau) ^ 2 * ζ ^ 2) by
      rw [mul_pow]; ring]
    ring
  rw [e, Prod.mk.injEq]
  constructor <;> ring

/-- **C72** The same for a `LaguerreGaussLaser`. The angle `θ` is the one of the point `(x, y)`. -/
theorem C72_laguerre_gauss (k : Phys) (p m : ℕ) (a0 waist tau z0 : ℝ) (zf : Option ℝ) (thetaPol lambda0 cep theta0 dir : ℝ)
    (hd : dir = 1 ∨ dir = -1) (hw : 0 < waist) :
    ∃ L, laguerreGaussLaser k p m a0 waist tau z0 zf thetaPol lambda0 cep theta0 dir = .ok L ∧ L.dir = dir ∧ ∀ r θ t : ℝ,
      0 < r → -Real.pi < θ → θ < Real.pi →
      let k0 := 2 * Real.pi / lambda0
      let E0 := k.me * k.c ^ 2 * k0 / k.e
      let ζ := dir * (zf.getD z0 - z0) - k.c * t
      let f := Real.sqrt (p.factorial * (if m = 0 then 1 else 2) / (m + p).factorial) * (Real.sqrt 2 * r / waist) ^ m *
        laguerre p m (2 * r ^ 2 / waist ^ 2) * Real.cos (m * (θ - theta0))
      let E := a0 * E0 * f * Real.exp (-r ^ 2 / waist ^ 2 - ζ ^ 2 / (k.c ^ 2 * tau ^ 2)) * Real.cos (k0 * ζ - cep)
      L.field (r * Real.cos θ) (r * Real.sin θ) (zf.getD z0) t = (E * Real.cos thetaPol, E * Real.sin thetaPol) := by
  refine ⟨_, pulse_ok k a0 tau z0 zf thetaPol lambda0 cep 0 dir _ hd _ (lgTrans_ok _ _ _ _ _ _ _ hd), rfl, fun r θ t hr h1 h2 => ?_⟩
  intro k0 E0 ζ f E
  have hs : (r * Real.cos θ) ^ 2 + (r * Real.sin θ) ^ 2 = r ^ 2 := by linear_combination r ^ 2 * Real.cos_sq_add_sin_sq θ
  have hs' : ((r * Real.cos θ : ℝ) : ℂ) ^ 2 + ((r * Real.sin θ : ℝ) : ℂ) ^ 2 = ((r ^ 2 : ℝ) : ℂ) := by exact_mod_cast hs
  have hr2 : Real.sqrt (2 * r ^ 2 / waist ^ 2) = Real.sqrt 2 * r / waist := by
    rw [Real.sqrt_div (by positivity), Real.sqrt_sq hw.le, Real.sqrt_mul (by norm_num), Real.sqrt_sq hr.le]
  have h : lgEval p m (Real.sqrt (p.factorial * (if m = 0 then 1 else 2) / (m + p).factorial)) theta0 waist
      (1 / (1 / 2 * (2 * Real.pi / lambda0) * waist ^ 2)) (zf.getD z0) dir (r * Real.cos θ) (r * Real.sin θ) (zf.getD z0) =
      ((f * Real.exp (-r ^ 2 / waist ^ 2) : ℝ) : ℂ) * Complex.exp ((0 : ℝ) * I) := by
    unfold lgEval
    simp only [diffract_focus, norm_one, mul_one, Complex.arg_one, hs, hs', hr2, arg_polar r θ hr h1 h2]
    simp only [f]
    push_cast
    simp only [mul_zero, sub_zero, div_one, zero_mul, Complex.exp_zero, mul_one]
    ring
  refine (combine_real _ _ _ _ _ _ _ _ _ _ _ _ _ _ _ _ _ _ h).trans ?_
  have e : E = amplitude k a0 lambda0 * (f * Real.exp (-r ^ 2 / waist ^ 2) * Real.exp (-(1 / (k.c * tau) ^ 2 * ζ ^ 2)) *
      Real.cos (k0 * ζ - cep + 0)) := by
    rw [mul_assoc f, ← Real.exp_add, add_zero]
    simp only [E, amplitude, E0]
    rw [show -r ^ 2 / waist ^ 2 - ζ ^ 2 / (k.c ^ 2 * tau ^ 2) = -r ^ 2 / waist ^ 2 + -(1 / (k.c * tau) ^ 2 * ζ ^ 2) by
      rw [mul_pow]; ring]
    ring
  rw [e, Prod.mk.injEq]
  constructor <;> ring

/-- **C72** The same for a `DonutLikeLaguerreGaussLaser`. -/
theorem C72_donut (k : Phys) (p : ℕ) (m : ℤ) (a0 waist tau z0 : ℝ) (zf : Option ℝ) (thetaPol lambda0 cep dir : ℝ)
    (hd : dir = 1 ∨ dir = -1) (hw : 0 < waist) :
    ∃ L, donutLaser k p m a0 waist tau z0 zf thetaPol lambda0 cep dir = .ok L ∧ L.dir = dir ∧ ∀ r θ t : ℝ,
      0 < r → -Real.pi < θ → θ < Real.pi →
      let k0 := 2 * Real.pi / lambda0
      let E0 := k.me * k.c ^ 2 * k0 / k.e
      let ζ := dir * (zf.getD z0 - z0) - k.c * t
      let f := Real.sqrt (p.factorial / (m.natAbs + p).factorial) * (Real.sqrt 2 * r / waist) ^ m.natAbs *
        laguerre p m.natAbs (2 * r ^ 2 / waist ^ 2)
      let E := a0 * E0 * f * Real.exp (-r ^ 2 / waist ^ 2 - ζ ^ 2 / (k.c ^ 2 * tau ^ 2)) * Real.cos (k0 * ζ - m * θ - cep)
      L.field (r * Real.cos θ) (r * Real.sin θ) (zf.getD z0) t = (E * Real.cos thetaPol, E * Real.sin thetaPol) := by
  refine ⟨_, pulse_ok k a0 tau z0 zf thetaPol lambda0 cep 0 dir _ hd _ (donutTrans_ok _ _ _ _ _ _ hd), rfl, fun r θ t hr h1 h2 => ?_⟩
  intro k0 E0 ζ f E
  have hs : (r * Real.cos θ) ^ 2 + (r * Real.sin θ) ^ 2 = r ^ 2 := by linear_combination r ^ 2 * Real.cos_sq_add_sin_sq θ
  have hs' : ((r * Real.cos θ : ℝ) : ℂ) ^ 2 + ((r * Real.sin θ : ℝ) : ℂ) ^ 2 = ((r ^ 2 : ℝ) : ℂ) := by exact_mod_cast hs
  have hr2 : Real.sqrt (2 * r ^ 2 / waist ^ 2) = Real.sqrt 2 * r / waist := by
    rw [Real.sqrt_div (by positivity), Real.sqrt_sq hw.le, Real.sqrt_mul (by norm_num), Real.sqrt_sq hr.le]
  have h : donutEval p m (Real.sqrt (p.factorial / (m.natAbs + p).factorial)) waist
      (1 / (1 / 2 * (2 * Real.pi / lambda0) * waist ^ 2)) (zf.getD z0) dir (r * Real.cos θ) (r * Real.sin θ) (zf.getD z0) =
      ((f * Real.exp (-r ^ 2 / waist ^ 2) : ℝ) : ℂ) * Complex.exp ((-(m * θ) : ℝ) * I) := by
    unfold donutEval
    simp only [diffract_focus, norm_one, mul_one, Complex.arg_one, hs, hs', hr2, arg_polar r θ hr h1 h2]
    simp only [f]
    push_cast
    simp only [mul_zero, sub_zero, div_one]
    rw [show -I * (m : ℂ) * θ - (r : ℂ) ^ 2 / waist ^ 2 = -(m * θ) * I + (-(r : ℂ) ^ 2 / waist ^ 2) by ring, Complex.exp_add]
    ring
  refine (combine_real _ _ _ _ _ _ _ _ _ _ _ _ _ _ _ _ _ _ h).trans ?_
  have e : E = amplitude k a0 lambda0 * (f * Real.exp (-r ^ 2 / waist ^ 2) * Real.exp (-(1 / (k.c * tau) ^ 2 * ζ ^ 2)) *
      Real.cos (k0 * ζ - cep + -(m * θ))) := by
    rw [mul_assoc f, ← Real.exp_add]
    simp only [E, amplitude, E0]
    rw [show -r ^ 2 / waist ^ 2 - ζ ^ 2 / (k.c ^ 2 * tau ^ 2) = -r ^ 2 / waist ^ 2 + -(1 / (k.c * tau) ^ 2 * ζ ^ 2) by
      rw [mul_pow]; ring, show k0 * ζ - m * θ - cep = k0 * ζ - cep + -(m * θ) by ring]
    ring
  rw [e, Prod.mk.injEq]
  constructor <;> ring

/-- The coefficients of the flattened pulse add up to one. -/
theorem flatCn_sum (N : ℕ) : ∑ n ∈ Finset.range (N + 1), flatCn N n = 1 := by
  unfold flatCn
  rw [← Finset.sum_div, div_eq_one_iff_eq (by positivity)]
  have h : ∀ n ∈ Finset.range (N + 1), ∑ m ∈ Finset.Icc n N, ((1 : ℝ) / 2) ^ m * (m.choose n : ℝ) =
      ∑ m ∈ Finset.range (N + 1), ((1 : ℝ) / 2) ^ m * (m.choose n : ℝ) := by
    intro n _
    refine Finset.sum_subset (fun m hm => ?_) fun m hm hn => ?_
    · rw [Finset.mem_Icc] at hm; rw [Finset.mem_range]; omega
    · rw [Finset.mem_range] at hm
      rw [Finset.mem_Icc] at hn
      rw [Nat.choose_eq_zero_of_lt (by omega)]; simp
  rw [Finset.sum_congr rfl h, Finset.sum_comm]
  have h2 : ∀ m ∈ Finset.range (N + 1), ∑ n ∈ Finset.range (N + 1), ((1 : ℝ) / 2) ^ m * (m.choose n : ℝ) = 1 := by
    intro m hm
    rw [Finset.mem_range] at hm
    rw [← Finset.mul_sum, ← Finset.sum_subset (Finset.range_mono (show m + 1 ≤ N + 1 by omega))]
    · rw [← Nat.cast_sum, Nat.sum_range_choose]
      push_cast
      rw [← mul_pow]; norm_num
    · intro n _ hn
      rw [Finset.mem_range] at hn
      rw [Nat.choose_eq_zero_of_lt (by omega)]; simp
  rw [Finset.sum_congr rfl h2]
  simp

/-- **C72** The same for a `FlattenedGaussianLaser`, with the documented coefficients; on the axis, the amplitude is the one of `a0`;
with `N = 0` the pulse is a Gaussian. -/
theorem C72_flattened (k : Phys) (a0 w0 tau z0 : ℝ) (N : ℕ) (zf : Option ℝ) (thetaPol lambda0 cep dir : ℝ)
    (hd : dir = 1 ∨ dir = -1) :
    ∃ L, flattenedLaser k a0 w0 tau z0 N zf thetaPol lambda0 cep dir = .ok L ∧ L.dir = dir ∧ ∀ x y t : ℝ,
      let k0 := 2 * Real.pi / lambda0
      let E0 := k.me * k.c ^ 2 * k0 / k.e
      let ζ := dir * (zf.getD z0 - z0) - k.c * t
      let F := fun s : ℝ => (∑ n ∈ Finset.range (N + 1), (∑ m ∈ Finset.Icc n N, 1 / 2 ^ m * (m.choose n : ℝ)) *
        laguerre n 0 (2 * s / ((N + 1) * w0 ^ 2))) * Real.exp (-s / ((N + 1) * w0 ^ 2))
      let E := a0 * E0 * (F (x ^ 2 + y ^ 2) / F 0) * Real.exp (-(ζ ^ 2 / (k.c ^ 2 * tau ^ 2))) * Real.cos (k0 * ζ - cep)
      L.field x y (zf.getD z0) t = (E * Real.cos thetaPol, E * Real.sin thetaPol) := by
  refine ⟨_, pulse_ok k a0 tau z0 zf thetaPol lambda0 cep 0 dir _ hd _ (flatTrans_ok _ _ _ _ _ hd), rfl, fun x y t => ?_⟩
  intro k0 E0 ζ F E
  have hN : (0 : ℝ) < (N : ℝ) + 1 := by positivity
  have hw2 : (w0 * Real.sqrt (N + 1)) ^ 2 = (N + 1) * w0 ^ 2 := by rw [mul_pow, Real.sq_sqrt hN.le]; ring
  have hc : ∀ n, ∑ m ∈ Finset.Icc n N, 1 / 2 ^ m * (m.choose n : ℝ) = flatCn N n * (N + 1) := by
    intro n
    unfold flatCn
    rw [div_mul_cancel₀ _ hN.ne']
    exact Finset.sum_congr rfl fun m _ => by rw [div_pow, one_pow]
  have hF0 : F 0 = N + 1 := by
    simp only [F, hc, mul_zero, zero_div, laguerre_at_zero, mul_one, neg_zero, Real.exp_zero]
    rw [← Finset.sum_mul, flatCn_sum, one_mul]
  have h : flatEval N (flatCn N) (w0 * Real.sqrt (N + 1)) (1 / (1 / 2 * (2 * Real.pi / lambda0) * (w0 * Real.sqrt (N + 1)) ^ 2))
      (zf.getD z0) dir x y (zf.getD z0) = ((F (x ^ 2 + y ^ 2) / F 0 : ℝ) : ℂ) * Complex.exp ((0 : ℝ) * I) := by
    unfold flatEval
    simp only [diffract_focus, norm_one, mul_one, Complex.arg_one, flat_fold]
    have hw2' : ((w0 * Real.sqrt (N + 1) : ℝ) : ℂ) ^ 2 = (((N + 1) * w0 ^ 2 : ℝ) : ℂ) := by exact_mod_cast hw2
    rw [hw2, hw2', hF0]
    simp only [F, hc]
    have e : ∀ s : ℝ, (∑ n ∈ Finset.range (N + 1), flatCn N n * (N + 1) * laguerre n 0 s) =
        (∑ n ∈ Finset.range (N + 1), flatCn N n * laguerre n 0 s) * (N + 1) := by
      intro s; rw [Finset.sum_mul]; exact Finset.sum_congr rfl fun n _ => by ring
    rw [e, mul_right_comm, mul_div_cancel_right₀ _ hN.ne']
    push_cast
    simp only [mul_zero, Complex.exp_zero, mul_one, div_one, zero_mul]
  refine (combine_real _ _ _ _ _ _ _ _ _ _ _ _ _ _ _ _ _ _ h).trans ?_
  have e : E = amplitude k a0 lambda0 * (F (x ^ 2 + y ^ 2) / F 0 * Real.exp (-(1 / (k.c * tau) ^ 2 * ζ ^ 2)) *
      Real.cos (k0 * ζ - cep + 0)) := by
    rw [add_zero]
    simp only [E, amplitude, E0]
    rw [show -(ζ ^ 2 / (k.c ^ 2 * tau ^ 2)) = -(1 / (k.c * tau) ^ 2 * ζ ^ 2) by rw [mul_pow]; ring]
    ring
  rw [e, Prod.mk.injEq]
  constructor <;> ring

/-- **C72** With any chirp, the field of a `GaussianLaser` is nowhere larger than the amplitude `a0 E0`. -/
theorem C72_peak (k : Phys) (a0 waist tau z0 : ℝ) (zf : Option ℝ) (thetaPol lambda0 cep phi2 dir : ℝ) (L : Laser)
    (hL : gaussianLaser k a0 waist tau z0 zf thetaPol lambda0 cep phi2 dir = .ok L) (hw : 0 < waist) (x y z t : ℝ) :
    (L.field x y z t).1 ^ 2 + (L.field x y z t).2 ^ 2 ≤ (a0 * (k.me * k.c ^ 2 * (2 * Real.pi / lambda0) / k.e)) ^ 2 := by
  by_cases hd : dir = 1 ∨ dir = -1
  swap
  · unfold gaussianLaser pulse at hL
    simp [checkDir_refused hd, bind, Except.bind] at hL
  · rw [gaussianLaser, pulse_ok k a0 tau z0 zf thetaPol lambda0 cep phi2 dir (fun zf dir => gaussTrans waist zf lambda0 dir) hd _
      (gaussTrans_ok _ _ _ _ hd)] at hL
    injection hL with hL
    subst hL
    simp only [combine, Complex.re_ofReal_mul]
    set l := gaussLongEval k.c (2 * Real.pi / lambda0) z0 cep phi2 (1 / (k.c * tau) ^ 2) dir z t with hl
    set T := gaussTransEval waist (1 / (1 / 2 * (2 * Real.pi / lambda0) * waist ^ 2)) (zf.getD z0) dir x y z with hT
    have h1 : ‖l‖ ^ 2 ≤ 1 := gaussLong_le_one _ _ _ _ _ _ _ _ _ (by positivity)
    have h2 : ‖T‖ ^ 2 ≤ 1 := by
      have hdn := diffract_norm_sq (1 / (1 / 2 * (2 * Real.pi / lambda0) * waist ^ 2)) (zf.getD z0) dir z
      have hre := diffract_re (1 / (1 / 2 * (2 * Real.pi / lambda0) * waist ^ 2)) (zf.getD z0) dir z
      have he := exp_norm waist (x ^ 2 + y ^ 2) 0 (1 / (1 / 2 * (2 * Real.pi / lambda0) * waist ^ 2)) (zf.getD z0) dir z hw
      rw [Complex.ofReal_zero, mul_zero, zero_mul, sub_zero] at he
      rw [hT, gaussTransEval]
      rw [norm_div, div_pow]
      push_cast at he
      rw [he]
      have hn : 1 ≤ ‖diffract (1 / (1 / 2 * (2 * Real.pi / lambda0) * waist ^ 2)) (zf.getD z0) dir z‖ := by
        refine hre.symm.le.trans ((le_abs_self _).trans (Complex.abs_re_le_norm _))
      refine div_le_one_of_le₀ ?_ (by positivity)
      refine le_trans (Real.exp_le_one_iff.mpr ?_) (one_le_pow₀ hn)
      rw [neg_nonpos]; positivity
    have h3 : (l * T).re ^ 2 ≤ 1 := by
      have h4 : |(l * T).re| ≤ ‖l * T‖ := Complex.abs_re_le_norm _
      have h5 : (l * T).re ^ 2 ≤ ‖l * T‖ ^ 2 := by rw [← sq_abs]; exact pow_le_pow_left₀ (abs_nonneg _) h4 2
      rw [norm_mul, mul_pow] at h5
      nlinarith [sq_nonneg ‖l‖, sq_nonneg ‖T‖]
    have e : (amplitude k a0 lambda0 * Real.cos thetaPol * (l * T).re) ^ 2 + (amplitude k a0 lambda0 * Real.sin thetaPol * (l * T).re) ^ 2 =
        (amplitude k a0 lambda0) ^ 2 * (l * T).re ^ 2 := by
      linear_combination (amplitude k a0 lambda0) ^ 2 * (l * T).re ^ 2 * Real.cos_sq_add_sin_sq thetaPol
    rw [e, show a0 * (k.me * k.c ^ 2 * (2 * Real.pi / lambda0) / k.e) = amplitude k a0 lambda0 by unfold amplitude; ring]
    exact mul_le_of_le_one_right (sq_nonneg _) h3

/-- **C72** A chirped `GaussianLaser`: at each point, the longitudinal profile is a superposition of waves of the frequencies `ω0 + δ`, whose
amplitudes do not depend on the chirp and have a Gaussian spectrum, with the spectral phase `φ2 δ²/2`. And with such a spectral phase,
a wave packet made of the frequencies around `δ1` (any spectral width) has its highest intensity at `ζ = -c φ2 δ1`: as documented, at
the time zero and `dir = 1`, at `z0 - c φ2 δ1`. -/
theorem C72_chirp (c k0 z0 cep phi2 tau dir z t : ℝ) (hc : 0 < c) (ht : 0 < tau) :
    (gaussLongEval c k0 z0 cep phi2 (1 / (c * tau) ^ 2) dir z t =
      ∫ δ : ℝ, ((tau / (2 * Real.sqrt Real.pi) * Real.exp (-(δ * tau / 2) ^ 2) : ℝ) : ℂ) *
        Complex.exp (I * ((phi2 * δ ^ 2 / 2 - cep : ℝ) : ℂ)) *
        Complex.exp (I * (((c * k0 + δ) / c * (dir * (z - z0) - c * t) : ℝ) : ℂ))) ∧
    ∀ α δ1 ζ : ℝ, 0 < α →
      let packet := fun ζ : ℝ => ‖∫ δ : ℝ, ((Real.exp (-α * (δ - δ1) ^ 2) : ℝ) : ℂ) *
        Complex.exp (I * ((phi2 * δ ^ 2 / 2 + δ * (ζ / c) : ℝ) : ℂ))‖ ^ 2
      packet ζ ≤ packet (-c * phi2 * δ1) ∧ (packet ζ = packet (-c * phi2 * δ1) → ζ = -c * phi2 * δ1) := by
  refine ⟨gaussLong_spectrum c k0 z0 cep phi2 tau dir z t hc ht, fun α δ1 ζ hα => ?_⟩
  intro packet
  have hv : (0 : ℝ) < α ^ 2 + phi2 ^ 2 / 4 := by positivity
  have hp : ∀ ζ, packet ζ = Real.pi / Real.sqrt (α ^ 2 + phi2 ^ 2 / 4) *
      Real.exp (-(α / (2 * (α ^ 2 + phi2 ^ 2 / 4))) * (ζ / c + phi2 * δ1) ^ 2) := fun ζ => packet_norm phi2 α δ1 (ζ / c) hα
  have h0 : -c * phi2 * δ1 / c + phi2 * δ1 = 0 := by field_simp; ring
  have hq : 0 < Real.pi / Real.sqrt (α ^ 2 + phi2 ^ 2 / 4) := div_pos Real.pi_pos (Real.sqrt_pos.mpr hv)
  have ha : 0 < α / (2 * (α ^ 2 + phi2 ^ 2 / 4)) := by positivity
  rw [hp, hp, h0]
  constructor
  · refine mul_le_mul_of_nonneg_left (Real.exp_le_exp.mpr ?_) hq.le
    have := mul_nonneg ha.le (sq_nonneg (ζ / c + phi2 * δ1))
    nlinarith
  · intro h
    have h1 := Real.exp_injective (mul_left_cancel₀ hq.ne' h)
    have h2 : (ζ / c + phi2 * δ1) ^ 2 = 0 := by
      have h3 : α / (2 * (α ^ 2 + phi2 ^ 2 / 4)) * (ζ / c + phi2 * δ1) ^ 2 = 0 := by linear_combination -h1
      exact (mul_eq_zero.mp h3).resolve_left ha.ne'
    have h3 := pow_eq_zero_iff (two_ne_zero) |>.mp h2
    field_simp at h3
    linear_combination h3

theorem diffract_mirror (invZr zf dir z : ℝ) : diffract invZr (-zf) (-dir) (-z) = diffract invZr zf dir z := by
  unfold diffract; push_cast; ring

theorem gaussLong_mirror (c k0 z0 cep phi2 invCtau2 dir z t : ℝ) :
    gaussLongEval c k0 (-z0) cep phi2 invCtau2 (-dir) (-z) t = gaussLongEval c k0 z0 cep phi2 invCtau2 dir z t := by
  unfold gaussLongEval; push_cast
  rw [show (-(dir : ℂ) * (-(z : ℂ) - -(z0 : ℂ)) - c * t) = (dir * (z - z0) - c * t) by ring]

theorem pulse_mirror (k : Phys) (a0 tau z0 : ℝ) (zf : Option ℝ) (thetaPol lambda0 cep phi2 dir : ℝ) (hd : dir = 1 ∨ dir = -1)
    (tr : ℝ → ℝ → Except PyErr Trans) (T : ℝ → ℝ → Trans) (hT : ∀ f d, d = 1 ∨ d = -1 → tr f d = .ok (T f d))
    (h : ∀ f d x y z, (T (-f) (-d)).evaluate x y (-z) = (T f d).evaluate x y z) :
    ∃ L L', pulse k a0 tau z0 zf thetaPol lambda0 cep phi2 dir tr = .ok L ∧
      pulse k a0 tau (-z0) (zf.map (- ·)) thetaPol lambda0 cep phi2 (-dir) tr = .ok L' ∧ L'.dir = -L.dir ∧
      ∀ x y z t, L'.field x y (-z) t = L.field x y z t := by
  have hd' : -dir = 1 ∨ -dir = -1 := by
    rcases hd with h | h
    · right; linarith
    · left; linarith
  refine ⟨_, _, pulse_ok k a0 tau z0 zf thetaPol lambda0 cep phi2 dir tr hd _ (hT _ _ hd),
    pulse_ok k a0 tau (-z0) (zf.map (- ·)) thetaPol lambda0 cep phi2 (-dir) tr hd' _ (hT _ _ hd'), rfl, fun x y z t => ?_⟩
  have hz : (zf.map (- ·)).getD (-z0) = -zf.getD z0 := by cases zf <;> rfl
  unfold combine
  simp only [hz, h, gaussLong_mirror]

/-- **C72** A pulse that propagates towards negative `z` is the mirror image of the same pulse towards positive `z`. -/
theorem C72_mirror (k : Phys) (a0 waist tau z0 : ℝ) (zf : Option ℝ) (thetaPol lambda0 cep phi2 theta0 dir : ℝ) (p : ℕ) (m : ℤ) (n N : ℕ)
    (hd : dir = 1 ∨ dir = -1) :
    let Mirrored := fun (a b : Except PyErr Laser) => ∃ L L', a = .ok L ∧ b = .ok L' ∧ L'.dir = -L.dir ∧
      ∀ x y z t, L'.field x y (-z) t = L.field x y z t
    Mirrored (gaussianLaser k a0 waist tau z0 zf thetaPol lambda0 cep phi2 dir)
      (gaussianLaser k a0 waist tau (-z0) (zf.map (- ·)) thetaPol lambda0 cep phi2 (-dir)) ∧
    Mirrored (laguerreGaussLaser k p n a0 waist tau z0 zf thetaPol lambda0 cep theta0 dir)
      (laguerreGaussLaser k p n a0 waist tau (-z0) (zf.map (- ·)) thetaPol lambda0 cep theta0 (-dir)) ∧
    Mirrored (donutLaser k p m a0 waist tau z0 zf thetaPol lambda0 cep dir)
      (donutLaser k p m a0 waist tau (-z0) (zf.map (- ·)) thetaPol lambda0 cep (-dir)) ∧
    Mirrored (flattenedLaser k a0 waist tau z0 N zf thetaPol lambda0 cep dir)
      (flattenedLaser k a0 waist tau (-z0) N (zf.map (- ·)) thetaPol lambda0 cep (-dir)) := by
  refine ⟨pulse_mirror k a0 tau z0 zf thetaPol lambda0 cep phi2 dir hd _ _ (fun f d h => gaussTrans_ok waist f lambda0 d h) ?_,
    pulse_mirror k a0 tau z0 zf thetaPol lambda0 cep 0 dir hd _ _ (fun f d h => lgTrans_ok p n waist f lambda0 theta0 d h) ?_,
    pulse_mirror k a0 tau z0 zf thetaPol lambda0 cep 0 dir hd _ _ (fun f d h => donutTrans_ok p m waist f lambda0 d h) ?_,
    pulse_mirror k a0 tau z0 zf thetaPol lambda0 cep 0 dir hd _ _ (fun f d h => flatTrans_ok waist N f lambda0 d h) ?_⟩
  · intro f d x y z; simp only [gaussTransEval, diffract_mirror]
  · intro f d x y z; simp only [lgEval, diffract_mirror]
  · intro f d x y z; simp only [donutEval, diffract_mirror]
  · intro f d x y z; simp only [flatEval, diffract_mirror]

/-- **C72** A direction other than 1 and -1 is refused with `AssertionError`, a negative azimuthal order of a `LaguerreGaussLaser` with
`ValueError`; these are the only refusals. -/
theorem C72_refused (k : Phys) (a0 waist tau z0 : ℝ) (zf : Option ℝ) (thetaPol lambda0 cep phi2 theta0 dir : ℝ) (p : ℕ) (m : ℤ) (N : ℕ) :
    let Refused := fun (r : Except PyErr Laser) => ∃ s, r = .error (.assertionError s)
    let good := dir = 1 ∨ dir = -1
    (Refused (gaussianLaser k a0 waist tau z0 zf thetaPol lambda0 cep phi2 dir) ↔ ¬good) ∧
    (Refused (donutLaser k p m a0 waist tau z0 zf thetaPol lambda0 cep dir) ↔ ¬good) ∧
    (Refused (flattenedLaser k a0 waist tau z0 N zf thetaPol lambda0 cep dir) ↔ ¬good) ∧
    (Refused (laguerreGaussLaser k p m a0 waist tau z0 zf thetaPol lambda0 cep theta0 dir) ↔ ¬good) ∧
    ((∃ s, laguerreGaussLaser k p m a0 waist tau z0 zf thetaPol lambda0 cep theta0 dir = .error (.valueError s)) ↔ good ∧ m < 0) := by
  intro Refused good
  have bad : ∀ (phi2 : ℝ) (tr), ¬good → pulse k a0 tau z0 zf thetaPol lambda0 cep phi2 dir tr = .error (.assertionError "") := by
    intro phi2 tr h
    unfold pulse
    simp only [checkDir_refused h, bind, Except.bind]
  by_cases hd : good
  · have h1 := pulse_ok k a0 tau z0 zf thetaPol lambda0 cep phi2 dir (fun zf dir => gaussTrans waist zf lambda0 dir) hd _ (gaussTrans_ok _ _ _ _ hd)
    have h2 := pulse_ok k a0 tau z0 zf thetaPol lambda0 cep 0 dir (fun zf dir => donutTrans p m waist zf lambda0 dir) hd _ (donutTrans_ok _ _ _ _ _ _ hd)
    have h3 := pulse_ok k a0 tau z0 zf thetaPol lambda0 cep 0 dir (fun zf dir => flatTrans waist N zf lambda0 dir) hd _ (flatTrans_ok _ _ _ _ _ hd)
    simp only [Refused, gaussianLaser, donutLaser, flattenedLaser, laguerreGaussLaser, hd, not_true_eq_false, iff_false, true_and]
    refine ⟨?_, ?_, ?_, ?_, ?_⟩
    · rintro ⟨s, hs⟩; exact absurd (h1.symm.trans hs) (by simp)
    · rintro ⟨s, hs⟩; exact absurd (h2.symm.trans hs) (by simp)
    · rintro ⟨s, hs⟩; exact absurd (h3.symm.trans hs) (by simp)
    · rintro ⟨s, hs⟩
      rcases lt_or_ge m 0 with hm | hm
      · exact absurd ((pulse_err k a0 tau z0 zf thetaPol lambda0 cep 0 dir
          (fun zf dir => lgTrans p m waist zf lambda0 theta0 dir) hd _ (lgTrans_neg _ _ _ _ _ _ _ hd hm)).symm.trans hs) (by simp)
      · obtain ⟨n, rfl⟩ := Int.eq_ofNat_of_zero_le hm
        exact absurd ((pulse_ok k a0 tau z0 zf thetaPol lambda0 cep 0 dir
          (fun zf dir => lgTrans p n waist zf lambda0 theta0 dir) hd _ (lgTrans_ok _ _ _ _ _ _ _ hd)).symm.trans hs) (by simp)
    · constructor
      · rintro ⟨s, hs⟩
        by_contra hm
        obtain ⟨n, rfl⟩ := Int.eq_ofNat_of_zero_le (not_lt.mp hm)
        exact absurd ((pulse_ok k a0 tau z0 zf thetaPol lambda0 cep 0 dir
          (fun zf dir => lgTrans p n waist zf lambda0 theta0 dir) hd _ (lgTrans_ok _ _ _ _ _ _ _ hd)).symm.trans hs) (by simp)
      · intro hm
        exact ⟨_, pulse_err k a0 tau z0 zf thetaPol lambda0 cep 0 dir (fun zf dir => lgTrans p m waist zf lambda0 theta0 dir) hd _
          (lgTrans_neg _ _ _ _ _ _ _ hd hm)⟩
  · simp only [Refused, gaussianLaser, donutLaser, flattenedLaser, laguerreGaussLaser, bad _ _ hd, hd, not_false_iff, iff_true]
    simp

/-- **C72** The sum of two laser profiles is accepted exactly if they propagate in the same direction, and its field is the sum of the
two fields. -/
theorem C72_sum (a b : Laser) (ha : a.dir = 1 ∨ a.dir = -1) :
    (a.dir = b.dir ↔ ∃ L, add a b = .ok L) ∧
    ∀ L, add a b = .ok L → L.dir = a.dir ∧ ∀ x y z t, L.field x y z t = a.field x y z t + b.field x y z t := by
  unfold add
  by_cases h : a.dir = b.dir
  · simp only [h, ne_eq, not_true_eq_false, if_false, bind, Except.bind, pure, Except.pure]
    rw [h] at ha
    simp only [checkDir_ok ha]
    refine ⟨by simp, fun L hL => ?_⟩
    injection hL with hL
    subst hL
    exact ⟨rfl, fun x y z t => rfl⟩
  · simp [h, bind, Except.bind, throw, throwThe, MonadExceptOf.throw]

/-- Every hypothesis of this file is met: a pulse that propagates to the left, focused away from its centre. -/
example : ∃ L, gaussianLaser ⟨1, 1, 1, 1⟩ 2 1 1 0 (some 3) 0 1 0 5 (-1) = .ok L ∧ L.dir = -1 ∧
    (∀ x y z t, (L.field x y z t).1 ^ 2 + (L.field x y z t).2 ^ 2 ≤ (2 * (1 * 1 ^ 2 * (2 * Real.pi / 1) / 1)) ^ 2) ∧
    ∃ M, add L L = .ok M := by
  refine ⟨_, pulse_ok _ _ _ _ _ _ _ _ _ _ _ (Or.inr rfl) _ (gaussTrans_ok _ _ _ _ (Or.inr rfl)), rfl, fun x y z t => ?_, ?_⟩
  · exact C72_peak ⟨1, 1, 1, 1⟩ 2 1 1 0 (some 3) 0 1 0 5 (-1) _
      (pulse_ok _ _ _ _ _ _ _ _ _ _ _ (Or.inr rfl) _ (gaussTrans_ok _ _ _ _ (Or.inr rfl))) one_pos x y z t
  · exact (C72_sum _ _ (Or.inr rfl)).1.mp rfl

end Fbpic.LaserProf
