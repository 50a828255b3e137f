import Verif.Lemmas.Spectral
import Mathlib.Analysis.SpecialFunctions.Integrals.Basic

/-! # Continuity, divergences and vacuum steps of the solver -/

namespace Fbpic

open Complex Spec

/-- Arguments for which the coefficients of the moving-current solvers are not singular: the
velocity is below `c`, and the phase advance `kz V dt` of this wavenumber is not a non-zero multiple
of `2 pi` (in particular: `|kz V dt| < 2 pi`). -/
def Regular (k : Consts) (kz dt : ℝ) (V : Option ℝ) : Prop :=
  dt ≠ 0 ∧ ∀ v, V = some v → |v| < k.c ∧ (kz * v ≠ 0 → exp (I * kz * v * dt) ≠ 1)

theorem regular_of_lt {k : Consts} {kz dt v : ℝ} (hdt : dt ≠ 0) (hv : |v| < k.c)
    (h : |kz * v * dt| < 2 * Real.pi) : Regular k kz dt (some v) := by
  refine ⟨hdt, ?_⟩
  rintro _ ⟨rfl⟩
  refine ⟨hv, fun hz he => ?_⟩
  rw [Complex.exp_eq_one_iff] at he
  obtain ⟨n, hn⟩ := he
  have h1 : ((kz * v * dt : ℝ) : ℂ) = ((n * (2 * Real.pi) : ℝ) : ℂ) := by
    have : I * ((kz * v * dt : ℝ) : ℂ) = I * ((n * (2 * Real.pi) : ℝ) : ℂ) := by
      push_cast; rw [← mul_assoc, ← mul_assoc, hn]; ring
    exact mul_left_cancel₀ I_ne_zero this
  have h2 : kz * v * dt = n * (2 * Real.pi) := by exact_mod_cast h1
  have hn0 : n ≠ 0 := by
    rintro rfl
    simp only [Int.cast_zero, zero_mul, mul_eq_zero] at h2
    rcases h2 with h2 | h2
    · exact hz (mul_eq_zero.2 h2)
    · exact hdt h2
  rw [h2, abs_mul, abs_of_pos Real.two_pi_pos] at h
  have h3 : (1 : ℝ) ≤ |(n : ℝ)| := by exact_mod_cast Int.one_le_abs hn0
  nlinarith [Real.two_pi_pos]

/-- `T_eb`, `T_cc`, `T_rho`, for any scheme (with their trivial values in the standard one). -/
noncomputable def TebOf (kz dt : ℝ) (V : Option ℝ) (b : Bool) : ℂ :=
  match V with | none => 1 | some v => coefTeb kz dt v b
noncomputable def TccOf (kz dt : ℝ) (V : Option ℝ) (b : Bool) : ℂ :=
  match V with | none => 1 | some v => coefTcc kz dt v b
noncomputable def TrhoOf (kz dt : ℝ) (V : Option ℝ) (b : Bool) : ℂ :=
  match V with | none => -dt | some v => coefTrho kz dt v b
noncomputable def jcorrOf (kz dt : ℝ) (V : Option ℝ) : ℂ :=
  match V with | none => 1 / dt | some v => coefJcorr kz dt v

theorem integral_phase (a : ℂ) (dt : ℝ) (D : ℂ) :
    ∫ t in (0 : ℝ)..dt, exp (a * t) * D = (if a = 0 then (dt : ℂ) else (exp (a * dt) - 1) / a) * D := by
  rw [intervalIntegral.integral_mul_const]
  congr 1
  split_ifs with h
  · simp [h]
  · rw [integral_exp_mul_complex h]; simp

/-- The continuity equation of every scheme in terms of the coefficient `T_rho`. -/
theorem continuity_iff (kz kr dt : ℝ) (hdt : dt ≠ 0) (V : Option ℝ) (b : Bool) (rp rn : ℂ) (J : V3) :
    (schemeOf V b).Continuity kz kr dt rp rn J ↔
      rn - TebOf kz dt V b * rp = TrhoOf kz dt V b * div kz kr J := by
  have hdc : (dt : ℂ) ≠ 0 := by exact_mod_cast hdt
  match V, b with
  | none, b =>
    simp only [schemeOf, Scheme.Continuity, TebOf, TrhoOf]
    constructor
    · intro h; field_simp at h; linear_combination h
    · intro h; field_simp; linear_combination h
  | some v, true =>
    simp only [schemeOf, Scheme.Continuity, TebOf, TrhoOf, coefTeb, if_true, coefT2]
    have : ∀ t : ℝ, exp (I * kz * v * (dt - t)) * div kz kr J
        = exp (-(I * kz * v) * t) * (exp (I * kz * v * dt) * div kz kr J) := by
      intro t; rw [← mul_assoc, ← exp_add]; congr 2; ring
    simp only [this]
    rw [integral_phase]
    suffices h : -((if -(I * kz * v) = 0 then (dt : ℂ) else (exp (-(I * kz * v) * dt) - 1)
        / -(I * kz * v)) * (exp (I * kz * v * dt) * div kz kr J))
        = coefTrho kz dt v true * div kz kr J by rw [h]
    have hm : exp (-(I * kz * v) * dt) = 1 / exp (I * kz * v * dt) := by
      rw [one_div, ← exp_neg]; congr 1; ring
    rw [hm, coefTrho, coefTcc, coefT2]
    by_cases hv : v = 0
    · simp [hv]
    by_cases hz : kz = 0
    · simp [hz]
    have hzc : (kz : ℂ) ≠ 0 := by exact_mod_cast hz
    have hvc : (v : ℂ) ≠ 0 := by exact_mod_cast hv
    have he := exp_ne_zero (I * kz * v * dt)
    rw [if_neg (by simp [hv, hz])]
    simp only [ne_eq, hv, not_false_eq_true, if_true, hz, if_false]
    field_simp
  | some v, false =>
    simp only [schemeOf, Scheme.Continuity, TebOf, TrhoOf, coefTeb, Bool.false_eq_true, if_false,
      one_mul]
    have : ∀ t : ℝ, exp (-(I * kz * v * (t - dt / 2))) * div kz kr J
        = exp (-(I * kz * v) * t) * (exp (I * kz * v * dt / 2) * div kz kr J) := by
      intro t; rw [← mul_assoc, ← exp_add]; congr 2; ring
    simp only [this]
    rw [integral_phase]
    suffices h : -((if -(I * kz * v) = 0 then (dt : ℂ) else (exp (-(I * kz * v) * dt) - 1)
        / -(I * kz * v)) * (exp (I * kz * v * dt / 2) * div kz kr J))
        = coefTrho kz dt v false * div kz kr J by rw [h]
    have hh := exp_ne_zero (I * kz * v * dt / 2)
    have h2 : exp (I * kz * v * dt) = exp (I * kz * v * dt / 2) ^ 2 := by
      rw [← exp_nat_mul]; congr 1; push_cast; ring
    have h3 : exp (I * 0.5 * kz * v * dt) = exp (I * kz * v * dt / 2) := by
      congr 1; ring
    have hm : exp (-(I * kz * v) * dt) = 1 / exp (I * kz * v * dt) := by
      rw [one_div, ← exp_neg]; congr 1; ring
    rw [hm, coefTrho, coefTcc, coefT2, h2]
    simp only [Bool.false_eq_true, if_false, h3]
    by_cases hv : v = 0
    · simp [hv]
    by_cases hz : kz = 0
    · simp [hz]
    have hzc : (kz : ℂ) ≠ 0 := by exact_mod_cast hz
    have hvc : (v : ℂ) ≠ 0 := by exact_mod_cast hv
    rw [if_neg (by simp [hv, hz])]
    simp only [ne_eq, hv, not_false_eq_true, if_true, hz, if_false]
    field_simp

/-- The factor in the current correction is the inverse of `- T_rho`. -/
theorem jcorr_Trho {k : Consts} (kz dt : ℝ) (V : Option ℝ) (b : Bool) (h : Regular k kz dt V) :
    TccOf kz dt V b * jcorrOf kz dt V * TrhoOf kz dt V b = -1 := by
  obtain ⟨hdt, hV⟩ := h
  have hdc : (dt : ℂ) ≠ 0 := by exact_mod_cast hdt
  match V with
  | none => simp only [TccOf, jcorrOf, TrhoOf]; field_simp
  | some v =>
    simp only [TccOf, jcorrOf, TrhoOf]
    obtain ⟨-, hT⟩ := hV v rfl
    have hc := coefTcc_ne_zero kz dt v b
    by_cases hv : v = 0
    · simp only [coefJcorr, coefTrho, hv, ne_eq, not_true_eq_false, if_false]
      have : coefTcc kz dt 0 b = 1 := by simp [coefTcc]
      rw [this]; field_simp
    by_cases hz : kz = 0
    · simp only [coefJcorr, coefTrho, hv, hz, ne_eq, not_true_eq_false, not_false_eq_true, if_true,
        if_false]
      have : coefTcc 0 dt v b = 1 := by simp [coefTcc]
      rw [this]; field_simp
    have hT' : coefT2 kz dt v ≠ 1 := hT (mul_ne_zero hz hv)
    have hT1 : 1 - coefT2 kz dt v ≠ 0 := sub_ne_zero.2 (Ne.symm hT')
    have hzc : (kz : ℂ) ≠ 0 := by exact_mod_cast hz
    have hvc : (v : ℂ) ≠ 0 := by exact_mod_cast hv
    simp only [coefJcorr, coefTrho, hv, hz, ne_eq, not_false_eq_true, if_true, if_false, inv1T2, hT']
    field_simp

theorem Trho_ne_zero {k : Consts} (kz dt : ℝ) (V : Option ℝ) (b : Bool) (h : Regular k kz dt V) :
    TrhoOf kz dt V b ≠ 0 := by
  intro h0
  have := jcorr_Trho kz dt V b h
  rw [h0, mul_zero] at this
  exact absurd this (by norm_num)

/-- The continuity equation as it is used in the current correction. -/
theorem continuity_iff_jcorr {k : Consts} (kz kr dt : ℝ) (V : Option ℝ) (b : Bool)
    (h : Regular k kz dt V) (rp rn : ℂ) (J : V3) :
    (schemeOf V b).Continuity kz kr dt rp rn J ↔
      TccOf kz dt V b * jcorrOf kz dt V * (rn - TebOf kz dt V b * rp) + div kz kr J = 0 := by
  rw [continuity_iff kz kr dt h.1]
  have h1 := jcorr_Trho kz dt V b h
  have h2 := Trho_ne_zero kz dt V b h
  constructor
  · intro h; rw [h]; linear_combination (div kz kr J) * h1
  · intro h
    linear_combination (-TrhoOf kz dt V b) * h + (rn - TebOf kz dt V b * rp) * h1

/-- All schemes in closed form, with the functions of time. -/
theorem exists_closed {k : Consts} (hk : k.Ok) {kz kr dt : ℝ} {V : Option ℝ} (b : Bool)
    (hreg : Regular k kz dt V) :
    ∃ C S j b' r1 r2 : ℝ → ℂ, HasClosed k kz kr dt (V.getD 0) (TebOf kz dt V b) (TccOf kz dt V b)
      (TrhoOf kz dt V b) (psatdCoefs k kz kr dt V b) C S j b' r1 r2 := by
  obtain ⟨hdt, hV⟩ := hreg
  by_cases hw : omega k kz kr = 0
  · obtain ⟨rfl, rfl⟩ := omega_eq_zero hk hw
    refine ⟨_, _, _, _, _, _, hasClosed_zero dt _ V b _ _ ?_ ?_⟩
    · cases V <;> simp [TebOf, coefTeb, coefT2]
    · cases V <;> simp [TccOf, coefTcc]
  have hiw : (invOmega k kz kr : ℂ) = 1 / omega k kz kr := by
    rw [invOmega, if_neg hw]; push_cast; rfl
  match V with
  | none =>
    refine ⟨_, _, _, _, _, _, hasClosed_static hk hdt hw (by simp) rfl rfl rfl rfl ?_ ?_ ?_⟩
    · simp only [psatdCoefs, coefJ, if_neg hw, noDrift, true_or, if_true, hiw]; ring
    · simp only [psatdCoefs, coefRhoPrev, if_neg hw, noDrift, true_or, if_true, hiw]; ring
    · simp only [psatdCoefs, coefRhoNext, if_neg hw, noDrift, true_or, if_true, hiw]; ring
  | some v =>
    obtain ⟨hvc, hT⟩ := hV v rfl
    by_cases hv : v = 0
    · subst hv
      have h1 : TrhoOf kz dt (some 0) b = -dt := by simp [TrhoOf, coefTrho]
      rw [h1]
      refine ⟨_, _, _, _, _, _, hasClosed_static hk hdt hw (by simp) ?_ ?_ rfl rfl ?_ ?_ ?_⟩
      · simp [TebOf, coefTeb, coefT2]
      · simp [TccOf, coefTcc]
      · simp only [psatdCoefs, coefJ, if_neg hw, noDrift, or_true, if_true, hiw]; ring
      · simp only [psatdCoefs, coefRhoPrev, if_neg hw, noDrift, or_true, if_true, hiw]; ring
      · simp only [psatdCoefs, coefRhoNext, if_neg hw, noDrift, or_true, if_true, hiw]; ring
    by_cases hz : kz = 0
    · subst hz
      have h1 : TrhoOf 0 dt (some v) b = -dt := by simp [TrhoOf, coefTrho]
      have hnd : ¬ noDrift (some v) := by simp [noDrift, hv]
      have hT2 : coefT2 0 dt v = 1 := by simp [coefT2]
      have hTcc : coefTcc 0 dt v b = 1 := by simp [coefTcc]
      have hi : (invWkzV k 0 kr v : ℂ) = 1 / omega k 0 kr ^ 2 := by
        have : omega k 0 kr ^ 2 - 0 ^ 2 * v ^ 2 ≠ 0 := by simpa using hw
        rw [invWkzV, if_neg this]; push_cast; ring
      rw [h1]
      refine ⟨_, _, _, _, _, _, hasClosed_static hk hdt hw (by simp) ?_ ?_ rfl rfl ?_ ?_ ?_⟩
      · simp [TebOf, coefTeb, coefT2]
      · simp [TccOf, coefTcc]
      · simp only [psatdCoefs, coefJ, if_neg hw, if_neg hnd, Option.getD_some, xi1, hT2, hTcc, hi]
        push_cast; ring
      · simp only [psatdCoefs, coefRhoPrev, if_neg hw, if_neg hnd, Option.getD_some, xi3, hiw,
          ne_eq, not_true_eq_false, if_false]
        push_cast; ring
      · simp only [psatdCoefs, coefRhoNext, if_neg hw, if_neg hnd, Option.getD_some, xi2, hiw,
          ne_eq, not_true_eq_false, if_false]
        push_cast; ring
    · exact ⟨_, _, _, _, _, _, hasClosed_drift hk b hz hv hvc (hT (mul_ne_zero hz hv))⟩

/-- The electromagnetic push of every scheme in closed form. -/
theorem push_closed {k : Consts} {kz kr dt : ℝ} {V : Option ℝ} {b : Bool}
    {C S j b' r1 r2 : ℝ → ℂ} (h : HasClosed k kz kr dt (V.getD 0) (TebOf kz dt V b)
      (TccOf kz dt V b) (TrhoOf kz dt V b) (psatdCoefs k kz kr dt V b) C S j b' r1 r2)
    (usePml : Bool) (s : SpecCell) :
    (pushEBWith k kz kr (psatdCoefs k kz kr dt V b) usePml false s).em
      = (closed k.c kz kr (C dt) (S dt) (j dt) (b' dt) (r1 dt) (r2 dt) s.em.E s.em.B
          ⟨TccOf kz dt V b * s.Jp, TccOf kz dt V b * s.Jm, TccOf kz dt V b * s.Jz⟩).smul
        (TebOf kz dt V b) := by
  rw [← h.hC, ← h.hS]
  match V with
  | none =>
    have hp : ∀ s' : SpecCell, s'.em = s.em → s'.J = s.J →
        (pushEBStandard k kz kr (psatdCoefs k kz kr dt none b) false s').em = _ := fun s' h1 h2 => by
      rw [pushEBStandard_eq (ps := psatdCoefs k kz kr dt none b) h.coefs s', h1, h2]
    have : (pushEBWith k kz kr (psatdCoefs k kz kr dt none b) usePml false s).em
        = (pushEBStandard k kz kr (psatdCoefs k kz kr dt none b) false
          (if usePml then pushPmlStandard k kr (psatdCoefs k kz kr dt none b) s else s)).em := rfl
    rw [this, hp _ (by split_ifs <;> rfl) (by split_ifs <;> rfl)]
    simp only [TebOf, TccOf, one_mul, EM.smul, SpecCell.J]
  | some v =>
    have : (pushEBWith k kz kr (psatdCoefs k kz kr dt (some v) b) usePml false s).em
        = (pushEBComoving k kz kr (psatdCoefs k kz kr dt (some v) b)
          ⟨v, coefTeb kz dt v b, coefTcc kz dt v b, coefTrho kz dt v b, coefJcorr kz dt v⟩ false
          (if usePml then pushPmlComoving k kr (psatdCoefs k kz kr dt (some v) b)
            ⟨v, coefTeb kz dt v b, coefTcc kz dt v b, coefTrho kz dt v b, coefJcorr kz dt v⟩ s
            else s)).em := rfl
    rw [this, pushEBComoving_eq (ps := psatdCoefs k kz kr dt (some v) b) h.coefs]
    cases usePml <;> rfl

theorem eq_of_hasDerivAt {f g f' : ℝ → ℂ} (hf : ∀ t, HasDerivAt f (f' t) t)
    (hg : ∀ t, HasDerivAt g (f' t) t) (h0 : f 0 = g 0) (t : ℝ) : f t = g t := by
  have hd : ∀ t, HasDerivAt (fun t => f t - g t) 0 t := fun t =>
    ((hf t).sub (hg t)).congr_deriv (sub_self _)
  have := is_const_of_deriv_eq_zero (fun t => (hd t).differentiableAt) (fun t => (hd t).deriv) t 0
  simp only [h0, sub_self] at this
  exact sub_eq_zero.1 this

/-- The antiderivative of `exp(-i nu t)` that is zero at zero. -/
noncomputable def phaseInt (nu t : ℝ) : ℂ :=
  if nu = 0 then t else (1 - exp (-(I * nu) * t)) / (I * nu)

theorem hasDerivAt_phaseInt (nu t : ℝ) : HasDerivAt (phaseInt nu) (exp (-(I * nu * t))) t := by
  unfold phaseInt
  by_cases h : nu = 0
  · simp only [h, if_true]; simpa using hasDerivAt_t t
  · simp only [h, if_false]
    have hc : (nu : ℂ) ≠ 0 := by exact_mod_cast h
    refine (((hasDerivAt_const t (1 : ℂ)).sub (hasDerivAt_phase (-(I * nu)) t)).div_const
      (I * nu)).congr_deriv ?_
    rw [show -(I * nu) * t = -(I * nu * t) by ring]
    field_simp
    ring

/-- The two identities behind Gauss' law. -/
theorem HasClosed.gauss {k : Consts} {kz kr dt v : ℝ} {Teb Tcc Trho : ℂ} {ps : PsatdCoefs}
    {C S j b r1 r2 : ℝ → ℂ} (h : HasClosed k kz kr dt v Teb Tcc Trho ps C S j b r1 r2)
    (hne : ¬ (kz = 0 ∧ kr = 0)) (t : ℝ) :
    C t + (kz ^ 2 + kr ^ 2) * r1 t = 1 ∧
    b t + (kz ^ 2 + kr ^ 2) * r2 t = -(k.c ^ 2 * k.mu0 * phaseInt (kz * v) t) := by
  obtain ⟨i1, i2, i3, i4, i5, i6⟩ := h.init
  have h1 := h.ode.hr1.resolve_left hne
  have h2 := h.ode.hr2.resolve_left hne
  constructor
  · refine eq_of_hasDerivAt (f := fun t => C t + (kz ^ 2 + kr ^ 2) * r1 t) (g := fun _ => 1)
      (f' := fun _ => 0) (fun t => ?_) (fun t => hasDerivAt_const t _) (by simp [i1, i5]) t
    exact ((h.ode.hC t).add ((h1 t).const_mul _)).congr_deriv (by ring)
  · refine eq_of_hasDerivAt (f := fun t => b t + (kz ^ 2 + kr ^ 2) * r2 t)
      (g := fun t => -(k.c ^ 2 * k.mu0 * phaseInt (kz * v) t))
      (f' := fun t => -(k.c ^ 2 * k.mu0 * exp (-(I * (kz * v : ℝ) * t)))) (fun t => ?_) (fun t => ?_)
      (by simp [i4, i6, phaseInt]) t
    · exact ((h.ode.hb t).add ((h2 t).const_mul _)).congr_deriv (by ring)
    · exact (((hasDerivAt_phaseInt (kz * v) t).const_mul _).neg)

theorem Trho_eq (kz dt : ℝ) (V : Option ℝ) (b : Bool) :
    TrhoOf kz dt V b = -(TebOf kz dt V b * TccOf kz dt V b * phaseInt (kz * V.getD 0) dt) := by
  match V with
  | none => simp [TrhoOf, TebOf, TccOf, phaseInt]
  | some v =>
    simp only [TrhoOf, TebOf, TccOf, phaseInt, Option.getD_some]
    by_cases hv : v = 0
    · simp [hv, coefTrho, coefTeb, coefTcc, coefT2]
    by_cases hz : kz = 0
    · simp [hz, coefTrho, coefTeb, coefTcc, coefT2]
    have hzc : (kz : ℂ) ≠ 0 := by exact_mod_cast hz
    have hvc : (v : ℂ) ≠ 0 := by exact_mod_cast hv
    have hexp : exp (-(I * (kz * v : ℝ)) * dt) = 1 / coefT2 kz dt v := by
      rw [coefT2, one_div, ← exp_neg]; congr 1; push_cast; ring
    have hTcc := coefTcc_ne_zero kz dt v b
    have hTeb := coefTeb_ne_zero kz dt v b
    rw [if_neg (mul_ne_zero hz hv), hexp, ← coefTeb_Tcc kz dt v b]
    simp only [coefTrho, ne_eq, hv, not_false_eq_true, if_true, hz, if_false]
    rw [← coefTeb_Tcc kz dt v b]
    push_cast
    field_simp
    ring

theorem div_closed (c kz kr : ℝ) (C S j b r1 r2 a : ℂ) (E B J : V3) :
    div kz kr ((closed c kz kr C S j b r1 r2 E B J).smul a).E
      = a * ((C + (kz ^ 2 + kr ^ 2) * r1) * div kz kr E + (b + (kz ^ 2 + kr ^ 2) * r2) * div kz kr J)
    ∧ div kz kr ((closed c kz kr C S j b r1 r2 E B J).smul a).B = a * C * div kz kr B := by
  constructor
  · simp only [closed, EM.smul, div, curl, grad]
    linear_combination (a * c ^ 2 * S * kr * kz * (B.p + B.m)
      - a * kz ^ 2 * (r1 * (kr * (E.p - E.m) + I * kz * E.z)
        + r2 * (kr * (J.p - J.m) + I * kz * J.z))) * I_sq
  · simp only [closed, EM.smul, div, curl]
    linear_combination (-a * S * kr * kz * (E.p + E.m) + a * j * kr * kz * (J.p + J.m)) * I_sq

end Fbpic
