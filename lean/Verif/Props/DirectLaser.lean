import Verif.Model.DirectLaser
import Verif.Spec.DirectLaser
import Verif.Props.Maxwell
import Verif.Props.Gather
import Verif.Props.BoostConv
import Mathlib.Algebra.Field.GeomSum
import Mathlib.Analysis.SpecialFunctions.Complex.Log

/-! # C65: direct injection of a laser -/

namespace Fbpic

open Complex Spec DirectLaser BoostConv

/-! ### The fields at one wavenumber -/

/-- The frequency that the code uses. -/
private noncomputable def wl (c dir kz kr : ℝ) : ℝ := c * Real.sqrt (kz ^ 2 + kr ^ 2) * (npSign kz * dir)

private theorem wl_facts {c dir kz kr : ℝ} (hc : 0 < c) (hdir : dir = 1 ∨ dir = -1) (hkz : kz ≠ 0) :
    Travels c dir kz kr (wl c dir kz kr) ∧ wl c dir kz kr ≠ 0 := by
  have hs : 0 < Real.sqrt (kz ^ 2 + kr ^ 2) := Real.sqrt_pos.mpr (by positivity)
  have hsq : Real.sqrt (kz ^ 2 + kr ^ 2) ^ 2 = kz ^ 2 + kr ^ 2 := Real.sq_sqrt (by positivity)
  have hn : npSign kz = 1 ∧ 0 < kz ∨ npSign kz = -1 ∧ kz < 0 := by
    rcases lt_or_gt_of_ne hkz with h | h
    · right; simp [npSign, h]
    · left; simp [npSign, h, h.ne', not_lt.mpr h.le]
  unfold wl Travels
  generalize Real.sqrt (kz ^ 2 + kr ^ 2) = S at *
  refine ⟨⟨?_, ?_⟩, ?_⟩
  · rcases hn with ⟨h, -⟩ | ⟨h, -⟩ <;> rcases hdir with h' | h' <;> rw [h, h', ← hsq] <;> ring
  · rcases hn with ⟨h, h1⟩ | ⟨h, h1⟩
    · have : dir * (c * S * (npSign kz * dir) / kz) = c * S / kz := by
        rw [h]; rcases hdir with h' | h' <;> rw [h'] <;> ring
      rw [this]; positivity
    · have : dir * (c * S * (npSign kz * dir) / kz) = c * S / -kz := by
        rw [h]; rcases hdir with h' | h' <;> rw [h'] <;> ring
      rw [this]
      have : 0 < -kz := by linarith
      positivity
  · have hcs : c * S ≠ 0 := by positivity
    rcases hn with ⟨h, -⟩ | ⟨h, -⟩ <;> rcases hdir with h' | h' <;> rw [h, h'] <;> simp [hc.ne', hs.ne']

/-- The three properties of the calculated fields from which the rest follows. -/
private theorem cell_facts {c dir dz kzTrue kz kr : ℝ} (hc : 0 < c) (hdir : dir = 1 ∨ dir = -1) (hkz : kz ≠ 0) (s : SpecCell) :
    let f := (laserCell c dir dz kzTrue kz kr s).em
    let w : ℂ := wl c dir kz kr
    div kz kr f.E = 0 ∧ div kz kr f.B = 0 ∧
    (curl kz kr f.E).p = I * w * f.B.p ∧ (curl kz kr f.E).m = I * w * f.B.m ∧ (curl kz kr f.E).z = I * w * f.B.z ∧
    c ^ 2 * (curl kz kr f.B).p = -I * w * f.E.p ∧ c ^ 2 * (curl kz kr f.B).m = -I * w * f.E.m ∧
    c ^ 2 * (curl kz kr f.B).z = -I * w * f.E.z := by
  obtain ⟨⟨hw2, -⟩, hw⟩ := wl_facts (kr := kr) hc hdir hkz
  intro f w
  have hkz' : (kz : ℂ) ≠ 0 := by exact_mod_cast hkz
  have hw' : (wl c dir kz kr : ℂ) ≠ 0 := by exact_mod_cast hw
  have hw2' : w ^ 2 = (c : ℂ) ^ 2 * (kz ^ 2 + kr ^ 2) := by
    show (wl c dir kz kr : ℂ) ^ 2 = _
    exact_mod_cast hw2
  have hI : I ^ 2 = -1 := I_sq
  obtain ⟨Ep, Em, hf⟩ : ∃ Ep Em : ℂ, f = ⟨⟨Ep, Em, I * kr * (Ep - Em) * (1 / kz)⟩,
      ⟨-I * (1 / w) * (kz * Ep - 0.5 * I * kr * (I * kr * (Ep - Em) * (1 / kz))),
       -I * (1 / w) * (-kz * Em - 0.5 * I * kr * (I * kr * (Ep - Em) * (1 / kz))), 1 / w * kr * (Ep + Em)⟩⟩ := by
    refine ⟨f.E.p, f.E.m, ?_⟩
    simp only [f, laserCell, SpecCell.em]
    have e1 : (((if kz = 0 then 0 else 1 / kz : ℝ)) : ℂ) = 1 / kz := by rw [if_neg hkz]; push_cast; rfl
    have e2 : (((if c * Real.sqrt (kz ^ 2 + kr ^ 2) * (npSign kz * dir) = 0 then 0
        else 1 / (c * Real.sqrt (kz ^ 2 + kr ^ 2) * (npSign kz * dir)) : ℝ)) : ℂ) = 1 / w := by
      rw [if_neg (show ¬ c * Real.sqrt (kz ^ 2 + kr ^ 2) * (npSign kz * dir) = 0 from hw), ofReal_div, ofReal_one]; rfl
    rw [e1, e2]
  have hw0 : w ≠ 0 := hw'
  clear_value f w
  subst hf
  simp only [div, curl]
  refine ⟨?_, ?_, ?_, ?_, ?_, ?_, ?_, ?_⟩ <;> field_simp <;> ring_nf <;> simp only [hI, hw2', show I ^ 3 = -I by rw [pow_succ, hI]; ring,
    show I ^ 4 = 1 by rw [show (4 : ℕ) = 2 * 2 by norm_num, pow_mul, hI]; norm_num] <;> ring_nf

/-- **C65** (divergence): at every wavenumber with `kz ≠ 0`, the electric and the magnetic field that direct injection puts on the grid
have zero divergence, whatever the transverse field. -/
theorem C65_div (c dir dz kzTrue kz kr : ℝ) (hc : 0 < c) (hdir : dir = 1 ∨ dir = -1) (hkz : kz ≠ 0) (s : SpecCell) :
    div kz kr (laserCell c dir dz kzTrue kz kr s).em.E = 0 ∧ div kz kr (laserCell c dir dz kzTrue kz kr s).em.B = 0 :=
  ⟨(cell_facts hc hdir hkz s).1, (cell_facts hc hdir hkz s).2.1⟩

theorem hasDerivAt_times (a b : ℂ) (t : ℝ) : HasDerivAt (fun t : ℝ => exp (b * t) * a) (b * (exp (b * t) * a)) t := by
  have h : HasDerivAt (fun t : ℝ => b * (t : ℂ)) b t := by
    simpa using (hasDerivAt_id t).ofReal_comp.const_mul b
  exact (h.cexp.mul_const a).congr_deriv (by ring)

/-- **C65** (one direction): at every wavenumber with `kz ≠ 0` these fields are the initial value of a solution of Maxwell's equations in
vacuum that oscillates at one frequency only, whose phase velocity has the sign of `propag_direction`: there is no part that
propagates the other way. -/
theorem C65_wave (c mu0 dir dz kzTrue kz kr : ℝ) (hc : 0 < c) (hdir : dir = 1 ∨ dir = -1) (hkz : kz ≠ 0) (s : SpecCell) :
    ∃ ω, Travels c dir kz kr ω ∧
      IsMaxwell c mu0 kz kr 0 (fun _ => ⟨0, 0, 0⟩)
        (fun t => EM.times (exp (-(I * ω) * t)) (laserCell c dir dz kzTrue kz kr s).em) := by
  obtain ⟨-, -, h1, h2, h3, h4, h5, h6⟩ := cell_facts (dz := dz) (kzTrue := kzTrue) (kr := kr) hc hdir hkz s
  refine ⟨wl c dir kz kr, (wl_facts hc hdir hkz).1, ?_⟩
  generalize (laserCell c dir dz kzTrue kz kr s).em = f at *
  generalize wl c dir kz kr = w at *
  simp only [curl] at h1 h2 h3 h4 h5 h6
  constructor <;> intro t <;> simp only [EM.times, curl, ofReal_zero] <;> refine (hasDerivAt_times _ _ t).congr_deriv ?_ <;>
    generalize exp (-(I * w) * (t : ℂ)) = e
  · linear_combination -e * h4
  · linear_combination -e * h5
  · linear_combination -e * h6
  · linear_combination e * h1
  · linear_combination e * h2
  · linear_combination e * h3

private theorem phase_eq (k : Consts) (hk : k.Ok) {kz kr w : ℝ} (hw2 : w ^ 2 = k.c ^ 2 * (kz ^ 2 + kr ^ 2)) (hw : w ≠ 0) (dt : ℝ) :
    (coefC k kz kr dt : ℂ) - I * w * coefSw k kz kr dt = exp (-(I * w) * dt) := by
  have ho : omega k kz kr = w ∨ omega k kz kr = -w := by
    have := omega_sq k kz kr
    rw [← hw2] at this
    exact sq_eq_sq_iff_eq_or_eq_neg.mp this
  have ho0 : omega k kz kr ≠ 0 := by
    rcases ho with h | h <;> rw [h] <;> simpa using hw
  have hC : coefC k kz kr dt = Real.cos (w * dt) := by
    unfold coefC
    rcases ho with h | h <;> rw [h]
    rw [neg_mul, Real.cos_neg]
  have hS : w * coefSw k kz kr dt = Real.sin (w * dt) := by
    rw [coefSw_of_ne dt ho0]
    rcases ho with h | h <;> rw [h]
    · field_simp
    · rw [neg_mul, Real.sin_neg]; field_simp
  have hS' : (w : ℂ) * coefSw k kz kr dt = Complex.sin (w * dt) := by
    have := congrArg (fun x : ℝ => (x : ℂ)) hS
    push_cast at this
    exact this
  rw [mul_assoc, hS', hC, show -(I * (w : ℂ)) * dt = (-(w * dt : ℂ)) * I by ring, exp_mul_I, Complex.cos_neg, Complex.sin_neg]
  push_cast
  ring

/-- **C65** (field solver): without charges and currents, any number of steps of any sizes multiply these fields by
`exp(-i (ω - kz Vgrid) T)`, `T` being the total time: with the Galilean solver the same wave seen from the moving grid. -/
theorem C65_push (k : Consts) (hk : k.Ok) (dir dz kzTrue : ℝ) (hdir : dir = 1 ∨ dir = -1) (g : SpecGrid) (iz ir : ℕ) (hz : iz < g.Nz)
    (hr : ir < g.Nr) (hkz : g.kz iz ≠ 0) (s : SpecCell)
    (hcell : g.cell iz ir = laserCell k.c dir dz kzTrue (g.kz iz) (g.kr ir) s)
    (hJ : s.J = ⟨0, 0, 0⟩) (hp : s.rhoPrev = 0) (hn : s.rhoNext = 0) (V : Option ℝ) (useGalilean usePml useTrueRho : Bool) :
    ∃ ω, Travels k.c dir (g.kz iz) (g.kr ir) ω ∧ ∀ dts : List ℝ,
      ((pushes k V useGalilean usePml useTrueRho dts g).cell iz ir).em
        = EM.times (exp (-(I * (ω - g.kz iz * (schemeOf V useGalilean).gridVelocity)) * dts.sum)) (g.cell iz ir).em := by
  obtain ⟨d1, d2, h1, h2, h3, h4, h5, h6⟩ := cell_facts (dz := dz) (kzTrue := kzTrue) (kr := g.kr ir) hk.c_pos hdir hkz s
  obtain ⟨ht, hw⟩ := wl_facts (kr := g.kr ir) hk.c_pos hdir hkz
  refine ⟨wl k.c dir (g.kz iz) (g.kr ir), ht, fun dts => ?_⟩
  rw [← hcell] at d1 d2 h1 h2 h3 h4 h5 h6
  have hsrc : (g.cell iz ir).J = ⟨0, 0, 0⟩ ∧ (g.cell iz ir).rhoPrev = 0 ∧ (g.cell iz ir).rhoNext = 0 := by
    rw [hcell]; exact ⟨hJ, hp, hn⟩
  clear hcell hJ hp hn
  generalize hwd : wl k.c dir (g.kz iz) (g.kr ir) = w at *
  -- the invariant of the run
  suffices H : ∀ (g' : SpecGrid) (a : ℂ), g'.Nz = g.Nz → g'.Nr = g.Nr → g'.kz = g.kz → g'.kr = g.kr →
      (g'.cell iz ir).J = ⟨0, 0, 0⟩ → (g'.cell iz ir).rhoPrev = 0 → (g'.cell iz ir).rhoNext = 0 →
      (g'.cell iz ir).em = EM.times a (g.cell iz ir).em →
      ((pushes k V useGalilean usePml useTrueRho dts g').cell iz ir).em
        = EM.times (exp (-(I * (w - g.kz iz * (schemeOf V useGalilean).gridVelocity)) * dts.sum) * a) (g.cell iz ir).em by
    have := H g 1 rfl rfl rfl rfl hsrc.1 hsrc.2.1 hsrc.2.2 (by simp [EM.times])
    rwa [mul_one] at this
  induction dts with
  | nil => intro g' a _ _ _ _ _ _ _ he; simpa [pushes] using he
  | cons dt dts ih =>
    intro g' a e1 e2 e3 e4 j1 j2 j3 he
    have hz' : iz < g'.Nz := by rw [e1]; exact hz
    have hr' : ir < g'.Nr := by rw [e2]; exact hr
    have hdiv : div (g'.kz iz) (g'.kr ir) (g'.cell iz ir).em.E = 0 := by
      rw [he, e3, e4]
      simp only [div, EM.times] at d1 ⊢
      linear_combination a * d1
    have hpe := pushEBWith_vacuum (k := k) (dt := dt) V useGalilean usePml useTrueRho _ j1 j2 j3 hdiv
    have hem : ((g'.push k dt V useGalilean usePml useTrueRho).cell iz ir).em = EM.times
        (exp (-(I * (w - g.kz iz * (schemeOf V useGalilean).gridVelocity)) * dt) * a) (g.cell iz ir).em := by
      rw [push_cell _ _ _ _ _ _ _ hz' hr', pushRho_em, hpe, he, e3, e4]
      have hph := phase_eq k hk ht.1 hw dt
      have hT : TebOf (g.kz iz) dt V useGalilean = exp (I * g.kz iz * (schemeOf V useGalilean).gridVelocity * dt) := by
        match V, useGalilean with
        | none, _ => simp [TebOf, schemeOf, Scheme.gridVelocity]
        | some v, true => simp [TebOf, schemeOf, Scheme.gridVelocity, coefTeb, coefT2]
        | some v, false => simp [TebOf, schemeOf, Scheme.gridVelocity, coefTeb]
      rw [show -(I * ((w : ℂ) - g.kz iz * (schemeOf V useGalilean).gridVelocity)) * dt
        = I * g.kz iz * (schemeOf V useGalilean).gridVelocity * dt + -(I * w) * dt by ring, exp_add, ← hT, ← hph]
      generalize TebOf (g.kz iz) dt V useGalilean = T
      generalize (coefC k (g.kz iz) (g.kr ir) dt : ℂ) = C
      generalize (coefSw k (g.kz iz) (g.kr ir) dt : ℂ) = S
      generalize (g.cell iz ir).em = f at *
      simp only [curl] at h1 h2 h3 h4 h5 h6
      simp only [EM.times, EM.smul, freeStep, curl, EM.mk.injEq, V3.mk.injEq]
      refine ⟨⟨?_, ?_, ?_⟩, ?_, ?_, ?_⟩
      · linear_combination T * S * a * h4
      · linear_combination T * S * a * h5
      · linear_combination T * S * a * h6
      · linear_combination -T * S * a * h1
      · linear_combination -T * S * a * h2
      · linear_combination -T * S * a * h3
    have hs := pushEBWith_sources k (g'.kz iz) (g'.kr ir) (psatdCoefs k (g'.kz iz) (g'.kr ir) dt V useGalilean) usePml useTrueRho
      (g'.cell iz ir)
    have hcell' := push_cell k dt V useGalilean usePml useTrueRho g' hz' hr'
    have := ih (g'.push k dt V useGalilean usePml useTrueRho) _ e1 e2 e3 e4
      (by rw [hcell']; exact hs.1.trans j1) (by rw [hcell']; exact hs.2.2.trans j3) (by rw [hcell']; rfl) hem
    rw [show pushes k V useGalilean usePml useTrueRho (dt :: dts) g'
      = pushes k V useGalilean usePml useTrueRho dts (g'.push k dt V useGalilean usePml useTrueRho) from rfl, this,
      List.sum_cons, ← mul_assoc, ← exp_add]
    congr 3
    push_cast
    ring

/-! ### Azimuthal decomposition -/

private theorem orth (n : ℕ) (hn : 0 < n) (q : ℤ) :
    ∑ j ∈ Finset.range n, exp (2 * Real.pi * I * (q * j) / n) = if (n : ℤ) ∣ q then (n : ℂ) else 0 := by
  have hn' : (n : ℂ) ≠ 0 := by exact_mod_cast hn.ne'
  set ζ : ℂ := exp (2 * Real.pi * I * q / n) with hζ
  have hpow : ∀ j : ℕ, exp (2 * Real.pi * I * (q * j) / n) = ζ ^ j := by
    intro j
    rw [hζ, ← exp_nat_mul]
    congr 1
    ring
  simp only [hpow]
  have hone : ζ = 1 ↔ (n : ℤ) ∣ q := by
    rw [hζ, exp_eq_one_iff]
    constructor
    · rintro ⟨m, hm⟩
      refine ⟨m, ?_⟩
      have h2 : (2 * Real.pi * I : ℂ) ≠ 0 := two_pi_I_ne_zero
      have : (q : ℂ) = n * m := by
        field_simp at hm
        first
          | exact mul_left_cancel₀ h2 (by linear_combination hm)
          | (rw [hm])
          | linear_combination hm
      exact_mod_cast this
    · rintro ⟨m, rfl⟩
      refine ⟨m, ?_⟩
      push_cast
      field_simp
  split_ifs with h
  · rw [hone.mpr h]; simp
  · have hne : ζ ≠ 1 := fun e => h (hone.mp e)
    rw [geom_sum_eq hne]
    have : ζ ^ n = 1 := by
      rw [hζ, ← exp_nat_mul, exp_eq_one_iff]
      exact ⟨q, by field_simp⟩
    rw [this]; simp

private theorem expTheta (θ : ℝ) (m : ℕ) : ((Real.cos θ : ℂ) - I * Real.sin θ) ^ m = exp (-(m * θ * I)) := by
  have : (Real.cos θ : ℂ) - I * Real.sin θ = exp (-(θ * I)) := by
    rw [show -((θ : ℂ) * I) = (-θ : ℂ) * I by ring, exp_mul_I, Complex.cos_neg, Complex.sin_neg]
    push_cast; ring
  rw [this, ← exp_nat_mul]
  congr 1; ring

private theorem ofModes_complex (Nm : ℕ) (a : ℕ → ℂ) (θ : ℝ) :
    (ofModes Nm a θ : ℂ) = ∑ m ∈ Finset.range Nm, (if m = 0 then 1 else 2) / 2 *
      (a m * exp (-(m * θ * I)) + (starRingEnd ℂ) (a m) * exp (m * θ * I)) := by
  unfold ofModes
  rw [ofReal_sum]
  refine Finset.sum_congr rfl fun m _ => ?_
  rw [ofReal_mul, expTheta, re_eq_add_conj, map_mul, ← exp_conj]
  simp only [map_neg, map_mul, map_natCast, conj_ofReal, conj_I]
  rw [show -((m : ℂ) * θ * -I) = m * θ * I by ring]
  split_ifs <;> push_cast <;> ring

private theorem ifft_ofModes (Nm : ℕ) (hN : 0 < Nm) (a : ℕ → ℂ) (m : ℕ) (hm : m < Nm) :
    ifft (2 * Nm) (fun j => (ofModes Nm a (2 * Real.pi / (2 * Nm : ℕ) * j) : ℂ)) m = if m = 0 then ((a 0).re : ℂ) else a m := by
  have hn' : ((2 * Nm : ℕ) : ℂ) ≠ 0 := by
    have : 2 * Nm ≠ 0 := by omega
    exact_mod_cast this
  unfold ifft
  simp only [ofModes_complex, Finset.sum_mul]
  rw [Finset.sum_comm]
  have term : ∀ m' ∈ Finset.range Nm, ∑ j ∈ Finset.range (2 * Nm),
      (((if m' = 0 then 1 else 2) / 2 * (a m' * exp (-(m' * ((2 * Real.pi / (2 * Nm : ℕ) * j : ℝ) : ℂ) * I))
        + (starRingEnd ℂ) (a m') * exp (m' * ((2 * Real.pi / (2 * Nm : ℕ) * j : ℝ) : ℂ) * I)))
        * exp (2 * Real.pi * I * (m * j) / (2 * Nm : ℕ)) : ℂ)
      = (if m' = 0 then 1 else 2) / 2 * (a m' * (if ((2 * Nm : ℕ) : ℤ) ∣ (m : ℤ) - m' then ((2 * Nm : ℕ) : ℂ) else 0)
        + (starRingEnd ℂ) (a m') * (if ((2 * Nm : ℕ) : ℤ) ∣ (m : ℤ) + m' then ((2 * Nm : ℕ) : ℂ) else 0)) := by
    intro m' _
    rw [← orth _ (by omega) ((m : ℤ) - m'), ← orth _ (by omega) ((m : ℤ) + m'), Finset.mul_sum, Finset.mul_sum, ← Finset.sum_add_distrib,
      Finset.mul_sum]
    refine Finset.sum_congr rfl fun j _ => ?_
    have e1 : exp (2 * Real.pi * I * (((m : ℤ) - m' : ℤ) * j) / (2 * Nm : ℕ)) =
        exp (-(m' * ((2 * Real.pi / (2 * Nm : ℕ) * j : ℝ) : ℂ) * I)) * exp (2 * Real.pi * I * (m * j) / (2 * Nm : ℕ)) := by
      rw [← exp_add]; congr 1; push_cast at hn' ⊢; field_simp; ring
    have e2 : exp (2 * Real.pi * I * (((m : ℤ) + m' : ℤ) * j) / (2 * Nm : ℕ)) =
        exp (m' * ((2 * Real.pi / (2 * Nm : ℕ) * j : ℝ) : ℂ) * I) * exp (2 * Real.pi * I * (m * j) / (2 * Nm : ℕ)) := by
      rw [← exp_add]; congr 1; push_cast at hn' ⊢; field_simp; ring
    rw [e1, e2]
    ring
  rw [Finset.sum_congr rfl term]
  have hd1 : ∀ m' ∈ Finset.range Nm, (((2 * Nm : ℕ) : ℤ) ∣ (m : ℤ) - m' ↔ m' = m) := by
    intro m' hm'
    rw [Finset.mem_range] at hm'
    constructor
    · intro h
      have := Int.eq_zero_of_abs_lt_dvd h (by rw [abs_lt]; push_cast; constructor <;> omega)
      omega
    · rintro rfl; simp
  have hd2 : ∀ m' ∈ Finset.range Nm, (((2 * Nm : ℕ) : ℤ) ∣ (m : ℤ) + m' ↔ m' = m ∧ m = 0) := by
    intro m' hm'
    rw [Finset.mem_range] at hm'
    constructor
    · intro h
      have := Int.eq_zero_of_abs_lt_dvd h (by rw [abs_lt]; push_cast; constructor <;> omega)
      omega
    · rintro ⟨rfl, rfl⟩; simp
  have term2 : ∀ m' ∈ Finset.range Nm,
      ((if m' = 0 then 1 else 2) / 2 * (a m' * (if ((2 * Nm : ℕ) : ℤ) ∣ (m : ℤ) - m' then ((2 * Nm : ℕ) : ℂ) else 0)
        + (starRingEnd ℂ) (a m') * (if ((2 * Nm : ℕ) : ℤ) ∣ (m : ℤ) + m' then ((2 * Nm : ℕ) : ℂ) else 0)) : ℂ)
      = if m' = m then ((2 * Nm : ℕ) : ℂ) * (if m = 0 then ((a 0).re : ℂ) else a m) else 0 := by
    intro m' hm'
    simp only [hd1 m' hm', hd2 m' hm']
    by_cases h : m' = m
    · subst h
      by_cases h0 : m' = 0
      · subst h0
        simp only [if_true, and_self]
        rw [re_eq_add_conj]
        ring
      · simp [h0]; ring
    · simp [h]
  rw [Finset.sum_congr rfl term2, Finset.sum_ite_eq' (Finset.range Nm) m, if_pos (Finset.mem_range.mpr hm)]
  field_simp

/-- **C65** (azimuthal decomposition): on every ring of the grid, if the radial and azimuthal components of the laser have azimuthal
content only below the number of modes, the decomposed field (read as the gathering reads it) is the field of the profile at every
angle, not only at the sampled ones. -/
theorem C65_azimuthal (c : ℝ) (profile : ℝ → ℝ → ℝ → ℝ → ℝ × ℝ) (boost : Option Conv) (Nm : ℕ) (hN : 0 < Nm) (t z r : ℝ) (a b : ℕ → ℂ)
    (ha : ∀ θ, (ringErEt c profile boost t z r θ).1 = ofModes Nm a θ) (hb : ∀ θ, (ringErEt c profile boost t z r θ).2 = ofModes Nm b θ)
    (θ : ℝ) :
    ofModes Nm (fun m => (laserErEt c profile boost Nm t z r m).1) θ = (ringErEt c profile boost t z r θ).1 ∧
    ofModes Nm (fun m => (laserErEt c profile boost Nm t z r m).2) θ = (ringErEt c profile boost t z r θ).2 := by
  have key : ∀ a : ℕ → ℂ, ofModes Nm (fun m => ifft (2 * Nm) (fun j => (ofModes Nm a (2 * Real.pi / (2 * Nm : ℕ) * j) : ℂ)) m) θ
      = ofModes Nm a θ := by
    intro a
    unfold ofModes
    refine Finset.sum_congr rfl fun m hm => ?_
    have := ifft_ofModes Nm hN a m (Finset.mem_range.mp hm)
    unfold ofModes at this
    beta_reduce
    rw [this]
    by_cases h : m = 0
    · subst h; simp
    · simp [h]
  constructor
  · simp only [laserErEt, ha]; exact key a
  · simp only [laserErEt, hb]; exact key b

/-- **C65** (any transverse profile of one linear or elliptical polarization): if the Cartesian field of the profile is the same all
along a ring, two modes are enough for recovering it at every angle. -/
theorem C65_polarized (c : ℝ) (profile : ℝ → ℝ → ℝ → ℝ → ℝ × ℝ) (Nm : ℕ) (hN : 2 ≤ Nm) (t z r : ℝ) (E : ℝ × ℝ)
    (hE : ∀ θ, profile (r * Real.cos θ) (r * Real.sin θ) z t = E) (θ : ℝ) :
    let Fr := ofModes Nm (fun m => (laserErEt c profile none Nm t z r m).1) θ
    let Ft := ofModes Nm (fun m => (laserErEt c profile none Nm t z r m).2) θ
    Real.cos θ * Fr - Real.sin θ * Ft = E.1 ∧ Real.sin θ * Fr + Real.cos θ * Ft = E.2 := by
  have one : ∀ (a : ℂ) (θ : ℝ), ofModes Nm (fun m => if m = 1 then a else 0) θ = 2 * (a * ((Real.cos θ : ℂ) - I * Real.sin θ)).re := by
    intro a θ
    unfold ofModes
    rw [Finset.sum_eq_single 1]
    · simp
    · intro m _ hm; simp [hm]
    · intro h; exact absurd (Finset.mem_range.mpr (by omega)) h
  have hr : ∀ θ, (ringErEt c profile none t z r θ) = (Real.cos θ * E.1 + Real.sin θ * E.2, -Real.sin θ * E.1 + Real.cos θ * E.2) := by
    intro θ
    simp only [ringErEt, hE]
  obtain ⟨h1, h2⟩ := C65_azimuthal c profile none Nm (by omega) t z r
    (fun m => if m = 1 then (E.1 + I * E.2) / 2 else 0) (fun m => if m = 1 then (E.2 - I * E.1) / 2 else 0)
    (fun θ => by
      rw [hr, one]
      simp [← ofReal_cos, ← ofReal_sin]
      ring)
    (fun θ => by
      rw [hr, one]
      simp [← ofReal_cos, ← ofReal_sin]
      ring) θ
  intro Fr Ft
  simp only [Fr, Ft, h1, h2, hr]
  have := Real.sin_sq_add_cos_sq θ
  constructor
  · linear_combination E.1 * this
  · linear_combination E.2 * this

/-- **C65** (boosted frame): a laser that `add_laser_pulse` accepts for direct injection in a boosted frame propagates forward, and its
field at an event of the boosted frame is the Lorentz transform of a forward plane wave with the field of the profile at the same event
of the lab. -/
theorem C65_boost (k : Antenna.Consts) (hc : 0 < k.c) (dr : ℝ) (Nr Nm : ℕ) (x : LaserPulse.Args) (b : Conv)
    (h : LaserPulse.addLaserPulse k dr Nr Nm x = .ok (.direct (some b))) (hg : ∀ g, x.gammaBoost = some g → 1 ≤ g) (t z r θ : ℝ) :
    x.direction = 1 ∧ x.gammaBoost = some b.gamma0 ∧ ∃ tl zl, LorentzEvent b.gamma0 b.beta0 k.c tl zl t z ∧
      let E := x.profile (r * Real.cos θ) (r * Real.sin θ) zl tl
      let E' := boostFields b.gamma0 b.beta0 k.c (planeWaveXY k.c 1 E.1 E.2)
      ringErEt k.c x.profile (some b) t z r θ =
        (Real.cos θ * E' .Ex + Real.sin θ * E' .Ey, -Real.sin θ * E' .Ex + Real.cos θ * E' .Ey) := by
  have key : x.direction = 1 ∧ x.gammaBoost = some b.gamma0 ∧ b.c = k.c := by
    unfold LaserPulse.addLaserPulse at h
    have fin : ∀ boost : Option Conv,
        (if x.method = "direct" then
            if x.isLasy = true then
              throw (PyErr.runtimeError "A laser profile from a `lasy` file cannot be emitted with the `direct` method.")
            else (pure (LaserPulse.Pulse.direct boost) : Except PyErr LaserPulse.Pulse)
          else if x.method = "antenna" then
            match x.z0 with
            | none => throw (.valueError "You need to provide `z0_antenna`.")
            | some z0 =>
              if x.isLasy = true ∧ x.v ≠ 0 then
                throw (.runtimeError "A laser profile from a `lasy` file cannot be emitted with a moving antenna.")
              else do
                let a ← Antenna.make k x.profile x.direction z0 x.v dr Nr Nm 2 (1 / 100) boost
                return .antenna a
          else throw (.valueError "Unknown laser method")) = .ok (.direct (some b)) → boost = some b := by
      intro boost h
      split at h
      · split at h <;> cases h
        rfl
      · split at h
        · split at h
          · cases h
          · rename_i z0 hz0
            split at h
            · cases h
            · cases hm : Antenna.make k x.profile x.direction z0 x.v dr Nr Nm 2 (1 / 100) boost with
              | error e => rw [hm] at h; cases h
              | ok a' => rw [hm] at h; cases h
        · cases h
    cases hgb : x.gammaBoost with
    | none => rw [hgb] at h; exact absurd (fin none h) (by simp)
    | some g =>
      rw [hgb] at h
      by_cases hg1 : g = 1
      · simp only [hg1, ne_eq, not_true_eq_false, if_false] at h
        exact absurd (fin none h) (by simp)
      · simp only [ne_eq, hg1, not_false_eq_true, if_true] at h
        by_cases hd : x.direction = 1
        · simp only [hd, if_true] at h
          have := fin (some ⟨k.c, g⟩) (by rw [hd]; exact h)
          cases this
          exact ⟨hd, rfl, rfl⟩
        · simp only [hd, if_false] at h
          cases h
  obtain ⟨hd, hgb, hbc⟩ := key
  have hg1 := hg _ hgb
  obtain ⟨b1, b2, b3⟩ := C49_boost b hg1
  have hg0 : b.gamma0 ≠ 0 := by positivity
  have h1b : 1 + b.beta0 ≠ 0 := by positivity
  have hc' := hc.ne'
  refine ⟨hd, hgb, b.gamma0 * (t + b.beta0 * 1 / k.c * z), b.gamma0 * (z + b.beta0 * k.c * t), ⟨?_, ?_⟩, ?_⟩
  · field_simp; linear_combination -(t * k.c) * b3
  · field_simp; linear_combination -z * b3
  · intro E E'
    have hs : 1 / (b.gamma0 * (1 + b.beta0)) = b.gamma0 * (1 - b.beta0) := by
      field_simp; linear_combination -b3
    have e1 : E' .Ex = b.gamma0 * (1 - b.beta0) * E.1 := by
      simp only [E', boostFields, planeWaveXY]; field_simp
    have e2 : E' .Ey = b.gamma0 * (1 - b.beta0) * E.2 := by
      simp only [E', boostFields, planeWaveXY]; field_simp; ring
    simp only [ringErEt, hs, e1, e2, E, Prod.mk.injEq]
    constructor <;> ring

/-- **C65** (violated at `kz = 0`): there the divergence of E is not removed, unless it was zero from the beginning. -/
theorem C65_violated_kz0 (c dir dz kr : ℝ) (s : SpecCell) (hkr : kr ≠ 0) (hne : s.Ep ≠ s.Em) :
    div 0 kr (laserCell c dir dz 0 0 kr s).em.E ≠ 0 := by
  simp [laserCell, SpecCell.em, div, hkr, sub_eq_zero, hne]

/-! ### Several ranks -/

/-- **C65** (ranks): for any decomposition, the field added on a rank in a cell of its domain is that of the one calculation on the global
grid at the same global cell; nothing is added in the guard cells. `L` is the profile on the global grid, `lo` the index of the first
global cell, damp and injection cells included. -/
theorem C65_ranks (cm : Comm) (Nr : ℕ) (laser : ℕ → Arrays) (solve : Arrays → Arrays) (fld : ℕ → Arrays)
    (L : String → ℕ → ℤ → ℕ → ℂ) (Nglob : ℕ) (lo : ℤ) (hglob : cm.getNzIz false true false none = .ok (Nglob, lo))
    (hL : ∀ k, k < cm.size → ∀ N iz, cm.getNzIz true true false (some k) = .ok (N, iz) →
      ∀ f m i j, cm.nGuard ≤ i → i < cm.nGuard + N → laser k f m i j = L f m (iz - cm.nGuard + i) j)
    (hsolve : ∀ A B : Arrays, (∀ f m i j, i < Nglob → j < Nr → A f m i j = B f m i j) → solve A = solve B)
    (k : ℕ) (hk : k < cm.size) (N Narr : ℕ) (iz first : ℤ) (hloc : cm.getNzIz true true false (some k) = .ok (N, iz))
    (harr : cm.getNzIz true true true (some k) = .ok (Narr, first)) (f : String) (m i j : ℕ) (hj : j < Nr) :
    (iz ≤ first + i ∧ first + i < iz + N →
      addLaserDirect cm Nr laser solve fld k f m i j
        = fld k f m i j + solve (fun f m i j => L f m (lo + i) j) f m (first + i - lo).toNat j ∧ 0 ≤ first + i - lo ∧ first + i - lo < Nglob) ∧
    (¬ (iz ≤ first + i ∧ first + i < iz + N) → addLaserDirect cm Nr laser solve fld k f m i j = fld k f m i j) := by
  have hsol : solve (fun f m => gatherGridArray cm Nr true fun k => laser k f m) = solve (fun f m i j => L f m (lo + i) j) := by
    apply hsolve
    intro f m i j hi hj
    obtain ⟨start, len, N', lo', p1, p2, p3, -⟩ := C01_partition cm (by omega) true
    have p2' := p2 none
    rw [hglob] at p2'; cases p2'
    obtain ⟨k, ⟨hk, h1, h2⟩, -⟩ := p3.1 (lo + i) (by omega) (by omega)
    have harr := C01_guard_extension cm true k _ _ (p1 k hk)
    obtain ⟨e, e1, e2⟩ := C06_gather cm true Nr (fun k => laser k f m) Nglob _ _ lo _ _ k hk hglob (p1 k hk) harr (lo + i) h1 h2 j hj
    have i1 : (lo + i - lo).toNat = i := by omega
    rw [i1] at e
    rw [e, hL k hk _ _ (p1 k hk) f m _ j (by omega) (by omega), Int.toNat_of_nonneg e1]
    congr 1
    omega
  have hle : first ≤ iz := by
    have := C01_guard_extension cm true k _ _ hloc
    rw [harr] at this
    cases this
    omega
  unfold addLaserDirect
  simp only [hloc, harr, okOr, hsol]
  constructor
  · rintro ⟨h1, h2⟩
    rw [if_pos (by omega)]
    obtain ⟨e1, e2, e3⟩ := C06_scatter cm true Nr (solve (fun f m i j => L f m (lo + i) j) f m) Nglob N lo iz k hk hglob hloc
      (i - (iz - first).toNat) (by omega) j hj
    rw [e1]
    have : iz + ((i - (iz - first).toNat : ℕ) : ℤ) = first + i := by omega
    rw [this] at e2 e3 ⊢
    exact ⟨rfl, e2, e3⟩
  · intro h
    rw [if_neg (by omega)]

/-- The cell theorems are not about a zero field: `kz = kr = 1`, backward, everything in Ep. -/
example : ∃ s : SpecCell, (laserCell 1 (-1) 1 1 1 1 s).Ep ≠ 0 ∧ (laserCell 1 (-1) 1 1 1 1 s).Ez ≠ 0 ∧ (laserCell 1 (-1) 1 1 1 1 s).Bz ≠ 0 ∧
    s.J = ⟨0, 0, 0⟩ ∧ s.rhoPrev = 0 ∧ s.rhoNext = 0 := by
  have hs : Real.sin (0.5 * 1 * 1) ^ 2 < 1 := by
    have h1 : Real.sin (0.5 * 1 * 1) < 1 := by
      have := Real.sin_lt (x := 0.5 * 1 * 1) (by norm_num)
      linarith
    have h0 : 0 < Real.sin (0.5 * 1 * 1) := Real.sin_pos_of_pos_of_lt_pi (by norm_num) (by linarith [Real.two_le_pi])
    nlinarith
  have hf : (1 - Real.sin (0.5 * 1 * 1) ^ 2) * (1 + Real.sin (0.5 * 1 * 1) ^ 2) ≠ 0 := by
    have : 0 < 1 - Real.sin (0.5 * 1 * 1) ^ 2 := by linarith
    positivity
  have h2 : Real.sqrt (1 ^ 2 + 1 ^ 2) ≠ 0 := by positivity
  refine ⟨⟨1, 0, 0, 0, 0, 0, 0, 0, 0, 0, 0, 0, 0, 0, 0, 0, 0⟩, ?_, ?_, ?_, rfl, rfl, rfl⟩ <;>
  · simp only [laserCell]
    generalize (1 - Real.sin (0.5 * 1 * 1) ^ 2) * (1 + Real.sin (0.5 * 1 * 1) ^ 2) = f at hf
    have hf' : (f : ℂ) ≠ 0 := by exact_mod_cast hf
    simp [hf, npSign]
    try norm_num

/-- A polarized Gaussian profile meets the hypothesis of `C65_polarized`. -/
example (t z r : ℝ) : ∀ θ, (fun x y z t : ℝ => (Real.exp (-(x ^ 2 + y ^ 2)) * Real.cos (z - t), 2 * Real.exp (-(x ^ 2 + y ^ 2))))
    (r * Real.cos θ) (r * Real.sin θ) z t = (Real.exp (-r ^ 2) * Real.cos (z - t), 2 * Real.exp (-r ^ 2)) := by
  intro θ
  have : (r * Real.cos θ) ^ 2 + (r * Real.sin θ) ^ 2 = r ^ 2 := by linear_combination r ^ 2 * Real.sin_sq_add_cos_sq θ
  simp only [this]

example : ∃ b, LaserPulse.addLaserPulse ⟨1, 1, 1, 1⟩ 1 1 1 ⟨fun _ _ _ _ => (1, 0), 1, false, some 5, "direct", none, 0⟩ =
    .ok (.direct (some b)) := by
  simp [LaserPulse.addLaserPulse, pure, Except.pure, bind, Except.bind]

end Fbpic
