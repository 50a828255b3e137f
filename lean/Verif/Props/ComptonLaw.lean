import Verif.Lemmas.ComptonLaw
import Verif.Lemmas.Compton
import Mathlib.Analysis.SpecialFunctions.Gaussian.GaussianIntegral
import Mathlib.MeasureTheory.Measure.Haar.NormedSpace

/-!
# C104: the scattered photons follow the Klein-Nishina law
-/

namespace Fbpic

open MeasureTheory Set Spec

/-! ### The rate of the scatterings -/

private theorem restP_eq (e : ElecMom) (he : e.ok) (q : FourMom) (g b nx ny nz : ℝ)
    (h : restFrame e = (g, b, nx, ny, nz)) :
    (lorentzTransform q g b nx ny nz).p = e.gamma * q.p - e.ux * q.px - e.uy * q.py - e.uz * q.pz := by
  obtain ⟨-, -, -, -, -, hg, hx, hy, hz⟩ := restFrame_spec e he g b nx ny nz h
  unfold lorentzTransform
  simp only
  rw [← hx, ← hy, ← hz]
  have : e.gamma = g := hg.symm
  rw [this]; ring

/-- **C104 (rate).** The probability that an electron scatters a photon during a step is `1 - exp(-σ n c Δτ)`, where
`σ` is the Klein-Nishina cross section integrated over all the angles, at the photon momentum seen in the rest frame
of the electron (the one that is used afterwards to draw the angle), `n` the density of the photons in that frame and
`Δτ` the proper duration of the step. -/
theorem C104_rate (piRe2 invMC c dt N : ℝ) (hM : 0 < invMC) (e : ElecMom) (he : e.ok) (q : FourMom) (hq : 0 < q.p)
    (hnull : q.inv = 0) (g b nx ny nz : ℝ) (h : restFrame e = (g, b, nx, ny, nz)) :
    let rest := lorentzTransform q g b nx ny nz
    0 < rest.p ∧
    scatteringProbability piRe2 invMC c dt e N q.p (q.px / q.p) (q.py / q.p) (q.pz / q.p) =
      1 - Real.exp (-((piRe2 * ∫ x in (-1 : ℝ)..1, kleinNishina (rest.p * invMC) x) * (N * (rest.p / q.p)) * c *
        (dt / e.gamma))) := by
  intro rest
  have hp : rest.p = e.gamma * q.p - e.ux * q.px - e.uy * q.py - e.uz * q.pz := restP_eq e he q g b nx ny nz h
  have hG2 : e.gamma ^ 2 = 1 + e.ux ^ 2 + e.uy ^ 2 + e.uz ^ 2 := Real.sq_sqrt (by positivity)
  have hG0 : 0 < e.gamma := Real.sqrt_pos.mpr (by positivity)
  have hqq : q.p ^ 2 = q.px ^ 2 + q.py ^ 2 + q.pz ^ 2 := by unfold FourMom.inv at hnull; linarith
  have hpos : 0 < rest.p := by
    rw [hp]
    have cs : (e.ux * q.px + e.uy * q.py + e.uz * q.pz) ^ 2 < (e.gamma * q.p) ^ 2 := by
      rw [mul_pow, hG2, hqq]
      have : 0 < q.px ^ 2 + q.py ^ 2 + q.pz ^ 2 := by rw [← hqq]; positivity
      nlinarith [sq_nonneg (e.ux * q.py - e.uy * q.px), sq_nonneg (e.ux * q.pz - e.uz * q.px),
        sq_nonneg (e.uy * q.pz - e.uz * q.py)]
    have := abs_lt_of_sq_lt_sq cs (by positivity)
    have := (abs_lt.1 this).2
    linarith
  refine ⟨hpos, ?_⟩
  have hf : 1 / e.invGamma - e.ux * (q.px / q.p) - e.uy * (q.py / q.p) - e.uz * (q.pz / q.p) = rest.p / q.p := by
    have : e.invGamma = 1 / e.gamma := he
    rw [this, hp]; field_simp
  have hi : e.invGamma = 1 / e.gamma := he
  unfold scatteringProbability
  simp only
  rw [hf, kn_total (mul_pos hpos hM), mul_div_cancel₀ _ hq.ne', hi]
  congr 2
  ring

/-! ### The angle -/

/-- **C104 (angle).** With an unlimited supply of independent uniform draws, the cosine returned by the rejection loop
is below `y` with the probability that the Klein-Nishina law gives. -/
theorem C104_angle (invMC p y : ℝ) (hk : 0 < p * invMC) (h1 : -1 ≤ y) (h2 : y ≤ 1) :
    supply {w | ∃ x, rejectionLoop invMC p w = some x ∧ x ≤ y} = ENNReal.ofReal
      ((∫ x in (-1 : ℝ)..y, kleinNishina (p * invMC) x) / ∫ x in (-1 : ℝ)..1, kleinNishina (p * invMC) x) :=
  (loop_law invMC p y hk h1 h2).2

/-- **C104 (end of the loop).** The rejection loop ends, with a cosine between -1 and 1, with probability 1. -/
theorem C104_ends (invMC p : ℝ) (hk : 0 < p * invMC) :
    ∀ᵐ w ∂supply, ∃ x, rejectionLoop invMC p w = some x ∧ -1 < x ∧ x ≤ 1 := by
  have hT : 0 < ∫ x in (-1 : ℝ)..1, kleinNishina (p * invMC) x :=
    intervalIntegral.intervalIntegral_pos_of_pos_on (kn_integrable hk le_rfl) (fun x hx => kn_pos hk hx.2.le) (by norm_num)
  obtain ⟨m1, a1⟩ := loop_law invMC p 1 hk (by norm_num) le_rfl
  have a2 := (loop_law invMC p (-1) hk le_rfl (by norm_num)).2
  rw [div_self hT.ne', ENNReal.ofReal_one] at a1
  rw [intervalIntegral.integral_same, zero_div, ENNReal.ofReal_zero] at a2
  have hP : IsProbabilityMeasure supply := by unfold supply; infer_instance
  have b1 : ∀ᵐ w ∂supply, ∃ x, rejectionLoop invMC p w = some x ∧ x ≤ 1 :=
    (mem_ae_iff_prob_eq_one m1).2 a1
  have b2 : ∀ᵐ w ∂supply, ¬ ∃ x, rejectionLoop invMC p w = some x ∧ x ≤ -1 := by
    rw [ae_iff]; simpa using a2
  filter_upwards [b1, b2] with w ⟨x, e, hx⟩ hn
  exact ⟨x, e, not_le.1 fun h => hn ⟨x, e, h⟩, hx⟩

/-- **C104 (rejection).** The rejection is legitimate: the quotient of the two densities, to which the second draw is
compared, lies between 0 and 1 for every first draw. -/
theorem C104_quotient (invMC p r1 : ℝ) (hk : 0 < p * invMC) (h0 : 0 ≤ r1) (h1 : r1 ≤ 1) :
    (∀ r2 < 0, acceptX invMC p r1 r2) ∧ ∀ r2 ≥ 1, ¬ acceptX invMC p r1 r2 := by
  have hm := knAcc_mem (invMC := invMC) (p := p) hk ⟨h0, h1⟩
  simp only [acceptX_iff]
  exact ⟨fun r hr => by linarith [hm.1], fun r hr => by linarith [hm.2]⟩

/-! ### The laser pulse -/

private theorem pulse_split (L : ComptonLaser) (x y z ct : ℝ) : L.density x y z ct =
    L.gammaB * (1 + L.betaB) * L.nPeak * Real.exp (-(2 * L.invWaist2) * x ^ 2) * Real.exp (-(2 * L.invWaist2) * y ^ 2) *
      Real.exp (-(2 * L.invCtau2) * (L.gammaB * (1 + L.betaB) * (z + ct) - L.z0) ^ 2) := by
  unfold ComptonLaser.density
  simp only
  rw [show -2 * L.invWaist2 * (x ^ 2 + y ^ 2) - 2 * L.invCtau2 *
      (L.gammaB * (z + L.betaB * ct) - L.z0 + L.gammaB * (ct + L.betaB * z)) ^ 2 =
      -(2 * L.invWaist2) * x ^ 2 + (-(2 * L.invWaist2) * y ^ 2 +
        -(2 * L.invCtau2) * (L.gammaB * (1 + L.betaB) * (z + ct) - L.z0) ^ 2) by ring, Real.exp_add, Real.exp_add]
  ring

private theorem gauss_sub (a G s : ℝ) (hG : 0 < G) (ct : ℝ) :
    ∫ z : ℝ, Real.exp (-a * (G * (z + ct) - s) ^ 2) = Real.sqrt (Real.pi / a) / G := by
  have := Measure.integral_comp_mul_left (fun z => Real.exp (-a * (z + (G * ct - s)) ^ 2)) G
  rw [show (fun z : ℝ => Real.exp (-a * (G * (z + ct) - s) ^ 2)) = fun z => Real.exp (-a * (G * z + (G * ct - s)) ^ 2) by
    funext z; congr 2; ring, this, integral_add_right_eq_self (fun z => Real.exp (-a * z ^ 2)), integral_gaussian,
    abs_of_pos (inv_pos.2 hG), smul_eq_mul]
  ring

private theorem sqrt_half (w : ℝ) (hw : 0 < w) : Real.sqrt (Real.pi / (2 * (1 / w ^ 2))) = w * Real.sqrt (Real.pi / 2) := by
  rw [show Real.pi / (2 * (1 / w ^ 2)) = w ^ 2 * (Real.pi / 2) by field_simp, Real.sqrt_mul (by positivity),
    Real.sqrt_sq hw.le]

/-- **C104 (photons of the pulse).** In every frame and at every time, the density of the photons integrated over
space is the energy of the pulse divided by the energy of one photon, both in the lab. -/
theorem C104_photons (c h energy wavelength waist ctau z0 gammaB betaB ct : ℝ) (hc : 0 < c) (hh : 0 < h)
    (hl : 0 < wavelength) (hw : 0 < waist) (ht : 0 < ctau) (hg : 0 < gammaB) (hb : gammaB ^ 2 * (1 - betaB ^ 2) = 1) :
    ∫ x : ℝ, ∫ y : ℝ, ∫ z : ℝ, (ComptonLaser.init c h energy wavelength waist ctau z0 gammaB betaB).density x y z ct =
      energy / (h * c / wavelength) := by
  have hb2 : betaB ^ 2 < 1 := by
    by_contra hn
    have : gammaB ^ 2 * (1 - betaB ^ 2) ≤ 0 := mul_nonpos_of_nonneg_of_nonpos (by positivity) (by linarith [not_lt.1 hn])
    linarith
  have hb1 : 0 < 1 + betaB := by
    have := (abs_lt.1 ((sq_lt_one_iff_abs_lt_one betaB).1 hb2)).1
    linarith
  simp only [pulse_split]
  simp only [integral_const_mul, integral_mul_const, ComptonLaser.init]
  rw [gauss_sub _ _ _ (mul_pos hg hb1), integral_gaussian, sqrt_half _ hw, sqrt_half _ ht]
  have hs : Real.sqrt (0 ^ 2 + 0 ^ 2 + (-h / wavelength) ^ 2) = h / wavelength := by
    rw [show (0 : ℝ) ^ 2 + 0 ^ 2 + (-h / wavelength) ^ 2 = (h / wavelength) ^ 2 by ring, Real.sqrt_sq (by positivity)]
  have hpow : (Real.pi / 2) ^ ((3 : ℝ) / 2) = Real.sqrt (Real.pi / 2) * Real.sqrt (Real.pi / 2) * Real.sqrt (Real.pi / 2) := by
    rw [show (3 : ℝ) / 2 = 1 + 1 / 2 by norm_num, Real.rpow_add (by positivity), Real.rpow_one, ← Real.sqrt_eq_rpow,
      Real.mul_self_sqrt (by positivity)]
  rw [hs, hpow]
  have hS : 0 < Real.sqrt (Real.pi / 2) := Real.sqrt_pos.2 (by positivity)
  field_simp

/-- **C104 (frames).** The density in the frame of the simulation is the density in the lab at the same event,
multiplied by the same Doppler factor as the momentum of the photons; the pulse moves along the photons, at the speed
of light towards negative z, without change of shape. -/
theorem C104_frame (c h energy wavelength waist ctau z0 gammaB betaB x y z ct s : ℝ) (hh : 0 < h) (hl : 0 < wavelength)
    (hg : 0 < gammaB) (hb : gammaB ^ 2 * (1 - betaB ^ 2) = 1) :
    let L := ComptonLaser.init c h energy wavelength waist ctau z0 gammaB betaB
    let lab := ComptonLaser.init c h energy wavelength waist ctau z0 1 0
    let q := incomingPhoton (h / wavelength) gammaB betaB
    L.density x y z ct / q.p =
      lab.density x y (gammaB * (z + betaB * ct)) (gammaB * (ct + betaB * z)) / (h / wavelength) ∧
    L.density x y (z - s) (ct + s) = L.density x y z ct ∧ q.px = 0 ∧ q.py = 0 ∧ q.pz = -q.p ∧ 0 < q.p := by
  intro L lab q
  have hb2 : betaB ^ 2 < 1 := by
    by_contra hn
    have : gammaB ^ 2 * (1 - betaB ^ 2) ≤ 0 := mul_nonpos_of_nonneg_of_nonpos (by positivity) (by linarith [not_lt.1 hn])
    linarith
  have hb1 : 0 < 1 + betaB := by
    have := (abs_lt.1 ((sq_lt_one_iff_abs_lt_one betaB).1 hb2)).1
    linarith
  have hq : 0 < h / wavelength := by positivity
  have hlab : Real.sqrt (0 ^ 2 + 0 ^ 2 + (-(h / wavelength)) ^ 2) = h / wavelength := by
    rw [show (0 : ℝ) ^ 2 + 0 ^ 2 + (-(h / wavelength)) ^ 2 = (h / wavelength) ^ 2 by ring, Real.sqrt_sq hq.le]
  have hpz : q.pz = -(gammaB * (1 + betaB) * (h / wavelength)) := by
    show gammaB * (-(h / wavelength) - betaB * Real.sqrt (0 ^ 2 + 0 ^ 2 + (-(h / wavelength)) ^ 2)) = _
    rw [hlab]; ring
  have hqp : q.p = gammaB * (1 + betaB) * (h / wavelength) := by
    show Real.sqrt (0 ^ 2 + 0 ^ 2 + q.pz ^ 2) = _
    rw [hpz, show (0 : ℝ) ^ 2 + 0 ^ 2 + (-(gammaB * (1 + betaB) * (h / wavelength))) ^ 2 =
      (gammaB * (1 + betaB) * (h / wavelength)) ^ 2 by ring, Real.sqrt_sq (by positivity)]
  refine ⟨?_, ?_, rfl, rfl, by rw [hpz, hqp], by rw [hqp]; positivity⟩
  · have e : L.density x y z ct = gammaB * (1 + betaB) *
        lab.density x y (gammaB * (z + betaB * ct)) (gammaB * (ct + betaB * z)) := by
      rw [pulse_split, pulse_split]
      simp only [L, lab, ComptonLaser.init]
      rw [show (1 : ℝ) * (1 + 0) * (gammaB * (z + betaB * ct) + gammaB * (ct + betaB * z)) =
        gammaB * (1 + betaB) * (z + ct) by ring]
      ring
    rw [e, hqp]
    field_simp
  · rw [pulse_split, pulse_split, show z - s + (ct + s) = z + ct by ring]

/-! ### Independence of the frame -/

/-- **C104 (invariance).** The probability of scattering does not depend on the frame in which the simulation is done:
electron and photons boosted along z, with the density that belongs to the boosted photons, give the same probability
for the same proper duration. -/
theorem C104_invariant (piRe2 invMC c dt dt' N gamma beta : ℝ) (hb : gamma ^ 2 * (1 - beta ^ 2) = 1) (e e' : ElecMom)
    (he : e.ok) (he' : e'.ok) (q : FourMom) (hq : 0 < q.p) (hq' : 0 < (boostZ gamma beta q).p)
    (hE : elecFour e' = boostZ gamma beta (elecFour e)) (hdt : dt' * e'.invGamma = dt * e.invGamma) :
    let q' := boostZ gamma beta q
    scatteringProbability piRe2 invMC c dt' e' (N * q'.p / q.p) q'.p (q'.px / q'.p) (q'.py / q'.p) (q'.pz / q'.p) =
      scatteringProbability piRe2 invMC c dt e N q.p (q.px / q.p) (q.py / q.p) (q.pz / q.p) := by
  intro q'
  have hG : e.gamma ≠ 0 := (Real.sqrt_pos.mpr (by positivity)).ne'
  have hG' : e'.gamma ≠ 0 := (Real.sqrt_pos.mpr (by positivity)).ne'
  have i1 : 1 / e.invGamma = e.gamma := by rw [show e.invGamma = 1 / e.gamma from he, one_div_one_div]
  have i2 : 1 / e'.invGamma = e'.gamma := by rw [show e'.invGamma = 1 / e'.gamma from he', one_div_one_div]
  have g' : e'.gamma = gamma * (e.gamma - beta * e.uz) := congrArg FourMom.p hE
  have x' : e'.ux = e.ux := congrArg FourMom.px hE
  have y' : e'.uy = e.uy := congrArg FourMom.py hE
  have z' : e'.uz = gamma * (e.uz - beta * e.gamma) := congrArg FourMom.pz hE
  have key : q'.p * (1 / e'.invGamma - e'.ux * (q'.px / q'.p) - e'.uy * (q'.py / q'.p) - e'.uz * (q'.pz / q'.p)) =
      q.p * (1 / e.invGamma - e.ux * (q.px / q.p) - e.uy * (q.py / q.p) - e.uz * (q.pz / q.p)) := by
    have hq'' : q'.p ≠ 0 := hq'.ne'
    have l1 : q'.p * (1 / e'.invGamma - e'.ux * (q'.px / q'.p) - e'.uy * (q'.py / q'.p) - e'.uz * (q'.pz / q'.p)) =
        q'.p * e'.gamma - e'.ux * q'.px - e'.uy * q'.py - e'.uz * q'.pz := by rw [i2]; field_simp
    have l2 : q.p * (1 / e.invGamma - e.ux * (q.px / q.p) - e.uy * (q.py / q.p) - e.uz * (q.pz / q.p)) =
        q.p * e.gamma - e.ux * q.px - e.uy * q.py - e.uz * q.pz := by rw [i1]; field_simp
    rw [l1, l2, x', y', z', g']
    show gamma * (q.p - beta * q.pz) * _ - _ * q.px - _ * q.py - _ * (gamma * (q.pz - beta * q.p)) = _
    linear_combination (q.p * e.gamma - e.uz * q.pz) * hb
  have hN : N * q'.p / q.p * (1 / e'.invGamma - e'.ux * (q'.px / q'.p) - e'.uy * (q'.py / q'.p) - e'.uz * (q'.pz / q'.p)) =
      N * (1 / e.invGamma - e.ux * (q.px / q.p) - e.uy * (q.py / q.p) - e.uz * (q.pz / q.p)) := by
    rw [show ∀ f : ℝ, N * q'.p / q.p * f = N / q.p * (q'.p * f) from fun f => by ring, key]
    field_simp
  unfold scatteringProbability
  simp only
  rw [key, hN, hdt]

/-! ### The recoil -/

private theorem uniform_Ici (a : ℝ) (ha : 0 ≤ a) : uniform (Ici (1 - a)) = ENNReal.ofReal (min 1 a) := by
  unfold uniform
  rw [Measure.restrict_apply measurableSet_Ici, show Ici (1 - a) ∩ Ico 0 1 = Ico (max 0 (1 - a)) 1 by
    ext x; simp only [mem_inter_iff, mem_Ici, mem_Ico, max_le_iff]; tauto, Real.volume_Ico]
  congr 1
  rcases le_total 1 a with h | h
  · rw [max_eq_left (by linarith), min_eq_left h]; ring
  · rw [max_eq_right (by linarith), min_eq_right h]; ring

private theorem uniform_Iio (a : ℝ) (ha : 0 ≤ a) : uniform (Iio a) = ENNReal.ofReal (min 1 a) := by
  unfold uniform
  rw [Measure.restrict_apply measurableSet_Iio, show Iio a ∩ Ico 0 1 = Ico 0 (min 1 a) by
    ext x; simp only [mem_inter_iff, mem_Iio, mem_Ico, lt_min_iff]; tauto, Real.volume_Ico, sub_zero]

private theorem recoil_law (p ratio : ℝ) (hp : 0 ≤ p) (hr : 0 < ratio) :
    (uniform.prod uniform) {w | takesRecoil p ratio w.1 w.2} = ENNReal.ofReal (min 1 (p * ratio) * min 1 (1 / ratio)) := by
  have hA : 0 ≤ p * ratio := by positivity
  have : ∀ᵐ w ∂(uniform.prod uniform), w ∈ (Ico 0 1 ×ˢ Ico 0 1 : Set (ℝ × ℝ)) := by
    unfold uniform
    rw [Measure.prod_restrict]
    exact ae_restrict_mem (measurableSet_Ico.prod measurableSet_Ico)
  have e : {w : ℝ × ℝ | takesRecoil p ratio w.1 w.2} =ᵐ[uniform.prod uniform] (Ici (1 - p * ratio) ×ˢ Iio (1 / ratio) : Set (ℝ × ℝ)) := by
    filter_upwards [this] with w hw
    apply propext
    show takesRecoil p ratio w.1 w.2 ↔ w ∈ (Ici (1 - p * ratio) ×ˢ Iio (1 / ratio) : Set (ℝ × ℝ))
    unfold takesRecoil nScatter
    rw [pyInt_of_nonneg (add_nonneg hA hw.1.1), Int.floor_pos, mem_prod, mem_Ici, mem_Iio]
    constructor
    · rintro ⟨a, b⟩; exact ⟨by linarith, b⟩
    · rintro ⟨a, b⟩; exact ⟨by linarith, b⟩
  rw [measure_congr e, Measure.prod_prod, uniform_Ici _ hA, uniform_Iio _ (by positivity), ENNReal.ofReal_mul (by positivity)]

/-- **C104 (recoil, partial).** The recoil has the probability of the scattering, as it should, exactly when the ratio
of the weights is at least one and the expected number of macrophotons of the electron is at most one. Missing: the
other cases, in which the code is wrong (`C104_recoil_violated`). -/
theorem C104_recoil_partial (p ratio : ℝ) (hp : 0 < p) (hp1 : p ≤ 1) (hr : 0 < ratio) :
    (uniform.prod uniform) {w | takesRecoil p ratio w.1 w.2} = ENNReal.ofReal p ↔ 1 ≤ ratio ∧ p * ratio ≤ 1 := by
  rw [recoil_law p ratio hp.le hr, ENNReal.ofReal_eq_ofReal_iff (by positivity) hp.le]
  constructor
  · intro h
    rcases lt_or_ge ratio 1 with h1 | h1
    · have h2 : 1 ≤ 1 / ratio := by rw [le_div_iff₀ hr]; linarith
      have h3 : p * ratio ≤ 1 := by nlinarith
      rw [min_eq_left h2, min_eq_right h3] at h
      nlinarith
    · refine ⟨h1, ?_⟩
      by_contra hn
      have h2 : 1 / ratio ≤ 1 := by rw [div_le_iff₀ hr]; linarith
      rw [min_eq_right h2, min_eq_left (not_le.1 hn).le, one_mul, div_eq_iff hr.ne'] at h
      exact hn h.ge
  · rintro ⟨h1, h2⟩
    have h3 : 1 / ratio ≤ 1 := by rw [div_le_iff₀ hr]; linarith
    rw [min_eq_right h2, min_eq_right h3]
    field_simp

/-- **C104 (recoil, violated).** With four macrophotons per electron and a probability of one half, the electron recoils
with the probability 1/4 only: the electrons do not slow down at the rate at which photons are emitted. -/
theorem C104_recoil_violated : ∃ p ratio : ℝ, 0 ≤ p ∧ p ≤ 1 ∧ 1 ≤ ratio ∧
    (uniform.prod uniform) {w | takesRecoil p ratio w.1 w.2} < ENNReal.ofReal p := by
  refine ⟨1 / 2, 4, by norm_num, by norm_num, by norm_num, ?_⟩
  rw [recoil_law _ _ (by norm_num) (by norm_num), ENNReal.ofReal_lt_ofReal_iff (by norm_num)]
  norm_num

/-! ### Concrete cases -/

/-- An electron at rest, a photon towards negative z. -/
private noncomputable def atRest : ElecMom := ⟨0, 0, 0, 1⟩

private theorem atRest_ok : atRest.ok := by simp [ElecMom.ok, ElecMom.gamma, atRest]

private theorem atRest_frame : restFrame atRest = (1, 0, 0, 0, 1) := by simp [restFrame, atRest]

example (piRe2 c dt N : ℝ) : scatteringProbability piRe2 1 c dt atRest N 2 (0 / 2) (0 / 2) (-2 / 2) =
    1 - Real.exp (-((piRe2 * ∫ x in (-1 : ℝ)..1, kleinNishina (2 * 1) x) * (N * (2 / 2)) * c * (dt / atRest.gamma))) := by
  have := (C104_rate piRe2 1 c dt N one_pos atRest atRest_ok ⟨2, 0, 0, -2⟩ (by norm_num) (by norm_num [FourMom.inv]) _ _ _ _ _
    atRest_frame).2
  simpa [lorentzTransform] using this

example : supply {w | ∃ x, rejectionLoop 1 2 w = some x ∧ x ≤ 0} = ENNReal.ofReal
    ((∫ x in (-1 : ℝ)..0, kleinNishina (2 * 1) x) / ∫ x in (-1 : ℝ)..1, kleinNishina (2 * 1) x) :=
  C104_angle 1 2 0 (by norm_num) (by norm_num) (by norm_num)

/-- The boost of Lorentz factor 5/4, and the electron at rest seen from it. -/
example (piRe2 c dt N : ℝ) :
    scatteringProbability piRe2 1 c (dt * (5 / 4)) ⟨0, 0, -(3 / 4), 4 / 5⟩ (N * (5 / 4 * (2 - 3 / 5 * -2)) / 2)
      (5 / 4 * (2 - 3 / 5 * -2)) (0 / (5 / 4 * (2 - 3 / 5 * -2))) (0 / (5 / 4 * (2 - 3 / 5 * -2)))
      (5 / 4 * (-2 - 3 / 5 * 2) / (5 / 4 * (2 - 3 / 5 * -2))) =
    scatteringProbability piRe2 1 c dt atRest N 2 (0 / 2) (0 / 2) (-2 / 2) := by
  have hg : Real.sqrt (1 + 0 ^ 2 + 0 ^ 2 + (-(3 / 4)) ^ 2) = 5 / 4 := by
    rw [show (1 : ℝ) + 0 ^ 2 + 0 ^ 2 + (-(3 / 4)) ^ 2 = (5 / 4) ^ 2 by norm_num]
    exact Real.sqrt_sq (by norm_num)
  refine C104_invariant piRe2 1 c dt (dt * (5 / 4)) N (5 / 4) (3 / 5) (by norm_num) atRest ⟨0, 0, -(3 / 4), 4 / 5⟩ atRest_ok ?_
    ⟨2, 0, 0, -2⟩ (by norm_num) (by norm_num [boostZ]) ?_ ?_
  · show (4 / 5 : ℝ) = 1 / Real.sqrt (1 + 0 ^ 2 + 0 ^ 2 + (-(3 / 4)) ^ 2)
    rw [hg]; norm_num
  · refine FourMom.ext ?_ rfl rfl ?_
    · show Real.sqrt (1 + 0 ^ 2 + 0 ^ 2 + (-(3 / 4)) ^ 2) = _
      rw [hg]; simp [boostZ, elecFour, ElecMom.gamma, atRest]
    · simp [boostZ, elecFour, ElecMom.gamma, atRest]
  · simp [atRest]; ring

/-- A pulse of energy 6 with photons of energy 3/2, in the boosted frame of Lorentz factor 5/4: four photons. -/
example (ct : ℝ) : ∫ x : ℝ, ∫ y : ℝ, ∫ z : ℝ, (ComptonLaser.init 1 3 6 2 5 7 1 (5 / 4) (3 / 5)).density x y z ct = 4 := by
  rw [C104_photons 1 3 6 2 5 7 1 (5 / 4) (3 / 5) ct (by norm_num) (by norm_num) (by norm_num) (by norm_num) (by norm_num)
    (by norm_num) (by norm_num)]
  norm_num

/-- The usual choice, one macrophoton per electron. -/
example (p : ℝ) (hp : 0 < p) (hp1 : p ≤ 1) :
    (uniform.prod uniform) {w | takesRecoil p 1 w.1 w.2} = ENNReal.ofReal p :=
  (C104_recoil_partial p 1 hp hp1 one_pos).2 ⟨le_rfl, by linarith⟩

end Fbpic
