import Verif.Lemmas.CustomSpectrumFit

/-!
# C110: laser pulse from a measured spectrum
-/

namespace Fbpic.CustomSpectrum

open Spec
open LaserProf (Long)
open Complex (I)

variable {c z0 dir phi2 phi3 phi4 lam0 : ℝ} {fit : List (ℝ × ℝ) → ℝ} {d : List Pt} {subtract : Bool} {P P' : Long}

/-- What is returned for a file with at least two rows. -/
private theorem ok_eq (h2 : 2 ≤ d.length) (hdir : dir = -1 ∨ dir = 1)
    (h : customLong c fit z0 (threeColumns d) phi2 phi3 phi4 subtract dir = .ok (P, lam0)) :
    lam0 = meanWavelength d ∧ P.k0 = 2 * Real.pi / lam0 ∧ P.dir = dir ∧
      P.evaluate = fun z t => interp1d (nodes c lam0 z0 dir (finalData c fit d phi2 phi3 phi4 subtract)) (dir * z - c * t) := by
  rw [customLong_eq c fit z0 (readRows_three h2) phi2 phi3 phi4 subtract hdir] at h
  simp only [Except.ok.injEq, Prod.mk.injEq] at h
  obtain ⟨h1, h2⟩ := h
  subst h2
  subst h1
  exact ⟨rfl, rfl, rfl, rfl⟩

/-- A file with at least two rows and a valid direction gives a profile; otherwise there is an exception. -/
theorem C110_accepted (c z0 phi2 phi3 phi4 dir : ℝ) (fit : List (ℝ × ℝ) → ℝ) (d : List Pt) (subtract : Bool) :
    (2 ≤ d.length ∧ (dir = -1 ∨ dir = 1) → ∃ P lam0, customLong c fit z0 (threeColumns d) phi2 phi3 phi4 subtract dir = .ok (P, lam0)) ∧
    (¬ (2 ≤ d.length ∧ (dir = -1 ∨ dir = 1)) → ∃ e, customLong c fit z0 (threeColumns d) phi2 phi3 phi4 subtract dir = .error e) := by
  constructor
  · rintro ⟨h1, h2⟩
    rw [customLong_eq c fit z0 (readRows_three h1) phi2 phi3 phi4 subtract h2]
    exact ⟨_, _, rfl⟩
  · intro h
    by_cases hdir : dir = -1 ∨ dir = 1
    · have h2 : d.length < 2 := by
        by_contra hn; exact h ⟨by omega, hdir⟩
      have h1 : LaserProf.checkDir dir = .ok dir := if_pos hdir
      have hr : readRows (threeColumns d) = .error (.indexError "too many indices for array") :=
        if_pos (.inl (by unfold threeColumns; rw [List.length_map]; exact h2))
      refine ⟨.indexError "too many indices for array", ?_⟩
      unfold customLong
      rw [h1, hr]
      rfl
    · have h1 : LaserProf.checkDir dir = .error (.assertionError "") := if_neg hdir
      refine ⟨.assertionError "", ?_⟩
      unfold customLong
      rw [h1]
      rfl

/-- Without the third column the phase is 0. -/
theorem C110_two_columns (h2 : 2 ≤ d.length) :
    customLong c fit z0 (twoColumns d) phi2 phi3 phi4 subtract dir =
      customLong c fit z0 (threeColumns (d.map fun p => { p with phase := 0 })) phi2 phi3 phi4 subtract dir := by
  unfold customLong
  rw [readRows_two h2, readRows_three (by simpa using h2)]

/-- The profile is the pulse whose spectral intensity per unit of frequency is proportional to the `I λ²` of the file and whose phase is that of
the file, without the slope if this is asked for, with the chirps that are asked for: at the points of a grid the sum of plane waves
`sqrt(s) exp(i φ + i ω x/c)`, `x = dir (z - z0) - c t`, divided by its largest value. -/
theorem C110_field (hc : 0 < c) (hd : GoodSpectrum d) (hdir : dir = -1 ∨ dir = 1)
    (h : customLong c fit z0 (threeColumns d) phi2 phi3 phi4 subtract dir = .ok (P, lam0)) (hl : 0 < lam0) :
    P.k0 = 2 * Real.pi / lam0 ∧ P.dir = dir ∧ ∃ s φ M F,
      Interpolates (d.map fun p => (frequency c p, p.inten * p.lam ^ 2)) s ∧
      Interpolates (d.map fun p => (frequency c p, pulsePhase c (if subtract then fit (d.map fun p => (frequency c p, p.phase)) else 0)
        (2 * Real.pi * c / lam0) phi2 phi3 phi4 p)) φ ∧
      IsPulse c lam0 s φ M F ∧ ∀ z t, P.evaluate z t = F (dir * (z - z0) - c * t) := by
  obtain ⟨h1, h2, h3, h4⟩ := ok_eq hd.two hdir h
  refine ⟨h2, h3, ?_⟩
  have hg := good_phase hd (pulsePhase c (if subtract then fit (d.map fun p => (frequency c p, p.phase)) else 0)
        (2 * Real.pi * c / lam0) phi2 phi3 phi4)
  have hp := isPulse hc hl hg z0 dir
  have hs := interp_data hc hg fun p => p.inten * p.lam ^ 2
  have hφ := interp_data hc hg fun p => p.phase
  rw [finalData_eq, ← h1] at h4
  refine ⟨_, _, _, _, ?_, ?_, hp, ?_⟩
  · convert hs using 1
    rw [List.map_map]; rfl
  · convert hφ using 1
    rw [List.map_map]; rfl
  · intro z t
    rw [h4]
    refine congrArg _ ?_
    ring

/-- The spectral intensity per unit of frequency is that of the file per unit of wavelength: `s |dω/dλ|` is
proportional to `I`. -/
theorem C110_intensity {s : ℝ → ℝ} (hd : GoodSpectrum d) (hs : Interpolates (d.map fun p => (frequency c p, p.inten * p.lam ^ 2)) s) :
    ∀ p ∈ d, s (frequency c p) * (2 * Real.pi * c / p.lam ^ 2) = 2 * Real.pi * c * p.inten := by
  intro p hp
  rw [hs.node _ (List.mem_map_of_mem (f := fun p => (frequency c p, p.inten * p.lam ^ 2)) hp)]
  have := (hd.pos p hp).ne'
  field_simp

/-- The documentation says that the amplitude is proportional to `k sqrt(I)`. It is proportional to `sqrt(I)/k`. -/
theorem C110_documented_violated {s : ℝ → ℝ} (hc : 0 < c) (hd : GoodSpectrum d)
    (hs : Interpolates (d.map fun p => (frequency c p, p.inten * p.lam ^ 2)) s) {p q : Pt} (hp : p ∈ d) (hq : q ∈ d) (hpq : p.lam ≠ q.lam)
    (hip : 0 < p.inten) (hiq : 0 < q.inten) :
    (∀ r ∈ d, Real.sqrt (s (frequency c r)) = 2 * Real.pi * c / frequency c r * Real.sqrt r.inten) ∧
    ¬ ∃ A : ℝ, ∀ r ∈ d, Real.sqrt (s (frequency c r)) = A * (frequency c r / c * Real.sqrt r.inten) := by
  have key : ∀ r ∈ d, Real.sqrt (s (frequency c r)) = r.lam * Real.sqrt r.inten := by
    intro r hr
    rw [hs.node _ (List.mem_map_of_mem (f := fun p => (frequency c p, p.inten * p.lam ^ 2)) hr), Real.sqrt_mul (hd.inten r hr),
      Real.sqrt_sq (hd.pos r hr).le, mul_comm]
  have hf : ∀ r ∈ d, 2 * Real.pi * c / frequency c r = r.lam := by
    intro r hr
    have := (hd.pos r hr).ne'
    have := Real.pi_pos.ne'
    unfold frequency
    field_simp
  refine ⟨fun r hr => by rw [key r hr, hf r hr], ?_⟩
  rintro ⟨A, hA⟩
  have e : ∀ r ∈ d, 0 < r.inten → r.lam ^ 2 = A * (2 * Real.pi) := by
    intro r hr hi
    have h1 := hA r hr
    rw [key r hr] at h1
    have h0 : Real.sqrt r.inten ≠ 0 := (Real.sqrt_pos.2 hi).ne'
    have h2 : r.lam = A * (frequency c r / c) := mul_right_cancel₀ h0 (by rw [h1]; ring)
    have h3 := (hd.pos r hr).ne'
    have h4 : frequency c r / c = 2 * Real.pi / r.lam := by unfold frequency; field_simp
    rw [h4] at h2
    field_simp at h2
    linarith
  have h1 := e p hp hip
  have h2 := e q hq hiq
  refine hpq ?_
  have := hd.pos p hp
  have := hd.pos q hq
  nlinarith

/-- The profile is never larger than 1, and at every time there is a position at which it is 1 (if it does not vanish everywhere). -/
theorem C110_normalised (hc : 0 < c) (hd : GoodSpectrum d) (hdir : dir = -1 ∨ dir = 1)
    (h : customLong c fit z0 (threeColumns d) phi2 phi3 phi4 subtract dir = .ok (P, lam0)) (hl : 0 < lam0) :
    (∀ z t, ‖P.evaluate z t‖ ≤ 1) ∧
    ∀ t, (∃ z t', P.evaluate z t' ≠ 0) → ∃ z, ‖P.evaluate z t‖ = 1 := by
  obtain ⟨_, _, s, φ, M, F, _, _, hF, he⟩ := C110_field hc hd hdir h hl
  have hM : 0 ≤ M := by obtain ⟨k, _, _, e⟩ := hF.attained; rw [← e]; exact norm_nonneg _
  have hdd : dir * dir = 1 := by rcases hdir with rfl | rfl <;> norm_num
  have hnode : ∀ k : ℤ, -500000 < k → k ≤ 500000 → ‖F (k * (lam0 / 1000))‖ ≤ 1 := by
    intro k h1 h2
    rw [hF.node k h1 h2, norm_div, Complex.norm_real, Real.norm_of_nonneg hM]
    exact div_le_one_of_le₀ (hF.bound k h1 h2) hM
  refine ⟨fun z t => ?_, fun t => ?_⟩
  · rw [he]
    exact isPulse_norm hl hF zero_le_one hnode _
  · rintro ⟨z, t', hne⟩
    have hM0 : M ≠ 0 := by
      intro h0
      apply hne
      rw [he]
      refine norm_le_zero_iff.1 (isPulse_norm hl hF le_rfl (fun k h1 h2 => ?_) _)
      rw [hF.node k h1 h2, h0]
      simp
    obtain ⟨k', h1, h2, e⟩ := hF.attained
    refine ⟨z0 + dir * (k' * (lam0 / 1000) + c * t), ?_⟩
    rw [he]
    have : dir * (z0 + dir * (k' * (lam0 / 1000) + c * t) - z0) - c * t = k' * (lam0 / 1000) := by
      linear_combination (k' * (lam0 / 1000) + c * t) * hdd
    rw [this, hF.node k' h1 h2, norm_div, e, Complex.norm_real, Real.norm_of_nonneg hM, div_self hM0]

/-- The profile moves with the speed of light without changing. -/
theorem C110_rigid (h2 : 2 ≤ d.length) (hdir : dir = -1 ∨ dir = 1)
    (h : customLong c fit z0 (threeColumns d) phi2 phi3 phi4 subtract dir = .ok (P, lam0)) (z t t' : ℝ) :
    P.evaluate z t = P.evaluate (z + dir * c * (t' - t)) t' := by
  obtain ⟨_, _, _, h4⟩ := ok_eq h2 hdir h
  have hdd : dir * dir = 1 := by rcases hdir with rfl | rfl <;> norm_num
  rw [h4]
  refine congrArg _ ?_
  linear_combination -(c * (t' - t)) * hdd

/-- If the wavelengths of the file increase or decrease, the central wavelength lies between the smallest and the largest one. -/
theorem C110_mean (hd : GoodSpectrum d) (hdir : dir = -1 ∨ dir = 1)
    (hs : d.Pairwise (fun p q => p.lam < q.lam) ∨ d.Pairwise (fun p q => q.lam < p.lam)) (hi : ∃ p ∈ d, 0 < p.inten)
    (h : customLong c fit z0 (threeColumns d) phi2 phi3 phi4 subtract dir = .ok (P, lam0)) :
    (∃ p ∈ d, p.lam ≤ lam0) ∧ (∃ p ∈ d, lam0 ≤ p.lam) ∧ 0 < lam0 := by
  classical
  obtain ⟨h1, _⟩ := ok_eq hd.two hdir h
  have hne : d.toFinset.Nonempty := by
    obtain ⟨p, hp, _⟩ := hi
    exact ⟨p, List.mem_toFinset.2 hp⟩
  obtain ⟨a, ha, ham⟩ := d.toFinset.exists_min_image Pt.lam hne
  obtain ⟨b, hb, hbm⟩ := d.toFinset.exists_max_image Pt.lam hne
  have ha' := List.mem_toFinset.1 ha
  have hb' := List.mem_toFinset.1 hb
  have hab : ∀ p ∈ d, a.lam ≤ p.lam ∧ p.lam ≤ b.lam := fun p hp =>
    ⟨ham p (List.mem_toFinset.2 hp), hbm p (List.mem_toFinset.2 hp)⟩
  have key : ∀ σ : ℝ, d.Pairwise (fun p q => 0 < σ * (q.lam - p.lam)) → a.lam ≤ lam0 ∧ lam0 ≤ b.lam := by
    intro σ hσ
    obtain ⟨_, k2, k3⟩ := trapz_mean σ a.lam b.lam d hσ hd.inten hab
    have k0 := trapz_pos σ d hσ hd.inten hd.two hi
    have e : lam0 = (σ * trapz (d.map fun p => (p.lam, p.lam * p.inten))) / (σ * trapz (d.map fun p => (p.lam, p.inten))) := by
      have hσ0 : σ ≠ 0 := by rintro rfl; simp at k0
      rw [h1, meanWavelength, mul_div_mul_left _ _ hσ0, mul_one]
    rw [e, le_div_iff₀ k0, div_le_iff₀ k0]
    exact ⟨k2, k3⟩
  have hfin : a.lam ≤ lam0 ∧ lam0 ≤ b.lam := by
    rcases hs with hs | hs
    · exact key 1 (hs.imp fun h => by linarith)
    · exact key (-1) (hs.imp fun h => by linarith)
  exact ⟨⟨a, ha', hfin.1⟩, ⟨b, hb', hfin.2⟩, (hd.pos a ha').trans_le hfin.1⟩

/-- The profile with the spectrum and the phase made explicit. -/
private theorem explicit (hc : 0 < c) (hd : GoodSpectrum d) (hdir : dir = -1 ∨ dir = 1)
    (h : customLong c fit z0 (threeColumns d) phi2 phi3 phi4 subtract dir = .ok (P, lam0)) (hl : 0 < lam0) (slope : ℝ)
    (hslope : (if subtract then fit (d.map fun p => (frequency c p, p.phase)) else 0) = slope) :
    ∃ M F, IsPulse c lam0 (interp1d (d.map fun p => (freq c p, p.inten * p.lam ^ 2)))
      (interp1d (d.map fun p => (freq c p, pulsePhase c slope (2 * Real.pi * c / lam0) phi2 phi3 phi4 p))) M F ∧
      ∀ z t, P.evaluate z t = F (dir * (z - z0) - c * t) := by
  obtain ⟨_, _, s, φ, M, F, hs, hφ, hF, he⟩ := C110_field hc hd hdir h hl
  rw [hslope] at hφ
  have e1 := Interpolates_unique hs (interp_data hc hd fun p => p.inten * p.lam ^ 2)
  have e2 := Interpolates_unique hφ (interp_data hc hd fun p => pulsePhase c slope (2 * Real.pi * c / lam0) phi2 phi3 phi4 p)
  subst e1 e2
  exact ⟨M, F, hF, he⟩

/-- A phase that is linear in the frequency moves the pulse. -/
private theorem moved (hc : 0 < c) (hd : GoodSpectrum d) (hl : 0 < lam0) {g : Pt → ℝ} {τ : ℝ} {m : ℤ} (hτ : c * τ = m * (lam0 / 1000))
    {M M' : ℝ} {F F' : ℝ → ℂ}
    (hF : IsPulse c lam0 (interp1d (d.map fun p => (freq c p, p.inten * p.lam ^ 2))) (interp1d (d.map fun p => (freq c p, g p))) M F)
    (hF' : IsPulse c lam0 (interp1d (d.map fun p => (freq c p, p.inten * p.lam ^ 2))) (interp1d (d.map fun p => (freq c p, g p + τ * freq c p))) M' F')
    (he : ∀ z t, P.evaluate z t = F (dir * (z - z0) - c * t)) (he' : ∀ z t, P'.evaluate z t = F' (dir * (z - z0) - c * t))
    {z t : ℝ} {k : ℤ} (hn : AtNode c lam0 z0 dir z t k) (h1 : -500000 < k + m) (h2 : k + m ≤ 500000) :
    P'.evaluate z t = P.evaluate z (t - τ) := by
  obtain ⟨_, hsh⟩ := isPulse_shift hc.ne' hl.ne' hF hF' m (fun k => by
    rw [pulse_linear hc hd g τ, hτ]
    refine congrArg _ ?_
    push_cast
    ring)
  rw [he, he', hn.at', hsh k hn.lower hn.upper h1 h2]
  refine congrArg _ ?_
  have := hn.at'
  push_cast
  linear_combination -this - hτ

/-- A phase `τ ω` in the file delays the pulse by the time `τ`. -/
theorem C110_delay (hc : 0 < c) (hd : GoodSpectrum d) (hdir : dir = -1 ∨ dir = 1) {τ lam0' : ℝ}
    (h : customLong c fit z0 (threeColumns d) phi2 phi3 phi4 false dir = .ok (P, lam0)) (hl : 0 < lam0)
    (h' : customLong c fit z0 (threeColumns (addPhase c (fun w => τ * w) d)) phi2 phi3 phi4 false dir = .ok (P', lam0'))
    {m : ℤ} (hτ : c * τ = m * (lam0 / 1000)) :
    lam0' = lam0 ∧ ∀ z t k, AtNode c lam0 z0 dir z t k → -500000 < k + m → k + m ≤ 500000 → P'.evaluate z t = P.evaluate z (t - τ) := by
  have hd' : GoodSpectrum (addPhase c (fun w => τ * w) d) := good_phase hd _
  have e0 : lam0' = lam0 := by
    rw [(ok_eq hd'.two hdir h').1, (ok_eq hd.two hdir h).1]
    unfold meanWavelength addPhase
    simp only [List.map_map, Function.comp_def]
  subst e0
  refine ⟨rfl, fun z t k hn h1 h2 => ?_⟩
  obtain ⟨M, F, hF, he⟩ := explicit hc hd hdir h hl 0 rfl
  obtain ⟨M', F', hF', he'⟩ := explicit hc hd' hdir h' hl 0 rfl
  have e1 : ((addPhase c (fun w => τ * w) d).map fun p => (freq c p, p.inten * p.lam ^ 2)) = d.map fun p => (freq c p, p.inten * p.lam ^ 2) := by
    unfold addPhase; rw [List.map_map]; rfl
  have e2 : ((addPhase c (fun w => τ * w) d).map fun p => (freq c p, pulsePhase c 0 (2 * Real.pi * c / lam0') phi2 phi3 phi4 p)) =
      d.map fun p => (freq c p, pulsePhase c 0 (2 * Real.pi * c / lam0') phi2 phi3 phi4 p + τ * freq c p) := by
    unfold addPhase; rw [List.map_map]
    refine List.map_congr_left fun p _ => ?_
    simp only [Function.comp, freq, frequency, pulsePhase]
    congr 1
    ring
  rw [e1, e2] at hF'
  exact moved hc hd hl hτ hF hF' he he' hn h1 h2

/-- Chirps that are given as arguments are the same as in the file. -/
theorem C110_chirp_in_file (h2 : 2 ≤ d.length) (hdir : dir = -1 ∨ dir = 1)
    (h : customLong c fit z0 (threeColumns d) phi2 phi3 phi4 false dir = .ok (P, lam0)) :
    customLong c fit z0 (threeColumns (addPhase c (fun w => phi2 / 2 * (w - 2 * Real.pi * c / lam0) ^ 2 +
      phi3 / 6 * (w - 2 * Real.pi * c / lam0) ^ 3 + phi4 / 24 * (w - 2 * Real.pi * c / lam0) ^ 4) d)) 0 0 0 false dir = .ok (P, lam0) := by
  have h1 := (ok_eq h2 hdir h).1
  rw [customLong_eq c fit z0 (readRows_three h2) phi2 phi3 phi4 false hdir] at h
  rw [← h, h1, customLong_eq c fit z0 (readRows_three (by unfold addPhase; simpa using h2)) 0 0 0 false hdir]
  have hm : ∀ f, meanWavelength (addPhase c f d) = meanWavelength d := by
    intro f
    unfold meanWavelength addPhase
    simp only [List.map_map, Function.comp_def]
  simp only [hm, finalData_eq]
  have e : ((addPhase c (fun w => phi2 / 2 * (w - 2 * Real.pi * c / meanWavelength d) ^ 2 +
      phi3 / 6 * (w - 2 * Real.pi * c / meanWavelength d) ^ 3 + phi4 / 24 * (w - 2 * Real.pi * c / meanWavelength d) ^ 4) d).map fun p =>
        { p with phase := pulsePhase c 0 (2 * Real.pi * c / meanWavelength d) 0 0 0 p }) =
      d.map fun p => { p with phase := pulsePhase c 0 (2 * Real.pi * c / meanWavelength d) phi2 phi3 phi4 p } := by
    unfold addPhase
    rw [List.map_map]
    refine List.map_congr_left fun p _ => ?_
    simp only [Function.comp, pulsePhase, frequency]
    congr 1
    ring
  simp only [Bool.false_eq_true, if_false]
  rw [e]

/-- With `subtract_linear_phase` a slope of the phase in the file has no effect (at least five rows). -/
theorem C110_subtract (hc : 0 < c) (hd : GoodSpectrum d) (h5 : 5 ≤ d.length) (hf : FitsLinear fit) (hdir : dir = -1 ∨ dir = 1) (τ : ℝ) :
    customLong c fit z0 (threeColumns (addPhase c (fun w => τ * w) d)) phi2 phi3 phi4 true dir =
      customLong c fit z0 (threeColumns d) phi2 phi3 phi4 true dir := by
  have h2 := hd.two
  rw [customLong_eq c fit z0 (readRows_three h2) phi2 phi3 phi4 true hdir,
    customLong_eq c fit z0 (readRows_three (by unfold addPhase; simpa using h2)) phi2 phi3 phi4 true hdir]
  have hm : ∀ f, meanWavelength (addPhase c f d) = meanWavelength d := by
    intro f
    unfold meanWavelength addPhase
    simp only [List.map_map, Function.comp_def]
  have hfit : fit ((addPhase c (fun w => τ * w) d).map fun p => (frequency c p, p.phase)) = fit (d.map fun p => (frequency c p, p.phase)) + τ := by
    rw [← fit_shift hf (l := d.map fun p => (frequency c p, p.phase)) (nodup_freq hc hd _) (by simpa using h5)]
    unfold addPhase
    rw [List.map_map, List.map_map]
    rfl
  simp only [hm, finalData_eq, if_true, hfit]
  generalize fit (d.map fun p => (frequency c p, p.phase)) = a
  have e : ((addPhase c (fun w => τ * w) d).map fun p => { p with phase := pulsePhase c (a + τ) (2 * Real.pi * c / meanWavelength d) phi2 phi3 phi4 p }) =
      d.map fun p => { p with phase := pulsePhase c a (2 * Real.pi * c / meanWavelength d) phi2 phi3 phi4 p } := by
    unfold addPhase
    rw [List.map_map]
    refine List.map_congr_left fun p _ => ?_
    simp only [Function.comp, pulsePhase, frequency]
    congr 1
    ring
  rw [e]

/-- The slope that is subtracted is that at the frequency 0 and not at the central frequency. A file whose phase is a pure chirp, without slope at the
central frequency, gives a pulse that is delayed by `φ₂ ω₀`, against the pulse for which the same chirp is given as an argument. -/
theorem C110_subtract_violated (hc : 0 < c) (hd : GoodSpectrum d) (h5 : 5 ≤ d.length) (hf : FitsLinear fit) (hdir : dir = -1 ∨ dir = 1)
    (h0 : ∀ p ∈ d, p.phase = 0) {lam0' : ℝ}
    (h : customLong c fit z0 (threeColumns d) phi2 0 0 true dir = .ok (P, lam0)) (hl : 0 < lam0)
    (h' : customLong c fit z0 (threeColumns (addPhase c (fun w => phi2 / 2 * (w - 2 * Real.pi * c / lam0) ^ 2) d)) 0 0 0 true dir = .ok (P', lam0'))
    {m : ℤ} (hτ : c * (phi2 * (2 * Real.pi * c / lam0)) = m * (lam0 / 1000)) :
    lam0' = lam0 ∧ ∀ z t k, AtNode c lam0 z0 dir z t k → -500000 < k + m → k + m ≤ 500000 →
      P'.evaluate z t = P.evaluate z (t - phi2 * (2 * Real.pi * c / lam0)) := by
  have hd' : GoodSpectrum (addPhase c (fun w => phi2 / 2 * (w - 2 * Real.pi * c / lam0) ^ 2) d) := good_phase hd _
  have e0 : lam0' = lam0 := by
    rw [(ok_eq hd'.two hdir h').1]
    refine Eq.trans ?_ (ok_eq hd.two hdir h).1.symm
    unfold meanWavelength addPhase
    simp only [List.map_map, Function.comp_def]
  subst e0
  refine ⟨rfl, fun z t k hn h1 h2 => ?_⟩
  generalize hw : 2 * Real.pi * c / lam0' = w0 at *
  have hfit : fit (d.map fun p => (frequency c p, p.phase)) = 0 := by
    have := fit_poly hf (l := d.map fun p => (frequency c p, p.phase)) (nodup_freq hc hd _) (by simpa using h5) (p := 0) (by simp) (by
      intro x hx; obtain ⟨p, hp, rfl⟩ := List.mem_map.1 hx; simp [h0 p hp])
    simpa using this
  have hfit' : fit ((addPhase c (fun w => phi2 / 2 * (w - w0) ^ 2) d).map fun p => (frequency c p, p.phase)) = -(phi2 * w0) := by
    have e : (Polynomial.C (phi2 / 2) * (Polynomial.X - Polynomial.C w0) ^ 2 : Polynomial ℝ) =
        Polynomial.C (phi2 / 2) * Polynomial.X ^ 2 + Polynomial.C (-(phi2 * w0)) * Polynomial.X + Polynomial.C (phi2 / 2 * w0 ^ 2) := by
      have : (Polynomial.C (-(phi2 * w0)) : Polynomial ℝ) = Polynomial.C (phi2 / 2) * Polynomial.C (-2 * w0) := by
        rw [← Polynomial.C_mul]; congr 1; ring
      rw [this]
      simp only [Polynomial.C_mul, Polynomial.C_pow, Polynomial.C_neg]
      have : (Polynomial.C 2 : Polynomial ℝ) = 2 := rfl
      rw [this]
      ring
    have := fit_poly hf (l := (addPhase c (fun w => phi2 / 2 * (w - w0) ^ 2) d).map fun p => (frequency c p, p.phase)) (nodup_freq hc hd' _)
      (by unfold addPhase; simpa using h5) (p := Polynomial.C (phi2 / 2) * (Polynomial.X - Polynomial.C w0) ^ 2) (by
        refine (Polynomial.natDegree_C_mul_le _ _).trans ?_
        refine Polynomial.natDegree_pow_le.trans ?_
        rw [Polynomial.natDegree_X_sub_C]; norm_num) (by
        intro x hx
        unfold addPhase at hx
        rw [List.map_map] at hx
        obtain ⟨p, hp, rfl⟩ := List.mem_map.1 hx
        simp [h0 p hp, frequency])
    rw [this, e]
    simp only [Polynomial.coeff_add, Polynomial.coeff_C_mul, Polynomial.coeff_X, Polynomial.coeff_C, Polynomial.coeff_X_pow]
    norm_num
  obtain ⟨M, F, hF, he⟩ := explicit hc hd hdir h hl 0 (by rw [if_pos rfl, hfit])
  obtain ⟨M', F', hF', he'⟩ := explicit hc hd' hdir h' hl (-(phi2 * w0)) (by rw [if_pos rfl, hfit'])
  rw [hw] at hF hF'
  have e1 : ((addPhase c (fun w => phi2 / 2 * (w - w0) ^ 2) d).map fun p => (freq c p, p.inten * p.lam ^ 2)) = d.map fun p => (freq c p, p.inten * p.lam ^ 2) := by
    unfold addPhase; rw [List.map_map]; rfl
  have e2 : ((addPhase c (fun w => phi2 / 2 * (w - w0) ^ 2) d).map fun p => (freq c p, pulsePhase c (-(phi2 * w0)) w0 0 0 0 p)) =
      d.map fun p => (freq c p, pulsePhase c 0 w0 phi2 0 0 p + phi2 * w0 * freq c p) := by
    unfold addPhase; rw [List.map_map]
    refine List.map_congr_left fun p _ => ?_
    simp only [Function.comp, freq, frequency, pulsePhase]
    congr 1
    ring
  rw [e1, e2] at hF'
  exact moved hc hd hl hτ hF hF' he he' hn h1 h2

/-! ### A spectrum with one line -/

/-- Five rows, of which one has an intensity. -/
noncomputable def lineSpectrum : List Pt := [⟨0.9998, 0, 0⟩, ⟨0.9999, 0, 0⟩, ⟨1, 1, 0⟩, ⟨1.0001, 0, 0⟩, ⟨1.0002, 0, 0⟩]

theorem line_good : GoodSpectrum lineSpectrum where
  two := by simp [lineSpectrum]
  pos := by simp [lineSpectrum]; norm_num
  inten := by simp [lineSpectrum]
  distinct := by simp [lineSpectrum]; norm_num

theorem line_mean : meanWavelength lineSpectrum = 1 := by
  simp [meanWavelength, lineSpectrum, trapz]
  norm_num

/-- The function that the best fits define. -/
noncomputable def bestSlope (l : List (ℝ × ℝ)) : ℝ := (exists_bestFit l).choose.coeff 1

theorem bestSlope_fits : FitsLinear bestSlope := fun l => ⟨_, (exists_bestFit l).choose_spec, rfl⟩

theorem line_phase : ∀ p ∈ lineSpectrum, p.phase = 0 := by simp [lineSpectrum]

/-- Only the central frequency is within the measured range. -/
theorem line_pulse {φ s : ℝ → ℝ} (hs : Interpolates (lineSpectrum.map fun p => (frequency 1 p, p.inten * p.lam ^ 2)) s) (x : ℝ) :
    pulse 1 1 s φ x = Complex.exp (I * (φ (2 * Real.pi) + 2 * Real.pi * x : ℝ)) := by
  have hpi := Real.pi_pos
  unfold pulse
  rw [Finset.sum_eq_single 1000]
  · have h1 : s (2 * Real.pi) = 1 := by
      have := hs.node (frequency 1 ⟨1, 1, 0⟩, 1 * 1 ^ 2) (by simp [lineSpectrum])
      simpa [frequency] using this
    have e : 2 * Real.pi * 1 / 1 * (((1000 : ℕ) : ℝ) / 1000) = 2 * Real.pi := by push_cast; ring
    simp only [e, h1]
    simp
  · intro j _ hj
    have h0 : s (2 * Real.pi * 1 / 1 * ((j : ℝ) / 1000)) = 0 := by
      rcases lt_or_gt_of_ne hj with h | h
      · refine hs.below _ ?_
        have hj' : (j : ℝ) ≤ 999 := by exact_mod_cast (by omega : j ≤ 999)
        have : 2 * Real.pi * 1 / 1 * ((j : ℝ) / 1000) ≤ 2 * Real.pi * 0.999 := by nlinarith
        simp only [lineSpectrum, frequency, List.map_cons, List.map_nil, List.mem_cons, List.not_mem_nil, or_false, forall_eq_or_imp, forall_eq]
        refine ⟨?_, ?_, ?_, ?_, ?_⟩ <;> · rw [lt_div_iff₀ (by norm_num)]; nlinarith
      · refine hs.above _ ?_
        have hj' : (1001 : ℝ) ≤ j := by exact_mod_cast (by omega : 1001 ≤ j)
        have : 2 * Real.pi * 1.001 ≤ 2 * Real.pi * 1 / 1 * ((j : ℝ) / 1000) := by nlinarith
        simp only [lineSpectrum, frequency, List.map_cons, List.map_nil, List.mem_cons, List.not_mem_nil, or_false, forall_eq_or_imp, forall_eq]
        refine ⟨?_, ?_, ?_, ?_, ?_⟩ <;> · rw [div_lt_iff₀ (by norm_num)]; nlinarith
    simp only [h0]
    simp
  · intro h; exact absurd (Finset.mem_range.2 (by norm_num)) h

/-- The delay of half a period in a concrete case: the chirp in the file, with the slope subtracted, gives the field with the opposite sign of the
one for which the chirp is given as an argument, or in the file without subtraction. -/
theorem C110_opposite_sign_violated : FitsLinear bestSlope ∧ ∃ P P' : Long,
    customLong 1 bestSlope 0 (threeColumns lineSpectrum) (1 / (4 * Real.pi)) 0 0 true 1 = .ok (P, 1) ∧
    customLong 1 bestSlope 0 (threeColumns (addPhase 1 (fun w => 1 / (4 * Real.pi) / 2 * (w - 2 * Real.pi * 1 / 1) ^ 2) lineSpectrum)) 0 0 0 true 1
      = .ok (P', 1) ∧ P.evaluate 0 0 = 1 ∧ P'.evaluate 0 0 = -1 := by
  refine ⟨bestSlope_fits, ?_⟩
  have hpi := Real.pi_pos
  have hd := line_good
  have hdir : (1 : ℝ) = -1 ∨ (1 : ℝ) = 1 := .inr rfl
  obtain ⟨P, l, h⟩ := (C110_accepted 1 0 (1 / (4 * Real.pi)) 0 0 1 bestSlope lineSpectrum true).1 ⟨hd.two, hdir⟩
  have hl := (ok_eq hd.two hdir h).1
  rw [line_mean] at hl
  subst hl
  have hd' : GoodSpectrum (addPhase 1 (fun w => 1 / (4 * Real.pi) / 2 * (w - 2 * Real.pi * 1 / 1) ^ 2) lineSpectrum) := good_phase hd _
  obtain ⟨P', l', h'⟩ := (C110_accepted 1 0 0 0 0 1 bestSlope (addPhase 1 (fun w => 1 / (4 * Real.pi) / 2 * (w - 2 * Real.pi * 1 / 1) ^ 2) lineSpectrum)
    true).1 ⟨hd'.two, hdir⟩
  obtain ⟨hl', hmove⟩ := C110_subtract_violated one_pos hd (by simp [lineSpectrum]) bestSlope_fits hdir (line_phase) h one_pos h' (m := 500)
    (by push_cast; field_simp; norm_num)
  subst hl'
  refine ⟨P, P', h, h', ?_⟩
  obtain ⟨_, _, s, φ, M, F, hs, hφ, hF, he⟩ := C110_field one_pos hd hdir h one_pos
  have hpulse := line_pulse (φ := φ) hs
  have hφ0 : φ (2 * Real.pi) = pulsePhase 1 (bestSlope (lineSpectrum.map fun p => (frequency 1 p, p.phase))) (2 * Real.pi * 1 / 1) (1 / (4 * Real.pi)) 0 0
      ⟨1, 1, 0⟩ := by
    have := hφ.node (frequency 1 ⟨1, 1, 0⟩, _) (List.mem_map_of_mem (a := (⟨1, 1, 0⟩ : Pt)) (by simp [lineSpectrum]))
    simpa [frequency] using this
  have hslope : bestSlope (lineSpectrum.map fun p => (frequency 1 p, p.phase)) = 0 := by
    have := fit_poly bestSlope_fits (l := lineSpectrum.map fun p => (frequency 1 p, p.phase)) (nodup_freq one_pos hd _) (by simp [lineSpectrum]) (p := 0) (by simp) (by
      intro x hx; obtain ⟨p, hp, rfl⟩ := List.mem_map.1 hx; simp [line_phase p hp])
    simpa using this
  have hφ1 : φ (2 * Real.pi) = 0 := by rw [hφ0, hslope]; simp [pulsePhase, frequency]
  have hM : M = 1 := by
    obtain ⟨k, _, _, e⟩ := hF.attained
    rw [← e, hpulse, mul_comm, Complex.norm_exp_ofReal_mul_I]
  have hval : ∀ k : ℤ, -500000 < k → k ≤ 500000 → F (k * (1 / 1000)) = Complex.exp (I * (2 * Real.pi * (k * (1 / 1000)) : ℝ)) := by
    intro k h1 h2
    rw [hF.node k h1 h2, hpulse, hφ1, hM, zero_add]
    simp
  constructor
  · rw [he]
    have := hval 0 (by norm_num) (by norm_num)
    simpa using this
  · rw [hmove 0 0 0 ⟨by simp, by norm_num, by norm_num⟩ (by norm_num) (by norm_num), he]
    have e : (1 : ℝ) * (0 - 0) - 1 * (0 - 1 / (4 * Real.pi) * (2 * Real.pi * 1 / 1)) = ((500 : ℤ) : ℝ) * (1 / 1000) := by
      push_cast; field_simp; norm_num
    rw [e, hval 500 (by norm_num) (by norm_num)]
    have e2 : I * ((2 * Real.pi * (((500 : ℤ) : ℝ) * (1 / 1000)) : ℝ) : ℂ) = Real.pi * I := by push_cast; ring
    rw [e2, Complex.exp_pi_mul_I]

/-! ### Non-vacuity -/

/-- The file of the line is accepted, its central wavelength is that of the line. -/
example : ∃ P, customLong 1 bestSlope 0 (threeColumns lineSpectrum) (1 / (4 * Real.pi)) 0 0 true 1 = .ok (P, 1) := by
  obtain ⟨_, P, _, h, _⟩ := C110_opposite_sign_violated
  exact ⟨P, h⟩

/-- The wavelengths increase, one row has an intensity. -/
example : lineSpectrum.Pairwise (fun p q => p.lam < q.lam) ∧ ∃ p ∈ lineSpectrum, 0 < p.inten := by
  refine ⟨?_, ⟨1, 1, 0⟩, by simp [lineSpectrum], one_pos⟩
  simp only [lineSpectrum, List.pairwise_cons, List.mem_cons, List.not_mem_nil, or_false, forall_eq_or_imp, forall_eq, List.Pairwise.nil]
  norm_num

/-- The profile does not vanish everywhere. -/
example : ∃ P, customLong 1 bestSlope 0 (threeColumns lineSpectrum) (1 / (4 * Real.pi)) 0 0 true 1 = .ok (P, 1) ∧ ∃ z t', P.evaluate z t' ≠ 0 := by
  obtain ⟨_, P, _, h, _, h1, _⟩ := C110_opposite_sign_violated
  exact ⟨P, h, 0, 0, by rw [h1]; exact one_ne_zero⟩

/-- Data with two rows that have an intensity. -/
example : GoodSpectrum [⟨1, 1, 0⟩, ⟨2, 3, 0⟩] ∧ ∃ s, Interpolates ([⟨1, 1, 0⟩, ⟨2, 3, 0⟩].map fun p => (frequency 1 p, p.inten * p.lam ^ 2)) s := by
  have hd : GoodSpectrum [⟨1, 1, 0⟩, ⟨2, 3, 0⟩] := ⟨by simp, by simp, by simp, by simp⟩
  exact ⟨hd, _, interp_data one_pos hd fun p => p.inten * p.lam ^ 2⟩

/-- A delay of one step of the grid. -/
example : ∃ (τ : ℝ) (m : ℤ), τ ≠ 0 ∧ (1 : ℝ) * τ = m * (1 / 1000) ∧ AtNode 1 1 0 1 0 0 0 ∧ -500000 < 0 + m ∧ 0 + m ≤ 500000 :=
  ⟨1 / 1000, 1, by norm_num, by norm_num, ⟨by simp, by norm_num, by norm_num⟩, by norm_num, by norm_num⟩

end Fbpic.CustomSpectrum
