import Verif.Props.AtomicData
import Verif.Props.Ionization
import Mathlib.Analysis.SpecialFunctions.Pow.Asymptotics
import Mathlib.MeasureTheory.Measure.Lebesgue.Basic

/-!
# C82: the ionization probability
-/

namespace Fbpic

open Spec Adk

/-! ### The field seen by the ion -/

theorem gamma_sq (q : Probe) : q.gamma ^ 2 = 1 + q.ux ^ 2 + q.uy ^ 2 + q.uz ^ 2 :=
  Real.sq_sqrt (by positivity)

theorem gamma_ge_one (q : Probe) : 1 ≤ q.gamma := by
  unfold Probe.gamma
  rw [Real.one_le_sqrt]
  nlinarith [sq_nonneg q.ux, sq_nonneg q.uy, sq_nonneg q.uz]

private theorem e2_eq_rest (q : Probe) :
    e2OnParticle q.ux q.uy q.uz q.Ex q.Ey q.Ez q.cBx q.cBy q.cBz = restField2 q := by
  have hg := gamma_sq q
  have h1 := gamma_ge_one q
  unfold e2OnParticle restField2
  change -(q.ux * q.Ex + q.uy * q.Ey + q.uz * q.Ez) ^ 2
    + (q.gamma * q.Ex + q.uy * q.cBz - q.uz * q.cBy) ^ 2
    + (q.gamma * q.Ey + q.uz * q.cBx - q.ux * q.cBz) ^ 2
    + (q.gamma * q.Ez + q.ux * q.cBy - q.uy * q.cBx) ^ 2
    = (q.gamma * q.Ex + (q.uy * q.cBz - q.uz * q.cBy)
        - q.ux * ((q.ux * q.Ex + q.uy * q.Ey + q.uz * q.Ez) / (1 + q.gamma))) ^ 2
      + (q.gamma * q.Ey + (q.uz * q.cBx - q.ux * q.cBz)
        - q.uy * ((q.ux * q.Ex + q.uy * q.Ey + q.uz * q.Ez) / (1 + q.gamma))) ^ 2
      + (q.gamma * q.Ez + (q.ux * q.cBy - q.uy * q.cBx)
        - q.uz * ((q.ux * q.Ex + q.uy * q.Ey + q.uz * q.Ez) / (1 + q.gamma))) ^ 2
  obtain ⟨k, hk⟩ : ∃ k, k = (q.ux * q.Ex + q.uy * q.Ey + q.uz * q.Ez) / (1 + q.gamma) := ⟨_, rfl⟩
  have hk' : k * (1 + q.gamma) = q.ux * q.Ex + q.uy * q.Ey + q.uz * q.Ez := by
    rw [hk, div_mul_cancel₀]; linarith
  rw [← hk, ← hk']
  linear_combination (-2 * q.gamma * k) * hk' + k ^ 2 * hg

/-- **C82** (field). The field amplitude that enters the ionization rate is the amplitude of the electric
field in the rest frame of the ion; the argument of the square root is never negative. -/
theorem C82_field (q : Probe) :
    e2OnParticle q.ux q.uy q.uz q.Ex q.Ey q.Ez q.cBx q.cBy q.cBz = restField2 q ∧
    0 ≤ restField2 q ∧ q.E = √(restField2 q) :=
  ⟨e2_eq_rest q, by unfold restField2; positivity, by unfold Probe.E; rw [e2_eq_rest]⟩

/-- For an ion at rest it is the amplitude of `E`, whatever `B`. -/
example (Ex Ey Ez cBx cBy cBz : ℝ) :
    restField2 ⟨0, 0, 0, Ex, Ey, Ez, cBx, cBy, cBz⟩ = Ex ^ 2 + Ey ^ 2 + Ez ^ 2 := by
  simp [restField2]

private theorem boosted_gamma {g b : ℝ} (hg : 1 ≤ g) (hb : g ^ 2 * (1 - b ^ 2) = 1) (q : Probe) :
    (boosted g b q).gamma = g * (q.gamma - b * q.uz) := by
  have h2 := gamma_sq q
  have h1 := gamma_ge_one q
  have hb1 : b ^ 2 < 1 := by
    by_contra h
    push Not at h
    nlinarith [sq_nonneg g]
  have hnn : 0 ≤ q.gamma - b * q.uz := by
    have : (b * q.uz) ^ 2 ≤ q.gamma ^ 2 := by
      rw [h2, mul_pow]
      nlinarith [sq_nonneg q.ux, sq_nonneg q.uy, sq_nonneg q.uz]
    have := abs_le.1 (abs_le_of_sq_le_sq this (by linarith))
    linarith [this.2]
  change √(1 + (boosted g b q).ux ^ 2 + (boosted g b q).uy ^ 2 + (boosted g b q).uz ^ 2) = _
  rw [Real.sqrt_eq_iff_mul_self_eq (by positivity) (mul_nonneg (by linarith) hnn)]
  change 1 + q.ux ^ 2 + q.uy ^ 2 + (g * (q.uz - b * q.gamma)) ^ 2
    = g * (q.gamma - b * q.uz) * (g * (q.gamma - b * q.uz))
  linear_combination -(g ^ 2 * (1 - b ^ 2)) * h2 - (1 + q.ux ^ 2 + q.uy ^ 2) * hb

private theorem boosted_E {g b : ℝ} (hg : 1 ≤ g) (hb : g ^ 2 * (1 - b ^ 2) = 1) (q : Probe) :
    (boosted g b q).E = q.E := by
  have h2 := gamma_sq q
  have hG := boosted_gamma hg hb q
  unfold Probe.E
  congr 1
  unfold e2OnParticle
  change -((boosted g b q).ux * (boosted g b q).Ex + (boosted g b q).uy * (boosted g b q).Ey
      + (boosted g b q).uz * (boosted g b q).Ez) ^ 2
    + ((boosted g b q).gamma * (boosted g b q).Ex + (boosted g b q).uy * (boosted g b q).cBz
        - (boosted g b q).uz * (boosted g b q).cBy) ^ 2
    + ((boosted g b q).gamma * (boosted g b q).Ey + (boosted g b q).uz * (boosted g b q).cBx
        - (boosted g b q).ux * (boosted g b q).cBz) ^ 2
    + ((boosted g b q).gamma * (boosted g b q).Ez + (boosted g b q).ux * (boosted g b q).cBy
        - (boosted g b q).uy * (boosted g b q).cBx) ^ 2
    = -(q.ux * q.Ex + q.uy * q.Ey + q.uz * q.Ez) ^ 2
    + (q.gamma * q.Ex + q.uy * q.cBz - q.uz * q.cBy) ^ 2
    + (q.gamma * q.Ey + q.uz * q.cBx - q.ux * q.cBz) ^ 2
    + (q.gamma * q.Ez + q.ux * q.cBy - q.uy * q.cBx) ^ 2
  rw [hG]
  change -(q.ux * (g * (q.Ex - b * q.cBy)) + q.uy * (g * (q.Ey + b * q.cBx))
      + (g * (q.uz - b * q.gamma)) * q.Ez) ^ 2
    + (g * (q.gamma - b * q.uz) * (g * (q.Ex - b * q.cBy)) + q.uy * q.cBz
        - (g * (q.uz - b * q.gamma)) * (g * (q.cBy - b * q.Ex))) ^ 2
    + (g * (q.gamma - b * q.uz) * (g * (q.Ey + b * q.cBx))
        + (g * (q.uz - b * q.gamma)) * (g * (q.cBx + b * q.Ey)) - q.ux * q.cBz) ^ 2
    + (g * (q.gamma - b * q.uz) * q.Ez + q.ux * (g * (q.cBy - b * q.Ex))
        - q.uy * (g * (q.cBx + b * q.Ey))) ^ 2 = _
  have e1 : g * (q.gamma - b * q.uz) * (g * (q.Ex - b * q.cBy)) + q.uy * q.cBz
      - (g * (q.uz - b * q.gamma)) * (g * (q.cBy - b * q.Ex))
      = q.gamma * q.Ex + q.uy * q.cBz - q.uz * q.cBy := by
    linear_combination (q.gamma * q.Ex - q.uz * q.cBy) * hb
  have e2 : g * (q.gamma - b * q.uz) * (g * (q.Ey + b * q.cBx))
      + (g * (q.uz - b * q.gamma)) * (g * (q.cBx + b * q.Ey)) - q.ux * q.cBz
      = q.gamma * q.Ey + q.uz * q.cBx - q.ux * q.cBz := by
    linear_combination (q.gamma * q.Ey + q.uz * q.cBx) * hb
  rw [e1, e2]
  have e3 : -(q.ux * (g * (q.Ex - b * q.cBy)) + q.uy * (g * (q.Ey + b * q.cBx))
      + (g * (q.uz - b * q.gamma)) * q.Ez) ^ 2
      + (g * (q.gamma - b * q.uz) * q.Ez + q.ux * (g * (q.cBy - b * q.Ex))
        - q.uy * (g * (q.cBx + b * q.Ey))) ^ 2
      = -(q.ux * q.Ex + q.uy * q.Ey + q.uz * q.Ez) ^ 2
        + (q.gamma * q.Ez + q.ux * q.cBy - q.uy * q.cBx) ^ 2 := by
    linear_combination (-(q.ux * q.Ex + q.uy * q.Ey + q.uz * q.Ez) ^ 2
        + (q.gamma * q.Ez + q.ux * q.cBy - q.uy * q.cBx) ^ 2) * hb
  linear_combination e3

/-! ### The rate -/

/-- All constants are positive. -/
structure Spec.AtomicUnits.Pos (a : AtomicUnits) : Prop where
  hbar : 0 < a.hbar
  alpha : 0 < a.alpha
  me : 0 < a.me
  c : 0 < a.c
  e : 0 < a.e

private theorem wa_eq {a : AtomicUnits} (ha : a.Pos) : a.consts.wa = a.freq := by
  have := ha.hbar; have := ha.alpha; have := ha.me; have := ha.c; have := ha.e
  unfold Consts.wa AtomicUnits.freq AtomicUnits.consts
  field_simp

private theorem Ea_eq {a : AtomicUnits} (ha : a.Pos) : a.consts.Ea = a.field := by
  have := ha.hbar; have := ha.alpha; have := ha.me; have := ha.c; have := ha.e
  unfold Consts.Ea AtomicUnits.field AtomicUnits.consts
  field_simp

private theorem field_pos {a : AtomicUnits} (ha : a.Pos) : 0 < a.field := by
  have := ha.hbar; have := ha.alpha; have := ha.me; have := ha.c; have := ha.e
  unfold AtomicUnits.field
  positivity

private theorem freq_pos {a : AtomicUnits} (ha : a.Pos) : 0 < a.freq := by
  have := ha.hbar; have := ha.alpha; have := ha.me; have := ha.c; have := ha.e
  unfold AtomicUnits.freq
  positivity

private theorem probability_rate {a : AtomicUnits} (ha : a.Pos) {UH U0 U E : ℝ} (dt : ℝ) (i : ℕ)
    (hH : 0 < UH) (hU : 0 < U) (hE : 0 ≤ E) (γ : ℝ) :
    probability E γ (prefactor a.consts dt UH U (nEff UH U i) (nEff UH U0 0 - 1))
      (power (nEff UH U i)) (expPrefactor a.consts UH U)
      = 1 - Real.exp (-(adkRate a UH U0 U (i + 1) E * (dt / γ))) := by
  unfold probability adkRate
  by_cases h0 : E = 0
  · simp [h0]
  have hE : 0 < E := lt_of_le_of_ne hE (Ne.symm h0)
  rw [if_neg h0, if_neg h0]
  have hl : nEff UH U0 0 - 1 = √(UH / U0) - 1 := by simp [nEff]
  have hn : nEff UH U i = (i + 1) * √(UH / U) := rfl
  rw [hl]
  simp only [hn]
  generalize ((i : ℝ) + 1) * √(UH / U) = n
  generalize √(UH / U0) - 1 = l
  unfold prefactor power expPrefactor c2
  rw [wa_eq ha, Ea_eq ha]
  have hF := field_pos ha
  have hx : 0 < (U / UH) ^ (3 / 2 : ℝ) := Real.rpow_pos_of_pos (by positivity) _
  generalize (U / UH) ^ (3 / 2 : ℝ) = x at hx ⊢
  have e1 : (2 * (x * a.field / E)) ^ (2 * n - 1) = (2 * x * a.field) ^ (2 * n - 1) * E ^ (-(2 * n - 1)) := by
    rw [Real.rpow_neg hE.le, ← Real.inv_rpow hE.le, ← Real.mul_rpow (by positivity) (by positivity)]
    congr 1
    field_simp
  have e2 : -2 / 3 * x * a.field / E = -(2 / 3) * (x * a.field / E) := by ring
  rw [e1, e2]
  congr 3
  ring

/-- The gamma functions of the formula have positive arguments. -/
private theorem n_sub_l_pos {UH U0 U : ℝ} {z : ℝ} (hz : 0 < z) (hH : 0 < UH) (h0 : 0 < U0)
    (hU : 0 < U) (h : UH / U0 < z ^ 2 * (UH / U) + 1 + 2 * min (z ^ 2 * (UH / U)) 1) :
    0 < z * √(UH / U) - (√(UH / U0) - 1) := by
  obtain ⟨s, hs⟩ : ∃ s, s = z * √(UH / U) := ⟨_, rfl⟩
  have hs0 : 0 < s := by rw [hs]; positivity
  have hs2 : s ^ 2 = z ^ 2 * (UH / U) := by rw [hs, mul_pow, Real.sq_sqrt (by positivity)]
  rw [← hs2] at h
  rw [← hs]
  have hm : min (s ^ 2) 1 ≤ s := by
    by_cases h1 : s ≤ 1
    · exact (min_le_left _ _).trans (by nlinarith)
    · exact (min_le_right _ _).trans (by linarith)
  have : √(UH / U0) < s + 1 := by
    rw [Real.sqrt_lt' (by linarith)]
    nlinarith
  linarith

private theorem adkRate_pos {a : AtomicUnits} (ha : a.Pos) {UH U0 U z E : ℝ} (hz : 0 < z)
    (hH : 0 < UH) (h0 : 0 < U0) (hU : 0 < U)
    (h : UH / U0 < z ^ 2 * (UH / U) + 1 + 2 * min (z ^ 2 * (UH / U)) 1) (hE : 0 < E) :
    0 < adkRate a UH U0 U z E := by
  have hn := n_sub_l_pos hz hH h0 hU h
  unfold adkRate
  rw [if_neg hE.ne']
  have hs : 0 < z * √(UH / U) := by positivity
  have h0 : 0 < √(UH / U0) := by positivity
  have hF := field_pos ha
  have hw := freq_pos ha
  have g1 : 0 < Real.Gamma (z * √(UH / U) + (√(UH / U0) - 1) + 1) :=
    Real.Gamma_pos_of_pos (by linarith)
  have g2 := Real.Gamma_pos_of_pos hn
  have hx : 0 < (U / UH) ^ (3 / 2 : ℝ) := Real.rpow_pos_of_pos (by positivity) _
  have h2 : (0 : ℝ) < 2 ^ (2 * (z * √(UH / U))) := Real.rpow_pos_of_pos (by norm_num) _
  have h3 : 0 < (2 * ((U / UH) ^ (3 / 2 : ℝ) * a.field / E)) ^ (2 * (z * √(UH / U)) - 1) :=
    Real.rpow_pos_of_pos (by positivity) _
  positivity

/-- Rate of ionization of an ion of `element` found at `level`, in its rest frame, according to the
table of energies `ev` (eV). -/
noncomputable def Spec.rateOf (a : AtomicUnits) (ev : List ℚ) (level : ℕ) (E : ℝ) : ℝ :=
  adkRate a (a.e * (uH : ℝ)) (a.e * ((ev[0]?.getD 0 : ℚ) : ℝ)) (a.e * ((ev[level]?.getD 0 : ℚ) : ℝ))
    (level + 1) E

/-- **C82** (construction). The ionizer can be built exactly for the shipped elements and for a maximal
level (if one is given) that does not exceed the number of electrons of the element; otherwise a
`ValueError` is raised. -/
theorem C82_init (a : AtomicUnits) (cache : Cache) (hc : CacheOk cache) (element : String) (dt : ℝ)
    (levelMax : Option ℕ) :
    (element ∈ elements → ∃ ev, readEnergies atomicData element = .ok (some ev) ∧
      EnergiesOf atomicData element ev ∧
      (levelMax.getD ev.length ≤ ev.length → ∃ A cache', CacheOk cache' ∧
        initAdk a.consts atomicData cache element dt levelMax = .ok (A, cache') ∧
        A.levelMax = levelMax.getD ev.length ∧ A.power.length = ev.length ∧
        A.prefactor.length = ev.length ∧ A.expPrefactor.length = ev.length) ∧
      (ev.length < levelMax.getD ev.length → ∃ msg,
        initAdk a.consts atomicData cache element dt levelMax = .error (.valueError msg))) ∧
    (element ∉ elements → ∃ msg,
      initAdk a.consts atomicData cache element dt levelMax = .error (.valueError msg)) := by
  obtain ⟨v, c1, h1, h2, h3⟩ := getEnergies_ok hc element
  refine ⟨fun hel => ?_, fun hel => ?_⟩
  · obtain ⟨ev, he1, he2, -⟩ := energies_of_mem hel
    rw [he1] at h2
    cases h2
    refine ⟨ev, he1, he2, fun hl => ?_, fun hl => ?_⟩
    · obtain ⟨v', c2, k1, k2, k3⟩ := getEnergies_ok h3 "H"
      rw [energies_H] at k2
      cases k2
      refine ⟨tables a.consts dt (a.e * (uH : ℝ)) (ev.map fun u : ℚ => a.e * (u : ℝ))
        (levelMax.getD ev.length), c2, k3, ?_, ?_, ?_, ?_, ?_⟩
      · unfold initAdk
        rw [h1]
        simp only
        rw [if_neg (by omega), k1]
        rfl
      all_goals simp [tables]
    · unfold initAdk
      rw [h1]
      simp only
      rw [if_pos hl]
      exact ⟨_, rfl⟩
  · rw [energies_of_not_mem hel] at h2
    cases h2
    unfold initAdk
    rw [h1]
    exact ⟨_, rfl⟩

private theorem initAdk_inv {a : AtomicUnits} {cache cache' : Cache} (hc : CacheOk cache)
    {element : String} {dt : ℝ} {levelMax : Option ℕ} {A : Params}
    (h : initAdk a.consts atomicData cache element dt levelMax = .ok (A, cache')) :
    ∃ ev, element ∈ elements ∧ readEnergies atomicData element = .ok (some ev) ∧
      levelMax.getD ev.length ≤ ev.length ∧
      A = tables a.consts dt (a.e * (uH : ℝ)) (ev.map fun u : ℚ => a.e * (u : ℝ))
        (levelMax.getD ev.length) := by
  by_cases hel : element ∈ elements
  · obtain ⟨v, c1, h1, h2, h3⟩ := getEnergies_ok hc element
    obtain ⟨ev, he1, he2, -⟩ := energies_of_mem hel
    rw [he1] at h2
    cases h2
    obtain ⟨v', c2, k1, k2, k3⟩ := getEnergies_ok h3 "H"
    rw [energies_H] at k2
    cases k2
    unfold initAdk at h
    rw [h1] at h
    simp only at h
    by_cases hl : levelMax.getD ev.length > ev.length
    · rw [if_pos hl] at h; cases h
    · rw [if_neg hl, k1] at h
      cases h
      exact ⟨ev, hel, he1, by omega, rfl⟩
  · obtain ⟨msg, hm⟩ := (C82_init a cache hc element dt levelMax).2 hel
    rw [hm] at h
    cases h

/-- **C82** (rate). For every shipped element, every level below the number of its electrons, every
momentum and every field, the probability computed for one time step is
`1 - exp(- W Δτ)`, where `W` is the published ADK rate for the energy listed in the table and the
field in the rest frame of the ion and `Δτ = dt/γ` the proper time elapsed; no access beyond the end
of the arrays. -/
theorem C82_rate (a : AtomicUnits) (ha : a.Pos) (cache cache' : Cache) (hc : CacheOk cache)
    (element : String) (dt : ℝ) (levelMax : Option ℕ) (A : Params)
    (h : initAdk a.consts atomicData cache element dt levelMax = .ok (A, cache')) :
    ∃ ev, readEnergies atomicData element = .ok (some ev) ∧ A.levelMax ≤ ev.length ∧
      ∀ level < ev.length, ∀ q : Probe, ionProb A q level
        = some (1 - Real.exp (-(rateOf a ev level (√(restField2 q)) * (dt / q.gamma)))) := by
  obtain ⟨ev, hel, he, hl, rfl⟩ := initAdk_inv hc h
  obtain ⟨ev', he', hE, hg⟩ := energies_of_mem hel
  rw [he] at he'
  cases he'
  refine ⟨ev, he, hl, fun level hlev q => ?_⟩
  obtain ⟨-, hnn, hqE⟩ := C82_field q
  have hpos : 0 < (ev[level] : ℝ) := by exact_mod_cast hE.pos _ (List.getElem_mem hlev)
  have hUH : (0 : ℝ) < a.e * (uH : ℝ) := mul_pos ha.e (by norm_num [uH])
  have hhead : ((ev.map fun u : ℚ => a.e * (u : ℝ)).headD 0) = a.e * ((ev[0]?.getD 0 : ℚ) : ℝ) := by
    cases ev with
    | nil => cases hlev
    | cons x l => rfl
  have := probability_rate ha (U0 := a.e * ((ev[0]?.getD 0 : ℚ) : ℝ)) dt level hUH
    (mul_pos ha.e hpos) (Real.sqrt_nonneg (restField2 q)) q.gamma
  have hx : (ev[level]?.getD 0 : ℚ) = ev[level] := by rw [List.getElem?_eq_getElem hlev]; rfl
  unfold rateOf
  rw [hx, ← this, ← hqE]
  simp only [ionProb, tables, List.getElem?_mapIdx, List.getElem?_map,
    List.getElem?_eq_getElem hlev, hhead, Option.map_some, Option.bind_eq_bind, Option.bind_some,
    Option.pure_def]

/-- **C82** (range). The rate is positive whenever the field in the rest frame does not vanish: so the
probability is at least 0 and less than 1, is 0 exactly without field (for a positive time step). -/
theorem C82_range (a : AtomicUnits) (ha : a.Pos) (cache cache' : Cache) (hc : CacheOk cache)
    (element : String) (dt : ℝ) (hdt : 0 < dt) (levelMax : Option ℕ) (A : Params)
    (h : initAdk a.consts atomicData cache element dt levelMax = .ok (A, cache'))
    (level : ℕ) (hlev : level < A.levelMax) (q : Probe) :
    ∃ p, ionProb A q level = some p ∧ 0 ≤ p ∧ p < 1 ∧ (p = 0 ↔ restField2 q = 0) := by
  obtain ⟨ev, he, hl, hp⟩ := C82_rate a ha cache cache' hc element dt levelMax A h
  obtain ⟨ev1, hel, he1, -, -⟩ := initAdk_inv hc h
  rw [he] at he1
  cases he1
  obtain ⟨ev', he', hE, hg⟩ := energies_of_mem hel
  rw [he] at he'
  cases he'
  have hlev : level < ev.length := by omega
  refine ⟨_, hp level hlev q, ?_⟩
  obtain ⟨-, hnn, hqE⟩ := C82_field q
  have hγ : 0 < dt / q.gamma := div_pos hdt (by linarith [gamma_ge_one q])
  have hR : (restField2 q = 0 ∧ rateOf a ev level (√(restField2 q)) = 0) ∨
      (restField2 q ≠ 0 ∧ 0 < rateOf a ev level (√(restField2 q))) := by
    by_cases h0 : restField2 q = 0
    · left
      refine ⟨h0, ?_⟩
      rw [h0, Real.sqrt_zero]
      simp [rateOf, adkRate]
    · right
      refine ⟨h0, ?_⟩
      have h0' : 0 < restField2 q := lt_of_le_of_ne hnn (Ne.symm h0)
      have hx : (ev[level]?.getD 0 : ℚ) = ev[level] := by
        rw [List.getElem?_eq_getElem hlev]; rfl
      have h0l : 0 < ev.length := by omega
      have hx0 : (ev[0]?.getD 0 : ℚ) = ev[0] := by rw [List.getElem?_eq_getElem h0l]; rfl
      have hhd : ev.headD 0 = ev[0] := by
        cases ev with
        | nil => cases hlev
        | cons x l => rfl
      have hpos : (0 : ℝ) < ev[level] := by exact_mod_cast hE.pos _ (List.getElem_mem hlev)
      have hpos0 : (0 : ℝ) < ev[0] := by exact_mod_cast hE.pos _ (List.getElem_mem h0l)
      unfold rateOf
      rw [hx, hx0]
      have he := ha.e
      refine adkRate_pos ha (by positivity) (mul_pos ha.e (by norm_num [uH])) (by positivity)
        (by positivity) ?_ (Real.sqrt_pos.2 h0')
      rw [mul_div_mul_left _ _ he.ne', mul_div_mul_left _ _ he.ne']
      have := hg level hlev
      rw [hhd] at this
      exact_mod_cast this
  rcases hR with ⟨h0, hr⟩ | ⟨h0, hr⟩
  · rw [hr]
    simp [h0]
  · have : Real.exp (-(rateOf a ev level (√(restField2 q)) * (dt / q.gamma))) < 1 := by
      rw [Real.exp_lt_one_iff]
      have := mul_pos hr hγ
      linarith
    have h2 := Real.exp_pos (-(rateOf a ev level (√(restField2 q)) * (dt / q.gamma)))
    refine ⟨by linarith, by linarith, ?_⟩
    constructor
    · intro h; linarith
    · intro h; exact absurd h h0

/-- **C82** (frame). The same ion, seen from a frame that moves along `z`, is ionized with the same
probability during the same interval of its proper time. -/
theorem C82_frame (a : AtomicUnits) (ha : a.Pos) (cache c1 c2 : Cache) (hc : CacheOk cache)
    (element : String) (dt dt' : ℝ) (levelMax : Option ℕ) (A A' : Params)
    (h : initAdk a.consts atomicData cache element dt levelMax = .ok (A, c1))
    (h' : initAdk a.consts atomicData cache element dt' levelMax = .ok (A', c2))
    (g b : ℝ) (hg : 1 ≤ g) (hb : g ^ 2 * (1 - b ^ 2) = 1) (q : Probe)
    (htau : dt' / (boosted g b q).gamma = dt / q.gamma) (level : ℕ) (hlev : level < A.levelMax) :
    ionProb A' (boosted g b q) level = ionProb A q level := by
  obtain ⟨ev, he, hl, hp⟩ := C82_rate a ha cache c1 hc element dt levelMax A h
  obtain ⟨ev', he', -, hp'⟩ := C82_rate a ha cache c2 hc element dt' levelMax A' h'
  rw [he] at he'
  cases he'
  rw [hp' level (by omega), hp level (by omega), htau, ← (C82_field q).2.2,
    ← (C82_field (boosted g b q)).2.2, boosted_E hg hb]

/-- A case with a moving frame: velocity 3/5, ion at rest in the laboratory. -/
example : (1 : ℝ) ≤ 5 / 4 ∧ ((5 : ℝ) / 4) ^ 2 * (1 - (3 / 5) ^ 2) = 1 := by norm_num

/-- **C82** (hydrogen). For hydrogen the rate is the textbook one,
`4 ω_a (E_a/E) exp(-2 E_a / (3 E))`. -/
theorem C82_hydrogen (a : AtomicUnits) (ha : a.Pos) (E : ℝ) (hE : 0 < E) :
    readEnergies atomicData "H" = .ok (some [uH]) ∧
    rateOf a [uH] 0 E = 4 * a.freq * (a.field / E) * Real.exp (-(2 * a.field) / (3 * E)) := by
  refine ⟨energies_H, ?_⟩
  have h1 : (0 : ℝ) < a.e * (uH : ℝ) := mul_pos ha.e (by norm_num [uH])
  have hF := field_pos ha
  simp only [rateOf, adkRate, if_neg hE.ne', List.getElem?_cons_zero, Option.getD_some,
    div_self h1.ne', Real.sqrt_one, Nat.cast_zero, zero_add, one_mul, sub_self, add_zero, sub_zero,
    mul_one, Real.one_rpow]
  have g2 : Real.Gamma (1 + 1) = 1 := by
    rw [Real.Gamma_add_one one_ne_zero, Real.Gamma_one, mul_one]
  rw [g2, Real.Gamma_one,
    show (2 : ℝ) - 1 = 1 by norm_num, Real.rpow_one, Real.rpow_two]
  have : -(2 / 3) * (a.field / E) = -(2 * a.field) / (3 * E) := by field_simp
  have h3 : a.e * (uH : ℝ) / (2 * (a.e * (uH : ℝ))) = 1 / 2 := by
    generalize a.e * (uH : ℝ) = t at h1 ⊢
    field_simp
  rw [this, h3]
  ring

/-- **C82** (weak fields). The probability has no jump at the special case `E == 0` of the code: the rate
tends to 0 with the field. -/
theorem C82_weak_field (a : AtomicUnits) (ha : a.Pos) {UH U0 U z : ℝ} (hH : 0 < UH) (hU : 0 < U) :
    Filter.Tendsto (adkRate a UH U0 U z) (nhdsWithin 0 (Set.Ioi 0)) (nhds 0) := by
  obtain ⟨n, hn⟩ : ∃ n, n = z * √(UH / U) := ⟨_, rfl⟩
  obtain ⟨l, hl⟩ : ∃ l, l = √(UH / U0) - 1 := ⟨_, rfl⟩
  have hF := field_pos ha
  have hx : 0 < (U / UH) ^ (3 / 2 : ℝ) := Real.rpow_pos_of_pos (by positivity) _
  obtain ⟨x, hxx⟩ : ∃ x, x = (U / UH) ^ (3 / 2 : ℝ) * a.field := ⟨_, rfl⟩
  have hx0 : 0 < x := by rw [hxx]; positivity
  obtain ⟨C, hC⟩ : ∃ C, C = a.freq * ((2 : ℝ) ^ (2 * n) / (n * Real.Gamma (n + l + 1)
    * Real.Gamma (n - l))) * (U / (2 * UH)) := ⟨_, rfl⟩
  have key : Filter.Tendsto (fun E : ℝ => C * (2 * x) ^ (2 * n - 1)
      * ((E⁻¹) ^ (2 * n - 1) * Real.exp (-(2 / 3 * x) * E⁻¹))) (nhdsWithin 0 (Set.Ioi 0)) (nhds 0) := by
    have h1 := tendsto_rpow_mul_exp_neg_mul_atTop_nhds_zero (2 * n - 1) (2 / 3 * x) (by positivity)
    have h2 := (h1.comp tendsto_inv_nhdsGT_zero).const_mul (C * (2 * x) ^ (2 * n - 1))
    simpa using h2
  refine key.congr' ?_
  filter_upwards [self_mem_nhdsWithin] with E hE
  have hE : 0 < E := hE
  unfold adkRate
  rw [if_neg hE.ne']
  simp only [← hn, ← hl, ← hxx, ← hC]
  have e1 : (2 * (x / E)) ^ (2 * n - 1) = (2 * x) ^ (2 * n - 1) * (E⁻¹) ^ (2 * n - 1) := by
    rw [← Real.mul_rpow (by positivity) (by positivity)]
    congr 1
    field_simp
  rw [e1, show -(2 / 3) * (x / E) = -(2 / 3 * x) * E⁻¹ by field_simp]
  ring

/-! ### Survival over many steps -/

variable {Kw Av : Type} [Field Kw]

private theorem ionStep_level (P : IonParams) (hb : 0 < P.batchSize)
    (hstore : P.storePerLevel → P.levelStart ≤ P.levelMax) (x y : Ions Kw Av × List (Elecs Kw Av))
    (hx : IonInv P x) (st : IonStep Kw Av) (h : ionStep P x st = .ok y) (ip : ℕ) (hip : ip < x.1.Ntot)
    (hl : x.1.level ip < P.levelMax) :
    y.1.level ip = if st.dec ip (x.1.level ip) then x.1.level ip + 1 else x.1.level ip := by
  obtain ⟨ion', tar', h1, -, -, -, h5, -⟩ :=
    C17_refines P hb hstore x.1 x.2 hx.tar hx.low st.dec st.junk
  unfold ionStep at h
  rw [h1] at h
  cases h
  change ion'.level ip = _
  rw [h5 ip]
  simp [fires, hip, hl]

private theorem ionRun_level (P : IonParams) (hb : 0 < P.batchSize)
    (hstore : P.storePerLevel → P.levelStart ≤ P.levelMax) (ip L : ℕ) (hL : L < P.levelMax) :
    ∀ (sts : List (IonStep Kw Av)) (x y : Ions Kw Av × List (Elecs Kw Av)), IonInv P x →
      ip < x.1.Ntot → x.1.level ip = L → ionRun P x sts = .ok y →
      (y.1.level ip = L ↔ ∀ st ∈ sts, st.dec ip L = false) := by
  intro sts
  induction sts with
  | nil =>
    intro x y hx hip hl h
    cases h
    simpa using hl
  | cons st sts ih =>
    intro x y hx hip hl h
    obtain ⟨z, hz, rz⟩ := ionStep_rel P hb hstore x hx st
    obtain ⟨y', hy, ry⟩ := ionRun_rel P hb hstore sts z rz.inv
    unfold ionRun at h
    rw [hz] at h
    change ionRun P z sts = _ at h
    rw [h] at hy
    cases hy
    have hzl := ionStep_level P hb hstore x z hx st hz ip hip (hl ▸ hL)
    rw [hl] at hzl
    cases hd : st.dec ip L with
    | true =>
      rw [hd, if_pos rfl] at hzl
      have := ry.mono ip
      simp only [List.mem_cons, forall_eq_or_imp, hd]
      constructor
      · intro h; omega
      · rintro ⟨h, -⟩; cases h
    | false =>
      rw [hd] at hzl
      have := ih z y rz.inv (rz.ntot ▸ hip) (by simpa using hzl) h
      rw [this]
      simp [hd]

/-- The draws of one time step: those of the other ions are `d`, that of ion `ip` is `r`. -/
noncomputable def adkStep (A : Params) (q : ℕ → Probe) (d : ℕ → ℝ) (ip : ℕ) (r : ℝ)
    (rest : IonStep Kw Av) : IonStep Kw Av :=
  { rest with dec := ionDecide A q (Function.update d ip r) }

/-- **C82** (survival). Over any number of time steps, with any momenta and fields seen by the ion at
these steps, whatever the draws of the other ions: if the draws of an ion are
independent and uniform in `[0, 1)`, the probability that it is still at its initial level at the end is
`exp(- ∑ W Δτ)`: only the integral of the ADK rate over the proper time enters, not the number of
steps. -/
theorem C82_survival (a : AtomicUnits) (ha : a.Pos) (cache cache' : Cache) (hc : CacheOk cache)
    (element : String) (dt : ℝ) (hdt : 0 < dt) (levelMax : Option ℕ) (A : Params)
    (h : initAdk a.consts atomicData cache element dt levelMax = .ok (A, cache'))
    (P : IonParams) (hb : 0 < P.batchSize) (hPA : P.levelMax = A.levelMax)
    (hs : P.levelStart < P.levelMax) (N : ℕ) (attr : ℕ → Av) (w : ℕ → Kw) (tar : List (Elecs Kw Av))
    (htar : tar.length = P.nLevels) (ip : ℕ) (hip : ip < N) (n : ℕ) (q : Fin n → ℕ → Probe)
    (d : Fin n → ℕ → ℝ) (rest : Fin n → IonStep Kw Av) :
    ∃ ev, readEnergies atomicData element = .ok (some ev) ∧
    MeasureTheory.volume {r : Fin n → ℝ | (∀ k, 0 ≤ r k ∧ r k < 1) ∧
      ∃ y, ionRun P (mkIons P N attr w, tar)
        (List.ofFn fun k => adkStep A (q k) (d k) ip (r k) (rest k)) = .ok y ∧
        y.1.level ip = P.levelStart}
    = ENNReal.ofReal (Real.exp (-∑ k, rateOf a ev P.levelStart (√(restField2 (q k ip)))
        * (dt / (q k ip).gamma))) := by
  obtain ⟨ev, he, hl, hp⟩ := C82_rate a ha cache cache' hc element dt levelMax A h
  refine ⟨ev, he, ?_⟩
  have hlev : P.levelStart < ev.length := by omega
  obtain ⟨p, hpd⟩ : ∃ p : Fin n → ℝ, ∀ k, p k = 1 - Real.exp (-(rateOf a ev P.levelStart
    (√(restField2 (q k ip))) * (dt / (q k ip).gamma))) := ⟨fun k => _, fun k => rfl⟩
  have hion : ∀ k, ionProb A (q k ip) P.levelStart = some (p k) := fun k => by
    rw [hp _ hlev, hpd]
  have hp0 : ∀ k, 0 ≤ p k ∧ p k < 1 := by
    intro k
    obtain ⟨p', h1, h2, h3, -⟩ := C82_range a ha cache cache' hc element dt hdt levelMax A h
      P.levelStart (by omega) (q k ip)
    rw [hion k] at h1
    cases h1
    exact ⟨h2, h3⟩
  have hset : {r : Fin n → ℝ | (∀ k, 0 ≤ r k ∧ r k < 1) ∧
      ∃ y, ionRun P (mkIons P N attr w, tar)
        (List.ofFn fun k => adkStep A (q k) (d k) ip (r k) (rest k)) = .ok y ∧
        y.1.level ip = P.levelStart} = Set.pi Set.univ fun k => Set.Ico (p k) 1 := by
    ext r
    have hinv := ionInv_start P hs.le N attr w tar htar
    obtain ⟨y, hy, -⟩ := ionRun_rel P hb (fun _ => hs.le)
      (List.ofFn fun k => adkStep A (q k) (d k) ip (r k) (rest k)) _ hinv
    have hiff := ionRun_level P hb (fun _ => hs.le) ip P.levelStart hs _ _ y hinv hip rfl hy
    have hdec : ∀ k, (adkStep A (q k) (d k) ip (r k) (rest k)).dec ip P.levelStart = false
        ↔ p k ≤ r k := by
      intro k
      change ionDecide A (q k) (Function.update (d k) ip (r k)) ip P.levelStart = false ↔ _
      unfold ionDecide
      rw [hion k]
      simp
    have hiff' : y.1.level ip = P.levelStart ↔ ∀ k, p k ≤ r k := by
      rw [hiff]
      constructor
      · intro hh k
        exact (hdec k).1 (hh _ (List.mem_ofFn.2 ⟨k, rfl⟩))
      · intro hh st hst
        obtain ⟨k, rfl⟩ := List.mem_ofFn.1 hst
        exact (hdec k).2 (hh k)
    simp only [Set.mem_setOf_eq, Set.mem_pi, Set.mem_univ, Set.mem_Ico, forall_const]
    constructor
    · rintro ⟨h1, y', hy', h2⟩ k
      rw [hy] at hy'
      cases hy'
      exact ⟨hiff'.1 h2 k, (h1 k).2⟩
    · intro hh
      exact ⟨fun k => ⟨(hp0 k).1.trans (hh k).1, (hh k).2⟩, y, hy, hiff'.2 fun k => (hh k).1⟩
  rw [hset, Real.volume_pi_Ico]
  rw [← ENNReal.ofReal_prod_of_nonneg (fun k _ => by linarith [(hp0 k).2])]
  congr 1
  rw [← Finset.sum_neg_distrib, Real.exp_sum]
  refine Finset.prod_congr rfl fun k _ => ?_
  rw [hpd k]
  ring

/-- The hypotheses on the ionizer can be met: nitrogen from level 5 to level 7. -/
example (a : AtomicUnits) (dt : ℝ) : ∃ A cache',
    initAdk a.consts atomicData (fun _ => none) "N" dt none = .ok (A, cache') ∧ A.levelMax = 7 := by
  obtain ⟨ev, h1, -, h3, -⟩ := (C82_init a (fun _ => none) (fun s v h => by cases h) "N" dt none).1
    (by decide)
  have : ev.length = 7 := by
    have h : readEnergies atomicData "N" = .ok (some
      [14.534130, 29.601250, 47.4453, 77.47350, 97.89013, 552.067310, 667.046090]) := by
      decide +kernel
    rw [h] at h1
    cases h1
    rfl
  obtain ⟨A, c', -, h4, h5, -⟩ := h3 le_rfl
  exact ⟨A, c', h4, by rw [h5]; exact this⟩

end Fbpic
