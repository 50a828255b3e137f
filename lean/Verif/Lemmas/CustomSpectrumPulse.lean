import Verif.Lemmas.CustomSpectrumTime

/-!
# Lemmas: the pulse of a measured spectrum
-/

namespace Fbpic.CustomSpectrum

open Spec
open LaserProf (Long checkDir)
open Complex (I)

variable {c lam0 : ℝ}

theorem readRows_three {d : List Pt} (h : 2 ≤ d.length) : readRows (threeColumns d) = .ok d := by
  rcases d with _ | ⟨p, d⟩
  · simp at h
  unfold readRows threeColumns
  simp only [List.length_map, List.map_cons, List.headD_cons, List.length_cons, List.length_nil]
  rw [if_neg (by simp only [List.length_cons] at h; omega)]
  simp only [List.map_map]
  simp [Function.comp_def]

theorem readRows_two {d : List Pt} (h : 2 ≤ d.length) : readRows (twoColumns d) = .ok (d.map fun p => { p with phase := 0 }) := by
  rcases d with _ | ⟨p, d⟩
  · simp at h
  unfold readRows twoColumns
  simp only [List.length_map, List.map_cons, List.headD_cons, List.length_cons, List.length_nil]
  rw [if_neg (by simp only [List.length_cons] at h; omega)]
  simp only [List.map_map]
  simp [Function.comp_def]

/-- The data after the changes of the phase. -/
noncomputable def finalData (c : ℝ) (fit : List (ℝ × ℝ) → ℝ) (d : List Pt) (phi2 phi3 phi4 : ℝ) (subtract : Bool) : List Pt :=
  let d := if subtract then subtractSlope c fit d else d
  d.map (addChirp c (2 * Real.pi / meanWavelength d) phi2 phi3 phi4)

theorem mean_subtract (c : ℝ) (fit : List (ℝ × ℝ) → ℝ) (d : List Pt) (subtract : Bool) :
    meanWavelength (if subtract then subtractSlope c fit d else d) = meanWavelength d := by
  cases subtract
  · rfl
  · simp only [if_true, meanWavelength, subtractSlope, List.map_map, Function.comp_def]

theorem customLong_eq (c : ℝ) (fit : List (ℝ × ℝ) → ℝ) (z0 : ℝ) {rows : List (List ℝ)} {d : List Pt} (hr : readRows rows = .ok d)
    (phi2 phi3 phi4 : ℝ) (subtract : Bool) {dir : ℝ} (hdir : dir = -1 ∨ dir = 1) :
    customLong c fit z0 rows phi2 phi3 phi4 subtract dir =
      let lam0 := meanWavelength d
      let d' := finalData c fit d phi2 phi3 phi4 subtract
      .ok (⟨fun z t => interp1d (nodes c lam0 z0 dir d') (dir * z - c * t),
        trapz ((List.range (numTimes c lam0)).map fun n => (c * time c lam0 n, ‖temporalField c lam0 d' n‖ ^ 2)), 2 * Real.pi / lam0, dir⟩, lam0) := by
  have h1 : checkDir dir = .ok dir := if_pos hdir
  unfold customLong
  rw [h1, hr]
  simp only [bind, Except.bind, pure, Except.pure, mean_subtract, finalData]

/-- The phase of a row after all changes. -/
theorem finalData_eq (c : ℝ) (fit : List (ℝ × ℝ) → ℝ) (d : List Pt) (phi2 phi3 phi4 : ℝ) (subtract : Bool) :
    finalData c fit d phi2 phi3 phi4 subtract = d.map fun p => { p with
      phase := pulsePhase c (if subtract then fit (d.map fun p => (frequency c p, p.phase)) else 0) (2 * Real.pi * c / meanWavelength d) phi2 phi3 phi4 p } := by
  unfold finalData
  dsimp only
  rw [mean_subtract]
  have e : ∀ a : ℝ, 2 * Real.pi / a * c = 2 * Real.pi * c / a := fun a => by ring
  cases subtract
  · simp only [Bool.false_eq_true, if_false]
    refine List.map_congr_left fun p _ => ?_
    unfold addChirp pulsePhase
    simp only [freq, frequency, Nat.factorial, e]
    congr 1
    push_cast
    ring
  · simp only [if_true]
    unfold subtractSlope
    rw [List.map_map]
    refine List.map_congr_left fun p _ => ?_
    unfold addChirp pulsePhase
    simp only [freq, frequency, Nat.factorial, e, Function.comp_def]
    congr 1
    push_cast
    ring

theorem good_phase {d : List Pt} (hd : GoodSpectrum d) (g : Pt → ℝ) : GoodSpectrum (d.map fun p => { p with phase := g p }) where
  two := by simpa using hd.two
  pos p hp := by obtain ⟨q, hq, rfl⟩ := List.mem_map.1 hp; exact hd.pos q hq
  inten p hp := by obtain ⟨q, hq, rfl⟩ := List.mem_map.1 hp; exact hd.inten q hq
  distinct := by
    have := hd.distinct
    rw [List.map_map]
    exact this

theorem temporalField_eq (c lam0 : ℝ) (d : List Pt) (n : ℕ) :
    temporalField c lam0 d n = rawField c lam0 d n / maxAbs (numTimes c lam0) (rawField c lam0 d) := rfl

/-- The profile is the pulse of the spectrum. -/
theorem isPulse (hc : 0 < c) (hl : 0 < lam0) {d : List Pt} (hd : GoodSpectrum d) (z0 dir : ℝ) :
    IsPulse c lam0 (interp1d (d.map fun p => (freq c p, p.inten * p.lam ^ 2))) (interp1d (d.map fun p => (freq c p, p.phase)))
      (maxAbs (numTimes c lam0) (rawField c lam0 d)) (fun x => interp1d (nodes c lam0 z0 dir d) (x + dir * z0)) := by
  have hN := numTimes_eq hc hl
  have hD : 0 < lam0 / 1000 := by positivity
  have H := nodes_spec hc hl z0 dir d
  have idx : ∀ k : ℤ, -500000 < k → k ≤ 500000 → ((500000 - k).toNat : ℤ) = 500000 - k ∧ (500000 - k).toNat < numTimes c lam0 := by
    intro k h1 h2
    rw [hN]
    omega
  have pos : ∀ k : ℤ, k ≤ 500000 → dir * z0 - c * time c lam0 (500000 - k).toNat = k * (lam0 / 1000) + dir * z0 := by
    intro k h2
    have e : ((500000 - k).toNat : ℤ) = 500000 - k := by omega
    have e' : (((500000 - k).toNat : ℕ) : ℝ) = 500000 - k := by exact_mod_cast congrArg (Int.cast : ℤ → ℝ) e
    rw [ctime_eq hc hl, e']
    ring
  have mem : ∀ k : ℤ, -500000 < k → k ≤ 500000 → (k * (lam0 / 1000) + dir * z0, temporalField c lam0 d (500000 - k).toNat) ∈ nodes c lam0 z0 dir d := by
    intro k h1 h2
    unfold nodes
    refine List.mem_map.2 ⟨(500000 - k).toNat, List.mem_range.2 (idx k h1 h2).2, ?_⟩
    rw [pos k h2]
  have all : ∀ p ∈ nodes c lam0 z0 dir d, ∃ k : ℤ, -500000 < k ∧ k ≤ 500000 ∧ p.1 = k * (lam0 / 1000) + dir * z0 := by
    intro p hp
    unfold nodes at hp
    obtain ⟨n, hn, rfl⟩ := List.mem_map.1 hp
    have hn' := List.mem_range.1 hn
    rw [hN] at hn'
    refine ⟨500000 - n, by omega, by omega, ?_⟩
    rw [← pos _ (by omega)]
    have : (500000 - (500000 - (n : ℤ))).toNat = n := by omega
    rw [this]
  have val : ∀ k : ℤ, -500000 < k → k ≤ 500000 →
      interp1d (nodes c lam0 z0 dir d) (k * (lam0 / 1000) + dir * z0) = temporalField c lam0 d (500000 - k).toNat :=
    fun k h1 h2 => H.node _ (mem k h1 h2)
  refine ⟨?_, ?_, ?_, ?_, ?_⟩
  · intro k h1 h2
    rw [← rawField_eq hc hl hd (idx k h1 h2).1]
    exact le_maxAbs _ (idx k h1 h2).2
  · obtain ⟨n, hn, e⟩ := maxAbs_attained (N := numTimes c lam0) (by rw [hN]; norm_num) (rawField c lam0 d)
    rw [hN] at hn
    refine ⟨500000 - n, by omega, by omega, ?_⟩
    rw [← rawField_eq hc hl hd (n := n) (by omega)]
    exact e
  · intro k h1 h2
    rw [val k h1 h2, temporalField_eq, rawField_eq hc hl hd (idx k h1 h2).1]
  · intro k h1 h2 r hr hr'
    have e1 : (((k + 1 : ℤ) : ℝ)) = (k : ℝ) + 1 := by push_cast; ring
    have hval' := val (k + 1) (by omega) (by omega)
    have hmem' := mem (k + 1) (by omega) (by omega)
    rw [e1] at hval' hmem'
    rw [val k h1 (by omega), hval']
    have := H.between _ (mem k h1 (by omega)) _ hmem' (by simp only; nlinarith) ?_ ((k + r) * (lam0 / 1000) + dir * z0) (by simp only; nlinarith)
      (by simp only; nlinarith)
    · rw [this]
      have e3 : ((k + r) * (lam0 / 1000) + dir * z0 - (k * (lam0 / 1000) + dir * z0)) / ((k + 1) * (lam0 / 1000) + dir * z0 - (k * (lam0 / 1000) + dir * z0)) = r := by
        rw [show (k + r) * (lam0 / 1000) + dir * z0 - (k * (lam0 / 1000) + dir * z0) = r * (lam0 / 1000) by ring,
          show ((k : ℝ) + 1) * (lam0 / 1000) + dir * z0 - (k * (lam0 / 1000) + dir * z0) = lam0 / 1000 by ring, mul_div_assoc, div_self hD.ne', mul_one]
      simp only
      rw [e3, Complex.real_smul]
      push_cast
      ring
    · intro p hp
      obtain ⟨k', h1', h2', e⟩ := all p hp
      simp only
      rw [e]
      rcases lt_or_ge k' (k + 1) with h | h
      · left
        have : (k' : ℝ) ≤ k := by exact_mod_cast (by omega : k' ≤ k)
        nlinarith
      · right
        have : (k : ℝ) + 1 ≤ k' := by exact_mod_cast h
        nlinarith
  · intro x hx
    rcases hx with hx | hx
    · refine H.below _ fun p hp => ?_
      obtain ⟨k', h1', h2', e⟩ := all p hp
      rw [e]
      have : (-499999 : ℝ) ≤ k' := by exact_mod_cast (by omega : (-499999 : ℤ) ≤ k')
      nlinarith
    · refine H.above _ fun p hp => ?_
      obtain ⟨k', h1', h2', e⟩ := all p hp
      rw [e]
      have : (k' : ℝ) ≤ 500000 := by exact_mod_cast h2'
      nlinarith

end Fbpic.CustomSpectrum
