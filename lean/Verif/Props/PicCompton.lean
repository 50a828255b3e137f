import Verif.Lemmas.PicComptonRun
import Verif.Props.ComptonLaw
import Verif.Props.PicIonize

/-!
# Compton scattering in whole simulations
-/

namespace Fbpic.Pic

open Transform ExternalField Step Spec

/-- **C105 (one scatterer).** `handle_scattering` changes the electrons and the photons of the scatterer, and no other
species. The old photons are kept. Behind them are the new ones, ordered by electron, as many for each electron as its
number of scatterings, each at the position of its electron and with its weight divided by the ratio. The electrons
keep everything but their momentum, which changes by the momentum given to their last photon if the draw for the recoil
is below the inverse of the ratio. -/
theorem C105_scatter (S : Scatterer) (hb : 0 < S.batch) (cl dt t : ℝ) (D : ComptonDraws) (junk : ℕ → Comp → ℝ)
    (id : ℕ) (sps : List Species) (e ph : Species) (he : sps[id]? = some e) (hp : sps[S.target]? = some ph)
    (hne : id ≠ S.target) :
    ∃ sps' new, S.handle cl dt t D junk id sps = .ok sps' ∧ (∀ j, j ≠ id → j ≠ S.target → sps'[j]? = sps[j]?) ∧
      sps'[S.target]? = some { ph with ptcl := ph.ptcl ++ new } ∧
      List.Forall₂ (PhotonOf S D e.ptcl) (scatterings (S.count cl dt t D e.electrons) e.ptcl.length) new ∧
      sps'[id]? =
        some { e with ptcl := e.ptcl.mapIdx fun i => afterScattering S D (S.count cl dt t D e.electrons i) i } := by
  refine ⟨_, S.news cl dt t D junk e.electrons ph.ptcl.length, handle_eq_scatter hb cl dt t D junk he hp hne, ?_, ?_, ?_, ?_⟩
  · intro j h1 h2
    unfold growSpecies
    rw [List.getElem?_modify, List.getElem?_modify]
    simp [Ne.symm h1, Ne.symm h2]
  · unfold growSpecies
    rw [List.getElem?_modify, List.getElem?_modify, hp]
    simp [hne]
  · have hS : scatterings (S.count cl dt t D e.electrons) e.ptcl.length =
        (List.range e.ptcl.length).flatMap fun i => (List.range (S.count cl dt t D e.electrons i)).map fun j => (i, j) := rfl
    have key : List.Forall₂ (fun (ij : ℕ × ℕ) r => ij.1 < e.ptcl.length ∧
          r = mkPhoton (e.electrons.pos ij.1) (e.electrons.w ij.1) (1 / S.ratio)
            (scatterPhoton S.invMC (e.electrons.mom ij.1) S.photon (D.scat ij.1 ij.2)))
        (scatterings (S.count cl dt t D e.electrons) e.ptcl.length) (S.emitted cl dt t D e.electrons) := by
      have : S.emitted cl dt t D e.electrons = (scatterings (S.count cl dt t D e.electrons) e.ptcl.length).map fun ij =>
          mkPhoton (e.electrons.pos ij.1) (e.electrons.w ij.1) (1 / S.ratio)
            (scatterPhoton S.invMC (e.electrons.mom ij.1) S.photon (D.scat ij.1 ij.2)) := by
        rw [hS, List.map_flatMap]
        unfold Scatterer.emitted photonsOf
        simp only [List.map_map]
        rfl
      rw [this, List.forall₂_map_right_iff]
      refine List.forall₂_same.2 fun ij hij => ⟨?_, rfl⟩
      rw [hS] at hij
      obtain ⟨i, hi, hj⟩ := List.mem_flatMap.1 hij
      obtain ⟨j, -, rfl⟩ := List.mem_map.1 hj
      exact List.mem_range.1 hi
    rw [List.forall₂_iff_get] at key ⊢
    refine ⟨by rw [key.1]; simp [Scatterer.news], fun i h1 h2 => ?_⟩
    have h3 : i < (S.emitted cl dt t D e.electrons).length := by rw [← key.1]; exact h1
    obtain ⟨hi, hr⟩ := key.2 i h1 h3
    simp only [Scatterer.news, List.get_eq_getElem, List.getElem_mapIdx] at hi hr ⊢
    generalize (scatterings (S.count cl dt t D e.electrons) e.ptcl.length)[i] = ij at hi hr ⊢
    obtain ⟨g1, g2, g3⟩ := electrons_get hi
    refine ⟨e.ptcl[ij.1], List.getElem?_eq_getElem hi, ?_⟩
    rw [hr, g1, g2, g3]
    refine ⟨rfl, rfl, rfl, ?_, rfl⟩
    simp only [photonPtcl, mkPhoton]
    ring
  · unfold growSpecies
    rw [List.getElem?_modify, List.getElem?_modify, he]
    simp only [Ne.symm hne, if_false, if_true, Option.map_eq_map, Option.map_some, Option.some.injEq]
    unfold Species.setMomenta
    refine congrArg (fun l => { e with ptcl := l }) ?_
    apply List.ext_getElem (by simp)
    intro i h1 h2
    simp only [List.getElem_mapIdx, Scatterer.newMoms, newMom, afterScattering]
    rw [(electrons_get (by simpa using h1)).2.1]
    split_ifs <;> rfl

theorem compton_reasonable {c : Cfg} {k : ℝ} {L : List (ℕ × Opts)} {s : Sim} (h : ComptonReasonable c k L s)
    (hk : 0 ≤ k) : Sane c ∧ Near c (1 + k) (1 + k) (s.zmax - s.zmin) s := by
  refine ⟨⟨h.light, h.dt, h.invdz, h.invdr, h.Nz, h.Nr, h.threads, h.period, h.fuel, h.beta⟩, by rw [mul_comm]; exact h.box,
    fun sp hsp => ⟨h.plane sp hsp, ?_⟩, fun sp hsp p hp => ⟨?_, fun _ => h.mom sp hsp p hp, (h.near sp hsp p hp).1,
      (h.near sp hsp p hp).2⟩⟩
  · have := h.speed sp hsp
    have e : sp.shape.reach = maxCells sp.shape := by cases sp.shape <;> rfl
    rw [e]
    unfold Cfg.slack
    have e2 : c.vg = frameVelocity c := rfl
    rw [e2, show (1 + (1 + k)) / 2 = 1 + k / 2 by ring]
    exact this
  · exact (h.mom sp hsp p hp).trans (by nlinarith)

/-- **C105 (runs).** For all random numbers and all contents of uninitialised memory, a run with Compton scattering
raises no exception and stays within its arrays. Charged species have the same macroparticles with the same weights
before and after. The macroparticles of neutral species are in straight free flight, and behind them are the new
photons, which move at the speed of light. The total charge does not change. No macroparticle moves faster than
`(1 + k) c`, where `k` is the momentum of the incoming photons in units of `m c`. -/
theorem C105_run_partial (c : Cfg) [NeZero c.Nz] (scat : ℕ → Option Scatterer) (ch : Luck) (k : ℝ) (L : List (ℕ × Opts)) (s : Sim)
    (hk : 0 ≤ k) (h : ComptonReasonable c k L s) (hch : CosinesOk ch) (hard : HardnessLe scat k)
    (hS : ScatterersOk scat s.species) :
    ∃ t, c.callsCompton scat ch L s = .ok t ∧ ScatterersOk scat t.species ∧
      List.Forall₂ (Outcome c.k.c (s.zmax - s.zmin) (movedTime c.dt L)) s.species t.species ∧
      netCharge t = netCharge s ∧ ∀ sp ∈ t.species, ∀ p ∈ sp.ptcl, velocity2 p.push.mom ≤ (1 + k) ^ 2 := by
  obtain ⟨hc, hn⟩ := compton_reasonable h hk
  obtain ⟨t, e1, k1, -⟩ := callsCompton_run c hc h.correction hch hk hard L s h.momenta hn hS
  have ho := k1.out
  rw [← hn.size c hc] at ho
  refine ⟨t, e1, k1.scat, ho, ?_, fun sp hsp p hp => (k1.near.ptcl sp hsp p hp).fast⟩
  unfold netCharge
  generalize s.species = a at ho
  generalize t.species = b at ho
  induction ho with
  | nil => rfl
  | cons e _ ih => rw [List.map_cons, List.map_cons, List.sum_cons, List.sum_cons, ih, outcome_charge e]

/-- **C105 (Gauss' law).** With the curl-free correction of the currents, a run with Compton scattering keeps Gauss' law
on the grid: it holds after the calls if it holds before, although the electrons change their velocity in the middle of
the iteration. -/
theorem C105_gauss (c : Cfg) [NeZero c.Nz] (scat : ℕ → Option Scatterer) (ch : Luck) (k : ℝ) (L : List (ℕ × Opts)) (s : Sim)
    (hk : 0 ≤ k) (h : ComptonReasonable c k L s) (hch : CosinesOk ch) (hard : HardnessLe scat k)
    (hS : ScatterersOk scat s.species) (ho : ∀ x ∈ L, x.2.correctDivE = true ∨ x.2.correctCurrents = true)
    (hs : SolverOk c s) (hg : GaussLaw c s) :
    ∃ t, c.callsCompton scat ch L s = .ok t ∧ SolverOk c t ∧ GaussLaw c t := by
  obtain ⟨hc, hn⟩ := compton_reasonable h hk
  obtain ⟨t, e1, -, g⟩ := callsCompton_run c hc h.correction hch hk hard L s h.momenta hn hS
  exact ⟨t, e1, g ho hs hg⟩

/-- **C105 (divergence correction).** A call that corrects the divergence of E leads to Gauss' law, whatever the fields
before. -/
theorem C105_divE (c : Cfg) [NeZero c.Nz] (scat : ℕ → Option Scatterer) (ch : Luck) (k : ℝ) (n : ℕ) (o : Opts) (s : Sim)
    (hk : 0 ≤ k) (h : ComptonReasonable c k [(n, o)] s) (hch : CosinesOk ch) (hard : HardnessLe scat k)
    (hS : ScatterersOk scat s.species) (hn : n ≠ 0) (ho : o.correctDivE = true) (hs : SolverOk c s) :
    ∃ t, c.callsCompton scat ch [(n, o)] s = .ok t ∧ SolverOk c t ∧ GaussLaw c t := by
  obtain ⟨hc, hnear⟩ := compton_reasonable h hk
  obtain ⟨t, e1, -, g⟩ := stepCompton c hc h.correction hch hk hard o (h.momenta (n, o) (by simp)) n s hnear hS
  exact ⟨t, (except_bind_ok _ _ _).2 ⟨t, e1, rfl⟩, g hs (Or.inl ⟨ho, hn⟩)⟩

/-- **C105 (activation).** `activate_compton` succeeds if and only if the target species exists and is neutral and the
ratio of the weights is at least 1. The scatterer then fits the species, for free charged particles with another number
than the target; its photons have the Doppler-shifted momentum of the laser. -/
theorem C105_init (cl h piRe2 invMC : ℝ) (sps : List Species) (target : ℕ) (energy wavelength waist ctau z0 ratio : ℝ)
    (boost : Option (ℝ × ℝ)) :
    ((∃ S, Scatterer.init cl h piRe2 invMC sps target energy wavelength waist ctau z0 ratio boost = .ok S) ↔
      1 ≤ ratio ∧ ∃ ph, sps[target]? = some ph ∧ ph.q = 0) ∧
    ∀ S, Scatterer.init cl h piRe2 invMC sps target energy wavelength waist ctau z0 ratio boost = .ok S →
      0 < h → 0 < wavelength → 0 < invMC → (∀ b, boost = some b → 1 ≤ b.1 ∧ 0 ≤ b.2) →
      S.photon.p = (boost.getD (1, 0)).1 * (1 + (boost.getD (1, 0)).2) * (h / wavelength) ∧
      ∀ (scat : ℕ → Option Scatterer) (id : ℕ) (e : Species), ScatterersOk scat sps → sps[id]? = some e → e.q ≠ 0 →
        e.plane = none → e.ionizable = false → ScatterersOk (Function.update scat id (some S)) sps := by
  unfold Scatterer.init
  cases hph : sps[target]? with
  | none => simp
  | some ph =>
    simp only
    by_cases hq : ph.q = 0
    swap
    · simp [hq]
    by_cases hr : ratio < 1
    · simp [hq, hr, not_le.2 hr]
    rw [if_neg (by simpa using hq), if_neg hr]
    refine ⟨⟨fun _ => ⟨not_lt.1 hr, ph, rfl, hq⟩, fun _ => ⟨_, rfl⟩⟩, ?_⟩
    intro S hS hh hw hm hb
    have hbb : 1 ≤ (boost.getD (1, 0)).1 ∧ 0 ≤ (boost.getD (1, 0)).2 := by
      cases hbo : boost with
      | none => norm_num
      | some b => exact hb b hbo
    have hin := C18_incoming (h / wavelength) (boost.getD (1, 0)).1 (boost.getD (1, 0)).2 (div_pos hh hw) hbb.1 hbb.2
    obtain rfl := Except.ok.inj hS
    refine ⟨hin.2.2, fun scat id e hsc he h1 h2 h3 j K hj hK => ?_⟩
    by_cases hji : j = id
    · subst hji
      rw [Function.update_self] at hK
      obtain rfl := Option.some.inj hK
      exact ⟨by norm_num, hm, hin.1, hin.2.1, not_lt.1 hr, ⟨e, he, h1, h2, h3⟩, ph, hph, hq⟩
    · rw [Function.update_of_ne hji] at hK
      exact hsc j K hj hK

/-- Without scatterers nothing happens. -/
theorem comptonAll_none (cl dt : ℝ) (ch : Luck) (s : Sim) : comptonAll (fun _ => none) cl dt ch s = .ok s := by
  have : ∀ l : List ℕ, l.foldlM (fun (sps : List Species) (_ : ℕ) => (.ok sps : Except PyErr (List Species))) s.species
      = .ok s.species := by
    intro l
    induction l with
    | nil => rfl
    | cons _ _ ih => rw [List.foldlM_cons]; exact (except_bind_ok _ _ _).2 ⟨_, rfl, ih⟩
  exact (except_bind_ok _ _ _).2 ⟨_, this _, rfl⟩

/-- **C105 (no scatterer).** A run without scatterers is the run of `Model/Pic.lean`. -/
theorem C105_none (c : Cfg) [NeZero c.Nz] (ch : Luck) (L : List (ℕ × Opts)) (s : Sim) :
    c.callsCompton (fun _ => none) ch L s = c.calls L s := by
  rw [← C100_none c ⟨fun _ _ _ => 0, fun _ _ => ⟨fun _ _ => 0, fun _ => 0, fun _ _ => (noPtcl.attr, 0)⟩⟩ L s]
  unfold Cfg.callsCompton Cfg.callsIonize
  refine congrArg (fun ev => c.callsEv ev L s) (funext fun s => ?_)
  rw [comptonAll_none, ionizeAll_none]

/-! ### An electron and a head-on laser pulse -/

/-- Photons of momentum `p m c` that move along -z, and a density of 1 everywhere. -/
noncomputable def pulseScatterer (p : ℝ) : Scatterer := ⟨1, ⟨1, 0, 0, 0, 0, 1⟩, ⟨p, 0, 0, -p⟩, 1, 10, 1, 1⟩

/-- It belongs to species number 0. -/
noncomputable def pulse (p : ℝ) (id : ℕ) : Option Scatterer := if id = 0 then some (pulseScatterer p) else none

/-- An electron, and an empty species of photons. -/
noncomputable def pulseSim (e : ElecMom) : Sim :=
  { gaussSim with species := [⟨-1, 1, .linear, false, false, none, [⟨⟨1, 0, 7.9, e, 0⟩, 1, fun _ => 0⟩]⟩,
      ⟨0, 1, .linear, false, false, none, []⟩] }

theorem pulse_scatterers (p : ℝ) (hp : 0 < p) (e : ElecMom) : ScatterersOk (pulse p) (pulseSim e).species := by
  intro id S _ hS
  unfold pulse at hS
  by_cases hid : id = 0
  · rw [if_pos hid] at hS
    obtain rfl := Option.some.inj hS
    subst hid
    refine ⟨by norm_num [pulseScatterer], by norm_num [pulseScatterer], ?_, hp, le_rfl, ⟨_, rfl, by norm_num, rfl, rfl⟩,
      _, rfl, rfl⟩
    simp only [pulseScatterer, FourMom.inv]; ring
  · rw [if_neg hid] at hS; cases hS

theorem pulse_hard (p : ℝ) : HardnessLe (pulse p) p := by
  intro id S hS
  unfold pulse at hS
  by_cases hid : id = 0
  · rw [if_pos hid] at hS
    obtain rfl := Option.some.inj hS
    simp [pulseScatterer]
  · rw [if_neg hid] at hS; cases hS

theorem pulse_reasonable (k : ℝ) (hk : k < 1) (L : List (ℕ × Opts)) (hL : ∀ x ∈ L, x.2.moveMomenta = true) :
    ComptonReasonable (gaussCfg .curlFree) k L (pulseSim ⟨0, 0, 4 / 3, 3 / 5⟩) := by
  constructor <;> try (norm_num [gaussCfg, cubicCfg, pulseSim, gaussSim, cubicSim, velocity2]; done)
  · exact hL
  · intro sp hsp
    have h1 : sp.shape = .linear := by
      simp only [pulseSim, List.mem_cons, List.not_mem_nil, or_false] at hsp
      rcases hsp with rfl | rfl <;> rfl
    rw [h1]
    simp only [gaussCfg, cubicCfg, maxCells, frameVelocity]
    norm_num
    linarith

/-- The hypotheses of `C105_run_partial` can be met, and the electron scatters for some random numbers: `C105_scatter`. -/
example (L : List (ℕ × Opts)) (hL : ∀ x ∈ L, x.2.moveMomenta = true) (ch : Luck) (hch : CosinesOk ch) :
    ∃ t, (gaussCfg .curlFree).callsCompton (pulse (1 / 2)) ch L (pulseSim ⟨0, 0, 4 / 3, 3 / 5⟩) = .ok t ∧
      netCharge t = netCharge (pulseSim ⟨0, 0, 4 / 3, 3 / 5⟩) := by
  obtain ⟨t, h1, -, -, h2, -⟩ := C105_run_partial (gaussCfg .curlFree) (pulse (1 / 2)) ch (1 / 2) L (pulseSim ⟨0, 0, 4 / 3, 3 / 5⟩)
    (by norm_num) (pulse_reasonable _ (by norm_num) L hL) hch (pulse_hard _) (pulse_scatterers _ (by norm_num) _)
  exact ⟨t, h1, h2⟩

theorem pulse_solver (e : ElecMom) : SolverOk (gaussCfg .curlFree) (pulseSim e) :=
  SolverOk_of (gaussCfg .curlFree) (gauss_solver .curlFree) fun _ _ => ⟨rfl, rfl, rfl, rfl⟩

/-- The hypotheses of `C105_divE` can be met, and the resulting state has Gauss' law, as `C105_gauss` asks. -/
example (ch : Luck) (hch : CosinesOk ch) : ∃ t, (gaussCfg .curlFree).callsCompton (pulse (1 / 2)) ch
    [(3, { correctDivE := true })] (pulseSim ⟨0, 0, 4 / 3, 3 / 5⟩) = .ok t ∧ SolverOk (gaussCfg .curlFree) t ∧
      GaussLaw (gaussCfg .curlFree) t :=
  C105_divE _ _ _ (1 / 2) _ _ _ (by norm_num) (pulse_reasonable _ (by norm_num) _ (by simp)) hch (pulse_hard _)
    (pulse_scatterers _ (by norm_num) _) (by norm_num) rfl (pulse_solver _)

/-- The probability of scattering of the electron at rest. -/
noncomputable def pulseProb (ct : ℝ) : ℝ :=
  scatteringProbability 1 1 1 1 ⟨0, 0, 0, 1⟩ ((pulseScatterer (9 / 10)).laser.density 1 0 7.9 ct) (9 / 10) (0 / (9 / 10))
    (0 / (9 / 10)) (-(9 / 10) / (9 / 10))

theorem pulseProb_mem (ct : ℝ) : 0 < pulseProb ct ∧ pulseProb ct < 1 := by
  have hg : (⟨0, 0, 0, 1⟩ : ElecMom).gamma = 1 := by norm_num [ElecMom.gamma]
  have hok : (⟨0, 0, 0, 1⟩ : ElecMom).ok := by unfold ElecMom.ok; rw [hg]; norm_num
  obtain ⟨g, b, nx, ny, nz, hR⟩ : ∃ g b nx ny nz, restFrame ⟨0, 0, 0, 1⟩ = (g, b, nx, ny, nz) := ⟨_, _, _, _, _, rfl⟩
  have hN : 0 < (pulseScatterer (9 / 10)).laser.density 1 0 7.9 ct := by
    unfold ComptonLaser.density pulseScatterer
    simp only
    positivity
  obtain ⟨h1, h2⟩ := C104_rate 1 1 1 1 ((pulseScatterer (9 / 10)).laser.density 1 0 7.9 ct) one_pos ⟨0, 0, 0, 1⟩ hok
    ⟨9 / 10, 0, 0, -(9 / 10)⟩ (by norm_num) (by norm_num [FourMom.inv]) g b nx ny nz hR
  have hk : 0 < (lorentzTransform ⟨9 / 10, 0, 0, -(9 / 10)⟩ g b nx ny nz).p * 1 := by rw [mul_one]; exact h1
  have hT : 0 < ∫ x in (-1 : ℝ)..1, kleinNishina ((lorentzTransform ⟨9 / 10, 0, 0, -(9 / 10)⟩ g b nx ny nz).p * 1) x :=
    intervalIntegral.intervalIntegral_pos_of_pos_on (kn_integrable hk le_rfl) (fun x hx => kn_pos hk hx.2.le) (by norm_num)
  have hE : pulseProb ct = _ := h2
  rw [hE, hg]
  refine ⟨?_, ?_⟩
  · rw [sub_pos, Real.exp_lt_one_iff]
    have : (0 : ℝ) < 9 / 10 := by norm_num
    have := div_pos h1 this
    rw [neg_lt_zero]
    have := mul_pos hN this
    have := mul_pos hT this
    simp only [one_mul, mul_one, div_one] at this ⊢
    exact this
  · exact sub_lt_self _ (Real.exp_pos _)

/-- **C105, not true in general: no macroparticle is faster than light.** After a recoil the stored inverse of the
Lorentz factor is too large (C19), and the electron is moved faster than light until its momentum is pushed. -/
theorem C105_superluminal_violated : ∃ (scat : ℕ → Option Scatterer) (ch : Luck) (s t : Sim), ScatterersOk scat s.species ∧
    CosinesOk ch ∧ (∀ i id j, 0 ≤ (ch.draws i id).num j ∧ (ch.draws i id).num j < 1 ∧ 0 ≤ (ch.draws i id).recoilDraw j ∧
      (ch.draws i id).recoilDraw j < 1) ∧
    (∀ sp ∈ s.species, ∀ p ∈ sp.ptcl, p.push.mom.ok) ∧ comptonAll scat 1 1 ch s = .ok t ∧
    ∃ sp ∈ t.species, ∃ p ∈ sp.ptcl, 1 < velocity2 p.push.mom := by
  set ct : ℝ := 1 * ((pulseSim ⟨0, 0, 0, 1⟩).time + 0.5 * 1) with hct
  set D : ComptonDraws := ⟨fun _ => 1 - pulseProb ct, fun _ _ => ⟨-1, 0⟩, fun _ => 0⟩ with hD
  have hm := pulseProb_mem ct
  have hp : (0 : ℝ) < 9 / 10 := by norm_num
  set e : Species := ⟨-1, 1, .linear, false, false, none, [⟨⟨1, 0, 7.9, ⟨0, 0, 0, 1⟩, 0⟩, 1, fun _ => 0⟩]⟩ with he
  obtain ⟨sps', new, h1, -, -, -, h5⟩ := C105_scatter (pulseScatterer (9 / 10)) (by norm_num [pulseScatterer]) 1 1
    ((pulseSim ⟨0, 0, 0, 1⟩).time + 0.5 * 1) D (fun _ _ => 0) 0 (pulseSim ⟨0, 0, 0, 1⟩).species e
    ⟨0, 1, .linear, false, false, none, []⟩ rfl rfl (by norm_num [pulseScatterer])
  refine ⟨pulse (9 / 10), ⟨fun _ _ => D, fun _ _ _ _ => 0⟩, pulseSim ⟨0, 0, 0, 1⟩, { pulseSim ⟨0, 0, 0, 1⟩ with species := sps' },
    pulse_scatterers _ hp _, fun i id a b => by norm_num [hD], fun i id j => ?_, ?_, ?_, _, List.mem_of_getElem? h5, ?_⟩
  · refine ⟨?_, ?_, le_rfl, one_pos⟩
    · show 0 ≤ 1 - pulseProb ct; linarith [hm.2]
    · show 1 - pulseProb ct < 1; linarith [hm.1]
  · intro sp hsp p hp
    simp only [pulseSim, List.mem_cons, List.not_mem_nil, or_false] at hsp
    rcases hsp with rfl | rfl
    · rw [List.mem_singleton.1 hp]
      norm_num [ElecMom.ok, ElecMom.gamma]
    · cases hp
  · refine (except_bind_ok _ _ _).2 ⟨sps', ?_, rfl⟩
    show List.foldlM _ _ [0, 1] = _
    rw [List.foldlM_cons]
    refine (except_bind_ok _ _ _).2 ⟨sps', ?_, ?_⟩
    · simp only [show pulse (9 / 10) 0 = some (pulseScatterer (9 / 10)) from if_pos rfl]
      exact h1
    · rw [List.foldlM_cons]
      refine (except_bind_ok _ _ _).2 ⟨sps', ?_, rfl⟩
      simp only [show pulse (9 / 10) 1 = none from if_neg (by norm_num)]
  · have hcount : (pulseScatterer (9 / 10)).count 1 1 ((pulseSim ⟨0, 0, 0, 1⟩).time + 0.5 * 1) D e.electrons 0 = 1 := by
      show (nScatter (pulseProb ct) 1 (1 - pulseProb ct)).toNat = 1
      have := (C18_number (pulseProb ct) 1 (1 - pulseProb ct) hm.1.le zero_le_one (by linarith [hm.2]) (by linarith [hm.1])).1
      rw [this, show pulseProb ct * 1 + (1 - pulseProb ct) = ((1 : ℤ) : ℝ) by push_cast; ring, Int.floor_intCast]
      rfl
    refine ⟨_, List.mem_mapIdx.2 ⟨0, by simp [he], rfl⟩, ?_⟩
    rw [hcount]
    have hcond : 0 < 1 ∧ D.recoilDraw 0 < 1 / (pulseScatterer (9 / 10)).ratio := ⟨one_pos, by norm_num [hD, pulseScatterer]⟩
    unfold afterScattering
    rw [if_pos hcond]
    norm_num [he, hD, pulseScatterer, velocity2, recoil, scatterPhoton, restFrame, lorentzTransform, scatterRest, restAngles]

end Fbpic.Pic
