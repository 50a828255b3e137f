import Verif.Lemmas.ComptonBatch
import Verif.Lemmas.KleinNishina
import Mathlib.MeasureTheory.Integral.Bochner.Set
import Mathlib.MeasureTheory.Measure.Lebesgue.Basic

/-!
# C18: Compton scattering; C19: consistency of the electron after the recoil
-/

namespace Fbpic

open MeasureTheory

/-! ### Number of photons -/

/-- **C18 (number).** The number of photons of an electron is the integer part of
`probability * ratio + draw`: never negative, either of the two integers around
`probability * ratio`, and zero if the probability is zero. -/
theorem C18_number (p ratio r : ℝ) (hp : 0 ≤ p) (hratio : 0 ≤ ratio) (hr0 : 0 ≤ r) (hr1 : r < 1) :
    nScatter p ratio r = ⌊p * ratio + r⌋ ∧ 0 ≤ nScatter p ratio r ∧
      (nScatter p ratio r = ⌊p * ratio⌋ ∨ nScatter p ratio r = ⌊p * ratio⌋ + 1) ∧
      (p = 0 → nScatter p ratio r = 0) := by
  have h0 : 0 ≤ p * ratio + r := by positivity
  have e : nScatter p ratio r = ⌊p * ratio + r⌋ := pyInt_of_nonneg h0
  refine ⟨e, by rw [e]; exact Int.floor_nonneg.mpr h0, ?_, ?_⟩
  · rw [e]
    have h1 : ⌊p * ratio⌋ ≤ ⌊p * ratio + r⌋ := Int.floor_le_floor (by linarith)
    have h2 : ⌊p * ratio + r⌋ < ⌊p * ratio⌋ + 2 := by
      rw [Int.floor_lt]; push_cast
      have := Int.lt_floor_add_one (p * ratio); linarith
    omega
  · rintro rfl
    rw [e]; simp [Int.floor_eq_zero_iff, hr0, hr1]

/-- **C18 (mean).** The mean over the uniform draw is exactly `probability * ratio`. -/
theorem C18_number_mean (p ratio : ℝ) (hp : 0 ≤ p) (hratio : 0 ≤ ratio) :
    ∫ r in Set.Ico (0 : ℝ) 1, ((nScatter p ratio r : ℤ) : ℝ) = p * ratio := by
  set a := p * ratio with ha
  have ha0 : 0 ≤ a := by positivity
  have hf0 := Int.fract_nonneg a
  have hf1 := Int.fract_lt_one a
  have key : ∀ r ∈ Set.Ico (0 : ℝ) 1, ((nScatter p ratio r : ℤ) : ℝ)
      = (⌊a⌋ : ℝ) + (Set.Ici (1 - Int.fract a)).indicator (fun _ => (1 : ℝ)) r := by
    intro r hr
    rw [(C18_number p ratio r hp hratio hr.1 hr.2).1]
    have hfl := Int.floor_add_fract a
    by_cases h : 1 - Int.fract a ≤ r
    · rw [Set.indicator_of_mem (Set.mem_Ici.mpr h)]
      have : ⌊a + r⌋ = ⌊a⌋ + 1 := by
        rw [Int.floor_eq_iff]; push_cast
        constructor <;> [linarith; linarith [hr.2]]
      rw [← ha, this]; push_cast; ring
    · rw [Set.indicator_of_notMem (by simpa using h)]
      have : ⌊a + r⌋ = ⌊a⌋ := by
        rw [Int.floor_eq_iff]
        have := not_le.mp h
        constructor <;> [linarith [hr.1]; linarith]
      rw [← ha, this]; ring
  rw [setIntegral_congr_fun measurableSet_Ico key, integral_add (by simp) ?_,
    setIntegral_indicator measurableSet_Ici]
  · have e : Set.Ico (0 : ℝ) 1 ∩ Set.Ici (1 - Int.fract a) = Set.Ico (1 - Int.fract a) 1 := by
      ext x; simp only [Set.mem_inter_iff, Set.mem_Ico, Set.mem_Ici]
      constructor
      · rintro ⟨⟨_, h2⟩, h3⟩; exact ⟨h3, h2⟩
      · rintro ⟨h1, h2⟩; exact ⟨⟨by linarith, h2⟩, h1⟩
    rw [e]
    simp only [setIntegral_const, smul_eq_mul, mul_one, measureReal_def, Real.volume_Ico]
    rw [ENNReal.toReal_ofReal (by norm_num), ENNReal.toReal_ofReal (by linarith)]
    have := Int.floor_add_fract a
    linarith
  · refine Integrable.indicator ?_ measurableSet_Ici
    simp

example : nScatter 0.3 10 0.5 = 3 := by
  rw [(C18_number 0.3 10 0.5 (by norm_num) (by norm_num) (by norm_num) (by norm_num)).1]
  norm_num [Int.floor_eq_iff]

/-! ### The probability -/

/-- **C18 (probability).** For every electron with consistent `inv_gamma` and every flux of photons
of positive momentum, the scattering probability is in `[0, 1)`. -/
theorem C18_probability (piRe2 invMC c dt : ℝ) (hpi : 0 ≤ piRe2) (hm : 0 < invMC) (hc : 0 ≤ c)
    (hdt : 0 ≤ dt) (e : ElecMom) (he : e.ok) (photonN photonP : ℝ) (hn : 0 ≤ photonN)
    (hp : 0 < photonP) (bx by_ bz : ℝ) (hb : bx ^ 2 + by_ ^ 2 + bz ^ 2 = 1) :
    0 ≤ scatteringProbability piRe2 invMC c dt e photonN photonP bx by_ bz ∧
      scatteringProbability piRe2 invMC c dt e photonN photonP bx by_ bz < 1 := by
  unfold ElecMom.ok at he
  have hS : 0 ≤ e.ux ^ 2 + e.uy ^ 2 + e.uz ^ 2 := by positivity
  have hG0 : 0 < e.gamma := Real.sqrt_pos.mpr (by linarith)
  have hG2 : e.gamma ^ 2 = 1 + e.ux ^ 2 + e.uy ^ 2 + e.uz ^ 2 := Real.sq_sqrt (by linarith)
  have hig : 0 < e.invGamma := by rw [he]; positivity
  have hinv : 1 / e.invGamma = e.gamma := by rw [he]; simp
  unfold scatteringProbability
  rw [hinv]
  set f := e.gamma - e.ux * bx - e.uy * by_ - e.uz * bz with hf
  have hfpos : 0 < f := by
    have hdot : (e.ux * bx + e.uy * by_ + e.uz * bz) ^ 2 < e.gamma ^ 2 := by
      have : (e.ux * bx + e.uy * by_ + e.uz * bz) ^ 2
          = (e.ux ^ 2 + e.uy ^ 2 + e.uz ^ 2) * (bx ^ 2 + by_ ^ 2 + bz ^ 2)
            - ((e.ux * by_ - e.uy * bx) ^ 2 + (e.uy * bz - e.uz * by_) ^ 2
              + (e.uz * bx - e.ux * bz) ^ 2) := by ring
      rw [this, hb, hG2]
      nlinarith [sq_nonneg (e.ux * by_ - e.uy * bx), sq_nonneg (e.uy * bz - e.uz * by_),
        sq_nonneg (e.uz * bx - e.ux * bz)]
    have := (abs_lt_of_sq_lt_sq' hdot hG0.le).2
    linarith
  have hk : 0 < photonP * f * invMC := by positivity
  have hsig := kleinNishina_nonneg _ hk
  have hpos := Real.exp_pos
  constructor
  · rw [sub_nonneg, Real.exp_le_one_iff]
    have : 0 ≤ piRe2 * (2 * (2 + photonP * f * invMC * (1 + photonP * f * invMC)
        * (8 + photonP * f * invMC)) / ((photonP * f * invMC) ^ 2 * (1 + 2 * (photonP * f * invMC)) ^ 2)
        - (2 + photonP * f * invMC * (2 - photonP * f * invMC)) * Real.log (1 + 2 * (photonP * f * invMC))
          / (photonP * f * invMC) ^ 3) * (photonN * f) * c * (dt * e.invGamma) := by positivity
    linarith
  · have := hpos (-(piRe2 * (2 * (2 + photonP * f * invMC * (1 + photonP * f * invMC)
        * (8 + photonP * f * invMC)) / ((photonP * f * invMC) ^ 2 * (1 + 2 * (photonP * f * invMC)) ^ 2)
        - (2 + photonP * f * invMC * (2 - photonP * f * invMC)) * Real.log (1 + 2 * (photonP * f * invMC))
          / (photonP * f * invMC) ^ 3)) * (photonN * f) * c * (dt * e.invGamma))
    linarith

/-- The incoming photons of a simulation are light-like with positive energy, in any boosted frame. -/
theorem C18_incoming (hOverLambda gammaB betaB : ℝ) (hl : 0 < hOverLambda) (hg : 1 ≤ gammaB)
    (hb : 0 ≤ betaB) :
    (incomingPhoton hOverLambda gammaB betaB).inv = 0 ∧
      0 < (incomingPhoton hOverLambda gammaB betaB).p ∧
      (incomingPhoton hOverLambda gammaB betaB).p = gammaB * (1 + betaB) * hOverLambda := by
  have e1 : Real.sqrt (0 ^ 2 + 0 ^ 2 + (-hOverLambda) ^ 2) = hOverLambda := by
    rw [show (0:ℝ) ^ 2 + 0 ^ 2 + (-hOverLambda) ^ 2 = hOverLambda ^ 2 by ring, Real.sqrt_sq hl.le]
  have e2 : (incomingPhoton hOverLambda gammaB betaB).p = gammaB * (1 + betaB) * hOverLambda := by
    simp only [incomingPhoton]
    rw [e1, show (0:ℝ) ^ 2 + 0 ^ 2 + (gammaB * (-hOverLambda - betaB * hOverLambda)) ^ 2
      = (gammaB * (1 + betaB) * hOverLambda) ^ 2 by ring, Real.sqrt_sq (by positivity)]
  refine ⟨?_, ?_, e2⟩
  · simp only [FourMom.inv]
    rw [e2]
    simp only [incomingPhoton]
    rw [e1]; ring
  · rw [e2]; positivity

/-! ### The Lorentz transforms -/

/-- **C18 (transforms).** The transform used to go back undoes the one used to go to the rest frame, and
both keep the invariant mass, for every four-momentum and every electron. -/
theorem C18_lorentz (e : ElecMom) (he : e.ok) (q : FourMom) (g b nx ny nz : ℝ)
    (h : restFrame e = (g, b, nx, ny, nz)) :
    lorentzTransform (lorentzTransform q g b nx ny nz) g b (-nx) (-ny) (-nz) = q ∧
      (lorentzTransform q g b nx ny nz).inv = q.inv ∧
      (lorentzTransform q g b (-nx) (-ny) (-nz)).inv = q.inv ∧
      -- it is the transform to the rest frame of the electron
      lorentzTransform ⟨e.gamma, e.ux, e.uy, e.uz⟩ g b nx ny nz = ⟨1, 0, 0, 0⟩ := by
  obtain ⟨hn, hg, _, _, _, hG, hx, hy, hz⟩ := restFrame_spec e he g b nx ny nz h
  have hn' : (-nx) ^ 2 + (-ny) ^ 2 + (-nz) ^ 2 = 1 := by linarith
  refine ⟨lorentz_inverse hn hg q, lorentz_inv hn hg q, lorentz_inv hn' hg q, ?_⟩
  have hrest : lorentzTransform ⟨1, 0, 0, 0⟩ g b (-nx) (-ny) (-nz) = ⟨e.gamma, e.ux, e.uy, e.uz⟩ := by
    ext
    · simp only [lorentzTransform]; rw [show e.gamma = g from hG.symm]; ring
    · simp only [lorentzTransform]; rw [← hx]; ring
    · simp only [lorentzTransform]; rw [← hy]; ring
    · simp only [lorentzTransform]; rw [← hz]; ring
  rw [← hrest]
  have := lorentz_inverse hn' hg ⟨1, 0, 0, 0⟩
  simpa using this

/-- Everything about one scattering event, for a cosine in `[-1, 1]`. -/
theorem scatter_event (invMC : ℝ) (hm : 0 < invMC) (e : ElecMom) (he : e.ok) (q : FourMom)
    (hq : q.inv = 0) (hqp : 0 < q.p) (d : ScatDraw) (hx : -1 ≤ d.x ∧ d.x ≤ 1) :
    let new := scatterPhoton invMC e q d
    new.inv = 0 ∧ 0 < new.p ∧
      (recoil invMC e q new).gamma = e.gamma + invMC * (q.p - new.p) := by
  intro new
  obtain ⟨g, b, nx, ny, nz, h⟩ : ∃ g b nx ny nz, restFrame e = (g, b, nx, ny, nz) :=
    ⟨_, _, _, _, _, rfl⟩
  obtain ⟨hn, hg, hg0, hb0, hb1, hG, hux, huy, huz⟩ := restFrame_spec e he g b nx ny nz h
  have hn' : (-nx) ^ 2 + (-ny) ^ 2 + (-nz) ^ 2 = 1 := by linarith
  set qr := lorentzTransform q g b nx ny nz with hqr
  have hqri : qr.inv = 0 := by rw [hqr, lorentz_inv hn hg, hq]
  have hqrp : 0 < qr.p := lorentz_pos hn hg0 hb0 hb1 q hq.ge hqp
  obtain ⟨s1, s2, s3, s4⟩ := scatterRest_spec invMC hm qr hqri hqrp d hx
  set nr := scatterRest invMC qr d with hnr
  have hnew : new = lorentzTransform nr g b (-nx) (-ny) (-nz) := by
    show scatterPhoton invMC e q d = _
    unfold scatterPhoton; rw [h]
  have hni : new.inv = 0 := by rw [hnew, lorentz_inv hn' hg, s1]
  have hnp : 0 < new.p := by rw [hnew]; exact lorentz_pos hn' hg0 hb0 hb1 nr s1.ge s2
  refine ⟨hni, hnp, ?_⟩
  -- four-momentum of the electron after the event, in its former rest frame
  set Q : FourMom := ⟨1 + invMC * (qr.p - nr.p), invMC * (qr.px - nr.px), invMC * (qr.py - nr.py),
    invMC * (qr.pz - nr.pz)⟩ with hQ
  have hback : q = lorentzTransform qr g b (-nx) (-ny) (-nz) := (lorentz_inverse hn hg q).symm
  have hQi : Q.inv = 1 := by
    simp only [FourMom.inv] at hqri s1 ⊢
    simp only [hQ]
    linear_combination invMC ^ 2 * hqri + invMC ^ 2 * s1 + 2 * invMC ^ 2 * s4 - 2 * invMC * s3
  have hQp : 0 < Q.p := by
    have : qr.p - nr.p = nr.p * (qr.p * invMC * (1 - d.x)) := by linarith
    have h1 : 0 ≤ 1 - d.x := by linarith [hx.2]
    simp only [hQ]; rw [this]; positivity
  have hLQ : lorentzTransform Q g b (-nx) (-ny) (-nz) = ⟨e.gamma + invMC * (q.p - new.p),
      e.ux + invMC * (q.px - new.px), e.uy + invMC * (q.py - new.py),
      e.uz + invMC * (q.pz - new.pz)⟩ := by
    rw [hnew]
    conv_rhs => rw [hback]
    ext
    · simp only [lorentzTransform, hQ]; rw [show e.gamma = g from hG.symm]; ring
    · simp only [lorentzTransform, hQ]; rw [← hux]; ring
    · simp only [lorentzTransform, hQ]; rw [← huy]; ring
    · simp only [lorentzTransform, hQ]; rw [← huz]; ring
  have hi : (lorentzTransform Q g b (-nx) (-ny) (-nz)).inv = 1 := by rw [lorentz_inv hn' hg, hQi]
  have hp : 0 < (lorentzTransform Q g b (-nx) (-ny) (-nz)).p :=
    lorentz_pos hn' hg0 hb0 hb1 Q (by rw [hQi]; norm_num) hQp
  rw [hLQ] at hi hp
  simp only [FourMom.inv] at hi hp
  have hsq : 1 + (e.ux + invMC * (q.px - new.px)) ^ 2 + (e.uy + invMC * (q.py - new.py)) ^ 2
      + (e.uz + invMC * (q.pz - new.pz)) ^ 2 = (e.gamma + invMC * (q.p - new.p)) ^ 2 := by linarith
  show Real.sqrt _ = _
  simp only [recoil]
  rw [hsq, Real.sqrt_sq hp.le]

/-- Momentum of the incoming photon in the rest frame of the electron. -/
private theorem rest_pos (invMC : ℝ) (hm : 0 < invMC) (e : ElecMom) (he : e.ok) (q : FourMom)
    (hq : q.inv = 0) (hqp : 0 < q.p) (g b nx ny nz : ℝ) (h : restFrame e = (g, b, nx, ny, nz)) :
    0 < (lorentzTransform q g b nx ny nz).p * invMC := by
  obtain ⟨hn, hg, hg0, hb0, hb1, _⟩ := restFrame_spec e he g b nx ny nz h
  exact mul_pos (lorentz_pos hn hg0 hb0 hb1 q hq.ge hqp) hm

/-- **C18 (photons).** For every electron with consistent `inv_gamma`, every incoming photon and every
outcome of the draws, the emitted photon is light-like with positive energy in the frame of the
simulation, and the event conserves energy and momentum: the electron that takes the recoil
(`recoil`: momentum plus incoming minus outgoing photon) is again on its mass shell with the energy lost
by the photon. -/
theorem C18_photon (invMC : ℝ) (hm : 0 < invMC) (e : ElecMom) (he : e.ok) (q : FourMom)
    (hq : q.inv = 0) (hqp : 0 < q.p) (g b nx ny nz : ℝ) (h : restFrame e = (g, b, nx, ny, nz))
    (d : ScatDraw) (r1 : ℝ) (hr : 0 ≤ r1 ∧ r1 < 1)
    (hd : d.x = drawX invMC (lorentzTransform q g b nx ny nz).p r1) :
    let new := scatterPhoton invMC e q d
    new.inv = 0 ∧ 0 < new.p ∧
      (recoil invMC e q new).gamma = e.gamma + invMC * (q.p - new.p) :=
  scatter_event invMC hm e he q hq hqp d (by
    rw [hd]; exact drawX_mem _ _ _ (rest_pos invMC hm e he q hq hqp g b nx ny nz h) ⟨hr.1, hr.2.le⟩)

/-- A concrete head-on event meeting the hypotheses of `C18_photon`. -/
example : ∃ (e : ElecMom) (q : FourMom) (g b nx ny nz : ℝ) (d : ScatDraw), e.ok ∧ q.inv = 0 ∧ 0 < q.p ∧
    e.uz ≠ 0 ∧ restFrame e = (g, b, nx, ny, nz) ∧
    d.x = drawX 1 (lorentzTransform q g b nx ny nz).p 0.5 := by
  refine ⟨⟨0, 0, 3, 1 / ElecMom.gamma ⟨0, 0, 3, 0⟩⟩, incomingPhoton 1 1 0, _, _, _, _, _, ⟨_, 0⟩, rfl,
    ?_, ?_, by norm_num, rfl, rfl⟩
  · exact (C18_incoming 1 1 0 (by norm_num) (by norm_num) (by norm_num)).1
  · exact (C18_incoming 1 1 0 (by norm_num) (by norm_num) (by norm_num)).2.1

/-- **C18 (batches).** For every batch size, the photons created in a step are appended after the old
ones, in the order of the electrons: every electron contributes exactly the photons that were drawn for
it, none is lost or overwritten, and the momentum of an electron is changed by its own recoil only. -/
theorem C18_batches {Pos : Type} (P : IonParams) (hb : 0 < P.batchSize) (invMC invRatio : ℝ) (q : FourMom)
    (el : ComptonElec Pos) (n : ℕ → ℕ) (D : ComptonDraws) (oldNtot : ℕ)
    (photons : ℕ → PhotonRec Pos) :
    let res := scatterAll P invMC invRatio q el n D oldNtot (cumsum1d (nPerBatch P el.Ntot n)) photons
    -- the number of new macroparticles, as allocated from the cumulated sum
    cumsum1d (nPerBatch P el.Ntot n) (P.nBatch el.Ntot) = ((List.range el.Ntot).map n).sum ∧
    (List.range (oldNtot + ((List.range el.Ntot).map n).sum)).map res.1 =
      (List.range oldNtot).map photons ++
        (List.range el.Ntot).flatMap (Spec.photonsOf invMC invRatio q el n D) ∧
    (∀ i < el.Ntot, res.2 i = Spec.newMom invMC invRatio q el n D i) := by
  intro res
  have hall := P.all_chunks hb el.Ntot
  have hres : res = (writeAt photons oldNtot
        ((List.range el.Ntot).flatMap (Spec.photonsOf invMC invRatio q el n D)),
       fun i => if i < el.Ntot then Spec.newMom invMC invRatio q el n D i else el.mom i) := by
    have := scatterAll_eq P invMC invRatio q el n D oldNtot photons (P.nBatch el.Ntot)
    rw [hall] at this
    exact this
  refine ⟨by rw [cumsum1d_eq, hall], ?_, ?_⟩
  · rw [hres]
    set L := (List.range el.Ntot).flatMap (Spec.photonsOf invMC invRatio q el n D) with hL
    have hlen : ((List.range el.Ntot).map n).sum = L.length := (photons_length _ _ _ _ _ _ _).symm
    rw [hlen]
    apply List.ext_getElem
    · simp
    · intro j h1 h2
      simp only [List.length_map, List.length_range] at h1
      simp only [List.getElem_map, List.getElem_range, writeAt]
      by_cases hj : j < oldNtot
      · simp [hj]
      · rw [if_neg hj, List.getElem_append_right (by simpa using hj)]
        have : j - oldNtot < L.length := by omega
        simp [List.getElem?_eq_getElem this]
  · intro i hi; rw [hres]; simp [hi]

/-- **C18** (the stored photons): every photon added by the call comes from an electron of the species: it
starts at its position, carries its weight divided by the ratio and the momentum of the scattered photon,
and moves at the speed of light (the velocity used by the particle pusher is `c*p*inv_gamma`). -/
theorem C18_stored {Pos : Type} (P : IonParams) (hb : 0 < P.batchSize) (invMC invRatio : ℝ)
    (hm : 0 < invMC) (q : FourMom) (hq : q.inv = 0) (hqp : 0 < q.p) (el : ComptonElec Pos)
    (hel : ∀ i < el.Ntot, (el.mom i).ok) (n : ℕ → ℕ) (D : ComptonDraws)
    (hD : ∀ i j, -1 ≤ (D.scat i j).x ∧ (D.scat i j).x ≤ 1) (oldNtot : ℕ)
    (photons : ℕ → PhotonRec Pos) (k : ℕ) (h1 : oldNtot ≤ k)
    (h2 : k < oldNtot + cumsum1d (nPerBatch P el.Ntot n) (P.nBatch el.Ntot)) :
    let ph := (scatterAll P invMC invRatio q el n D oldNtot (cumsum1d (nPerBatch P el.Ntot n)) photons).1 k
    ∃ i < el.Ntot, ∃ j < n i, ph.pos = el.pos i ∧ ph.w = el.w i * invRatio ∧
      ph.px = (scatterPhoton invMC (el.mom i) q (D.scat i j)).px ∧
      ph.py = (scatterPhoton invMC (el.mom i) q (D.scat i j)).py ∧
      ph.pz = (scatterPhoton invMC (el.mom i) q (D.scat i j)).pz ∧
      0 < ph.invGamma ∧
      (ph.px * ph.invGamma) ^ 2 + (ph.py * ph.invGamma) ^ 2 + (ph.pz * ph.invGamma) ^ 2 = 1 := by
  intro ph
  obtain ⟨e1, e2, -⟩ := C18_batches P hb invMC invRatio q el n D oldNtot photons
  rw [e1] at h2
  have hmem : ph ∈ (List.range el.Ntot).flatMap (Spec.photonsOf invMC invRatio q el n D) := by
    have h := congrArg (fun l => l[k]?) e2
    simp only [List.getElem?_map, List.getElem?_range h2, Option.map_some] at h
    rw [List.getElem?_append_right (by simpa using h1)] at h
    exact List.mem_of_getElem? h.symm
  obtain ⟨i, hi, hj⟩ := List.mem_flatMap.1 hmem
  obtain ⟨j, hj, hph⟩ := List.mem_map.1 hj
  have hi := List.mem_range.1 hi
  obtain ⟨v1, v2, -⟩ := scatter_event invMC hm (el.mom i) (hel i hi) q hq hqp (D.scat i j) (hD i j)
  refine ⟨i, hi, j, List.mem_range.1 hj, ?_⟩
  rw [← hph]
  refine ⟨rfl, rfl, rfl, rfl, rfl, ?_, ?_⟩
  · simp only [mkPhoton]; positivity
  · simp only [mkPhoton]
    rw [FourMom.inv, sub_eq_zero] at v1
    field_simp
    exact v1.symm

/-! ### C19 -/

/-- **C19, what the code guarantees.** After the event the stored `inv_gamma` of the recoiling
electron matches its stored momentum exactly when the photon left with the energy it came with; the
electrons that do not recoil stay consistent (they are not modified). The full property is false of the
code, see `C19_violated`. -/
theorem C19_iff_partial (invMC : ℝ) (hm : 0 < invMC) (e : ElecMom) (he : e.ok) (q : FourMom)
    (hq : q.inv = 0) (hqp : 0 < q.p) (d : ScatDraw) (hx : -1 ≤ d.x ∧ d.x ≤ 1) :
    (recoil invMC e q (scatterPhoton invMC e q d)).ok ↔ (scatterPhoton invMC e q d).p = q.p := by
  obtain ⟨_, _, h3⟩ := scatter_event invMC hm e he q hq hqp d hx
  unfold ElecMom.ok
  rw [h3]
  have hG0 : 0 < e.gamma := Real.sqrt_pos.mpr (by positivity)
  have hG1 : (recoil invMC e q (scatterPhoton invMC e q d)).invGamma = e.invGamma := rfl
  have hpos : 0 < e.gamma + invMC * (q.p - (scatterPhoton invMC e q d).p) := by
    rw [← h3]; exact Real.sqrt_pos.mpr (by positivity)
  rw [hG1, he, one_div, one_div, inv_inj]
  constructor
  · intro h
    have : invMC * (q.p - (scatterPhoton invMC e q d).p) = 0 := by linarith
    rcases mul_eq_zero.mp this with h | h
    · exact absurd h hm.ne'
    · linarith
  · intro h; rw [h]; ring

/-- **C19 is violated.** In a run with a single electron at rest, one photon and a recoil, the
electron ends with a stored `inv_gamma` that does not belong to its momentum. -/
theorem C19_violated : ∃ (P : IonParams) (invMC invRatio : ℝ) (q : FourMom) (el : ComptonElec Unit)
    (n : ℕ → ℕ) (D : ComptonDraws) (photons : ℕ → PhotonRec Unit),
    0 < P.batchSize ∧ 0 < invMC ∧ q = incomingPhoton 1 1 0 ∧ 0 < invRatio ∧ invRatio ≤ 1 ∧
    (∀ i j, ∃ r1, 0 ≤ r1 ∧ r1 < 1 ∧ (D.scat i j).x = drawX invMC q.p r1) ∧
    (∀ i < el.Ntot, (el.mom i).ok) ∧
    ¬ ∀ i < el.Ntot, ((scatterAll P invMC invRatio q el n D 0
        (cumsum1d (nPerBatch P el.Ntot n)) photons).2 i).ok := by
  refine ⟨⟨10, 0, 0, False⟩, 1, 1, incomingPhoton 1 1 0, ⟨1, fun _ => (), fun _ => ⟨0, 0, 0, 1⟩, fun _ => 1⟩,
    fun _ => 1, ⟨fun _ => 0, fun _ _ => ⟨-1, 0⟩, fun _ => 0⟩,
    fun _ => ⟨(), 0, 0, 0, 0, 0⟩, by norm_num, by norm_num, rfl, by norm_num, by norm_num, ?_, ?_, ?_⟩
  · intro i j
    refine ⟨0, le_rfl, by norm_num, ?_⟩
    simp [drawX]
  · intro i _; simp [ElecMom.ok, ElecMom.gamma]
  · intro h
    have h0 := h 0 (by norm_num)
    obtain ⟨_, _, h3⟩ := C18_batches (Pos := Unit) ⟨10, 0, 0, False⟩ (by norm_num) 1 1
      (incomingPhoton 1 1 0) ⟨1, fun _ => (), fun _ => ⟨0, 0, 0, 1⟩, fun _ => 1⟩ (fun _ => 1)
      ⟨fun _ => 0, fun _ _ => ⟨-1, 0⟩, fun _ => 0⟩ 0 (fun _ => ⟨(), 0, 0, 0, 0, 0⟩)
    rw [h3 0 (by norm_num)] at h0
    simp only [Spec.newMom] at h0
    norm_num at h0
    obtain ⟨hi, hp, hpv⟩ := C18_incoming 1 1 0 (by norm_num) (by norm_num) (by norm_num)
    have hok : (⟨0, 0, 0, 1⟩ : ElecMom).ok := by simp [ElecMom.ok, ElecMom.gamma]
    rw [C19_iff_partial 1 (by norm_num) _ hok _ hi hp _ (by norm_num)] at h0
    have hrf : restFrame ⟨0, 0, 0, 1⟩ = (1, 0, 0, 0, 1) := by simp [restFrame]
    have hnp : (scatterPhoton 1 ⟨0, 0, 0, 1⟩ (incomingPhoton 1 1 0) ⟨-1, 0⟩).p
        = (incomingPhoton 1 1 0).p / (1 + (incomingPhoton 1 1 0).p * 1 * (1 - (-1))) := by
      unfold scatterPhoton; rw [hrf]
      simp [lorentzTransform, scatterRest]
    rw [hnp, hpv] at h0
    norm_num at h0

end Fbpic
