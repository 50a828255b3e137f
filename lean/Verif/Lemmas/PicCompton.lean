import Verif.Spec.PicCompton
import Verif.Props.Compton
import Verif.Lemmas.PicEventGauss

/-!
# Lemmas: one step of Compton scattering in a simulation
-/

namespace Fbpic.Pic

open Transform ExternalField Step Spec

/-! ### Kinematics -/

theorem velocity2_ok {e : ElecMom} (h : e.ok) : velocity2 e ≤ 1 := by
  unfold ElecMom.ok ElecMom.gamma at h
  have hp : 0 < 1 + e.ux ^ 2 + e.uy ^ 2 + e.uz ^ 2 := by positivity
  have hs : e.invGamma ^ 2 * (1 + e.ux ^ 2 + e.uy ^ 2 + e.uz ^ 2) = 1 := by
    rw [h, div_pow, Real.sq_sqrt hp.le]; field_simp
  unfold velocity2
  nlinarith [sq_nonneg e.invGamma]

theorem velocity2_recoil {invMC : ℝ} (hm : 0 < invMC) {e : ElecMom} (he : e.ok) {q : FourMom} (hq : q.inv = 0)
    (hqp : 0 < q.p) {d : ScatDraw} (hx : -1 ≤ d.x ∧ d.x ≤ 1) {k : ℝ} (hk : q.p * invMC ≤ k) :
    velocity2 (recoil invMC e q (scatterPhoton invMC e q d)) ≤ (1 + k) ^ 2 := by
  obtain ⟨-, h2, h3⟩ := scatter_event invMC hm e he q hq hqp d hx
  set r := recoil invMC e q (scatterPhoton invMC e q d) with hr
  have hg1 : 1 ≤ e.gamma := by
    unfold ElecMom.gamma
    refine Real.le_sqrt_of_sq_le ?_
    nlinarith [sq_nonneg e.ux, sq_nonneg e.uy, sq_nonneg e.uz]
  have hgr : r.gamma ^ 2 = 1 + r.ux ^ 2 + r.uy ^ 2 + r.uz ^ 2 := Real.sq_sqrt (by positivity)
  have hr0 : 0 ≤ r.gamma := Real.sqrt_nonneg _
  have hle : r.gamma ≤ e.gamma + k := by
    rw [h3]
    have : 0 < invMC * (scatterPhoton invMC e q d).p := mul_pos hm h2
    nlinarith
  have hi : r.invGamma = 1 / e.gamma := he
  have hk0 : 0 ≤ k := le_trans (mul_pos hqp hm).le hk
  have h4 : r.gamma ≤ (1 + k) * e.gamma := by nlinarith
  have h5 : r.gamma / e.gamma ≤ 1 + k := by rw [div_le_iff₀ (by linarith)]; exact h4
  have h6 : 0 ≤ r.gamma / e.gamma := div_nonneg hr0 (by linarith)
  have : velocity2 r ≤ (r.gamma / e.gamma) ^ 2 := by
    unfold velocity2
    rw [hi, div_pow, hgr]
    have hE : 0 < e.gamma ^ 2 := by positivity
    rw [show (r.ux * (1 / e.gamma)) ^ 2 + (r.uy * (1 / e.gamma)) ^ 2 + (r.uz * (1 / e.gamma)) ^ 2
      = (r.ux ^ 2 + r.uy ^ 2 + r.uz ^ 2) / e.gamma ^ 2 by field_simp]
    exact div_le_div_of_nonneg_right (by linarith) hE.le
  exact this.trans (pow_le_pow_left₀ h6 h5 2)

theorem velocity2_photon {q : FourMom} (hq : q.inv = 0) (hp : 0 < q.p) :
    velocity2 ⟨q.px, q.py, q.pz, 1 / q.p⟩ = 1 := by
  unfold velocity2
  unfold FourMom.inv at hq
  field_simp
  linarith

/-! ### One call -/

/-- The photons that the electrons of a species emit. -/
noncomputable def Scatterer.emitted (S : Scatterer) (cl dt t : ℝ) (D : ComptonDraws) (el : ComptonElec (ℝ × ℝ × ℝ)) :
    List (PhotonRec (ℝ × ℝ × ℝ)) :=
  (List.range el.Ntot).flatMap (photonsOf S.invMC (1 / S.ratio) S.photon el (S.count cl dt t D el) D)

/-- The new macroparticles behind `n` old ones. -/
noncomputable def Scatterer.news (S : Scatterer) (cl dt t : ℝ) (D : ComptonDraws) (junk : ℕ → Comp → ℝ)
    (el : ComptonElec (ℝ × ℝ × ℝ)) (n : ℕ) : List Ptcl :=
  (S.emitted cl dt t D el).mapIdx fun k r => photonPtcl r 0 (junk (n + k))

/-- The new momenta. -/
noncomputable def Scatterer.newMoms (S : Scatterer) (cl dt t : ℝ) (D : ComptonDraws)
    (el : ComptonElec (ℝ × ℝ × ℝ)) : ℕ → ElecMom :=
  newMom S.invMC (1 / S.ratio) S.photon el (S.count cl dt t D el) D

theorem modify_congr {α : Type} (f g : α → α) {l : List α} {i : ℕ} {a : α} (h : l[i]? = some a) (hfg : f a = g a) :
    l.modify i f = l.modify i g := by
  apply List.ext_getElem?
  intro j
  simp only [List.getElem?_modify]
  by_cases hj : i = j
  · subst hj; simp [h, hfg]
  · simp [hj]

theorem modify_self {α : Type} (f : α → α) {l : List α} {i : ℕ} {a : α} (h : l[i]? = some a) (hfa : f a = a) :
    l.modify i f = l := by
  rw [modify_congr f id h hfa]
  exact List.modify_id i l

theorem setMomenta_congr (e : Species) {f g : ℕ → ElecMom} (h : ∀ i < e.ptcl.length, f i = g i) :
    e.setMomenta f = e.setMomenta g := by
  unfold Species.setMomenta
  have : e.ptcl.mapIdx (fun i p => { p with push := { p.push with mom := f i } })
      = e.ptcl.mapIdx fun i p => { p with push := { p.push with mom := g i } } := by
    apply List.ext_getElem (by simp)
    intro i h1 h2
    simp only [List.getElem_mapIdx]
    rw [h i (by simpa using h1)]
  rw [this]

theorem setMomenta_self (e : Species) : e.setMomenta e.electrons.mom = e := by
  unfold Species.setMomenta
  have : e.ptcl.mapIdx (fun i p => { p with push := { p.push with mom := e.electrons.mom i } }) = e.ptcl := by
    apply List.ext_getElem (by simp)
    intro i h1 h2
    simp only [List.getElem_mapIdx, Species.electrons, List.getD_eq_getElem?_getD, List.getElem?_eq_getElem h2,
      Option.getD_some]
  rw [this]

theorem handle_eq_scatter {S : Scatterer} (hb : 0 < S.batch) (cl dt t : ℝ) (D : ComptonDraws) (junk : ℕ → Comp → ℝ) {id : ℕ}
    {sps : List Species} {e ph : Species} (he : sps[id]? = some e) (hp : sps[S.target]? = some ph)
    (hne : id ≠ S.target) :
    S.handle cl dt t D junk id sps = .ok ((growSpecies sps S.target
      (S.news cl dt t D junk e.electrons ph.ptcl.length)).modify id
        fun e' => e'.setMomenta (S.newMoms cl dt t D e.electrons)) := by
  unfold Scatterer.handle
  rw [he, hp]
  simp only
  set n := S.count cl dt t D e.electrons with hn
  obtain ⟨h1, h2, h3⟩ := C18_batches S.batches hb S.invMC (1 / S.ratio) S.photon e.electrons n D ph.ptcl.length
    ph.photonRecs
  rw [h1]
  set tot := ((List.range e.electrons.Ntot).map n).sum with htot
  have hlen : (S.emitted cl dt t D e.electrons).length = tot := photons_length _ _ _ _ _ _ _
  by_cases h0 : tot = 0
  · rw [if_pos h0]
    have hnil : S.emitted cl dt t D e.electrons = [] := List.length_eq_zero_iff.1 (hlen.trans h0)
    have hnews : S.news cl dt t D junk e.electrons ph.ptcl.length = [] := by
      unfold Scatterer.news; rw [hnil]; rfl
    have hg : growSpecies sps S.target [] = sps := modify_self _ hp (by simp)
    rw [hnews, hg, modify_self _ he]
    conv_rhs => rw [← setMomenta_self e]
    refine setMomenta_congr e fun i hi => ?_
    have hz : n i = 0 := by
      have : n i ∈ (List.range e.electrons.Ntot).map n := List.mem_map.2 ⟨i, List.mem_range.2 hi, rfl⟩
      exact List.sum_eq_zero_iff.1 h0 _ this
    unfold Scatterer.newMoms newMom
    rw [← hn, if_neg (by omega)]
  · rw [if_neg h0]
    refine congrArg _ ?_
    have hphot : sps.modify S.target (fun ph' => ph'.setPhotons (ph'.ptcl.length + tot)
          (scatterAll S.batches S.invMC (1 / S.ratio) S.photon e.electrons n D ph.ptcl.length
            (cumsum1d (nPerBatch S.batches e.electrons.Ntot n)) ph.photonRecs).1 junk)
        = growSpecies sps S.target (S.news cl dt t D junk e.electrons ph.ptcl.length) := by
      refine modify_congr _ _ hp ?_
      unfold Species.setPhotons
      refine congrArg (fun l => { ph with ptcl := l }) ?_
      apply List.ext_getElem
      · simp [Scatterer.news, hlen]
      intro i g1 g2
      have hi : i < ph.ptcl.length + tot := by simpa using g1
      have hget := congrArg (fun l => l[i]?) h2
      simp only [List.getElem?_map, List.getElem?_range hi, Option.map_some] at hget
      simp only [List.getElem_map, List.getElem_range]
      by_cases hil : i < ph.ptcl.length
      · rw [if_pos hil, List.getElem_append_left hil]
        rw [List.getElem?_append_left (by simpa using hil)] at hget
        simp only [List.getElem?_map, List.getElem?_range hil, Option.map_some, Option.some.injEq] at hget
        rw [hget]
        simp only [Species.photonRecs, photonPtcl, List.getD_eq_getElem?_getD, List.getElem?_eq_getElem hil,
          Option.getD_some]
      · rw [if_neg hil, List.getElem_append_right (by omega)]
        rw [List.getElem?_append_right (by simpa using hil)] at hget
        simp only [List.length_map, List.length_range] at hget
        unfold Scatterer.news
        rw [List.getElem_mapIdx]
        have := List.getElem?_eq_some_iff.1 hget.symm
        obtain ⟨g3, g4⟩ := this
        have e1 : (S.emitted cl dt t D e.electrons)[i - ph.ptcl.length]'g3 = _ := g4
        exact congrArg₂ (fun r j => photonPtcl r 0 (junk j)) e1.symm (by omega)
    rw [hphot]
    have hide : (growSpecies sps S.target (S.news cl dt t D junk e.electrons ph.ptcl.length))[id]? = some e := by
      unfold growSpecies
      rw [List.getElem?_modify, he]
      simp [Ne.symm hne]
    refine modify_congr _ _ hide (setMomenta_congr e fun i hi => ?_)
    exact h3 i hi

/-! ### All species -/

/-- Species whose electrons are pushed in every iteration. -/
def Kickable (sp : Species) : Prop := sp.q ≠ 0 ∧ sp.plane = none ∧ sp.ionizable = false

theorem kickable_head {a b : Species} (h : b.head = a.head) : Kickable b ↔ Kickable a := by
  obtain ⟨h1, -, -, -, h5, h6⟩ := head_iff.1 h
  unfold Kickable
  rw [h1, h5, h6]

/-- What happens to a macroparticle that exists before the step. -/
structure Kick (V : ℝ) (sp : Species) (p p' : Ptcl) : Prop where
  x : p'.push.x = p.push.x
  y : p'.push.y = p.push.y
  z : p'.push.z = p.push.z
  level : p'.push.level = p.push.level
  w : p'.w = p.w
  still : ¬ Kickable sp → p'.push.mom = p.push.mom
  fast : Kickable sp → velocity2 p'.push.mom ≤ V ^ 2

/-- A new macroparticle. -/
def Fresh (all : List Species) (p : Ptcl) : Prop := AtLightSpeed p ∧ ∃ sp ∈ all, ∃ p0 ∈ sp.ptcl,
  p.push.x = p0.push.x ∧ p.push.y = p0.push.y ∧ p.push.z = p0.push.z

/-- What happens to a species. -/
structure KickedSp (V : ℝ) (all : List Species) (sp sp' : Species) : Prop where
  head : sp'.head = sp.head
  ptcl : ∃ l extra, sp'.ptcl = l ++ extra ∧ List.Forall₂ (Kick V sp) sp.ptcl l ∧ (extra ≠ [] → sp.q = 0) ∧
    ∀ p ∈ extra, Fresh all p

/-- The electrons of the species that scatter are consistent. -/
def Oks (sps : List Species) : Prop := ∀ sp ∈ sps, Kickable sp → ∀ p ∈ sp.ptcl, p.push.mom.ok

theorem ScatterersOk_head {scat : ℕ → Option Scatterer} {a b : List Species}
    (h : b.map Species.head = a.map Species.head) (ha : ScatterersOk scat a) : ScatterersOk scat b := by
  intro id S hid hS
  have hl : b.length = a.length := by simpa using congrArg List.length h
  obtain ⟨h1, h2, h3, h4, h5, ⟨e, g1, g2⟩, ph, g3, g4⟩ := ha id S (hl ▸ hid) hS
  obtain ⟨e', k1, k2⟩ := head_get h g1
  obtain ⟨ph', k3, k4⟩ := head_get h g3
  exact ⟨h1, h2, h3, h4, h5, ⟨e', k1, (kickable_head k2).2 g2⟩, ph', k3, (head_iff.1 k4).1.trans g4⟩

theorem electrons_get {e : Species} {i : ℕ} (hi : i < e.ptcl.length) :
    e.electrons.pos i = (e.ptcl[i].push.x, e.ptcl[i].push.y, e.ptcl[i].push.z) ∧
    e.electrons.mom i = e.ptcl[i].push.mom ∧ e.electrons.w i = e.ptcl[i].w := by
  simp [Species.electrons, List.getD_eq_getElem?_getD, List.getElem?_eq_getElem hi]

theorem news_fresh {S : Scatterer} (hm : 0 < S.invMC) (hq : S.photon.inv = 0) (hqp : 0 < S.photon.p) (cl dt t : ℝ)
    {D : ComptonDraws} (hD : ∀ i j, -1 ≤ (D.scat i j).x ∧ (D.scat i j).x ≤ 1) (junk : ℕ → Comp → ℝ) {e : Species}
    (he : ∀ p ∈ e.ptcl, p.push.mom.ok) {all : List Species} (hall : e ∈ all) (n : ℕ) :
    ∀ p ∈ S.news cl dt t D junk e.electrons n, Fresh all p := by
  intro p hp
  obtain ⟨k, hk, rfl⟩ := List.mem_iff_getElem.1 hp
  unfold Scatterer.news at hk ⊢
  simp only [List.length_mapIdx] at hk
  simp only [List.getElem_mapIdx]
  have hr := List.getElem_mem hk
  set r := (S.emitted cl dt t D e.electrons)[k] with hrdef
  obtain ⟨i, hi, hj⟩ := List.mem_flatMap.1 hr
  obtain ⟨j, hj, hph⟩ := List.mem_map.1 hj
  have hi : i < e.ptcl.length := List.mem_range.1 hi
  obtain ⟨g1, g2, g3⟩ := electrons_get hi
  have hok : (e.electrons.mom i).ok := by rw [g2]; exact he _ (List.getElem_mem hi)
  obtain ⟨v1, v2, -⟩ := scatter_event S.invMC hm (e.electrons.mom i) hok S.photon hq hqp (D.scat i j) (hD i j)
  rw [← hph]
  refine ⟨⟨?_, ?_⟩, e, hall, e.ptcl[i], List.getElem_mem hi, ?_⟩
  · simp only [photonPtcl, mkPhoton]; positivity
  · exact velocity2_photon v1 v2
  · simp only [photonPtcl, mkPhoton, g1]
    exact ⟨trivial, trivial, trivial⟩

theorem setMomenta_kick {S : Scatterer} (hm : 0 < S.invMC) (hq : S.photon.inv = 0) (hqp : 0 < S.photon.p) {k : ℝ}
    (hk : S.photon.p * S.invMC ≤ k) (cl dt t : ℝ) {D : ComptonDraws}
    (hD : ∀ i j, -1 ≤ (D.scat i j).x ∧ (D.scat i j).x ≤ 1) {e : Species} (hke : Kickable e)
    (he : ∀ p ∈ e.ptcl, p.push.mom.ok) :
    List.Forall₂ (Kick (1 + k) e) e.ptcl (e.setMomenta (S.newMoms cl dt t D e.electrons)).ptcl := by
  rw [List.forall₂_iff_get]
  refine ⟨by simp [Species.setMomenta], fun i h1 h2 => ?_⟩
  simp only [Species.setMomenta, List.get_eq_getElem, List.getElem_mapIdx]
  refine ⟨rfl, rfl, rfl, rfl, rfl, fun h => absurd hke h, fun _ => ?_⟩
  have hok := he _ (List.getElem_mem h1)
  have hk0 : 0 ≤ k := le_trans (mul_pos hqp hm).le hk
  show velocity2 (S.newMoms cl dt t D e.electrons i) ≤ _
  unfold Scatterer.newMoms newMom
  rw [(electrons_get h1).2.1]
  split_ifs
  · exact velocity2_recoil hm hok hq hqp (hD _ _) hk
  · refine (velocity2_ok hok).trans ?_
    nlinarith

theorem kick_refl {V : ℝ} (hV : 1 ≤ V) {sps : List Species} (hok : Oks sps) {sp : Species} (hsp : sp ∈ sps) :
    KickedSp V sps sp sp := by
  refine ⟨rfl, sp.ptcl, [], by simp, List.forall₂_same.2 fun p hp => ⟨rfl, rfl, rfl, rfl, rfl, fun _ => rfl, fun h => ?_⟩,
    fun h => absurd rfl h, by simp⟩
  refine (velocity2_ok (hok sp hsp h p hp)).trans ?_
  nlinarith

/-- All scatterers of one iteration. -/
theorem compton_fold {scat : ℕ → Option Scatterer} {cl dt t : ℝ} {D : ℕ → ComptonDraws} {junk : ℕ → ℕ → Comp → ℝ}
    (hD : ∀ id i j, -1 ≤ ((D id).scat i j).x ∧ ((D id).scat i j).x ≤ 1) {k : ℝ} (hk0 : 0 ≤ k) (hk : HardnessLe scat k)
    {sps : List Species} (hok : Oks sps) (hS : ScatterersOk scat sps) (n : ℕ) (hn : n ≤ sps.length) :
    ∃ sps', (List.range n).foldlM (fun sps id =>
      match scat id with
      | none => (.ok sps : Except PyErr (List Species))
      | some S => S.handle cl dt t (D id) (junk id) id sps) sps = .ok sps' ∧ sps'.length = sps.length ∧
      ∀ (i : ℕ) (sp : Species), sps[i]? = some sp → ∃ sp', sps'[i]? = some sp' ∧ KickedSp (1 + k) sps sp sp' ∧
        (n ≤ i → sp.q ≠ 0 → sp' = sp) := by
  induction n with
  | zero =>
    exact ⟨sps, rfl, rfl, fun i sp h => ⟨sp, h, kick_refl (by linarith) hok (List.mem_of_getElem? h), fun _ _ => rfl⟩⟩
  | succ n ih =>
    obtain ⟨sps1, e1, e2, e3⟩ := ih (by omega)
    rw [List.range_succ, List.foldlM_append, e1]
    have hsimp : ∀ (f : List Species → ℕ → Except PyErr (List Species)),
        ((Except.ok sps1 : Except PyErr (List Species)) >>= fun s => List.foldlM f s [n]) = f sps1 n := by
      intro f
      show List.foldlM f sps1 [n] = _
      simp only [List.foldlM_cons, List.foldlM_nil]
      cases f sps1 n <;> rfl
    rw [hsimp]
    cases hs : scat n with
    | none =>
      refine ⟨sps1, rfl, e2, fun i sp h => ?_⟩
      obtain ⟨sp', a, b, d⟩ := e3 i sp h
      exact ⟨sp', a, b, fun hi => d (by omega)⟩
    | some S =>
      obtain ⟨hb, hm, hq, hqp, hr, ⟨e, he, hke⟩, ph, hph, hph0⟩ := hS n S (by omega) hs
      obtain ⟨e', he', -, he''⟩ := e3 n e he
      obtain rfl : e' = e := he'' le_rfl hke.1
      obtain ⟨ph', hph', hkph, -⟩ := e3 S.target ph hph
      have hne : n ≠ S.target := by
        rintro h
        rw [← h, he] at hph
        exact hke.1 (by rw [Option.some.inj hph]; exact hph0)
      have hmem : e' ∈ sps := List.mem_of_getElem? he
      have hoke := hok e' hmem hke
      simp only
      rw [handle_eq_scatter hb cl dt t (D n) (junk n) he' hph' hne]
      refine ⟨_, rfl, by simp [growSpecies, e2], fun i sp h => ?_⟩
      obtain ⟨sp1, a1, a2, a3⟩ := e3 i sp h
      unfold growSpecies
      rw [List.getElem?_modify, List.getElem?_modify, a1]
      by_cases hi : n = i
      · subst hi
        obtain rfl : sp = e' := Option.some.inj (h.symm.trans he)
        obtain rfl : sp1 = sp := Option.some.inj (a1.symm.trans he')
        refine ⟨sp1.setMomenta (S.newMoms cl dt t (D n) sp1.electrons), by simp [Ne.symm hne], ⟨rfl, _, [],
          (List.append_nil _).symm, setMomenta_kick hm hq hqp (hk n S hs) cl dt t (hD n) hke hoke,
          fun h => absurd rfl h, by simp⟩, fun hi => absurd hi (by omega)⟩
      · by_cases hit : S.target = i
        · subst hit
          obtain rfl : sp = ph := Option.some.inj (h.symm.trans hph)
          obtain rfl : sp1 = ph' := Option.some.inj (a1.symm.trans hph')
          obtain ⟨l, extra, b1, b2, b3, b4⟩ := a2.ptcl
          refine ⟨{ sp1 with ptcl := sp1.ptcl ++ S.news cl dt t (D n) (junk n) e'.electrons sp1.ptcl.length }, by simp [hi],
            ⟨a2.head, l, extra ++ S.news cl dt t (D n) (junk n) e'.electrons sp1.ptcl.length, ?_, b2, fun _ => hph0, ?_⟩,
            fun _ hq0 => absurd hph0 hq0⟩
          · show sp1.ptcl ++ _ = _
            rw [b1, List.append_assoc]
          · intro p hp
            rcases List.mem_append.1 hp with hp | hp
            · exact b4 p hp
            · exact news_fresh hm hq hqp cl dt t (hD n) (junk n) hoke hmem _ p hp
        · exact ⟨sp1, by simp [hi, hit], a2, fun hi' => a3 (by omega)⟩

end Fbpic.Pic
