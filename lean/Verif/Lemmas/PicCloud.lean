import Verif.Lemmas.PicScale
import Verif.Spec.Pic

/-!
# The result depends on the macroparticles only through the cloud that they stand for
-/

namespace Fbpic.Pic

open Transform ExternalField Step
open Spec (weighted NoNewPlace SameCloud SameSpecies SameRun)

/-- The place of a macroparticle in phase space, and the fields on it. -/
abbrev Key := PushPtcl × (Comp → ℝ)

/-- The same weight at another place. -/
def atKey (g : Key → Key) (p : Ptcl) : Ptcl := ⟨(g (p.push, p.F)).1, p.w, (g (p.push, p.F)).2⟩

theorem weighted_map (g : Key → Key) (φ : Key → ℂ) (L : List Ptcl) :
    weighted φ (L.map (atKey g)) = weighted (fun k => φ (g k)) L := by
  unfold weighted
  rw [List.map_map]
  rfl

theorem noNew_map (g : Key → Key) {L L' : List Ptcl} (h : NoNewPlace L L') :
    NoNewPlace (L.map (atKey g)) (L'.map (atKey g)) := by
  intro p' hp'
  obtain ⟨x, hx, rfl⟩ := List.mem_map.1 hp'
  obtain ⟨y, hy, e1, e2⟩ := h x hx
  refine ⟨atKey g y, List.mem_map_of_mem hy, ?_, ?_⟩
  · unfold atKey; rw [e1, e2]
  · unfold atKey; rw [e1, e2]

/-- A relation that is preserved when the macroparticles change place, and that makes the clouds equal. -/
class CloudRel (P : List Ptcl → List Ptcl → Prop) : Prop where
  move : ∀ (g : Key → Key) L L', P L L' → P (L.map (atKey g)) (L'.map (atKey g))
  sum : ∀ L L', P L L' → SameCloud L L'

instance : CloudRel SameCloud where
  move g L L' h := fun φ => by
    rw [weighted_map, weighted_map]
    exact h _
  sum _ _ h := h

instance : CloudRel (· = ·) where
  move g L L' h := by rw [h]
  sum L L' h := by rw [h]; exact fun _ => rfl

variable {P : List Ptcl → List Ptcl → Prop} [CloudRel P]

theorem same_map (g : Key → Key) {a b : Species} (h : SameSpecies P a b) :
    SameSpecies P { a with ptcl := a.ptcl.map (atKey g) } { b with ptcl := b.ptcl.map (atKey g) } where
  q := h.q
  m := h.m
  shape := h.shape
  tracer := h.tracer
  ionizable := h.ionizable
  plane := h.plane
  places := noNew_map g h.places
  cloud := by
    rcases h.cloud with h | h | h
    · exact Or.inl h
    · exact Or.inr (Or.inl h)
    · exact Or.inr (Or.inr (CloudRel.move g _ _ h))

/-- A change of the particles that does not look at the weight. -/
def Blind (f : Species → Ptcl → Except PyErr Ptcl) : Prop :=
  ∀ sp p p', f sp p = .ok p' → p'.w = p.w ∧ ∀ w, f sp { p with w := w } = .ok { p' with w := w }

/-- The change of place. -/
noncomputable def keyMap (f : Species → Ptcl → Except PyErr Ptcl) (sp : Species) (k : Key) : Key :=
  match f sp ⟨k.1, 0, k.2⟩ with
  | .ok p' => (p'.push, p'.F)
  | .error _ => k

theorem blind_key {f : Species → Ptcl → Except PyErr Ptcl} (hf : Blind f) {sp : Species} {p p' : Ptcl}
    (h : f sp p = .ok p') : p' = atKey (keyMap f sp) p := by
  obtain ⟨h1, h2⟩ := hf sp p p' h
  have h3 : f sp ⟨p.push, 0, p.F⟩ = .ok { p' with w := 0 } := h2 0
  have h4 : keyMap f sp (p.push, p.F) = (p'.push, p'.F) := by
    unfold keyMap
    rw [h3]
  unfold atKey
  rw [h4, ← h1]

theorem mapPtclM_same (f f' : Species → Ptcl → Except PyErr Ptcl) (hf : Blind f) (s s' t : Sim)
    (hff : ∀ a b p, SameSpecies P a b → f' b p = f a p)
    (hR : List.Forall₂ (SameSpecies P) s.species s'.species) (ht : s.mapPtclM f = .ok t) :
    ∃ sps, s'.mapPtclM f' = .ok { s' with species := sps } ∧ List.Forall₂ (SameSpecies P) t.species sps := by
  obtain ⟨T, hT, rfl⟩ := (mapPtclM_ok _ _ _).1 ht
  have key : ∀ L L' T : List Species, List.Forall₂ (SameSpecies P) L L' →
      List.Forall₂ (SpRel fun sp p p' => f sp p = .ok p') L T →
      ∃ T', List.Forall₂ (SpRel fun sp p p' => f' sp p = .ok p') L' T' ∧ List.Forall₂ (SameSpecies P) T T' := by
    intro L L' T h
    induction h generalizing T with
    | nil => intro h; cases h; exact ⟨[], List.Forall₂.nil, List.Forall₂.nil⟩
    | @cons a b L L' hab _ ih =>
      intro h
      cases h with
      | @cons _ ta _ T' hta hT' =>
        obtain ⟨T'', h1, h2⟩ := ih T' hT'
        have e : ta = { a with ptcl := a.ptcl.map (atKey (keyMap f a)) } := by
          have hl : ta.ptcl = a.ptcl.map (atKey (keyMap f a)) := by
            refine (forall₂_fun _ _ _).1 (hta.ptcl.imp fun p p' h => blind_key hf h)
          obtain ⟨q, m, sh, tr, io, pl, pt⟩ := ta
          have := hta.q; have := hta.m; have := hta.shape; have := hta.tracer; have := hta.ionizable
          have := hta.plane
          simp only at *
          subst_vars
          rfl
        refine ⟨{ b with ptcl := b.ptcl.map (atKey (keyMap f a)) } :: T'', List.Forall₂.cons ?_ h1, ?_⟩
        · refine ⟨rfl, rfl, rfl, rfl, rfl, rfl, ?_⟩
          show List.Forall₂ _ b.ptcl (b.ptcl.map _)
          rw [List.forall₂_map_right_iff, List.forall₂_same]
          intro p hp
          obtain ⟨p0, hp0, e1, e2⟩ := hab.places p hp
          obtain ⟨p0', -, hp0'⟩ : ∃ b ∈ ta.ptcl, f a p0 = .ok b := by
            have : ∀ l l' : List Ptcl, List.Forall₂ (fun p p' => f a p = .ok p') l l' → ∀ x ∈ l,
                ∃ y ∈ l', f a x = .ok y := by
              intro l l' h
              induction h with
              | nil => simp
              | cons hab _ ih =>
                intro x hx
                rcases List.mem_cons.1 hx with rfl | hx
                · exact ⟨_, by simp, hab⟩
                · obtain ⟨y, hy, hr⟩ := ih x hx; exact ⟨y, by simp [hy], hr⟩
            exact this _ _ hta.ptcl p0 hp0
          have h3 : f a p = .ok { p0' with w := p.w } := by
            have : p = { p0 with w := p.w } := by
              cases p; cases p0; simp only at e1 e2; subst e1; subst e2; rfl
            rw [this]
            exact (hf a p0 p0' hp0').2 p.w
          rw [hff a b p hab, h3, blind_key hf h3]
        · rw [e]
          exact List.Forall₂.cons (same_map _ hab) h2
  obtain ⟨T', h1, h2⟩ := key _ _ _ hR hT
  exact ⟨T', (mapPtclM_ok _ _ _).2 ⟨T', h1, rfl⟩, h2⟩

/-! ### Deposition -/

theorem addsOf_weight (sh : Shape) (f : DepField) (cc q : ℝ) (g : CylGrid) (beta : List ℝ) (m : ℕ) (p : DepPtcl) :
    addsOf sh f cc q g beta m p
      = (addsOf sh f cc q g beta m { p with w := 1 }).map fun a => (a.1, a.2.1, (p.w : ℂ) * a.2.2) := by
  have hs : scalOf f cc q m p = (p.w : ℂ) * scalOf f cc q m { p with w := 1 } := by
    have h0 : ((f.scal0 cc q p : ℝ) : ℂ) = (p.w : ℂ) * ((f.scal0 cc q { p with w := 1 } : ℝ) : ℂ) := by
      rw [← Complex.ofReal_mul]
      congr 1
      cases f <;> simp only [DepField.scal0] <;> ring
    have hm : ∀ (a b : ℂ) (x y : ℝ) (k : ℂ), a = k * b → ∀ m, modeScal a x y m = k * modeScal b x y m := by
      intro a b x y k h m
      induction m with
      | zero => exact h
      | succ m ih => show _ * modeScal a x y m = k * (_ * modeScal b x y m); rw [ih]; ring
    unfold scalOf
    exact hm _ _ _ _ _ h0 m
  unfold addsOf
  rw [hs]
  show ptclAdds sh g (betaOf g beta p) _ _ (cylR p.x p.y) p.z
    = (ptclAdds sh g (betaOf g beta p) _ _ (cylR p.x p.y) p.z).map _
  simp only [ptclAdds, List.map_flatMap, List.map_map]
  refine congrArg (fun g => List.flatMap g _) ?_
  funext a
  refine congrArg (fun g => List.map g _) ?_
  funext b
  simp only [Function.comp]
  refine Prod.ext rfl (Prod.ext rfl ?_)
  show _ = (p.w : ℂ) * _
  rw [mul_left_comm]

theorem addBuf_scale (nz nr : ℕ) (l : ℂ) (L : List (ℤ × ℤ × ℂ)) :
    ((L.map fun a => (a.1, a.2.1, l * a.2.2)).map (addBuf nz nr)).sum = scaleB l ((L.map (addBuf nz nr)).sum) := by
  induction L with
  | nil => funext i j; exact (mul_zero l).symm
  | cons a L ih =>
    simp only [List.map_cons, List.sum_cons]
    rw [ih]
    funext i j
    simp only [scaleB, Pi.add_apply, addBuf, cellBuf]
    split_ifs <;> ring

theorem ptclBuf_weight (sh : Shape) (f : DepField) (cc q : ℝ) (g : CylGrid) (beta : List ℝ) (m : ℕ) (p : DepPtcl) :
    ptclBuf sh f cc q g beta m p = scaleB (p.w : ℂ) (ptclBuf sh f cc q g beta m { p with w := 1 }) := by
  unfold ptclBuf
  rw [addsOf_weight]
  exact addBuf_scale _ _ _ _

theorem ptclOk_weight (sh : Shape) (f : DepField) (cc q : ℝ) (g : CylGrid) (beta : List ℝ) (m : ℕ) (p : DepPtcl)
    (w : ℝ) (h : ptclOk sh f cc q g beta m p) : ptclOk sh f cc q g beta m { p with w := w } := by
  refine ⟨h.1, ?_⟩
  have h2 := h.2
  rw [addsOf_weight] at h2 ⊢
  intro a ha
  obtain ⟨b, hb, rfl⟩ := List.mem_map.1 ha
  exact h2 (b.1, b.2.1, (p.w : ℂ) * b.2.2) (List.mem_map.2 ⟨b, hb, rfl⟩)

/-- The contribution of a particle with unit weight. -/
noncomputable def unitBuf (sh : Shape) (f : DepField) (cc q : ℝ) (g : CylGrid) (beta : List ℝ) (m : ℕ) (ion : Bool)
    (k : Key) : Buf :=
  ptclBuf sh f cc q g beta m ((⟨k.1, 1, k.2⟩ : Ptcl).dep ion)

theorem dep_buf (sh : Shape) (f : DepField) (cc q : ℝ) (g : CylGrid) (beta : List ℝ) (m : ℕ) (ion : Bool) (p : Ptcl) :
    ptclBuf sh f cc q g beta m (p.dep ion) = scaleB (p.w : ℂ) (unitBuf sh f cc q g beta m ion (p.push, p.F)) := by
  unfold unitBuf
  rw [ptclBuf_weight, ptclBuf_weight (p := (⟨p.push, 1, p.F⟩ : Ptcl).dep ion)]
  have e : ({ (p.dep ion) with w := 1 } : DepPtcl) = { ((⟨p.push, 1, p.F⟩ : Ptcl).dep ion) with w := 1 } := rfl
  rw [e]
  generalize ptclBuf sh f cc q g beta m _ = B
  have hw : ((p.dep ion).w : ℝ) = p.w * ((⟨p.push, 1, p.F⟩ : Ptcl).dep ion).w := by
    unfold Ptcl.dep
    cases ion <;> simp
  rw [hw]
  funext i j
  show ((p.w * _ : ℝ) : ℂ) * B i j = (p.w : ℂ) * (_ * B i j)
  push_cast; ring

theorem species_buf (f : DepField) (cc : ℝ) (g : CylGrid) (beta : Shape → ℕ → List ℝ) (m : ℕ) (sp : Species) (i j : ℕ) :
    speciesBuf f cc g beta m sp.dep i j = if sp.q = 0 then 0 else
      weighted (fun k => unitBuf sp.shape f cc sp.q g (beta sp.shape (min m 1)) m sp.ionizable k i j) sp.ptcl := by
  unfold speciesBuf
  by_cases hq : sp.q = 0
  · rw [if_pos (show sp.dep.q = 0 from hq), if_pos hq]; rfl
  · rw [if_neg (show ¬ sp.dep.q = 0 from hq), if_neg hq]
    unfold weighted
    rw [show sp.dep.ptcls = sp.ptcl.map (Ptcl.dep sp.ionizable) from rfl, List.map_map, list_sum_apply,
      list_sum_apply, List.map_map, List.map_map]
    refine congrArg List.sum (List.map_congr_left fun p _ => ?_)
    show ptclBuf sp.shape f cc sp.q g (beta sp.shape (min m 1)) m (p.dep sp.ionizable) i j = _
    rw [dep_buf]
    rfl

theorem species_same (f : DepField) (cc : ℝ) (g : CylGrid) (beta : Shape → ℕ → List ℝ) (m : ℕ) {a b : Species}
    (h : SameSpecies P a b) (ht : a.isTracer = false) :
    speciesBuf f cc g beta m b.dep = speciesBuf f cc g beta m a.dep := by
  funext i j
  rw [species_buf, species_buf, h.q, h.shape, h.ionizable]
  by_cases hq : a.q = 0
  · rw [if_pos hq, if_pos hq]
  · rw [if_neg hq, if_neg hq]
    rcases h.cloud with h1 | h1 | h1
    · rw [ht] at h1; cases h1
    · exact absurd h1 hq
    · exact CloudRel.sum _ _ h1 _

theorem speciesOk_same (f : DepField) (cc : ℝ) (g : CylGrid) (beta : Shape → ℕ → List ℝ) (m : ℕ) {a b : Species}
    (h : SameSpecies P a b) (hok : speciesOk f cc g beta m a.dep) : speciesOk f cc g beta m b.dep := by
  intro hq p hp
  obtain ⟨p1, hp1, rfl⟩ := List.mem_map.1 hp
  obtain ⟨p0, hp0, e1, e2⟩ := h.places p1 hp1
  have hq' : a.dep.q ≠ 0 := by
    have : b.dep.q = a.dep.q := h.q
    rwa [this] at hq
  have h1 := hok hq' (p0.dep a.ionizable) (List.mem_map_of_mem hp0)
  have h2 := ptclOk_weight _ _ _ _ _ _ _ _ ((p1.dep b.ionizable).w) h1
  have e : ({ (p0.dep a.ionizable) with w := (p1.dep b.ionizable).w } : DepPtcl) = p1.dep b.ionizable := by
    unfold Ptcl.dep
    rw [e1]
  rw [e] at h2
  have e3 : b.dep.shape = a.dep.shape := h.shape
  have e4 : b.dep.q = a.dep.q := h.q
  rw [e3, e4]
  exact h2

variable (c : Cfg)

theorem depositing_same {L L' : List Species} (h : List.Forall₂ (SameSpecies P) L L') (f : DepField) (cc : ℝ) (g : CylGrid)
    (m : ℕ) :
    (((L'.filter fun sp => !sp.isTracer).map Species.dep).map (speciesBuf f cc g c.beta m)).sum
      = (((L.filter fun sp => !sp.isTracer).map Species.dep).map (speciesBuf f cc g c.beta m)).sum ∧
    ((∀ sp ∈ (L.filter fun sp => !sp.isTracer).map Species.dep, speciesOk f cc g c.beta m sp) →
      ∀ sp ∈ (L'.filter fun sp => !sp.isTracer).map Species.dep, speciesOk f cc g c.beta m sp) := by
  induction h with
  | nil => exact ⟨rfl, fun h => h⟩
  | @cons a b L L' hab _ ih =>
    cases ht : a.isTracer with
    | true =>
      have ht' : b.isTracer = true := by rw [hab.tracer, ht]
      rw [List.filter_cons_of_neg (by simp [ht']), List.filter_cons_of_neg (by simp [ht])]
      exact ih
    | false =>
      have ht' : b.isTracer = false := by rw [hab.tracer, ht]
      rw [List.filter_cons_of_pos (by simp [ht']), List.filter_cons_of_pos (by simp [ht])]
      simp only [List.map_cons, List.sum_cons, List.forall_mem_cons]
      refine ⟨?_, fun h => ⟨speciesOk_same _ _ _ _ _ hab h.1, ih.2 h.2⟩⟩
      rw [ih.1, species_same _ _ _ _ _ hab ht]

theorem wrap_blind (zmin zmax : ℝ) : Blind fun _ p => c.wrap zmin zmax p := by
  intro sp p p' h
  unfold Cfg.wrap at h ⊢
  simp only at h ⊢
  cases hz : wrapZ zmin zmax c.fuel p.push.z with
  | none => rw [hz] at h; cases h
  | some z =>
    rw [hz] at h
    cases h
    exact ⟨rfl, fun w => rfl⟩

theorem gather_blind (s : Sim) : Blind (c.gatherPtcl s) := by
  intro sp p p' h
  unfold Cfg.gatherPtcl at h ⊢
  by_cases hq : sp.q = 0
  · rw [if_pos hq] at h
    cases h
    exact ⟨rfl, fun w => by rw [if_pos hq]⟩
  · rw [if_neg hq] at h
    obtain ⟨E, hE, h⟩ := (except_bind_ok _ _ _).1 h
    obtain ⟨B, hB, h⟩ := (except_bind_ok _ _ _).1 h
    cases h
    refine ⟨rfl, fun w => ?_⟩
    rw [if_neg hq]
    exact (except_bind_ok _ _ _).2 ⟨E, hE, (except_bind_ok _ _ _).2 ⟨B, hB, rfl⟩⟩

theorem pushP_blind (t : ℝ) : Blind (c.pushP t) := by
  intro sp p p' h
  unfold Cfg.pushP at h ⊢
  by_cases hq : sp.q = 0
  · rw [if_pos hq] at h
    cases h
    exact ⟨rfl, fun w => by rw [if_pos hq]⟩
  · rw [if_neg hq] at h
    cases hpl : sp.plane with
    | some b =>
      rw [hpl] at h
      by_cases hi : sp.ionizable = true
      · simp only [if_pos hi] at h; cases h
      · simp only [if_neg hi] at h
        cases h
        refine ⟨rfl, fun w => ?_⟩
        rw [if_neg hq]
        simp only [if_neg hi]
        rfl
    | none =>
      rw [hpl] at h
      by_cases hi : sp.ionizable = true
      · simp only [if_pos hi] at h
        cases h
        refine ⟨rfl, fun w => ?_⟩
        rw [if_neg hq]
        simp only [if_pos hi]
        rfl
      · simp only [if_neg hi] at h
        cases h
        refine ⟨rfl, fun w => ?_⟩
        rw [if_neg hq]
        simp only [if_neg hi]
        rfl

theorem applyExts_blind (L : List Ext) (t : ℝ) (id : ℕ) : ∀ p : Ptcl,
    L.foldl (fun p e => applyExt e t id p) p
      = atKey (fun k => (k.1, (L.foldl (fun p e => applyExt e t id p) ⟨k.1, 0, k.2⟩).F)) p := by
  have h1 : ∀ p : Ptcl, (L.foldl (fun p e => applyExt e t id p) p).push = p.push ∧
      (L.foldl (fun p e => applyExt e t id p) p).w = p.w := by
    induction L with
    | nil => intro p; exact ⟨rfl, rfl⟩
    | cons e L ih =>
      intro p
      rw [List.foldl_cons, (ih _).1, (ih _).2]
      unfold applyExt
      split_ifs <;> exact ⟨rfl, rfl⟩
  have h2 : ∀ p p' : Ptcl, p.push = p'.push → p.F = p'.F →
      (L.foldl (fun p e => applyExt e t id p) p).F = (L.foldl (fun p e => applyExt e t id p) p').F := by
    clear h1
    induction L with
    | nil => intro p p' _ h; exact h
    | cons e L ih =>
      intro p p' h1 h2
      rw [List.foldl_cons, List.foldl_cons]
      apply ih
      · unfold applyExt; split_ifs <;> exact h1
      · unfold applyExt
        split_ifs
        · simp only [h1, h2]
        · exact h2
  intro p
  have e1 := (h1 p).1
  have e2 := (h1 p).2
  have e3 := h2 p ⟨p.push, 0, p.F⟩ rfl rfl
  unfold atKey
  dsimp only
  rw [← e3]
  generalize List.foldl (fun p e => applyExt e t id p) p L = r at *
  cases r
  simp only at e1 e2
  rw [e1, e2]

theorem scaleB_one (a : Buf) : scaleB 1 a = a := by funext i j; exact one_mul _

theorem scaleI_one (i : Interp) : scaleI 1 i = i := by
  unfold scaleI scaleV
  simp only [scaleB_one]

theorem scaleG_one (g : SpecGrid) : scaleG 1 g = g := by
  unfold scaleG scaleC
  simp only [one_mul]

theorem same_iff (s s' : Sim) : SameRun P s s' ↔ Scaled (fun _ => 1) 0 (List.Forall₂ (SameSpecies P)) s s' := by
  constructor
  · intro h
    refine ⟨by rw [h.zmin, add_zero], by rw [h.zmax, add_zero], h.time, h.iteration, h.species, ?_, ?_⟩
    · rw [h.interp]; funext m; rw [scaleI_one]
    · rw [h.spect]; funext m; rw [scaleG_one]
  · intro h
    refine ⟨by rw [h.zmin, add_zero], by rw [h.zmax, add_zero], h.time, h.iteration, h.species, ?_, ?_⟩
    · rw [h.interp]; funext m; rw [scaleI_one]
    · rw [h.spect]; funext m; rw [scaleG_one]

variable [NeZero c.Nz]

theorem ptclSim_cloud (P : List Ptcl → List Ptcl → Prop) [CloudRel P] (n : ℕ) : PtclSim c (c.alt c.eCharge n c.ext) (fun _ => True) (fun _ => 1) 0
    (List.Forall₂ (SameSpecies P)) where
  wrap := by
    intro s s' hR t ht
    have hS := (same_iff s s').2 hR
    refine mapPtclM_same _ _ (wrap_blind c s.zmin s.zmax) s s' t ?_ hR.species ht
    intro a b p _
    rw [hS.zmin, hS.zmax]; rfl
  dep := by
    intro f s s' hR _ hok
    have hS := (same_iff s s').2 hR
    refine ⟨?_, ?_⟩
    · intro m hm
      have := (depositing_same c hR.species f c.k.c (c.grid s.zmin) m).2 (hok m hm)
      show ∀ sp ∈ s'.depositing, speciesOk f c.k.c (c.grid s'.zmin) c.beta m sp
      rw [hS.zmin]
      exact this
    · intro m
      rw [scaleB_one]
      have := (depositing_same c hR.species f c.k.c (c.grid s.zmin) m).1
      unfold Cfg.depArr
      show (if m < c.Nm then CellVolume.divideByVolume (c.vol m) (reduceBuf c.Nz c.Nr
        ((s'.depositing.map (speciesBuf f c.k.c (c.grid s'.zmin) c.beta m)).sum)) else 0) = _
      rw [hS.zmin]
      unfold Sim.depositing
      rw [this]
  gather := by
    intro s s' hR _ t ht
    have hS := (same_iff s s').2 hR
    refine mapPtclM_same _ _ (gather_blind c s) s.record s'.record t ?_ hR.species ht
    intro a b p hab
    unfold Cfg.gatherPtcl
    rw [hab.q, hab.shape, hS.interp, hS.zmin]
    rfl
  exts := by
    intro s s' hR
    have hS := (same_iff s s').2 hR
    unfold Cfg.applyExts
    rw [List.forall₂_iff_get]
    have h0 := (List.forall₂_iff_get).1 hR.species
    refine ⟨by simp [h0.1], ?_⟩
    intro i h1 h2
    simp only [List.get_eq_getElem, List.getElem_mapIdx]
    have h3 := h0.2 i (by simpa using h1) (by simpa using h2)
    simp only [List.get_eq_getElem] at h3
    have e : ∀ (L : List Ptcl) (t : ℝ), L.map (fun p => c.ext.foldl (fun p e => applyExt e t i p) p)
        = L.map (atKey (fun k => (k.1, (c.ext.foldl (fun p e => applyExt e t i p) ⟨k.1, 0, k.2⟩).F))) := by
      intro L t
      exact List.map_congr_left fun p _ => applyExts_blind c.ext t i p
    have h4 := same_map (fun k => (k.1, (c.ext.foldl (fun p e => applyExt e s.time i p) ⟨k.1, 0, k.2⟩).F)) h3
    rw [← e, ← e] at h4
    have ht := hS.time
    have hi : i < s'.species.length := by simpa using h2
    show SameSpecies P _ { s'.species[i] with
      ptcl := s'.species[i].ptcl.map fun p => c.ext.foldl (fun p e => applyExt e s'.time i p) p }
    rw [ht]
    exact h4
  pushP := by
    intro s s' hR t ht
    refine mapPtclM_same _ _ (pushP_blind c _) s s' t ?_ hR.species ht
    intro a b p hab
    unfold Cfg.pushP
    rw [hab.q, hab.m, hab.plane, hab.ionizable, hR.time]
    rfl
  pushX := by
    intro dt x y s s' hR
    show List.Forall₂ _ (s.species.map _) (s'.species.map _)
    rw [List.forall₂_map_left_iff, List.forall₂_map_right_iff]
    refine hR.species.imp fun a b hab => ?_
    exact same_map (fun k => (Fbpic.pushX c.k.c dt x x y k.1, k.2)) hab

theorem calls_cloud (P : List Ptcl → List Ptcl → Prop) [CloudRel P] (n : ℕ) (hn : 0 < c.nthreads) (hn' : 0 < n) (L : List (ℕ × Opts)) (s s' t : Sim)
    (h : SameRun P s s') (ht : c.calls L s = .ok t) :
    ∃ t', (c.alt c.eCharge n c.ext).calls L s' = .ok t' ∧ SameRun P t t' := by
  obtain ⟨t', h1, h2⟩ := (PtclSim.simulates hn hn' (ptclSim_cloud c P n)).calls L s s' ((same_iff s s').1 h) t ht
    fun _ _ => trivial
  exact ⟨t', h1, (same_iff t t').2 h2⟩

/-! ### A passive species more -/

/-- A species that does not act on the fields. -/
def Passive (sp : Species) : Prop := sp.isTracer = true ∨ sp.q = 0

/-- The first list has more species, which are passive. -/
def Extra (L L' : List Species) : Prop := ∃ e, L = L' ++ e ∧ ∀ sp ∈ e, Passive sp

theorem mapPtclM_extra (f f' : Species → Ptcl → Except PyErr Ptcl) (hff : ∀ sp p, f' sp p = f sp p) (s s' t : Sim)
    (hR : Extra s.species s'.species) (ht : s.mapPtclM f = .ok t) :
    ∃ sps, s'.mapPtclM f' = .ok { s' with species := sps } ∧ Extra t.species sps := by
  have e : f' = f := funext fun sp => funext fun p => hff sp p
  subst e
  obtain ⟨T, hT, rfl⟩ := (mapPtclM_ok _ _ _).1 ht
  obtain ⟨x, hx, hp⟩ := hR
  rw [hx] at hT
  have hx1 : (s'.species ++ x).take s'.species.length = s'.species := List.take_left
  have hx2 : (s'.species ++ x).drop s'.species.length = x := List.drop_left
  have h3 := List.forall₂_take s'.species.length hT
  rw [hx1] at h3
  refine ⟨T.take s'.species.length, (mapPtclM_ok _ _ _).2 ⟨_, h3, rfl⟩,
    T.drop s'.species.length, (List.take_append_drop _ _).symm, ?_⟩
  have h := hx2 ▸ List.forall₂_drop s'.species.length hT
  have key : ∀ l l' : List Species, List.Forall₂ (SpRel fun sp p p' => f' sp p = .ok p') l l' →
      (∀ sp ∈ l, Passive sp) → ∀ sp ∈ l', Passive sp := by
    intro l l' h
    induction h with
    | nil => exact fun h => h
    | cons hab _ ih =>
      intro h
      rw [List.forall_mem_cons] at h ⊢
      refine ⟨?_, ih h.2⟩
      unfold Passive
      rw [hab.tracer, hab.q]
      exact h.1
  exact key _ _ h hp

theorem extra_map (f : Species → Species) (hf : ∀ sp, Passive sp → Passive (f sp)) {L L' : List Species}
    (h : Extra L L') : Extra (L.map f) (L'.map f) := by
  obtain ⟨e, rfl, h⟩ := h
  refine ⟨e.map f, List.map_append, ?_⟩
  intro sp hsp
  obtain ⟨x, hx, rfl⟩ := List.mem_map.1 hsp
  exact hf x (h x hx)

theorem depositing_extra {L L' : List Species} (h : Extra L L') (f : DepField) (cc : ℝ) (g : CylGrid) (m : ℕ) :
    (((L'.filter fun sp => !sp.isTracer).map Species.dep).map (speciesBuf f cc g c.beta m)).sum
      = (((L.filter fun sp => !sp.isTracer).map Species.dep).map (speciesBuf f cc g c.beta m)).sum ∧
    ((∀ sp ∈ (L.filter fun sp => !sp.isTracer).map Species.dep, speciesOk f cc g c.beta m sp) →
      ∀ sp ∈ (L'.filter fun sp => !sp.isTracer).map Species.dep, speciesOk f cc g c.beta m sp) := by
  obtain ⟨e, rfl, h⟩ := h
  rw [List.filter_append, List.map_append, List.map_append, List.sum_append]
  refine ⟨?_, fun h sp hsp => h sp (List.mem_append_left _ hsp)⟩
  have h0 : (((e.filter fun sp => !sp.isTracer).map Species.dep).map (speciesBuf f cc g c.beta m)).sum = 0 := by
    apply List.sum_eq_zero
    intro b hb
    obtain ⟨d, hd, rfl⟩ := List.mem_map.1 hb
    obtain ⟨sp, hsp, rfl⟩ := List.mem_map.1 hd
    obtain ⟨h1, h2⟩ := List.mem_filter.1 hsp
    rcases h sp h1 with h3 | h3
    · rw [h3] at h2; cases h2
    · unfold speciesBuf
      rw [if_pos (show sp.dep.q = 0 from h3)]
  rw [h0, add_zero]

theorem ptclSim_extra : PtclSim c (c.alt c.eCharge c.nthreads c.ext) (fun _ => True) (fun _ => 1) 0 Extra where
  wrap := by
    intro s s' hR t ht
    refine mapPtclM_extra _ _ ?_ s s' t hR.species ht
    intro sp p
    rw [hR.zmin, hR.zmax, add_zero, add_zero]; rfl
  dep := by
    intro f s s' hR _ hok
    have hz : s'.zmin = s.zmin := by rw [hR.zmin, add_zero]
    refine ⟨?_, ?_⟩
    · intro m hm
      have := (depositing_extra c hR.species f c.k.c (c.grid s.zmin) m).2 (hok m hm)
      show ∀ sp ∈ s'.depositing, speciesOk f c.k.c (c.grid s'.zmin) c.beta m sp
      rw [hz]
      exact this
    · intro m
      rw [scaleB_one]
      have := (depositing_extra c hR.species f c.k.c (c.grid s.zmin) m).1
      unfold Cfg.depArr
      show (if m < c.Nm then CellVolume.divideByVolume (c.vol m) (reduceBuf c.Nz c.Nr
        ((s'.depositing.map (speciesBuf f c.k.c (c.grid s'.zmin) c.beta m)).sum)) else 0) = _
      rw [hz]
      unfold Sim.depositing
      rw [this]
  gather := by
    intro s s' hR _ t ht
    have hi : s'.interp = s.interp := by rw [hR.interp]; funext m; rw [scaleI_one]
    refine mapPtclM_extra _ _ ?_ s.record s'.record t hR.species ht
    intro sp p
    unfold Cfg.gatherPtcl
    rw [hi, hR.zmin, add_zero]
    rfl
  exts := by
    intro s s' hR
    obtain ⟨e, h1, h2⟩ := hR.species
    unfold Cfg.applyExts
    show Extra (List.mapIdx _ s.species) (List.mapIdx _ s'.species)
    rw [h1, hR.time, List.mapIdx_append]
    refine ⟨_, rfl, ?_⟩
    intro sp hsp
    obtain ⟨i, hi, rfl⟩ := List.mem_mapIdx.1 hsp
    exact h2 e[i] (List.getElem_mem hi)
  pushP := by
    intro s s' hR t ht
    refine mapPtclM_extra _ _ ?_ s s' t hR.species ht
    intro sp p
    unfold Cfg.pushP
    rw [hR.time]
    rfl
  pushX := by
    intro dt x y s s' hR
    exact extra_map (fun sp => { sp with ptcl := sp.ptcl.map fun p =>
      { p with push := Fbpic.pushX c.k.c dt x x y p.push } }) (fun sp h => h) hR.species

theorem calls_extra (hn : 0 < c.nthreads) (L : List (ℕ × Opts)) (s t : Sim) (sps e : List Species)
    (hs : s.species = sps ++ e) (he : ∀ sp ∈ e, Passive sp) (ht : c.calls L s = .ok t) :
    ∃ t' e', c.calls L { s with species := sps } = .ok t' ∧ t.species = t'.species ++ e' ∧
      t'.interp = t.interp ∧ t'.spect = t.spect ∧ t'.time = t.time ∧ t'.zmin = t.zmin ∧ t'.zmax = t.zmax := by
  have h0 : Scaled (fun _ => 1) 0 Extra s { s with species := sps } := by
    refine ⟨by rw [add_zero], by rw [add_zero], rfl, rfl, ⟨e, hs, he⟩, ?_, ?_⟩
    · funext m; rw [scaleI_one]
    · funext m; rw [scaleG_one]
  obtain ⟨t', h1, h2⟩ := (PtclSim.simulates hn hn (ptclSim_extra c)).calls L _ _ h0 t ht fun _ _ => trivial
  obtain ⟨e', h3, -⟩ := h2.species
  refine ⟨t', e', h1, h3, ?_, ?_, h2.time, by rw [h2.zmin, add_zero], by rw [h2.zmax, add_zero]⟩
  · rw [h2.interp]; funext m; rw [scaleI_one]
  · rw [h2.spect]; funext m; rw [scaleG_one]

end Fbpic.Pic
