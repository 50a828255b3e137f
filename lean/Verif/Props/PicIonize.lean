import Verif.Lemmas.PicEventGauss

/-!
# C100: whole runs with field ionization
-/

namespace Fbpic.Pic

open Transform ExternalField Step
open Spec (SolverOk GaussLaw IonizersOk chargeSum netCharge macroCharge macroCount levelCount LevelsGrow)

section
variable {Old : Seen → Prop}
variable {c : Cfg} {ionizers : ℕ → Option Ionizer}

/-- Ionizers stay valid when the particles move. -/
theorem ionizersOk_moved {a b : List Species} (h : Moved a b) (ha : IonizersOk c ionizers a) :
    IonizersOk c ionizers b := by
  have get : ∀ {j : ℕ} {x : Species}, a[j]? = some x → ∃ y, b[j]? = some y ∧
      SpRel (fun _ p p' => p'.w = p.w ∧ p'.push.level = p.push.level) x y := by
    intro j x hx
    obtain ⟨hl, hR⟩ := List.forall₂_iff_get.1 h
    obtain ⟨hj, rfl⟩ := List.getElem?_eq_some_iff.1 hx
    exact ⟨b[j]'(hl ▸ hj), List.getElem?_eq_getElem _, hR j hj (hl ▸ hj)⟩
  have get' : ∀ {j : ℕ} {y : Species}, b[j]? = some y → ∃ x, a[j]? = some x ∧
      SpRel (fun _ p p' => p'.w = p.w ∧ p'.push.level = p.push.level) x y := by
    intro j y hy
    obtain ⟨hl, hR⟩ := List.forall₂_iff_get.1 h
    obtain ⟨hj, rfl⟩ := List.getElem?_eq_some_iff.1 hy
    exact ⟨a[j]'(hl.symm ▸ hj), List.getElem?_eq_getElem _, hR j (hl.symm ▸ hj) hj⟩
  refine ⟨?_, ha.batch, ha.order, ha.count, ?_, ?_⟩
  · intro id I hI
    obtain ⟨sp, h1, h2, h3⟩ := ha.ion id I hI
    obtain ⟨sp', g1, g2⟩ := get h1
    exact ⟨sp', g1, g2.ionizable.trans h2, g2.q.trans h3⟩
  · intro id I hI sp' hsp' j hj
    obtain ⟨sp, h1, h2⟩ := get' hsp'
    obtain ⟨e, g1, g2, g3, g4, g5⟩ := ha.target id I hI sp h1 j hj
    obtain ⟨e', k1, k2⟩ := get g1
    exact ⟨e', k1, k2.ionizable.trans g2, k2.q.trans g3, (k2.shape.trans g4).trans h2.shape.symm,
      (k2.tracer.trans g5).trans h2.tracer.symm⟩
  · intro id I hI sp' hsp' p' hp'
    obtain ⟨sp, h1, h2⟩ := get' hsp'
    obtain ⟨hl, hR⟩ := List.forall₂_iff_get.1 h2.ptcl
    obtain ⟨i, hi, rfl⟩ := List.mem_iff_getElem.1 hp'
    have := hR i (hl.symm ▸ hi) hi
    simp only [List.get_eq_getElem] at this
    rw [this.2]
    exact ha.levels id I hI sp h1 _ (List.getElem_mem _)

/-- Ionization is a neutral process. -/
theorem ionize_neutral (c : Cfg) [NeZero c.Nz] (ionizers : ℕ → Option Ionizer) (ch : Chance) :
    NeutralEvent (IonizersOk c ionizers) (ionizeAll ionizers c.k.c ch) where
  run := fun s hs => by
    obtain ⟨sps, h1, h2⟩ := ionizeAll_rel hs c.k.c ch
    exact ⟨sps, h1, h2.neutral, h2.ok hs⟩
  moved := fun _ _ h h' => ionizersOk_moved h h'

/-! ### Totals -/

/-- The totals of two lists of species. -/
private structure Totals (a b : List Species) : Prop where
  charge : (b.map fun sp => (sp.ptcl.map (macroCharge sp)).sum).sum = (a.map fun sp => (sp.ptcl.map (macroCharge sp)).sum).sum
  head : b.map Species.head = a.map Species.head
  ions : ∀ (id : ℕ) (sp : Species), a[id]? = some sp → ∃ sp', b[id]? = some sp' ∧ LevelsGrow sp sp'
  count : (b.map fun sp => sp.ptcl.length).sum +
      (a.map fun sp => if sp.ionizable then (sp.ptcl.map fun p => p.push.level).sum else 0).sum
    = (a.map fun sp => sp.ptcl.length).sum +
      (b.map fun sp => if sp.ionizable then (sp.ptcl.map fun p => p.push.level).sum else 0).sum

private theorem chargeSum_one (a : List Species) :
    chargeSum (fun _ _ _ => 1) a = ((a.map fun sp => (sp.ptcl.map (macroCharge sp)).sum).sum : ℝ) := by
  have e : ∀ l : List ℝ, ((l.sum : ℝ) : ℂ) = (l.map fun x : ℝ => (x : ℂ)).sum := by
    intro l
    induction l with
    | nil => simp
    | cons x l ih => simp [ih]
  unfold chargeSum
  rw [e, List.map_map]
  refine congrArg List.sum (List.map_congr_left fun sp _ => ?_)
  show _ = ((((sp.ptcl.map (macroCharge sp)).sum : ℝ)) : ℂ)
  rw [e, List.map_map]
  refine congrArg List.sum (List.map_congr_left fun p _ => ?_)
  exact mul_one _

private theorem moved_totals {a b : List Species} (h : Moved a b) : Totals a b := by
  induction h with
  | nil => exact ⟨rfl, rfl, fun _ _ h => by simp at h, rfl⟩
  | @cons x y a b hxy _ ih =>
    obtain ⟨i1, i2, i3, i4⟩ := ih
    have hw : x.ptcl.map (fun p => (p.w, p.push.level)) = y.ptcl.map (fun p => (p.w, p.push.level)) := by
      have := hxy.ptcl
      generalize x.ptcl = l at this ⊢
      generalize y.ptcl = l' at this ⊢
      induction this with
      | nil => rfl
      | cons h _ ih => rw [List.map_cons, List.map_cons, ih, h.1, h.2]
    have e1 : (y.ptcl.map (macroCharge y)).sum = (x.ptcl.map (macroCharge x)).sum := by
      have f : ∀ z : Species, z.ptcl.map (macroCharge z)
          = (z.ptcl.map fun p => (p.w, p.push.level)).map fun u : ℝ × ℕ => z.q * if z.ionizable then u.1 * (u.2 : ℝ) else u.1 := by
        intro z; rw [List.map_map]; rfl
      rw [f, f, ← hw, hxy.q, hxy.ionizable]
    have e2 : y.ptcl.length = x.ptcl.length := by
      have := congrArg List.length hw
      simpa using this.symm
    have e3 : (if y.ionizable then (y.ptcl.map fun p => p.push.level).sum else 0)
        = (if x.ionizable then (x.ptcl.map fun p => p.push.level).sum else 0) := by
      have f : ∀ z : Species, z.ptcl.map (fun p => p.push.level) = (z.ptcl.map fun p => (p.w, p.push.level)).map Prod.snd := by
        intro z; rw [List.map_map]; rfl
      rw [f, f, ← hw, hxy.ionizable]
    refine ⟨?_, ?_, ?_, ?_⟩
    · rw [List.map_cons, List.map_cons, List.sum_cons, List.sum_cons, i1, e1]
    · rw [List.map_cons, List.map_cons, i2]
      refine congrArg (· :: _) (head_iff.2 ⟨hxy.q, hxy.m, hxy.shape, hxy.tracer, hxy.ionizable, hxy.plane⟩)
    · intro id sp hsp
      cases id with
      | zero =>
        have : x = sp := by simpa using hsp
        subst this
        exact ⟨y, rfl, fun _ => hxy.ptcl.imp fun _ _ h => ⟨h.1, h.2.ge⟩⟩
      | succ id => exact i3 id sp (by simpa using hsp)
    · simp only [List.map_cons, List.sum_cons]
      rw [e3, e2]
      omega

private theorem totals_trans {a b d : List Species} (h : Totals a b) (h' : Totals b d) :
    Totals a d where
  charge := h'.charge.trans h.charge
  head := h'.head.trans h.head
  ions := fun id sp hsp => by
    obtain ⟨sp1, g1, g2⟩ := h.ions id sp hsp
    obtain ⟨sp2, k1, k2⟩ := h'.ions id sp1 g1
    refine ⟨sp2, k1, fun hi => ?_⟩
    obtain ⟨y, m1, m2⟩ := head_get h.head hsp
    have : y = sp1 := Option.some.inj (m1.symm.trans g1)
    subst this
    exact forall₂_trans (g2 hi) (k2 ((head_iff.1 m2).2.2.2.2.1.trans hi)) fun p q r x y =>
      ⟨y.1.trans x.1, x.2.trans y.2⟩
  count := by
    have := h.count
    have := h'.count
    omega

private theorem rel_totals {a b : List Species} (h : IonRelS ionizers a b) : Totals a b where
  charge := by
    have := h.charge fun _ _ _ => 1
    rw [chargeSum_one, chargeSum_one] at this
    exact_mod_cast this
  head := h.head
  ions := fun id sp hsp => by
    obtain ⟨sp', g1, g2⟩ := head_get h.head hsp
    refine ⟨sp', g1, fun hi => ?_⟩
    obtain ⟨sp0, k1, k2⟩ := h.ions id sp' g1 ((head_iff.1 g2).2.2.2.2.1.trans hi)
    have : sp0 = sp := Option.some.inj (k1.symm.trans hsp)
    subst this
    exact k2.imp fun _ _ h => ⟨h.1, h.2.1⟩
  count := h.count

private theorem totals_along [NeZero c.Nz] (ch : Chance) :
    Along (IonizersOk c ionizers) (ionizeAll ionizers c.k.c ch) (Totals) where
  trans := fun _ _ _ => totals_trans
  moved := fun _ _ => moved_totals
  ev := fun s t hs ht => by
    obtain ⟨sps, h1, h2⟩ := ionizeAll_rel hs c.k.c ch
    have : { s with species := sps } = t := Except.ok.inj (h1.symm.trans ht)
    rw [← this]
    exact rel_totals h2

private theorem loose_reasonable [NeZero c.Nz] {rho : ℝ} {L : List (ℕ × Opts)} {s t : Sim} (h : Spec.Reasonable c L s)
    (h2 : Loose c Old rho t) : Spec.Reasonable c L t := by
  refine ⟨h.light, h.dt, h.invdz, h.invdr, h.Nz, h.Nr, h.threads, h.period, h.fuel, h.beta, h.opts, ?_,
    fun sp hsp => (h2.sp sp hsp).plane, ?_, fun sp hsp p hp => (h2.ptcl sp hsp p hp).1,
    fun sp hsp p hp => (h2.ptcl sp hsp p hp).2.2⟩
  · rw [mul_comm]; exact h2.box
  · intro sp hsp
    have h3 : Spec.maxCells sp.shape = sp.shape.reach := by
      cases sp.shape <;> simp [Spec.maxCells, Shape.reach]
    rw [h3]
    exact (h2.sp sp hsp).reach

end

/-! ### C100 -/

/-- **C100** (one ionization step). Ionization never fails. It changes nothing but the particles, and the deposited
charge density and the three components of the deposited current density are exactly the same before and after, for
any random numbers and whatever is in the uninitialised memory. -/
theorem C100_neutral (c : Cfg) [NeZero c.Nz] (hn : 0 < c.nthreads) (ionizers : ℕ → Option Ionizer) (ch : Chance) (s : Sim)
    (hi : IonizersOk c ionizers s.species) : ∃ t, ionizeAll ionizers c.k.c ch s = .ok t ∧
      t = { s with species := t.species } ∧ ∀ f A, c.depositModes f s = .ok A → c.depositModes f t = .ok A := by
  obtain ⟨sps, h1, h2⟩ := ionizeAll_rel hi c.k.c ch
  refine ⟨_, h1, rfl, fun f A hA => ?_⟩
  obtain ⟨hd, rfl⟩ := (depositModes_ok c hn f s A).1 hA
  exact (depositModes_ok c hn f _ _).2 ⟨Neutral.depOk (s := s) (t := { s with species := sps }) c h2.neutral rfl hd,
    funext fun m => (Neutral.depArr (s := s) (t := { s with species := sps }) c h2.neutral rfl f m).symm⟩

/-- **C100** (one ionization step, all moments). For any function of the particle shape, the kind of species, the
position and the momentum, the sum over all macroparticles of this function times the charge is the same before and
after. -/
theorem C100_local (c : Cfg) (ionizers : ℕ → Option Ionizer) (ch : Chance) (s : Sim)
    (hi : IonizersOk c ionizers s.species) : ∃ t, ionizeAll ionizers c.k.c ch s = .ok t ∧
      ∀ φ, chargeSum φ t.species = chargeSum φ s.species := by
  obtain ⟨sps, h1, h2⟩ := ionizeAll_rel hi c.k.c ch
  exact ⟨_, h1, h2.charge⟩

/-- **C100** (whole runs). A run with ionization never raises an exception and never accesses an array out of its
bounds, for any number of calls and steps and any random numbers. The total charge never changes; the number of
macroparticles grows by exactly the sum of the steps in level of all ions; the ions keep their weights and their
levels never decrease nor exceed the maximum; and the state that it leaves can be continued in the same way. -/
theorem C100_run (c : Cfg) [NeZero c.Nz] (ionizers : ℕ → Option Ionizer) (ch : Chance) (L : List (ℕ × Opts)) (s : Sim)
    (h : Spec.Reasonable c L s) (hi : IonizersOk c ionizers s.species) :
    ∃ t, c.callsIonize ionizers ch L s = .ok t ∧ Spec.Reasonable c L t ∧ IonizersOk c ionizers t.species ∧
      netCharge t = netCharge s ∧ macroCount t + levelCount s = macroCount s + levelCount t ∧
      ∀ (id : ℕ) (sp : Species), s.species[id]? = some sp → ∃ sp', t.species[id]? = some sp' ∧ LevelsGrow sp sp' := by
  have neg : ∀ x y : ℝ, (-1 : ℝ) < cylR x y := fun x y => lt_of_lt_of_le (by norm_num) (Real.sqrt_nonneg _)
  obtain ⟨hc, hl⟩ := reasonable_loose c L s h (-1) (fun _ _ _ _ => neg _ _) fun _ _ => neg _ _
  obtain ⟨t, h1, h2, h3, h4⟩ := callsEv_run c hc (ionize_neutral c ionizers ch) (totals_along ch) L (-1) s h.opts hl hi
  exact ⟨t, h1, loose_reasonable h h2, h3, h4.charge, h4.count, h4.ions⟩

/-- **C100** (Gauss' law). With ionization too, Gauss' law holds at the end of any run that corrects the currents or
the divergence, if it holds at the beginning: with any options, random numbers and ionizable species, curl-free
correction or cross-deposition. -/
theorem C100_gauss (c : Cfg) [NeZero c.Nz] (ionizers : ℕ → Option Ionizer) (ch : Chance) (L : List (ℕ × Opts)) (s : Sim)
    (h : Spec.Reasonable c L s) (hi : IonizersOk c ionizers s.species) (hs : SolverOk c s)
    (ho : ∀ x ∈ L, x.2.correctDivE = true ∨ x.2.correctCurrents = true) (hg : GaussLaw c s) :
    ∃ t, c.callsIonize ionizers ch L s = .ok t ∧ SolverOk c t ∧ GaussLaw c t := by
  have neg : ∀ x y : ℝ, (-1 : ℝ) < cylR x y := fun x y => lt_of_lt_of_le (by norm_num) (Real.sqrt_nonneg _)
  obtain ⟨hc, hl⟩ := reasonable_loose c L s h (-1) (fun _ _ _ _ => neg _ _) fun _ _ => neg _ _
  obtain ⟨t, h1, -, h2⟩ := callsEv_gauss c hc (ionize_neutral c ionizers ch) L (-1) s h.opts ho hl hi hs hg
  exact ⟨t, h1, h2⟩

/-- Without ionizable species nothing happens. -/
theorem ionizeAll_none (cl : ℝ) (ch : Chance) (s : Sim) : ionizeAll (fun _ => none) cl ch s = .ok s := by
  have : ∀ l : List ℕ, l.foldlM (fun (sps : List Species) (_ : ℕ) => (.ok sps : Except PyErr (List Species))) s.species
      = .ok s.species := by
    intro l
    induction l with
    | nil => rfl
    | cons _ _ ih => rw [List.foldlM_cons]; exact (except_bind_ok _ _ _).2 ⟨_, rfl, ih⟩
  exact (except_bind_ok _ _ _).2 ⟨_, this _, rfl⟩

/-- **C100** (no ionizable species). A run without ionizable species is the run of `Model/Pic.lean`. -/
theorem C100_none (c : Cfg) [NeZero c.Nz] (ch : Chance) (L : List (ℕ × Opts)) (s : Sim) :
    c.callsIonize (fun _ => none) ch L s = c.calls L s := by
  have hev := ionizeAll_none c.k.c ch
  have hiter : ∀ o i s, c.iterEv (ionizeAll (fun _ => none) c.k.c ch) o i s = c.iter o i s := by
    intro o i s
    rw [iter_eq]
    unfold Cfg.iterEv
    split_ifs
    · rfl
    · refine congrArg _ (funext fun a => congrArg _ (funext fun b => ?_))
      show (ionizeAll (fun _ => none) c.k.c ch b >>= fun s => _) = _
      rw [hev]
      rfl
  have hloop : ∀ o n i s, c.loopEv (ionizeAll (fun _ => none) c.k.c ch) o i n s = c.loop o i n s := by
    intro o n
    induction n with
    | zero => intro i s; rfl
    | succ n ih =>
      intro i s
      show (c.iterEv _ o i s >>= fun s => c.loopEv _ o (i + 1) n s) = (c.iter o i s >>= fun s => c.loop o (i + 1) n s)
      rw [hiter]
      exact congrArg _ (funext fun a => ih (i + 1) a)
  unfold Cfg.callsIonize
  induction L generalizing s with
  | nil => rfl
  | cons x L ih =>
    obtain ⟨n, o⟩ := x
    show (c.stepEv _ n o s >>= fun s => c.callsEv _ L s) = (c.step n o s >>= fun s => c.calls L s)
    have : c.stepEv (ionizeAll (fun _ => none) c.k.c ch) n o s = c.step n o s := by
      show (c.loopEv _ o 0 n (c.startFields s) >>= fun s => pure (c.endFields s)) = _
      rw [hloop]
      rfl
    rw [this]
    exact congrArg _ (funext fun a => ih a)

open Classical in
/-- **C100** (which ions). The ions that go up one level in an ionization step are exactly those below the maximal
level whose random number is smaller than the ADK probability; nothing else about the ions changes. -/
theorem C100_levels (c : Cfg) (ionizers : ℕ → Option Ionizer) (ch : Chance) (s : Sim)
    (hi : IonizersOk c ionizers s.species) : ∃ t, ionizeAll ionizers c.k.c ch s = .ok t ∧
      ∀ (id : ℕ) (I : Ionizer) (sp : Species), ionizers id = some I → s.species[id]? = some sp →
        ∃ sp', t.species[id]? = some sp' ∧ sp'.ptcl.length = sp.ptcl.length ∧ ∀ (ip : ℕ) (p : Ptcl),
          sp.ptcl[ip]? = some p → sp'.ptcl[ip]? = some (Spec.raised p
            (if Spec.Freed I c.k.c (ch.draw s.iteration id) sp ip then 1 else 0)) := by
  obtain ⟨sps, h1, -⟩ := ionizeAll_rel hi c.k.c ch
  exact ⟨_, h1, fun id I sp hI hsp => ionizeAll_ions hi c.k.c ch h1 hI hsp⟩

/-- **C100** (where the electrons go). When one species is ionized, every other species gets, behind its own
particles, the electrons that were freed from the levels it is the target of, in the order of the levels and of the
ions; species that are not a target get none. -/
theorem C100_electrons (c : Cfg) (ionizers : ℕ → Option Ionizer) (sps : List Species) (hi : IonizersOk c ionizers sps)
    (id : ℕ) (I : Ionizer) (hI : ionizers id = some I) (draw : ℕ → ℝ) (J : Junk ℝ IonAttr) (sp : Species)
    (hsp : sps[id]? = some sp) : ∃ sps', I.handle c.k.c draw J id sps = .ok sps' ∧
      ∀ (j : ℕ) (e : Species), j ≠ id → sps[j]? = some e → ∃ e', sps'[j]? = some e' ∧ e' = { e with ptcl := e'.ptcl } ∧
        e'.ptcl = e.ptcl ++ ((List.range I.P.nLevels).filter fun i => I.targets[i]? = some j).flatMap
          (Spec.freedElectrons I c.k.c draw sp) := by
  obtain ⟨sps', h1, -⟩ := handle_rel hi hI c.k.c draw J
  refine ⟨sps', h1, fun j e hj he => ?_⟩
  obtain ⟨e', g1, g2, g3⟩ := (handle_ions hi hI c.k.c draw J hsp h1).2 j e hj he
  refine ⟨e', g1, ?_, g3⟩
  obtain ⟨a1, a2, a3, a4, a5, a6⟩ := head_iff.1 g2
  cases e'; cases e
  simp_all

private theorem target_list (d : ℕ → Option ℕ) : ∀ (n l0 : ℕ) (L : List ℕ),
    ((List.range' l0 n).mapM fun l => match d l with
      | some j => (.ok j : Except PyErr ℕ)
      | none => .error (.valueError "its keys should be the integers corresponding to the ionizable levels")) = .ok L →
    L.length = n ∧ ∀ i < n, L[i]? = d (l0 + i) ∧ L[i]? ≠ none := by
  intro n
  induction n with
  | zero =>
    intro l0 L h
    have := Except.ok.inj h
    subst this
    simp
  | succ n ih =>
    intro l0 L h
    rw [List.range'_succ, List.mapM_cons] at h
    obtain ⟨b, g1, g2⟩ := (except_bind_ok _ _ _).1 h
    obtain ⟨bs, g3, g4⟩ := (except_bind_ok _ _ _).1 g2
    have := Except.ok.inj g4
    subst this
    obtain ⟨e1, e2⟩ := ih (l0 + 1) bs g3
    refine ⟨by simp [e1], fun i hi => ?_⟩
    rcases i with _ | i
    · cases hd : d l0 with
      | none => rw [hd] at g1; cases g1
      | some j =>
        rw [hd] at g1
        have := Except.ok.inj g1
        subst this
        simp [hd]
    · have := e2 i (by omega)
      rw [List.getElem?_cons_succ, show l0 + (i + 1) = l0 + 1 + i by omega]
      exact this

/-- **C100** (the dictionary of targets). If `make_ionizable` accepts a dictionary of electron species, then it has an
entry for every level from `level_start` to `level_max - 1`, the electrons from different levels are kept apart, and
those that leave level `l` (`Spec.freedElectrons` number `l - level_start`, see `C100_electrons`) go to the species
that the dictionary gives for `l`. If one species is given, all electrons go to it. -/
theorem C100_targets (eCharge me : ℝ) (adk : Adk.Params) (levelStart id : ℕ) (sps sps' : List Species) (I : Ionizer) :
    (∀ d, makeIonizable eCharge me adk levelStart (.perLevel d) id sps = .ok (I, sps') →
      I.P.storePerLevel = true ∧ I.P.levelStart = levelStart ∧ I.P.nLevels = adk.levelMax - levelStart ∧
      I.targets.length = I.P.nLevels ∧ ∀ l, levelStart ≤ l → l < adk.levelMax →
        ∃ j, d l = some j ∧ I.targets[l - levelStart]? = some j) ∧
    (∀ j, makeIonizable eCharge me adk levelStart (.single j) id sps = .ok (I, sps') →
      I.P.storePerLevel = false ∧ I.P.nLevels = 1 ∧ I.targets = [j]) := by
  constructor
  · intro d hm
    obtain ⟨targets, h1, h2⟩ := (except_bind_ok _ _ _).1 hm
    obtain ⟨ok, -, h4⟩ := (except_bind_ok _ _ _).1 h2
    split_ifs at h4
    have h4 := Except.ok.inj h4
    obtain ⟨rfl, -⟩ := Prod.mk.inj h4
    obtain ⟨e1, e2⟩ := target_list d _ _ _ h1
    refine ⟨rfl, rfl, rfl, e1, fun l hl hl' => ?_⟩
    obtain ⟨g1, g2⟩ := e2 (l - levelStart) (by omega)
    rw [show levelStart + (l - levelStart) = l by omega] at g1
    cases hd : d l with
    | none => rw [hd] at g1; exact absurd g1 g2
    | some j => rw [hd] at g1; exact ⟨j, rfl, g1⟩
  · intro j hm
    obtain ⟨targets, h1, h2⟩ := (except_bind_ok _ _ _).1 hm
    obtain ⟨ok, -, h4⟩ := (except_bind_ok _ _ _).1 h2
    split_ifs at h4
    have h4 := Except.ok.inj h4
    obtain ⟨rfl, -⟩ := Prod.mk.inj h4
    exact ⟨rfl, rfl, (Except.ok.inj h1).symm⟩

/-- **C100** (`make_ionizable`). A species made ionizable by `make_ionizable` meets the conditions of the theorems
above, and so do the species that were made ionizable before it, if the electron species are not ionizable, have the
particle shape of the ions and are tracers if and only if the ions are. -/
theorem C100_make (c : Cfg) (ionizers : ℕ → Option Ionizer) (sps sps' : List Species) (hi : IonizersOk c ionizers sps)
    (me : ℝ) (adk : Adk.Params) (levelStart : ℕ) (hl : levelStart ≤ adk.levelMax) (target : Target) (id : ℕ)
    (sp : Species) (hsp : sps[id]? = some sp) (I : Ionizer)
    (hm : makeIonizable c.eCharge me adk levelStart target id sps = .ok (I, sps'))
    (hfree : ∀ j ∈ I.targets, j ≠ id ∧ ∀ e, sps[j]? = some e → e.ionizable = false ∧ e.shape = sp.shape ∧
      e.isTracer = sp.isTracer)
    (hother : ∀ j K, ionizers j = some K → j ≠ id ∧ id ∉ K.targets) :
    IonizersOk c (Function.update ionizers id (some I)) sps' := by
  obtain ⟨targets, h1, h2⟩ := (except_bind_ok _ _ _).1 hm
  obtain ⟨ok, h3, h4⟩ := (except_bind_ok _ _ _).1 h2
  by_cases hall : (ok.all fun b => b) = true
  swap
  · rw [if_neg hall] at h4; cases h4
  rw [if_pos hall] at h4
  have h4 := Except.ok.inj h4
  obtain ⟨rfl, rfl⟩ := Prod.mk.inj h4
  -- the targets are electrons
  have helec : ∀ (l : List ℕ) (ok : List Bool), (l.mapM fun j => match sps[j]? with
      | some e => (.ok (decide (e.q = -c.eCharge ∧ e.m = me)) : Except PyErr Bool)
      | none => .error (.indexError "no such species")) = .ok ok → (ok.all fun b => b) = true →
      ∀ j ∈ l, ∃ e, sps[j]? = some e ∧ e.q = -c.eCharge := by
    intro l
    induction l with
    | nil => intro _ _ _ j hj; simp at hj
    | cons a l ih =>
      intro ok h ha j hj
      rw [List.mapM_cons] at h
      obtain ⟨b, g1, g2⟩ := (except_bind_ok _ _ _).1 h
      obtain ⟨bs, g3, g4⟩ := (except_bind_ok _ _ _).1 g2
      have := Except.ok.inj g4
      subst this
      rw [List.all_cons, Bool.and_eq_true] at ha
      rcases List.mem_cons.1 hj with rfl | hj
      · cases he : sps[j]? with
        | none => rw [he] at g1; cases g1
        | some e =>
          rw [he] at g1
          have := Except.ok.inj g1
          rw [← this, decide_eq_true_iff] at ha
          exact ⟨e, rfl, ha.1.1⟩
      · exact ih bs g3 ha.2 j hj
  have helec := helec targets ok h3 hall
  have hlen : targets.length = IonParams.nLevels ⟨10, levelStart, adk.levelMax, target.storePerLevel⟩ := by
    cases target with
    | single j => rw [← Except.ok.inj h1]; rfl
    | perLevel d =>
      have : ∀ (l r : List ℕ), (l.mapM fun l => match d l with
          | some j => (.ok j : Except PyErr ℕ)
          | none => .error (.valueError "its keys should be the integers corresponding to the ionizable levels"))
          = .ok r → r.length = l.length := by
        intro l
        induction l with
        | nil =>
          intro r h
          have : [] = r := Except.ok.inj h
          rw [← this]
        | cons a l ih =>
          intro r h
          rw [List.mapM_cons] at h
          obtain ⟨b, g1, g2⟩ := (except_bind_ok _ _ _).1 h
          obtain ⟨bs, g3, g4⟩ := (except_bind_ok _ _ _).1 g2
          rw [← Except.ok.inj g4, List.length_cons, List.length_cons, ih bs g3]
      rw [this _ _ h1, List.length_range']
      rfl
  set f : Species → Species := fun sp => { sp.setLevels (fun _ => levelStart) with q := c.eCharge, ionizable := true }
  have hid : (sps.modify id f)[id]? = some (f sp) := by simp [List.getElem?_modify, hsp]
  have hne : ∀ {j : ℕ}, j ≠ id → (sps.modify id f)[j]? = sps[j]? := by
    intro j hj
    simp [List.getElem?_modify, Ne.symm hj]
  have upd : ∀ {j : ℕ} {K : Ionizer}, Function.update ionizers id (some
      ⟨⟨10, levelStart, adk.levelMax, target.storePerLevel⟩, adk, targets⟩) j = some K →
      (j = id ∧ K = ⟨⟨10, levelStart, adk.levelMax, target.storePerLevel⟩, adk, targets⟩) ∨ (j ≠ id ∧ ionizers j = some K) := by
    intro j K h
    by_cases hj : j = id
    · subst hj
      rw [Function.update_self] at h
      exact Or.inl ⟨rfl, (Option.some.inj h).symm⟩
    · rw [Function.update_of_ne hj] at h
      exact Or.inr ⟨hj, h⟩
  constructor
  · intro j K h
    rcases upd h with ⟨rfl, rfl⟩ | ⟨hj, h⟩
    · exact ⟨_, hid, rfl, rfl⟩
    · rw [hne hj]; exact hi.ion j K h
  · intro j K h
    rcases upd h with ⟨rfl, rfl⟩ | ⟨hj, h⟩
    · exact Nat.succ_pos 9
    · exact hi.batch j K h
  · intro j K h
    rcases upd h with ⟨rfl, rfl⟩ | ⟨hj, h⟩
    · exact hl
    · exact hi.order j K h
  · intro j K h
    rcases upd h with ⟨rfl, rfl⟩ | ⟨hj, h⟩
    · exact hlen
    · exact hi.count j K h
  · intro j K h sp' hsp' i hi'
    rcases upd h with ⟨rfl, rfl⟩ | ⟨hj, h⟩
    · have := Option.some.inj (hid.symm.trans hsp')
      subst this
      obtain ⟨e, k1, k2⟩ := helec i hi'
      obtain ⟨l1, l2⟩ := hfree i hi'
      exact ⟨e, by rw [hne l1]; exact k1, (l2 e k1).1, k2, (l2 e k1).2⟩
    · rw [hne hj] at hsp'
      obtain ⟨e, k1, k2⟩ := hi.target j K h sp' hsp' i hi'
      refine ⟨e, ?_, k2⟩
      rw [hne fun h' => (hother j K h).2 (h' ▸ hi')]
      exact k1
  · intro j K h sp' hsp' p hp
    rcases upd h with ⟨rfl, rfl⟩ | ⟨hj, h⟩
    · have := Option.some.inj (hid.symm.trans hsp')
      subst this
      have hp : p ∈ sp.ptcl.mapIdx fun i p => { p with push := { p.push with level := levelStart } } := hp
      obtain ⟨k, hk, rfl⟩ := List.mem_mapIdx.1 hp
      exact ⟨le_rfl, hl⟩
    · rw [hne hj] at hsp'
      exact hi.levels j K h sp' hsp' p hp

/-! ### A neutral atom and its electron -/

/-- An ionizer that always ionizes when there is a field and the random number is 0. -/
noncomputable def atomIonizer : Ionizer := ⟨⟨10, 0, 1, false⟩, ⟨1, [0], [1], [0]⟩, [1]⟩

/-- It belongs to species number 0. -/
noncomputable def atomIonizers (id : ℕ) : Option Ionizer := if id = 0 then some atomIonizer else none

/-- A neutral atom in a transverse electric field, and an empty species of electrons. -/
noncomputable def atomSim (tracer : Bool) : Sim :=
  { gaussSim with species := [⟨1, 1836, .linear, false, true, none,
      [⟨⟨1, 0, 4, ⟨0, 0, 4 / 3, 3 / 5⟩, 0⟩, 1, fun k => match k with | .Ex => 1 | _ => 0⟩]⟩,
      ⟨-1, 1, .linear, tracer, false, none, []⟩] }

/-- All random numbers are 0. -/
noncomputable def noChance : Chance := ⟨fun _ _ _ => 0, fun _ _ => ⟨fun _ _ => 0, fun _ => 0, fun _ _ => (noPtcl.attr, 0)⟩⟩

theorem atom_reasonable (corr : CurrentCorrection) (tr : Bool) (L : List (ℕ × Opts))
    (h : ∀ x ∈ L, x.2.correctDivE = true → corr = .curlFree) : Spec.Reasonable (gaussCfg corr) L (atomSim tr) := by
  constructor <;> try (norm_num [gaussCfg, cubicCfg, atomSim, gaussSim, cubicSim, Spec.maxCells, Spec.frameVelocity]; done)
  · exact h
  · norm_num [gaussCfg, cubicCfg, atomSim, gaussSim, cubicSim, Spec.maxCells, Spec.frameVelocity]
    rw [show (9 : ℝ) = 3 ^ 2 by norm_num, show (25 : ℝ) = 5 ^ 2 by norm_num, Real.sqrt_sq (by norm_num),
      Real.sqrt_sq (by norm_num)]

theorem atom_ionizers (corr : CurrentCorrection) : IonizersOk (gaussCfg corr) atomIonizers (atomSim false).species := by
  have h0 : ∀ {id I}, atomIonizers id = some I → id = 0 ∧ I = atomIonizer := by
    intro id I h
    unfold atomIonizers at h
    by_cases hid : id = 0
    · rw [if_pos hid] at h; exact ⟨hid, (Option.some.inj h).symm⟩
    · rw [if_neg hid] at h; cases h
  constructor
  · intro id I h; obtain ⟨rfl, rfl⟩ := h0 h; exact ⟨_, rfl, rfl, rfl⟩
  · intro id I h; obtain ⟨rfl, rfl⟩ := h0 h; exact Nat.succ_pos 9
  · intro id I h; obtain ⟨rfl, rfl⟩ := h0 h; exact Nat.zero_le 1
  · intro id I h; obtain ⟨rfl, rfl⟩ := h0 h; rfl
  · intro id I h sp hsp j hj
    obtain ⟨rfl, rfl⟩ := h0 h
    have := Option.some.inj hsp
    subst this
    have : j = 1 := by simpa [atomIonizer] using hj
    subst this
    exact ⟨_, rfl, rfl, by norm_num [gaussCfg, cubicCfg], rfl, rfl⟩
  · intro id I h sp hsp p hp
    obtain ⟨rfl, rfl⟩ := h0 h
    have := Option.some.inj hsp
    subst this
    rw [List.mem_singleton.1 hp]
    exact ⟨le_rfl, Nat.zero_le 1⟩

/-- The atom is ionized. -/
theorem atom_freed (tr : Bool) (sp : Species) (h : (atomSim tr).species[0]? = some sp) :
    Spec.Freed atomIonizer (gaussCfg .curlFree).k.c (fun _ => 0) sp 0 := by
  have := Option.some.inj h
  subst this
  refine ⟨_, rfl, Nat.one_pos, _, rfl, ?_⟩
  have hE : (Ptcl.probe (gaussCfg .curlFree).k.c ⟨⟨1, 0, 4, ⟨0, 0, 4 / 3, 3 / 5⟩, 0⟩, 1,
      fun k => match k with | .Ex => (1 : ℝ) | _ => 0⟩).E ≠ 0 := by
    unfold Adk.Probe.E
    have : Adk.e2OnParticle 0 0 (4 / 3) 1 0 0 ((gaussCfg .curlFree).k.c * 0) ((gaussCfg .curlFree).k.c * 0)
        ((gaussCfg .curlFree).k.c * 0) = 25 / 9 := by
      unfold Adk.e2OnParticle
      have h5 : Real.sqrt (25 / 9) = 5 / 3 := by
        rw [show (25 / 9 : ℝ) = (5 / 3) ^ 2 by norm_num, Real.sqrt_sq (by norm_num)]
      norm_num [h5]
    show Real.sqrt (Adk.e2OnParticle 0 0 (4 / 3) 1 0 0 ((gaussCfg .curlFree).k.c * 0) ((gaussCfg .curlFree).k.c * 0)
        ((gaussCfg .curlFree).k.c * 0)) ≠ 0
    rw [this]
    exact (Real.sqrt_pos.2 (by norm_num)).ne'
  unfold Adk.probability
  rw [if_neg hE]
  simp only [mul_one, zero_div, Real.exp_zero, Real.rpow_zero, sub_pos]
  rw [Real.exp_lt_one_iff]
  have gpos : ∀ q : Adk.Probe, 0 < q.gamma := fun q => by unfold Adk.Probe.gamma; exact Real.sqrt_pos.2 (by positivity)
  exact neg_neg_of_pos (one_div_pos.2 (gpos _))

example : (atomSim false).species.length = 2 := rfl

/-- The hypotheses of `C100_run` can be met, with ions that are ionized. -/
example (corr : CurrentCorrection) (L : List (ℕ × Opts)) (h : ∀ x ∈ L, x.2.correctDivE = true → corr = .curlFree) :
    Spec.Reasonable (gaussCfg corr) L (atomSim false) ∧ IonizersOk (gaussCfg corr) atomIonizers (atomSim false).species :=
  ⟨atom_reasonable corr false L h, atom_ionizers corr⟩

/-- The hypotheses of `C100_gauss` can be met, for both corrections. -/
example (L : List (ℕ × Opts)) (hL : ∀ x ∈ L, x.2.correctDivE = false) : ∃ s,
    IonizersOk (gaussCfg .curlFree) atomIonizers s.species ∧
    Spec.Reasonable (gaussCfg .curlFree) L s ∧ SolverOk (gaussCfg .curlFree) s ∧ GaussLaw (gaussCfg .curlFree) s ∧
    GaussLaw (gaussCfg .crossDeposition) s := by
  have hr := atom_reasonable .curlFree false [(1, { correctDivE := true })] fun _ _ _ => rfl
  have hs : SolverOk (gaussCfg .curlFree) (atomSim false) := by
    obtain ⟨h1, h2, h3, h4, h5, h6, h7⟩ := gauss_solver .curlFree
    exact ⟨h1, h2, h3, h4, h5, h6, h7⟩
  obtain ⟨t, h1, h2, h3⟩ := C91_divE (gaussCfg .curlFree) [] 1 { correctDivE := true } (atomSim false) hr hs one_ne_zero rfl
  obtain ⟨t', h1', h4⟩ := C87_total_partial (gaussCfg .curlFree) [(1, { correctDivE := true })] (atomSim false) hr
  have e1 : t' = t := Except.ok.inj (h1'.symm.trans h1)
  subst e1
  have neg : ∀ x y : ℝ, (-1 : ℝ) < cylR x y := fun x y => lt_of_lt_of_le (by norm_num) (Real.sqrt_nonneg _)
  obtain ⟨hc, hl⟩ := reasonable_loose _ _ _ hr (-1) (fun _ _ _ _ => neg _ _) fun _ _ => neg _ _
  have hev : ∀ s : Sim, ionizeAll (fun _ => none) (gaussCfg .curlFree).k.c noChance s = .ok s := ionizeAll_none _ _
  have hne : NeutralEvent (IonizersOk (gaussCfg .curlFree) atomIonizers)
      (ionizeAll (fun _ => none) (gaussCfg .curlFree).k.c noChance) :=
    ⟨fun s h => ⟨s.species, hev s, (IonRelS.refl (ionizers := atomIonizers) _).neutral, h⟩, fun _ _ => ionizersOk_moved⟩
  obtain ⟨u, k1, -, k2, -⟩ := callsEv_run (gaussCfg .curlFree) hc hne (R := fun _ _ => True)
    ⟨fun _ _ _ _ _ => trivial, fun _ _ _ => trivial, fun _ _ _ _ => trivial⟩ [(1, { correctDivE := true })] (-1) _ hr.opts hl
    (atom_ionizers .curlFree)
  have k3 := C100_none (gaussCfg .curlFree) noChance [(1, { correctDivE := true })] (atomSim false)
  have e2 : u = t' := Except.ok.inj (k1.symm.trans (k3.trans h1))
  subst e2
  exact ⟨u, k2, ⟨h4.light, h4.dt, h4.invdz, h4.invdr, h4.Nz, h4.Nr, h4.threads, h4.period, h4.fuel, h4.beta,
    fun _ _ _ => rfl, h4.box, h4.plane, h4.speed, h4.mom, h4.near⟩, h2, h3, h3⟩

/-- `make_ionizable` builds this ionizer. -/
example : ∃ sps, makeIonizable (gaussCfg .curlFree).eCharge 1 ⟨1, [0], [1], [0]⟩ 0 (.single 1) 0 (atomSim false).species
    = .ok (atomIonizer, sps) := by
  refine ⟨_, (except_bind_ok _ _ _).2 ⟨[1], rfl, (except_bind_ok _ _ _).2 ⟨[true], ?_, if_pos rfl⟩⟩⟩
  refine (except_bind_ok _ _ _).2 ⟨true, ?_, rfl⟩
  refine congrArg Except.ok (decide_eq_true ?_)
  exact ⟨by norm_num [gaussCfg, cubicCfg], rfl⟩

/-- Non-vacuity of `C100_targets`: a dictionary for the levels 1 and 2, with the same electrons for both. -/
example : ∃ I sps, makeIonizable (gaussCfg .curlFree).eCharge 1 ⟨3, [0], [1], [0]⟩ 1
    (.perLevel fun l => if l = 0 then none else some 1) 0 (atomSim false).species = .ok (I, sps) ∧ I.targets = [1, 1] := by
  have h : (fun j => match (atomSim false).species[j]? with
      | some e => (.ok (decide (e.q = -(gaussCfg .curlFree).eCharge ∧ e.m = 1)) : Except PyErr Bool)
      | none => .error (.indexError "no such species")) 1 = .ok true :=
    congrArg Except.ok (decide_eq_true ⟨by norm_num [gaussCfg, cubicCfg], rfl⟩)
  exact ⟨_, _, (except_bind_ok _ _ _).2 ⟨[1, 1], rfl, (except_bind_ok _ _ _).2 ⟨[true, true],
    (except_bind_ok _ _ _).2 ⟨true, h, (except_bind_ok _ _ _).2 ⟨true, h, rfl⟩⟩, if_pos rfl⟩⟩, rfl⟩

/-! ### Tracer electrons -/

private theorem ion_dep (s : Sim) (hz : s.zmin = 0) (p : DepPtcl) (hp : p.z = 4) (hd : s.depositing = [⟨1, .linear, [p]⟩]) :
    ∃ A, (gaussCfg .curlFree).depositModes .rho s = .ok A ∧
      ∑ iz ∈ Finset.range 8, ∑ ir ∈ Finset.range 2, A 0 iz ir = (p.w : ℂ) := by
  have hok : ∀ m, ∃ A, depositAll .rho (gaussCfg .curlFree).k.c ((gaussCfg .curlFree).grid s.zmin) (gaussCfg .curlFree).beta m
      (gaussCfg .curlFree).nthreads s.depositing = .ok A := by
    intro m
    refine C24_deposit_partial _ _ _ _ _ _ Nat.one_pos _ (fun _ _ => rfl) one_pos rfl fun sp hsp q hq => ?_
    rw [hd, List.mem_singleton] at hsp
    subst hsp
    have hq : q = p := by simpa using hq
    subst hq
    show -(Shape.reach .linear) < 1 * (q.z - s.zmin) ∧ 1 * (q.z - s.zmin) ≤ ((8 : ℕ) : ℝ) + Shape.reach .linear
    rw [hz, hp]
    constructor <;> norm_num [Shape.reach]
  have hdep : (gaussCfg .curlFree).depOk .rho s := by
    intro m _ sp hsp
    obtain ⟨A, hA⟩ := hok m
    exact ((depositAll_ok _ _ _ _ _ _ Nat.one_pos _ _).1 hA).1 sp hsp
  refine ⟨_, (depositModes_ok _ Nat.one_pos _ _ _).2 ⟨hdep, rfl⟩, ?_⟩
  obtain ⟨A, hA⟩ := hok 0
  have hA' := ((depositAll_ok _ _ _ _ _ _ Nat.one_pos _ _).1 hA).2
  have hc := C23_charge _ _ _ _ Nat.one_pos _ A (by norm_num [Cfg.grid, gaussCfg, cubicCfg])
    (by norm_num [Cfg.grid, gaussCfg, cubicCfg]) hA
  rw [hd] at hc
  simp only [List.map_cons, List.map_nil, List.sum_cons, List.sum_nil, one_mul, add_zero] at hc
  rw [← hc]
  refine Finset.sum_congr rfl fun iz _ => Finset.sum_congr rfl fun ir _ => ?_
  unfold Cfg.depArr
  rw [if_pos (show 0 < (gaussCfg .curlFree).Nm from Nat.succ_pos 1), hA']
  unfold CellVolume.divideByVolume
  rw [show (gaussCfg .curlFree).vol 0 ir = 1 from rfl]
  simp
  rfl

/-- **C100, not true in general.** `make_ionizable` accepts electrons that are tracers (`is_tracer=True`, they do not
deposit) as the target of ions that are not. Then ionization changes the deposited charge density: the charge of the
ions grows and that of the electrons is not deposited. -/
theorem C100_tracer_violated : ∃ (c : Cfg) (_ : NeZero c.Nz) (I : Ionizer) (ionizers : ℕ → Option Ionizer) (ch : Chance) (s t : Sim)
    (A A' : ℕ → Buf), (∀ L, Spec.Reasonable c L s) ∧
    (∃ me adk sps, makeIonizable c.eCharge me adk 0 (.single 1) 0 sps = .ok (I, s.species)) ∧
    ionizers = Function.update (fun _ => none) 0 (some I) ∧
    IonizersOk c ionizers (s.species.map fun sp => { sp with isTracer := false }) ∧
    ionizeAll ionizers c.k.c ch s = .ok t ∧ c.depositModes .rho s = .ok A ∧ c.depositModes .rho t = .ok A' ∧ A ≠ A' := by
  obtain ⟨lev, h1, h2⟩ := handle_eq (sps := (atomSim true).species) (id := 0) (I := atomIonizer) (Nat.succ_pos 9)
    (Nat.zero_le 1) rfl (fun j hj => by
      have : j = 1 := by simpa [atomIonizer] using hj
      subst this
      exact ⟨_, rfl⟩) (gaussCfg .curlFree).k.c (fun _ => 0) (noChance.junk 0 0) (sp := _) rfl fun p hp => Nat.zero_le _
  have h2 := h2 0 Nat.one_pos
  rw [if_pos ((fires_iff _ _ _ _ Nat.one_pos).2 (atom_freed true _ rfl))] at h2
  have h2 : lev 0 = 1 := h2
  have hion : atomIonizers = Function.update (fun _ => none) 0 (some atomIonizer) := by
    funext id
    unfold atomIonizers
    by_cases h : id = 0
    · subst h; simp
    · simp [h]
  have hall : ∃ t, ionizeAll atomIonizers (gaussCfg .curlFree).k.c noChance (atomSim true) = .ok t ∧ t.zmin = 0 ∧
      t.depositing = [⟨1, .linear, [⟨1, 0, 4, 1, 0, 0, 4 / 3, 3 / 5⟩]⟩] := by
    refine ⟨_, (except_bind_ok _ _ _).2 ⟨_, (except_bind_ok _ _ _).2 ⟨_, h1, (except_bind_ok _ _ _).2 ⟨_, rfl, rfl⟩⟩, rfl⟩,
      rfl, ?_⟩
    simp [Sim.depositing, atomSim, Species.setLevels, growSpecies, Species.dep, Ptcl.dep, h2, atomIonizer, IonParams.nLevels]
  obtain ⟨t, k1, k2, k3⟩ := hall
  obtain ⟨A, a1, a2⟩ := ion_dep (atomSim true) rfl ⟨1, 0, 4, 0, 0, 0, 4 / 3, 3 / 5⟩ rfl (by
    simp [Sim.depositing, atomSim, Species.dep, Ptcl.dep])
  obtain ⟨A', b1, b2⟩ := ion_dep t k2 _ rfl k3
  refine ⟨gaussCfg .curlFree, inferInstance, atomIonizer, atomIonizers, noChance, atomSim true, t, A, A',
    fun L => atom_reasonable _ _ _ fun _ _ _ => rfl, ⟨1, ⟨1, [0], [1], [0]⟩, (atomSim true).species, ?_⟩, hion,
    atom_ionizers .curlFree, k1, a1, b1, ?_⟩
  · refine (except_bind_ok _ _ _).2 ⟨[1], rfl, (except_bind_ok _ _ _).2 ⟨[true], ?_, (if_pos rfl).trans ?_⟩⟩
    · refine (except_bind_ok _ _ _).2 ⟨true, ?_, rfl⟩
      refine congrArg Except.ok (decide_eq_true ?_)
      exact ⟨by norm_num [gaussCfg, cubicCfg], rfl⟩
    · rfl
  · rintro rfl
    rw [a2] at b2
    norm_num at b2

end Fbpic.Pic
