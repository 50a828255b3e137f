import Verif.Lemmas.PicCycleRun

/-!
# Lemmas: the sources in one iteration
-/

namespace Fbpic.Pic

open Transform ExternalField Step
open Spec (Paired Wrapped velocity back scalHat vecHat scalBack vecBack OnGrid smoothing Density ChargeOf CurrentOf
  PlusGradient PlusGradients V3 EM grad div IsMaxwell SolverOk EqOn hankel)

variable (c : Cfg)

/-! ### The charge density depends on positions and weights only -/

/-- Without the momentum. -/
def stripP (p : DepPtcl) : DepPtcl := { p with ux := 0, uy := 0, uz := 0, invGamma := 0 }

/-- Without the momenta. -/
def stripS (sp : DepSpecies) : DepSpecies := { sp with ptcls := sp.ptcls.map stripP }

theorem speciesBuf_strip (k : ℝ) (g : CylGrid) (beta : Shape → ℕ → List ℝ) (m : ℕ) (sp : DepSpecies) :
    speciesBuf .rho k g beta m (stripS sp) = speciesBuf .rho k g beta m sp := by
  unfold speciesBuf stripS
  dsimp only
  rw [List.map_map]
  rfl

theorem speciesOk_strip (k : ℝ) (g : CylGrid) (beta : Shape → ℕ → List ℝ) (m : ℕ) (sp : DepSpecies) :
    speciesOk .rho k g beta m (stripS sp) ↔ speciesOk .rho k g beta m sp := by
  unfold speciesOk stripS
  dsimp only
  simp only [List.mem_map, forall_exists_index, and_imp, forall_apply_eq_imp_iff₂]
  rfl

theorem dep_strip {s s' : Sim} (hz : s'.zmin = s.zmin) (h : s'.depositing.map stripS = s.depositing.map stripS) :
    (c.depOk .rho s → c.depOk .rho s') ∧ ∀ m, c.depArr .rho s' m = c.depArr .rho s m := by
  constructor
  · intro hd m hm sp' hsp'
    have : stripS sp' ∈ s.depositing.map stripS := by rw [← h]; exact List.mem_map_of_mem hsp'
    obtain ⟨sp, hsp, e⟩ := List.mem_map.1 this
    rw [hz, ← speciesOk_strip, ← e, speciesOk_strip]
    exact hd m hm sp hsp
  · intro m
    unfold Cfg.depArr
    rw [hz]
    have e : ∀ l : List DepSpecies, l.map (speciesBuf .rho c.k.c (c.grid s.zmin) c.beta m)
        = (l.map stripS).map (speciesBuf .rho c.k.c (c.grid s.zmin) c.beta m) := by
      intro l
      rw [List.map_map]
      exact List.map_congr_left fun sp _ => (speciesBuf_strip _ _ _ _ sp).symm
    rw [e, h, ← e]

theorem strip_of_paired {s s' : Sim} (h : Paired (fun _ _ p p' => p'.w = p.w ∧ p'.push.level = p.push.level ∧
    p'.push.x = p.push.x ∧ p'.push.y = p.push.y ∧ p'.push.z = p.push.z) s s') :
    s'.depositing.map stripS = s.depositing.map stripS := by
  have key : s'.species.map (fun sp => (sp.isTracer, stripS sp.dep)) = s.species.map (fun sp => (sp.isTracer, stripS sp.dep)) := by
    refine List.ext_getElem (by simp [h.count]) fun i h1 h2 => ?_
    simp only [List.getElem_map]
    simp only [List.length_map] at h1 h2
    obtain ⟨e1, e2⟩ := h.same i _ _ (List.getElem?_eq_getElem h2) (List.getElem?_eq_getElem h1)
    have e3 := h.ptcl i _ _ (List.getElem?_eq_getElem h2) (List.getElem?_eq_getElem h1)
    generalize s.species[i] = sp at *
    generalize s'.species[i] = sp' at *
    have hp : (sp'.ptcl.map (Ptcl.dep sp.ionizable)).map stripP = (sp.ptcl.map (Ptcl.dep sp.ionizable)).map stripP := by
      refine List.ext_getElem (by simp [e2]) fun j g1 g2 => ?_
      simp only [List.getElem_map]
      simp only [List.length_map] at g1 g2
      obtain ⟨a1, a2, a3, a4, a5⟩ := e3 j _ _ (List.getElem?_eq_getElem g2) (List.getElem?_eq_getElem g1)
      unfold stripP Ptcl.dep
      simp only [a1, a2, a3, a4, a5]
    have hi : sp'.ionizable = sp.ionizable := by rw [← e1]
    have ht : sp'.isTracer = sp.isTracer := by rw [← e1]
    have hq : sp'.q = sp.q := by rw [← e1]
    have hs : sp'.shape = sp.shape := by rw [← e1]
    unfold stripS Species.dep
    simp only [hi, ht, hq, hs, hp]
  have e : ∀ u : Sim, u.depositing.map stripS =
      ((u.species.map fun sp => (sp.isTracer, stripS sp.dep)).filter fun x => !x.1).map Prod.snd := by
    intro u
    unfold Sim.depositing
    rw [List.filter_map, List.map_map, List.map_map]
    rfl
  rw [e, e, key]

/-! ### The way back -/

/-- All the inverse Lorentz factors belong to the momenta. -/
def Sim.Sound (s : Sim) : Prop := ∀ sp ∈ s.species, ∀ p ∈ sp.ptcl, p.push.mom.ok

theorem back_species (o : Opts) (a b : ℝ) {t : Sim} (h : t.Sound) : (back c o a b t).species =
    c.shiftAll (if o.movePositions then -a else 0) (if o.movePositions then -b else 0) t.species := by
  unfold back Cfg.shiftAll
  dsimp only
  refine List.map_congr_left fun sp hsp => ?_
  congr 1
  refine List.map_congr_left fun p hp => ?_
  have hok : p.push.mom.invGamma = 1 / p.push.mom.gamma := h sp hsp p hp
  unfold Cfg.shiftP velocity
  cases o.movePositions
  · simp
  · simp only [if_true, hok]
    congr 2 <;> ring

theorem back_zmin (o : Opts) (a b : ℝ) (t : Sim) : (back c o a b t).zmin = t.zmin + c.drift (-b) := by
  unfold back Cfg.drift
  dsimp only
  split_ifs <;> ring

section
variable [NeZero c.Nz]

theorem density_of {f : DepField} {s : Sim} (hn : 0 < c.nthreads) (h : c.depOk f s) {m : ℕ} (hm : m < c.Nm) :
    Density c f s m (c.depArr f s m) := by
  refine ⟨_, (depositAll_ok f c.k.c (c.grid s.zmin) c.beta m c.nthreads hn s.depositing _).2 ⟨h m hm, rfl⟩, fun iz ir => ?_⟩
  unfold Cfg.depArr CellVolume.divideByVolume
  rw [if_pos hm]
  dsimp only [Cfg.grid]
  push_cast
  ring

theorem chargeOf_rhoHat {s : Sim} (hn : 0 < c.nthreads) (h : c.depOk .rho s) : ChargeOf c s (c.rhoHat s) := by
  intro m hm
  refine ⟨_, density_of c hn h hm, fun iz hz ir hr => ?_⟩
  unfold Cfg.rhoHat fwd
  rw [if_pos ⟨hz, hr⟩]
  rfl

theorem currentOf_jHat {s : Sim} (hn : 0 < c.nthreads) (h : c.depOk .Jr s) (h' : c.depOk .Jt s) (h'' : c.depOk .Jz s) :
    CurrentOf c s fun m iz ir => ⟨(c.jHat s m iz ir).1, (c.jHat s m iz ir).2.1, (c.jHat s m iz ir).2.2⟩ := by
  intro m hm
  refine ⟨⟨c.depArr .Jr s m, c.depArr .Jt s m, c.depArr .Jz s m⟩, density_of c hn h hm, density_of c hn h' hm,
    density_of c hn h'' hm, fun iz hz ir hr => ?_⟩
  have e : ∀ z : ℂ, 1 / 2 * z = z / 2 := fun z => by ring
  unfold Cfg.jHat
  dsimp only
  rw [toSpectVect_eq, toSpectScal_eq]
  unfold fwd vecHat scalHat
  simp only [if_pos (And.intro hz hr), e]
  exact ⟨rfl, rfl, rfl⟩

theorem ChargeOf_congr {s s' : Sim} (hs : s'.depositing = s.depositing) (hz : s'.zmin = s.zmin) {rho : ℕ → ℕ → ℕ → ℂ}
    (h : ChargeOf c s rho) : ChargeOf c s' rho := by
  unfold ChargeOf Density at *
  rw [hs, hz]
  exact h

theorem CurrentOf_congr {s s' : Sim} (hs : s'.depositing = s.depositing) (hz : s'.zmin = s.zmin) {J : ℕ → ℕ → ℕ → V3}
    (h : CurrentOf c s J) : CurrentOf c s' J := by
  unfold CurrentOf Density at *
  rw [hs, hz]
  exact h

theorem ChargeOf.values {s : Sim} {rho rho' : ℕ → ℕ → ℕ → ℂ} (h : ChargeOf c s rho)
    (e : ∀ m < c.Nm, ∀ iz < c.Nz, ∀ ir < c.Nr, rho' m iz ir = rho m iz ir) : ChargeOf c s rho' := by
  intro m hm
  obtain ⟨a, ha, h⟩ := h m hm
  exact ⟨a, ha, fun iz hz ir hr => (e m hm iz hz ir hr).trans (h iz hz ir hr)⟩

theorem CurrentOf.values {s : Sim} {J J' : ℕ → ℕ → ℕ → V3} (h : CurrentOf c s J)
    (e : ∀ m < c.Nm, ∀ iz < c.Nz, ∀ ir < c.Nr, J' m iz ir = J m iz ir) : CurrentOf c s J' := by
  intro m hm
  obtain ⟨a, h1, h2, h3, h⟩ := h m hm
  refine ⟨a, h1, h2, h3, fun iz hz ir hr => ?_⟩
  rw [e m hm iz hz ir hr]
  exact h iz hz ir hr

/-! ### The spectral arrays -/

/-- What an iteration stores in the spectral arrays before the correction of the current. -/
structure Cfg.Stored (x : Bool) (b X Z d : Sim) (u v : SpecCell) (m iz ir : ℕ) : Prop where
  em : v.em = u.em
  prev : v.rhoPrev = u.rhoPrev
  J : v.J = ⟨(c.jHat b m iz ir).1, (c.jHat b m iz ir).2.1, (c.jHat b m iz ir).2.2⟩
  next : v.rhoNext = c.rhoHat d m iz ir
  xy : x = true → v.rhoNextXY = c.rhoHat X m iz ir
  z : x = true → v.rhoNextZ = c.rhoHat Z m iz ir

/-- Is the cross-deposition done? -/
def Cfg.crosses (o : Opts) : Bool :=
  match o.correctCurrents, c.correction with
  | true, .crossDeposition => true
  | _, _ => false

theorem deposit_stored (hn : 0 < c.nthreads) (o : Opts) {b d : Sim} (hs : c.Sized b) (h : c.iterDeposit o b = .ok d) :
    (c.depOk .Jr b ∧ c.depOk .Jt b ∧ c.depOk .Jz b) ∧ c.depOk .rho d ∧ c.Keeps (fun n => n = .prev) b d ∧
    ∃ X Z : Sim, (c.crosses o = true → c.depOk .rho X ∧ c.depOk .rho Z ∧
        X.species = c.shiftAll (if o.movePositions then 0.5 * c.dt else 0) (if o.movePositions then -(0.5 * c.dt) else 0) b.species ∧
        X.zmin = b.zmin + c.drift (-0.5 * c.dt) ∧
        Z.species = c.shiftAll (if o.movePositions then -(0.5 * c.dt) else 0) (if o.movePositions then 0.5 * c.dt else 0) b.species ∧
        Z.zmin = b.zmin + c.drift (0.5 * c.dt)) ∧
      ∀ m < c.Nm, ∀ iz < c.Nz, ∀ ir < c.Nr,
        c.Stored (c.crosses o) b X Z d ((b.spect m).cell iz ir) ((d.spect m).cell iz ir) m iz ir := by
  rw [iterDeposit_eq] at h
  obtain ⟨s2, h2, h⟩ := (except_bind_ok _ _ _).1 h
  obtain ⟨dJ, rfl⟩ := (depositJ_ok c hn _ _).1 h2
  obtain ⟨s3, h3, h⟩ := (except_bind_ok _ _ _).1 h
  obtain ⟨d4, rfl⟩ := (depositRho_ok c hn _ _ _).1 h
  set s4 := c.movePush o.movePositions (0.5 * c.dt) 1 1 1 (0.5 * c.dt) s3 with hs4
  have k2 := withJ_keeps c b
  have z2 := k2.sized c hs
  have k4 : c.Keeps (fun _ => True) s3 s4 := .of_eq c _ (movePush_spect c _ _ _ _ _ _ _)
  have e4 : s4.spect = s3.spect := movePush_spect c _ _ _ _ _ _ _
  have rh : c.rhoHat (c.withRho .next s4) = c.rhoHat s4 := rhoHat_congr c fun m => depArr_congr c (s := s4) (s' := c.withRho .next s4) rfl rfl _ m
  refine ⟨dJ, depOk_congr c (s := s4) rfl rfl d4, ?_⟩
  unfold Cfg.maybeCross at h3
  unfold Cfg.crosses
  split at h3
  · rename_i hcc hco
    rw [crossDeposit_eq] at h3
    obtain ⟨sX, hX, h3⟩ := (except_bind_ok _ _ _).1 h3
    obtain ⟨sZ, hZ, h3⟩ := (except_bind_ok _ _ _).1 h3
    have h3 : c.movePush o.movePositions (0.5 * c.dt) 1 1 (-1) (-0.5 * c.dt) sZ = s3 := Except.ok.inj h3
    obtain ⟨dX, rfl⟩ := (depositRho_ok c hn _ _ _).1 hX
    obtain ⟨dZ, rfl⟩ := (depositRho_ok c hn _ _ _).1 hZ
    set a := c.movePush o.movePositions (0.5 * c.dt) 1 1 (-1) (-0.5 * c.dt) (c.withJ b) with ha
    set e := c.movePush o.movePositions c.dt (-1) (-1) 1 c.dt (c.withRho .nextXY a) with he
    have ea : a.spect = (c.withJ b).spect := movePush_spect c _ _ _ _ _ _ _
    have ee : e.spect = (c.withRho .nextXY a).spect := movePush_spect c _ _ _ _ _ _ _
    have e3 : s3.spect = (c.withRho .nextZ e).spect := by rw [← h3]; exact movePush_spect c _ _ _ _ _ _ _
    have ka : c.Keeps (fun _ => True) (c.withJ b) a := .of_eq c _ ea
    have za := ka.sized c z2
    have kX := (withRho_keeps c .nextXY a za).1
    have zX := kX.sized c za
    have kb : c.Keeps (fun _ => True) (c.withRho .nextXY a) e := .of_eq c _ ee
    have zb := kb.sized c zX
    have kZ := (withRho_keeps c .nextZ e zb).1
    have zZ := kZ.sized c zb
    have k3 : c.Keeps (fun _ => True) (c.withRho .nextZ e) s3 := .of_eq c _ e3
    have z3 := k3.sized c zZ
    have z4 := k4.sized c z3
    have k5 := (withRho_keeps c .next s4 z4).1
    refine ⟨?_, a, e, fun _ => ⟨dX, dZ, ?_, ?_, ?_, ?_⟩, fun m hm iz hz ir hr => ?_⟩
    · refine (((((((k2.trans c ka).trans c kX).trans c kb).trans c kZ).trans c k3).trans c k4).trans c k5).mono c ?_
      rintro n rfl
      simp
    · rw [ha, movePush_species, show (c.withJ b).species = b.species from rfl]
      simp
    · rw [ha, (movePush_zmin c _ _ _ _ _ _ _).1]; rfl
    · rw [he, movePush_species, show (c.withRho .nextXY a).species = a.species from rfl, ha, movePush_species,
        show (c.withJ b).species = b.species from rfl, shiftAll_add]
      cases o.movePositions
      · simp
      · simp only [if_true]
        congr 1 <;> ring
    · rw [he, (movePush_zmin c _ _ _ _ _ _ _).1, show (c.withRho .nextXY a).zmin = a.zmin from rfl, ha,
        (movePush_zmin c _ _ _ _ _ _ _).1, show (c.withJ b).zmin = b.zmin from rfl, add_assoc, drift_add]
      congr 2
      ring
    · rw [hcc, hco]
      have v1 := withRho_cell c .next s4 z4 hm hz hr
      have v2 := withRho_cell c .nextZ e zb hm hz hr
      have v3 := withRho_cell c .nextXY a za hm hz hr
      have v4 := withJ_cell c b hs hm hz hr
      rw [e4, e3, v2, ee, v3, ea, v4] at v1
      rw [v1]
      exact ⟨rfl, rfl, rfl, by rw [rh]; rfl, fun _ => rfl, fun _ => rfl⟩
  · rename_i hne
    have h3 : c.withJ b = s3 := Except.ok.inj h3
    have z3 : c.Sized s3 := by rw [← h3]; exact z2
    have z4 := k4.sized c z3
    have k5 := (withRho_keeps c .next s4 z4).1
    have hx : (match o.correctCurrents, c.correction with
      | true, .crossDeposition => true
      | _, _ => false) = false := by
      split
      · rename_i h1 h2; exact absurd h2 (fun h2 => hne h1 h2)
      · rfl
    refine ⟨?_, b, b, fun h => ?_, fun m hm iz hz ir hr => ?_⟩
    · rw [h3] at k2
      refine ((k2.trans c k4).trans c k5).mono c ?_
      rintro n rfl
      exact ⟨⟨trivial, trivial⟩, by decide⟩
    · rw [hx] at h; cases h
    · rw [hx]
      have v1 := withRho_cell c .next s4 z4 hm hz hr
      have v4 := withJ_cell c b hs hm hz hr
      rw [e4, ← h3, v4] at v1
      rw [v1]
      exact ⟨rfl, rfl, rfl, by rw [rh]; rfl, fun h => (by cases h), fun h => (by cases h)⟩

end

/-! ### The correction of the current -/

theorem curlFree_gradient (k : Consts) (kz kr dt : ℝ) (V : Option ℝ) (b : Bool) (s : SpecCell) :
    PlusGradient kz kr s.J (correctCurrents .curlFree kz kr (psatdCoefs k kz kr dt V b) s).J := by
  cases V <;>
  · simp only [correctCurrents, psatdCoefs, Option.map_none, Option.map_some, curlFreeStandard, curlFreeComoving]
    generalize hF : -_ * (_ + _ + _ : ℂ) = F
    refine ⟨-F, ?_, ?_, ?_⟩ <;> simp only [SpecCell.J, grad] <;> ring

theorem crossCorrect_gradients (kz kr : ℝ) (Dz Dxy : ℂ) (s : SpecCell) :
    PlusGradients kz kr s.J (crossCorrect kz kr Dz Dxy s).J := by
  unfold crossCorrect
  refine ⟨if kr = 0 then 0 else Dxy / kr ^ 2, if kz = 0 then 0 else Dz / kz ^ 2, ?_, ?_, ?_⟩ <;>
    simp only [SpecCell.J, grad] <;> split_ifs <;>
    first
    | (exfalso; simp_all; done)
    | (simp_all; done)
    | (have : (kr : ℂ) ≠ 0 := by (first | (exact_mod_cast ‹¬ kr = 0›) | (exact_mod_cast ‹kr ≠ 0›))
       field_simp <;> ring)
    | (have : (kz : ℂ) ≠ 0 := by (first | (exact_mod_cast ‹¬ kz = 0›) | (exact_mod_cast ‹kz ≠ 0›))
       field_simp <;> ring)

theorem cross_gradients (k : Consts) (kz kr dt : ℝ) (V : Option ℝ) (b : Bool) (s : SpecCell) :
    PlusGradients kz kr s.J (correctCurrents .crossDeposition kz kr (psatdCoefs k kz kr dt V b) s).J := by
  cases V <;> exact crossCorrect_gradients _ _ _ _ _

theorem crossCorrect_J (kz kr : ℝ) (Dz Dxy : ℂ) (s : SpecCell) :
    (kz ≠ 0 → Complex.I * kz * (crossCorrect kz kr Dz Dxy s).Jz = Complex.I * kz * s.Jz - Dz) ∧
    (kr ≠ 0 → kr * ((crossCorrect kz kr Dz Dxy s).Jp - (crossCorrect kz kr Dz Dxy s).Jm) = kr * (s.Jp - s.Jm) - Dxy) := by
  unfold crossCorrect
  constructor
  · intro h
    have hc : (kz : ℂ) ≠ 0 := by exact_mod_cast h
    simp only [if_pos h]
    have : ∀ J : ℂ, Complex.I * kz * (J + Complex.I * Dz * (1 / kz)) = Complex.I * kz * J - Dz := by
      intro J
      field_simp
      linear_combination Dz * Complex.I_sq
    split_ifs <;> exact this _
  · intro h
    have hc : (kr : ℂ) ≠ 0 := by exact_mod_cast h
    simp only [if_pos h]
    split_ifs <;> dsimp only <;> field_simp <;> ring

theorem cross_continuity {k : Consts} (kz kr dt : ℝ) (V : Option ℝ) (b : Bool) (h : Regular k kz dt V) (s : SpecCell) :
    (kz ≠ 0 → (schemeOf V b).Continuity kz kr dt ((s.rhoPrev + s.rhoNextXY) / 2) ((s.rhoNextZ + s.rhoNext) / 2)
      ⟨0, 0, (correctCurrents .crossDeposition kz kr (psatdCoefs k kz kr dt V b) s).Jz⟩) ∧
    (kr ≠ 0 → (schemeOf V b).Continuity kz kr dt ((s.rhoPrev - s.rhoNextXY) / 2) ((s.rhoNext - s.rhoNextZ) / 2)
      ⟨(correctCurrents .crossDeposition kz kr (psatdCoefs k kz kr dt V b) s).Jp,
        (correctCurrents .crossDeposition kz kr (psatdCoefs k kz kr dt V b) s).Jm, 0⟩) := by
  rw [continuity_iff_jcorr kz kr dt V b h, continuity_iff_jcorr kz kr dt V b h]
  simp only [div]
  match V with
  | none =>
    simp only [correctCurrents, psatdCoefs, Option.map_none, crossDepStandard, TccOf, jcorrOf, TebOf]
    constructor <;> intro hk
    · have := (crossCorrect_J kz kr (Complex.I * kz * s.Jz + 0.5 * (1 / dt : ℝ) * (s.rhoNext - s.rhoNextXY + s.rhoNextZ - s.rhoPrev))
        (kr * (s.Jp - s.Jm) + 0.5 * (1 / dt : ℝ) * (s.rhoNext - s.rhoNextZ + s.rhoNextXY - s.rhoPrev)) s).1 hk
      rw [this]
      push_cast
      ring
    · have := (crossCorrect_J kz kr (Complex.I * kz * s.Jz + 0.5 * (1 / dt : ℝ) * (s.rhoNext - s.rhoNextXY + s.rhoNextZ - s.rhoPrev))
        (kr * (s.Jp - s.Jm) + 0.5 * (1 / dt : ℝ) * (s.rhoNext - s.rhoNextZ + s.rhoNextXY - s.rhoPrev)) s).2 hk
      rw [this]
      push_cast
      ring
  | some v =>
    simp only [correctCurrents, psatdCoefs, Option.map_some, crossDepComoving, TccOf, jcorrOf, TebOf]
    generalize coefTcc kz dt v b = T
    generalize coefJcorr kz dt v = j
    generalize coefTeb kz dt v b = e
    constructor <;> intro hk
    · rw [(crossCorrect_J kz kr _ _ s).1 hk]
      ring
    · rw [(crossCorrect_J kz kr _ _ s).2 hk]
      ring

/-! ### The fields -/

section
variable [NeZero c.Nz]

theorem start_hat (s : Sim) {m iz ir : ℕ} (hm : m < c.Nm) (hz : iz < c.Nz) (hr : ir < c.Nr) :
    (((c.startFields s).spect m).cell iz ir).em =
      ⟨vecHat c m (s.interp m).E iz ir, vecHat c m (s.interp m).B iz ir⟩ := by
  have e : ∀ z : ℂ, 1 / 2 * z = z / 2 := fun z => by ring
  rw [start_cell c s hm]
  unfold SpecCell.em
  dsimp only
  rw [toSpectScal_eq, toSpectScal_eq, toSpectVect_eq, toSpectVect_eq]
  unfold fwd vecHat scalHat
  simp only [if_pos (And.intro hz hr), e]

theorem scalBack_congr (m : ℕ) {a b : Buf} (h : EqOn c.Nz c.Nr a b) {iz ir : ℕ} (hz : iz < c.Nz) (hr : ir < c.Nr) :
    scalBack c m a iz ir = scalBack c m b iz ir := by
  unfold scalBack
  exact fftAxis0_congr c.Nz c.Nr true (hankel_congr c.Nz c.Nr _ h) iz ir hz hr

theorem vecBack_congr (m : ℕ) {F G : ℕ → ℕ → V3} (h : ∀ iz < c.Nz, ∀ ir < c.Nr, F iz ir = G iz ir) :
    OnGrid c (vecBack c m F) (vecBack c m G) := by
  have hp : ∀ M, EqOn c.Nz c.Nr (hankel c.Nr M fun i j => (F i j).p) (hankel c.Nr M fun i j => (G i j).p) :=
    fun M => hankel_congr c.Nz c.Nr M fun i j hi hj => by rw [h i hi j hj]
  have hm : ∀ M, EqOn c.Nz c.Nr (hankel c.Nr M fun i j => (F i j).m) (hankel c.Nr M fun i j => (G i j).m) :=
    fun M => hankel_congr c.Nz c.Nr M fun i j hi hj => by rw [h i hi j hj]
  unfold vecBack
  refine ⟨fun iz hz ir hr => ?_, fun iz hz ir hr => ?_, fun iz hz ir hr => ?_⟩
  · dsimp only
    refine fftAxis0_congr c.Nz c.Nr true (fun i j hi hj => ?_) iz ir hz hr
    rw [hp _ i j hi hj, hm _ i j hi hj]
  · dsimp only
    refine fftAxis0_congr c.Nz c.Nr true (fun i j hi hj => ?_) iz ir hz hr
    rw [hp _ i j hi hj, hm _ i j hi hj]
  · exact scalBack_congr c m (fun i j hi hj => by rw [h i hi j hj]) hz hr

theorem interp_back (m : ℕ) (g : SpecGrid) (i : Interp) :
    OnGrid c (c.interpEB m g i).E (vecBack c m fun iz ir => (g.cell iz ir).em.E) ∧
    OnGrid c (c.interpEB m g i).B (vecBack c m fun iz ir => (g.cell iz ir).em.B) ∧
    OnGrid c (c.interpSources m g i).J (vecBack c m fun iz ir => (g.cell iz ir).J) ∧
    ∀ iz < c.Nz, ∀ ir < c.Nr, (c.interpSources m g i).rho iz ir = scalBack c m (fun iz ir => (g.cell iz ir).rhoPrev) iz ir := by
  unfold Cfg.interpEB Cfg.interpSources
  dsimp only
  rw [toInterpScal_eq, toInterpScal_eq, toInterpScal_eq, toInterpScal_eq, toInterpVect_eq, toInterpVect_eq, toInterpVect_eq]
  unfold bwd
  refine ⟨⟨?_, ?_, ?_⟩, ⟨?_, ?_, ?_⟩, ⟨?_, ?_, ?_⟩, ?_⟩ <;>
  · intro iz hz ir hr
    simp only [if_pos (And.intro hz hr)]
    rfl

end

end Fbpic.Pic
