import Verif.Spec.BunchPmd
import Verif.Props.Bunch
import Verif.Lemmas.Deposit

/-!
# C123: bunches from openPMD files
-/

namespace Fbpic.BunchPmd

open Bunch
open Spec (Fulfils chosen shiftedBy number CenterAt unitOf micron NoZ MomentaOnly)

private theorem meters_view (v : Version) (p : In) : toMeters v (view v p) = p := by
  cases v
  · simp [toMeters, view]
  · rfl

private theorem holds_iff (v : Version) (b : Bounds) (p : In) : b.holds (view v p) ↔ Fulfils (unitOf v) b p := by
  obtain ⟨k, lo, hi⟩ := b
  have e : ∀ a c : ℝ, (a < c * 10 ^ 6 ↔ a * (1 / 10 ^ 6) < c) ∧ (c * 10 ^ 6 < a ↔ c < a * (1 / 10 ^ 6)) := by
    intro a c
    constructor <;> constructor <;> intro h <;> linarith
  cases v <;> cases k <;>
    simp only [Bounds.holds, Fulfils, value, view, unitOf, (e _ _).1, (e _ _).2, mul_one]

private theorem get_eq (v : Version) (select : Option (List Bounds)) (file : List In) :
    (getParticle v select file).map (toMeters v) = chosen (unitOf v) select file := by
  unfold getParticle chosen
  rw [List.filter_map, List.map_map]
  rw [show (toMeters v ∘ view v) = id from funext fun p => meters_view v p, List.map_id]
  refine List.filter_congr fun p _ => ?_
  exact decide_eq_decide.2 (forall_congr' fun b => forall_congr' fun _ => holds_iff v b p)

private theorem load_eq (v : Version) (zOff : ℝ) (select : Option (List Bounds)) (file : List In) :
    load (some v) zOff select file = average (chosen (unitOf v) select file) >>= fun m =>
      .ok ((chosen (unitOf v) select file).map (shiftedBy (zOff - m))) := by
  unfold load
  dsimp only
  rw [get_eq]
  cases average (chosen (unitOf v) select file) with
  | error e => rfl
  | ok m =>
    show Except.ok _ = Except.ok _
    congr 1
    refine List.map_congr_left fun p _ => ?_
    simp only [shiftedBy, In.mk.injEq, true_and, and_true]
    ring

private theorem sum_shift (d : ℝ) (l : List In) : ((l.map (shiftedBy d)).map fun p => p.w * p.z).sum
    = (l.map fun p => p.z * p.w).sum + d * (l.map fun p => p.w).sum := by
  induction l with
  | nil => simp
  | cons p l ih =>
    simp only [List.map_cons, List.sum_cons, ih, shiftedBy]
    ring

private theorem number_shift (d : ℝ) (l : List In) : number (l.map (shiftedBy d)) = number l := by
  unfold number
  rw [List.map_map]
  rfl

/-- **C123.** The bunch consists of the chosen particles of the file, in their order, with their transverse positions,
momenta and weights, all shifted by the same length along z such that the weighted mean is `z_off`. -/
theorem C123_bunch (v : Version) (zOff : ℝ) (select : Option (List Bounds)) (file ps : List In)
    (h : load (some v) zOff select file = .ok ps) :
    (∃ d, ps = (chosen (unitOf v) select file).map (shiftedBy d)) ∧ CenterAt zOff ps ∧
      number ps = number (chosen (unitOf v) select file) := by
  rw [load_eq] at h
  obtain ⟨m, hm, h⟩ := (except_bind_ok _ _ _).1 h
  have h : (chosen (unitOf v) select file).map (shiftedBy (zOff - m)) = ps := Except.ok.inj h
  subst h
  refine ⟨⟨_, rfl⟩, ?_, number_shift _ _⟩
  unfold average at hm
  dsimp only at hm
  by_cases hW : ((chosen (unitOf v) select file).map fun p => p.w).sum = 0
  · rw [if_pos hW] at hm; cases hm
  rw [if_neg hW] at hm
  have hm := Except.ok.inj hm
  unfold CenterAt
  rw [number_shift, sum_shift]
  unfold number
  rw [← hm]
  field_simp
  ring

/-- It can be loaded if and only if openPMD-viewer is installed and the chosen particles have some weight. -/
theorem C123_loads_iff (viewer : Option Version) (zOff : ℝ) (select : Option (List Bounds)) (file : List In) :
    (∃ ps, load viewer zOff select file = .ok ps) ↔
      ∃ v, viewer = some v ∧ number (chosen (unitOf v) select file) ≠ 0 := by
  cases viewer with
  | none => simp [load]
  | some v =>
    rw [load_eq]
    unfold average number
    dsimp only
    by_cases hW : ((chosen (unitOf v) select file).map fun p => p.w).sum = 0
    · rw [if_pos hW]
      constructor
      · rintro ⟨ps, h⟩; cases h
      · rintro ⟨v', e, h⟩
        cases e
        exact absurd hW h
    · rw [if_neg hW]
      exact ⟨fun _ => ⟨v, rfl, hW⟩, fun _ => ⟨_, rfl⟩⟩

private theorem chosen_shift (u d : ℝ) (select : Option (List Bounds)) (hs : NoZ select) (file : List In) :
    chosen u select (file.map (shiftedBy d)) = (chosen u select file).map (shiftedBy d) := by
  unfold chosen
  rw [List.filter_map]
  congr 1
  refine List.filter_congr fun p _ => ?_
  have e : (∀ b ∈ select.getD [], Fulfils u b (shiftedBy d p)) ↔ ∀ b ∈ select.getD [], Fulfils u b p := by
    refine forall_congr' fun b => forall_congr' fun hb => ?_
    have := hs b hb
    obtain ⟨k, lo, hi⟩ := b
    cases k <;> first | exact Iff.rfl | exact absurd rfl this
  exact decide_eq_decide.2 e

/-- The place of the bunch in the file does not matter (without rules for z). -/
theorem C123_translate (viewer : Option Version) (zOff d : ℝ) (select : Option (List Bounds)) (hs : NoZ select) (file : List In) :
    load viewer zOff select (file.map (shiftedBy d)) = load viewer zOff select file := by
  cases viewer with
  | none => rfl
  | some v =>
    rw [load_eq, load_eq, chosen_shift _ _ _ hs]
    generalize chosen (unitOf v) select file = l
    have e1 : ((l.map (shiftedBy d)).map fun p => p.w).sum = (l.map fun p => p.w).sum := number_shift d l
    have e2 : ((l.map (shiftedBy d)).map fun p => p.z * p.w).sum = (l.map fun p => p.z * p.w).sum + d * (l.map fun p => p.w).sum := by
      rw [← sum_shift]
      congr 1
      refine List.map_congr_left fun p _ => mul_comm _ _
    unfold average
    dsimp only
    rw [e1, e2]
    by_cases hW : (l.map fun p => p.w).sum = 0
    · rw [if_pos hW, if_pos hW]; rfl
    · rw [if_neg hW, if_neg hW]
      show Except.ok _ = Except.ok _
      congr 1
      rw [List.map_map]
      refine List.map_congr_left fun p _ => ?_
      simp only [Function.comp, shiftedBy, In.mk.injEq, true_and, and_true]
      field_simp
      ring

/-- The version of openPMD-viewer does not matter (without rules for positions). -/
theorem C123_versions (zOff : ℝ) (select : Option (List Bounds)) (hs : MomentaOnly select) (file : List In) :
    load (some .v0) zOff select file = load (some .v1) zOff select file := by
  have e : chosen (unitOf .v0) select file = chosen (unitOf .v1) select file := by
    unfold chosen
    refine List.filter_congr fun p _ => ?_
    have e : (∀ b ∈ select.getD [], Fulfils (unitOf .v0) b p) ↔ ∀ b ∈ select.getD [], Fulfils (unitOf .v1) b p := by
      refine forall_congr' fun b => forall_congr' fun hb => ?_
      have := hs b hb
      obtain ⟨k, lo, hi⟩ := b
      cases k <;> first | exact Iff.rfl | (exfalso; simp at this)
    exact decide_eq_decide.2 e
  rw [load_eq, load_eq, e]

/-- All ranks together: the particles of the bunch that are inside the box, in the frame of the simulation, each on one rank; an electron
bunch has the charge `-e` and the mass of the electron. -/
theorem C123_ranks (c : Comm) (hsize : 0 < c.size) (zminG dz : ℝ) (hdz : 0 < dz) (boost : Option BoostConv.Conv) (e mE : ℝ)
    (viewer : Option Version) (zOff : ℝ) (select : Option (List Bounds)) (file ps : List In)
    (h : load viewer zOff select file = .ok ps) :
    ∃ zmin zmax, c.getZminZmax zminG dz false false false none = .ok (zmin, zmax) ∧
    ∃ parts : ℕ → List Out, (∀ r, r < c.size → addElec c zminG dz r boost e mE viewer zOff select file = .ok ⟨-e, mE, parts r⟩) ∧
      ((List.range c.size).flatMap parts).Perm ((ps.map (convert boost)).filter fun p => zmin ≤ p.z ∧ p.z < zmax) := by
  obtain ⟨zmin, zmax, hz, parts, h1, -, h3⟩ := C63_distribution c hsize zminG dz hdz boost ps
  refine ⟨zmin, zmax, hz, parts, fun r hr => ?_, h3⟩
  unfold addElec addBunch
  rw [h]
  show (fromArrays c zminG dz r boost ps >>= fun o => .ok (⟨-e, mE, o⟩ : Created)) = _
  rw [h1 r hr]
  rfl

/-- A particle on the axis of the file and one at the distance of a millimeter. -/
noncomputable def twoRows : List In := [⟨0, 0, 5, 0, 0, 10, 1⟩, ⟨1 / 1000, 0, 7, 0, 0, 10, 3⟩]

/-- The rule of the documentation, `'x' : [-4., 10.]`. -/
noncomputable def docRule : Option (List Bounds) := some [⟨.x, some (-4), some 10⟩]

private theorem chosen_doc : chosen micron docRule twoRows = [⟨0, 0, 5, 0, 0, 10, 1⟩] ∧ chosen 1 docRule twoRows = twoRows := by
  constructor <;> norm_num [chosen, docRule, twoRows, Fulfils, micron]

/-- **C123, not true of the unit of `select`.** The documentation says microns. With version 1 of openPMD-viewer they are meters:
the rule of the documentation, `'x' : [-4., 10.]`, keeps a particle at the distance of a millimeter. -/
theorem C123_microns_violated : ∃ (select : Option (List Bounds)) (file ps : List In), load (some .v1) 0 select file = .ok ps ∧
    number (chosen micron select file) = 1 ∧ number ps = 4 ∧ ∃ ps', load (some .v0) 0 select file = .ok ps' ∧ number ps' = 1 := by
  have h1 : number (chosen micron docRule twoRows) = 1 := by rw [chosen_doc.1]; norm_num [number]
  have h2 : number (chosen 1 docRule twoRows) = 4 := by rw [chosen_doc.2]; norm_num [number, twoRows]
  obtain ⟨ps, hp⟩ := (C123_loads_iff (some .v1) 0 docRule twoRows).2 ⟨.v1, rfl, by show number (chosen 1 _ _) ≠ 0; rw [h2]; norm_num⟩
  obtain ⟨ps', hp'⟩ := (C123_loads_iff (some .v0) 0 docRule twoRows).2 ⟨.v0, rfl, by show number (chosen micron _ _) ≠ 0; rw [h1]; norm_num⟩
  exact ⟨docRule, twoRows, ps, hp, h1, (C123_bunch .v1 0 docRule twoRows ps hp).2.2.trans h2, ps', hp',
    (C123_bunch .v0 0 docRule twoRows ps' hp').2.2.trans h1⟩

/-- **C123, not true of an empty selection.** If no particle fulfils the rules, there is no empty bunch but the exception of numpy. -/
theorem C123_empty_violated (v : Version) (zOff : ℝ) (select : Option (List Bounds)) (file : List In)
    (h : chosen (unitOf v) select file = []) : ∃ m, load (some v) zOff select file = .error (.runtimeError m) := by
  rw [load_eq, h]
  exact ⟨_, by simp only [average, List.map_nil, List.sum_nil, if_true]; rfl⟩

/-- A bunch of two particles; the conditions of the theorems hold. -/
example : (∃ ps, load (some .v1) 0 docRule twoRows = .ok ps ∧ ps.length = 2) ∧ NoZ docRule ∧
    MomentaOnly (some [⟨.uz, some 5, none⟩]) ∧ chosen (unitOf .v1) (some [⟨.uz, some 50, none⟩]) twoRows = [] := by
  refine ⟨?_, ?_, ?_, ?_⟩
  · have h2 : number (chosen 1 docRule twoRows) = 4 := by rw [chosen_doc.2]; norm_num [number, twoRows]
    obtain ⟨ps, hp⟩ := (C123_loads_iff (some .v1) 0 docRule twoRows).2 ⟨.v1, rfl, by show number (chosen 1 _ _) ≠ 0; rw [h2]; norm_num⟩
    obtain ⟨⟨d, hd⟩, -⟩ := C123_bunch .v1 0 docRule twoRows ps hp
    refine ⟨ps, hp, ?_⟩
    rw [hd, List.length_map]
    show (chosen 1 docRule twoRows).length = 2
    rw [chosen_doc.2]; rfl
  · intro b hb
    simp only [docRule, Option.getD_some, List.mem_singleton] at hb
    rw [hb]; decide
  · intro b hb
    simp only [Option.getD_some, List.mem_singleton] at hb
    rw [hb]; exact Or.inr (Or.inr rfl)
  · norm_num [chosen, twoRows, Fulfils, unitOf]

end Fbpic.BunchPmd
