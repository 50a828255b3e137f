import Verif.Lemmas.PicSetup
import Verif.Lemmas.BesselZero
import Verif.Props.Pic

/-!
# C103: the result does not depend on the system of units

Units of length, time, charge and mass, and the number of real particles per macroparticle. The theorems are about
whole runs of the periodic simulation of `Model/Pic.lean`.
-/

namespace Fbpic.Pic

open Spec (Rescaling GridSetup Built)
open Step ExternalField Transform

/-- **C103.** All the lengths, times, charges, masses and weights of a simulation are multiplied by constant factors, and
so are the constants of nature, the time step and the cell sizes, as their dimensions say. Then every sequence of calls to
`step` that finishes also finishes after the change, and gives the same result up to the same factors: positions, fields,
currents, densities, time; the momenta and the Lorentz factors are the same. The frame of the solver is slower than
light. -/
theorem C103_units (U : Rescaling) (c : Cfg) [NeZero c.Nz] (ext : List Ext) (hext : U.ExtRescaled c ext)
    (hc : 0 < c.k.c) (hV : ∀ v, c.V = some v → |v| < c.k.c) (hn : 0 < c.nthreads) (L : List (ℕ × Opts))
    (s s' t : Sim) (hs : U.Rescaled s s') (ht : c.calls L s = .ok t) :
    ∃ t', (U.cfg c ext).calls L s' = .ok t' ∧ U.Rescaled t t' := by
  obtain ⟨t', h1, h2⟩ := (Units.simulates U c ext hc hV hn hext).calls L s s' ((Units.rel_iff U s s').2 hs) t ht
    fun _ _ => trivial
  exact ⟨t', h1, (Units.rel_iff U t t').1 h2⟩

/-- The change back. -/
noncomputable def unscale (U : Rescaling) : Rescaling :=
  ⟨1 / U.len, 1 / U.tim, 1 / U.chg, 1 / U.mass, 1 / U.wgt, one_div_pos.2 U.len_pos, one_div_pos.2 U.tim_pos,
    one_div_ne_zero U.chg_ne, one_div_pos.2 U.mass_pos, one_div_pos.2 U.wgt_pos⟩

section
open Units
variable (U : Rescaling)

private theorem back (x : ℝ) (y : ℝ) (hx : x ≠ 0) : 1 / x * (x * y) = y := by field_simp

private theorem unE : (unscale U).E = 1 / U.E := by
  have h1 := len_ne U; have h2 := tim_ne U; have h3 := mass_ne U; have h4 := U.chg_ne
  unfold unscale Rescaling.E; field_simp

private theorem unB : (unscale U).B = 1 / U.B := by
  have h1 := len_ne U; have h2 := tim_ne U; have h3 := mass_ne U; have h4 := U.chg_ne
  unfold unscale Rescaling.B; field_simp

private theorem unJ : (unscale U).J = 1 / U.J := by
  have h1 := len_ne U; have h2 := tim_ne U; have h3 := wgt_ne U; have h4 := U.chg_ne
  unfold unscale Rescaling.J; field_simp

private theorem unrho : (unscale U).rho = 1 / U.rho := by
  have h1 := len_ne U; have h3 := wgt_ne U; have h4 := U.chg_ne
  unfold unscale Rescaling.rho; field_simp

private theorem neE : U.E ≠ 0 := by
  have h1 := len_ne U; have h2 := tim_ne U; have h3 := mass_ne U; have h4 := U.chg_ne
  unfold Rescaling.E; positivity

private theorem neB : U.B ≠ 0 := by
  have h2 := tim_ne U; have h3 := mass_ne U; have h4 := U.chg_ne
  unfold Rescaling.B; positivity

private theorem neJ : U.J ≠ 0 := by
  have h1 := len_ne U; have h2 := tim_ne U; have h3 := wgt_ne U; have h4 := U.chg_ne
  unfold Rescaling.J; positivity

private theorem nerho : U.rho ≠ 0 := by
  have h1 := len_ne U; have h3 := wgt_ne U; have h4 := U.chg_ne
  unfold Rescaling.rho; positivity

private theorem un_ptcl (p : Ptcl) : (unscale U).ptcl (U.ptcl p) = p := by
  have h1 := len_ne U; have h3 := wgt_ne U
  have e : ∀ x, (unscale U).len * (U.len * x) = x := fun x => back _ _ h1
  have hF : (unscale U).fields (U.fields p.F) = p.F := by
    funext cp
    cases cp <;> simp only [Rescaling.fields, unE, unB, back _ _ (neE U), back _ _ (neB U)]
  show Ptcl.mk _ ((unscale U).wgt * (U.wgt * p.w)) ((unscale U).fields (U.fields p.F)) = _
  rw [hF, show (unscale U).wgt * (U.wgt * p.w) = p.w from back _ _ h3]
  show Ptcl.mk ⟨(unscale U).len * (U.len * p.push.x), (unscale U).len * (U.len * p.push.y),
    (unscale U).len * (U.len * p.push.z), _, _⟩ _ _ = _
  rw [e, e, e]
  rfl

private theorem ptcl_un (p : Ptcl) : U.ptcl ((unscale U).ptcl p) = p := by
  have h1 := len_ne U; have h3 := wgt_ne U
  have e : ∀ a x : ℝ, a ≠ 0 → a * (1 / a * x) = x := fun a x ha => by field_simp
  have hF : U.fields ((unscale U).fields p.F) = p.F := by
    funext cp
    cases cp <;> simp only [Rescaling.fields, unE, unB, e _ _ (neE U), e _ _ (neB U)]
  show Ptcl.mk _ (U.wgt * (1 / U.wgt * p.w)) (U.fields ((unscale U).fields p.F)) = _
  rw [hF, e _ _ h3]
  show Ptcl.mk ⟨U.len * (1 / U.len * p.push.x), U.len * (1 / U.len * p.push.y), U.len * (1 / U.len * p.push.z), _, _⟩
    _ _ = _
  rw [e _ _ h1, e _ _ h1, e _ _ h1]
  rfl

private theorem un_species (sp : Species) : (unscale U).species (U.species sp) = sp := by
  have h1 := len_ne U; have h3 := mass_ne U; have h4 := U.chg_ne
  show Species.mk ((unscale U).chg * (U.chg * sp.q)) ((unscale U).mass * (U.mass * sp.m)) _ _ _
    ((sp.plane.map U.plane).map (unscale U).plane) ((sp.ptcl.map U.ptcl).map (unscale U).ptcl) = _
  have hp : (sp.plane.map U.plane).map (unscale U).plane = sp.plane := by
    cases sp.plane with
    | none => rfl
    | some b =>
      refine congrArg some ?_
      show BallisticPlane.mk _ _ _ = BallisticPlane.mk _ _ _
      have e := fun x => back U.len x h1
      simp only [Rescaling.plane, unscale, e]
  rw [show (unscale U).chg * (U.chg * sp.q) = sp.q from back _ _ h4,
    show (unscale U).mass * (U.mass * sp.m) = sp.m from back _ _ h3, List.map_map, hp]
  have : ((unscale U).ptcl ∘ U.ptcl) = id := funext fun p => un_ptcl U p
  rw [this, List.map_id]
  rfl

private theorem un_cell (x : SpecCell) : (unscale U).cell (U.cell x) = x := by
  have h1 := len_ne U
  have key : ∀ (a b : ℝ), b ≠ 0 → a = 1 / b → ∀ z : ℂ,
      (((unscale U).len ^ 2 * a : ℝ) : ℂ) * (((U.len ^ 2 * b : ℝ) : ℂ) * z) = z := by
    intro a b hb ha z
    rw [ha, ← mul_assoc, ← Complex.ofReal_mul, show (unscale U).len ^ 2 * (1 / b) * (U.len ^ 2 * b) = 1 by
      show (1 / U.len) ^ 2 * (1 / b) * (U.len ^ 2 * b) = 1
      field_simp, Complex.ofReal_one, one_mul]
  have kE := key _ _ (neE U) (unE U)
  have kB := key _ _ (neB U) (unB U)
  have kJ := key _ _ (neJ U) (unJ U)
  have kr := key _ _ (nerho U) (unrho U)
  simp only [Rescaling.cell, kE, kB, kJ, kr]

private theorem un_grid (g : SpecGrid) : (unscale U).grid (U.grid g) = g := by
  have h1 := len_ne U
  have e : ∀ x, x / U.len / (unscale U).len = x := fun x => by show x / U.len / (1 / U.len) = x; field_simp
  simp only [Rescaling.grid, e, un_cell]

private theorem un_cfg (c : Cfg) (ext : List Ext) : (unscale U).cfg (U.cfg c ext) c.ext = c := by
  have h1 := len_ne U; have h2 := tim_ne U; have h3 := mass_ne U; have h4 := U.chg_ne
  have bL := fun x => back U.len x h1
  have e0 : ∀ x, x / U.len / (1 / U.len) = x := fun x => by field_simp
  have e1 : ∀ x, (1 / U.len) ^ 2 * (U.len ^ 2 * x) = x := fun x => by field_simp
  have e2 : ∀ x, x / U.len ^ 2 / (1 / U.len) ^ 2 = x := fun x => by field_simp
  have e3 : ∀ x, (1 / U.len) ^ 3 * (U.len ^ 3 * x) = x := fun x => by field_simp
  have ev : ∀ x, 1 / U.len / (1 / U.tim) * (U.len / U.tim * x) = x := fun x => by field_simp
  have hk : (unscale U).consts (U.consts c.k) = c.k := by
    have a1 := neE U; have a2 := neB U; have a3 := neJ U; have a4 := nerho U
    show Consts.mk (1 / U.len / (1 / U.tim) * (U.len / U.tim * c.k.c))
      ((unscale U).B / (1 / U.len * (unscale U).J) * (U.B / (U.len * U.J) * c.k.mu0))
      (1 / U.len * (unscale U).rho / (unscale U).E * (U.len * U.rho / U.E * c.k.eps0)) = _
    rw [ev, unB, unJ, unE, unrho]
    have : 1 / U.B / (1 / U.len * (1 / U.J)) * (U.B / (U.len * U.J) * c.k.mu0) = c.k.mu0 := by field_simp
    rw [this]
    have : 1 / U.len * (1 / U.rho) / (1 / U.E) * (U.len * U.rho / U.E * c.k.eps0) = c.k.eps0 := by field_simp
    rw [this]
  have hm : ∀ M : Mats, (unscale U).mats (U.mats M) = M := by
    intro M
    simp only [Rescaling.mats, unscale, e1, e2]
  have hV : (c.V.map fun v => U.len / U.tim * v).map (fun v => 1 / U.len / (1 / U.tim) * v) = c.V := by
    cases c.V with
    | none => rfl
    | some v => simp only [Option.map_some, ev]
  show Cfg.mk ((unscale U).consts (U.consts c.k)) (1 / U.chg * (U.chg * c.eCharge)) (1 / U.tim * (U.tim * c.dt)) _ _ _ _
    (c.invdz / U.len / (1 / U.len)) (c.invdr / U.len / (1 / U.len)) (1 / U.len * (U.len * c.rmaxGather)) _
    (fun m i => (1 / U.len) ^ 3 * (U.len ^ 3 * c.vol m i)) (fun m => (unscale U).mats (U.mats (c.mats m))) _
    ((c.V.map fun v => U.len / U.tim * v).map (fun v => 1 / U.len / (1 / U.tim) * v)) _ _ _ c.ext _ = _
  rw [hk, back _ _ h4, back _ _ h2, e0, e0, bL, hV]
  simp only [e3, hm]
  rfl

private theorem un_rel (s s' : Sim) (h : Rel U s s') : Rel (unscale U) s' s := by
  have h1 := len_ne U; have h2 := tim_ne U
  refine ⟨?_, ?_, ?_, h.iteration.symm, ?_, ?_, ?_⟩
  · rw [h.zmin]; exact (back _ _ h1).symm
  · rw [h.zmax]; exact (back _ _ h1).symm
  · rw [h.time]; exact (back _ _ h2).symm
  · rw [h.species, List.map_map]
    have : ((unscale U).species ∘ U.species) = id := funext fun p => un_species U p
    rw [this, List.map_id]
  · rw [h.interp]
    funext m
    have key : ∀ (a b : ℝ), b ≠ 0 → a = 1 / b → ∀ B : Buf, scaleB (a : ℝ) (scaleB (b : ℝ) B) = B := by
      intro a b hb ha B
      funext i j
      simp only [scaleB]
      rw [ha, ← mul_assoc, ← Complex.ofReal_mul, one_div_mul_cancel hb, Complex.ofReal_one, one_mul]
    have kE := key _ _ (neE U) (unE U)
    have kB := key _ _ (neB U) (unB U)
    have kJ := key _ _ (neJ U) (unJ U)
    have kr := key _ _ (nerho U) (unrho U)
    simp only [Units.interp, scaleV, kE, kB, kJ, kr]
  · rw [h.spect]
    funext m
    exact (un_grid U _).symm

private theorem cast_calls (a b : Cfg) (e : a = b) (i : NeZero a.Nz) (j : NeZero b.Nz) (L : List (ℕ × Opts)) (s t : Sim)
    (h : a.calls L s = .ok t) : b.calls L s = .ok t := by
  subst e; exact h

/-- **C103** (the other direction): the run finishes in the one system of units if and only if it finishes in the
other one. -/
theorem C103_finish (c : Cfg) [NeZero c.Nz] (ext : List Ext) (hext : U.ExtRescaled c ext)
    (hc : 0 < c.k.c) (hV : ∀ v, c.V = some v → |v| < c.k.c) (hn : 0 < c.nthreads) (L : List (ℕ × Opts))
    (s s' : Sim) (hs : U.Rescaled s s') :
    (∃ t, c.calls L s = .ok t) ↔ ∃ t', (U.cfg c ext).calls L s' = .ok t' := by
  constructor
  · rintro ⟨t, ht⟩
    obtain ⟨t', h, -⟩ := C103_units U c ext hext hc hV hn L s s' t hs ht
    exact ⟨t', h⟩
  · rintro ⟨t', ht⟩
    have h1 := len_ne U; have h2 := tim_ne U
    have hl : 0 < U.len / U.tim := div_pos U.len_pos U.tim_pos
    obtain ⟨t, h, -⟩ := C103_units (unscale U) (U.cfg c ext) c.ext (by
        intro t id p
        have := hext (1 / U.tim * t) id ((unscale U).ptcl p)
        rw [ptcl_un, show U.tim * (1 / U.tim * t) = t by field_simp] at this
        show c.ext.foldl (fun p e => applyExt e (1 / U.tim * t) id p) ((unscale U).ptcl p)
          = (unscale U).ptcl (ext.foldl (fun p e => applyExt e t id p) p)
        rw [this, un_ptcl])
      (mul_pos hl hc) (by
        intro v hv
        have hv : c.V.map (fun v => U.len / U.tim * v) = some v := hv
        cases hcV : c.V with
        | none => rw [hcV] at hv; cases hv
        | some w =>
          rw [hcV] at hv
          rw [← Option.some.inj hv, abs_mul, abs_of_pos hl]
          exact mul_lt_mul_of_pos_left (hV w hcV) hl) hn L s' s t'
      ((rel_iff _ _ _).1 (un_rel U s s' ((rel_iff _ _ _).2 hs))) ht
    have e := un_cfg U c ext
    exact ⟨t, cast_calls _ _ e _ _ L s t h⟩

end

/-! ### The arrays of the constructor -/

/-- **C103** (constructor): the arrays that the constructor computes for the rescaled box are those of the rescaled
simulation: matrices of the Hankel transforms, volumes, coefficients of the shapes, filters, wavenumbers. So the
simulation of `C103_units` is the one that the user gets with the rescaled arguments. -/
theorem C103_setup (U : Rescaling) (g : GridSetup) (c : Cfg) (ext : List Ext) (s s' : Sim) (hs : U.Rescaled s s')
    (h : Built g c s) : Built (U.setup g) (U.cfg c ext) s' := by
  have hL := U.len_pos
  have hL' := hL.ne'
  have hkr : ∀ m, (s'.spect m).kr = fun i => (s.spect m).kr i / U.len := fun m => by rw [hs.spect]; rfl
  refine ⟨?_, ?_, ?_, ?_, ?_, ?_, ?_, ?_, ?_, h.noFilter, ?_, ?_, ?_⟩
  · show c.invdz / U.len = 1 / (U.len * g.dz)
    rw [h.invdz, mul_comm, div_div]
  · show c.invdr / U.len = 1 / (U.len * g.dr)
    rw [h.invdr, mul_comm, div_div]
  · show U.len * g.dr = U.len * g.rmax / c.Nr
    rw [h.dr]; ring
  · show U.len * c.rmaxGather = U.len * g.rmax
    rw [h.rmax]
  · exact fun m hm => Setup.dhtPair_u hL _ _ _ _ _ _ _ (h.dht0 m hm)
  · exact fun m hm => Setup.dhtPair_u hL _ _ _ _ _ _ _ (h.dhtp m hm)
  · exact fun m hm => Setup.dhtPair_u hL _ _ _ _ _ _ _ (h.dhtm m hm)
  · intro m hm
    show (fun i => U.len ^ 3 * c.vol m i) = CellVolume.cellVol _ m (U.len * g.dr) (U.len * g.dz) c.Nr
      (fun i j => U.len ^ 2 * (c.mats m).M0 i j) (g.zeros 0) g.j1
    rw [Setup.cellVol_u, h.vol m hm]
    rfl
  · intro sh m hm
    show c.beta sh m = CellVolume.ruytenCoefs g.ruyten sh (fun i => U.len ^ 3 * c.vol m i) (U.len * g.dr) (U.len * g.dz) c.Nr
    rw [Setup.ruyten_u hL, h.beta sh m hm]
  · intro nz cz nr cr hsm
    obtain ⟨fz, fr, h1, h2, h3⟩ := h.filter nz cz nr cr hsm
    refine ⟨fz, fr, h1, ?_, ?_⟩
    · intro iz
      show _ = filterFactor nz cz (kzTrue c.Nz (U.len * g.dz) iz) (U.len * g.dz)
      rw [Setup.kzTrue_u, Setup.filterFactor_u hL, h2]
    · intro m hm ir
      show _ = filterFactor nr cr _ (U.len * g.dr)
      rw [hkr, Setup.filterFactor_u hL, h3 m hm]
  · intro m hm
    show _ = Hankel.kr m (U.len * g.rmax) (g.zeros m)
    rw [hkr, Setup.kr_u, h.kr m hm]
  · intro m hm iz hz
    show modifiedK (kzTrue c.Nz (U.len * g.dz) iz) g.nOrder (U.len * g.dz) = .ok _
    rw [Setup.kzTrue_u, hs.spect]
    exact Setup.modifiedK_u hL _ _ _ _ (h.kz m hm iz hz)

/-! ### The scaling law of plasmas -/

/-- **C103** (the same units): lengths and times are multiplied by `l`, the particles keep their charge and mass, and the
constants of nature are the same. Densities are multiplied by `1/l²`, the number of particles per macroparticle by `l`.
Then the fields are multiplied by `1/l`, and the momenta are the same: the physics depends on the density only
through the plasma wavelength. -/
theorem C103_similarity (l : ℝ) (hl : 0 < l) (c : Cfg) [NeZero c.Nz] (ext : List Ext)
    (hext : (Rescaling.similarity l 1 1 hl one_ne_zero one_pos).ExtRescaled c ext)
    (hc : 0 < c.k.c) (hV : ∀ v, c.V = some v → |v| < c.k.c) (hn : 0 < c.nthreads) (L : List (ℕ × Opts))
    (s s' t : Sim) (hs : (Rescaling.similarity l 1 1 hl one_ne_zero one_pos).Rescaled s s') (ht : c.calls L s = .ok t) :
    let U := Rescaling.similarity l 1 1 hl one_ne_zero one_pos
    (U.cfg c ext).k = c.k ∧ (U.cfg c ext).V = c.V ∧ (U.cfg c ext).eCharge = c.eCharge ∧ (U.cfg c ext).dt = l * c.dt ∧
    ∃ t', (U.cfg c ext).calls L s' = .ok t' ∧ t'.time = l * t.time ∧
      (∀ m, (t'.interp m).E.r = Rescaling.times (1 / l) (t.interp m).E.r ∧
        (t'.interp m).E.t = Rescaling.times (1 / l) (t.interp m).E.t ∧
        (t'.interp m).E.z = Rescaling.times (1 / l) (t.interp m).E.z ∧
        (t'.interp m).B.r = Rescaling.times (1 / l) (t.interp m).B.r ∧
        (t'.interp m).B.t = Rescaling.times (1 / l) (t.interp m).B.t ∧
        (t'.interp m).B.z = Rescaling.times (1 / l) (t.interp m).B.z ∧
        (t'.interp m).rho = Rescaling.times (1 / l ^ 2) (t.interp m).rho ∧
        (t'.interp m).J.z = Rescaling.times (1 / l ^ 2) (t.interp m).J.z) ∧
      ∀ (i : ℕ) (sp sp' : Species), t.species[i]? = some sp → t'.species[i]? = some sp' → sp'.q = sp.q ∧ sp'.m = sp.m ∧
        ∀ (j : ℕ) (p p' : Ptcl), sp.ptcl[j]? = some p → sp'.ptcl[j]? = some p' → p'.push.x = l * p.push.x ∧
          p'.push.y = l * p.push.y ∧ p'.push.z = l * p.push.z ∧ p'.push.mom = p.push.mom ∧ p'.w = l * p.w := by
  intro U
  have hl' := hl.ne'
  have eE : U.E = 1 / l := by show 1 * l / (1 * l ^ 2) = 1 / l; field_simp
  have eB : U.B = 1 / l := by show 1 / (1 * l) = 1 / l; rw [one_mul]
  have eW : U.wgt = l := by show l * 1 / 1 ^ 2 = l; field_simp
  have eR : U.rho = 1 / l ^ 2 := by unfold Rescaling.rho; rw [eW]; show 1 * l / l ^ 3 = _; field_simp
  have eJ : U.J = 1 / l ^ 2 := by unfold Rescaling.J; rw [eW]; show 1 * l / (l ^ 2 * l) = _; field_simp
  have eV : U.len / U.tim = 1 := div_self hl'
  refine ⟨?_, ?_, one_mul _, rfl, ?_⟩
  · show Consts.mk (U.len / U.tim * c.k.c) (U.B / (U.len * U.J) * c.k.mu0) (U.len * U.rho / U.E * c.k.eps0) = _
    rw [eV, eE, eB, eR, eJ, show U.len = l from rfl, show 1 / l / (l * (1 / l ^ 2)) = 1 by field_simp,
      show l * (1 / l ^ 2) / (1 / l) = 1 by field_simp]
    simp only [one_mul]
  · show c.V.map (fun v => U.len / U.tim * v) = c.V
    rw [eV]
    simp only [one_mul]
    exact Option.map_id'
  · obtain ⟨t', h1, h2⟩ := C103_units U c ext hext hc hV hn L s s' t hs ht
    refine ⟨t', h1, h2.time, ?_, ?_⟩
    · intro m
      have a1 := h2.Er m; have a2 := h2.Et m; have a3 := h2.Ez m
      have b1 := h2.Br m; have b2 := h2.Bt m; have b3 := h2.Bz m
      have r1 := h2.rho m; have j1 := h2.Jz m
      rw [eE] at a1 a2 a3
      rw [eB] at b1 b2 b3
      rw [eR] at r1
      rw [eJ] at j1
      exact ⟨a1, a2, a3, b1, b2, b3, r1, j1⟩
    · intro i sp sp' hi hi'
      rw [h2.species, List.getElem?_map, hi] at hi'
      rw [← Option.some.inj hi']
      refine ⟨one_mul _, one_mul _, ?_⟩
      intro j p p' hj hj'
      have hj' : (sp.ptcl.map U.ptcl)[j]? = some p' := hj'
      rw [List.getElem?_map, hj] at hj'
      rw [← Option.some.inj hj']
      refine ⟨rfl, rfl, rfl, rfl, ?_⟩
      show U.wgt * p.w = l * p.w
      rw [eW]

/-! ### A frame that moves at the velocity of light -/

/-- **C103, not true in general.** If the frame of the solver moves exactly at the velocity of light, one coefficient is
set to the dimensionless 1 where its denominator vanishes, and a box of twice the size (with the same constants of
nature) does not give the corresponding field. -/
theorem C103_violated : ∃ (U : Rescaling) (k : Consts) (dt V : ℝ) (g : SpecGrid), U.consts k = k ∧ V = k.c ∧
    (U.grid g).push k (U.tim * dt) (some V) true false true ≠ U.grid (g.push k dt (some V) true false true) := by
  refine ⟨Rescaling.similarity 2 1 1 two_pos one_ne_zero one_pos, ⟨1, 1, 1⟩, 2 * Real.pi, 1,
    ⟨1, 1, fun _ => 1, fun _ => 0, fun _ _ => ⟨0, 0, 0, 0, 0, 0, 0, 0, 0, 0, 1, 0, 0, 0, 0, 0, 0⟩⟩, ?_, rfl, ?_⟩
  · unfold Rescaling.consts Rescaling.similarity Rescaling.B Rescaling.J Rescaling.E Rescaling.rho
    norm_num
  · intro h
    have h1 := congrArg (fun g : SpecGrid => (g.cell 0 0).Ez) h
    have hs : Real.sqrt ((2 : ℝ)⁻¹ ^ 2) = 2⁻¹ := Real.sqrt_sq (by norm_num)
    have e1 : Complex.exp (Complex.I * (2 * Real.pi)) = 1 := by
      rw [mul_comm]; exact Complex.exp_two_pi_mul_I
    have e2 : Complex.exp (Complex.I * (2 : ℂ)⁻¹ * (2 * (2 * Real.pi))) = 1 := by
      rw [show Complex.I * (2 : ℂ)⁻¹ * (2 * (2 * Real.pi)) = 2 * Real.pi * Complex.I by ring]
      exact Complex.exp_two_pi_mul_I
    have e3 : Real.sin ((2 : ℝ)⁻¹ * (2 * (2 * Real.pi))) = 0 := by
      rw [show (2 : ℝ)⁻¹ * (2 * (2 * Real.pi)) = 2 * Real.pi by ring]; exact Real.sin_two_pi
    have e4 : Real.cos ((2 : ℝ)⁻¹ * (2 * (2 * Real.pi))) = 1 := by
      rw [show (2 : ℝ)⁻¹ * (2 * (2 * Real.pi)) = 2 * Real.pi by ring]; exact Real.cos_two_pi
    simp [SpecGrid.push, SpecGrid.mapCells, Rescaling.grid, Rescaling.cell, pushEBWith, pushEBComoving, psatdCoefs,
      coefRhoNext, xi2, omega, invWkzV, coefT2, coefSw, coefC, inv1T2, noDrift, invOmega, pushRho,
      Rescaling.similarity, Rescaling.E, Rescaling.rho, hs, e1, e2, e3, e4] at h1
    have h2 := congrArg Complex.im h1
    norm_num at h2

/-! ### The hypotheses can be met -/

/-- Every state can be rescaled. -/
theorem exists_rescaled (U : Rescaling) (s : Sim) : ∃ s', U.Rescaled s s' :=
  ⟨{ zmin := U.len * s.zmin
     zmax := U.len * s.zmax
     time := U.tim * s.time
     iteration := s.iteration
     species := s.species.map U.species
     interp := fun m => Units.interp U (s.interp m)
     spect := fun m => U.grid (s.spect m)
     seen := [] }, (Units.rel_iff U _ _).1 ⟨rfl, rfl, rfl, rfl, rfl, rfl, rfl⟩⟩

/-- A run with a particle, in Gaussian-like units. -/
example : ∃ (U : Rescaling) (s' t t' : Sim), U.Rescaled wideSim s' ∧ U.ExtRescaled wideCfg [] ∧
    wideCfg.calls [(3, {})] wideSim = .ok t ∧ (U.cfg wideCfg []).calls [(3, {})] s' = .ok t' ∧ U.Rescaled t t' ∧
    U.len = 100 ∧ U.mass = 1000 ∧ U.chg = 3 := by
  let U : Rescaling := ⟨100, 1, 3, 1000, 1, by norm_num, by norm_num, by norm_num, by norm_num, by norm_num⟩
  obtain ⟨s', hs'⟩ := exists_rescaled U wideSim
  obtain ⟨t, ht, -⟩ := wide_run 3 le_rfl
  have hx : U.ExtRescaled wideCfg [] := fun _ _ _ => rfl
  obtain ⟨t', h1, h2⟩ := C103_units U wideCfg [] hx one_pos (fun v hv => by cases hv) one_pos [(3, {})] wideSim s' t hs' ht
  exact ⟨U, s', t, t', hs', hx, ht, h1, h2, rfl, rfl, rfl⟩

/-- An external field that oscillates along z, in other units. -/
example (U : Rescaling) (E k : ℝ) (c : Cfg)
    (hc : c.ext = [⟨fun F _ _ z t amp _ => F + amp * Real.cos (k * (z - t)), [(.Ex, E)], 1, none⟩]) :
    U.ExtRescaled c [⟨fun F _ _ z t amp _ => F + amp * Real.cos (k * (z / U.len - t / U.tim)), [(.Ex, U.E * E)], 1, none⟩] := by
  have h1 := Units.len_ne U
  have h2 := Units.tim_ne U
  intro t id p
  simp only [hc, List.foldl_cons, List.foldl_nil, applyExt, true_or, if_true, applyTerm, Rescaling.ptcl]
  congr 1
  funext k
  cases k <;> simp [Rescaling.fields, Function.update, Rescaling.push, h1, h2] <;> ring

private theorem dht_one (p : ℤ) (zeros : ℕ → ℝ) (h : Hankel.invM p 0 1 1 zeros 0 0 ≠ 0) :
    Spec.DhtPair p 0 1 1 zeros (fun i j => (Hankel.invM p 0 1 1 zeros i j)⁻¹) (Hankel.invM p 0 1 1 zeros) := by
  refine ⟨rfl, fun i j => (Hankel.invM p 0 1 1 zeros i j)⁻¹, fun _ _ => 0, ?_, ?_, ?_⟩
  · funext i j
    simp [hankelM]
  · intro _
    constructor <;> intro i j hi hj <;> obtain rfl : i = 0 := by omega
    · obtain rfl : j = 0 := by omega
      simp [h]
    · obtain rfl : j = 0 := by omega
      simp [h]
  · intro hc
    exact absurd rfl hc.1

/-- A grid with one radial point whose matrices are those of the constructor. -/
example : ∃ (g : GridSetup) (c : Cfg) (s : Sim), Built g c s ∧ c.Nm = 1 ∧ c.Nz = 8 ∧ g.smoother = some ((1, true), (1, false)) ∧
    g.nOrder = 32 ∧ g.modifiedVolume = true ∧ g.ruyten = true := by
  obtain ⟨α, h0, h1, h2, h3, h4⟩ := exists_zero_J0
  have hp : Real.pi ≠ 0 := Real.pi_ne_zero
  have key : ∀ p : ℤ, Hankel.invM p 0 1 1 (fun _ => α) 0 0
      = Spec.besselJ p (α / 2) / (Real.pi * Spec.besselJ (Hankel.pDenom p 0) α ^ 2) := by
    intro p
    simp only [Hankel.invM, hankelInvM, Hankel.num, Hankel.denom, Hankel.rGrid, Hankel.nu, Hankel.alphas, ne_eq, not_true_eq_false,
      if_false, Nat.cast_one, Nat.cast_zero, one_pow, mul_one]
    refine congrArg (fun x => Spec.besselJ p x / _) ?_
    field_simp
    norm_num
  have hneg : ∀ x, Spec.besselJ (-1) x = -Spec.besselJ 1 x := fun x => by
    have a := besselJ_neg_natCast 1 x
    have b := besselJ_natCast 1 x
    simp only [Nat.cast_one] at a b
    rw [a, b]; ring
  have hd0 : Spec.besselJ (Hankel.pDenom 0 0) α ≠ 0 := by simpa [Hankel.pDenom] using h4
  have hd1 : Spec.besselJ (Hankel.pDenom 1 0) α ≠ 0 := by simpa [Hankel.pDenom] using h4
  have hd2 : Spec.besselJ (Hankel.pDenom (-1) 0) α ≠ 0 := by
    rw [show Hankel.pDenom (-1) 0 = -1 by simp [Hankel.pDenom], hneg]
    exact neg_ne_zero.2 h4
  have n0 : Hankel.invM 0 0 1 1 (fun _ => α) 0 0 ≠ 0 := by
    rw [key]; exact div_ne_zero h2.ne' (mul_ne_zero hp (pow_ne_zero _ hd0))
  have n1 : Hankel.invM 1 0 1 1 (fun _ => α) 0 0 ≠ 0 := by
    rw [key]; exact div_ne_zero h3.ne' (mul_ne_zero hp (pow_ne_zero _ hd1))
  have n2 : Hankel.invM (-1) 0 1 1 (fun _ => α) 0 0 ≠ 0 := by
    rw [key, hneg]; exact div_ne_zero (neg_ne_zero.2 h3.ne') (mul_ne_zero hp (pow_ne_zero _ hd2))
  let g : GridSetup := ⟨1, 1, 1, 32, true, true, some ((1, true), (1, false)), fun _ _ => α, fun _ => Spec.besselJ 1 α⟩
  let mats : Mats := ⟨fun i j => (Hankel.invM 0 0 1 1 (fun _ => α) i j)⁻¹, Hankel.invM 0 0 1 1 fun _ => α,
    fun i j => (Hankel.invM 1 0 1 1 (fun _ => α) i j)⁻¹, Hankel.invM 1 0 1 1 fun _ => α,
    fun i j => (Hankel.invM (-1) 0 1 1 (fun _ => α) i j)⁻¹, Hankel.invM (-1) 0 1 1 fun _ => α⟩
  let vol : ℕ → ℕ → ℝ := fun m => CellVolume.cellVol true m 1 1 1 mats.M0 (fun _ => α) fun _ => Spec.besselJ 1 α
  let c : Cfg := { cubicCfg with
    Nr := 1
    rmaxGather := 1
    mats := fun _ => mats
    vol := vol
    beta := fun sh m => CellVolume.ruytenCoefs true sh (vol m) 1 1 1
    filter := some (fun iz => filterFactor 1 true (kzTrue 8 1 iz) 1,
      fun _ ir => filterFactor 1 false (Hankel.kr 0 1 (fun _ => α) ir) 1) }
  let s : Sim := { cubicSim ⟨0, 0, 0, ⟨0, 0, 0, 1⟩, 0⟩ .linear with
    spect := fun m => ⟨8, 1, fun iz => ((modifiedK (kzTrue 8 1 iz) 32 1).toOption).getD 0, Hankel.kr m 1 fun _ => α,
      fun _ _ => ⟨0, 0, 0, 0, 0, 0, 0, 0, 0, 0, 0, 0, 0, 0, 0, 0, 0⟩⟩ }
  refine ⟨g, c, s, ?_, rfl, rfl, rfl, rfl, rfl, rfl⟩
  have hm0 : ∀ m < c.Nm, m = 0 := fun m hm => by
    have : m < 1 := hm
    omega
  refine ⟨by norm_num [c, g, cubicCfg], by norm_num [c, g, cubicCfg], by norm_num [c, g], rfl, ?_, ?_, ?_, ?_, ?_, ?_, ?_, ?_, ?_⟩
  · intro m hm; obtain rfl := hm0 m hm; exact dht_one 0 _ n0
  · intro m hm; obtain rfl := hm0 m hm; exact dht_one 1 _ n1
  · intro m hm; obtain rfl := hm0 m hm; exact dht_one (-1) _ n2
  · intro m _; rfl
  · intro sh m _; rfl
  · intro h; cases h
  · intro nz cz nr cr h
    cases h
    refine ⟨_, _, rfl, fun _ => rfl, ?_⟩
    intro m hm ir; obtain rfl := hm0 m hm; rfl
  · intro m _; rfl
  · intro m _ iz _
    show modifiedK (kzTrue 8 1 iz) 32 1 = .ok (((modifiedK (kzTrue 8 1 iz) 32 1).toOption).getD 0)
    unfold modifiedK
    norm_num
    rfl

end Fbpic.Pic
