import Verif.Spec.Pic
import Verif.Lemmas.PicScale
import Verif.Lemmas.FieldGather

/-!
# Lemmas on rotations, displacements and charge conjugation
-/

namespace Fbpic.Pic

open Transform ExternalField Step
open Spec (Motion)

variable (M : Motion)

/-- The rotation does nothing, or the point is not on the axis. -/
def Off (M : Motion) (x y : ℝ) : Prop := (M.cos = 1 ∧ M.sin = 0) ∨ cylR x y ≠ 0

theorem Motion.sign_mul : M.sign * M.sign = 1 := by
  rcases M.sign_sq with h | h <;> rw [h] <;> norm_num

theorem Motion.sign_ne : M.sign ≠ 0 := by
  rcases M.sign_sq with h | h <;> rw [h] <;> norm_num

theorem cylR_moved (x y : ℝ) : cylR (M.vx x y) (M.vy x y) = cylR x y := by
  unfold cylR Motion.vx Motion.vy
  congr 1
  linear_combination (x ^ 2 + y ^ 2) * M.unit

theorem cylCos_moved (x y : ℝ) (h : Off M x y) :
    cylCos (M.vx x y) (M.vy x y) = M.cos * cylCos x y - M.sin * cylSin x y := by
  unfold cylCos cylSin
  rw [cylR_moved]
  by_cases h0 : cylR x y = 0
  · rcases h with ⟨h1, h2⟩ | h
    · simp [h0, h1, h2]
    · exact absurd h0 h
  · simp only [ne_eq, h0, not_false_eq_true, if_true, Motion.vx]
    ring

theorem cylSin_moved (x y : ℝ) (h : Off M x y) :
    cylSin (M.vx x y) (M.vy x y) = M.sin * cylCos x y + M.cos * cylSin x y := by
  unfold cylCos cylSin
  rw [cylR_moved]
  by_cases h0 : cylR x y = 0
  · rcases h with ⟨h1, h2⟩ | h
    · simp [h0, h1, h2]
    · exact absurd h0 h
  · simp only [ne_eq, h0, not_false_eq_true, if_true, Motion.vy]
    ring

theorem cyl_unit (x y : ℝ) : cylCos x y ^ 2 + cylSin x y ^ 2 = 1 := by
  unfold cylCos cylSin
  by_cases h0 : cylR x y = 0
  · simp [h0]
  · simp only [ne_eq, h0, not_false_eq_true, if_true]
    have h1 : cylR x y ^ 2 = x ^ 2 + y ^ 2 := Real.sq_sqrt (by positivity)
    field_simp
    linarith

/-! ### Deposition -/

theorem modeScal_eq (s0 : ℂ) (a b : ℝ) (m : ℕ) : modeScal s0 a b m = ((a : ℂ) + Complex.I * b) ^ m * s0 := by
  induction m with
  | zero => simp [modeScal]
  | succ m ih => rw [modeScal, ih, pow_succ]; ring

theorem expo_moved (x y : ℝ) (h : Off M x y) :
    ((cylCos (M.vx x y) (M.vy x y) : ℂ) + Complex.I * (cylSin (M.vx x y) (M.vy x y) : ℂ))
      = ((M.cos : ℂ) + Complex.I * M.sin) * ((cylCos x y : ℂ) + Complex.I * cylSin x y) := by
  rw [cylCos_moved M x y h, cylSin_moved M x y h]
  push_cast
  linear_combination (-(M.sin : ℂ) * cylSin x y) * Complex.I_sq

theorem scal0_moved (f : DepField) (c q : ℝ) (ion : Bool) (p : Ptcl) (h : Off M p.push.x p.push.y) :
    f.scal0 c (M.sign * q) ((M.ptcl p).dep ion) = M.sign * f.scal0 c q (p.dep ion) := by
  have hc := cylCos_moved M p.push.x p.push.y h
  have hs := cylSin_moved M p.push.x p.push.y h
  cases f
  · simp only [DepField.scal0, Ptcl.dep, Motion.ptcl, Motion.push]; ring
  · show M.sign * q * _ * c * p.push.mom.invGamma * (cylCos (M.vx p.push.x p.push.y) (M.vy p.push.x p.push.y)
      * M.vx p.push.mom.ux p.push.mom.uy + cylSin (M.vx p.push.x p.push.y) (M.vy p.push.x p.push.y)
      * M.vy p.push.mom.ux p.push.mom.uy) = _
    rw [hc, hs]
    simp only [DepField.scal0, Ptcl.dep, Motion.ptcl, Motion.push, Motion.vx, Motion.vy]
    linear_combination (M.sign * q * (if ion then p.w * p.push.level else p.w) * c * p.push.mom.invGamma *
      (cylCos p.push.x p.push.y * p.push.mom.ux + cylSin p.push.x p.push.y * p.push.mom.uy)) * M.unit
  · show M.sign * q * _ * c * p.push.mom.invGamma * (cylCos (M.vx p.push.x p.push.y) (M.vy p.push.x p.push.y)
      * M.vy p.push.mom.ux p.push.mom.uy - cylSin (M.vx p.push.x p.push.y) (M.vy p.push.x p.push.y)
      * M.vx p.push.mom.ux p.push.mom.uy) = _
    rw [hc, hs]
    simp only [DepField.scal0, Ptcl.dep, Motion.ptcl, Motion.push, Motion.vx, Motion.vy]
    linear_combination (M.sign * q * (if ion then p.w * p.push.level else p.w) * c * p.push.mom.invGamma *
      (cylCos p.push.x p.push.y * p.push.mom.uy - cylSin p.push.x p.push.y * p.push.mom.ux)) * M.unit
  · simp only [DepField.scal0, Ptcl.dep, Motion.ptcl, Motion.push]; ring

theorem scalOf_moved (f : DepField) (c q : ℝ) (m : ℕ) (ion : Bool) (p : Ptcl) (h : Off M p.push.x p.push.y) :
    scalOf f c (M.sign * q) m ((M.ptcl p).dep ion) = M.factor m * scalOf f c q m (p.dep ion) := by
  unfold scalOf
  rw [modeScal_eq, modeScal_eq, scal0_moved M f c q ion p h]
  have := expo_moved M p.push.x p.push.y h
  show ((cylCos (M.vx p.push.x p.push.y) (M.vy p.push.x p.push.y) : ℂ) + Complex.I *
    (cylSin (M.vx p.push.x p.push.y) (M.vy p.push.x p.push.y) : ℂ)) ^ m * _ = _
  rw [this, mul_pow]
  unfold Motion.factor
  show _ = _ * (((cylCos p.push.x p.push.y : ℂ) + Complex.I * (cylSin p.push.x p.push.y : ℂ)) ^ m * _)
  push_cast
  ring

variable (c : Cfg)

theorem betaIdx_moved (zmin : ℝ) (ion : Bool) (p : Ptcl) :
    betaIdx (c.grid (zmin + M.shift)) ((M.ptcl p).dep ion) = betaIdx (c.grid zmin) (p.dep ion) := by
  have := cylR_moved M p.push.x p.push.y
  show min ⌈(c.grid (zmin + M.shift)).rCell (cylR (M.vx p.push.x p.push.y) (M.vy p.push.x p.push.y))⌉ _ = _
  rw [this]
  rfl

theorem zCell_moved (zmin z : ℝ) : (c.grid (zmin + M.shift)).zCell (z + M.shift) = (c.grid zmin).zCell z := by
  simp only [CylGrid.zCell, Cfg.grid]; ring

theorem addsOf_moved (sh : Shape) (f : DepField) (q zmin : ℝ) (beta : List ℝ) (m : ℕ) (ion : Bool) (p : Ptcl)
    (h : Off M p.push.x p.push.y) :
    addsOf sh f c.k.c (M.sign * q) (c.grid (zmin + M.shift)) beta m ((M.ptcl p).dep ion)
      = (addsOf sh f c.k.c q (c.grid zmin) beta m (p.dep ion)).map
          fun a => (a.1, a.2.1, M.factor m * a.2.2) := by
  have hr := cylR_moved M p.push.x p.push.y
  unfold addsOf
  rw [scalOf_moved M f _ q m ion p h]
  have hb : betaOf (c.grid (zmin + M.shift)) beta ((M.ptcl p).dep ion) = betaOf (c.grid zmin) beta (p.dep ion) := by
    unfold betaOf; rw [betaIdx_moved]
  rw [hb]
  show ptclAdds sh (c.grid (zmin + M.shift)) _ _ _ (cylR (M.vx p.push.x p.push.y) (M.vy p.push.x p.push.y))
    (p.push.z + M.shift) = (ptclAdds sh (c.grid zmin) _ _ _ (cylR p.push.x p.push.y) p.push.z).map _
  rw [hr]
  simp only [ptclAdds]
  rw [zCell_moved]
  simp only [List.map_flatMap, List.map_map]
  refine congrArg (fun g => List.flatMap g _) ?_
  funext a
  refine congrArg (fun g => List.map g _) ?_
  funext b
  simp only [Function.comp]
  refine Prod.ext rfl (Prod.ext rfl ?_)
  show _ = M.factor m * _
  rw [mul_left_comm]
  rfl

theorem ptclOk_moved (sh : Shape) (f : DepField) (q zmin : ℝ) (beta : List ℝ) (m : ℕ) (ion : Bool) (p : Ptcl)
    (h : Off M p.push.x p.push.y) (hok : ptclOk sh f c.k.c q (c.grid zmin) beta m (p.dep ion)) :
    ptclOk sh f c.k.c (M.sign * q) (c.grid (zmin + M.shift)) beta m ((M.ptcl p).dep ion) := by
  refine ⟨?_, ?_⟩
  · rw [betaIdx_moved]; exact hok.1
  · rw [addsOf_moved M c sh f q zmin beta m ion p h]
    intro a ha
    obtain ⟨b, hb, rfl⟩ := List.mem_map.1 ha
    exact hok.2 b hb

theorem cellBuf_scale (l : ℂ) (i j : ℕ) (v : ℂ) : cellBuf i j (l * v) = scaleB l (cellBuf i j v) := by
  funext i' j'
  simp only [cellBuf, scaleB]
  split_ifs <;> simp

theorem scaleB_add (l : ℂ) (a b : Buf) : scaleB l (a + b) = scaleB l a + scaleB l b := by
  funext i j; simp only [scaleB, Pi.add_apply]; ring

theorem scaleB_zero (l : ℂ) : scaleB l 0 = 0 := by
  funext i j; simp [scaleB]

theorem scaleB_sum (l : ℂ) (L : List Buf) : scaleB l L.sum = (L.map (scaleB l)).sum := by
  induction L with
  | nil => exact scaleB_zero l
  | cons a L ih => rw [List.sum_cons, scaleB_add, ih, List.map_cons, List.sum_cons]

theorem scaleB_finset {ι : Type} (l : ℂ) (S : Finset ι) (a : ι → Buf) :
    scaleB l (∑ i ∈ S, a i) = ∑ i ∈ S, scaleB l (a i) := by
  classical
  induction S using Finset.induction_on with
  | empty => simp [scaleB_zero]
  | insert x S hx ih => rw [Finset.sum_insert hx, Finset.sum_insert hx, scaleB_add, ih]

theorem reduceBuf_scale (Nz Nr : ℕ) (l : ℂ) (B : Buf) :
    reduceBuf Nz Nr (scaleB l B) = scaleB l (reduceBuf Nz Nr B) := by
  unfold reduceBuf
  rw [scaleB_finset]
  refine Finset.sum_congr rfl fun i _ => ?_
  rw [scaleB_finset]
  refine Finset.sum_congr rfl fun j _ => ?_
  rw [← cellBuf_scale]; rfl

theorem divide_scale (vol : ℕ → ℝ) (l : ℂ) (B : Buf) :
    CellVolume.divideByVolume vol (scaleB l B) = scaleB l (CellVolume.divideByVolume vol B) := by
  funext i j
  simp only [CellVolume.divideByVolume, scaleB]; ring

theorem ptclBuf_moved (sh : Shape) (f : DepField) (q zmin : ℝ) (beta : List ℝ) (m : ℕ) (ion : Bool) (p : Ptcl)
    (h : Off M p.push.x p.push.y) :
    ptclBuf sh f c.k.c (M.sign * q) (c.grid (zmin + M.shift)) beta m ((M.ptcl p).dep ion)
      = scaleB (M.factor m) (ptclBuf sh f c.k.c q (c.grid zmin) beta m (p.dep ion)) := by
  unfold ptclBuf
  rw [addsOf_moved M c sh f q zmin beta m ion p h, scaleB_sum, List.map_map, List.map_map]
  refine congrArg List.sum (List.map_congr_left fun a _ => ?_)
  show cellBuf _ _ (M.factor m * a.2.2) = _
  rw [cellBuf_scale]
  rfl

/-- All the particles of a species are off the axis. -/
def SpOff (sp : Species) : Prop := ∀ p ∈ sp.ptcl, Off M p.push.x p.push.y

theorem speciesOk_moved (f : DepField) (zmin : ℝ) (m : ℕ) (sp : Species) (h : SpOff M sp)
    (hok : speciesOk f c.k.c (c.grid zmin) c.beta m sp.dep) :
    speciesOk f c.k.c (c.grid (zmin + M.shift)) c.beta m (M.species sp).dep := by
  intro hq p hp
  have hq' : sp.q ≠ 0 := fun h0 => hq (by show M.sign * sp.q = 0; rw [h0, mul_zero])
  obtain ⟨p1, hp1, rfl⟩ := List.mem_map.1 hp
  obtain ⟨p2, hp2, rfl⟩ := List.mem_map.1 hp1
  exact ptclOk_moved M c _ f _ zmin _ m _ p2 (h p2 hp2) (hok hq' _ (List.mem_map.2 ⟨p2, hp2, rfl⟩))

theorem speciesBuf_moved (f : DepField) (zmin : ℝ) (m : ℕ) (sp : Species) (h : SpOff M sp) :
    speciesBuf f c.k.c (c.grid (zmin + M.shift)) c.beta m (M.species sp).dep
      = scaleB (M.factor m) (speciesBuf f c.k.c (c.grid zmin) c.beta m sp.dep) := by
  unfold speciesBuf
  by_cases hq : sp.q = 0
  · have hq' : (M.species sp).dep.q = 0 := by show M.sign * sp.q = 0; rw [hq, mul_zero]
    rw [if_pos hq', if_pos (show sp.dep.q = 0 from hq), scaleB_zero]
  · have hq' : (M.species sp).dep.q ≠ 0 := mul_ne_zero (Motion.sign_ne M) hq
    rw [if_neg hq', if_neg (show ¬ sp.dep.q = 0 from hq), scaleB_sum]
    show ((List.map _ (List.map M.ptcl sp.ptcl)).map _).sum = _
    show _ = (List.map _ ((List.map _ sp.ptcl).map _)).sum
    simp only [List.map_map]
    refine congrArg List.sum (List.map_congr_left fun p hp => ?_)
    exact ptclBuf_moved M c _ f _ zmin _ m _ p (h p hp)

theorem depositing_moved (L : List Species) :
    ((L.map M.species).filter fun sp => !sp.isTracer) = (L.filter fun sp => !sp.isTracer).map M.species := by
  rw [List.filter_map]
  rfl

/-! ### Gathering -/

theorem cells_moved (sh : Shape) (zmin : ℝ) (m : ℕ) (r z : ℝ) :
    sh.cells (c.grid (zmin + M.shift)) m r (z + M.shift) = sh.cells (c.grid zmin) m r z := by
  have hz := zCell_moved M c zmin z
  cases sh
  · simp only [Shape.cells, linearCells, hz]; rfl
  · simp only [Shape.cells, cubicCells, hz]; rfl

theorem cellsVal_scale (g : CylGrid) (w : GCell → ℝ) (l : ℂ) (F : Buf) (cells : List GCell) :
    cellsVal g w (scaleB l F) cells = l * cellsVal g w F cells := by
  unfold cellsVal
  induction cells with
  | nil => simp
  | cons a L ih =>
    rw [List.map_cons, List.sum_cons, ih, List.map_cons, List.sum_cons]
    simp only [scaleB]; ring

theorem addGather_ok (sh : Shape) (g : CylGrid) (m : ℕ) (F : GridVec) (e : ℂ) (r z : ℝ) (acc v : ℝ × ℝ × ℝ) :
    addGather sh g m F e r z acc = .ok v ↔ cellsOk g (sh.cells g m r z) ∧
      v = (acc.1 + (if m = 0 then 1 else 2) * (cellsVal g GCell.perp F.r (sh.cells g m r z) * e).re,
        acc.2.1 + (if m = 0 then 1 else 2) * (cellsVal g GCell.perp F.t (sh.cells g m r z) * e).re,
        acc.2.2 + (if m = 0 then 1 else 2) * (cellsVal g GCell.long F.z (sh.cells g m r z) * e).re) := by
  unfold addGather
  simp only [except_bind_ok, gatherCells_ok, pure, Except.pure, Except.ok.injEq]
  constructor
  · rintro ⟨a, ⟨h1, rfl⟩, h2⟩; exact ⟨h1, h2.symm⟩
  · rintro ⟨h1, h2⟩; exact ⟨_, ⟨h1, rfl⟩, h2.symm⟩

/-- A field on a particle, turned. -/
def mvec (E : ℝ × ℝ × ℝ) : ℝ × ℝ × ℝ := (M.sign * M.vx E.1 E.2.1, M.sign * M.vy E.1 E.2.1, M.sign * E.2.2)

/-- Cylindrical components, with the sign. -/
def svec (E : ℝ × ℝ × ℝ) : ℝ × ℝ × ℝ := (M.sign * E.1, M.sign * E.2.1, M.sign * E.2.2)

theorem addGather_moved (sh : Shape) (zmin : ℝ) (m : ℕ) (F : GridVec) (e e' : ℂ) (r z : ℝ) (acc v : ℝ × ℝ × ℝ)
    (he : M.factor m * e' = M.sign * e) (h : addGather sh (c.grid zmin) m F e r z acc = .ok v) :
    addGather sh (c.grid (zmin + M.shift)) m (scaleV (M.factor m) F) e' r (z + M.shift) (svec M acc)
      = .ok (svec M v) := by
  obtain ⟨h1, rfl⟩ := (addGather_ok _ _ _ _ _ _ _ _ _).1 h
  refine (addGather_ok _ _ _ _ _ _ _ _ _).2 ⟨?_, ?_⟩
  · rw [cells_moved]; exact h1
  · have key : ∀ w B, (cellsVal (c.grid (zmin + M.shift)) w (scaleB (M.factor m) B)
        (sh.cells (c.grid (zmin + M.shift)) m r (z + M.shift)) * e').re
        = M.sign * (cellsVal (c.grid zmin) w B (sh.cells (c.grid zmin) m r z) * e).re := by
      intro w B
      rw [cells_moved, cellsVal_scale]
      rw [show M.factor m * cellsVal (c.grid (zmin + M.shift)) w B (sh.cells (c.grid zmin) m r z) * e'
        = (M.sign : ℂ) * (cellsVal (c.grid zmin) w B (sh.cells (c.grid zmin) m r z) * e) from by
          have : cellsVal (c.grid (zmin + M.shift)) w B (sh.cells (c.grid zmin) m r z)
            = cellsVal (c.grid zmin) w B (sh.cells (c.grid zmin) m r z) := rfl
          rw [this]
          linear_combination cellsVal (c.grid zmin) w B (sh.cells (c.grid zmin) m r z) * he]
      rw [Complex.re_ofReal_mul]
    simp only [scaleV, key, svec]
    refine Prod.ext ?_ (Prod.ext ?_ ?_) <;> simp only <;> ring

theorem expo_conj (x y : ℝ) (h : Off M x y) (m : ℕ) :
    M.factor m * ((cylCos (M.vx x y) (M.vy x y) : ℂ) - Complex.I * (cylSin (M.vx x y) (M.vy x y) : ℂ)) ^ m
      = M.sign * ((cylCos x y : ℂ) - Complex.I * cylSin x y) ^ m := by
  unfold Motion.factor
  rw [mul_assoc, ← mul_pow]
  congr 2
  rw [cylCos_moved M x y h, cylSin_moved M x y h]
  have hu : (M.cos : ℂ) ^ 2 + (M.sin : ℂ) ^ 2 = 1 := by exact_mod_cast M.unit
  push_cast
  linear_combination ((cylCos x y : ℂ) - Complex.I * cylSin x y) * hu
    + (-(M.sin : ℂ) ^ 2 * cylCos x y - M.sin * M.cos * cylSin x y) * Complex.I_sq

theorem cart_moved (x y : ℝ) (h : Off M x y) (E : ℝ × ℝ × ℝ) :
    (cylCos (M.vx x y) (M.vy x y) * (svec M E).1 - cylSin (M.vx x y) (M.vy x y) * (svec M E).2.1,
      cylSin (M.vx x y) (M.vy x y) * (svec M E).1 + cylCos (M.vx x y) (M.vy x y) * (svec M E).2.1, (svec M E).2.2)
    = mvec M (cylCos x y * E.1 - cylSin x y * E.2.1, cylSin x y * E.1 + cylCos x y * E.2.1, E.2.2) := by
  rw [cylCos_moved M x y h, cylSin_moved M x y h]
  simp only [svec, mvec, Motion.vx, Motion.vy]
  refine Prod.ext ?_ (Prod.ext ?_ rfl) <;> simp only <;> ring

theorem svec_zero : svec M (0, 0, 0) = (0, 0, 0) := by simp [svec]

theorem gatherOneMode_moved (sh : Shape) (zmin rmax : ℝ) (m : ℕ) (F : GridVec) (x y z : ℝ) (E v : ℝ × ℝ × ℝ)
    (hoff : Off M x y) (h : gatherOneMode sh (c.grid zmin) rmax m F x y z E = .ok v) :
    gatherOneMode sh (c.grid (zmin + M.shift)) rmax m (scaleV (M.factor m) F) (M.vx x y) (M.vy x y) (z + M.shift)
      (mvec M E) = .ok (mvec M v) := by
  unfold gatherOneMode at *
  dsimp only at *
  rw [cylR_moved]
  by_cases hr : cylR x y < rmax
  · rw [if_pos hr] at h ⊢
    obtain ⟨a, ha, hv⟩ := (except_bind_ok _ _ _).1 h
    have h1 := addGather_moved M c sh zmin m F _ _ _ _ _ _ (expo_conj M x y hoff m) ha
    rw [svec_zero] at h1
    refine (except_bind_ok _ _ _).2 ⟨_, h1, ?_⟩
    have h2 := cart_moved M x y hoff a
    rw [← Except.ok.inj hv]
    refine congrArg Except.ok ?_
    have e1 := congrArg Prod.fst h2
    have e2 := congrArg (fun p => p.2.1) h2
    simp only at e1 e2
    refine Prod.ext ?_ (Prod.ext ?_ ?_)
    · show (mvec M E).1 + _ = _
      rw [e1]; simp only [mvec, Motion.vx]; ring
    · show (mvec M E).2.1 + _ = _
      rw [e2]; simp only [mvec, Motion.vy]; ring
    · show (mvec M E).2.2 + (svec M a).2.2 = _
      simp only [mvec, svec]; ring
  · rw [if_neg hr] at h ⊢
    rw [← Except.ok.inj h]; rfl

theorem gatherTwoModes_moved (sh : Shape) (zmin rmax : ℝ) (F0 F1 : GridVec) (x y z : ℝ) (v : ℝ × ℝ × ℝ)
    (hoff : Off M x y) (h : gatherTwoModes sh (c.grid zmin) rmax F0 F1 x y z = .ok v) :
    gatherTwoModes sh (c.grid (zmin + M.shift)) rmax (scaleV (M.factor 0) F0) (scaleV (M.factor 1) F1)
      (M.vx x y) (M.vy x y) (z + M.shift) = .ok (mvec M v) := by
  unfold gatherTwoModes at *
  dsimp only at *
  rw [cylR_moved]
  by_cases hr : cylR x y < rmax
  · rw [if_pos hr] at h ⊢
    obtain ⟨a, ha, h⟩ := (except_bind_ok _ _ _).1 h
    obtain ⟨b, hb, hv⟩ := (except_bind_ok _ _ _).1 h
    have e0 := expo_conj M x y hoff 0
    have e1 := expo_conj M x y hoff 1
    rw [pow_zero, pow_zero] at e0
    rw [pow_one, pow_one] at e1
    have h1 := addGather_moved M c sh zmin 0 F0 _ _ _ _ _ _ e0 ha
    have h2 := addGather_moved M c sh zmin 1 F1 _ _ _ _ _ _ e1 hb
    rw [svec_zero] at h1
    refine (except_bind_ok _ _ _).2 ⟨_, h1, (except_bind_ok _ _ _).2 ⟨_, h2, ?_⟩⟩
    rw [← Except.ok.inj hv]
    exact congrArg Except.ok (cart_moved M x y hoff b)
  · rw [if_neg hr] at h ⊢
    obtain ⟨b, hb, hv⟩ := (except_bind_ok _ _ _).1 h
    refine (except_bind_ok _ _ _).2 ⟨(0, 0, 0), rfl, ?_⟩
    rw [← Except.ok.inj hv, ← Except.ok.inj hb]
    refine congrArg Except.ok ?_
    have := cart_moved M x y hoff (0, 0, 0)
    rw [svec_zero] at this
    exact this

theorem foldModes_moved (sh : Shape) (zmin rmax x y z : ℝ) (hoff : Off M x y) (Fs : List GridVec) :
    ∀ (i : ℕ) (E v : ℝ × ℝ × ℝ), (Fs.zipIdx i).foldlM (fun (E : ℝ × ℝ × ℝ) (Fm : GridVec × ℕ) =>
      gatherOneMode sh (c.grid zmin) rmax Fm.2 Fm.1 x y z E) E = .ok v →
    ((Fs.mapIdx fun j F => scaleV (M.factor (i + j)) F).zipIdx i).foldlM
      (fun (E : ℝ × ℝ × ℝ) (Fm : GridVec × ℕ) => gatherOneMode sh (c.grid (zmin + M.shift)) rmax Fm.2 Fm.1
        (M.vx x y) (M.vy x y) (z + M.shift) E) (mvec M E) = .ok (mvec M v) := by
  induction Fs with
  | nil =>
    intro i E v h
    rw [← Except.ok.inj h]; rfl
  | cons F Fs ih =>
    intro i E v h
    rw [List.zipIdx_cons, List.foldlM_cons] at h
    obtain ⟨a, ha, h⟩ := (except_bind_ok _ _ _).1 h
    rw [List.mapIdx_cons, List.zipIdx_cons, List.foldlM_cons]
    refine (except_bind_ok _ _ _).2 ⟨mvec M a, ?_, ?_⟩
    · exact gatherOneMode_moved M c sh zmin rmax i F x y z E a hoff ha
    · have := ih (i + 1) a v h
      have e : (fun j F => scaleV (M.factor (i + 1 + j)) F) = fun j F => scaleV (M.factor (i + (j + 1))) F := by
        funext j F; rw [Nat.add_assoc, Nat.add_comm 1 j]
      rw [e] at this
      exact this

theorem gatherField_moved (sh : Shape) (zmin rmax : ℝ) (Nm : ℕ) (A : ℕ → GridVec) (x y z : ℝ) (v : ℝ × ℝ × ℝ)
    (hoff : Off M x y) (h : gatherField sh (c.grid zmin) rmax ((List.range Nm).map A) x y z = .ok v) :
    gatherField sh (c.grid (zmin + M.shift)) rmax ((List.range Nm).map fun m => scaleV (M.factor m) (A m))
      (M.vx x y) (M.vy x y) (z + M.shift) = .ok (mvec M v) := by
  by_cases h2 : Nm = 2
  · subst h2
    exact gatherTwoModes_moved M c sh zmin rmax _ _ x y z v hoff h
  · have hne : ∀ (B : ℕ → GridVec) (F0 F1 : GridVec), (List.range Nm).map B ≠ [F0, F1] := by
      intro B F0 F1 he
      have := congrArg List.length he
      simp at this
      exact h2 this
    have hg : ∀ (B : ℕ → GridVec) (g : CylGrid) (x y z : ℝ), gatherField sh g rmax ((List.range Nm).map B) x y z
        = ((List.range Nm).map B).zipIdx.foldlM (fun (E : ℝ × ℝ × ℝ) (Fm : GridVec × ℕ) =>
          gatherOneMode sh g rmax Fm.2 Fm.1 x y z E) (0, 0, 0) := by
      intro B g x y z
      unfold gatherField
      split
      · rename_i F0 F1 he
        exact absurd he (hne B F0 F1)
      · rfl
    rw [hg] at h ⊢
    have := foldModes_moved M c sh zmin rmax x y z hoff _ 0 _ _ h
    have e0 : mvec M (0, 0, 0) = (0, 0, 0) := by simp [mvec, Motion.vx, Motion.vy]
    rw [e0] at this
    have e1 : (((List.range Nm).map A).mapIdx fun j F => scaleV (M.factor (0 + j)) F)
        = (List.range Nm).map fun m => scaleV (M.factor m) (A m) := by
      apply List.ext_getElem
      · simp
      · intro i h1 h2
        simp
    rw [e1] at this
    exact this

/-! ### Push -/

theorem pushVay_moved (e : ElecMom) (E B : Vec3) (a b : ℝ) :
    pushVay { e with ux := M.vx e.ux e.uy, uy := M.vy e.ux e.uy } ⟨M.vx E.x E.y, M.vy E.x E.y, E.z⟩
        ⟨M.vx B.x B.y, M.vy B.x B.y, B.z⟩ a b
      = { pushVay e E B a b with
          ux := M.vx (pushVay e E B a b).ux (pushVay e E B a b).uy
          uy := M.vy (pushVay e E B a b).ux (pushVay e E B a b).uy } := by
  have hu := M.unit
  unfold pushVay
  simp only [Motion.vx, Motion.vy]
  set C := M.cos
  set S := M.sin
  have ht : (b * (C * B.x - S * B.y)) ^ 2 + (b * (S * B.x + C * B.y)) ^ 2 + (b * B.z) ^ 2
      = (b * B.x) ^ 2 + (b * B.y) ^ 2 + (b * B.z) ^ 2 := by
    linear_combination (b ^ 2 * (B.x ^ 2 + B.y ^ 2)) * hu
  rw [ht]
  generalize (b * B.x) ^ 2 + (b * B.y) ^ 2 + (b * B.z) ^ 2 = tau2
  have hx : C * e.ux - S * e.uy + a * (C * E.x - S * E.y) + e.invGamma * ((S * e.ux + C * e.uy) * (b * B.z)
      - e.uz * (b * (S * B.x + C * B.y)))
      = C * (e.ux + a * E.x + e.invGamma * (e.uy * (b * B.z) - e.uz * (b * B.y)))
        - S * (e.uy + a * E.y + e.invGamma * (e.uz * (b * B.x) - e.ux * (b * B.z))) := by ring
  have hy : S * e.ux + C * e.uy + a * (S * E.x + C * E.y) + e.invGamma * (e.uz * (b * (C * B.x - S * B.y))
      - (C * e.ux - S * e.uy) * (b * B.z))
      = S * (e.ux + a * E.x + e.invGamma * (e.uy * (b * B.z) - e.uz * (b * B.y)))
        + C * (e.uy + a * E.y + e.invGamma * (e.uz * (b * B.x) - e.ux * (b * B.z))) := by ring
  have hz : e.uz + a * E.z + e.invGamma * ((C * e.ux - S * e.uy) * (b * (S * B.x + C * B.y))
      - (S * e.ux + C * e.uy) * (b * (C * B.x - S * B.y)))
      = e.uz + a * E.z + e.invGamma * (e.ux * (b * B.y) - e.uy * (b * B.x)) := by
    linear_combination (e.invGamma * (e.ux * (b * B.y) - e.uy * (b * B.x))) * hu
  rw [hx, hy, hz]
  generalize e.ux + a * E.x + e.invGamma * (e.uy * (b * B.z) - e.uz * (b * B.y)) = X
  generalize e.uy + a * E.y + e.invGamma * (e.uz * (b * B.x) - e.ux * (b * B.z)) = Y
  generalize e.uz + a * E.z + e.invGamma * (e.ux * (b * B.y) - e.uy * (b * B.x)) = Z
  have hsq : 1 + (C * X - S * Y) ^ 2 + (S * X + C * Y) ^ 2 + Z ^ 2 - tau2 = 1 + X ^ 2 + Y ^ 2 + Z ^ 2 - tau2 := by
    linear_combination (X ^ 2 + Y ^ 2) * hu
  have hut : (C * X - S * Y) * (b * (C * B.x - S * B.y)) + (S * X + C * Y) * (b * (S * B.x + C * B.y)) + Z * (b * B.z)
      = X * (b * B.x) + Y * (b * B.y) + Z * (b * B.z) := by
    linear_combination (b * (X * B.x + Y * B.y)) * hu
  rw [hsq, hut]
  generalize X * (b * B.x) + Y * (b * B.y) + Z * (b * B.z) = ut
  generalize Real.sqrt (2 / (1 + X ^ 2 + Y ^ 2 + Z ^ 2 - tau2 + Real.sqrt ((1 + X ^ 2 + Y ^ 2 + Z ^ 2 - tau2) ^ 2
    + 4 * (tau2 + ut ^ 2)))) = g
  congr 1
  · ring
  · ring
  · linear_combination (1 / (1 + tau2 * g ^ 2) * (g * b * (X * B.y - Y * B.x))) * hu

end Fbpic.Pic
