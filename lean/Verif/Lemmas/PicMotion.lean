import Verif.Lemmas.PicAxis

/-!
# Rotations, displacements and charge conjugation of a whole simulation
-/

namespace Fbpic.Pic

open Transform ExternalField Step
open Spec (Motion)

variable (M : Motion) (c : Cfg)

/-- The first coefficient of Ruyten for the mode 0 vanishes. -/
def BetaZero : Prop := ∀ sh, (c.beta sh 0).getD 0 0 = 0

/-- The point is not on the axis, or there is nothing but mode 0. -/
def PosOk (x y : ℝ) : Prop := Off M x y ∨ (c.Nm ≤ 1 ∧ 2 ≤ c.Nr ∧ BetaZero c)

/-! ### Deposition -/

theorem adds_idx (sh : Shape) (f : DepField) (q zmin : ℝ) (beta : List ℝ) (m : ℕ) (ion : Bool) (p : Ptcl)
    (a : ℤ × ℤ × ℂ)
    (ha : a ∈ addsOf sh f c.k.c (M.sign * q) (c.grid (zmin + M.shift)) beta m ((M.ptcl p).dep ion)) :
    ∃ b ∈ addsOf sh f c.k.c q (c.grid zmin) beta m (p.dep ion), b.1 = a.1 ∧ b.2.1 = a.2.1 := by
  have hr := cylR_moved M p.push.x p.push.y
  unfold addsOf at ha ⊢
  change a ∈ ptclAdds sh (c.grid (zmin + M.shift)) _ _ _ (cylR (M.vx p.push.x p.push.y) (M.vy p.push.x p.push.y))
    (p.push.z + M.shift) at ha
  rw [hr] at ha
  simp only [ptclAdds] at ha ⊢
  rw [zCell_moved] at ha
  obtain ⟨i, hi, ha⟩ := List.mem_flatMap.1 ha
  obtain ⟨j, hj, rfl⟩ := List.mem_map.1 ha
  exact ⟨_, List.mem_flatMap.2 ⟨i, hi, List.mem_map.2 ⟨j, hj, rfl⟩⟩, rfl, rfl⟩

theorem ptclOk_any (sh : Shape) (f : DepField) (q zmin : ℝ) (beta : List ℝ) (m : ℕ) (ion : Bool) (p : Ptcl)
    (hok : ptclOk sh f c.k.c q (c.grid zmin) beta m (p.dep ion)) :
    ptclOk sh f c.k.c (M.sign * q) (c.grid (zmin + M.shift)) beta m ((M.ptcl p).dep ion) := by
  refine ⟨?_, ?_⟩
  · rw [betaIdx_moved]; exact hok.1
  · intro a ha
    obtain ⟨b, hb, h1, h2⟩ := adds_idx M c sh f q zmin beta m ion p a ha
    have := hok.2 b hb
    unfold addOk at this ⊢
    rw [← h1, ← h2]
    exact this

theorem ptclBuf_scal (sh : Shape) (f : DepField) (q zmin : ℝ) (beta : List ℝ) (m : ℕ) (ion : Bool) (p : Ptcl)
    (h : scalOf f c.k.c (M.sign * q) m ((M.ptcl p).dep ion) = M.factor m * scalOf f c.k.c q m (p.dep ion)) :
    ptclBuf sh f c.k.c (M.sign * q) (c.grid (zmin + M.shift)) beta m ((M.ptcl p).dep ion)
      = scaleB (M.factor m) (ptclBuf sh f c.k.c q (c.grid zmin) beta m (p.dep ion)) := by
  have hr := cylR_moved M p.push.x p.push.y
  have hb : betaOf (c.grid (zmin + M.shift)) beta ((M.ptcl p).dep ion) = betaOf (c.grid zmin) beta (p.dep ion) := by
    unfold betaOf; rw [betaIdx_moved]
  have ha : addsOf sh f c.k.c (M.sign * q) (c.grid (zmin + M.shift)) beta m ((M.ptcl p).dep ion)
      = (addsOf sh f c.k.c q (c.grid zmin) beta m (p.dep ion)).map
          fun a => (a.1, a.2.1, M.factor m * a.2.2) := by
    unfold addsOf
    rw [h, hb]
    show ptclAdds sh (c.grid (zmin + M.shift)) _ _ _ (cylR (M.vx p.push.x p.push.y) (M.vy p.push.x p.push.y))
      (p.push.z + M.shift) = (ptclAdds sh (c.grid zmin) _ _ _ (cylR p.push.x p.push.y) p.push.z).map _
    rw [hr]
    simp only [ptclAdds]
    rw [zCell_moved]
    simp only [List.map_flatMap, List.map_map]
    refine congrArg (fun g => List.flatMap g _) ?_
    funext a
    refine congrArg (fun g => List.map g _) ?_
    funext b
    simp only [Function.comp]
    refine Prod.ext rfl (Prod.ext rfl ?_)
    show _ = M.factor m * _
    rw [mul_left_comm]
    rfl
  unfold ptclBuf
  rw [ha, scaleB_sum, List.map_map, List.map_map]
  refine congrArg List.sum (List.map_congr_left fun a _ => ?_)
  show cellBuf _ _ (M.factor m * a.2.2) = _
  rw [cellBuf_scale]
  rfl

theorem factor_zero : M.factor 0 = M.sign := by simp [Motion.factor]

theorem reduce_moved (sh : Shape) (f : DepField) (q zmin : ℝ) (m : ℕ) (hm : m < c.Nm) (ion : Bool) (p : Ptcl)
    (h : PosOk M c p.push.x p.push.y) :
    reduceBuf c.Nz c.Nr (ptclBuf sh f c.k.c (M.sign * q) (c.grid (zmin + M.shift)) (c.beta sh (min m 1)) m
        ((M.ptcl p).dep ion))
      = scaleB (M.factor m) (reduceBuf c.Nz c.Nr (ptclBuf sh f c.k.c q (c.grid zmin) (c.beta sh (min m 1)) m
        (p.dep ion))) := by
  by_cases hoff : Off M p.push.x p.push.y
  · rw [ptclBuf_moved M c sh f q zmin _ m ion p hoff, reduceBuf_scale]
  · obtain ⟨hN, hNr, hb⟩ := h.resolve_left hoff
    have hm0 : m = 0 := by omega
    subst hm0
    have hr : cylR p.push.x p.push.y = 0 := by
      by_contra h0; exact hoff (Or.inr h0)
    have hr' : cylR (M.vx p.push.x p.push.y) (M.vy p.push.x p.push.y) = 0 := by rw [cylR_moved, hr]
    have hz : ∀ f : DepField, f = .Jr ∨ f = .Jt → reduceBuf c.Nz c.Nr (ptclBuf sh f c.k.c (M.sign * q)
        (c.grid (zmin + M.shift)) (c.beta sh (min 0 1)) 0 ((M.ptcl p).dep ion))
      = scaleB (M.factor 0) (reduceBuf c.Nz c.Nr (ptclBuf sh f c.k.c q (c.grid zmin) (c.beta sh (min 0 1)) 0
        (p.dep ion))) := by
      intro f hf
      have h1 := axis_ptcl c sh f hf (M.sign * q) (zmin + M.shift) _ (hb sh) ((M.ptcl p).dep ion) hr' hNr
      have h2 := axis_ptcl c sh f hf q zmin _ (hb sh) (p.dep ion) hr hNr
      show reduceBuf c.Nz c.Nr (ptclBuf sh f c.k.c (M.sign * q) (c.grid (zmin + M.shift)) (c.beta sh 0) 0 _)
        = scaleB _ (reduceBuf c.Nz c.Nr (ptclBuf sh f c.k.c q (c.grid zmin) (c.beta sh 0) 0 _))
      rw [h1, h2, scaleB_zero]
    cases f
    · rw [ptclBuf_scal, reduceBuf_scale]
      rw [factor_zero]
      unfold scalOf
      simp only [modeScal, DepField.scal0, Ptcl.dep, Motion.ptcl, Motion.push]
      push_cast; ring
    · exact hz _ (Or.inl rfl)
    · exact hz _ (Or.inr rfl)
    · rw [ptclBuf_scal, reduceBuf_scale]
      rw [factor_zero]
      unfold scalOf
      simp only [modeScal, DepField.scal0, Ptcl.dep, Motion.ptcl, Motion.push]
      push_cast; ring

theorem speciesOk_any (f : DepField) (zmin : ℝ) (m : ℕ) (sp : Species)
    (hok : speciesOk f c.k.c (c.grid zmin) c.beta m sp.dep) :
    speciesOk f c.k.c (c.grid (zmin + M.shift)) c.beta m (M.species sp).dep := by
  intro hq p hp
  have hq' : sp.q ≠ 0 := fun h0 => hq (by show M.sign * sp.q = 0; rw [h0, mul_zero])
  obtain ⟨p1, hp1, rfl⟩ := List.mem_map.1 hp
  obtain ⟨p2, hp2, rfl⟩ := List.mem_map.1 hp1
  exact ptclOk_any M c _ f _ zmin _ m _ p2 (hok hq' _ (List.mem_map.2 ⟨p2, hp2, rfl⟩))

theorem speciesBuf_reduce (f : DepField) (zmin : ℝ) (m : ℕ) (hm : m < c.Nm) (sp : Species)
    (h : ∀ p ∈ sp.ptcl, PosOk M c p.push.x p.push.y) :
    reduceBuf c.Nz c.Nr (speciesBuf f c.k.c (c.grid (zmin + M.shift)) c.beta m (M.species sp).dep)
      = scaleB (M.factor m) (reduceBuf c.Nz c.Nr (speciesBuf f c.k.c (c.grid zmin) c.beta m sp.dep)) := by
  unfold speciesBuf
  by_cases hq : sp.q = 0
  · have hq' : (M.species sp).dep.q = 0 := by show M.sign * sp.q = 0; rw [hq, mul_zero]
    rw [if_pos hq', if_pos (show sp.dep.q = 0 from hq), reduceBuf_zero, scaleB_zero]
  · have hq' : (M.species sp).dep.q ≠ 0 := mul_ne_zero (Motion.sign_ne M) hq
    rw [if_neg hq', if_neg (show ¬ sp.dep.q = 0 from hq), reduceBuf_sum, reduceBuf_sum, scaleB_sum]
    show (List.map _ ((List.map _ (List.map M.ptcl sp.ptcl)).map _)).sum = _
    show _ = (List.map _ (List.map _ ((List.map _ sp.ptcl).map _))).sum
    simp only [List.map_map]
    refine congrArg List.sum (List.map_congr_left fun p hp => ?_)
    exact reduce_moved M c _ f _ zmin m hm _ p (h p hp)

theorem depArr_moved (ext : List Ext) (f : DepField) (s s' : Sim) (hz : s'.zmin = s.zmin + M.shift)
    (hsp : s'.species = s.species.map M.species)
    (h : ∀ sp ∈ s.species, ∀ p ∈ sp.ptcl, PosOk M c p.push.x p.push.y) (m : ℕ) :
    (M.cfg c ext).depArr f s' m = scaleB (M.factor m) (c.depArr f s m) := by
  unfold Cfg.depArr
  by_cases hm : m < c.Nm
  · rw [if_pos hm, if_pos (show m < (M.cfg c ext).Nm from hm), ← divide_scale]
    change CellVolume.divideByVolume (c.vol m) (reduceBuf c.Nz c.Nr ((s'.depositing.map (speciesBuf f c.k.c
      (c.grid s'.zmin) c.beta m)).sum)) = _
    refine congrArg _ ?_
    unfold Sim.depositing
    rw [hsp, hz, depositing_moved, reduceBuf_sum, reduceBuf_sum, scaleB_sum]
    simp only [List.map_map]
    refine congrArg List.sum (List.map_congr_left fun sp hp => ?_)
    exact speciesBuf_reduce M c f _ m hm sp (h sp (List.mem_filter.1 hp).1)
  · rw [if_neg hm, if_neg (show ¬ m < (M.cfg c ext).Nm from hm)]
    exact (scaleB_zero _).symm

theorem depOk_moved (ext : List Ext) (f : DepField) (s s' : Sim) (hz : s'.zmin = s.zmin + M.shift)
    (hsp : s'.species = s.species.map M.species) (h : c.depOk f s) : (M.cfg c ext).depOk f s' := by
  intro m hm sp hs
  unfold Sim.depositing at hs
  rw [hsp, depositing_moved] at hs
  obtain ⟨sp1, h1, rfl⟩ := List.mem_map.1 hs
  obtain ⟨sp2, h2, rfl⟩ := List.mem_map.1 h1
  rw [hz]
  exact speciesOk_any M c f _ m sp2 (h m hm _ (List.mem_map.2 ⟨sp2, h2, rfl⟩))

/-! ### Gathering -/

theorem gatherOneMode_axis (sh : Shape) (zmin rmax : ℝ) (F : GridVec) (x y z : ℝ) (E v : ℝ × ℝ × ℝ)
    (hr : cylR x y = 0) (hNr : 2 ≤ c.Nr) (h : gatherOneMode sh (c.grid zmin) rmax 0 F x y z E = .ok v) :
    gatherOneMode sh (c.grid (zmin + M.shift)) rmax 0 (scaleV (M.factor 0) F) (M.vx x y) (M.vy x y) (z + M.shift)
      (mvec M E) = .ok (mvec M v) := by
  unfold gatherOneMode at *
  dsimp only at *
  rw [cylR_moved]
  rw [hr] at h ⊢
  by_cases hr : 0 < rmax
  · rw [if_pos hr] at h ⊢
    obtain ⟨a, ha, hv⟩ := (except_bind_ok _ _ _).1 h
    rw [pow_zero] at ha ⊢
    have h1 := addGather_moved M c sh zmin 0 F 1 1 0 z _ _ (by rw [factor_zero]) ha
    rw [svec_zero] at h1
    refine (except_bind_ok _ _ _).2 ⟨_, h1, ?_⟩
    obtain ⟨-, rfl⟩ := (addGather_ok _ _ _ _ _ _ _ _ _).1 ha
    rw [← Except.ok.inj hv]
    refine congrArg Except.ok ?_
    simp only [axis_cells c sh zmin z _ hNr]
    simp only [mvec, svec, Motion.vx, Motion.vy, zero_mul, Complex.zero_re, mul_zero, add_zero, sub_zero]
    refine Prod.ext rfl (Prod.ext rfl ?_)
    simp only; ring
  · rw [if_neg hr] at h ⊢
    rw [← Except.ok.inj h]; rfl

theorem gatherField_any (sh : Shape) (zmin rmax : ℝ) (A : ℕ → GridVec) (x y z : ℝ) (v : ℝ × ℝ × ℝ)
    (hpos : PosOk M c x y) (h : gatherField sh (c.grid zmin) rmax ((List.range c.Nm).map A) x y z = .ok v) :
    gatherField sh (c.grid (zmin + M.shift)) rmax ((List.range c.Nm).map fun m => scaleV (M.factor m) (A m))
      (M.vx x y) (M.vy x y) (z + M.shift) = .ok (mvec M v) := by
  by_cases hoff : Off M x y
  · exact gatherField_moved M c sh zmin rmax c.Nm A x y z v hoff h
  · obtain ⟨hN, hNr, -⟩ := hpos.resolve_left hoff
    have hr : cylR x y = 0 := by
      by_contra h0; exact hoff (Or.inr h0)
    have e0 : mvec M (0, 0, 0) = (0, 0, 0) := by simp [mvec, Motion.vx, Motion.vy]
    obtain h0 | h1 : c.Nm = 0 ∨ c.Nm = 1 := by omega
    · rw [h0] at h ⊢
      rw [← Except.ok.inj (show Except.ok (0, 0, 0) = Except.ok v from h), e0]
      rfl
    · rw [h1] at h ⊢
      have hg : ∀ (g : CylGrid) (B : GridVec) (x y z : ℝ), gatherField sh g rmax [B] x y z
          = (gatherOneMode sh g rmax 0 B x y z (0, 0, 0) >>= fun E => pure E) := fun _ _ _ _ _ => rfl
      change gatherField sh _ rmax [A 0] x y z = _ at h
      change gatherField sh _ rmax [scaleV (M.factor 0) (A 0)] _ _ _ = _
      rw [hg] at h ⊢
      obtain ⟨w, hw, h⟩ := (except_bind_ok _ _ _).1 h
      have := gatherOneMode_axis M c sh zmin rmax (A 0) x y z _ w hr hNr hw
      rw [e0] at this
      refine (except_bind_ok _ _ _).2 ⟨_, this, ?_⟩
      rw [← Except.ok.inj h]; rfl

/-! ### The relation between species -/

/-- The planes of a species can be displaced. -/
def PlaneOk (sp : Species) : Prop := ∀ b, sp.plane = some b → b.invGammaBoost ≠ 0 ∨ M.shift = 0

/-- The second list of species is the first one, moved. -/
def RSm (L L' : List Species) : Prop := L' = L.map M.species ∧ ∀ sp ∈ L, PlaneOk M sp

theorem rsm_forall {L L' : List Species} (h : RSm M L L') :
    List.Forall₂ (fun a b => b = M.species a ∧ PlaneOk M a) L L' := by
  obtain ⟨rfl, h⟩ := h
  induction L with
  | nil => exact List.Forall₂.nil
  | cons a L ih =>
    exact List.Forall₂.cons ⟨rfl, h a (by simp)⟩ (ih fun sp hs => h sp (by simp [hs]))

/-- Particle by particle. -/
theorem mapPtclM_moved (f f' : Species → Ptcl → Except PyErr Ptcl) (s s' t : Sim)
    (hR : RSm M s.species s'.species) (h : s.mapPtclM f = .ok t)
    (hf : ∀ sp ∈ s.species, PlaneOk M sp → ∀ p ∈ sp.ptcl, ∀ p', f sp p = .ok p' →
      f' (M.species sp) (M.ptcl p) = .ok (M.ptcl p')) :
    ∃ sps, s'.mapPtclM f' = .ok { s' with species := sps } ∧ RSm M t.species sps := by
  obtain ⟨sps, hs, rfl⟩ := (mapPtclM_ok _ _ _).1 h
  refine ⟨sps.map M.species, (mapPtclM_ok _ _ _).2 ⟨_, ?_, rfl⟩, rfl, ?_⟩
  · rw [hR.1]
    have hp := hR.2
    generalize s.species = L at hs hp hf
    clear hR h
    induction hs with
    | nil => exact List.Forall₂.nil
    | @cons a b L L' hab hL ih =>
      rw [List.map_cons, List.map_cons]
      refine List.Forall₂.cons ?_ (ih (fun sp hsp => hp sp (by simp [hsp])) fun sp hsp => hf sp (by simp [hsp]))
      refine ⟨?_, hab.m, hab.shape, hab.tracer, hab.ionizable, ?_, ?_⟩
      · show M.sign * b.q = M.sign * a.q; rw [hab.q]
      · show b.plane.map _ = a.plane.map _; rw [hab.plane]
      · show List.Forall₂ _ (a.ptcl.map M.ptcl) (b.ptcl.map M.ptcl)
        have h1 := hab.ptcl
        have h2 := hf a (by simp) (hp a (by simp))
        generalize a.ptcl = l at h1 h2
        generalize b.ptcl = l' at h1
        clear hab ih hL hp hf
        induction h1 with
        | nil => exact List.Forall₂.nil
        | @cons p p' l l' hpp _ ih =>
          rw [List.map_cons, List.map_cons]
          exact List.Forall₂.cons (h2 p (by simp) p' hpp) (ih fun p hp => h2 p (by simp [hp]))
  · have hp := hR.2
    show ∀ sp ∈ sps, PlaneOk M sp
    generalize s.species = L at hs hp
    clear hR h hf
    induction hs with
    | nil => simp
    | @cons a b L L' hab hL ih =>
      intro sp hsp
      rcases List.mem_cons.1 hsp with rfl | hsp
      · have := hp a (by simp)
        unfold PlaneOk at this ⊢
        rw [hab.plane]; exact this
      · exact ih (fun sp h => hp sp (by simp [h])) sp hsp

theorem loopDown_shift (d zmax L : ℝ) (n : ℕ) : ∀ z, loopDown (zmax + d) L n (z + d)
    = (loopDown zmax L n z).map (· + d) := by
  induction n with
  | zero => intro z; rfl
  | succ n ih =>
    intro z
    unfold loopDown
    by_cases h : zmax ≤ z
    · rw [if_pos h, if_pos (by linarith), show z + d - L = z - L + d by ring, ih]
    · rw [if_neg h, if_neg (by linarith)]; rfl

theorem loopUp_shift (d zmin L : ℝ) (n : ℕ) : ∀ z, loopUp (zmin + d) L n (z + d)
    = (loopUp zmin L n z).map (· + d) := by
  induction n with
  | zero => intro z; rfl
  | succ n ih =>
    intro z
    unfold loopUp
    by_cases h : z < zmin
    · rw [if_pos h, if_pos (by linarith), show z + d + L = z + L + d by ring, ih]
    · rw [if_neg h, if_neg (by linarith)]; rfl

theorem wrapZ_shift (d zmin zmax : ℝ) (n : ℕ) (z : ℝ) : wrapZ (zmin + d) (zmax + d) n (z + d)
    = (wrapZ zmin zmax n z).map (· + d) := by
  unfold wrapZ
  rw [show zmax + d - (zmin + d) = zmax - zmin by ring, loopDown_shift]
  cases loopDown zmax (zmax - zmin) n z with
  | none => rfl
  | some z => exact loopUp_shift d zmin (zmax - zmin) n z

theorem wrap_moved (ext : List Ext) (zmin zmax : ℝ) (p p' : Ptcl) (h : c.wrap zmin zmax p = .ok p') :
    (M.cfg c ext).wrap (zmin + M.shift) (zmax + M.shift) (M.ptcl p) = .ok (M.ptcl p') := by
  unfold Cfg.wrap at *
  show (match wrapZ (zmin + M.shift) (zmax + M.shift) c.fuel (p.push.z + M.shift) with
    | some z => _
    | none => _) = _
  rw [wrapZ_shift]
  cases hz : wrapZ zmin zmax c.fuel p.push.z with
  | none => rw [hz] at h; cases h
  | some z =>
    rw [hz] at h
    rw [← Except.ok.inj h]
    rfl

theorem pushVay_signed (e : ElecMom) (F : Comp → ℝ) (a b : ℝ) :
    pushVay { e with ux := M.vx e.ux e.uy, uy := M.vy e.ux e.uy }
        ⟨M.fields F .Ex, M.fields F .Ey, M.fields F .Ez⟩ ⟨M.fields F .Bx, M.fields F .By, M.fields F .Bz⟩
        (M.sign * a) (M.sign * b)
      = { pushVay e ⟨F .Ex, F .Ey, F .Ez⟩ ⟨F .Bx, F .By, F .Bz⟩ a b with
          ux := M.vx (pushVay e ⟨F .Ex, F .Ey, F .Ez⟩ ⟨F .Bx, F .By, F .Bz⟩ a b).ux
            (pushVay e ⟨F .Ex, F .Ey, F .Ez⟩ ⟨F .Bx, F .By, F .Bz⟩ a b).uy
          uy := M.vy (pushVay e ⟨F .Ex, F .Ey, F .Ez⟩ ⟨F .Bx, F .By, F .Bz⟩ a b).ux
            (pushVay e ⟨F .Ex, F .Ey, F .Ez⟩ ⟨F .Bx, F .By, F .Bz⟩ a b).uy } := by
  rw [← pushVay_moved]
  have hs := Motion.sign_mul M
  have h1 : ∀ x, M.sign * a * (M.sign * x) = a * x := fun x => by linear_combination (a * x) * hs
  have h2 : ∀ x, M.sign * b * (M.sign * x) = b * x := fun x => by linear_combination (b * x) * hs
  unfold pushVay
  simp only [Motion.fields, h1, h2]

theorem plane_position (b : BallisticPlane) (cc t : ℝ) (h : b.invGammaBoost ≠ 0 ∨ M.shift = 0) :
    (M.plane b).position cc t = b.position cc t + M.shift := by
  unfold BallisticPlane.position Motion.plane
  rcases h with h | h
  · simp only; field_simp; ring
  · rw [h]; simp

theorem pushP_one (cc q m dt : ℝ) (p : Ptcl) :
    Fbpic.pushP cc (M.sign * q) m dt (M.ptcl p).fields (M.ptcl p).push
      = M.push (Fbpic.pushP cc q m dt p.fields p.push) := by
  unfold Fbpic.pushP
  have := pushVay_signed M p.push.mom p.F (q * dt / (m * cc)) (0.5 * q * dt / m)
  rw [show M.sign * (q * dt / (m * cc)) = M.sign * q * dt / (m * cc) by ring,
    show M.sign * (0.5 * q * dt / m) = 0.5 * (M.sign * q) * dt / m by ring] at this
  simp only [Ptcl.fields, Motion.ptcl, Motion.push]
  rw [this]

theorem pushPIoniz_one (cc e m dt : ℝ) (p : Ptcl) :
    pushPIoniz cc (M.sign * e) m dt (M.ptcl p).fields (M.ptcl p).push
      = M.push (pushPIoniz cc e m dt p.fields p.push) := by
  unfold pushPIoniz
  have hl : (M.ptcl p).push.level = p.push.level := rfl
  rw [hl]
  by_cases h : p.push.level = 0
  · rw [if_pos h, if_pos h]; rfl
  · rw [if_neg h, if_neg h]
    have := pushVay_signed M p.push.mom p.F (e * dt / (m * cc) * (p.push.level : ℝ))
      (0.5 * e * dt / m * (p.push.level : ℝ))
    rw [show M.sign * (e * dt / (m * cc) * (p.push.level : ℝ)) = M.sign * e * dt / (m * cc) * (p.push.level : ℝ)
        by ring,
      show M.sign * (0.5 * e * dt / m * (p.push.level : ℝ)) = 0.5 * (M.sign * e) * dt / m * (p.push.level : ℝ)
        by ring] at this
    simp only [Ptcl.fields, Motion.ptcl, Motion.push]
    rw [this]

theorem pushPAfterPlane_one (cc zp q m dt : ℝ) (p : Ptcl) :
    pushPAfterPlane cc (zp + M.shift) (M.sign * q) m dt (M.ptcl p).fields (M.ptcl p).push
      = M.push (pushPAfterPlane cc zp q m dt p.fields p.push) := by
  unfold pushPAfterPlane
  by_cases h : p.push.z > zp
  · rw [if_pos h, if_pos (show (M.ptcl p).push.z > zp + M.shift from by
      show p.push.z + M.shift > zp + M.shift; linarith)]
    exact pushP_one M cc q m dt p
  · rw [if_neg h, if_neg (show ¬ (M.ptcl p).push.z > zp + M.shift from by
      show ¬ p.push.z + M.shift > zp + M.shift; linarith)]
    rfl

theorem pushP_moved (ext : List Ext) (t : ℝ) (sp : Species) (hp : PlaneOk M sp) (p p' : Ptcl)
    (h : c.pushP t sp p = .ok p') : (M.cfg c ext).pushP t (M.species sp) (M.ptcl p) = .ok (M.ptcl p') := by
  unfold Cfg.pushP at *
  by_cases hq : sp.q = 0
  · rw [if_pos hq] at h
    rw [if_pos (show (M.species sp).q = 0 by show M.sign * sp.q = 0; rw [hq, mul_zero]), ← Except.ok.inj h]
  rw [if_neg hq] at h
  rw [if_neg (show ¬ (M.species sp).q = 0 from mul_ne_zero (Motion.sign_ne M) hq)]
  cases hpl : sp.plane with
  | some b =>
    have e : (M.species sp).plane = some (M.plane b) := by show sp.plane.map M.plane = _; rw [hpl]; rfl
    rw [hpl] at h
    simp only at h
    rw [e]
    simp only
    by_cases hi : sp.ionizable = true
    · rw [if_pos hi] at h; cases h
    · rw [if_neg hi] at h
      rw [if_neg (show ¬ (M.species sp).ionizable = true from hi), ← Except.ok.inj h, plane_position M b _ _ (hp b hpl)]
      refine congrArg Except.ok ?_
      have := pushPAfterPlane_one M c.k.c (b.position c.k.c t) sp.q sp.m c.dt p
      show Ptcl.mk (pushPAfterPlane c.k.c (b.position c.k.c t + M.shift) (M.sign * sp.q) sp.m c.dt _ _) _ _ = _
      rw [this]; rfl
  | none =>
    have e : (M.species sp).plane = none := by show sp.plane.map M.plane = _; rw [hpl]; rfl
    rw [hpl] at h
    simp only at h
    rw [e]
    simp only
    by_cases hi : sp.ionizable = true
    · rw [if_pos hi] at h
      rw [if_pos (show (M.species sp).ionizable = true from hi), ← Except.ok.inj h]
      refine congrArg Except.ok ?_
      show Ptcl.mk (pushPIoniz c.k.c (M.sign * c.eCharge) sp.m c.dt _ _) _ _ = _
      rw [pushPIoniz_one]; rfl
    · rw [if_neg hi] at h
      rw [if_neg (show ¬ (M.species sp).ionizable = true from hi), ← Except.ok.inj h]
      refine congrArg Except.ok ?_
      show Ptcl.mk (Fbpic.pushP c.k.c (M.sign * sp.q) sp.m c.dt _ _) _ _ = _
      rw [pushP_one]; rfl

theorem gather_moved (ext : List Ext) (s s' : Sim) (hz : s'.zmin = s.zmin + M.shift)
    (hi : s'.interp = fun m => scaleI (M.factor m) (s.interp m)) (sp : Species) (p p' : Ptcl)
    (hpos : PosOk M c p.push.x p.push.y) (h : c.gatherPtcl s sp p = .ok p') :
    (M.cfg c ext).gatherPtcl s' (M.species sp) (M.ptcl p) = .ok (M.ptcl p') := by
  unfold Cfg.gatherPtcl at *
  by_cases hq : sp.q = 0
  · rw [if_pos hq] at h
    rw [if_pos (show (M.species sp).q = 0 by show M.sign * sp.q = 0; rw [hq, mul_zero]), ← Except.ok.inj h]
  rw [if_neg hq] at h
  rw [if_neg (show ¬ (M.species sp).q = 0 from mul_ne_zero (Motion.sign_ne M) hq)]
  obtain ⟨E, hE, h⟩ := (except_bind_ok _ _ _).1 h
  obtain ⟨B, hB, h⟩ := (except_bind_ok _ _ _).1 h
  have h1 := gatherField_any M c sp.shape s.zmin c.rmaxGather _ _ _ _ _ hpos hE
  have h2 := gatherField_any M c sp.shape s.zmin c.rmaxGather _ _ _ _ _ hpos hB
  rw [hz, hi]
  refine (except_bind_ok _ _ _).2 ⟨_, h1, (except_bind_ok _ _ _).2 ⟨_, h2, ?_⟩⟩
  rw [← Except.ok.inj h]
  refine congrArg Except.ok ?_
  show Ptcl.mk _ _ _ = Ptcl.mk _ _ _
  congr 1

theorem record_pos (s : Sim) (P : ℝ → ℝ → Prop) (h : ∀ q ∈ s.record.seen, P q.x q.y) :
    ∀ sp ∈ s.species, ∀ p ∈ sp.ptcl, P p.push.x p.push.y := by
  intro sp hsp p hp
  exact h ⟨p.push.x, p.push.y, p.push.z, s.zmin⟩ (List.mem_append_right _
    (List.mem_flatMap.2 ⟨sp, hsp, List.mem_map.2 ⟨p, hp, rfl⟩⟩))

theorem cfg_alt (ext : List Ext) : M.cfg c ext = c.alt (M.sign * c.eCharge) c.nthreads ext := rfl

instance [h : NeZero c.Nz] (ext : List Ext) : NeZero (M.cfg c ext).Nz := h

variable [NeZero c.Nz]

theorem ptclSim_motion (ext : List Ext) (hext : M.ExtMoved c ext) :
    PtclSim c (M.cfg c ext) (fun q => PosOk M c q.x q.y) M.factor M.shift (RSm M) where
  wrap := by
    intro s s' hR t ht
    refine mapPtclM_moved M _ _ s s' t hR.species ht ?_
    intro sp _ _ p _ p' h
    rw [hR.zmin, hR.zmax]
    exact wrap_moved M c ext _ _ p p' h
  dep := by
    intro f s s' hR hs h
    exact ⟨depOk_moved M c ext f s s' hR.zmin hR.species.1 h,
      fun m => depArr_moved M c ext f s s' hR.zmin hR.species.1 (record_pos s _ hs) m⟩
  gather := by
    intro s s' hR hs t ht
    refine mapPtclM_moved M _ _ s.record s'.record t hR.species ht ?_
    intro sp hsp _ p hp p' h
    exact gather_moved M c ext s s' hR.zmin hR.interp sp p p' (record_pos s _ hs sp hsp p hp) h
  exts := by
    intro s s' hR
    refine ⟨?_, ?_⟩
    · show s'.species.mapIdx _ = (s.species.mapIdx _).map _
      rw [hR.species.1, hR.time]
      apply List.ext_getElem
      · simp
      · intro i h1 h2
        simp only [List.getElem_mapIdx, List.getElem_map, Function.comp]
        show Species.mk _ _ _ _ _ _ _ = Species.mk _ _ _ _ _ _ _
        congr 1
        show (List.map M.ptcl _).map _ = (List.map _ _).map M.ptcl
        rw [List.map_map, List.map_map]
        refine List.map_congr_left fun p _ => ?_
        exact hext s.time i p
    · intro sp hsp
      obtain ⟨i, hi, rfl⟩ := List.mem_iff_getElem.1 hsp
      have hi' : i < s.species.length := by simpa [Cfg.applyExts] using hi
      have := hR.species.2 s.species[i] (List.getElem_mem hi')
      unfold PlaneOk at this ⊢
      simp only [Cfg.applyExts, List.getElem_mapIdx]
      exact this
  pushP := by
    intro s s' hR t ht
    refine mapPtclM_moved M _ _ s s' t hR.species ht ?_
    intro sp _ hpl p _ p' h
    rw [hR.time]
    exact pushP_moved M c ext _ sp hpl p p' h
  pushX := by
    intro dt a b s s' hR
    refine ⟨?_, ?_⟩
    · show s'.species.map _ = (s.species.map _).map _
      rw [hR.species.1, List.map_map, List.map_map]
      refine List.map_congr_left fun sp _ => ?_
      show Species.mk _ _ _ _ _ _ _ = Species.mk _ _ _ _ _ _ _
      congr 1
      show (List.map M.ptcl _).map _ = (List.map _ _).map M.ptcl
      rw [List.map_map, List.map_map]
      refine List.map_congr_left fun p _ => ?_
      show Ptcl.mk _ _ _ = Ptcl.mk _ _ _
      congr 1
      show PushPtcl.mk _ _ _ _ _ = PushPtcl.mk _ _ _ _ _
      congr 1
      · simp only [Motion.ptcl, Motion.push, Fbpic.pushX, Motion.vx]
        show _ + c.k.c * _ * _ * _ * _ = _; ring
      · simp only [Motion.ptcl, Motion.push, Fbpic.pushX, Motion.vy]
        show _ + c.k.c * _ * _ * _ * _ = _; ring
      · simp only [Motion.ptcl, Motion.push, Fbpic.pushX]
        show _ + c.k.c * _ * _ * _ * _ = _; ring
    · intro sp hsp
      obtain ⟨sp', h', rfl⟩ := List.mem_map.1 hsp
      exact hR.species.2 sp' h'

/-- The whole run. -/
theorem calls_motion (ext : List Ext) (hext : M.ExtMoved c ext) (hn : 0 < c.nthreads) (L : List (ℕ × Opts))
    (s s' : Sim) (hR : Scaled M.factor M.shift (RSm M) s s') :
    Fwd (fun q => PosOk M c q.x q.y) (Scaled M.factor M.shift (RSm M)) (c.calls L s) ((M.cfg c ext).calls L s') :=
  (PtclSim.simulates hn hn (ptclSim_motion M c ext hext)).calls L s s' hR

end Fbpic.Pic
