import Verif.Spec.PicMirror
import Verif.Lemmas.PicMotion
import Verif.Lemmas.PicRealRun

/-!
# Lemmas on the reflection of the particles
-/

namespace Fbpic.Pic

open Transform ExternalField Step
open Spec (negIdx hankel)
open Spec.Reflect (arr ExtReflected)
open scoped ComplexConjugate

/-! ### Deposition -/

theorem cylR_refl (x y : ℝ) : cylR x (-y) = cylR x y := by
  unfold cylR; rw [neg_sq]

theorem cylCos_refl (x y : ℝ) : cylCos x (-y) = cylCos x y := by
  unfold cylCos; rw [cylR_refl]

theorem cylSin_refl (x y : ℝ) : cylSin x (-y) = -cylSin x y := by
  unfold cylSin; rw [cylR_refl]
  by_cases h : cylR x y ≠ 0
  · rw [if_pos h, if_pos h, neg_mul]
  · rw [if_neg h, if_neg h, neg_zero]

/-- The sign of a deposited quantity under the reflection. -/
def depSign : DepField → ℝ
  | .Jt => -1
  | _ => 1

theorem scal0_refl (f : DepField) (c q : ℝ) (ion : Bool) (p : Ptcl) :
    f.scal0 c q ((Spec.Reflect.ptcl p).dep ion) = depSign f * f.scal0 c q (p.dep ion) := by
  have hc := cylCos_refl p.push.x p.push.y
  have hs := cylSin_refl p.push.x p.push.y
  cases f <;> simp only [DepField.scal0, Ptcl.dep, Spec.Reflect.ptcl, Spec.Reflect.push, depSign, hc, hs] <;> ring

theorem scalOf_refl (f : DepField) (c q : ℝ) (m : ℕ) (ion : Bool) (p : Ptcl) :
    scalOf f c q m ((Spec.Reflect.ptcl p).dep ion) = depSign f * conj (scalOf f c q m (p.dep ion)) := by
  unfold scalOf
  rw [modeScal_eq, modeScal_eq, scal0_refl]
  show ((cylCos p.push.x (-p.push.y) : ℂ) + Complex.I * (cylSin p.push.x (-p.push.y) : ℂ)) ^ m * _
    = _ * conj (((cylCos p.push.x p.push.y : ℂ) + Complex.I * (cylSin p.push.x p.push.y : ℂ)) ^ m * _)
  rw [cylCos_refl, cylSin_refl]
  simp only [map_mul, map_pow, map_add, Complex.conj_I, Complex.conj_ofReal]
  push_cast
  ring

/-- Reflection of an array, as an additive map. -/
noncomputable def arrHom (e : ℝ) : Buf →+ Buf where
  toFun := arr e
  map_zero' := by funext i j; simp [arr]
  map_add' a b := by funext i j; simp [arr]; ring

theorem cellBuf_refl (e : ℝ) (i j : ℕ) (v : ℂ) : cellBuf i j (e * conj v) = arr e (cellBuf i j v) := by
  funext i' j'
  simp only [cellBuf, arr]
  split_ifs <;> simp

theorem arr_sum (e : ℝ) (L : List Buf) : arr e L.sum = (L.map (arr e)).sum := map_list_sum (arrHom e) L

theorem arr_zero (e : ℝ) : arr e 0 = 0 := map_zero (arrHom e)

theorem reduceBuf_refl (Nz Nr : ℕ) (e : ℝ) (B : Buf) : reduceBuf Nz Nr (arr e B) = arr e (reduceBuf Nz Nr B) := by
  unfold reduceBuf
  rw [show arr e = arrHom e from rfl, map_sum]
  refine Finset.sum_congr rfl fun i _ => ?_
  rw [map_sum]
  refine Finset.sum_congr rfl fun j _ => ?_
  show _ = arr e _
  rw [← cellBuf_refl]; rfl

theorem divide_refl (vol : ℕ → ℝ) (e : ℝ) (B : Buf) :
    CellVolume.divideByVolume vol (arr e B) = arr e (CellVolume.divideByVolume vol B) := by
  funext i j
  simp only [CellVolume.divideByVolume, arr, map_mul, Complex.conj_ofReal]; ring

variable (c : Cfg)

theorem betaIdx_refl (g : CylGrid) (ion : Bool) (p : Ptcl) :
    betaIdx g ((Spec.Reflect.ptcl p).dep ion) = betaIdx g (p.dep ion) := by
  have := cylR_refl p.push.x p.push.y
  show min ⌈g.rCell (cylR p.push.x (-p.push.y))⌉ _ = _
  rw [this]
  rfl

theorem addsOf_refl (sh : Shape) (f : DepField) (cc q : ℝ) (g : CylGrid) (beta : List ℝ) (m : ℕ) (ion : Bool) (p : Ptcl) :
    addsOf sh f cc q g beta m ((Spec.Reflect.ptcl p).dep ion)
      = (addsOf sh f cc q g beta m (p.dep ion)).map fun a => (a.1, a.2.1, (depSign f : ℂ) * conj a.2.2) := by
  have hr := cylR_refl p.push.x p.push.y
  unfold addsOf
  rw [scalOf_refl]
  have hb : betaOf g beta ((Spec.Reflect.ptcl p).dep ion) = betaOf g beta (p.dep ion) := by
    unfold betaOf; rw [betaIdx_refl]
  rw [hb]
  show ptclAdds sh g _ _ _ (cylR p.push.x (-p.push.y)) p.push.z
    = (ptclAdds sh g _ _ _ (cylR p.push.x p.push.y) p.push.z).map _
  rw [hr]
  simp only [ptclAdds]
  simp only [List.map_flatMap, List.map_map]
  refine congrArg (fun g => List.flatMap g _) ?_
  funext a
  refine congrArg (fun g => List.map g _) ?_
  funext b
  simp only [Function.comp]
  refine Prod.ext rfl (Prod.ext rfl ?_)
  show _ = (depSign f : ℂ) * conj (_ * _)
  rw [map_mul, Complex.conj_ofReal, mul_left_comm]

theorem ptclOk_refl (sh : Shape) (f : DepField) (cc q : ℝ) (g : CylGrid) (beta : List ℝ) (m : ℕ) (ion : Bool) (p : Ptcl)
    (hok : ptclOk sh f cc q g beta m (p.dep ion)) : ptclOk sh f cc q g beta m ((Spec.Reflect.ptcl p).dep ion) := by
  refine ⟨?_, ?_⟩
  · rw [betaIdx_refl]; exact hok.1
  · rw [addsOf_refl]
    intro a ha
    obtain ⟨b, hb, rfl⟩ := List.mem_map.1 ha
    exact hok.2 b hb

theorem ptclBuf_refl (sh : Shape) (f : DepField) (cc q : ℝ) (g : CylGrid) (beta : List ℝ) (m : ℕ) (ion : Bool) (p : Ptcl) :
    ptclBuf sh f cc q g beta m ((Spec.Reflect.ptcl p).dep ion) = arr (depSign f) (ptclBuf sh f cc q g beta m (p.dep ion)) := by
  unfold ptclBuf
  rw [addsOf_refl, arr_sum, List.map_map, List.map_map]
  refine congrArg List.sum (List.map_congr_left fun a _ => ?_)
  show cellBuf _ _ (depSign f * conj a.2.2) = _
  rw [cellBuf_refl]
  rfl

theorem speciesOk_refl (f : DepField) (cc : ℝ) (g : CylGrid) (beta : Shape → ℕ → List ℝ) (m : ℕ) (sp : Species)
    (hok : speciesOk f cc g beta m sp.dep) : speciesOk f cc g beta m (Spec.Reflect.species sp).dep := by
  intro hq p hp
  obtain ⟨p1, hp1, rfl⟩ := List.mem_map.1 hp
  obtain ⟨p2, hp2, rfl⟩ := List.mem_map.1 hp1
  exact ptclOk_refl _ f _ _ _ _ m _ p2 (hok hq _ (List.mem_map.2 ⟨p2, hp2, rfl⟩))

theorem speciesBuf_refl (f : DepField) (cc : ℝ) (g : CylGrid) (beta : Shape → ℕ → List ℝ) (m : ℕ) (sp : Species) :
    speciesBuf f cc g beta m (Spec.Reflect.species sp).dep = arr (depSign f) (speciesBuf f cc g beta m sp.dep) := by
  unfold speciesBuf
  by_cases hq : sp.q = 0
  · rw [if_pos (show (Spec.Reflect.species sp).dep.q = 0 from hq), if_pos (show sp.dep.q = 0 from hq), arr_zero]
  · rw [if_neg (show ¬ (Spec.Reflect.species sp).dep.q = 0 from hq), if_neg (show ¬ sp.dep.q = 0 from hq), arr_sum]
    show ((List.map _ (List.map Spec.Reflect.ptcl sp.ptcl)).map _).sum = _
    show _ = (List.map _ ((List.map _ sp.ptcl).map _)).sum
    simp only [List.map_map]
    refine congrArg List.sum (List.map_congr_left fun p hp => ?_)
    exact ptclBuf_refl _ f _ _ _ _ m _ p

theorem depositing_refl (L : List Species) :
    ((L.map Spec.Reflect.species).filter fun sp => !sp.isTracer)
      = (L.filter fun sp => !sp.isTracer).map Spec.Reflect.species := by
  rw [List.filter_map]
  rfl

theorem depArr_refl (ext : List Ext) (f : DepField) (s s' : Sim) (hz : s'.zmin = s.zmin)
    (hsp : s'.species = s.species.map Spec.Reflect.species) (m : ℕ) :
    (c.withExt ext).depArr f s' m = arr (depSign f) (c.depArr f s m) := by
  unfold Cfg.depArr
  by_cases hm : m < c.Nm
  · rw [if_pos hm, if_pos (show m < (c.withExt ext).Nm from hm), ← divide_refl]
    change CellVolume.divideByVolume (c.vol m) (reduceBuf c.Nz c.Nr ((s'.depositing.map (speciesBuf f c.k.c
      (c.grid s'.zmin) c.beta m)).sum)) = _
    refine congrArg _ ?_
    unfold Sim.depositing
    rw [hsp, hz, depositing_refl, ← reduceBuf_refl, arr_sum]
    simp only [List.map_map]
    refine congrArg _ (congrArg List.sum (List.map_congr_left fun sp hp => ?_))
    exact speciesBuf_refl f _ _ _ m sp
  · rw [if_neg hm, if_neg (show ¬ m < (c.withExt ext).Nm from hm)]
    exact (arr_zero _).symm

theorem depOk_refl (ext : List Ext) (f : DepField) (s s' : Sim) (hz : s'.zmin = s.zmin)
    (hsp : s'.species = s.species.map Spec.Reflect.species) (h : c.depOk f s) : (c.withExt ext).depOk f s' := by
  intro m hm sp hs
  unfold Sim.depositing at hs
  rw [hsp, depositing_refl] at hs
  obtain ⟨sp1, h1, rfl⟩ := List.mem_map.1 hs
  obtain ⟨sp2, h2, rfl⟩ := List.mem_map.1 h1
  rw [hz]
  exact speciesOk_refl f _ _ _ m sp2 (h m hm _ (List.mem_map.2 ⟨sp2, h2, rfl⟩))

/-! ### Gathering -/

/-- The grid arrays of a reflected vector: polar for `e = 1`, axial for `e = -1`. -/
noncomputable def vecR (e : ℝ) (v : GridVec) : GridVec := ⟨arr e v.r, arr (-e) v.t, arr e v.z⟩

/-- The components (cylindrical or Cartesian) of a reflected vector at one point. -/
def flip (e : ℝ) (E : ℝ × ℝ × ℝ) : ℝ × ℝ × ℝ := (e * E.1, -e * E.2.1, e * E.2.2)

theorem cellsVal_refl (g : CylGrid) (w : GCell → ℝ) (e : ℝ) (F : Buf) (cells : List GCell) :
    cellsVal g w (arr e F) cells = e * conj (cellsVal g w F cells) := by
  unfold cellsVal
  induction cells with
  | nil => simp
  | cons a L ih =>
    rw [List.map_cons, List.sum_cons, ih, List.map_cons, List.sum_cons]
    simp only [arr, map_add, map_mul, Complex.conj_ofReal]; ring

theorem addGather_refl (sh : Shape) (g : CylGrid) (m : ℕ) (F : GridVec) (e : ℂ) (η r z : ℝ) (acc v : ℝ × ℝ × ℝ)
    (h : addGather sh g m F e r z acc = .ok v) :
    addGather sh g m (vecR η F) (conj e) r z (flip η acc) = .ok (flip η v) := by
  obtain ⟨h1, rfl⟩ := (addGather_ok _ _ _ _ _ _ _ _ _).1 h
  refine (addGather_ok _ _ _ _ _ _ _ _ _).2 ⟨h1, ?_⟩
  have key : ∀ w B (d : ℝ), (cellsVal g w (arr d B) (sh.cells g m r z) * conj e).re
      = d * (cellsVal g w B (sh.cells g m r z) * e).re := by
    intro w B d
    rw [cellsVal_refl, mul_assoc, ← map_mul, Complex.re_ofReal_mul, Complex.conj_re]
  simp only [vecR, key, flip]
  refine Prod.ext ?_ (Prod.ext ?_ ?_) <;> simp only <;> ring

theorem expo_refl (x y : ℝ) (m : ℕ) :
    ((cylCos x (-y) : ℂ) - Complex.I * (cylSin x (-y) : ℂ)) ^ m = conj (((cylCos x y : ℂ) - Complex.I * cylSin x y) ^ m) := by
  rw [cylCos_refl, cylSin_refl]
  simp only [map_pow, map_sub, map_mul, Complex.conj_I, Complex.conj_ofReal]
  push_cast; ring

theorem cart_refl (x y e : ℝ) (E : ℝ × ℝ × ℝ) :
    (cylCos x (-y) * (flip e E).1 - cylSin x (-y) * (flip e E).2.1,
      cylSin x (-y) * (flip e E).1 + cylCos x (-y) * (flip e E).2.1, (flip e E).2.2)
    = flip e (cylCos x y * E.1 - cylSin x y * E.2.1, cylSin x y * E.1 + cylCos x y * E.2.1, E.2.2) := by
  rw [cylCos_refl, cylSin_refl]
  simp only [flip]
  refine Prod.ext ?_ (Prod.ext ?_ rfl) <;> simp only <;> ring

theorem flip_zero (e : ℝ) : flip e (0, 0, 0) = (0, 0, 0) := by simp [flip]

theorem gatherOneMode_refl (sh : Shape) (g : CylGrid) (rmax : ℝ) (m : ℕ) (F : GridVec) (x y z η : ℝ) (E v : ℝ × ℝ × ℝ)
    (h : gatherOneMode sh g rmax m F x y z E = .ok v) :
    gatherOneMode sh g rmax m (vecR η F) x (-y) z (flip η E) = .ok (flip η v) := by
  unfold gatherOneMode at *
  dsimp only at *
  rw [cylR_refl]
  by_cases hr : cylR x y < rmax
  · rw [if_pos hr] at h ⊢
    obtain ⟨a, ha, hv⟩ := (except_bind_ok _ _ _).1 h
    have h1 := addGather_refl sh g m F _ η _ _ _ _ ha
    rw [flip_zero, ← expo_refl] at h1
    refine (except_bind_ok _ _ _).2 ⟨_, h1, ?_⟩
    have h2 := cart_refl x y η a
    rw [← Except.ok.inj hv]
    refine congrArg Except.ok ?_
    have e1 := congrArg Prod.fst h2
    have e2 := congrArg (fun p => p.2.1) h2
    simp only at e1 e2
    refine Prod.ext ?_ (Prod.ext ?_ ?_)
    · show (flip η E).1 + _ = _
      rw [e1]; simp only [flip]; ring
    · show (flip η E).2.1 + _ = _
      rw [e2]; simp only [flip]; ring
    · show (flip η E).2.2 + (flip η a).2.2 = _
      simp only [flip]; ring
  · rw [if_neg hr] at h ⊢
    rw [← Except.ok.inj h]; rfl

theorem gatherTwoModes_refl (sh : Shape) (g : CylGrid) (rmax : ℝ) (F0 F1 : GridVec) (x y z η : ℝ) (v : ℝ × ℝ × ℝ)
    (h : gatherTwoModes sh g rmax F0 F1 x y z = .ok v) :
    gatherTwoModes sh g rmax (vecR η F0) (vecR η F1) x (-y) z = .ok (flip η v) := by
  unfold gatherTwoModes at *
  dsimp only at *
  rw [cylR_refl]
  by_cases hr : cylR x y < rmax
  · rw [if_pos hr] at h ⊢
    obtain ⟨a, ha, h⟩ := (except_bind_ok _ _ _).1 h
    obtain ⟨b, hb, hv⟩ := (except_bind_ok _ _ _).1 h
    have e1 := expo_refl x y 1
    rw [pow_one, pow_one] at e1
    have h1 := addGather_refl sh g 0 F0 _ η _ _ _ _ ha
    have h2 := addGather_refl sh g 1 F1 _ η _ _ _ _ hb
    rw [flip_zero, map_one] at h1
    rw [← e1] at h2
    refine (except_bind_ok _ _ _).2 ⟨_, h1, (except_bind_ok _ _ _).2 ⟨_, h2, ?_⟩⟩
    rw [← Except.ok.inj hv]
    exact congrArg Except.ok (cart_refl x y η b)
  · rw [if_neg hr] at h ⊢
    obtain ⟨b, hb, hv⟩ := (except_bind_ok _ _ _).1 h
    refine (except_bind_ok _ _ _).2 ⟨(0, 0, 0), rfl, ?_⟩
    rw [← Except.ok.inj hv, ← Except.ok.inj hb]
    refine congrArg Except.ok ?_
    have := cart_refl x y η (0, 0, 0)
    rw [flip_zero] at this
    exact this

theorem foldModes_refl (sh : Shape) (g : CylGrid) (rmax x y z η : ℝ) (Fs : List GridVec) :
    ∀ (i : ℕ) (E v : ℝ × ℝ × ℝ), (Fs.zipIdx i).foldlM (fun (E : ℝ × ℝ × ℝ) (Fm : GridVec × ℕ) =>
      gatherOneMode sh g rmax Fm.2 Fm.1 x y z E) E = .ok v →
    ((Fs.map (vecR η)).zipIdx i).foldlM
      (fun (E : ℝ × ℝ × ℝ) (Fm : GridVec × ℕ) => gatherOneMode sh g rmax Fm.2 Fm.1 x (-y) z E) (flip η E)
        = .ok (flip η v) := by
  induction Fs with
  | nil =>
    intro i E v h
    rw [← Except.ok.inj h]; rfl
  | cons F Fs ih =>
    intro i E v h
    rw [List.zipIdx_cons, List.foldlM_cons] at h
    obtain ⟨a, ha, h⟩ := (except_bind_ok _ _ _).1 h
    rw [List.map_cons, List.zipIdx_cons, List.foldlM_cons]
    exact (except_bind_ok _ _ _).2 ⟨flip η a, gatherOneMode_refl sh g rmax i F x y z η E a ha, ih (i + 1) a v h⟩

theorem gatherField_refl (sh : Shape) (g : CylGrid) (rmax : ℝ) (Fs : List GridVec) (x y z η : ℝ) (v : ℝ × ℝ × ℝ)
    (h : gatherField sh g rmax Fs x y z = .ok v) :
    gatherField sh g rmax (Fs.map (vecR η)) x (-y) z = .ok (flip η v) := by
  by_cases h2 : ∃ F0 F1, Fs = [F0, F1]
  · obtain ⟨F0, F1, rfl⟩ := h2
    exact gatherTwoModes_refl sh g rmax _ _ x y z η v h
  · have hg : ∀ (Fs : List GridVec) (x y z : ℝ), (¬ ∃ F0 F1, Fs = [F0, F1]) → gatherField sh g rmax Fs x y z
        = Fs.zipIdx.foldlM (fun (E : ℝ × ℝ × ℝ) (Fm : GridVec × ℕ) =>
          gatherOneMode sh g rmax Fm.2 Fm.1 x y z E) (0, 0, 0) := by
      intro Fs x y z h
      unfold gatherField
      split
      · exact absurd ⟨_, _, rfl⟩ h
      · rfl
    have h3 : ¬ ∃ F0 F1, Fs.map (vecR η) = [F0, F1] := by
      rintro ⟨F0, F1, he⟩
      have hl : Fs.length = 2 := by
        have := congrArg List.length he
        simpa using this
      match Fs, hl with
      | [a, b], _ => exact h2 ⟨a, b, rfl⟩
    rw [hg _ _ _ _ h2] at h
    rw [hg _ _ _ _ h3]
    have := foldModes_refl sh g rmax x y z η Fs 0 _ _ h
    rw [flip_zero] at this
    exact this

/-! ### Push -/

theorem pushVay_refl (e : ElecMom) (F : Comp → ℝ) (a b : ℝ) :
    pushVay { e with uy := -e.uy } ⟨Spec.Reflect.fields F .Ex, Spec.Reflect.fields F .Ey, Spec.Reflect.fields F .Ez⟩
        ⟨Spec.Reflect.fields F .Bx, Spec.Reflect.fields F .By, Spec.Reflect.fields F .Bz⟩ a b
      = { pushVay e ⟨F .Ex, F .Ey, F .Ez⟩ ⟨F .Bx, F .By, F .Bz⟩ a b with
          uy := -(pushVay e ⟨F .Ex, F .Ey, F .Ez⟩ ⟨F .Bx, F .By, F .Bz⟩ a b).uy } := by
  unfold pushVay
  simp only [Spec.Reflect.fields]
  have ht : (b * -F .Bx) ^ 2 + (b * F .By) ^ 2 + (b * -F .Bz) ^ 2 = (b * F .Bx) ^ 2 + (b * F .By) ^ 2 + (b * F .Bz) ^ 2 := by
    ring
  have hx : e.ux + a * F .Ex + e.invGamma * (-e.uy * (b * -F .Bz) - e.uz * (b * F .By))
      = e.ux + a * F .Ex + e.invGamma * (e.uy * (b * F .Bz) - e.uz * (b * F .By)) := by ring
  have hy : -e.uy + a * -F .Ey + e.invGamma * (e.uz * (b * -F .Bx) - e.ux * (b * -F .Bz))
      = -(e.uy + a * F .Ey + e.invGamma * (e.uz * (b * F .Bx) - e.ux * (b * F .Bz))) := by ring
  have hz : e.uz + a * F .Ez + e.invGamma * (e.ux * (b * F .By) - -e.uy * (b * -F .Bx))
      = e.uz + a * F .Ez + e.invGamma * (e.ux * (b * F .By) - e.uy * (b * F .Bx)) := by ring
  rw [ht, hx, hy, hz]
  generalize e.ux + a * F .Ex + e.invGamma * (e.uy * (b * F .Bz) - e.uz * (b * F .By)) = X
  generalize e.uy + a * F .Ey + e.invGamma * (e.uz * (b * F .Bx) - e.ux * (b * F .Bz)) = Y
  generalize e.uz + a * F .Ez + e.invGamma * (e.ux * (b * F .By) - e.uy * (b * F .Bx)) = Z
  generalize (b * F .Bx) ^ 2 + (b * F .By) ^ 2 + (b * F .Bz) ^ 2 = tau2
  have hut : X * (b * -F .Bx) + -Y * (b * F .By) + Z * (b * -F .Bz) = -(X * (b * F .Bx) + Y * (b * F .By) + Z * (b * F .Bz)) := by
    ring
  rw [hut, neg_sq, neg_sq]
  generalize X * (b * F .Bx) + Y * (b * F .By) + Z * (b * F .Bz) = ut
  generalize Real.sqrt (2 / (1 + X ^ 2 + Y ^ 2 + Z ^ 2 - tau2 + Real.sqrt ((1 + X ^ 2 + Y ^ 2 + Z ^ 2 - tau2) ^ 2
    + 4 * (tau2 + ut ^ 2)))) = g
  congr 1 <;> ring

theorem pushP_refl (cc q m dt : ℝ) (p : Ptcl) :
    Fbpic.pushP cc q m dt (Spec.Reflect.ptcl p).fields (Spec.Reflect.ptcl p).push
      = Spec.Reflect.push (Fbpic.pushP cc q m dt p.fields p.push) := by
  unfold Fbpic.pushP
  have := pushVay_refl p.push.mom p.F (q * dt / (m * cc)) (0.5 * q * dt / m)
  simp only [Ptcl.fields, Spec.Reflect.ptcl, Spec.Reflect.push]
  rw [this]

theorem pushPIoniz_refl (cc e m dt : ℝ) (p : Ptcl) :
    pushPIoniz cc e m dt (Spec.Reflect.ptcl p).fields (Spec.Reflect.ptcl p).push
      = Spec.Reflect.push (pushPIoniz cc e m dt p.fields p.push) := by
  unfold pushPIoniz
  have hl : (Spec.Reflect.ptcl p).push.level = p.push.level := rfl
  rw [hl]
  by_cases h : p.push.level = 0
  · rw [if_pos h, if_pos h]; rfl
  · rw [if_neg h, if_neg h]
    have := pushVay_refl p.push.mom p.F (e * dt / (m * cc) * (p.push.level : ℝ))
      (0.5 * e * dt / m * (p.push.level : ℝ))
    simp only [Ptcl.fields, Spec.Reflect.ptcl, Spec.Reflect.push]
    rw [this]

theorem pushPAfterPlane_refl (cc zp q m dt : ℝ) (p : Ptcl) :
    pushPAfterPlane cc zp q m dt (Spec.Reflect.ptcl p).fields (Spec.Reflect.ptcl p).push
      = Spec.Reflect.push (pushPAfterPlane cc zp q m dt p.fields p.push) := by
  unfold pushPAfterPlane
  by_cases h : p.push.z > zp
  · rw [if_pos h, if_pos (show (Spec.Reflect.ptcl p).push.z > zp from h)]
    exact pushP_refl cc q m dt p
  · rw [if_neg h, if_neg (show ¬ (Spec.Reflect.ptcl p).push.z > zp from h)]; rfl

theorem cfgPushP_refl (ext : List Ext) (t : ℝ) (sp : Species) (p p' : Ptcl) (h : c.pushP t sp p = .ok p') :
    (c.withExt ext).pushP t (Spec.Reflect.species sp) (Spec.Reflect.ptcl p) = .ok (Spec.Reflect.ptcl p') := by
  unfold Cfg.pushP at *
  by_cases hq : sp.q = 0
  · rw [if_pos hq] at h
    rw [if_pos (show (Spec.Reflect.species sp).q = 0 from hq), ← Except.ok.inj h]
  rw [if_neg hq] at h
  rw [if_neg (show ¬ (Spec.Reflect.species sp).q = 0 from hq)]
  cases hpl : sp.plane with
  | some b =>
    have e : (Spec.Reflect.species sp).plane = some b := hpl
    rw [hpl] at h
    simp only at h
    rw [e]
    simp only
    by_cases hi : sp.ionizable = true
    · rw [if_pos hi] at h; cases h
    · rw [if_neg hi] at h
      rw [if_neg (show ¬ (Spec.Reflect.species sp).ionizable = true from hi), ← Except.ok.inj h]
      refine congrArg Except.ok ?_
      show Ptcl.mk (pushPAfterPlane c.k.c (b.position c.k.c t) sp.q sp.m c.dt _ _) _ _ = _
      rw [pushPAfterPlane_refl]; rfl
  | none =>
    have e : (Spec.Reflect.species sp).plane = none := hpl
    rw [hpl] at h
    simp only at h
    rw [e]
    simp only
    by_cases hi : sp.ionizable = true
    · rw [if_pos hi] at h
      rw [if_pos (show (Spec.Reflect.species sp).ionizable = true from hi), ← Except.ok.inj h]
      refine congrArg Except.ok ?_
      show Ptcl.mk (pushPIoniz c.k.c c.eCharge sp.m c.dt _ _) _ _ = _
      rw [pushPIoniz_refl]; rfl
    · rw [if_neg hi] at h
      rw [if_neg (show ¬ (Spec.Reflect.species sp).ionizable = true from hi), ← Except.ok.inj h]
      refine congrArg Except.ok ?_
      show Ptcl.mk (Fbpic.pushP c.k.c sp.q sp.m c.dt _ _) _ _ = _
      rw [pushP_refl]; rfl

theorem gatherPtcl_refl (ext : List Ext) (s s' : Sim) (hz : s'.zmin = s.zmin)
    (hE : ∀ m, (s'.interp m).E = vecR 1 (s.interp m).E) (hB : ∀ m, (s'.interp m).B = vecR (-1) (s.interp m).B)
    (sp : Species) (p p' : Ptcl) (h : c.gatherPtcl s sp p = .ok p') :
    (c.withExt ext).gatherPtcl s' (Spec.Reflect.species sp) (Spec.Reflect.ptcl p) = .ok (Spec.Reflect.ptcl p') := by
  unfold Cfg.gatherPtcl at *
  by_cases hq : sp.q = 0
  · rw [if_pos hq] at h
    rw [if_pos (show (Spec.Reflect.species sp).q = 0 from hq), ← Except.ok.inj h]
  rw [if_neg hq] at h
  rw [if_neg (show ¬ (Spec.Reflect.species sp).q = 0 from hq)]
  obtain ⟨E, hE', h⟩ := (except_bind_ok _ _ _).1 h
  obtain ⟨B, hB', h⟩ := (except_bind_ok _ _ _).1 h
  have h1 := gatherField_refl sp.shape _ c.rmaxGather _ _ _ _ 1 _ hE'
  have h2 := gatherField_refl sp.shape _ c.rmaxGather _ _ _ _ (-1) _ hB'
  rw [List.map_map] at h1 h2
  rw [hz]
  simp only [hE, hB]
  refine (except_bind_ok _ _ _).2 ⟨_, h1, (except_bind_ok _ _ _).2 ⟨_, h2, ?_⟩⟩
  rw [← Except.ok.inj h]
  refine congrArg Except.ok ?_
  show Ptcl.mk _ _ _ = Ptcl.mk _ _ _
  congr 1
  funext f
  cases f <;> simp [flip, Spec.Reflect.fields]

theorem wrap_refl (ext : List Ext) (zmin zmax : ℝ) (p p' : Ptcl) (h : c.wrap zmin zmax p = .ok p') :
    (c.withExt ext).wrap zmin zmax (Spec.Reflect.ptcl p) = .ok (Spec.Reflect.ptcl p') := by
  unfold Cfg.wrap at *
  show (match wrapZ zmin zmax c.fuel p.push.z with
    | some z => _
    | none => _) = _
  cases hz : wrapZ zmin zmax c.fuel p.push.z with
  | none => rw [hz] at h; cases h
  | some z =>
    rw [hz] at h
    rw [← Except.ok.inj h]
    rfl

/-- Particle by particle. -/
theorem mapPtclM_refl (f f' : Species → Ptcl → Except PyErr Ptcl) (s s' t : Sim)
    (hR : s'.species = s.species.map Spec.Reflect.species) (h : s.mapPtclM f = .ok t)
    (hf : ∀ sp ∈ s.species, ∀ p ∈ sp.ptcl, ∀ p', f sp p = .ok p' →
      f' (Spec.Reflect.species sp) (Spec.Reflect.ptcl p) = .ok (Spec.Reflect.ptcl p')) :
    s'.mapPtclM f' = .ok { s' with species := t.species.map Spec.Reflect.species } := by
  obtain ⟨sps, hs, rfl⟩ := (mapPtclM_ok _ _ _).1 h
  refine (mapPtclM_ok _ _ _).2 ⟨_, ?_, rfl⟩
  rw [hR]
  generalize s.species = L at hs hf
  clear hR h
  show List.Forall₂ _ _ (sps.map _)
  induction hs with
  | nil => exact List.Forall₂.nil
  | @cons a b L L' hab hL ih =>
    rw [List.map_cons, List.map_cons]
    refine List.Forall₂.cons ?_ (ih fun sp hsp => hf sp (by simp [hsp]))
    refine ⟨hab.q, hab.m, hab.shape, hab.tracer, hab.ionizable, hab.plane, ?_⟩
    show List.Forall₂ _ (a.ptcl.map Spec.Reflect.ptcl) (b.ptcl.map Spec.Reflect.ptcl)
    have h1 := hab.ptcl
    have h2 := hf a (by simp)
    generalize a.ptcl = l at h1 h2
    generalize b.ptcl = l' at h1
    clear hab ih hL hf
    induction h1 with
    | nil => exact List.Forall₂.nil
    | @cons p p' l l' hpp _ ih =>
      rw [List.map_cons, List.map_cons]
      exact List.Forall₂.cons (h2 p (by simp) p' hpp) (ih fun p hp => h2 p (by simp [hp]))

end Fbpic.Pic
