import Verif.Spec.PicRest
import Verif.Lemmas.PicVacuum
import Verif.Lemmas.PicOpenSplitEnd

/-!
# Lemmas: plasma at rest without fields
-/

namespace Fbpic.Pic

open Transform ExternalField Step
open Spec (noField NoFields Motionless AllAtRest Stands Paired LeapFrom FieldsAt external NewtonLorentz ChargeOf CurrentOf Density
  scalHat vecHat charges earlier back velocity smoothing MovedScal MovedHat rowAfter OnGrid V3 EM Sources PlusGradient PlusGradients
  grad div IsMaxwell hankel Entered OneProcess Healthy)

/-! ### No fields at the particles -/

theorem foldlM_keep {α β : Type} (P : β → Prop) (f : β → α → Except PyErr β) : ∀ (L : List α)
    (_ : ∀ a ∈ L, ∀ b b', P b → f b a = .ok b' → P b') (b r : β), P b → L.foldlM f b = .ok r → P r
  | [], _, b, r, hb, hr => by
    rw [← Except.ok.inj hr]; exact hb
  | a :: L, h, b, r, hb, hr => by
    rw [List.foldlM_cons] at hr
    obtain ⟨b', h1, h2⟩ := (except_bind_ok _ _ _).1 hr
    exact foldlM_keep P f L (fun a' ha' => h a' (List.mem_cons_of_mem _ ha')) b' r (h a (List.mem_cons_self ..) b b' hb h1) h2

/-- The field is zero on the grid. -/
def Nil (g : CylGrid) (F : GridVec) : Prop := ∀ i < g.Nz, ∀ j < g.Nr, F.r i j = 0 ∧ F.t i j = 0 ∧ F.z i j = 0

theorem gatherCells_rest {g : CylGrid} {F : GridVec} (h : Nil g F) {cells : List GCell} {r : ℂ × ℂ × ℂ}
    (hr : gatherCells g F cells = .ok r) : r = (0, 0, 0) := by
  refine foldlM_keep (fun b => b = (0, 0, 0)) _ cells ?_ _ r rfl hr
  rintro a - b b' rfl hb
  obtain ⟨i, hi, hb⟩ := (except_bind_ok _ _ _).1 hb
  obtain ⟨j, hj, hb⟩ := (except_bind_ok _ _ _).1 hb
  obtain ⟨hi1, rfl⟩ := (bufIndex_ok _ _ _).1 hi
  obtain ⟨hj1, rfl⟩ := (bufIndex_ok _ _ _).1 hj
  obtain ⟨e1, e2, e3⟩ := h _ (wrapIdx_lt hi1) _ (wrapIdx_lt hj1)
  rw [← Except.ok.inj hb, e1, e2, e3]
  simp

theorem addGather_rest {s : Shape} {g : CylGrid} {m : ℕ} {F : GridVec} (h : Nil g F) {e : ℂ} {x z : ℝ} {r : ℝ × ℝ × ℝ}
    (hr : addGather s g m F e x z (0, 0, 0) = .ok r) : r = (0, 0, 0) := by
  unfold addGather at hr
  obtain ⟨v, hv, hr⟩ := (except_bind_ok _ _ _).1 hr
  rw [gatherCells_rest h hv] at hr
  rw [← Except.ok.inj hr]
  simp

theorem gatherField_rest {s : Shape} {g : CylGrid} {rm : ℝ} {Fs : List GridVec} (h : ∀ F ∈ Fs, Nil g F) {x y z : ℝ}
    {r : ℝ × ℝ × ℝ} (hr : gatherField s g rm Fs x y z = .ok r) : r = (0, 0, 0) := by
  have key : ∀ Fs : List GridVec, (∀ F ∈ Fs, Nil g F) → Fs.zipIdx.foldlM (fun (E : ℝ × ℝ × ℝ) (Fm : GridVec × ℕ) =>
      gatherOneMode s g rm Fm.2 Fm.1 x y z E) (0, 0, 0) = .ok r → r = (0, 0, 0) := by
    intro Fs h hr
    refine foldlM_keep (fun b => b = (0, 0, 0)) _ _ ?_ _ r rfl hr
    rintro ⟨F, m⟩ hF b b' rfl hb
    have hF' : Nil g F := h F (by have := List.mem_zipIdx' hF; rw [this.2]; exact List.getElem_mem _)
    unfold gatherOneMode at hb
    dsimp only at hb
    split_ifs at hb
    · obtain ⟨v, hv, hb⟩ := (except_bind_ok _ _ _).1 hb
      rw [addGather_rest hF' hv] at hb
      rw [← Except.ok.inj hb]
      simp
    · rw [← Except.ok.inj hb]
  unfold gatherField at hr
  split at hr
  · rename_i F0 F1
    unfold gatherTwoModes at hr
    dsimp only at hr
    split_ifs at hr
    · obtain ⟨u, hu, hr⟩ := (except_bind_ok _ _ _).1 hr
      obtain ⟨v, hv, hr⟩ := (except_bind_ok _ _ _).1 hr
      rw [addGather_rest (h F0 (by simp)) hu] at hv
      rw [addGather_rest (h F1 (by simp)) hv] at hr
      rw [← Except.ok.inj hr]
      simp
    · obtain ⟨v, hv, hr⟩ := (except_bind_ok _ _ _).1 hr
      rw [← Except.ok.inj hv] at hr
      rw [← Except.ok.inj hr]
      simp
  · exact key _ h hr

theorem external_nil {c : Cfg} (h : c.ext = []) (t : ℝ) (id : ℕ) (x y z : ℝ) (k : Comp) (v : ℝ) :
    external c t id x y z k v = v := by
  unfold external
  rw [h]
  rfl

/-! ### A particle at rest -/

theorem motionless_gamma {e : ElecMom} (h : Motionless e) : e.gamma = 1 := by
  unfold ElecMom.gamma
  rw [h.x, h.y, h.z]
  simp

theorem motionless_inv {e : ElecMom} (h : Motionless e) (ok : e.ok) : e.invGamma = 1 := by
  have : e.invGamma = 1 / e.gamma := ok
  rw [this, motionless_gamma h]
  simp

theorem motionless_velocity (c : Cfg) {e : ElecMom} (h : Motionless e) : velocity c e = ⟨0, 0, 0⟩ := by
  unfold Spec.velocity
  rw [h.x, h.y, h.z]
  simp

theorem leap_rest {c : Cfg} (hext : c.ext = []) {o : Opts} {s : Sim} (hE : ∀ m < c.Nm, OnGrid c (s.interp m).E noField)
    (hB : ∀ m < c.Nm, OnGrid c (s.interp m).B noField) {id : ℕ} {sp : Species} {p p' : Ptcl} (hp : Motionless p.push.mom)
    (h : LeapFrom c o s id sp p.push.z p p') : Stands p p' := by
  have nil : ∀ {F : ℕ → GridVec}, (∀ m < c.Nm, OnGrid c (F m) noField) → ∀ G ∈ (List.range c.Nm).map F, Nil (c.grid s.zmin) G := by
    intro F hF G hG
    obtain ⟨m, hm, rfl⟩ := List.mem_map.1 hG
    have := hF m (List.mem_range.1 hm)
    exact fun i hi j hj => ⟨this.r i hi j hj, this.t i hi j hj, this.z i hi j hj⟩
  have mom : Motionless p'.push.mom := by
    by_cases hf : o.moveMomenta = true ∧ Spec.Feels c s sp p.push.z
    · have hF := h.force hf
      obtain ⟨E, B, e1, e2, f1, f2, f3, f4, f5, f6⟩ := h.fields hf.2.1
      rw [external_nil hext, gatherField_rest (nil hE) e1] at f1 f2 f3
      rw [external_nil hext, gatherField_rest (nil hB) e2] at f4 f5 f6
      refine ⟨?_, ?_, ?_⟩
      · have := hF.x
        dsimp only at this
        rw [f1, f5, f6, hp.x] at this
        simpa using this
      · have := hF.y
        dsimp only at this
        rw [f2, f4, f6, hp.y] at this
        simpa using this
      · have := hF.z
        dsimp only at this
        rw [f3, f4, f5, hp.z] at this
        simpa using this
    · rw [h.free hf]; exact hp
  cases hm : o.movePositions
  · obtain ⟨a, b, d⟩ := h.rests hm
    exact ⟨a, b, d, h.weight, h.level, mom⟩
  · obtain ⟨a, b, d⟩ := h.moves hm
    rw [motionless_velocity c mom] at a b d
    exact ⟨by simpa using a, by simpa using b, by simpa using d, h.weight, h.level, mom⟩

/-! ### No current -/

theorem modeScal_zero (co si : ℝ) : ∀ m, modeScal 0 co si m = 0
  | 0 => rfl
  | m + 1 => by unfold modeScal; rw [modeScal_zero co si m, mul_zero]

theorem depositAll_rest {f : DepField} (hf : f ≠ .rho) {k : ℝ} {g : CylGrid} {beta : Shape → ℕ → List ℝ} {m n : ℕ} (hn : 0 < n)
    {sps : List DepSpecies} (h : ∀ sp ∈ sps, ∀ p ∈ sp.ptcls, p.ux = 0 ∧ p.uy = 0 ∧ p.uz = 0) {A : Buf}
    (hA : depositAll f k g beta m n sps = .ok A) : A = 0 := by
  obtain ⟨-, rfl⟩ := (depositAll_ok f k g beta m n hn sps A).1 hA
  have : (sps.map (speciesBuf f k g beta m)).sum = 0 := by
    refine List.sum_eq_zero fun A hA => ?_
    obtain ⟨sp, hsp, rfl⟩ := List.mem_map.1 hA
    unfold speciesBuf
    split_ifs
    · rfl
    · refine List.sum_eq_zero fun B hB => ?_
      obtain ⟨p, hp, rfl⟩ := List.mem_map.1 hB
      obtain ⟨e1, e2, e3⟩ := h sp hsp p hp
      have e0 : f.scal0 k sp.q p = 0 := by
        unfold DepField.scal0
        cases f <;> simp [e1, e2, e3] at hf ⊢
      unfold ptclBuf
      refine List.sum_eq_zero fun C hC => ?_
      obtain ⟨a, ha, rfl⟩ := List.mem_map.1 hC
      unfold addsOf ptclAdds scalOf at ha
      rw [e0] at ha
      simp only [List.mem_flatMap, List.mem_map] at ha
      obtain ⟨u, -, v, -, rfl⟩ := ha
      unfold addBuf
      rw [Complex.ofReal_zero, modeScal_zero, mul_zero, cellBuf_zero]
  rw [this]
  unfold reduceBuf
  funext i j
  simp [cellBuf]

end Fbpic.Pic
