import Verif.Lemmas.Parallel
import Verif.Model.Kernels

namespace Fbpic.Parallel

open Spec

section
variable {ρ σ : Type}

theorem runBody_append (a b : List (ρ → σ → ρ × σ)) (r : ρ) (s : σ) :
    runBody (a ++ b) r s = runBody b (runBody a r s).1 (runBody a r s).2 := by
  simp [runBody, List.foldl_append]

theorem runBody_nil (r : ρ) (s : σ) : runBody [] r s = (r, s) := rfl

theorem runBody_assign (f : ρ → σ → ρ) (rest : List (ρ → σ → ρ × σ)) (r : ρ) (s : σ) :
    runBody (assign f :: rest) r s = runBody rest (f r s) s := rfl

theorem runBody_store (f : ρ → σ → σ) (rest : List (ρ → σ → ρ × σ)) (r : ρ) (s : σ) :
    runBody (store f :: rest) r s = runBody rest r (f r s) := rfl

end

/-! ### Spectral space -/

theorem computes_correctCurrents (m : CurrentCorrection) (kz kr : ℝ) (ps : PsatdCoefs) :
    Computes (correctCurrentsCode m kz kr ps) (correctCurrents m kz kr ps) := by
  intro r s
  unfold correctCurrentsCode correctCurrents
  rcases ps.comov with _ | a <;> cases m
  · rfl
  · simp only [crossDepStandardCode, crossDepStandard, correctByD, crossCorrect]
    by_cases h1 : kr = 0 <;> by_cases h2 : kz = 0 <;>
      simp [h1, h2, runBody_assign, runBody_store, runBody_nil]
  · rfl
  · simp only [crossDepComovingCode, crossDepComoving, correctByD, crossCorrect]
    by_cases h1 : kr = 0 <;> by_cases h2 : kz = 0 <;>
      simp [h1, h2, runBody_assign, runBody_store, runBody_nil]

theorem computes_pushEB (k : Consts) (kz kr : ℝ) (ps : PsatdCoefs) (b : Bool) :
    Computes (pushEBCode k kz kr ps b) fun s =>
      match ps.comov with
      | none => pushEBStandard k kz kr ps b s
      | some a => pushEBComoving k kz kr ps a b s := by
  intro r s
  unfold pushEBCode
  rcases ps.comov with _ | a <;> cases b <;> rfl

theorem computes_pushPml (k : Consts) (kr : ℝ) (ps : PsatdCoefs) :
    Computes (pushPmlCode k kr ps) fun s =>
      match ps.comov with
      | none => pushPmlStandard k kr ps s
      | some a => pushPmlComoving k kr ps a s := by
  intro r s
  unfold pushPmlCode
  rcases ps.comov with _ | a <;> rfl

theorem computes_pushRho : Computes pushRhoCode pushRho := fun _ _ => rfl

theorem computes_filter (f : ℝ) (fld : FilterField) : Computes (filterCode f fld) (filterCell f fld) := by
  intro r s
  cases fld <;> rfl

/-- A loop over the cells, as a function on grids. -/
def mapGrid (g : SpecGrid) (f : ℕ → ℕ → SpecCell → SpecCell) : SpecGrid :=
  { g with cell := fun iz ir => if iz < g.Nz ∧ ir < g.Nr then f iz ir (g.cell iz ir) else g.cell iz ir }

theorem onGrid_specMem (g : SpecGrid) (f : ℕ → ℕ → SpecCell → SpecCell) :
    onGrid g.Nz g.Nr f (specMem g) = specMem (mapGrid g f) := rfl

theorem outcome_gpuGrid (g : SpecGrid) (TPB : ℕ) (h : 0 < TPB) (code : ℕ → ℕ → FieldCode)
    (f : ℕ → ℕ → SpecCell → SpecCell) (hf : ∀ iz ir, Computes (code iz ir) (f iz ir)) :
    Result (gpuGrid g TPB code) (onGrid g.Nz g.Nr f) :=
  result_cellKernel g.Nz g.Nr 1 TPB Nat.one_pos h code f fun iz ir _ _ => hf iz ir

theorem outcome_cpuGrid (g : SpecGrid) (code : ℕ → ℕ → FieldCode)
    (f : ℕ → ℕ → SpecCell → SpecCell) (hf : ∀ iz ir, Computes (code iz ir) (f iz ir)) :
    Result (cpuGrid g code) (onGrid g.Nz g.Nr f) :=
  result_rowLoop g.Nz g.Nr code f fun iz ir _ _ => hf iz ir

section
variable {τ ι ρ σ : Type} [DecidableEq τ] [DecidableEq ι]

theorem results_one (L : Launch τ ι ρ σ) (f : (ι → σ) → (ι → σ)) (h : Result L f) : Results [L] f :=
  results_cons L [] f _ h results_nil

theorem results_append (Ls Ls' : List (Launch τ ι ρ σ)) (f g : (ι → σ) → (ι → σ))
    (h : Results Ls f) (h' : Results Ls' g) : Results (Ls ++ Ls') (fun m => g (f m)) := by
  intro m m'
  have key : ∀ (Ls : List (Launch τ ι ρ σ)) (m m' : ι → σ),
      Outcomes (Ls ++ Ls') m m' ↔ ∃ m1, Outcomes Ls m m1 ∧ Outcomes Ls' m1 m' := by
    intro Ls
    induction Ls with
    | nil => intro m m'; simp [Outcomes]
    | cons L Ls ih =>
      intro m m'
      simp only [List.cons_append, Outcomes, ih]
      constructor
      · rintro ⟨a, h1, b, h2, h3⟩; exact ⟨b, ⟨a, h1, h2⟩, h3⟩
      · rintro ⟨b, ⟨a, h1, h2⟩, h3⟩; exact ⟨a, h1, b, h2, h3⟩
  rw [key]
  constructor
  · rintro ⟨m1, h1, h2⟩
    rw [(h m m1).1 h1] at h2
    exact (h' _ _).1 h2
  · rintro rfl
    exact ⟨f m, (h m _).2 rfl, (h' _ _).2 rfl⟩

end

theorem mapGrid_mapCells (g : SpecGrid) (f : ℝ → ℝ → SpecCell → SpecCell) :
    mapGrid g (fun iz ir => f (g.kz iz) (g.kr ir)) = g.mapCells f := rfl

/-! ### Particles -/

theorem computes_pushXGpu (c dt px py pz : ℝ) :
    Computes (pushXGpuCode c dt px py pz) fun s => { s with p := pushX c dt px py pz s.p } := by
  intro r s
  simp only [pushXGpuCode, runBody_assign, runBody_store, runBody_nil, pushX]
  congr 2 <;> ring

theorem computes_pushXCpu (c dt px py pz : ℝ) :
    Computes (pushXCpuCode c dt px py pz) fun s => { s with p := pushX c dt px py pz s.p } := fun _ _ => rfl

theorem runBody_vay (cond : PtclCell → Prop) [DecidablePred cond]
    (h : ∀ s e, cond { s with p := { s.p with mom := e } } ↔ cond s) (r : PtclRegs) (s : PtclCell) :
    (runBody (vayCode cond) r s).2 = if cond s then
      { s with p := { s.p with mom := pushVay s.p.mom s.E s.B r.econst r.bconst } } else s := by
  by_cases hc : cond s
  · simp [vayCode, runBody_assign, runBody_store, runBody_nil, hc, h]
  · simp [vayCode, runBody_assign, runBody_store, runBody_nil, hc]

theorem computes_pushP (c q m dt : ℝ) :
    Computes (pushPCode c q m dt) fun s => { s with p := pushP c q m dt ⟨s.E, s.B⟩ s.p } := by
  intro r s
  unfold pushPCode
  rw [runBody_append, runBody_vay _ (fun _ _ => Iff.rfl), if_pos trivial]
  rfl

theorem computes_pushPAfterPlane (c zp q m dt : ℝ) :
    Computes (pushPAfterPlaneCode c zp q m dt) fun s =>
      { s with p := pushPAfterPlane c zp q m dt ⟨s.E, s.B⟩ s.p } := by
  intro r s
  unfold pushPAfterPlaneCode
  rw [runBody_append, runBody_vay _ (fun _ _ => Iff.rfl)]
  by_cases h : s.p.z > zp
  · have h' : (runBody (vayConsts c q m dt) r s).2.p.z > zp := h
    rw [if_pos h']
    simp only [pushPAfterPlane, if_pos h]
    rfl
  · have h' : ¬ (runBody (vayConsts c q m dt) r s).2.p.z > zp := h
    rw [if_neg h']
    simp only [pushPAfterPlane, if_neg h]
    rfl

theorem computes_pushPIonizGpu (c e m dt : ℝ) :
    Computes (pushPIonizGpuCode c e m dt) fun s => { s with p := pushPIoniz c e m dt ⟨s.E, s.B⟩ s.p } := by
  intro r s
  unfold pushPIonizGpuCode
  rw [runBody_append, runBody_vay _ (fun _ _ => Iff.rfl)]
  simp only [runBody_assign, runBody_nil, pushPIoniz]
  by_cases h : s.p.level = 0
  · simp [h]
  · simp only [h, ne_eq, not_false_eq_true, if_true, if_false]
    congr 3 <;> ring

theorem computes_pushPIonizCpu (c e m dt : ℝ) :
    Computes (pushPIonizCpuCode c e m dt) fun s => { s with p := pushPIoniz c e m dt ⟨s.E, s.B⟩ s.p } := by
  intro r s
  unfold pushPIonizCpuCode
  rw [runBody_append, runBody_vay _ (fun _ _ => Iff.rfl)]
  simp only [runBody_assign, runBody_nil, pushPIoniz]
  by_cases h : s.p.level = 0
  · simp [h]
  · simp only [h, ne_eq, not_false_eq_true, if_true, if_false]

/-! ### Gathering -/

noncomputable section

/-- Conversion to Cartesian components. -/
def cart (s : PtclCell) (v : ℝ × ℝ × ℝ) : Vec3 :=
  let cos := cylCos s.p.x s.p.y
  let sin := cylSin s.p.x s.p.y
  ⟨cos * v.1 - sin * v.2.1, sin * v.1 + cos * v.2.1, v.2.2⟩

open Classical in
/-- The field of two modes, undefined values included. -/
def twoJ (A : GatherArgs) (F0 F1 : GridVec) (s : PtclCell) : Vec3 :=
  cart s (if cylR s.p.x s.p.y < A.rmax then
    inBounds A.oob (addGather A.shape A.g 1 F1
      ((cylCos s.p.x s.p.y : ℂ) - Complex.I * cylSin s.p.x s.p.y) (cylR s.p.x s.p.y) s.p.z
      (inBounds A.oob (addGather A.shape A.g 0 F0 1 (cylR s.p.x s.p.y) s.p.z (0, 0, 0))))
    else (0, 0, 0))

theorem computes_gatherTwo (A : GatherArgs) (E0 E1 B0 B1 : GridVec) :
    Computes (gatherTwoCode A E0 E1 B0 B1) fun s => { s with E := twoJ A E0 E1 s, B := twoJ A B0 B1 s } := by
  intro r s
  simp only [gatherTwoCode, cylindrical, eraseF, addMode, List.cons_append, List.nil_append,
    runBody_assign, runBody_store, runBody_nil]
  by_cases h : cylR s.p.x s.p.y < A.rmax
  · simp only [h, if_true, twoJ, cart]
  · simp only [h, if_false, twoJ, cart]

theorem runBody_expthetaLoop (m : ℕ) (rest : PtclCode) (r : PtclRegs) (s : PtclCell) :
    runBody (expthetaLoop m ++ rest) r s =
      runBody rest { r with exptheta := ((r.cos : ℂ) - Complex.I * r.sin) ^ m } s := by
  have key : ∀ (m : ℕ) (r : PtclRegs), runBody (List.replicate m
      (assign fun (r : PtclRegs) (_ : PtclCell) =>
        { r with exptheta := r.exptheta * ((r.cos : ℂ) - Complex.I * r.sin) }) ++ rest) r s =
      runBody rest { r with exptheta := r.exptheta * ((r.cos : ℂ) - Complex.I * r.sin) ^ m } s := by
    intro m
    induction m with
    | zero => intro r; simp
    | succ m ih =>
      intro r
      rw [List.replicate_succ, List.cons_append, runBody_assign, ih]
      simp only [pow_succ']
      rw [mul_assoc]
  unfold expthetaLoop
  rw [List.append_assoc, List.singleton_append, runBody_assign, key]
  simp

open Classical in
/-- The field of one mode, undefined values included. -/
def oneJ (A : GatherArgs) (m : ℕ) (F : GridVec) (s : PtclCell) (E : Vec3) : Vec3 :=
  if cylR s.p.x s.p.y < A.rmax then
    let v := cart s (inBounds A.oob (addGather A.shape A.g m F
      (((cylCos s.p.x s.p.y : ℂ) - Complex.I * cylSin s.p.x s.p.y) ^ m) (cylR s.p.x s.p.y) s.p.z (0, 0, 0)))
    ⟨E.x + v.x, E.y + v.y, E.z + v.z⟩
  else E

theorem runBody_addOneMode (A : GatherArgs) (m : ℕ) (Em Bm : GridVec) (r : PtclRegs) (s : PtclCell)
    (h1 : r.r = cylR s.p.x s.p.y) (h2 : r.cos = cylCos s.p.x s.p.y) (h3 : r.sin = cylSin s.p.x s.p.y)
    (h4 : r.exptheta = ((cylCos s.p.x s.p.y : ℂ) - Complex.I * cylSin s.p.x s.p.y) ^ m) :
    (runBody (addOneMode A m Em Bm) r s).2 = { s with E := oneJ A m Em s s.E, B := oneJ A m Bm s s.B } := by
  simp only [addOneMode, eraseF, addMode, List.cons_append, List.nil_append,
    runBody_assign, runBody_store, runBody_nil]
  by_cases h : cylR s.p.x s.p.y < A.rmax
  · simp only [h1, h2, h3, h4, h, if_true, oneJ, cart]
  · simp only [h1, h, if_false, oneJ]

theorem computes_oneModeGpu (A : GatherArgs) (m : ℕ) (Em Bm : GridVec) :
    Computes (cylindrical ++ expthetaLoop m ++ addOneMode A m Em Bm) fun s =>
      { s with E := oneJ A m Em s s.E, B := oneJ A m Bm s s.B } := by
  intro r s
  rw [List.append_assoc, runBody_append]
  simp only [cylindrical, runBody_assign, runBody_nil]
  rw [runBody_expthetaLoop, runBody_addOneMode] <;> rfl

theorem computes_oneModeCpu (A : GatherArgs) (m : ℕ) (Em Bm : GridVec) :
    Computes (cylindrical ++ expthetaPow m ++ addOneMode A m Em Bm) fun s =>
      { s with E := oneJ A m Em s s.E, B := oneJ A m Bm s s.B } := by
  intro r s
  rw [List.append_assoc, runBody_append]
  simp only [cylindrical, runBody_assign, runBody_nil, expthetaPow, List.singleton_append]
  rw [runBody_addOneMode] <;> rfl

theorem computes_eraseEB : Computes eraseEBCode fun s => { s with E := ⟨0, 0, 0⟩, B := ⟨0, 0, 0⟩ } :=
  fun _ _ => rfl

theorem except_ok_inBounds {oob : ℝ × ℝ × ℝ} {e : Except PyErr (ℝ × ℝ × ℝ)} {v : ℝ × ℝ × ℝ}
    (h : e = .ok v) : inBounds oob e = v := by subst h; rfl

theorem twoJ_ok (A : GatherArgs) (F0 F1 : GridVec) (s : PtclCell) (v : Vec3)
    (h : gatherTwoModes A.shape A.g A.rmax F0 F1 s.p.x s.p.y s.p.z = .ok (v.x, v.y, v.z)) :
    twoJ A F0 F1 s = v := by
  unfold gatherTwoModes at h
  unfold twoJ
  by_cases hr : cylR s.p.x s.p.y < A.rmax
  · simp only [hr, if_true] at h ⊢
    cases e0 : addGather A.shape A.g 0 F0 1 (cylR s.p.x s.p.y) s.p.z (0, 0, 0) with
    | error e => rw [e0] at h; cases h
    | ok acc =>
      rw [e0] at h
      cases e1 : addGather A.shape A.g 1 F1 ((cylCos s.p.x s.p.y : ℂ) - Complex.I * cylSin s.p.x s.p.y)
          (cylR s.p.x s.p.y) s.p.z acc with
      | error e =>
        simp only [bind, Except.bind] at h
        rw [e1] at h; cases h
      | ok w =>
        simp only [bind, Except.bind] at h
        rw [e1] at h
        simp only [pure, Except.pure, Except.ok.injEq, Prod.mk.injEq] at h
        simp only [inBounds, e1]
        ext
        · exact h.1
        · exact h.2.1
        · exact h.2.2
  · simp only [hr, if_false] at h ⊢
    simp only [pure, Except.pure, bind, Except.bind, Except.ok.injEq, Prod.mk.injEq] at h
    ext
    · exact h.1
    · exact h.2.1
    · exact h.2.2

theorem oneJ_ok (A : GatherArgs) (m : ℕ) (F : GridVec) (s : PtclCell) (E : Vec3) (v : ℝ × ℝ × ℝ)
    (h : gatherOneMode A.shape A.g A.rmax m F s.p.x s.p.y s.p.z (E.x, E.y, E.z) = .ok v) :
    oneJ A m F s E = ⟨v.1, v.2.1, v.2.2⟩ := by
  unfold gatherOneMode at h
  unfold oneJ
  by_cases hr : cylR s.p.x s.p.y < A.rmax
  · simp only [hr, if_true] at h ⊢
    cases e1 : addGather A.shape A.g m F
        (((cylCos s.p.x s.p.y : ℂ) - Complex.I * cylSin s.p.x s.p.y) ^ m)
        (cylR s.p.x s.p.y) s.p.z (0, 0, 0) with
    | error e =>
      simp only [bind, Except.bind] at h
      rw [e1] at h; cases h
    | ok w =>
      simp only [bind, Except.bind] at h
      rw [e1] at h
      simp only [pure, Except.pure, Except.ok.injEq] at h
      subst h
      rfl
  · simp only [hr, if_false] at h ⊢
    simp only [pure, Except.pure, Except.ok.injEq] at h
    subst h
    rfl

/-- The fields of all modes one after the other. -/
def modesJ (A : GatherArgs) (Fs : List (GridVec × ℕ)) (s : PtclCell) (E : Vec3) : Vec3 :=
  Fs.foldl (fun E Fm => oneJ A Fm.2 Fm.1 s E) E

theorem oneJ_congr (A : GatherArgs) (m : ℕ) (F : GridVec) (s s' : PtclCell) (h : s.p = s'.p) (E : Vec3) :
    oneJ A m F s E = oneJ A m F s' E := by
  unfold oneJ cart
  rw [h]

theorem modesJ_ok (A : GatherArgs) (Fs : List (GridVec × ℕ)) (s : PtclCell) (E v : Vec3)
    (h : Fs.foldlM (fun (E : ℝ × ℝ × ℝ) (Fm : GridVec × ℕ) =>
      gatherOneMode A.shape A.g A.rmax Fm.2 Fm.1 s.p.x s.p.y s.p.z E) (E.x, E.y, E.z) = .ok (v.x, v.y, v.z)) :
    modesJ A Fs s E = v := by
  induction Fs generalizing E with
  | nil =>
    simp only [List.foldlM_nil, pure, Except.pure, Except.ok.injEq, Prod.mk.injEq] at h
    ext
    · exact h.1
    · exact h.2.1
    · exact h.2.2
  | cons Fm Fs ih =>
    rw [List.foldlM_cons] at h
    cases e : gatherOneMode A.shape A.g A.rmax Fm.2 Fm.1 s.p.x s.p.y s.p.z (E.x, E.y, E.z) with
    | error _ => rw [e] at h; cases h
    | ok w =>
      rw [e] at h
      have := oneJ_ok A Fm.2 Fm.1 s E w e
      simp only [modesJ, List.foldl_cons, this]
      exact ih ⟨w.1, w.2.1, w.2.2⟩ h

theorem results_congr {τ ι ρ σ : Type} [DecidableEq τ] [DecidableEq ι] {Ls : List (Launch τ ι ρ σ)}
    {f g : (ι → σ) → (ι → σ)} (h : Results Ls f) (e : ∀ m, f m = g m) : Results Ls g := by
  intro m m'; rw [← e m]; exact h m m'

/-- The loop over the modes, for any way of launching. -/
theorem results_modes {τ : Type} [DecidableEq τ] (A : GatherArgs) (N : ℕ)
    (launch : (GridVec × GridVec) × ℕ → Launch τ ℕ PtclRegs PtclCell)
    (h : ∀ Fm, Result (launch Fm) (onPtcls N fun _ s =>
      { s with E := oneJ A Fm.2 Fm.1.1 s s.E, B := oneJ A Fm.2 Fm.1.2 s s.B }))
    (Fs : List ((GridVec × GridVec) × ℕ)) :
    Results (Fs.map launch) (onPtcls N fun _ s =>
      { s with E := modesJ A (Fs.map fun Fm => (Fm.1.1, Fm.2)) s s.E
               B := modesJ A (Fs.map fun Fm => (Fm.1.2, Fm.2)) s s.B }) := by
  induction Fs with
  | nil =>
    refine results_congr results_nil fun m => ?_
    funext i
    simp only [onPtcls, modesJ, List.map_nil, List.foldl_nil]
    split <;> rfl
  | cons Fm Fs ih =>
    refine results_congr (results_cons _ _ _ _ (h Fm) ih) fun m => ?_
    funext i
    simp only [onPtcls]
    split
    · simp only [modesJ, List.map_cons, List.foldl_cons]
      rfl
    · rfl


end

/-! ### Guard cells -/

theorem runBody_updates {ρ : Type} {nf : ℕ} (h : Fin nf → ℂ → ℂ) (l : List (Fin nf)) (hl : l.Nodup)
    (r : ρ) (s : XCell nf) :
    (runBody (l.map fun k => store fun (_ : ρ) (s : XCell nf) => Function.update s k (h k (s k))) r s).2 =
      fun k => if k ∈ l then h k (s k) else s k := by
  induction l generalizing s with
  | nil => funext k; simp [runBody_nil]
  | cons j l ih =>
    rw [List.nodup_cons] at hl
    rw [List.map_cons, runBody_store, ih hl.2]
    funext k
    by_cases hk : k = j
    · subst hk; simp [hl.1]
    · simp [hk]

theorem computes_updates {nf : ℕ} (h : Fin nf → ℂ → ℂ) :
    Computes ((List.finRange nf).map fun k => store fun (_ : ℂ) (s : XCell nf) =>
      Function.update s k (h k (s k))) fun s k => h k (s k) := by
  intro r s
  rw [runBody_updates h _ (List.nodup_finRange nf)]
  simp

theorem computes_addRow (nf : ℕ) (b : Fin nf → ℂ) : Computes (addRow nf b) fun s k => s k + b k := by
  have key : ∀ (l : List (Fin nf)) (hl : l.Nodup) (r : ℂ) (s : XCell nf),
      (runBody (l.flatMap fun k => [ assign fun (_ : ℂ) (s : XCell nf) => s k + b k,
        store fun r s => Function.update s k r ]) r s).2 = fun k => if k ∈ l then s k + b k else s k := by
    intro l
    induction l with
    | nil => intro _ r s; funext k; simp [runBody_nil]
    | cons j l ih =>
      intro hl r s
      rw [List.nodup_cons] at hl
      rw [List.flatMap_cons, List.cons_append, List.cons_append, List.nil_append, runBody_assign,
        runBody_store, ih hl.2]
      funext k
      by_cases hk : k = j
      · subst hk; simp [hl.1]
      · simp [hk]
  intro r s
  unfold addRow
  rw [key _ (List.nodup_finRange nf)]
  simp

/-- The effect of one received row on one cell. -/
def combine (meth : XMethod) {nf : ℕ} (b : Fin nf → ℂ) (s : XCell nf) : XCell nf :=
  match meth with
  | .replace => b
  | .add => fun k => s k + b k

/-- The statements for one received row. -/
noncomputable def rowCode (meth : XMethod) (nf : ℕ) : (Fin nf → ℂ) → List (ℂ → XCell nf → ℂ × XCell nf) :=
  match meth with
  | .replace => replaceRow nf
  | .add => addRow nf

theorem computes_rowCode (meth : XMethod) (nf : ℕ) (b : Fin nf → ℂ) :
    Computes (rowCode meth nf b) (combine meth b) := by
  cases meth
  · exact computes_updates fun k _ => b k
  · exact computes_addRow nf b

theorem result_recvGpu (meth : XMethod) (nf m Nz Nr w : ℕ) (hw : 2 * w ≤ Nz)
    (bl br : Option (ℕ → ℕ → ℕ → ℂ)) :
    Result (recvGpu meth nf m Nz Nr w bl br) fun mem i =>
      if i.2 < Nr then
        (match bl with
          | some b => if i.1 < w then combine meth (fun k => b (nf * m + k) i.1 i.2) (mem i) else
            (match br with
              | some b => if Nz - w ≤ i.1 ∧ i.1 < Nz then
                  combine meth (fun k => b (nf * m + k) (i.1 - (Nz - w)) i.2) (mem i) else mem i
              | none => mem i)
          | none =>
            (match br with
              | some b => if Nz - w ≤ i.1 ∧ i.1 < Nz then
                  combine meth (fun k => b (nf * m + k) (i.1 - (Nz - w)) i.2) (mem i) else mem i
              | none => mem i))
      else mem i := by
  let own : ℕ → ℕ → List (ℕ × ℕ) := fun iz ir =>
    if ir < Nr ∧ iz < w then
      (if bl.isSome then [(iz, ir)] else []) ++ (if br.isSome then [(Nz - w + iz, ir)] else [])
    else []
  have hown : ∀ a b i, i ∈ own a b ↔ (b < Nr ∧ a < w) ∧
      ((bl.isSome ∧ i = (a, b)) ∨ (br.isSome ∧ i = (Nz - w + a, b))) := by
    intro a b i
    simp only [own]
    by_cases h : b < Nr ∧ a < w
    · rw [if_pos h]
      cases bl <;> cases br <;> simp [h]
    · rw [if_neg h]; simp [h]
  let zero : ℕ → ℕ → ℕ → ℂ := fun _ _ _ => 0
  let body : ℕ → ℕ → ℕ × ℕ → List (ℂ → XCell nf → ℂ × XCell nf) := fun a b i =>
    rowCode meth nf fun k => if i.1 < w then (bl.getD zero) (nf * m + k) a b
      else (br.getD zero) (nf * m + k) a b
  refine result_launch2d w Nr 1 128 (by norm_num) (by norm_num) _ own ?_ ?_ ?_ body
    (fun a b i s => combine meth (fun k => if i.1 < w then (bl.getD zero) (nf * m + k) a b
      else (br.getD zero) (nf * m + k) a b) s) ?_ ?_ _ ?_ ?_
  · intro a b
    simp only [own]
    by_cases h : b < Nr ∧ a < w
    · rw [if_pos h]
      cases bl <;> cases br <;> simp
      omega
    · rw [if_neg h]; simp
  · intro a b i hi
    rw [hown] at hi
    exact ⟨hi.1.2, hi.1.1⟩
  · intro a b a' b' i hi hi'
    rw [hown] at hi hi'
    obtain ⟨⟨h1, h2⟩, h3⟩ := hi
    obtain ⟨⟨h1', h2'⟩, h3'⟩ := hi'
    rcases h3 with ⟨_, rfl⟩ | ⟨_, rfl⟩ <;> rcases h3' with ⟨_, e⟩ | ⟨_, e⟩ <;>
      simp only [Prod.mk.injEq] at e <;> constructor <;> omega
  · intro a b i hi
    exact computes_rowCode meth nf _
  · intro a b
    have hrow : (match meth with
      | .replace => replaceRow nf
      | .add => addRow nf) = rowCode meth nf := by cases meth <;> rfl
    simp only [fromBuffer, own]
    by_cases h1 : b < Nr
    · by_cases h2 : a < w
      · have h3 : ¬ Nz - w + a < w := by omega
        rw [if_pos h1, if_pos h2, if_pos ⟨h1, h2⟩]
        cases bl <;> cases br <;> cases meth <;>
          simp [body, rowCode, h2, h3]
      · rw [if_pos h1, if_neg h2, if_neg (fun h => h2 h.2)]; rfl
    · rw [if_neg h1, if_neg (fun h => h1 h.1)]; rfl
  · intro mem a b i hi
    rw [hown] at hi
    obtain ⟨⟨h1, h2⟩, h3⟩ := hi
    rcases h3 with ⟨hs, rfl⟩ | ⟨hs, rfl⟩
    · obtain ⟨b', rfl⟩ := Option.isSome_iff_exists.1 hs
      simp [h1, h2]
    · obtain ⟨b', rfl⟩ := Option.isSome_iff_exists.1 hs
      have h3 : ¬ Nz - w + a < w := by omega
      have h4 : Nz - w + a < Nz := by omega
      cases bl <;> simp [h1, h3, h4]
  · intro mem i hi
    simp only [hown] at hi
    by_cases h1 : i.2 < Nr
    · rw [if_pos h1]
      have hr : ∀ b', br = some b' → ¬ (Nz - w ≤ i.1 ∧ i.1 < Nz) := by
        rintro b' rfl ⟨h3, h4⟩
        refine hi (i.1 - (Nz - w)) i.2 ⟨⟨h1, by omega⟩, Or.inr ⟨rfl, ?_⟩⟩
        ext
        · simp only; omega
        · rfl
      have hl : ∀ b', bl = some b' → ¬ i.1 < w := by
        rintro b' rfl h3
        exact hi i.1 i.2 ⟨⟨h1, h3⟩, Or.inl ⟨rfl, rfl⟩⟩
      cases bl with
      | none =>
        cases br with
        | none => rfl
        | some b => simp only; rw [if_neg (hr b rfl)]
      | some b' =>
        simp only
        rw [if_neg (hl b' rfl)]
        cases br with
        | none => rfl
        | some b => simp only; rw [if_neg (hr b rfl)]
    · rw [if_neg h1]

/-! ### Send buffers -/

theorem runBody_sendL (nf m : ℕ) (v : ℕ → ℂ) (l : List ℕ) (s : SendCell) :
    runBody (l.map fun k => store fun (_ : Unit) (s : SendCell) =>
      { s with l := Function.update s.l (nf * m + k) (v k) }) () s =
      ((), { s with l := l.foldl (fun buf k => Function.update buf (nf * m + k) (v k)) s.l }) := by
  induction l generalizing s with
  | nil => rfl
  | cons j l ih => rw [List.map_cons, runBody_store, ih]; rfl

theorem runBody_sendR (nf m : ℕ) (v : ℕ → ℂ) (l : List ℕ) (s : SendCell) :
    runBody (l.map fun k => store fun (_ : Unit) (s : SendCell) =>
      { s with r := Function.update s.r (nf * m + k) (v k) }) () s =
      ((), { s with r := l.foldl (fun buf k => Function.update buf (nf * m + k) (v k)) s.r }) := by
  induction l generalizing s with
  | nil => rfl
  | cons j l ih => rw [List.map_cons, runBody_store, ih]; rfl

/-- What one launch writes to a cell of the buffers. -/
def sendMode (nf m : ℕ) (vl vr : ℕ → ℂ) (copyLeft copyRight : Bool) (s : SendCell) : SendCell :=
  let put (v : ℕ → ℂ) (b : ℕ → ℂ) : ℕ → ℂ :=
    (List.range nf).foldl (fun buf k => Function.update buf (nf * m + k) (v k)) b
  ⟨if copyLeft then put vl s.l else s.l, if copyRight then put vr s.r else s.r⟩

theorem result_toBuffer (nf m Nz Nr nzStart nzEnd : ℕ) (cl cr : Bool) (F : ℕ → ℕ → ℕ → ℕ → ℂ) :
    Result (launch2d (nzEnd - nzStart) Nr 1 128 (toBuffer nf m Nz Nr nzStart nzEnd cl cr F))
      (onGrid (nzEnd - nzStart) Nr fun iz ir => sendMode nf m (fun k => F m k (nzStart + iz) ir)
        (fun k => F m k (Nz - nzEnd + iz) ir) cl cr) := by
  have e : toBuffer nf m Nz Nr nzStart nzEnd cl cr F = cellKernel (nzEnd - nzStart) Nr fun iz ir =>
        ((if cl then (List.range nf).map fun k => store fun _ s =>
            { s with l := Function.update s.l (nf * m + k) (F m k (nzStart + iz) ir) } else []) ++
        (if cr then (List.range nf).map fun k => store fun _ s =>
            { s with r := Function.update s.r (nf * m + k) (F m k (Nz - nzEnd + iz) ir) } else [])) := by
    funext iz ir
    simp only [toBuffer, cellKernel]
    by_cases h1 : ir < Nr <;> by_cases h2 : iz < nzEnd - nzStart <;> simp [h1, h2]
  rw [e]
  refine result_cellKernel _ _ 1 128 (by norm_num) (by norm_num) _ _ fun iz ir _ _ => ?_
  intro r s
  rw [runBody_append]
  have h1 := runBody_sendL nf m (fun k => F m k (nzStart + iz) ir) (List.range nf)
  have h2 := runBody_sendR nf m (fun k => F m k (Nz - nzEnd + iz) ir) (List.range nf)
  cases cl <;> cases cr <;> simp [h1, h2, runBody_nil, sendMode]

theorem results_sendGpu (meth : XMethod) (ng nf Nm Nz Nr : ℕ) (cl cr : Bool) (F : ℕ → ℕ → ℕ → ℕ → ℂ) :
    Results (sendGpu meth ng nf Nm Nz Nr cl cr F)
      (onGrid ((meth.zone ng).2 - (meth.zone ng).1) Nr fun iz ir s =>
        ⟨if cl then packBuf nf Nm (fun m k => F m k ((meth.zone ng).1 + iz) ir) s.l else s.l,
         if cr then packBuf nf Nm (fun m k => F m k (Nz - (meth.zone ng).2 + iz) ir) s.r else s.r⟩) := by
  induction Nm with
  | zero =>
    refine results_congr results_nil fun mem => ?_
    funext i
    simp only [onGrid, packBuf, List.range_zero, List.foldl_nil, ite_self]
  | succ n ih =>
    have e : sendGpu meth ng nf (n + 1) Nz Nr cl cr F = sendGpu meth ng nf n Nz Nr cl cr F ++
        [launch2d ((meth.zone ng).2 - (meth.zone ng).1) Nr 1 128
          (toBuffer nf n Nz Nr (meth.zone ng).1 (meth.zone ng).2 cl cr F)] := by
      simp [sendGpu, List.range_succ]
    rw [e]
    refine results_congr (results_append _ _ _ _ ih (results_one _ _ (result_toBuffer _ _ _ _ _ _ _ _ _)))
      fun mem => ?_
    funext i
    simp only [onGrid]
    split
    · simp only [sendMode, packBuf, List.range_succ, List.foldl_append, List.foldl_cons, List.foldl_nil]
      cases cl <;> cases cr <;> simp
    · rfl

/-! ### Damping -/

theorem result_dampLeft (Nr nd : ℕ) (code : ℕ → DampCode) (f : ℕ → EBCell → EBCell)
    (hf : ∀ iz, Computes (code iz) (f iz)) :
    Result (launch2d nd Nr 1 128 (dampLeftKernel Nr nd code)) (onGrid nd Nr fun iz _ => f iz) := by
  have e : dampLeftKernel Nr nd code = cellKernel nd Nr fun iz _ => code iz := by
    funext iz ir
    simp only [dampLeftKernel, cellKernel]
    by_cases h1 : ir < Nr <;> by_cases h2 : iz < nd <;> simp [h1, h2]
  rw [e]
  exact result_cellKernel _ _ 1 128 (by norm_num) (by norm_num) _ _ fun iz _ _ _ => hf iz

theorem result_dampRight (Nz Nr nd : ℕ) (h : nd ≤ Nz) (code : ℕ → DampCode) (f : ℕ → EBCell → EBCell)
    (hf : ∀ iz, Computes (code iz) (f iz)) :
    Result (launch2d nd Nr 1 128 (dampRightKernel Nz Nr nd code)) fun mem i =>
      if (Nz - nd ≤ i.1 ∧ i.1 < Nz) ∧ i.2 < Nr then f (Nz - 1 - i.1) (mem i) else mem i := by
  let own : ℕ → ℕ → List (ℕ × ℕ) := fun iz ir => if ir < Nr ∧ iz < nd then [(Nz - iz - 1, ir)] else []
  have hown : ∀ a b i, i ∈ own a b ↔ (b < Nr ∧ a < nd) ∧ i = (Nz - a - 1, b) := by
    intro a b i
    simp only [own]
    by_cases h : b < Nr ∧ a < nd
    · rw [if_pos h]; simp [h]
    · rw [if_neg h]; simp [h]
  refine result_launch2d nd Nr 1 128 (by norm_num) (by norm_num) _ own ?_ ?_ ?_ (fun a _ _ => code a)
    (fun a _ _ s => f a s) ?_ ?_ _ ?_ ?_
  · intro a b; simp only [own]; split <;> simp
  · intro a b i hi; rw [hown] at hi; exact ⟨hi.1.2, hi.1.1⟩
  · intro a b a' b' i hi hi'
    rw [hown] at hi hi'
    obtain ⟨⟨h1, h2⟩, rfl⟩ := hi
    obtain ⟨⟨h1', h2'⟩, e⟩ := hi'
    simp only [Prod.mk.injEq] at e
    constructor <;> omega
  · intro a b i _; exact hf a
  · intro a b
    simp only [dampRightKernel, own]
    by_cases h1 : b < Nr <;> by_cases h2 : a < nd <;> simp [h1, h2]
  · intro mem a b i hi
    rw [hown] at hi
    obtain ⟨⟨h1, h2⟩, rfl⟩ := hi
    rw [if_pos ⟨⟨by simp only; omega, by simp only; omega⟩, h1⟩]
    have : Nz - 1 - (Nz - a - 1) = a := by omega
    simp only [this]
  · intro mem i hi
    simp only [hown] at hi
    rw [if_neg]
    rintro ⟨⟨h1, h2⟩, h3⟩
    refine hi (Nz - 1 - i.1) i.2 ⟨⟨h3, by omega⟩, ?_⟩
    ext
    · simp only; omega
    · rfl

/-- The damped cell (regular components). -/
noncomputable def dampCell (d : ℝ) (s : EBCell) : EBCell :=
  { s with Er := s.Er * d, Et := s.Et * d, Ez := s.Ez * d, Br := s.Br * d, Bt := s.Bt * d, Bz := s.Bz * d }

/-- The damped cell (PML components). -/
noncomputable def dampPmlCell (d : ℝ) (s : EBCell) : EBCell :=
  { s with ErPml := s.ErPml * d, EtPml := s.EtPml * d, BrPml := s.BrPml * d, BtPml := s.BtPml * d }

theorem computes_damp (d : ℝ) : Computes (dampCode d) (dampCell d) := fun _ _ => rfl

theorem computes_dampPml (d : ℝ) : Computes (dampPmlCompCode d) (dampPmlCell d) := fun _ _ => rfl

theorem result_pmlGpu (Nz Nr nPml : ℕ) (h : nPml ≤ Nr) (cdtOverDr : ℝ) :
    Result (pmlGpu Nz Nr nPml cdtOverDr) fun mem i =>
      if i.1 < Nz ∧ Nr - nPml ≤ i.2 ∧ i.2 < Nr then
        let s := mem i
        let d := pmlDampArray nPml cdtOverDr (i.2 - (Nr - nPml))
        { s with Et := s.Et - s.EtPml + s.EtPml * d, Bt := s.Bt - s.BtPml + s.BtPml * d,
                 EtPml := s.EtPml * d, BtPml := s.BtPml * d, Ez := s.Ez * d, Bz := s.Bz * d }
      else mem i := by
  let own : ℕ → ℕ → List (ℕ × ℕ) := fun iz ip => if ip < nPml ∧ iz < Nz then [(iz, Nr - nPml + ip)] else []
  have hown : ∀ a b i, i ∈ own a b ↔ (b < nPml ∧ a < Nz) ∧ i = (a, Nr - nPml + b) := by
    intro a b i
    simp only [own]
    by_cases h : b < nPml ∧ a < Nz
    · rw [if_pos h]; simp [h]
    · rw [if_neg h]; simp [h]
  refine result_launch2d Nz nPml 1 128 (by norm_num) (by norm_num) _ own ?_ ?_ ?_
    (fun _ b _ => pmlCode (pmlDampArray nPml cdtOverDr b))
    (fun _ b _ s =>
      let d := pmlDampArray nPml cdtOverDr b
      { s with Et := s.Et - s.EtPml + s.EtPml * d, Bt := s.Bt - s.BtPml + s.BtPml * d,
               EtPml := s.EtPml * d, BtPml := s.BtPml * d, Ez := s.Ez * d, Bz := s.Bz * d }) ?_ ?_ _ ?_ ?_
  · intro a b; simp only [own]; split <;> simp
  · intro a b i hi; rw [hown] at hi; exact ⟨hi.1.2, hi.1.1⟩
  · intro a b a' b' i hi hi'
    rw [hown] at hi hi'
    obtain ⟨_, rfl⟩ := hi
    obtain ⟨_, e⟩ := hi'
    simp only [Prod.mk.injEq] at e
    constructor <;> omega
  · intro a b i _; exact fun _ _ => rfl
  · intro a b
    simp only [own]
    by_cases h1 : b < nPml <;> by_cases h2 : a < Nz <;> simp [h1, h2]
  · intro mem a b i hi
    rw [hown] at hi
    obtain ⟨⟨h1, h2⟩, rfl⟩ := hi
    rw [if_pos ⟨h2, by simp only; omega, by simp only; omega⟩]
    have : Nr - nPml + b - (Nr - nPml) = b := by omega
    simp only [this]
  · intro mem i hi
    simp only [hown] at hi
    rw [if_neg]
    rintro ⟨h1, h2, h3⟩
    refine hi i.1 (i.2 - (Nr - nPml)) ⟨⟨by omega, h1⟩, ?_⟩
    ext
    · rfl
    · simp only; omega

end Fbpic.Parallel
