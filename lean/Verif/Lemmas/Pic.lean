import Verif.Model.Pic
import Verif.Lemmas.Deposit
import Verif.Lemmas.Transform
import Verif.Lemmas.Tactics

/-!
# Lemmas on the whole simulation: closed forms, and simulation relations between two runs
-/

namespace Fbpic.Pic

open Transform ExternalField Step

/-! ### Exceptions -/

theorem mapM_ok {α β ε : Type} (f : α → Except ε β) (l : List α) (r : List β) :
    l.mapM f = .ok r ↔ List.Forall₂ (fun a b => f a = .ok b) l r := by
  induction l generalizing r with
  | nil =>
    simp only [List.mapM_nil, pure, Except.pure, Except.ok.injEq, List.forall₂_nil_left_iff]
    exact eq_comm
  | cons a l ih =>
    simp only [List.mapM_cons, except_bind_ok, pure, Except.pure, Except.ok.injEq,
      List.forall₂_cons_left_iff]
    constructor
    · rintro ⟨b, hb, bs, hbs, rfl⟩
      exact ⟨b, bs, hb, (ih bs).1 hbs, rfl⟩
    · rintro ⟨b, bs, hb, hbs, rfl⟩
      exact ⟨b, hb, bs, (ih bs).2 hbs, rfl⟩

theorem forall₂_fun {α β : Type} (f : α → β) (l : List α) (r : List β) :
    List.Forall₂ (fun a b => b = f a) l r ↔ r = l.map f := by
  induction l generalizing r with
  | nil => simp
  | cons a l ih =>
    simp only [List.forall₂_cons_left_iff, List.map_cons]
    constructor
    · rintro ⟨b, bs, rfl, h, rfl⟩; rw [(ih bs).1 h]
    · rintro rfl; exact ⟨_, _, rfl, (ih _).2 rfl, rfl⟩

/-- Two species with the same attributes, whose particles correspond. -/
structure SpRel (P : Species → Ptcl → Ptcl → Prop) (a b : Species) : Prop where
  q : b.q = a.q
  m : b.m = a.m
  shape : b.shape = a.shape
  tracer : b.isTracer = a.isTracer
  ionizable : b.ionizable = a.ionizable
  plane : b.plane = a.plane
  ptcl : List.Forall₂ (P a) a.ptcl b.ptcl

theorem mapPtclM_ok (f : Species → Ptcl → Except PyErr Ptcl) (s t : Sim) :
    s.mapPtclM f = .ok t ↔
      ∃ sps, List.Forall₂ (SpRel fun sp p p' => f sp p = .ok p') s.species sps ∧
        t = { s with species := sps } := by
  unfold Sim.mapPtclM
  simp only [except_bind_ok, pure, Except.pure, Except.ok.injEq, mapM_ok]
  have h : ∀ a b : Species, (∃ l, List.Forall₂ (fun p p' => f a p = .ok p') a.ptcl l ∧
      { a with ptcl := l } = b) ↔ SpRel (fun sp p p' => f sp p = .ok p') a b := by
    intro a b
    constructor
    · rintro ⟨l, hl, rfl⟩
      exact ⟨rfl, rfl, rfl, rfl, rfl, rfl, hl⟩
    · rintro ⟨h1, h2, h3, h4, h5, h6, h7⟩
      refine ⟨b.ptcl, h7, ?_⟩
      cases a; cases b; simp_all
  simp only [h]
  constructor
  · rintro ⟨sps, hs, rfl⟩; exact ⟨sps, hs, rfl⟩
  · rintro ⟨sps, hs, rfl⟩; exact ⟨sps, hs, rfl⟩

/-! ### Deposition -/

variable (c : Cfg)

/-- All accesses of the deposition are in bounds. -/
def Cfg.depOk (f : DepField) (s : Sim) : Prop :=
  ∀ m < c.Nm, ∀ sp ∈ s.depositing, speciesOk f c.k.c (c.grid s.zmin) c.beta m sp

/-- The deposited array of mode `m`. -/
noncomputable def Cfg.depArr (f : DepField) (s : Sim) (m : ℕ) : Buf :=
  if m < c.Nm then CellVolume.divideByVolume (c.vol m) (reduceBuf c.Nz c.Nr
    ((s.depositing.map (speciesBuf f c.k.c (c.grid s.zmin) c.beta m)).sum)) else 0

theorem depositModes_ok (hn : 0 < c.nthreads) (f : DepField) (s : Sim) (A : ℕ → Buf) :
    c.depositModes f s = .ok A ↔ c.depOk f s ∧ A = c.depArr f s := by
  unfold Cfg.depositModes Cfg.depOk
  have key : ∀ (N : ℕ) (A : ℕ → Buf),
      (List.range N).foldlM (fun (A : ℕ → Buf) (m : ℕ) => do
        let a ← depositAll f c.k.c (c.grid s.zmin) c.beta m c.nthreads s.depositing
        (pure (Function.update A m (CellVolume.divideByVolume (c.vol m) a)) : Except PyErr _))
        (fun _ _ _ => 0) = .ok A ↔
      (∀ m < N, ∀ sp ∈ s.depositing, speciesOk f c.k.c (c.grid s.zmin) c.beta m sp) ∧
        A = fun m => if m < N then CellVolume.divideByVolume (c.vol m) (reduceBuf c.Nz c.Nr
          ((s.depositing.map (speciesBuf f c.k.c (c.grid s.zmin) c.beta m)).sum)) else 0 := by
    intro N
    induction N with
    | zero =>
      intro A
      simp only [List.range_zero, List.foldlM_nil, pure, Except.pure, Except.ok.injEq, Nat.not_lt_zero,
        if_false]
      constructor
      · rintro rfl; exact ⟨fun m h => absurd h id, rfl⟩
      · rintro ⟨-, rfl⟩; rfl
    | succ N ih =>
      intro A
      rw [List.range_succ, List.foldlM_append]
      simp only [except_bind_ok, List.foldlM_cons, List.foldlM_nil, pure, Except.pure, Except.ok.injEq,
        depositAll_ok _ _ _ _ _ _ hn]
      constructor
      · rintro ⟨B, hB, B', ⟨a, ⟨ha, rfl⟩, rfl⟩, rfl⟩
        obtain ⟨h1, rfl⟩ := (ih B).1 hB
        refine ⟨fun m hm => ?_, ?_⟩
        · rcases Nat.lt_succ_iff_lt_or_eq.1 hm with h | rfl
          · exact h1 m h
          · exact ha
        · funext m
          by_cases hm : m = N
          · subst hm
            rw [Function.update_self, if_pos (by omega)]
            rfl
          · rw [Function.update_of_ne hm]
            by_cases h : m < N
            · rw [if_pos h, if_pos (by omega)]
            · rw [if_neg h, if_neg (by omega)]
      · rintro ⟨h1, rfl⟩
        refine ⟨_, (ih _).2 ⟨fun m hm => h1 m (by omega), rfl⟩, _,
          ⟨_, ⟨h1 N (by omega), rfl⟩, rfl⟩, ?_⟩
        funext m
        by_cases hm : m = N
        · subst hm
          rw [Function.update_self, if_pos (by omega)]
          rfl
        · rw [Function.update_of_ne hm]
          by_cases h : m < N
          · rw [if_pos h, if_pos (by omega)]
          · rw [if_neg h, if_neg (by omega)]
  exact key c.Nm A

/-- The state after the deposition of the charge density. -/
noncomputable def Cfg.withRho [NeZero c.Nz] (n : RhoName) (s : Sim) : Sim :=
  let interp := onModes c.Nm (fun m i => { i with rho := c.depArr .rho s m }) s.interp
  { s.record with
    interp := interp
    spect := onModes c.Nm (fun m g => c.filterSpect n.filterField m (c.spectRho n m (interp m) g)) s.spect }

theorem depositRho_ok [NeZero c.Nz] (hn : 0 < c.nthreads) (n : RhoName) (s t : Sim) :
    c.depositRho n s = .ok t ↔ c.depOk .rho s ∧ t = c.withRho n s := by
  unfold Cfg.depositRho
  simp only [except_bind_ok, depositModes_ok c hn, pure, Except.pure, Except.ok.injEq]
  constructor
  · rintro ⟨A, ⟨h, rfl⟩, rfl⟩; exact ⟨h, rfl⟩
  · rintro ⟨h, rfl⟩; exact ⟨_, ⟨h, rfl⟩, rfl⟩

/-- The state after the deposition of the current. -/
noncomputable def Cfg.withJ [NeZero c.Nz] (s : Sim) : Sim :=
  let interp := onModes c.Nm
    (fun m i => { i with J := ⟨c.depArr .Jr s m, c.depArr .Jt s m, c.depArr .Jz s m⟩ }) s.interp
  { s.record with
    interp := interp
    spect := onModes c.Nm (fun m g => c.filterSpect .J m (c.spectJ m (interp m) g)) s.spect }

theorem depositJ_ok [NeZero c.Nz] (hn : 0 < c.nthreads) (s t : Sim) :
    c.depositJ s = .ok t ↔ (c.depOk .Jr s ∧ c.depOk .Jt s ∧ c.depOk .Jz s) ∧ t = c.withJ s := by
  unfold Cfg.depositJ
  simp only [except_bind_ok, depositModes_ok c hn, pure, Except.pure, Except.ok.injEq]
  constructor
  · rintro ⟨A, ⟨h, rfl⟩, B, ⟨h', rfl⟩, C, ⟨h'', rfl⟩, rfl⟩; exact ⟨⟨h, h', h''⟩, rfl⟩
  · rintro ⟨⟨h, h', h''⟩, rfl⟩; exact ⟨_, ⟨h, rfl⟩, _, ⟨h', rfl⟩, _, ⟨h'', rfl⟩, rfl⟩

/-! ### Transforms -/

theorem covers_loop2d (Nz Nr : ℕ) : Spec.Covers Nz Nr (loop2d Nz Nr) :=
  ⟨List.Nodup.product List.nodup_range List.nodup_range, fun _ _ hi hj =>
    List.mem_product.mpr ⟨List.mem_range.mpr hi, List.mem_range.mpr hj⟩⟩

/-- The transform of a scalar array: Fourier along z, then matrix along r. -/
noncomputable def fwd (Nz Nr : ℕ) [NeZero Nz] (M : ℕ → ℕ → ℝ) (a out : Buf) : Buf := fun iz ir =>
  if iz < Nz ∧ ir < Nr then Spec.hankel Nr M (fftAxis0 Nz false a) iz ir else out iz ir

/-- The inverse transform: matrix along r, then inverse Fourier along z. -/
noncomputable def bwd (Nz Nr : ℕ) [NeZero Nz] (M : ℕ → ℕ → ℝ) (a out : Buf) : Buf := fun iz ir =>
  if iz < Nz ∧ ir < Nr then fftAxis0 Nz true (Spec.hankel Nr M a) iz ir else out iz ir

section
variable [NeZero c.Nz]

theorem dht_full (m : ℕ) (mat : ℕ → ℕ → ℝ) (src dst : ℕ) (mem : Mem) (iz ir : ℕ) :
    (c.trans m).dht mat src dst mem dst iz ir
      = if iz < c.Nz ∧ ir < c.Nr then Spec.hankel c.Nr mat (mem src) iz ir else mem dst iz ir := by
  have hc := covers_loop2d c.Nz c.Nr
  by_cases h : iz < c.Nz ∧ ir < c.Nr
  · rw [if_pos h]
    exact (dht_apply c.Nz c.Nr ⟨false, loop2d c.Nz c.Nr, fun _ _ => 0, fun _ _ => 0⟩ hc mat src dst mem).1 _ _
      h.1 h.2
  · rw [if_neg h]
    unfold Trans.dht Transform.dht
    simp only [if_true]
    change rToC c.Nz c.Nr (loop2d c.Nz c.Nr) _ (mem dst) iz ir = mem dst iz ir
    rw [rToC_apply _ _ _ hc]
    exact if_neg h

theorem dht_other (m : ℕ) (mat : ℕ → ℕ → ℝ) (src dst : ℕ) (mem : Mem) (b : ℕ) (h : b ≠ dst) :
    (c.trans m).dht mat src dst mem b = mem b :=
  (dht_apply c.Nz c.Nr ⟨false, loop2d c.Nz c.Nr, fun _ _ => 0, fun _ _ => 0⟩ (covers_loop2d _ _) mat src dst
    mem).2 b h

theorem fft_full (m : ℕ) (inv : Bool) (src dst : ℕ) (mem : Mem) (iz ir : ℕ) :
    (c.trans m).fft inv src dst mem dst iz ir
      = if iz < c.Nz ∧ ir < c.Nr then fftAxis0 c.Nz inv (mem src) iz ir else mem dst iz ir := by
  have : (c.trans m).fft inv src dst mem = fun b => if b = dst then fun i j =>
      if i < c.Nz ∧ j < c.Nr then fftAxis0 c.Nz inv (mem src) i j else mem dst i j else mem b := rfl
  rw [this]
  simp only [if_true]

theorem fft_other (m : ℕ) (inv : Bool) (src dst : ℕ) (mem : Mem) (b : ℕ) (h : b ≠ dst) :
    (c.trans m).fft inv src dst mem b = mem b := by
  have : (c.trans m).fft inv src dst mem = fun b => if b = dst then fun i j =>
      if i < c.Nz ∧ j < c.Nr then fftAxis0 c.Nz inv (mem src) i j else mem dst i j else mem b := rfl
  rw [this]
  simp only [if_neg h]

theorem toSpectScal_eq (m : ℕ) (a out : Buf) :
    c.toSpectScal m a out = fwd c.Nz c.Nr (c.mats m).M0 a out := by
  funext iz ir
  unfold Cfg.toSpectScal Trans.interp2spectScal
  rw [dht_full]
  unfold fwd
  by_cases h : iz < c.Nz ∧ ir < c.Nr
  · rw [if_pos h, if_pos h]
    refine hankel_congr c.Nz c.Nr _ ?_ iz ir h.1 h.2
    intro i j hi hj
    rw [fft_full, if_pos ⟨hi, hj⟩]
    rfl
  · rw [if_neg h, if_neg h]
    rw [fft_other _ _ _ _ _ _ _ (by simp [Cfg.trans])]
    rfl

theorem toInterpScal_eq (m : ℕ) (a out : Buf) :
    c.toInterpScal m a out = bwd c.Nz c.Nr (c.mats m).invM0 a out := by
  funext iz ir
  unfold Cfg.toInterpScal Trans.spect2interpScal
  rw [fft_full]
  unfold bwd
  by_cases h : iz < c.Nz ∧ ir < c.Nr
  · rw [if_pos h, if_pos h]
    refine fftAxis0_congr c.Nz c.Nr _ ?_ iz ir h.1 h.2
    intro i j hi hj
    rw [dht_full, if_pos ⟨hi, hj⟩]
    rfl
  · rw [if_neg h, if_neg h]
    rw [dht_other _ _ _ _ _ _ _ (by simp [Cfg.trans])]
    rfl

/-- The transform of a vector array. -/
theorem toSpectVect_eq (m : ℕ) (r t outP outM : Buf) :
    c.toSpectVect m r t outP outM =
      (fwd c.Nz c.Nr (c.mats m).Mp (fun i j => 1 / 2 * (r i j - Complex.I * t i j)) outP,
       fwd c.Nz c.Nr (c.mats m).Mm (fun i j => 1 / 2 * (r i j + Complex.I * t i j)) outM) := by
  have hlin : ∀ (z : ℂ) (i j : ℕ), fftAxis0 c.Nz false (fun i j => 1 / 2 * (r i j + z * t i j)) i j
      = 1 / 2 * (fftAxis0 c.Nz false r i j + z * fftAxis0 c.Nz false t i j) := by
    intro z i j
    simp only [fftAxis0, Bool.false_eq_true, if_false, fftZ, Finset.mul_sum, ← Finset.sum_add_distrib]
    exact Finset.sum_congr rfl fun l _ => by ring
  have hlin' : ∀ (i j : ℕ), fftAxis0 c.Nz false (fun i j => 1 / 2 * (r i j - Complex.I * t i j)) i j
      = 1 / 2 * (fftAxis0 c.Nz false r i j - Complex.I * fftAxis0 c.Nz false t i j) := by
    intro i j
    have := hlin (-Complex.I) i j
    simp only [neg_mul, ← sub_eq_add_neg] at this
    exact this
  set mem0 := vectMem r t outP outM with hmem0
  set mem1 := (c.trans m).fft false 2 0 mem0 with hmem1
  set mem2 := (c.trans m).fft false 3 1 mem1 with hmem2
  set mem3 := rtToPm c.Nz c.Nr (loop2d c.Nz c.Nr) 0 1 0 1 mem2 with hmem3
  set mem4 := (c.trans m).dht (c.mats m).Mp 0 4 mem3 with hmem4
  have hc := covers_loop2d c.Nz c.Nr
  have e20 : ∀ i j, i < c.Nz → j < c.Nr → mem2 0 i j = fftAxis0 c.Nz false r i j := by
    intro i j hi hj
    rw [hmem2, fft_other _ _ _ _ _ _ _ (by norm_num), hmem1, fft_full, if_pos ⟨hi, hj⟩]; rfl
  have e21 : ∀ i j, i < c.Nz → j < c.Nr → mem2 1 i j = fftAxis0 c.Nz false t i j := by
    intro i j hi hj
    rw [hmem2, fft_full, if_pos ⟨hi, hj⟩, hmem1, fft_other _ _ _ _ _ _ _ (by norm_num)]; rfl
  have e2 : ∀ b, b ≠ 0 → b ≠ 1 → mem2 b = mem0 b := by
    intro b h0 h1
    rw [hmem2, fft_other _ _ _ _ _ _ _ h1, hmem1, fft_other _ _ _ _ _ _ _ h0]
  have e30 : ∀ i j, i < c.Nz → j < c.Nr → mem3 0 i j =
      fftAxis0 c.Nz false (fun i j => 1 / 2 * (r i j - Complex.I * t i j)) i j := by
    intro i j hi hj
    rw [hmem3, rtToPm_apply _ _ _ hc, if_pos ⟨hi, hj⟩, if_neg (by norm_num), if_pos rfl, e20 i j hi hj,
      e21 i j hi hj, hlin']
  have e31 : ∀ i j, i < c.Nz → j < c.Nr → mem3 1 i j =
      fftAxis0 c.Nz false (fun i j => 1 / 2 * (r i j + Complex.I * t i j)) i j := by
    intro i j hi hj
    rw [hmem3, rtToPm_apply _ _ _ hc, if_pos ⟨hi, hj⟩, if_pos rfl, e20 i j hi hj, e21 i j hi hj, hlin]
  have e3 : ∀ b, b ≠ 0 → b ≠ 1 → mem3 b = mem0 b := by
    intro b h0 h1
    funext i j
    rw [hmem3, rtToPm_apply _ _ _ hc, if_neg h1, if_neg h0, e2 b h0 h1]
    simp
  have hdef : c.toSpectVect m r t outP outM
      = ((c.trans m).dht (c.mats m).Mm 1 5 mem4 4, (c.trans m).dht (c.mats m).Mm 1 5 mem4 5) := rfl
  rw [hdef]
  refine Prod.ext ?_ ?_
  · funext iz ir
    change (c.trans m).dht (c.mats m).Mm 1 5 mem4 4 iz ir = fwd _ _ _ _ _ _ _
    rw [dht_other _ _ _ _ _ _ _ (by norm_num), hmem4, dht_full]
    unfold fwd
    by_cases h : iz < c.Nz ∧ ir < c.Nr
    · rw [if_pos h, if_pos h]
      exact hankel_congr c.Nz c.Nr _ (fun i j hi hj => e30 i j hi hj) iz ir h.1 h.2
    · rw [if_neg h, if_neg h, e3 4 (by norm_num) (by norm_num)]; rfl
  · funext iz ir
    change (c.trans m).dht (c.mats m).Mm 1 5 mem4 5 iz ir = fwd _ _ _ _ _ _ _
    rw [dht_full]
    unfold fwd
    by_cases h : iz < c.Nz ∧ ir < c.Nr
    · rw [if_pos h, if_pos h]
      refine hankel_congr c.Nz c.Nr _ (fun i j hi hj => ?_) iz ir h.1 h.2
      rw [hmem4, dht_other _ _ _ _ _ _ _ (by norm_num)]
      exact e31 i j hi hj
    · rw [if_neg h, if_neg h, hmem4, dht_other _ _ _ _ _ _ _ (by norm_num),
        e3 5 (by norm_num) (by norm_num)]; rfl

theorem toInterpVect_eq (m : ℕ) (p q outR outT : Buf) :
    c.toInterpVect m p q outR outT =
      ((fun iz ir => if iz < c.Nz ∧ ir < c.Nr then fftAxis0 c.Nz true (fun i j =>
          Spec.hankel c.Nr (c.mats m).invMp p i j + Spec.hankel c.Nr (c.mats m).invMm q i j) iz ir
        else outR iz ir),
       (fun iz ir => if iz < c.Nz ∧ ir < c.Nr then fftAxis0 c.Nz true (fun i j => Complex.I *
          (Spec.hankel c.Nr (c.mats m).invMp p i j - Spec.hankel c.Nr (c.mats m).invMm q i j)) iz ir
        else outT iz ir)) := by
  set mem0 := vectMem p q outR outT with hmem0
  set mem1 := (c.trans m).dht (c.mats m).invMp 2 0 mem0 with hmem1
  set mem2 := (c.trans m).dht (c.mats m).invMm 3 1 mem1 with hmem2
  set mem3 := pmToRt c.Nz c.Nr (loop2d c.Nz c.Nr) 0 1 0 1 mem2 with hmem3
  set mem4 := (c.trans m).fft true 0 4 mem3 with hmem4
  have hc := covers_loop2d c.Nz c.Nr
  have e20 : ∀ i j, i < c.Nz → j < c.Nr → mem2 0 i j = Spec.hankel c.Nr (c.mats m).invMp p i j := by
    intro i j hi hj
    rw [hmem2, dht_other _ _ _ _ _ _ _ (by norm_num), hmem1, dht_full, if_pos ⟨hi, hj⟩]; rfl
  have e21 : ∀ i j, i < c.Nz → j < c.Nr → mem2 1 i j = Spec.hankel c.Nr (c.mats m).invMm q i j := by
    intro i j hi hj
    rw [hmem2, dht_full, if_pos ⟨hi, hj⟩, hmem1, dht_other _ _ _ _ _ _ _ (by norm_num)]; rfl
  have e2 : ∀ b, b ≠ 0 → b ≠ 1 → mem2 b = mem0 b := by
    intro b h0 h1
    rw [hmem2, dht_other _ _ _ _ _ _ _ h1, hmem1, dht_other _ _ _ _ _ _ _ h0]
  have e30 : ∀ i j, i < c.Nz → j < c.Nr → mem3 0 i j =
      Spec.hankel c.Nr (c.mats m).invMp p i j + Spec.hankel c.Nr (c.mats m).invMm q i j := by
    intro i j hi hj
    rw [hmem3, pmToRt_apply _ _ _ hc, if_pos ⟨hi, hj⟩, if_neg (by norm_num), if_pos rfl, e20 i j hi hj,
      e21 i j hi hj]
  have e31 : ∀ i j, i < c.Nz → j < c.Nr → mem3 1 i j = Complex.I *
      (Spec.hankel c.Nr (c.mats m).invMp p i j - Spec.hankel c.Nr (c.mats m).invMm q i j) := by
    intro i j hi hj
    rw [hmem3, pmToRt_apply _ _ _ hc, if_pos ⟨hi, hj⟩, if_pos rfl, e20 i j hi hj, e21 i j hi hj]
  have e3 : ∀ b, b ≠ 0 → b ≠ 1 → mem3 b = mem0 b := by
    intro b h0 h1
    funext i j
    rw [hmem3, pmToRt_apply _ _ _ hc, if_neg h1, if_neg h0, e2 b h0 h1]
    simp
  have hdef : c.toInterpVect m p q outR outT
      = ((c.trans m).fft true 1 5 mem4 4, (c.trans m).fft true 1 5 mem4 5) := rfl
  rw [hdef]
  refine Prod.ext ?_ ?_
  · funext iz ir
    show (c.trans m).fft true 1 5 mem4 4 iz ir = _
    rw [fft_other _ _ _ _ _ _ _ (by norm_num), hmem4, fft_full]
    dsimp only
    by_cases h : iz < c.Nz ∧ ir < c.Nr
    · rw [if_pos h, if_pos h]
      exact fftAxis0_congr c.Nz c.Nr _ (fun i j hi hj => e30 i j hi hj) iz ir h.1 h.2
    · rw [if_neg h, if_neg h, e3 4 (by norm_num) (by norm_num)]; rfl
  · funext iz ir
    show (c.trans m).fft true 1 5 mem4 5 iz ir = _
    rw [fft_full]
    dsimp only
    by_cases h : iz < c.Nz ∧ ir < c.Nr
    · rw [if_pos h, if_pos h]
      refine fftAxis0_congr c.Nz c.Nr _ (fun i j hi hj => ?_) iz ir h.1 h.2
      rw [hmem4, fft_other _ _ _ _ _ _ _ (by norm_num)]
      exact e31 i j hi hj
    · rw [if_neg h, if_neg h, hmem4, fft_other _ _ _ _ _ _ _ (by norm_num),
        e3 5 (by norm_num) (by norm_num)]; rfl

end

/-! ### Relations between two runs -/

/-- Whenever the first run succeeds, and the particles were only seen at allowed positions, the second one
succeeds too and the results are related. -/
def Fwd (ok : Seen → Prop) (R : Sim → Sim → Prop) (x y : Except PyErr Sim) : Prop :=
  ∀ t, x = .ok t → (∀ p ∈ t.seen, ok p) → ∃ t', y = .ok t' ∧ R t t'

/-- The record only grows. -/
def Grows (f : Sim → Except PyErr Sim) : Prop := ∀ s t, f s = .ok t → s.seen ⊆ t.seen

theorem Fwd.bind {ok : Seen → Prop} {R R' : Sim → Sim → Prop} {x y : Except PyErr Sim}
    {f f' : Sim → Except PyErr Sim} (h : Fwd ok R x y) (hg : Grows f)
    (hf : ∀ s s', R s s' → Fwd ok R' (f s) (f' s')) : Fwd ok R' (x >>= f) (y >>= f') := by
  intro t ht hs
  obtain ⟨a, ha, hfa⟩ := (except_bind_ok _ _ _).1 ht
  obtain ⟨a', ha', hR⟩ := h a ha fun p hp => hs p (hg a t hfa hp)
  obtain ⟨t', ht', hR'⟩ := hf a a' hR t hfa hs
  exact ⟨t', (except_bind_ok _ _ _).2 ⟨a', ha', ht'⟩, hR'⟩

theorem Fwd.pure {ok : Seen → Prop} {R : Sim → Sim → Prop} {s s' : Sim} (h : R s s') :
    Fwd ok R (Pure.pure s) (Pure.pure s') := by
  intro t ht _
  rw [← Except.ok.inj ht]
  exact ⟨s', rfl, h⟩

theorem Grows.comp {f g : Sim → Except PyErr Sim} (hf : Grows f) (hg : Grows g) :
    Grows fun s => f s >>= g := by
  intro s t h
  obtain ⟨a, ha, hga⟩ := (except_bind_ok _ _ _).1 h
  exact fun p hp => hg a t hga (hf s a ha hp)

theorem Grows.pure (f : Sim → Sim) (hf : ∀ s, (f s).seen = s.seen) :
    Grows fun s => (Pure.pure (f s) : Except PyErr Sim) := by
  intro s t h
  rw [← Except.ok.inj h, hf]
  exact fun _ => id

theorem grows_mapPtclM (f : Sim → Species → Ptcl → Except PyErr Ptcl) : Grows fun s => s.mapPtclM (f s) := by
  intro s t h
  obtain ⟨sps, -, rfl⟩ := (mapPtclM_ok _ _ _).1 h
  exact fun _ => id

theorem subset_record (s : Sim) : s.seen ⊆ s.record.seen := by
  unfold Sim.record
  exact List.subset_append_left _ _

section
variable [NeZero c.Nz]

theorem grows_depositRho (n : RhoName) : Grows (c.depositRho n) := by
  intro s t h
  unfold Cfg.depositRho at h
  obtain ⟨A, -, h⟩ := (except_bind_ok _ _ _).1 h
  rw [← Except.ok.inj h]
  exact subset_record s

theorem grows_depositJ : Grows c.depositJ := by
  intro s t h
  unfold Cfg.depositJ at h
  obtain ⟨A, -, h⟩ := (except_bind_ok _ _ _).1 h
  obtain ⟨A, -, h⟩ := (except_bind_ok _ _ _).1 h
  obtain ⟨A, -, h⟩ := (except_bind_ok _ _ _).1 h
  rw [← Except.ok.inj h]
  exact subset_record s

/-- Wrapping of all the particles. -/
noncomputable def Cfg.wrapAll (s : Sim) : Except PyErr Sim := s.mapPtclM fun _ p => c.wrap s.zmin s.zmax p

/-- Gathering on all the particles. -/
noncomputable def Cfg.gatherAll (s : Sim) : Except PyErr Sim := s.record.mapPtclM (c.gatherPtcl s)

/-- Momentum push of all the particles. -/
noncomputable def Cfg.pushPAll (s : Sim) : Except PyErr Sim := s.mapPtclM (c.pushP (s.time + 0.5 * c.dt))

theorem grows_wrapAll : Grows c.wrapAll := grows_mapPtclM fun s _ p => c.wrap s.zmin s.zmax p

theorem grows_pushPAll : Grows c.pushPAll := grows_mapPtclM fun s => c.pushP (s.time + 0.5 * c.dt)

theorem grows_gatherAll : Grows c.gatherAll := by
  intro s t h
  obtain ⟨sps, -, rfl⟩ := (mapPtclM_ok _ _ _).1 h
  exact subset_record s

theorem seen_pushX (dt px py pz : ℝ) (s : Sim) : (c.pushX dt px py pz s).seen = s.seen := rfl

theorem seen_shift (dt : ℝ) (s : Sim) : (c.shiftGalilean dt s).seen = s.seen := by
  unfold Cfg.shiftGalilean; split_ifs <;> rfl

/-- One half of the cross-deposition or of the position push. -/
noncomputable def Cfg.movePush (move : Bool) (dt px py pz dtg : ℝ) (s : Sim) : Sim :=
  c.shiftGalilean dtg (if move then c.pushX dt px py pz s else s)

theorem seen_movePush (move : Bool) (dt px py pz dtg : ℝ) (s : Sim) :
    (c.movePush move dt px py pz dtg s).seen = s.seen := by
  unfold Cfg.movePush
  rw [seen_shift]; split_ifs <;> rfl

theorem crossDeposit_eq (move : Bool) (s : Sim) : c.crossDeposit move s =
    (c.depositRho .nextXY (c.movePush move (0.5 * c.dt) 1 1 (-1) (-0.5 * c.dt) s) >>= fun s =>
      c.depositRho .nextZ (c.movePush move c.dt (-1) (-1) 1 c.dt s) >>= fun s =>
      pure (c.movePush move (0.5 * c.dt) 1 1 (-1) (-0.5 * c.dt) s)) := rfl

theorem grows_crossDeposit (move : Bool) : Grows (c.crossDeposit move) := by
  intro s t h
  rw [crossDeposit_eq] at h
  obtain ⟨a, ha, h⟩ := (except_bind_ok _ _ _).1 h
  obtain ⟨b, hb, h⟩ := (except_bind_ok _ _ _).1 h
  rw [← Except.ok.inj h, seen_movePush]
  have h1 := grows_depositRho c _ _ _ ha
  have h2 := grows_depositRho c _ _ _ hb
  rw [seen_movePush] at h1 h2
  exact fun p hp => h2 (h1 hp)

theorem iterStart_eq (iStep : ℕ) (s : Sim) : c.iterStart iStep s =
    ((if s.iteration % c.exchangePeriod = 0 ∨ iStep = 0 then c.wrapAll s >>= c.depositRho .prev else pure s)
      >>= fun s => (if iStep = 0 then c.depositJ s else pure s) >>= fun s => c.gatherAll s >>= fun s =>
      pure (c.applyExts s)) := rfl

theorem iterHalf_eq (o : Opts) (s : Sim) : c.iterHalf o s =
    ((if o.moveMomenta then c.pushPAll s else pure s) >>= fun s =>
      pure (c.movePush o.movePositions (0.5 * c.dt) 1 1 1 (0.5 * c.dt) s)) := rfl

/-- The cross-deposition if it is needed. -/
noncomputable def Cfg.maybeCross (o : Opts) (s : Sim) : Except PyErr Sim :=
  match o.correctCurrents, c.correction with
  | true, .crossDeposition => c.crossDeposit o.movePositions s
  | _, _ => pure s

theorem iterDeposit_eq (o : Opts) (s : Sim) : c.iterDeposit o s =
    (c.depositJ s >>= fun s => c.maybeCross o s >>= fun s =>
      c.depositRho .next (c.movePush o.movePositions (0.5 * c.dt) 1 1 1 (0.5 * c.dt) s)) := rfl

theorem grows_maybeCross (o : Opts) : Grows (c.maybeCross o) := by
  intro s t h
  unfold Cfg.maybeCross at h
  split at h
  · exact grows_crossDeposit c _ s t h
  · rw [← Except.ok.inj h]; exact fun _ => id

theorem grows_iterEnd (o : Opts) : Grows (c.iterEnd o) := by
  intro s t h
  unfold Cfg.iterEnd at h
  obtain ⟨a, -, h⟩ := (except_bind_ok _ _ _).1 h
  rw [← Except.ok.inj h]
  exact fun _ => id

theorem grows_if {p : Prop} [Decidable p] {f g : Sim → Except PyErr Sim} (hf : Grows f) (hg : Grows g) :
    Grows fun s => if p then f s else g s := by
  intro s t h
  by_cases hp : p
  · simp only [if_pos hp] at h; exact hf s t h
  · simp only [if_neg hp] at h; exact hg s t h

theorem grows_pure : Grows (fun s => (pure s : Except PyErr Sim)) := Grows.pure id fun _ => rfl

theorem grows_iterHalf (o : Opts) : Grows (c.iterHalf o) := by
  have : c.iterHalf o = fun s => _ := funext (iterHalf_eq c o)
  rw [this]
  refine Grows.comp (f := fun s => if o.moveMomenta = true then c.pushPAll s else pure s) ?_ ?_
  · exact grows_if (grows_pushPAll c) grows_pure
  · exact Grows.pure _ fun s => seen_movePush c _ _ _ _ _ _ s

theorem grows_iterDeposit (o : Opts) : Grows (c.iterDeposit o) := by
  have : c.iterDeposit o = fun s => _ := funext (iterDeposit_eq c o)
  rw [this]
  refine Grows.comp (grows_depositJ c) (Grows.comp (grows_maybeCross c o) ?_)
  intro s t h
  have := grows_depositRho c _ _ _ h
  rwa [seen_movePush] at this

theorem grows_iterStart (iStep : ℕ) : Grows (c.iterStart iStep) := by
  have : c.iterStart iStep = fun s => _ := funext (iterStart_eq c iStep)
  rw [this]
  refine Grows.comp (f := fun s => if s.iteration % c.exchangePeriod = 0 ∨ iStep = 0 then
    c.wrapAll s >>= c.depositRho .prev else pure s) ?_ (Grows.comp ?_ (Grows.comp (grows_gatherAll c) ?_))
  · intro s t h
    by_cases hp : s.iteration % c.exchangePeriod = 0 ∨ iStep = 0
    · simp only [if_pos hp] at h
      exact Grows.comp (grows_wrapAll c) (grows_depositRho c .prev) s t h
    · simp only [if_neg hp] at h
      rw [← Except.ok.inj h]; exact fun _ => id
  · exact grows_if (grows_depositJ c) grows_pure
  · exact Grows.pure _ fun s => rfl

theorem iter_eq (o : Opts) (iStep : ℕ) (s : Sim) : c.iter o iStep s =
    if c.exchangePeriod = 0 then .error (.valueError "ZeroDivisionError")
    else (c.iterStart iStep s >>= fun s => c.iterHalf o s >>= fun s => c.iterDeposit o s >>= c.iterEnd o) := rfl

theorem grows_iter (o : Opts) (iStep : ℕ) : Grows (c.iter o iStep) := by
  intro s t h
  rw [iter_eq] at h
  by_cases hp : c.exchangePeriod = 0
  · rw [if_pos hp] at h; cases h
  · rw [if_neg hp] at h
    exact Grows.comp (grows_iterStart c iStep) (Grows.comp (grows_iterHalf c o)
      (Grows.comp (grows_iterDeposit c o) (grows_iterEnd c o))) s t h

theorem grows_loop (o : Opts) (n : ℕ) : ∀ i, Grows (c.loop o i n) := by
  induction n with
  | zero => intro i s t h; rw [← Except.ok.inj h]; exact fun _ => id
  | succ n ih =>
    intro i s t h
    exact Grows.comp (grows_iter c o i) (ih (i + 1)) s t h

theorem grows_step (N : ℕ) (o : Opts) : Grows (c.step N o) := by
  intro s t h
  unfold Cfg.step at h
  obtain ⟨a, ha, h⟩ := (except_bind_ok _ _ _).1 h
  rw [← Except.ok.inj h]
  exact grows_loop c o N 0 (c.startFields s) a ha

theorem grows_calls (L : List (ℕ × Opts)) : Grows (c.calls L) := by
  induction L with
  | nil => intro s t h; rw [← Except.ok.inj h]; exact fun _ => id
  | cons a L ih =>
    intro s t h
    exact Grows.comp (grows_step c a.1 a.2) ih s t h

end

/-- `R` is preserved by the pieces of the cycle. -/
structure Simulates (c c' : Cfg) [NeZero c.Nz] [NeZero c'.Nz] (ok : Seen → Prop)
    (R : Sim → Sim → Prop) : Prop where
  period : c'.exchangePeriod = c.exchangePeriod
  correction : c'.correction = c.correction
  dt : c'.dt = c.dt
  iteration : ∀ s s', R s s' → s'.iteration = s.iteration
  wrap : ∀ s s', R s s' → Fwd ok R (c.wrapAll s) (c'.wrapAll s')
  rho : ∀ n s s', R s s' → Fwd ok R (c.depositRho n s) (c'.depositRho n s')
  J : ∀ s s', R s s' → Fwd ok R (c.depositJ s) (c'.depositJ s')
  gather : ∀ s s', R s s' → Fwd ok R (c.gatherAll s) (c'.gatherAll s')
  exts : ∀ s s', R s s' → R (c.applyExts s) (c'.applyExts s')
  pushP : ∀ s s', R s s' → Fwd ok R (c.pushPAll s) (c'.pushPAll s')
  pushX : ∀ dt a b s s', R s s' → R (c.pushX dt a a b s) (c'.pushX dt a a b s')
  shift : ∀ dt s s', R s s' → R (c.shiftGalilean dt s) (c'.shiftGalilean dt s')
  iterEnd : ∀ o s s', R s s' → Fwd ok R (c.iterEnd o s) (c'.iterEnd o s')
  start : ∀ s s', R s s' → R (c.startFields s) (c'.startFields s')
  finish : ∀ s s', R s s' → R (c.endFields s) (c'.endFields s')

namespace Simulates

variable {c c' : Cfg} [NeZero c.Nz] [NeZero c'.Nz] {ok : Seen → Prop} {R : Sim → Sim → Prop}

theorem movePush (h : Simulates c c' ok R) (move : Bool) (dt a b dtg : ℝ) (s s' : Sim) (hR : R s s') :
    R (c.movePush move dt a a b dtg s) (c'.movePush move dt a a b dtg s') := by
  unfold Cfg.movePush
  apply h.shift
  cases move
  · exact hR
  · exact h.pushX _ _ _ _ _ hR

theorem cross (h : Simulates c c' ok R) (move : Bool) (s s' : Sim) (hR : R s s') :
    Fwd ok R (c.crossDeposit move s) (c'.crossDeposit move s') := by
  rw [crossDeposit_eq, crossDeposit_eq, h.dt]
  refine Fwd.bind (h.rho _ _ _ (h.movePush _ _ _ _ _ _ _ hR)) ?_ fun a a' hR => ?_
  · intro s t ht
    obtain ⟨b, hb, ht⟩ := (except_bind_ok _ _ _).1 ht
    have := grows_depositRho c _ _ _ hb
    rw [seen_movePush] at this
    rw [← Except.ok.inj ht, seen_movePush]
    exact this
  refine Fwd.bind (h.rho _ _ _ (h.movePush _ _ _ _ _ _ _ hR)) ?_ fun a a' hR => ?_
  · exact Grows.pure _ fun s => seen_movePush c _ _ _ _ _ _ s
  · exact Fwd.pure (h.movePush _ _ _ _ _ _ _ hR)

theorem iter (h : Simulates c c' ok R) (o : Opts) (i : ℕ) (s s' : Sim) (hR : R s s') :
    Fwd ok R (c.iter o i s) (c'.iter o i s') := by
  rw [iter_eq, iter_eq, h.period]
  by_cases hp : c.exchangePeriod = 0
  · rw [if_pos hp]
    intro t ht
    cases ht
  rw [if_neg hp, if_neg hp]
  refine Fwd.bind (R := R) ?_ (Grows.comp (grows_iterHalf c o)
      (Grows.comp (grows_iterDeposit c o) (grows_iterEnd c o))) fun s s' hR => ?_
  · rw [iterStart_eq, iterStart_eq, h.iteration s s' hR, h.period]
    refine Fwd.bind (R := R) ?_ ?_ fun s s' hR => ?_
    · by_cases hq : s.iteration % c.exchangePeriod = 0 ∨ i = 0
      · rw [if_pos hq, if_pos hq]
        exact Fwd.bind (h.wrap _ _ hR) (grows_depositRho c _) fun s s' hR => h.rho _ _ _ hR
      · rw [if_neg hq, if_neg hq]
        exact Fwd.pure hR
    · exact Grows.comp (grows_if (grows_depositJ c) grows_pure) (Grows.comp (grows_gatherAll c)
        (Grows.pure _ fun s => rfl))
    refine Fwd.bind (R := R) ?_ ?_ fun s s' hR => ?_
    · by_cases hq : i = 0
      · rw [if_pos hq, if_pos hq]; exact h.J _ _ hR
      · rw [if_neg hq, if_neg hq]; exact Fwd.pure hR
    · exact Grows.comp (grows_gatherAll c) (Grows.pure _ fun s => rfl)
    exact Fwd.bind (h.gather _ _ hR) (Grows.pure _ fun s => rfl) fun s s' hR => Fwd.pure (h.exts _ _ hR)
  refine Fwd.bind (R := R) ?_ (Grows.comp (grows_iterDeposit c o) (grows_iterEnd c o)) fun s s' hR => ?_
  · rw [iterHalf_eq, iterHalf_eq, h.dt]
    refine Fwd.bind (R := R) ?_ (Grows.pure _ fun s => seen_movePush c _ _ _ _ _ _ s) fun s s' hR =>
      Fwd.pure (h.movePush _ _ _ _ _ _ _ hR)
    by_cases hq : o.moveMomenta = true
    · rw [if_pos hq, if_pos hq]; exact h.pushP _ _ hR
    · rw [if_neg hq, if_neg hq]; exact Fwd.pure hR
  refine Fwd.bind (R := R) ?_ (grows_iterEnd c o) fun s s' hR => h.iterEnd o _ _ hR
  rw [iterDeposit_eq, iterDeposit_eq, h.dt]
  refine Fwd.bind (h.J _ _ hR) (Grows.comp (grows_maybeCross c o) ?_) fun s s' hR => ?_
  · intro s t ht
    have := grows_depositRho c _ _ _ ht
    rwa [seen_movePush] at this
  refine Fwd.bind (R := R) ?_ ?_ fun s s' hR => h.rho _ _ _ (h.movePush _ _ _ _ _ _ _ hR)
  · unfold Cfg.maybeCross
    rw [h.correction]
    split
    · exact h.cross _ _ _ hR
    · exact Fwd.pure hR
  · intro s t ht
    have := grows_depositRho c _ _ _ ht
    rwa [seen_movePush] at this

theorem loop (h : Simulates c c' ok R) (o : Opts) (n : ℕ) : ∀ (i : ℕ) (s s' : Sim), R s s' →
    Fwd ok R (c.loop o i n s) (c'.loop o i n s') := by
  induction n with
  | zero => intro i s s' hR; exact Fwd.pure hR
  | succ n ih =>
    intro i s s' hR
    exact Fwd.bind (h.iter o i s s' hR) (grows_loop c o n (i + 1)) fun s s' hR => ih _ _ _ hR

theorem step (h : Simulates c c' ok R) (N : ℕ) (o : Opts) (s s' : Sim) (hR : R s s') :
    Fwd ok R (c.step N o s) (c'.step N o s') := by
  unfold Cfg.step
  exact Fwd.bind (h.loop o N 0 _ _ (h.start _ _ hR)) (Grows.pure _ fun s => rfl) fun s s' hR =>
    Fwd.pure (h.finish _ _ hR)

theorem calls (h : Simulates c c' ok R) (L : List (ℕ × Opts)) : ∀ (s s' : Sim), R s s' →
    Fwd ok R (c.calls L s) (c'.calls L s') := by
  induction L with
  | nil => intro s s' hR; exact Fwd.pure hR
  | cons a L ih =>
    intro s s' hR
    exact Fwd.bind (h.step a.1 a.2 s s' hR) (grows_calls c L) fun s s' hR => ih _ _ hR

end Simulates

end Fbpic.Pic
