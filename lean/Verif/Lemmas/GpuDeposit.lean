import Verif.Model.GpuDeposit
import Verif.Lemmas.Deposit
import Verif.Lemmas.Tactics
import Verif.Props.Sorting
import Mathlib.Algebra.BigOperators.Intervals

/-! Lemmas on the deposition on the GPU: a launch adds a fixed array, whatever the order. -/

namespace Fbpic.GpuDeposit

open Fbpic

theorem mapM_ok {ε α β : Type} (f : α → Except ε β) (h : α → β) :
    ∀ L : List α, (∀ x ∈ L, f x = .ok (h x)) → L.mapM f = .ok (L.map h) := by
  intro L
  induction L with
  | nil => intro _; rfl
  | cons a L ih =>
    intro H
    rw [List.mapM_cons, H a (by simp), ih fun x hx => H x (by simp [hx])]
    rfl

/-! ### Atomic additions -/

/-- The array that an atomic addition adds. -/
noncomputable def opBuf (o : AtomicAdd) : Buf :=
  cellBuf o.iz o.ir (if o.imag then Complex.I * (o.v : ℂ) else (o.v : ℂ))

theorem run_eq (A : Buf) (o : AtomicAdd) : o.run A = A + opBuf o := by
  unfold AtomicAdd.run opBuf
  rw [addAt_eq]

theorem launched_iff (ops : List AtomicAdd) (A A' : Buf) :
    Launched ops A A' ↔ A' = A + (ops.map opBuf).sum := by
  have h : ∀ L : List AtomicAdd, L.foldl AtomicAdd.run A = A + (L.map opBuf).sum :=
    fun L => foldl_add _ opBuf run_eq L A
  constructor
  · rintro ⟨L, hp, rfl⟩
    rw [h, (hp.map opBuf).sum_eq]
  · intro he
    exact ⟨ops, List.Perm.refl _, by rw [he, h]⟩

/-! ### One particle -/

theorem modeScal_pow (s0 : ℂ) (a b : ℝ) (m : ℕ) :
    modeScal s0 a b m = s0 * ((a : ℂ) + Complex.I * b) ^ m := by
  induction m with
  | zero => simp [modeScal]
  | succ m ih => rw [modeScal, ih]; ring

theorem expTheta_eq (Nm m : ℕ) (h : m < Nm ∨ Nm = 0) (a b : ℝ) :
    expTheta Nm m a b = ((a : ℂ) + Complex.I * b) ^ m := by
  unfold expTheta
  by_cases hN : Nm = 2
  · rw [if_pos hN]
    have : m = 0 ∨ m = 1 := by omega
    rcases this with rfl | rfl <;> simp
  · rw [if_neg hN]
    clear h hN
    induction m with
    | zero => simp
    | succ m ih => rw [List.range_succ, List.foldl_append, ih]; simp [pow_succ]

theorem gpuFlip_eq (Nm m : ℕ) (h : m < Nm ∨ Nm = 0) (f : DepField) : gpuFlip Nm m f = f.flip m := by
  unfold gpuFlip DepField.flip
  by_cases hN : Nm = 2
  · have : m = 0 ∨ m = 1 := by omega
    rcases this with rfl | rfl <;> cases f <;> simp [hN]
  · cases f <;> simp [hN]

section

variable (s : Shape) (f : DepField) (c q : ℝ) (g : CylGrid) (beta : List ℝ) (m : ℕ)

/-- What a particle adds to the register `a b`. -/
noncomputable def contrib (p : DepPtcl) : Regs := fun a b =>
  ((s.sr (g.rCell (cylR p.x p.y)) b (f.flip m) (betaOf g beta p) * s.sz (g.zCell p.z) a : ℝ) : ℂ)
    * scalOf f c q m p

theorem addPtcl_ok (Nm : ℕ) (hm : m < Nm ∨ Nm = 0) (p : DepPtcl)
    (hb : idxOk beta.length (betaIdx g p)) (R : Regs) :
    addPtcl s f c q g beta Nm m p R
      = .ok fun a b => R a b + contrib s f c q g beta m p a b := by
  unfold addPtcl
  have hk : bufIndex beta.length (min ⌈g.rCell (cylR p.x p.y)⌉ g.Nr)
      = .ok (wrapIdx beta.length (betaIdx g p)) := (bufIndex_ok _ _ _).2 ⟨hb, rfl⟩
  simp only [hk, expTheta_eq Nm m hm, gpuFlip_eq Nm m hm]
  simp only [bind, Except.bind, pure, Except.pure, contrib, scalOf, betaOf, modeScal_pow]

theorem contrib_real (hm : m = 0) (p : DepPtcl) (a b : ℕ) :
    (contrib s f c q g beta m p a b).im = 0 := by
  subst hm
  unfold contrib scalOf modeScal
  rw [← Complex.ofReal_mul, Complex.ofReal_im]

end

/-! ### Indices -/

theorem izIdx_range (s : Shape) (Nz : ℕ) (hz : 2 ≤ Nz) (iz : ℤ) (h0 : 0 ≤ iz) (h1 : iz < Nz)
    (a : ℕ) : 0 ≤ izIdx s Nz iz a ∧ izIdx s Nz iz a < Nz := by
  cases s <;> unfold izIdx <;> simp only [] <;> constructor <;> split_ifs <;> omega

theorem irIdx_range (s : Shape) (Nr : ℕ) (hr : 2 ≤ Nr) (ir : ℤ) (h0 : 0 ≤ ir) (h1 : ir ≤ Nr)
    (b : ℕ) : 0 ≤ irIdx s Nr ir b ∧ irIdx s Nr ir b < Nr := by
  cases s <;> unfold irIdx <;> simp only [] <;> constructor <;> split_ifs <;> omega

/-- The array of the registers. -/
noncomputable def regsBuf (s : Shape) (g : CylGrid) (iz ir : ℤ) (R : Regs) : Buf :=
  ∑ a ∈ Finset.range s.width, ∑ b ∈ Finset.range s.width,
    cellBuf (izIdx s g.Nz iz a).toNat (irIdx s g.Nr ir b).toNat (R a b)

theorem bufIndex_of_range (n : ℕ) (i : ℤ) (h0 : 0 ≤ i) (h1 : i < n) :
    bufIndex n i = .ok i.toNat := by
  unfold bufIndex; rw [if_pos ⟨h0, h1⟩]

theorem storeRegs_ok (s : Shape) (g : CylGrid) (hz : 2 ≤ g.Nz) (hr : 2 ≤ g.Nr) (m : ℕ) (iz ir : ℤ)
    (hz0 : 0 ≤ iz) (hz1 : iz < g.Nz) (hr0 : 0 ≤ ir) (hr1 : ir ≤ g.Nr) (R : Regs)
    (hre : m = 0 → ∀ a b, (R a b).im = 0) :
    ∃ ops, storeRegs s g m iz ir R = .ok ops ∧ (ops.map opBuf).sum = regsBuf s g iz ir R := by
  set cell : ℕ → ℕ → List AtomicAdd := fun a b =>
    AtomicAdd.mk (izIdx s g.Nz iz a).toNat (irIdx s g.Nr ir b).toNat false (R a b).re
      :: if m > 0 then [AtomicAdd.mk (izIdx s g.Nz iz a).toNat (irIdx s g.Nr ir b).toNat true (R a b).im]
        else [] with hcell
  refine ⟨((List.range s.width).map fun a => (List.range s.width).map fun b => cell a b).flatten.flatten,
    ?_, ?_⟩
  · unfold storeRegs
    rw [mapM_ok _ fun a => (List.range s.width).map fun b => cell a b]
    · rfl
    · intro a _
      apply mapM_ok
      intro b _
      obtain ⟨ha0, ha1⟩ := izIdx_range s g.Nz hz iz hz0 hz1 a
      obtain ⟨hb0, hb1⟩ := irIdx_range s g.Nr hr ir hr0 hr1 b
      rw [bufIndex_of_range _ _ ha0 ha1, bufIndex_of_range _ _ hb0 hb1]
      rfl
  · have hsum : ∀ a b, ((cell a b).map opBuf).sum
        = cellBuf (izIdx s g.Nz iz a).toNat (irIdx s g.Nr ir b).toNat (R a b) := by
      intro a b
      rw [hcell]
      simp only []
      by_cases hm : m > 0
      · rw [if_pos hm]
        simp only [List.map_cons, List.map_nil, List.sum_cons, List.sum_nil, add_zero, opBuf,
          if_true, Bool.false_eq_true, if_false]
        rw [← cellBuf_add]
        congr 1
        rw [mul_comm, Complex.re_add_im]
      · rw [if_neg hm]
        simp only [List.map_cons, List.map_nil, List.sum_cons, List.sum_nil, add_zero, opBuf,
          Bool.false_eq_true, if_false]
        congr 1
        apply Complex.ext
        · simp
        · simp [hre (by omega) a b]
    have hflat : ∀ (L : List (List AtomicAdd)),
        (L.flatten.map opBuf).sum = (L.map fun l => (l.map opBuf).sum).sum := by
      intro L
      induction L with
      | nil => rfl
      | cons a L ih => simp only [List.flatten_cons, List.map_append, List.sum_append, List.map_cons, List.sum_cons, ih]
    have hflat2 : ∀ (L : List (List (List AtomicAdd))),
        (L.flatten.map fun l => (l.map opBuf).sum).sum
          = (L.map fun l => (l.map fun l => (l.map opBuf).sum).sum).sum := by
      intro L
      induction L with
      | nil => rfl
      | cons a L ih => simp only [List.flatten_cons, List.map_append, List.sum_append, List.map_cons, List.sum_cons, ih]
    rw [hflat, hflat2, List.map_map]
    unfold regsBuf
    rw [list_map_range_sum]
    apply Finset.sum_congr rfl
    intro a _
    simp only [Function.comp, List.map_map]
    rw [list_map_range_sum]
    exact Finset.sum_congr rfl fun b _ => hsum a b

theorem regsBuf_add (s : Shape) (g : CylGrid) (iz ir : ℤ) (R S : Regs) :
    regsBuf s g iz ir (fun a b => R a b + S a b) = regsBuf s g iz ir R + regsBuf s g iz ir S := by
  unfold regsBuf
  simp only [cellBuf_add, Finset.sum_add_distrib]

theorem regsBuf_zero (s : Shape) (g : CylGrid) (iz ir : ℤ) :
    regsBuf s g iz ir (fun _ _ => 0) = 0 := by
  unfold regsBuf
  simp [cellBuf_zero]

theorem regsBuf_sum (s : Shape) (g : CylGrid) (iz ir : ℤ) {ι : Type} (S : Finset ι) (R : ι → Regs) :
    regsBuf s g iz ir (fun a b => ∑ t ∈ S, R t a b) = ∑ t ∈ S, regsBuf s g iz ir (R t) := by
  classical
  induction S using Finset.induction_on with
  | empty => simpa using regsBuf_zero s g iz ir
  | insert x S hx ih =>
    simp only [Finset.sum_insert hx]
    rw [regsBuf_add s g iz ir (R x) (fun a b => ∑ t ∈ S, R t a b), ih]

/-! ### The cell of a particle -/

/-- Longitudinal index of the upper grid point, wrapped. -/
noncomputable def izW (g : CylGrid) (p : DepPtcl) : ℤ :=
  let iz : ℤ := ⌈g.zCell p.z⌉
  if iz < 0 then iz + g.Nz else if iz > (g.Nz : ℤ) - 1 then iz - g.Nz else iz

/-- The array that a particle adds. -/
noncomputable def gpuBuf (s : Shape) (f : DepField) (c q : ℝ) (g : CylGrid) (beta : List ℝ) (m : ℕ)
    (p : DepPtcl) : Buf :=
  regsBuf s g (izW g p) (betaIdx g p) (contrib s f c q g beta m p)

/-- A particle less than one box length outside of the grid. -/
def nearBox (g : CylGrid) (p : DepPtcl) : Prop :=
  -(g.Nz : ℝ) - 1 / 2 < g.invdz * (p.z - g.zmin) ∧ g.invdz * (p.z - g.zmin) ≤ 2 * g.Nz - 1 / 2

/-- A usable grid: at least two cells in each direction, starting on the axis. -/
structure GridOk (g : CylGrid) : Prop where
  hz : 2 ≤ g.Nz
  hr : 2 ≤ g.Nr
  hinv : 0 < g.invdr
  hrmin : g.rmin = 0

theorem izW_range (g : CylGrid) (p : DepPtcl) (h : nearBox g p) : 0 ≤ izW g p ∧ izW g p < g.Nz := by
  obtain ⟨h0, h1⟩ := h
  have hz0 : -(g.Nz : ℤ) ≤ ⌈g.zCell p.z⌉ := by
    have h1 : (-(g.Nz : ℤ) - 1) < ⌈g.zCell p.z⌉ := by
      rw [Int.lt_ceil]; unfold CylGrid.zCell; push_cast; linarith
    omega
  have hz1 : ⌈g.zCell p.z⌉ ≤ 2 * (g.Nz : ℤ) - 1 := by
    rw [Int.ceil_le]; unfold CylGrid.zCell; push_cast; linarith
  unfold izW
  simp only []
  split_ifs <;> omega

theorem betaIdx_range (g : CylGrid) (hg : GridOk g) (p : DepPtcl) :
    0 ≤ betaIdx g p ∧ betaIdx g p ≤ g.Nr := by
  have h : -1 < ⌈g.rCell (cylR p.x p.y)⌉ := by
    rw [Int.lt_ceil]; unfold CylGrid.rCell
    have : 0 ≤ g.invdr * (cylR p.x p.y - g.rmin) := by
      rw [hg.hrmin, sub_zero]; exact mul_nonneg hg.hinv.le (Real.sqrt_nonneg _)
    push_cast; linarith
  unfold betaIdx
  omega

theorem betaIdx_ok (g : CylGrid) (hg : GridOk g) (beta : List ℝ) (hb : beta.length = g.Nr + 1)
    (p : DepPtcl) : idxOk beta.length (betaIdx g p) := by
  have := betaIdx_range g hg p
  unfold idxOk
  rw [hb]; push_cast; omega

/-- The cell index of a particle in terms of both indices. -/
theorem cellIdx_eq (g : CylGrid) (p : DepPtcl) :
    Sorting.cellIdx (cylR p.x p.y) p.z g.invdz g.zmin g.Nz g.invdr g.rmin g.Nr
      = betaIdx g p + izW g p * (g.Nr + 1) := by
  unfold Sorting.cellIdx betaIdx izW CylGrid.rCell CylGrid.zCell
  simp only []
  congr 1
  split_ifs <;> omega

/-! ### A launch on sorted particles -/

/-- The cell index as a natural number. -/
noncomputable def cellNat (g : CylGrid) (p : DepPtcl) : ℕ :=
  (Sorting.cellIdx (cylR p.x p.y) p.z g.invdz g.zmin g.Nz g.invdr g.rmin g.Nr).toNat

theorem cellNat_div (g : CylGrid) (hg : GridOk g) (p : DepPtcl) (h : nearBox g p) :
    ((cellNat g p / (g.Nr + 1) : ℕ) : ℤ) = izW g p ∧
    ((cellNat g p - cellNat g p / (g.Nr + 1) * (g.Nr + 1) : ℕ) : ℤ) = betaIdx g p ∧
    cellNat g p < g.Nz * (g.Nr + 1) := by
  obtain ⟨h0, h1⟩ := izW_range g p h
  obtain ⟨h2, h3⟩ := betaIdx_range g hg p
  obtain ⟨a, ha⟩ := Int.eq_ofNat_of_zero_le h0
  obtain ⟨b, hb⟩ := Int.eq_ofNat_of_zero_le h2
  have hc : cellNat g p = b + a * (g.Nr + 1) := by
    unfold cellNat
    rw [cellIdx_eq, ha, hb]
    have : ((b : ℤ) + (a : ℤ) * ((g.Nr : ℤ) + 1)) = ((b + a * (g.Nr + 1) : ℕ) : ℤ) := by push_cast; ring
    rw [this, Int.toNat_natCast]
  have hb' : b < g.Nr + 1 := by omega
  have hd : cellNat g p / (g.Nr + 1) = a := by
    rw [hc, Nat.add_mul_div_right _ _ (by omega), Nat.div_eq_of_lt hb', zero_add]
  refine ⟨by rw [hd, ha], ?_, ?_⟩
  · rw [hd, hc, Nat.add_sub_cancel, hb]
  · rw [hc]
    have : a + 1 ≤ g.Nz := by omega
    calc b + a * (g.Nr + 1) < (a + 1) * (g.Nr + 1) := by rw [add_mul, one_mul]; omega
      _ ≤ _ := Nat.mul_le_mul_right _ this

/-- The prefix sum delimits the particles of each cell. -/
structure Delimits (g : CylGrid) (ps : List DepPtcl) (P : ℕ → ℕ) : Prop where
  le : ∀ c, c < g.Nz * (g.Nr + 1) → (if c = 0 then 0 else P (c - 1)) ≤ P c ∧ P c ≤ ps.length
  iff : ∀ c, c < g.Nz * (g.Nr + 1) → ∀ i (hi : i < ps.length),
    ((if c = 0 then 0 else P (c - 1)) ≤ i ∧ i < P c) ↔ cellNat g ps[i] = c

theorem foldlM_addPtcl (s : Shape) (f : DepField) (c q : ℝ) (g : CylGrid) (beta : List ℝ)
    (Nm m : ℕ) (hm : m < Nm ∨ Nm = 0) (ps : List DepPtcl)
    (hb : ∀ p ∈ ps, idxOk beta.length (betaIdx g p)) (incl : ℕ) (hincl : incl ≤ ps.length) :
    ∀ (L : List ℕ) (_ : ∀ j ∈ L, j < incl) (R : Regs),
      L.foldlM (ptclStep s f c q g beta Nm m ps incl) R
      = .ok fun a b => R a b + (L.map fun j =>
          contrib s f c q g beta m (ps.getD (incl - 1 - j) ⟨0, 0, 0, 0, 0, 0, 0, 0⟩) a b).sum := by
  intro L
  induction L with
  | nil => intro _ R; simp [pure, Except.pure]
  | cons j L ih =>
    intro hL R
    have hj : incl - 1 - j < ps.length := by have := hL j (by simp); omega
    have hget : ps[incl - 1 - j]? = some ps[incl - 1 - j] := List.getElem?_eq_getElem hj
    have hstep : ptclStep s f c q g beta Nm m ps incl R j
        = .ok fun a b => R a b + contrib s f c q g beta m ps[incl - 1 - j] a b := by
      unfold ptclStep
      rw [hget]
      exact addPtcl_ok s f c q g beta m Nm hm _ (hb _ (List.getElem_mem hj)) R
    rw [List.foldlM_cons, hstep]
    simp only [bind, Except.bind]
    have hL' : ∀ k ∈ L, k < incl := fun k hk => hL k (by simp [hk])
    have := ih hL' (fun a b => R a b + contrib s f c q g beta m ps[incl - 1 - j] a b)
    refine this.trans ?_
    congr 1
    funext a b
    rw [List.map_cons, List.sum_cons, List.getD_eq_getElem?_getD, hget, Option.getD_some]
    ring

theorem sum_reflect {M : Type} [AddCommMonoid M] (G : ℕ → M) (a b : ℕ) (h : a ≤ b) :
    ∑ j ∈ Finset.range (b - a), G (b - 1 - j) = ∑ k ∈ Finset.Ico a b, G k := by
  rw [Finset.sum_Ico_eq_sum_range, ← Finset.sum_range_reflect]
  apply Finset.sum_congr rfl
  intro j hj
  rw [Finset.mem_range] at hj
  congr 1
  omega

theorem list_sum_getD {M : Type} [AddCommMonoid M] (ps : List DepPtcl) (d : DepPtcl) (G : DepPtcl → M) :
    ∑ k ∈ Finset.range ps.length, G (ps.getD k d) = (ps.map G).sum := by
  induction ps with
  | nil => simp
  | cons a L ih =>
    rw [List.length_cons, Finset.sum_range_succ']
    simp only [List.getD_cons_succ, List.getD_cons_zero, List.map_cons, List.sum_cons, ih]
    rw [add_comm]

theorem sortedThread_ok (s : Shape) (f : DepField) (c q : ℝ) (g : CylGrid) (hg : GridOk g)
    (beta : List ℝ) (hb : beta.length = g.Nr + 1) (Nm m : ℕ) (hm : m < Nm ∨ Nm = 0)
    (ps : List DepPtcl) (P : ℕ → ℕ) (hP : Delimits g ps P) (hps : ∀ p ∈ ps, nearBox g p)
    (i : ℕ) (hi : i < g.Nz * (g.Nr + 1)) :
    ∃ ops, sortedThread s f c q g beta Nm m ps P i = .ok ops ∧
      (ops.map opBuf).sum = ∑ k ∈ Finset.range ps.length,
        if cellNat g (ps.getD k ⟨0, 0, 0, 0, 0, 0, 0, 0⟩) = i then
          gpuBuf s f c q g beta m (ps.getD k ⟨0, 0, 0, 0, 0, 0, 0, 0⟩) else 0 := by
  set d : DepPtcl := ⟨0, 0, 0, 0, 0, 0, 0, 0⟩ with hd
  obtain ⟨hle, hlen⟩ := hP.le i hi
  set first := if i = 0 then 0 else P (i - 1) with hfirst
  have hfreq : (if i > 0 then P i - P (i - 1) else P i) = P i - first := by
    rw [hfirst]
    by_cases h : i = 0
    · simp [h]
    · rw [if_pos (by omega), if_neg h]
  unfold sortedThread
  rw [if_pos hi]
  simp only []
  rw [hfreq, foldlM_addPtcl s f c q g beta Nm m hm ps
    (fun p _ => betaIdx_ok g hg beta hb p) (P i) hlen _ (by
      intro j hj; rw [List.mem_range] at hj; omega)]
  simp only [bind, Except.bind, zero_add]
  -- the sum over the particles of the cell
  have hgetD : ∀ k (hk : k < ps.length), ps.getD k d = ps[k] := by
    intro k hk
    rw [List.getD_eq_getElem?_getD, List.getElem?_eq_getElem hk, Option.getD_some]
  have hcells : ∀ G : ℕ → Buf, (∑ k ∈ Finset.range ps.length,
      if cellNat g (ps.getD k d) = i then G k else 0) = ∑ k ∈ Finset.Ico first (P i), G k := by
    intro G
    rw [← Finset.sum_filter]
    apply Finset.sum_congr
    · ext k
      simp only [Finset.mem_filter, Finset.mem_range, Finset.mem_Ico]
      constructor
      · rintro ⟨hk, he⟩
        rw [hgetD k hk] at he
        exact (hP.iff i hi k hk).2 he
      · rintro ⟨h1, h2⟩
        have hk : k < ps.length := by omega
        refine ⟨hk, ?_⟩
        rw [hgetD k hk]
        exact (hP.iff i hi k hk).1 ⟨h1, h2⟩
    · intro _ _; rfl
  rw [hcells]
  by_cases hf : P i - first > 0
  · rw [if_pos hf]
    -- a particle of the cell gives the indices
    have hk0 : first < ps.length := by omega
    have hcell0 := (hP.iff i hi first hk0).1 ⟨le_rfl, by omega⟩
    have hnear0 := hps _ (List.getElem_mem hk0)
    obtain ⟨hz, hr, -⟩ := cellNat_div g hg _ hnear0
    rw [hcell0] at hz hr
    obtain ⟨hz0, hz1⟩ := izW_range g _ hnear0
    obtain ⟨hr0, hr1⟩ := betaIdx_range g hg ps[first]
    rw [← hz] at hz0 hz1
    rw [← hr] at hr0 hr1
    obtain ⟨ops, h1, h2⟩ := storeRegs_ok s g hg.hz hg.hr m _ _ hz0 hz1 hr0 hr1
      (fun a b => ((List.range (P i - first)).map fun j =>
        contrib s f c q g beta m (ps.getD (P i - 1 - j) d) a b).sum) (by
        intro hm0 a b
        rw [list_map_range_sum, Complex.im_sum]
        exact Finset.sum_eq_zero fun j _ => contrib_real s f c q g beta m hm0 _ a b)
    refine ⟨ops, h1, ?_⟩
    rw [h2]
    simp only [list_map_range_sum]
    rw [regsBuf_sum s g _ _ (Finset.range (P i - first))
      (fun j => contrib s f c q g beta m (ps.getD (P i - 1 - j) d))]
    rw [sum_reflect (fun k => regsBuf s g ((i / (g.Nr + 1) : ℕ) : ℤ)
      ((i - i / (g.Nr + 1) * (g.Nr + 1) : ℕ) : ℤ) (contrib s f c q g beta m (ps.getD k d))) first (P i) hle]
    apply Finset.sum_congr rfl
    intro k hk
    rw [Finset.mem_Ico] at hk
    have hkl : k < ps.length := by omega
    have hcell := (hP.iff i hi k hkl).1 hk
    obtain ⟨hz, hr, -⟩ := cellNat_div g hg _ (hps _ (List.getElem_mem hkl))
    rw [hcell] at hz hr
    unfold gpuBuf
    rw [hgetD k hkl, ← hz, ← hr]
  · rw [if_neg hf]
    refine ⟨[], rfl, ?_⟩
    rw [Finset.Ico_eq_empty (by omega)]
    simp

theorem mapM_sum {f : ℕ → Except PyErr (List AtomicAdd)} {G : ℕ → Buf} :
    ∀ L : List ℕ, (∀ i ∈ L, ∃ ops, f i = .ok ops ∧ (ops.map opBuf).sum = G i) →
    ∃ M, L.mapM f = .ok M ∧ (M.flatten.map opBuf).sum = (L.map G).sum := by
  intro L
  induction L with
  | nil => intro _; exact ⟨[], rfl, rfl⟩
  | cons a L ih =>
    intro H
    obtain ⟨ops, h1, h2⟩ := H a (by simp)
    obtain ⟨M, h3, h4⟩ := ih fun i hi => H i (by simp [hi])
    refine ⟨ops :: M, ?_, ?_⟩
    · rw [List.mapM_cons, h1, h3]; rfl
    · simp only [List.flatten_cons, List.map_append, List.sum_append, List.map_cons, List.sum_cons, h2, h4]

theorem sortedKernel_ok (s : Shape) (f : DepField) (c q : ℝ) (g : CylGrid) (hg : GridOk g)
    (beta : List ℝ) (hb : beta.length = g.Nr + 1) (Nm m : ℕ) (hm : m < Nm ∨ Nm = 0)
    (ps : List DepPtcl) (P : ℕ → ℕ) (hP : Delimits g ps P) (hps : ∀ p ∈ ps, nearBox g p)
    (T : ℕ) (hT : g.Nz * (g.Nr + 1) ≤ T) :
    ∃ ops, sortedKernel s f c q g beta Nm m T ps P = .ok ops ∧
      (ops.map opBuf).sum = (ps.map (gpuBuf s f c q g beta m)).sum := by
  set d : DepPtcl := ⟨0, 0, 0, 0, 0, 0, 0, 0⟩ with hd
  obtain ⟨M, h1, h2⟩ := mapM_sum (f := sortedThread s f c q g beta Nm m ps P)
    (G := fun i => if i < g.Nz * (g.Nr + 1) then ∑ k ∈ Finset.range ps.length,
        (if cellNat g (ps.getD k d) = i then gpuBuf s f c q g beta m (ps.getD k d) else 0) else 0)
    (List.range T) (by
      intro i _
      by_cases hi : i < g.Nz * (g.Nr + 1)
      · rw [if_pos hi]
        exact sortedThread_ok s f c q g hg beta hb Nm m hm ps P hP hps i hi
      · rw [if_neg hi]
        refine ⟨[], ?_, rfl⟩
        unfold sortedThread
        rw [if_neg hi]; rfl)
  refine ⟨M.flatten, ?_, ?_⟩
  · unfold sortedKernel
    rw [h1]; rfl
  · rw [h2, list_map_range_sum, ← Finset.sum_filter]
    have hfilter : (Finset.range T).filter (fun i => i < g.Nz * (g.Nr + 1))
        = Finset.range (g.Nz * (g.Nr + 1)) := by
      ext i; simp only [Finset.mem_filter, Finset.mem_range]; omega
    rw [hfilter, Finset.sum_comm, ← list_sum_getD ps d]
    apply Finset.sum_congr rfl
    intro k hk
    rw [Finset.mem_range] at hk
    have hget : ps.getD k d = ps[k] := by
      rw [List.getD_eq_getElem?_getD, List.getElem?_eq_getElem hk, Option.getD_some]
    have hc := (cellNat_div g hg ps[k] (hps _ (List.getElem_mem hk))).2.2
    rw [hget, Finset.sum_ite_eq, if_pos (Finset.mem_range.2 hc)]

/-! ### Sorting -/

theorem sorts_delimits (g : CylGrid) (hg : GridOk g) (ps ps' : List DepPtcl) (P : ℕ → ℕ)
    (hps : ∀ p ∈ ps, nearBox g p) (h : Sorts g ps ps' P) :
    ps'.Perm ps ∧ Delimits g ps' P := by
  obtain ⟨keys', idx, P0, t1, t2, hs, ht1, ht2, hPe, hlen, hget⟩ := h
  have hidx : ∀ i, i < ps.length → idx i < ps.length := by
    intro i hi
    have : idx i ∈ List.range ps.length :=
      hs.perm.subset (List.mem_map.2 ⟨i, List.mem_range.2 hi, rfl⟩)
    exact List.mem_range.1 this
  have hperm : ps'.Perm ps := by
    have e1 : ps' = ((List.range ps.length).map idx).map fun i => ps.getD i ⟨0, 0, 0, 0, 0, 0, 0, 0⟩ := by
      apply List.ext_getElem?
      intro i
      by_cases hi : i < ps.length
      · rw [hget i hi, List.map_map, List.getElem?_map, List.getElem?_range hi, Option.map_some,
          Function.comp, List.getD_eq_getElem?_getD, List.getElem?_eq_getElem (hidx i hi), Option.getD_some]
      · rw [List.getElem?_eq_none (by omega), List.getElem?_eq_none (by simp; omega)]
    have e2 : ps = (List.range ps.length).map fun i => ps.getD i ⟨0, 0, 0, 0, 0, 0, 0, 0⟩ := by
      apply List.ext_getElem?
      intro i
      by_cases hi : i < ps.length
      · rw [List.getElem?_map, List.getElem?_range hi, Option.map_some,
          List.getD_eq_getElem?_getD, List.getElem?_eq_getElem hi, Option.getD_some]
      · rw [List.getElem?_eq_none (by omega), List.getElem?_eq_none (by simp; omega)]
    rw [e1]
    conv_rhs => rw [e2]
    exact hs.perm.map _
  have hkeys : ∀ i (hi : i < ps'.length), keys' i = cellNat g ps'[i] := by
    intro i hi
    have hi' : i < ps.length := by omega
    have := hget i hi'
    rw [List.getElem?_eq_getElem hi] at this
    rw [hs.keys_eq i hi', ← this]
    rfl
  have hk : ∀ i, i < ps.length → keys' i < g.Nz * (g.Nr + 1) := by
    intro i hi
    rw [hkeys i (by omega)]
    exact (cellNat_div g hg _ (hps _ (hperm.subset (List.getElem_mem _)))).2.2
  refine ⟨hperm, ?_, ?_⟩
  · intro c hc
    obtain ⟨h1, h2, -⟩ := C20_ranges keys' ps.length _ hs.sorted hk t1 t2 ht1 ht2 P0 c hc
    rw [hPe, hlen]
    exact ⟨h1, h2⟩
  · intro c hc i hi
    obtain ⟨-, -, h3⟩ := C20_ranges keys' ps.length _ hs.sorted hk t1 t2 ht1 ht2 P0 c hc
    rw [hPe, ← hkeys i hi]
    exact h3 i (by omega)

theorem le_threadsFor (x tpb : ℕ) (h : 0 < tpb) : x ≤ threadsFor x tpb := by
  unfold threadsFor
  have := Nat.div_add_mod x tpb
  have h2 := Nat.mod_lt x h
  rw [add_mul, one_mul, mul_comm]
  omega

/-! ### A launch on unsorted particles -/

theorem unsortedKernel_ok (f : DepField) (q : ℝ) (g : CylGrid) (hg : GridOk g)
    (beta : List ℝ) (hb : beta.length = g.Nr + 1) (m : ℕ)
    (ps : List DepPtcl) (hps : ∀ p ∈ ps, nearBox g p) (T : ℕ) (hT : ps.length ≤ T) :
    ∃ ops, unsortedKernel f q g beta m T ps = .ok ops ∧
      (ops.map opBuf).sum = (ps.map (gpuBuf .linear f 1 q g beta m)).sum := by
  set d : DepPtcl := ⟨0, 0, 0, 0, 0, 0, 0, 0⟩ with hd
  obtain ⟨M, h1, h2⟩ := mapM_sum (f := unsortedThread f q g beta m ps)
    (G := fun i => if i < ps.length then gpuBuf .linear f 1 q g beta m (ps.getD i d) else 0)
    (List.range T) (by
      intro i _
      by_cases hi : i < ps.length
      · rw [if_pos hi]
        have hget : ps[i]? = some ps[i] := List.getElem?_eq_getElem hi
        have hnear := hps _ (List.getElem_mem hi)
        obtain ⟨hz0, hz1⟩ := izW_range g _ hnear
        obtain ⟨hr0, hr1⟩ := betaIdx_range g hg ps[i]
        unfold unsortedThread
        rw [hget]
        simp only []
        rw [addPtcl_ok .linear f 1 q g beta m 0 (Or.inr rfl) _ (betaIdx_ok g hg beta hb _)]
        simp only [bind, Except.bind, zero_add]
        have hiz : (if ⌈g.zCell ps[i].z⌉ < 0 then ⌈g.zCell ps[i].z⌉ + (g.Nz : ℤ)
            else if ⌈g.zCell ps[i].z⌉ ≥ (g.Nz : ℤ) then ⌈g.zCell ps[i].z⌉ - g.Nz
            else ⌈g.zCell ps[i].z⌉) = izW g ps[i] := by
          unfold izW
          simp only []
          split_ifs <;> omega
        rw [hiz, List.getD_eq_getElem?_getD, hget, Option.getD_some]
        exact storeRegs_ok .linear g hg.hz hg.hr m _ _ hz0 hz1 hr0 hr1 _
          (fun hm0 a b => contrib_real .linear f 1 q g beta m hm0 _ a b)
      · rw [if_neg hi]
        refine ⟨[], ?_, rfl⟩
        unfold unsortedThread
        rw [List.getElem?_eq_none (by omega)]; rfl)
  refine ⟨M.flatten, ?_, ?_⟩
  · unfold unsortedKernel
    rw [h1]; rfl
  · rw [h2, list_map_range_sum, ← Finset.sum_filter]
    have hfilter : (Finset.range T).filter (fun i => i < ps.length) = Finset.range ps.length := by
      ext i; simp only [Finset.mem_filter, Finset.mem_range]; omega
    rw [hfilter, ← list_sum_getD ps d]

/-! ### All species and antennas -/

section

variable (f : DepField) (c : ℝ) (g : CylGrid) (beta : Shape → ℕ → List ℝ) (Nm m : ℕ)

/-- The array that a species adds. -/
noncomputable def gpuSpeciesBuf (sp : GpuSpecies) : Buf :=
  if sp.q = 0 then 0 else (sp.ptcls.map (gpuBuf sp.shape f c sp.q g (beta sp.shape m) m)).sum

/-- The array that an antenna adds. -/
noncomputable def gpuAntBuf (a : Antenna.Ant) : Buf :=
  if a.onRank then
    ((antennaPtcls (-1) a).map (gpuBuf .linear f 1 (-1) g (beta .linear m) m)).sum
      + ((antennaPtcls 1 a).map (gpuBuf .linear f 1 1 g (beta .linear m) m)).sum
  else 0

theorem speciesLaunched_iff (hg : GridOk g) (hbeta : ∀ s k, (beta s k).length = g.Nr + 1)
    (hm : m < Nm ∨ Nm = 0) :
    ∀ (sps : List GpuSpecies)
      (_ : ∀ sp ∈ sps, sp.q ≠ 0 → Delimits g sp.ptcls sp.prefixSum ∧ ∀ p ∈ sp.ptcls, nearBox g p)
      (A A' : Buf), SpeciesLaunched f c g beta Nm m sps A A' ↔
        A' = A + (sps.map (gpuSpeciesBuf f c g beta m)).sum := by
  intro sps
  induction sps with
  | nil =>
    intro _ A A'
    rw [List.map_nil, List.sum_nil, add_zero]
    constructor
    · intro h; cases h; rfl
    · rintro rfl; exact .nil _
  | cons sp sps ih =>
    intro H A A'
    have ih' := ih fun x hx => H x (by simp [hx])
    rw [List.map_cons, List.sum_cons]
    by_cases hq : sp.q = 0
    · have e : gpuSpeciesBuf f c g beta m sp = 0 := by unfold gpuSpeciesBuf; rw [if_pos hq]
      rw [e, zero_add, ← ih' A A']
      constructor
      · intro h
        cases h with
        | skip _ h => exact h
        | launch _ _ hq' => exact absurd hq hq'
      · intro h; exact .skip hq h
    · obtain ⟨hd, hn⟩ := H sp (by simp) hq
      have e : gpuSpeciesBuf f c g beta m sp
          = (sp.ptcls.map (gpuBuf sp.shape f c sp.q g (beta sp.shape m) m)).sum := by
        unfold gpuSpeciesBuf; rw [if_neg hq]
      have hk : ∀ tpb, 0 < tpb → ∃ ops, sortedKernel sp.shape f c sp.q g (beta sp.shape m) Nm m
          (threadsFor (g.Nz * (g.Nr + 1)) tpb) sp.ptcls sp.prefixSum = .ok ops ∧
          (ops.map opBuf).sum = gpuSpeciesBuf f c g beta m sp := by
        intro tpb htpb
        rw [e]
        exact sortedKernel_ok sp.shape f c sp.q g hg _ (hbeta _ _) Nm m hm _ _ hd hn _
          (le_threadsFor _ _ htpb)
      constructor
      · intro h
        cases h with
        | skip hq' => exact absurd hq' hq
        | launch tpb ops _ htpb hk' hl h =>
          obtain ⟨ops', h1, h2⟩ := hk tpb htpb
          rw [h1] at hk'
          cases hk'
          rw [launched_iff, h2] at hl
          rw [ih', hl, add_assoc] at h
          exact h
      · intro h
        obtain ⟨ops, h1, h2⟩ := hk 1 Nat.one_pos
        refine .launch 1 ops hq Nat.one_pos h1 ((launched_iff _ _ _).2 rfl) ((ih' _ _).2 ?_)
        rw [h, h2, add_assoc]

theorem antennasLaunched_iff (hg : GridOk g) (hbeta : ∀ s k, (beta s k).length = g.Nr + 1) :
    ∀ (ants : List Antenna.Ant)
      (_ : ∀ a ∈ ants, a.onRank = true → ∀ q : ℝ, ∀ p ∈ antennaPtcls q a, nearBox g p)
      (A A' : Buf), AntennasLaunched f g beta m ants A A' ↔
        A' = A + (ants.map (gpuAntBuf f g beta m)).sum := by
  intro ants
  induction ants with
  | nil =>
    intro _ A A'
    rw [List.map_nil, List.sum_nil, add_zero]
    constructor
    · intro h; cases h; rfl
    · rintro rfl; exact .nil _
  | cons a ants ih =>
    intro H A A'
    have ih' := ih fun x hx => H x (by simp [hx])
    rw [List.map_cons, List.sum_cons]
    by_cases hr : a.onRank = true
    · have hn := H a (by simp) hr
      have hk : ∀ (q : ℝ) tpb, 0 < tpb → ∃ ops, unsortedKernel f q g (beta .linear m) m
          (threadsFor a.parts.length tpb) (antennaPtcls q a) = .ok ops ∧
          (ops.map opBuf).sum
            = ((antennaPtcls q a).map (gpuBuf .linear f 1 q g (beta .linear m) m)).sum := by
        intro q tpb htpb
        refine unsortedKernel_ok f q g hg _ (hbeta _ _) m _ (hn q) _ ?_
        rw [antennaPtcls, List.length_map]
        exact le_threadsFor _ _ htpb
      have e : gpuAntBuf f g beta m a
          = ((antennaPtcls (-1) a).map (gpuBuf .linear f 1 (-1) g (beta .linear m) m)).sum
      + ((antennaPtcls 1 a).map (gpuBuf .linear f 1 1 g (beta .linear m) m)).sum := by
        unfold gpuAntBuf; rw [if_pos hr]
      constructor
      · intro h
        cases h with
        | skip hr' => rw [hr] at hr'; cases hr'
        | launch tpb ops1 ops2 _ htpb hk1 hk2 hl1 hl2 h =>
          obtain ⟨o1, h1, h2⟩ := hk (-1) tpb htpb
          obtain ⟨o2, h3, h4⟩ := hk 1 tpb htpb
          rw [h1] at hk1
          rw [h3] at hk2
          cases hk1
          cases hk2
          rw [launched_iff, h2] at hl1
          rw [launched_iff, h4] at hl2
          rw [ih', hl2, hl1] at h
          rw [h, e]
          simp only [add_assoc]
      · intro h
        obtain ⟨o1, h1, h2⟩ := hk (-1) 1 Nat.one_pos
        obtain ⟨o2, h3, h4⟩ := hk 1 1 Nat.one_pos
        refine .launch 1 o1 o2 hr Nat.one_pos h1 h3 ((launched_iff _ _ _).2 rfl)
          ((launched_iff _ _ _).2 rfl) ((ih' _ _).2 ?_)
        rw [h, h2, h4, e]
        simp only [add_assoc]
    · have hr' : a.onRank = false := by simpa using hr
      have e : gpuAntBuf f g beta m a = 0 := by unfold gpuAntBuf; rw [if_neg hr]
      rw [e, zero_add, ← ih' A A']
      constructor
      · intro h
        cases h with
        | skip _ h => exact h
        | launch _ _ _ hr'' => rw [hr'] at hr''; cases hr''
      · intro h; exact .skip hr' h

theorem gpuDeposited_iff (hg : GridOk g) (hbeta : ∀ s k, (beta s k).length = g.Nr + 1)
    (hm : m < Nm ∨ Nm = 0) (sps : List GpuSpecies)
    (hs : ∀ sp ∈ sps, sp.q ≠ 0 → Delimits g sp.ptcls sp.prefixSum ∧ ∀ p ∈ sp.ptcls, nearBox g p)
    (ants : List Antenna.Ant)
    (ha : ∀ a ∈ ants, a.onRank = true → ∀ q : ℝ, ∀ p ∈ antennaPtcls q a, nearBox g p) (A : Buf) :
    GpuDeposited f c g beta Nm m sps ants A ↔
      A = (sps.map (gpuSpeciesBuf f c g beta m)).sum + (ants.map (gpuAntBuf f g beta m)).sum := by
  unfold GpuDeposited
  constructor
  · rintro ⟨A1, h1, h2⟩
    rw [speciesLaunched_iff f c g beta Nm m hg hbeta hm sps hs] at h1
    rw [antennasLaunched_iff f g beta m hg hbeta ants ha, h1, zero_add] at h2
    exact h2
  · intro h
    refine ⟨_, (speciesLaunched_iff f c g beta Nm m hg hbeta hm sps hs _ _).2 rfl,
      (antennasLaunched_iff f g beta m hg hbeta ants ha _ _).2 ?_⟩
    rw [h, zero_add]

end

/-! ### The CPU -/

theorem reduceBuf_add (Nz Nr : ℕ) (A B : Buf) :
    reduceBuf Nz Nr (A + B) = reduceBuf Nz Nr A + reduceBuf Nz Nr B := by
  unfold reduceBuf
  simp only [Pi.add_apply, cellBuf_add, Finset.sum_add_distrib]

theorem reduceBuf_zero (Nz Nr : ℕ) : reduceBuf Nz Nr 0 = 0 := by
  unfold reduceBuf
  simp [cellBuf_zero]

theorem reduceBuf_list_sum (Nz Nr : ℕ) (L : List Buf) :
    reduceBuf Nz Nr L.sum = (L.map (reduceBuf Nz Nr)).sum := by
  induction L with
  | nil => simp [reduceBuf_zero]
  | cons a L ih => simp [reduceBuf_add, ih]

theorem reduceBuf_cellBuf (Nz Nr i j : ℕ) (v : ℂ) (hi : i < Nz + 4) (hj : j < Nr + 4) :
    reduceBuf Nz Nr (cellBuf i j v) = cellBuf (foldRow Nz i) (foldCol Nr j) v := by
  unfold reduceBuf
  rw [Finset.sum_eq_single i, Finset.sum_eq_single j]
  · simp [cellBuf]
  · intro b _ hb
    rw [show cellBuf i j v i b = 0 by simp [cellBuf, hb], cellBuf_zero]
  · intro h; exact absurd (Finset.mem_range.2 hj) h
  · intro b _ hb
    exact Finset.sum_eq_zero fun x _ => by
      rw [show cellBuf i j v b x = 0 by simp [cellBuf, hb], cellBuf_zero]
  · intro h; exact absurd (Finset.mem_range.2 hi) h

theorem foldRow_cases (Nz i : ℕ) : (i = 0 ∧ foldRow Nz i = Nz - 2) ∨ (i = 1 ∧ foldRow Nz i = Nz - 1) ∨
    (2 ≤ i ∧ i < Nz + 2 ∧ foldRow Nz i = i - 2) ∨ (2 ≤ i ∧ i = Nz + 2 ∧ foldRow Nz i = 0) ∨
    (Nz + 2 < i ∧ foldRow Nz i = 1) := by
  unfold foldRow
  split_ifs <;> omega

theorem foldCol_cases (Nr j : ℕ) : (j = 0 ∧ foldCol Nr j = 1) ∨ (j = 1 ∧ foldCol Nr j = 0) ∨
    (2 ≤ j ∧ j < Nr + 2 ∧ foldCol Nr j = j - 2) ∨ (2 ≤ j ∧ Nr + 2 ≤ j ∧ foldCol Nr j = Nr - 1) := by
  unfold foldCol
  split_ifs <;> omega

theorem izW_cases (g : CylGrid) (p : DepPtcl) :
    (⌈g.zCell p.z⌉ < 0 ∧ izW g p = ⌈g.zCell p.z⌉ + g.Nz) ∨
    (0 ≤ ⌈g.zCell p.z⌉ ∧ ⌈g.zCell p.z⌉ > (g.Nz : ℤ) - 1 ∧ izW g p = ⌈g.zCell p.z⌉ - g.Nz) ∨
    (0 ≤ ⌈g.zCell p.z⌉ ∧ ⌈g.zCell p.z⌉ ≤ (g.Nz : ℤ) - 1 ∧ izW g p = ⌈g.zCell p.z⌉) := by
  unfold izW
  dsimp only
  split_ifs <;> omega

/-- The index `iz` brought into the grid. -/
theorem izIdx_cases (s : Shape) (Nz : ℕ) (iz : ℤ) (h0 : 0 ≤ iz) (h1 : iz < Nz) (a : ℕ) (ha : a < s.width) :
    let k : ℤ := iz - (s.width / 2 : ℕ) + a
    (k < 0 ∧ izIdx s Nz iz a = k + Nz) ∨ (0 ≤ k ∧ k < Nz ∧ izIdx s Nz iz a = k) ∨
      ((Nz : ℤ) ≤ k ∧ izIdx s Nz iz a = k - Nz) := by
  cases s
  · have hw : Shape.linear.width = 2 := rfl
    rw [hw] at ha ⊢
    have : a = 0 ∨ a = 1 := by omega
    rcases this with rfl | rfl <;> simp [izIdx] <;> (try split_ifs) <;> omega
  · have hw : Shape.cubic.width = 4 := rfl
    rw [hw] at ha ⊢
    have : a = 0 ∨ a = 1 ∨ a = 2 ∨ a = 3 := by omega
    rcases this with rfl | rfl | rfl | rfl <;> simp [izIdx] <;> (try split_ifs) <;> omega

/-- The index `ir` folded at the axis and cut at the last cell. -/
theorem irIdx_cases (s : Shape) (Nr : ℕ) (hr : 2 ≤ Nr) (ir : ℤ) (h0 : 0 ≤ ir) (h1 : ir ≤ Nr) (b : ℕ)
    (hb : b < s.width) :
    let k : ℤ := ir - (s.width / 2 : ℕ) + b
    (k < 0 ∧ irIdx s Nr ir b = -(1 + k)) ∨ (0 ≤ k ∧ k < Nr ∧ irIdx s Nr ir b = k) ∨
      ((Nr : ℤ) ≤ k ∧ irIdx s Nr ir b = Nr - 1) := by
  cases s
  · have hw : Shape.linear.width = 2 := rfl
    rw [hw] at hb ⊢
    have : b = 0 ∨ b = 1 := by omega
    rcases this with rfl | rfl <;> simp [irIdx] <;> (try split_ifs) <;> omega
  · have hw : Shape.cubic.width = 4 := rfl
    rw [hw] at hb ⊢
    have : b = 0 ∨ b = 1 ∨ b = 2 ∨ b = 3 := by omega
    rcases this with rfl | rfl | rfl | rfl <;> simp [irIdx] <;> (try split_ifs) <;> omega

theorem izCell_eq (s : Shape) (z : ℝ) : izCell s z = ⌈z⌉ + 2 - (s.width / 2 : ℕ) := by
  cases s
  · show ⌈z⌉ + 1 = ⌈z⌉ + 2 - 1; omega
  · show ⌈z⌉ = ⌈z⌉ + 2 - 2; omega

theorem irCell_eq (s : Shape) (r : ℝ) (Nr : ℕ) :
    irCell s r Nr = min ⌈r⌉ Nr + 2 - (s.width / 2 : ℕ) ∨
      (min ⌈r⌉ (Nr : ℤ) = Nr ∧ s.width / 2 = 1 ∧ irCell s r Nr = Nr + 2) := by
  cases s
  · show min (⌈r⌉ + 1) ((Nr : ℤ) + 2) = min ⌈r⌉ Nr + 2 - 1 ∨
      (min ⌈r⌉ (Nr : ℤ) = Nr ∧ 1 = 1 ∧ min (⌈r⌉ + 1) ((Nr : ℤ) + 2) = Nr + 2)
    omega
  · left
    show min ⌈r⌉ (Nr : ℤ) = min ⌈r⌉ Nr + 2 - 2; omega

theorem width_div (s : Shape) : 1 ≤ s.width / 2 ∧ s.width / 2 ≤ 2 ∧ s.width = 2 * (s.width / 2) := by
  cases s <;> simp [Shape.width]

theorem row_eq (s : Shape) (g : CylGrid) (hg : GridOk g) (p : DepPtcl)
    (h0 : 0 ≤ izCell s (g.zCell p.z)) (h1 : izCell s (g.zCell p.z) + s.width ≤ g.Nz + 4)
    (a : ℕ) (ha : a < s.width) :
    foldRow g.Nz (wrapIdx (g.Nz + 4) (izCell s (g.zCell p.z) + a))
      = (izIdx s g.Nz (izW g p) a).toNat := by
  have hz := hg.hz
  obtain ⟨w1, w2, w3⟩ := width_div s
  rw [wrapIdx_of_nonneg (by omega)]
  have hc := izCell_eq s (g.zCell p.z)
  have hW := izW_cases g p
  have hW0 : 0 ≤ izW g p ∧ izW g p < g.Nz := by omega
  have hI := izIdx_cases s g.Nz (izW g p) hW0.1 hW0.2 a ha
  have hF := foldRow_cases g.Nz (izCell s (g.zCell p.z) + a).toNat
  dsimp only at hI
  generalize foldRow g.Nz (izCell s (g.zCell p.z) + a).toNat = F at *
  generalize izIdx s g.Nz (izW g p) a = I at *
  generalize izW g p = W at *
  generalize izCell s (g.zCell p.z) = C at *
  generalize s.width / 2 = w at *
  omega

theorem col_eq (s : Shape) (g : CylGrid) (hg : GridOk g) (p : DepPtcl) (b : ℕ) (hb : b < s.width) :
    foldCol g.Nr (wrapIdx (g.Nr + 4) (irCell s (g.rCell (cylR p.x p.y)) g.Nr + b))
      = (irIdx s g.Nr (betaIdx g p) b).toNat := by
  have hr := hg.hr
  obtain ⟨w1, w2, w3⟩ := width_div s
  obtain ⟨h0, h1⟩ := betaIdx_range g hg p
  have hc : irCell s (g.rCell (cylR p.x p.y)) g.Nr = betaIdx g p + 2 - (s.width / 2 : ℕ) ∨
      (betaIdx g p = g.Nr ∧ s.width / 2 = 1 ∧ irCell s (g.rCell (cylR p.x p.y)) g.Nr = g.Nr + 2) :=
    irCell_eq s _ _
  rw [wrapIdx_of_nonneg (by omega)]
  have hI := irIdx_cases s g.Nr hr (betaIdx g p) h0 h1 b hb
  have hF := foldCol_cases g.Nr (irCell s (g.rCell (cylR p.x p.y)) g.Nr + b).toNat
  dsimp only at hI
  generalize foldCol g.Nr (irCell s (g.rCell (cylR p.x p.y)) g.Nr + b).toNat = F at *
  generalize irIdx s g.Nr (betaIdx g p) b = I at *
  generalize betaIdx g p = W at *
  generalize irCell s (g.rCell (cylR p.x p.y)) g.Nr = C at *
  generalize s.width / 2 = w at *
  omega

/-- Within the reach of the guard cells, the CPU adds the same array for each particle. -/
theorem reduce_ptclBuf (s : Shape) (f : DepField) (c q : ℝ) (g : CylGrid) (hg : GridOk g)
    (beta : List ℝ) (m : ℕ) (p : DepPtcl)
    (h0 : 0 ≤ izCell s (g.zCell p.z)) (h1 : izCell s (g.zCell p.z) + s.width ≤ g.Nz + 4) :
    reduceBuf g.Nz g.Nr (ptclBuf s f c q g beta m p) = gpuBuf s f c q g beta m p := by
  unfold ptclBuf addsOf ptclAdds
  simp only []
  rw [list_sum_flatMap, reduceBuf_list_sum, List.map_map, list_map_range_sum]
  unfold gpuBuf regsBuf
  apply Finset.sum_congr rfl
  intro a ha
  simp only [Function.comp, List.map_map]
  rw [reduceBuf_list_sum, List.map_map, list_map_range_sum]
  apply Finset.sum_congr rfl
  intro b hb
  rw [Finset.mem_range] at ha hb
  have hrng := betaIdx_range g hg p
  simp only [Function.comp, addBuf]
  rw [reduceBuf_cellBuf _ _ _ _ _
      (wrapIdx_lt ⟨by push_cast; omega, by push_cast; omega⟩)
      (wrapIdx_lt (by
        unfold betaIdx at hrng
        cases s <;> simp only [irCell, Shape.width, idxOk] at hb ⊢ <;>
          constructor <;> push_cast <;> omega)),
    row_eq s g hg p h0 h1 a ha, col_eq s g hg p b hb]
  unfold contrib
  rw [mul_comm (s.sz _ _)]

end Fbpic.GpuDeposit
