import Verif.Lemmas.GpuDeposit
import Verif.Lemmas.SortFlag
import Verif.Props.Antenna
import Verif.Model.CellVolume

/-! # C70: deposition on the GPU -/

namespace Fbpic

open GpuDeposit Antenna

/-- A species on the GPU that holds the particles of a species on the CPU, sorted on the grid `g`. -/
def SortedOn (g : CylGrid) (sp : DepSpecies) (gp : GpuSpecies) : Prop :=
  gp.q = sp.q ∧ gp.shape = sp.shape ∧ Sorts g sp.ptcls gp.ptcls gp.prefixSum

/-- A position within reach of the guard cells of the buffers on the CPU. -/
def InReach (g : CylGrid) (s : Shape) (z : ℝ) : Prop :=
  -s.reach < g.invdz * (z - g.zmin) ∧ g.invdz * (z - g.zmin) ≤ g.Nz + s.reach

private theorem inReach_near (g : CylGrid) (hg : GridOk g) (s : Shape) (p : DepPtcl)
    (h : InReach g s p.z) : nearBox g p := by
  obtain ⟨h0, h1⟩ := h
  have hz : (2 : ℝ) ≤ g.Nz := by exact_mod_cast hg.hz
  have hr : s.reach ≤ 3 / 2 := by cases s <;> norm_num [Shape.reach]
  exact ⟨by linarith, by linarith⟩

private theorem reduce_eq (s : Shape) (f : DepField) (c q : ℝ) (g : CylGrid) (hg : GridOk g)
    (beta : List ℝ) (m : ℕ) (p : DepPtcl) (h : InReach g s p.z) :
    reduceBuf g.Nz g.Nr (ptclBuf s f c q g beta m p) = gpuBuf s f c q g beta m p := by
  obtain ⟨h0, h1⟩ := (reach_iff s g p.z).1 h
  exact reduce_ptclBuf s f c q g hg beta m p h0 h1

private theorem scal0_antenna (f : DepField) (c q : ℝ) (hc : c ≠ 0) (x y z w vx vy vz : ℝ) :
    f.scal0 1 q ⟨x, y, z, w, vx, vy, vz, 1⟩ = f.scal0 c q ⟨x, y, z, w, vx / c, vy / c, vz / c, 1⟩ := by
  cases f <;> simp only [DepField.scal0] <;> field_simp

private theorem gpuBuf_antenna (f : DepField) (k : Consts) (hc : k.c ≠ 0) (q : ℝ) (g : CylGrid)
    (beta : List ℝ) (m : ℕ) (a : Ant) :
    (antennaPtcls q a).map (gpuBuf .linear f 1 q g beta m)
      = (species k q a).ptcls.map (gpuBuf .linear f k.c q g beta m) := by
  unfold antennaPtcls species
  simp only [List.map_map]
  apply List.map_congr_left
  intro p _
  simp only [Function.comp]
  unfold gpuBuf
  congr 1
  funext a b
  unfold contrib
  congr 1
  unfold scalOf
  rw [scal0_antenna f k.c q hc]

/-- **C70.** Deposition on the GPU and on the CPU give the same array. For every mode, every quantity, all
species and antennas within reach of the guard cells, and arrays sorted on the grid onto which they are
deposited: the CPU succeeds for every number of threads, always with the same array `A`; and `B` is a possible
result of the GPU (for some order of the atomic additions and some block size) if and only if `B = A`.
In particular no kernel accesses memory out of bounds. -/
theorem C70_gpu_cpu (k : Consts) (hc : k.c ≠ 0) (f : DepField) (g : CylGrid) (hg : GridOk g)
    (beta : Shape → ℕ → List ℝ) (hbeta : ∀ s j, (beta s j).length = g.Nr + 1) (Nm m : ℕ) (hm : m < Nm)
    (hmode : ∀ s, beta s m = beta s (min m 1))
    (cpu : List DepSpecies) (gpu : List GpuSpecies) (hsort : List.Forall₂ (SortedOn g) cpu gpu)
    (ants : List Ant)
    (hreach : ∀ sp ∈ cpu, ∀ p ∈ sp.ptcls, InReach g sp.shape p.z)
    (hants : ∀ a ∈ ants, ∀ p ∈ a.parts, InReach g .linear p.z) :
    ∃ A, (∀ n, 0 < n → depositAllWith k f g beta m n cpu ants = .ok A) ∧
      ∀ B, GpuDeposited f k.c g beta Nm m gpu ants B ↔ B = A := by
  -- the GPU
  have hgpu : ∀ gp ∈ gpu, gp.q ≠ 0 → Delimits g gp.ptcls gp.prefixSum ∧ ∀ p ∈ gp.ptcls, nearBox g p := by
    intro gp hgp _
    obtain ⟨sp, hsp, -, -, hs⟩ : ∃ sp ∈ cpu, SortedOn g sp gp := by
      clear hreach
      induction hsort with
      | nil => cases hgp
      | cons h _ ih =>
        rcases List.mem_cons.1 hgp with rfl | hgp
        · exact ⟨_, List.mem_cons_self, h⟩
        · obtain ⟨sp, hsp, h'⟩ := ih hgp
          exact ⟨sp, List.mem_cons_of_mem _ hsp, h'⟩
    have hn : ∀ p ∈ sp.ptcls, nearBox g p := fun p hp => inReach_near g hg _ p (hreach sp hsp p hp)
    obtain ⟨hperm, hd⟩ := sorts_delimits g hg _ _ _ hn hs
    exact ⟨hd, fun p hp => hn p (hperm.subset hp)⟩
  have hap : ∀ a ∈ ants, a.onRank = true → ∀ q : ℝ, ∀ p ∈ antennaPtcls q a, nearBox g p := by
    intro a ha _ q p hp
    obtain ⟨v, hv, rfl⟩ := List.mem_map.1 hp
    exact inReach_near g hg .linear _ (hants a ha v hv)
  have key := gpuDeposited_iff f k.c g beta Nm m hg hbeta (Or.inl hm) gpu hgpu ants hap
  refine ⟨_, ?_, key⟩
  intro n hn
  -- the CPU
  rw [depositAllWith_eq]
  set all := cpu ++ ants.flatMap fun a => if a.onRank then [species k (-1) a, species k 1 a] else [] with hall
  have hreach' : ∀ sp ∈ all, ∀ p ∈ sp.ptcls, InReach g sp.shape p.z := by
    intro sp hsp p hp
    rw [hall, List.mem_append] at hsp
    rcases hsp with hsp | hsp
    · exact hreach sp hsp p hp
    · obtain ⟨a, ha, hsp⟩ := List.mem_flatMap.1 hsp
      by_cases hr : a.onRank
      · rw [if_pos hr] at hsp
        have hq : ∀ q, sp = species k q a → InReach g sp.shape p.z := by
          rintro q rfl
          obtain ⟨v, hv, rfl⟩ := List.mem_map.1 hp
          exact hants a ha v hv
        rcases List.mem_cons.1 hsp with h | h
        · exact hq _ h
        · exact hq _ (List.mem_singleton.1 h)
      · rw [if_neg hr] at hsp; cases hsp
  obtain ⟨A, hA⟩ := C24_deposit_partial f k.c g beta m n hn all hbeta hg.hinv hg.hrmin hreach'
  rw [hA]
  congr 1
  obtain ⟨-, rfl⟩ := (depositAll_ok f k.c g beta m n hn all A).1 hA
  rw [reduceBuf_list_sum, List.map_map]
  have hsp : ∀ sp ∈ all, (reduceBuf g.Nz g.Nr ∘ speciesBuf f k.c g beta m) sp
      = if sp.q = 0 then 0 else (sp.ptcls.map (gpuBuf sp.shape f k.c sp.q g (beta sp.shape m) m)).sum := by
    intro sp hsp
    simp only [Function.comp, speciesBuf]
    by_cases hq : sp.q = 0
    · rw [if_pos hq, if_pos hq, reduceBuf_zero]
    · rw [if_neg hq, if_neg hq, reduceBuf_list_sum, List.map_map, hmode]
      congr 1
      apply List.map_congr_left
      intro p hp
      exact reduce_eq _ _ _ _ g hg _ _ p (hreach' sp hsp p hp)
  rw [List.map_congr_left hsp, hall, List.map_append, List.sum_append]
  congr 1
  · clear hsp hall hreach' hA key hgpu all
    induction hsort with
    | nil => rfl
    | @cons sp gp cpu gpu h _ ih =>
      rw [List.map_cons, List.map_cons, List.sum_cons, List.sum_cons,
        ih fun sp hsp => hreach sp (List.mem_cons_of_mem _ hsp)]
      congr 1
      obtain ⟨h1, h2, h3⟩ := h
      have hn : ∀ p ∈ sp.ptcls, nearBox g p :=
        fun p hp => inReach_near g hg _ p (hreach sp List.mem_cons_self p hp)
      obtain ⟨hperm, -⟩ := sorts_delimits g hg _ _ _ hn h3
      unfold gpuSpeciesBuf
      rw [h1, h2, (hperm.map _).sum_eq]
  · clear hsp hall hreach' hA key hgpu all
    induction ants with
    | nil => rfl
    | cons a ants ih =>
      rw [List.flatMap_cons, List.map_append, List.sum_append, List.map_cons, List.sum_cons,
        ih (fun x hx => hants x (List.mem_cons_of_mem _ hx)) (fun x hx => hap x (List.mem_cons_of_mem _ hx))]
      congr 1
      unfold gpuAntBuf
      by_cases hr : a.onRank
      · rw [if_pos hr, if_pos hr, gpuBuf_antenna f k hc, gpuBuf_antenna f k hc]
        simp [species]
      · rw [if_neg hr, if_neg hr]; rfl

open CellVolume in
/-- **C70** (coefficients): the GPU passes the Ruyten coefficients of the grid of each mode, the CPU those of mode 0 and mode 1; for
the coefficients computed by the constructor of the grids, with standard or modified volumes and with or without Ruyten correction,
the conditions of `C70_gpu_cpu` on them hold for all modes. -/
theorem C70_coefs (useRuyten useMod : Bool) (dr dz : ℝ) (Nr : ℕ) (M : ℕ → ℕ → ℝ) (alphas j1 : ℕ → ℝ) (s : Shape) (m : ℕ) :
    let beta := fun m => ruytenCoefs useRuyten s (cellVol useMod m dr dz Nr M alphas j1) dr dz Nr
    (beta m).length = Nr + 1 ∧ beta m = beta (min m 1) := by
  intro beta
  refine ⟨by simp [beta, ruytenCoefs], ?_⟩
  have : (m = 0) ↔ (min m 1 = 0) := by omega
  simp only [beta, cellVol, this]

/-! ### Total charge -/

private theorem pair_regsBuf (s : Shape) (g : CylGrid) (hg : GridOk g) (iz ir : ℤ) (hz0 : 0 ≤ iz)
    (hz1 : iz < g.Nz) (hr0 : 0 ≤ ir) (hr1 : ir ≤ g.Nr) (R : Regs) :
    pair g.Nz g.Nr (fun _ _ => 1) (regsBuf s g iz ir R)
      = ∑ a ∈ Finset.range s.width, ∑ b ∈ Finset.range s.width, R a b := by
  unfold regsBuf
  rw [pair_sum]
  apply Finset.sum_congr rfl
  intro a _
  rw [pair_sum]
  apply Finset.sum_congr rfl
  intro b _
  obtain ⟨h1, h2⟩ := izIdx_range s g.Nz hg.hz iz hz0 hz1 a
  obtain ⟨h3, h4⟩ := irIdx_range s g.Nr hg.hr ir hr0 hr1 b
  rw [pair_cellBuf _ _ _ _ _ _ (by omega) (by omega), mul_one]

private theorem pair_gpuBuf (s : Shape) (f : DepField) (hf : f.flip 0 = 1) (c q : ℝ) (g : CylGrid)
    (hg : GridOk g) (beta : List ℝ) (p : DepPtcl) (h : nearBox g p) :
    pair g.Nz g.Nr (fun _ _ => 1) (gpuBuf s f c q g beta 0 p) = ((f.scal0 c q p : ℝ) : ℂ) := by
  obtain ⟨hz0, hz1⟩ := izW_range g p h
  obtain ⟨hr0, hr1⟩ := betaIdx_range g hg p
  unfold gpuBuf
  rw [pair_regsBuf s g hg _ _ hz0 hz1 hr0 hr1]
  have h1 := (C22_longitudinal s (g.zCell p.z)).1
  have h2 := (C22_radial s (g.rCell (cylR p.x p.y)) (betaOf g beta p)).1
  have e : ∀ a b, contrib s f c q g beta 0 p a b
      = (((f.scal0 c q p * s.sz (g.zCell p.z) a) * s.sr (g.rCell (cylR p.x p.y)) b 1 (betaOf g beta p) : ℝ) : ℂ) := by
    intro a b
    unfold contrib scalOf modeScal
    rw [hf]
    push_cast
    ring
  simp only [e, ← Complex.ofReal_sum, ← Finset.mul_sum, h2, mul_one, h1]

private theorem pair_species (f : DepField) (hf : f.flip 0 = 1) (c : ℝ) (g : CylGrid) (hg : GridOk g)
    (s : Shape) (q : ℝ) (beta : List ℝ) (ps : List DepPtcl) (h : ∀ p ∈ ps, nearBox g p) :
    pair g.Nz g.Nr (fun _ _ => 1) ((ps.map (gpuBuf s f c q g beta 0)).sum)
      = (((ps.map fun p => f.scal0 c q p).sum : ℝ) : ℂ) := by
  induction ps with
  | nil => simp [pair_zero]
  | cons p ps ih =>
    rw [List.map_cons, List.sum_cons, pair_add, pair_gpuBuf s f hf c q g hg beta p (h p (by simp)),
      ih fun p hp => h p (by simp [hp])]
    simp

/-- **C70** (charge): on the GPU, for particles and antennas anywhere less than one box length outside of the
grid (much further than what the CPU accepts), the deposition succeeds and the sum over the grid of the mode-0
charge density equals `Σ q w`, for every order of the atomic additions. -/
theorem C70_gpu_charge (c : ℝ) (g : CylGrid) (hg : GridOk g)
    (beta : Shape → ℕ → List ℝ) (hbeta : ∀ s j, (beta s j).length = g.Nr + 1) (Nm : ℕ) (hm : 0 < Nm)
    (cpu : List DepSpecies) (gpu : List GpuSpecies) (hsort : List.Forall₂ (SortedOn g) cpu gpu)
    (ants : List Ant) (hnear : ∀ sp ∈ cpu, ∀ p ∈ sp.ptcls, nearBox g p)
    (hants : ∀ a ∈ ants, a.onRank = true → ∀ q : ℝ, ∀ p ∈ antennaPtcls q a, nearBox g p) :
    (∃ B, GpuDeposited .rho c g beta Nm 0 gpu ants B) ∧
    ∀ B, GpuDeposited .rho c g beta Nm 0 gpu ants B →
      ∑ iz ∈ Finset.range g.Nz, ∑ ir ∈ Finset.range g.Nr, B iz ir
        = (((cpu.map fun sp => (sp.ptcls.map fun p => sp.q * p.w).sum).sum : ℝ) : ℂ) := by
  have hgpu : ∀ gp ∈ gpu, gp.q ≠ 0 → Delimits g gp.ptcls gp.prefixSum ∧ ∀ p ∈ gp.ptcls, nearBox g p := by
    intro gp hgp _
    obtain ⟨sp, hsp, -, -, hs⟩ : ∃ sp ∈ cpu, SortedOn g sp gp := by
      clear hnear
      induction hsort with
      | nil => cases hgp
      | cons h _ ih =>
        rcases List.mem_cons.1 hgp with rfl | hgp
        · exact ⟨_, List.mem_cons_self, h⟩
        · obtain ⟨sp, hsp, h'⟩ := ih hgp
          exact ⟨sp, List.mem_cons_of_mem _ hsp, h'⟩
    obtain ⟨hperm, hd⟩ := sorts_delimits g hg _ _ _ (hnear sp hsp) hs
    exact ⟨hd, fun p hp => hnear sp hsp p (hperm.subset hp)⟩
  have key := gpuDeposited_iff .rho c g beta Nm 0 hg hbeta (Or.inl hm) gpu hgpu ants hants
  refine ⟨⟨_, (key _).2 rfl⟩, ?_⟩
  intro B hB
  rw [key] at hB
  have hf : DepField.rho.flip 0 = 1 := by simp [DepField.flip]
  have h1 : ∑ iz ∈ Finset.range g.Nz, ∑ ir ∈ Finset.range g.Nr, B iz ir
      = pair g.Nz g.Nr (fun _ _ => 1) B := by simp [pair]
  rw [h1, hB, pair_add]
  have hant : pair g.Nz g.Nr (fun _ _ => 1) ((ants.map (gpuAntBuf .rho g beta 0)).sum) = 0 := by
    clear hB key hgpu
    induction ants with
    | nil => simp [pair_zero]
    | cons a ants ih =>
      rw [List.map_cons, List.sum_cons, pair_add, ih fun x hx => hants x (by simp [hx]), add_zero]
      unfold gpuAntBuf
      by_cases hr : a.onRank
      · rw [if_pos hr, pair_add, pair_species .rho hf 1 g hg _ _ _ _ (hants a (by simp) hr _),
          pair_species .rho hf 1 g hg _ _ _ _ (hants a (by simp) hr _), ← Complex.ofReal_add]
        unfold antennaPtcls
        simp only [List.map_map, Function.comp, DepField.scal0]
        generalize a.parts = L
        have : (List.map (fun p : VP => (-1 : ℝ) * p.w) L).sum + (List.map (fun p : VP => (1 : ℝ) * p.w) L).sum = 0 := by
          induction L with
          | nil => simp
          | cons v L ih => simp only [List.map_cons, List.sum_cons]; linarith
        exact_mod_cast congrArg (fun x : ℝ => (x : ℂ)) this
      · rw [if_neg hr, pair_zero]
  rw [hant, add_zero]
  clear hB key hgpu hant h1
  induction hsort with
  | nil => simp [pair_zero]
  | @cons sp gp cpu gpu h _ ih =>
    rw [List.map_cons, List.map_cons, List.sum_cons, List.sum_cons, pair_add,
      ih fun sp hsp => hnear sp (List.mem_cons_of_mem _ hsp)]
    obtain ⟨h1, h2, h3⟩ := h
    have hn := hnear sp List.mem_cons_self
    obtain ⟨hperm, -⟩ := sorts_delimits g hg _ _ _ hn h3
    have : pair g.Nz g.Nr (fun _ _ => 1) (gpuSpeciesBuf .rho c g beta 0 gp)
        = (((sp.ptcls.map fun p => sp.q * p.w).sum : ℝ) : ℂ) := by
      unfold gpuSpeciesBuf
      by_cases hq : gp.q = 0
      · rw [if_pos hq, pair_zero]
        simp [← h1, hq]
      · rw [if_neg hq, (hperm.map _).sum_eq, pair_species .rho hf c g hg _ _ _ _ hn, h1]
        simp only [DepField.scal0]
    rw [this]
    push_cast
    ring

/-! ### Arrays sorted for another grid -/

/-- Example: one electron, and the same electron sorted on the grid with `zmin = 0`. -/
private noncomputable def exGrid (zmin : ℝ) : CylGrid := ⟨1, zmin, 4, 1, 0, 2⟩

private def exPtcl : DepPtcl := ⟨1, 0, 1, 1, 0, 0, 0, 1⟩

private theorem exGrid_ok (z : ℝ) : GridOk (exGrid z) :=
  ⟨by simp [exGrid], by simp [exGrid], by simp [exGrid], rfl⟩

private theorem exR : cylR exPtcl.x exPtcl.y = 1 := by simp [cylR, exPtcl]

private theorem ex_ceil_half : ⌈(1 / 2 : ℝ)⌉ = 1 := by rw [Int.ceil_eq_iff]; norm_num

private theorem ex_ceil_neg : ⌈(-1 / 2 : ℝ)⌉ = 0 := by rw [Int.ceil_eq_iff]; norm_num

private theorem exZ0 : (exGrid 0).zCell exPtcl.z = 1 / 2 := by norm_num [exGrid, exPtcl, CylGrid.zCell]

private theorem exZ1 : (exGrid 1).zCell exPtcl.z = -1 / 2 := by norm_num [exGrid, exPtcl, CylGrid.zCell]

private theorem exRc (z : ℝ) : (exGrid z).rCell (cylR exPtcl.x exPtcl.y) = 1 / 2 := by
  rw [exR]; norm_num [exGrid, CylGrid.rCell]

private theorem exBeta (z : ℝ) : betaIdx (exGrid z) exPtcl = 1 := by
  unfold betaIdx; rw [exRc, ex_ceil_half]; simp [exGrid]

private theorem exCell : cellNat (exGrid 0) exPtcl = 4 := by
  unfold cellNat
  rw [cellIdx_eq, exBeta]
  unfold izW
  simp only []
  rw [exZ0, ex_ceil_half]
  simp [exGrid]

private theorem exIz1 : izW (exGrid 1) exPtcl = 0 := by
  unfold izW
  simp only []
  rw [exZ1, ex_ceil_neg]
  simp [exGrid]

/-- The arrays sorted by `sort_particles` on the first grid. -/
private noncomputable def exGpu : GpuSpecies := ⟨-1, .linear, [exPtcl],
  Sorting.prefixSum (fun _ => 4) 1 12 (List.range 12) [0] (fun _ => 0)⟩

private theorem ex_sorted : SortedOn (exGrid 0) ⟨-1, .linear, [exPtcl]⟩ exGpu := by
  refine ⟨rfl, rfl, fun _ => 4, fun i => i, fun _ => 0, List.range 12, [0], ?_, ?_, ?_, ?_, rfl, ?_⟩
  · refine ⟨by simp, ?_, ?_⟩
    · intro i hi
      have : i = 0 := by simpa using hi
      subst this
      exact exCell.symm
    · intro i j _ _; rfl
  · intro i hi
    simpa [exGrid] using hi
  · intro i hi; simpa using hi
  · rfl
  · intro i _; rfl

private theorem ex_prefix (P : ℕ → ℕ) (h : Delimits (exGrid 0) [exPtcl] P) (i : ℕ) (hi : i < 12) :
    P i = if i < 4 then 0 else 1 := by
  have hN : (exGrid 0).Nz * ((exGrid 0).Nr + 1) = 12 := rfl
  have hle : ∀ c, c < 12 → (if c = 0 then 0 else P (c - 1)) ≤ P c ∧ P c ≤ 1 := by
    intro c hc; exact h.le c (by rw [hN]; exact hc)
  have hiff : ∀ c, c < 12 → (((if c = 0 then 0 else P (c - 1)) ≤ 0 ∧ 0 < P c) ↔ 4 = c) := by
    intro c hc
    have := h.iff c (by rw [hN]; exact hc) 0 (by simp)
    rw [List.getElem_cons_zero, exCell] at this
    exact this
  have key : ∀ j, j < 12 → P j = if j < 4 then 0 else 1 := by
    intro j
    induction j with
    | zero =>
      intro hj
      have := hiff 0 hj
      simp at this ⊢
      omega
    | succ j ih =>
      intro hj
      have h1 := ih (by omega)
      have h2 := hiff (j + 1) hj
      have h3 := hle (j + 1) hj
      rw [if_neg (by omega), Nat.add_sub_cancel, h1] at h2 h3
      by_cases ha : j + 1 < 4
      · rw [if_pos ha]
        rw [if_pos (by omega)] at h2 h3
        omega
      · rw [if_neg ha]
        by_cases hb : j < 4
        · rw [if_pos hb] at h2 h3; omega
        · rw [if_neg hb] at h2 h3; omega
  exact key i hi

private theorem ex_kernel (beta : List ℝ) (hb : beta.length = 3) (P : ℕ → ℕ)
    (h : Delimits (exGrid 0) [exPtcl] P) (T : ℕ) (hT : 12 ≤ T) :
    ∃ ops, sortedKernel .linear .rho 1 (-1) (exGrid 1) beta 2 0 T [exPtcl] P = .ok ops ∧
      (ops.map opBuf).sum = regsBuf .linear (exGrid 1) 1 1 (contrib .linear .rho 1 (-1) (exGrid 1) beta 0 exPtcl) := by
  have hP := ex_prefix P h
  obtain ⟨M, h1, h2⟩ := mapM_sum (f := sortedThread .linear .rho 1 (-1) (exGrid 1) beta 2 0 [exPtcl] P)
    (G := fun i => if i = 4 then
      regsBuf .linear (exGrid 1) 1 1 (contrib .linear .rho 1 (-1) (exGrid 1) beta 0 exPtcl) else 0)
    (List.range T) (by
      intro i _
      by_cases hi : i < 12
      · have hfreq : (if i > 0 then P i - P (i - 1) else P i) = if i = 4 then 1 else 0 := by
          by_cases h0 : i > 0
          · rw [if_pos h0, hP i hi, hP (i - 1) (by omega)]
            split_ifs <;> omega
          · rw [if_neg h0, hP i hi]
            split_ifs <;> omega
        unfold sortedThread
        rw [if_pos (show i < (exGrid 1).Nz * ((exGrid 1).Nr + 1) from hi)]
        simp only []
        rw [hfreq]
        by_cases h4 : i = 4
        · subst h4
          rw [if_pos rfl, if_pos rfl, hP 4 (by norm_num), if_neg (by norm_num)]
          rw [foldlM_addPtcl .linear .rho 1 (-1) (exGrid 1) beta 2 0 (Or.inl (by norm_num)) [exPtcl]
            (fun p _ => betaIdx_ok (exGrid 1) (exGrid_ok 1) beta hb p) 1 (by simp) _
            (by intro j hj; rw [List.mem_range] at hj; exact hj)]
          simp only [bind, Except.bind, if_true, gt_iff_lt, Nat.one_pos]
          obtain ⟨ops, h3, h4⟩ := storeRegs_ok .linear (exGrid 1) (exGrid_ok 1).hz (exGrid_ok 1).hr 0 1 1
            (by norm_num) (by simp [exGrid]) (by norm_num) (by simp [exGrid])
            (contrib .linear .rho 1 (-1) (exGrid 1) beta 0 exPtcl)
            (fun _ a b => contrib_real _ _ _ _ _ _ 0 rfl _ a b)
          refine ⟨ops, ?_, h4⟩
          rw [← h3]
          congr 1
          funext a b
          simp
        · rw [if_neg h4, if_neg h4]
          exact ⟨[], rfl, rfl⟩
      · rw [if_neg (by omega)]
        refine ⟨[], ?_, rfl⟩
        unfold sortedThread
        rw [if_neg (show ¬ i < (exGrid 1).Nz * ((exGrid 1).Nr + 1) from hi)]; rfl)
  refine ⟨M.flatten, ?_, ?_⟩
  · unfold sortedKernel
    rw [h1]; rfl
  · rw [h2, list_map_range_sum, Finset.sum_ite_eq', if_pos (Finset.mem_range.2 (by omega))]

private theorem ex_launched (beta : Shape → ℕ → List ℝ) (hb : ∀ s j, (beta s j).length = 3) (gp : GpuSpecies)
    (h : SortedOn (exGrid 0) ⟨-1, .linear, [exPtcl]⟩ gp) (B : Buf) :
    GpuDeposited .rho 1 (exGrid 1) beta 2 0 [gp] [] B ↔
      B = regsBuf .linear (exGrid 1) 1 1
        (contrib .linear .rho 1 (-1) (exGrid 1) (beta .linear 0) 0 exPtcl) := by
  obtain ⟨h1, h2, h3⟩ := h
  have hn : ∀ p ∈ [exPtcl], nearBox (exGrid 0) p := by
    intro p hp
    rw [List.mem_singleton.1 hp]
    norm_num [nearBox, exGrid, exPtcl]
  obtain ⟨hperm, hd⟩ := sorts_delimits (exGrid 0) (exGrid_ok 0) _ _ _ hn h3
  have hl : gp.ptcls = [exPtcl] := List.perm_singleton.1 hperm
  rw [hl] at hd
  have hk : ∀ tpb, 0 < tpb → ∃ ops, sortedKernel gp.shape .rho 1 gp.q (exGrid 1) (beta gp.shape 0) 2 0
      (threadsFor ((exGrid 1).Nz * ((exGrid 1).Nr + 1)) tpb) gp.ptcls gp.prefixSum = .ok ops ∧
      (ops.map opBuf).sum = regsBuf .linear (exGrid 1) 1 1
        (contrib .linear .rho 1 (-1) (exGrid 1) (beta .linear 0) 0 exPtcl) := by
    intro tpb htpb
    rw [h1, h2, hl]
    exact ex_kernel _ (hb _ _) _ hd _ (le_threadsFor 12 tpb htpb)
  have hq : gp.q ≠ 0 := by rw [h1]; norm_num
  constructor
  · rintro ⟨A1, h4, h5⟩
    cases h5
    cases h4 with
    | skip hq' => exact absurd hq' hq
    | launch tpb ops _ htpb hk' hl' h' =>
      cases h'
      obtain ⟨ops', h6, h7⟩ := hk tpb htpb
      rw [h6] at hk'
      cases hk'
      rw [launched_iff, h7, zero_add] at hl'
      exact hl'
  · intro hB
    obtain ⟨ops, h6, h7⟩ := hk 1 Nat.one_pos
    refine ⟨B, .launch 1 ops hq Nat.one_pos h6 ((launched_iff _ _ _).2 ?_) (.nil _), .nil _⟩
    rw [h7, zero_add, hB]

/-- **C70** (violated for arrays sorted on another grid): with a grid displaced by one cell since the last
sorting, the GPU deposits without error, but not what the CPU deposits, whatever the order of the atomic
additions. `C70_stale_step` shows a run in which this happens. -/
theorem C70_stale_violated : ∃ (g g' : CylGrid) (beta : Shape → ℕ → List ℝ) (sp : DepSpecies) (A : Buf),
    GridOk g ∧ g' = { g with zmin := g.zmin + 1 / g.invdz } ∧ (∀ s j, (beta s j).length = g.Nr + 1) ∧
    (∀ p ∈ sp.ptcls, InReach g sp.shape p.z ∧ InReach g' sp.shape p.z) ∧
    (∀ n, 0 < n → depositAll .rho 1 g' beta 0 n [sp] = .ok A) ∧
    (∃ gp, SortedOn g sp gp) ∧
    ∀ gp, SortedOn g sp gp → (∃ B, GpuDeposited .rho 1 g' beta 2 0 [gp] [] B) ∧
      ∀ B, GpuDeposited .rho 1 g' beta 2 0 [gp] [] B → B ≠ A := by
  have hb : ∀ (s : Shape) (j : ℕ), ((fun _ _ => [0, 0, 0] : Shape → ℕ → List ℝ) s j).length = 3 := by
    intro s j; rfl
  have hre : ∀ p ∈ [exPtcl], InReach (exGrid 1) .linear p.z := by
    intro p hp
    rw [List.mem_singleton.1 hp]
    norm_num [InReach, exGrid, exPtcl, Shape.reach]
  have hcpu : ∀ n, 0 < n → depositAll .rho 1 (exGrid 1) (fun _ _ => [0, 0, 0]) 0 n [⟨-1, .linear, [exPtcl]⟩]
      = .ok (gpuBuf .linear .rho 1 (-1) (exGrid 1) [0, 0, 0] 0 exPtcl) := by
    intro n hn
    obtain ⟨A, hA⟩ := C24_deposit_partial .rho 1 (exGrid 1) (fun _ _ => [0, 0, 0]) 0 n hn
      [⟨-1, .linear, [exPtcl]⟩] hb (exGrid_ok 1).hinv rfl (by
        intro sp hsp p hp
        rw [List.mem_singleton.1 hsp] at hp ⊢
        exact hre p hp)
    rw [hA]
    obtain ⟨-, rfl⟩ := (depositAll_ok _ _ _ _ _ n hn _ _).1 hA
    congr 1
    simp only [List.map_cons, List.map_nil, List.sum_cons, List.sum_nil, add_zero, speciesBuf]
    rw [if_neg (by norm_num)]
    exact reduce_eq _ _ _ _ _ (exGrid_ok 1) _ _ _ (hre _ (by simp))
  refine ⟨exGrid 0, exGrid 1, fun _ _ => [0, 0, 0], ⟨-1, .linear, [exPtcl]⟩,
    gpuBuf .linear .rho 1 (-1) (exGrid 1) [0, 0, 0] 0 exPtcl, exGrid_ok 0, ?_, hb, ?_, hcpu,
    ⟨_, ex_sorted⟩, ?_⟩
  · norm_num [exGrid]
  · intro p hp
    refine ⟨?_, hre p hp⟩
    rw [List.mem_singleton.1 hp]
    norm_num [InReach, exGrid, exPtcl, Shape.reach]
  · intro gp hgp
    have key := ex_launched (fun _ _ => [0, 0, 0]) hb gp hgp
    refine ⟨⟨_, (key _).2 rfl⟩, ?_⟩
    intro B hB hBA
    rw [key] at hB
    -- row 3
    have h0 : B 3 0 = 0 := by
      rw [hB]
      simp [regsBuf, Shape.width, Finset.sum_range_succ, izIdx, irIdx, cellBuf]
    have h1 : gpuBuf .linear .rho 1 (-1) (exGrid 1) [0, 0, 0] 0 exPtcl 3 0 = -(1 / 4) := by
      unfold gpuBuf
      rw [exIz1, exBeta]
      have hbo : betaOf (exGrid 1) [0, 0, 0] exPtcl = 0 := by
        unfold betaOf; rw [exBeta]; simp [wrapIdx]
      simp [regsBuf, Shape.width, Finset.sum_range_succ, izIdx, irIdx, cellBuf, exGrid]
      unfold contrib scalOf
      rw [show (⟨1, 1, 4, 1, 0, 2⟩ : CylGrid) = exGrid 1 from rfl, hbo, exRc, exZ1]
      simp [modeScal, DepField.scal0, DepField.flip, Shape.sr, Shape.sz, srLinear, szLinear,
        ex_ceil_neg, exPtcl]
      norm_num [ex_ceil_half]
    rw [← hBA, h0] at h1
    norm_num at h1

/-! ### The PIC cycle -/

open Step in
/-- **C70** (sorted arrays): in every sequence of calls to `step` with `move_positions=True`, for every configuration
(Galilean or not, cross-deposition or not, moving window, any exchange period), every dynamics, and whenever particles are created,
sorted by diagnostics or exchanged: each deposition uses a prefix sum computed on the grid onto which it deposits. (A moving window
is only possible when particles are exchanged through buffers.) -/
theorem C70_fresh {K : Type} [Field K] (E : SortEnv K) (c : Cfg K) (d : Dynamics K)
    (hwin : c.movingWin = true → E.buffers = true) (L : List (ℕ × Opts))
    (hL : ∀ x ∈ L, x.2.movePositions = true) (w w' : Step.World K) (hw : w.log = [])
    (h : Step.World.calls c d L w = .ok w') :
    ∀ u ∈ (SortState.replay E w'.log).used, u.1 = u.2 := by
  have e : w.st E = ⟨false, 0, 0, []⟩ := by unfold Step.World.st; rw [hw]; rfl
  refine good_calls E c d hwin L hL w w' h ?_ ?_
  · rw [e]; intro u hu; cases hu
  · intro _; rw [e]; intro h; cases h

/-- A world before the first step. -/
private def exWorld : Step.World ℚ :=
  ⟨0, 0, ⟨1, 0, 1⟩, ⟨0, 0, 1⟩, ⟨0, 0, 0⟩, ⟨0, 0, 0⟩, 0, {}, {}, []⟩

private def exDyn : Step.Dynamics ℚ := ⟨fun _ _ v => v, fun _ _ v => v, fun _ x => x, fun _ => ⟨0, 0, 0⟩⟩

private def exUsed (buffers : Bool) (c : Step.Cfg ℚ) (L : List (ℕ × Step.Opts)) : Option (List (ℕ × ℕ)) :=
  match Step.World.calls c exDyn L exWorld with
  | .ok w => some (Step.SortState.replay ⟨buffers, fun _ => false, fun _ => false, fun _ => true⟩ w.log).used
  | .error _ => none

/-- Two steps in a Galilean frame with cross-deposition and a moving window: all depositions are fresh. -/
example : exUsed true ⟨1, 1, 1, true, true, 1, true⟩ [(2, {})]
    = some [(0, 0), (0, 0), (1, 1), (2, 2), (3, 3), (5, 5), (6, 6), (7, 7), (8, 8), (9, 9), (11, 11)] := by
  decide +kernel

open Step in
/-- **C70** (violated): two steps with `move_positions=False` in a Galilean frame, with a periodic grid on one process: from
the first half step on, the current and the charge are deposited with cell indices of the first grid, although the grid is
displaced at each half step. -/
theorem C70_stale_step : ∃ (c : Cfg ℚ) (d : Dynamics ℚ) (w : Step.World ℚ), c.useGalilean = true ∧ c.size = 1 ∧ w.log = [] ∧
    ∃ w', Step.World.calls c d [(2, { movePositions := false })] w = .ok w' ∧
      (SortState.replay ⟨false, fun _ => false, fun _ => false, fun _ => false⟩ w'.log).used
        = [(0, 0), (0, 0), (1, 0), (2, 0), (2, 0), (3, 0), (4, 0)] := by
  refine ⟨⟨1, 1, 1, false, true, 1, false⟩, exDyn, exWorld, rfl, rfl, rfl, ?_⟩
  have h : ∃ w', Step.World.calls (⟨1, 1, 1, false, true, 1, false⟩ : Cfg ℚ) exDyn [(2, { movePositions := false })] exWorld = .ok w' ∧
      decide ((SortState.replay ⟨false, fun _ => false, fun _ => false, fun _ => false⟩ w'.log).used
        = [(0, 0), (0, 0), (1, 0), (2, 0), (2, 0), (3, 0), (4, 0)]) = true := by
    cases h : Step.World.calls (⟨1, 1, 1, false, true, 1, false⟩ : Cfg ℚ) exDyn [(2, { movePositions := false })] exWorld with
    | error e =>
      exfalso
      have : (match Step.World.calls (⟨1, 1, 1, false, true, 1, false⟩ : Cfg ℚ) exDyn [(2, { movePositions := false })] exWorld with
        | .ok _ => true | .error _ => false) = true := by decide +kernel
      rw [h] at this
      cases this
    | ok w' =>
      refine ⟨w', rfl, ?_⟩
      have : (match Step.World.calls (⟨1, 1, 1, false, true, 1, false⟩ : Cfg ℚ) exDyn [(2, { movePositions := false })] exWorld with
        | .ok w' => decide ((SortState.replay ⟨false, fun _ => false, fun _ => false, fun _ => false⟩ w'.log).used
        = [(0, 0), (0, 0), (1, 0), (2, 0), (2, 0), (3, 0), (4, 0)]) | .error _ => false) = true := by decide +kernel
      rw [h] at this
      exact this
  obtain ⟨w', h1, h2⟩ := h
  exact ⟨w', h1, of_decide_eq_true h2⟩

/-! ### Examples -/

/-- Example for `C70_gpu_cpu`: an electron and an antenna with two pairs of virtual particles; mode 1 of 2. -/
example : ∃ A, (∀ n, 0 < n → depositAllWith ⟨1, 1, 1, 1⟩ .Jr (exGrid 0) (fun _ _ => [0, 0, 0]) 1 n
      [⟨-1, .linear, [exPtcl]⟩]
      [⟨fun _ _ _ _ => (0, 0), none, 1, [⟨1, 0, 3, 2, 1 / 100, 0, 1 / 2, 0, 0⟩], true⟩] = .ok A) ∧
    ∀ B, GpuDeposited .Jr 1 (exGrid 0) (fun _ _ => [0, 0, 0]) 2 1 [exGpu]
      [⟨fun _ _ _ _ => (0, 0), none, 1, [⟨1, 0, 3, 2, 1 / 100, 0, 1 / 2, 0, 0⟩], true⟩] B ↔ B = A :=
  C70_gpu_cpu ⟨1, 1, 1, 1⟩ one_ne_zero .Jr (exGrid 0) (exGrid_ok 0) (fun _ _ => [0, 0, 0]) (fun _ _ => rfl) 2 1
    (by norm_num) (fun _ => rfl) _ _ (.cons ex_sorted .nil) _
    (by
      intro sp hsp p hp
      rw [List.mem_singleton.1 hsp] at hp ⊢
      rw [List.mem_singleton.1 hp]
      norm_num [InReach, exGrid, exPtcl, Shape.reach])
    (by
      intro a ha p hp
      rw [List.mem_singleton.1 ha] at hp
      rw [List.mem_singleton.1 hp]
      norm_num [InReach, exGrid, Shape.reach])

/-- Example for `C70_gpu_charge`: the electron. -/
example : ∃ B, GpuDeposited .rho 1 (exGrid 0) (fun _ _ => [0, 0, 0]) 3 0 [exGpu] [] B ∧
    ∑ iz ∈ Finset.range 4, ∑ ir ∈ Finset.range 2, B iz ir = -1 := by
  obtain ⟨⟨B, hB⟩, h⟩ := C70_gpu_charge 1 (exGrid 0) (exGrid_ok 0) (fun _ _ => [0, 0, 0]) (fun _ _ => rfl) 3
    (by norm_num) _ _ (.cons ex_sorted .nil) []
    (by
      intro sp hsp p hp
      rw [List.mem_singleton.1 hsp] at hp
      rw [List.mem_singleton.1 hp]
      norm_num [nearBox, exGrid, exPtcl])
    (by intro a ha; cases ha)
  refine ⟨B, hB, (h B hB).trans ?_⟩
  simp [exPtcl]

end Fbpic
