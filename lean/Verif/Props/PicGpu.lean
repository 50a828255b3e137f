import Verif.Lemmas.PicGpu
import Verif.Props.PicCloud

/-! # C106: a run on the GPU gives the result of the run on the CPU -/

namespace Fbpic.Pic.Gpu

open Transform ExternalField Step Spec

variable (c : Cfg)

private theorem gridCfg {s : Sim} (h : UsualGrid c s) : GridCfg c :=
  ⟨h.Nz, h.Nr, h.invdr, h.threads, h.beta, fun sh k => by
    rcases Nat.eq_zero_or_pos k with rfl | hk
    · rfl
    · rw [h.modes sh k hk, min_eq_right hk]⟩

/-- The shapes in use. -/
private def shapes (s : Sim) (sh : Shape) : Prop := ∃ sp ∈ s.species, sp.shape = sh

private theorem match_of_same {s : Sim} {g : GSim} (h : UsualGrid c s) (hs : SameOnGpu s g) (hu : Unsorted g) :
    Match c (shapes s) false s g := by
  refine ⟨hs.zmin, hs.zmax, hs.time, hs.iteration, hs.interp, hs.spect, ?_, by rw [mul_comm]; exact h.box⟩
  have key : ∀ (A : List Species) (B : List GSpecies), List.Forall₂ SameSpeciesOnGpu A B →
      (∀ a ∈ A, a ∈ s.species) → (∀ b ∈ B, b.sorted = false) →
      List.Forall₂ (SpMatch c (shapes s) s.zmin false) A B := by
    intro A B hAB
    induction hAB with
    | nil => intro _ _; exact .nil
    | @cons a b A B hab _ ih =>
      intro h1 h2
      refine .cons ?_ (ih (fun a ha => h1 a (List.mem_cons_of_mem _ ha)) fun b hb => h2 b (List.mem_cons_of_mem _ hb))
      exact ⟨hab.q, hab.m, hab.shape, hab.tracer, hab.ionizable, hab.plane, (fun x => by cases x),
        ((permRel_iff _ _).1 hab.ptcl).mono (fun x => (by cases x.1)),
        (fun x => by rw [h2 b List.mem_cons_self] at x; cases x), (fun x => by cases x),
        ⟨a, h1 a List.mem_cons_self, rfl⟩⟩
  exact key _ _ hs.species (fun _ => id) hu

private theorem same_of_match {Sh : Shape → Prop} {full : Bool} {s : Sim} {g : GSim} (h : Match c Sh full s g) :
    SameOnGpu s g :=
  ⟨h.zmin, h.zmax, h.time, h.iteration, h.interp, h.spect, h.species.imp fun _ _ hab => ⟨hab.q, hab.m, hab.shape,
    hab.tracer, hab.ionizable, hab.plane, (permRel_iff _ _).2 (hab.ptcl.mono fun x => x.elim)⟩⟩

private theorem diag_of_match {Sh : Shape → Prop} {s : Sim} {g : GSim} (h : Match c Sh true s g) :
    SameAtDiagnostics s g := by
  refine ⟨same_of_match c h, h.species.imp fun a b hab hq => ?_⟩
  obtain ⟨L, h1, h2⟩ := hab.ptcl
  have : L = a.ptcl := by
    generalize a.ptcl = A at h1
    clear h2
    induction h1 with
    | nil => rfl
    | cons h _ ih => rw [h.eq ⟨rfl, hq⟩, ih]
  rw [← this]
  exact h2.symm

section
variable [NeZero c.Nz]

/-- **C106.** If a run succeeds on the CPU, with all particles within the reach of the arrays, then the same run on
the GPU goes through (for the transforms, the depositions and the sorting alike: some order of the threads is
possible), and whatever the order of the threads, of the additions and of equal keys in the sorting, it ends with
the same fields, in real and in spectral space, and the same macroparticles, up to their order. -/
theorem C106_gpu_run (L : List (ℕ × Opts)) (s t : Sim) (g : GSim) (hg : UsualGrid c s) (hL : NoFrozenGalilean c L)
    (hs : SameOnGpu s g) (hu : Unsorted g) (ht : c.calls L s = .ok t)
    (hseen : ∀ q ∈ t.seen, ∀ sp ∈ s.species, InReach (c.grid q.zmin) sp.shape q.z) :
    (∃ g', Calls c L g g') ∧ ∀ g', Calls c L g g' → SameOnGpu t g' := by
  have h := tracks_calls (Sh := shapes s) (gridCfg c hg) hg.invdz L hL s g (match_of_same c hg hs hu) t ht
    (fun q hq sh ⟨sp, hsp, hsh⟩ => hsh ▸ hseen q hq sp hsp)
  exact ⟨h.1, fun g' hg' => same_of_match c (h.2 g' hg')⟩

/-- **C106.** A reasonable simulation (C87) succeeds on the GPU too, with the result of the CPU. -/
theorem C106_gpu_reasonable (L : List (ℕ × Opts)) (s : Sim) (g : GSim) (h : Reasonable c L s) (hseen : s.seen = [])
    (hmodes : ∀ sh m, 1 ≤ m → c.beta sh m = c.beta sh 1) (hL : NoFrozenGalilean c L) (hs : SameOnGpu s g)
    (hu : Unsorted g) :
    ∃ t, c.calls L s = .ok t ∧ (∃ g', Calls c L g g') ∧ ∀ g', Calls c L g g' → SameOnGpu t g' := by
  obtain ⟨hc, hl⟩ := reasonable_invariant (fun _ => False) c L s h (-1)
    (fun _ _ _ _ => lt_of_lt_of_le (by norm_num) (Real.sqrt_nonneg _)) (by rw [hseen]; simp)
  obtain ⟨t, h1, h2⟩ := hl.calls c hc L _ s h.opts
  refine ⟨t, h1, C106_gpu_run c L s t g
    ⟨h.Nz, h.Nr, h.invdz, h.invdr, h.threads, h.beta, hmodes, h.box⟩ hL hs hu h1 fun q hq sp hsp => ?_⟩
  have hr := (hl.sp sp hsp).reach
  obtain ⟨h3, h4⟩ := (h2.seen q hq).2.resolve_left id
  have := mul_lt_mul_of_pos_left h3 h.invdz
  refine ⟨?_, ?_⟩
  · show -sp.shape.reach < c.invdz * (q.z - q.zmin)
    linarith
  · show c.invdz * (q.z - q.zmin) ≤ c.Nz + sp.shape.reach
    linarith

/-- **C106.** Two runs on the GPU that start in the same state end with identical fields and the same
macroparticles, up to their order, although the threads and the sorting are not deterministic. -/
theorem C106_reproducible (L : List (ℕ × Opts)) (s t : Sim) (g g' g'' : GSim) (hg : UsualGrid c s)
    (hL : NoFrozenGalilean c L) (hs : SameOnGpu s g) (hu : Unsorted g) (ht : c.calls L s = .ok t)
    (hseen : ∀ q ∈ t.seen, ∀ sp ∈ s.species, InReach (c.grid q.zmin) sp.shape q.z)
    (h1 : Calls c L g g') (h2 : Calls c L g g'') :
    g'.interp = g''.interp ∧ g'.spect = g''.spect ∧
      List.Forall₂ (fun a b => (b.sp.ptcl.map fun p => (p.push, p.w)).Perm (a.sp.ptcl.map fun p => (p.push, p.w)))
        g'.species g''.species := by
  have h := (C106_gpu_run c L s t g hg hL hs hu ht hseen).2
  have e1 := h g' h1
  have e2 := h g'' h2
  refine ⟨e1.interp.trans e2.interp.symm, e1.spect.trans e2.spect.symm, ?_⟩
  have f1 := e1.species
  have f2 := e2.species
  generalize t.species = A at f1 f2
  generalize g'.species = B at f1 ⊢
  generalize g''.species = B' at f2 ⊢
  induction f1 generalizing B' with
  | nil => cases f2; exact .nil
  | cons h _ ih =>
    cases f2 with
    | cons h' f2 => exact .cons (h'.ptcl.trans h.ptcl.symm) (ih _ f2)

/-- **C106.** What the diagnostics of the iteration `n` of a call see on the GPU: the fields on the grid, the
charged macroparticles and the fields on them are those of the CPU. -/
theorem C106_diagnostics (n : ℕ) (o : Opts) (s u v : Sim) (g : GSim) (hg : UsualGrid c s)
    (hL : NoFrozenGalilean c [(n, o)]) (hs : SameOnGpu s g) (hu : Unsorted g)
    (hloop : c.loop o 0 n (c.startFields s) = .ok u) (hv : c.iterStart n u = .ok v)
    (hseen : ∀ q ∈ v.seen, ∀ sp ∈ s.species, InReach (c.grid q.zmin) sp.shape q.z) :
    (∃ g0 g1 g2, StartFields c g g0 ∧ Loop c o 0 n g0 g1 ∧ IterStart c n g1 g2) ∧
      ∀ g0 g1 g2, StartFields c g g0 → Loop c o 0 n g0 g1 → IterStart c n g1 g2 → SameAtDiagnostics v g2 := by
  have hc := gridCfg c hg
  have hok : ∀ q ∈ v.seen, okSeen c (shapes s) q := fun q hq sh ⟨sp, hsp, hsh⟩ => hsh ▸ hseen q hq sp hsp
  have hM := match_of_same c hg hs hu
  have m0 : ∀ g0, StartFields c g g0 → Match c (shapes s) false (c.startFields s) g0 := by
    rintro g0 ⟨d, hd, rfl⟩
    exact ⟨hM.zmin, hM.zmax, hM.time, hM.iteration, hM.interp,
      by simp only [Cfg.startFields, spectE_gpu c (hd _), spectB_gpu c (hd _), hM.interp, hM.spect], hM.species, hM.box⟩
  have hm : c.galilean = true → o.movePositions = true := fun x => hL x (n, o) List.mem_cons_self
  have m1 := fun g0 h0 => tracks_loop hc hg.invdz o hm n 0 _ _ (m0 g0 h0) u hloop
    fun q hq => hok q (grows_iterStart c n u v hv hq)
  have m2 := fun g1 (h1 : Match c (shapes s) false u g1) => tracks_start hc hg.invdz n h1 v hv hok
  constructor
  · obtain ⟨d, hd⟩ := exists_launch c
    have h0 : StartFields c g _ := ⟨d, hd, rfl⟩
    obtain ⟨g1, h1⟩ := (m1 _ h0).1
    obtain ⟨g2, h2⟩ := (m2 g1 ((m1 _ h0).2 g1 h1)).1
    exact ⟨_, g1, g2, h0, h1, h2⟩
  · intro g0 g1 g2 h0 h1 h2
    exact diag_of_match c ((m2 g1 ((m1 _ h0).2 g1 h1)).2 g2 h2)

end

/-- **C106, the arrays of the fields on the particles.** A charge or current deposition inside `step` sorts the
particles with `keep_fields_sorted = False`. The arrays `Ex … Bz` of the species then stay in the old order: if two
particles change places, each is left with the field that the other one had felt. -/
theorem C106_fields_order_violated (zmin : ℝ) (a b : GSpecies) (p q : Ptcl) (ha : a.sp.ptcl = [p, q])
    (hk : a.keepFields = false) (hcell : cellOf c zmin q < cellOf c zmin p) (h : SortedTo c zmin a b) :
    b.sp.ptcl = [{ q with F := p.F }, { p with F := q.F }] ∧
      (p.F ≠ q.F → ¬ b.sp.ptcl.Perm a.sp.ptcl) := by
  obtain ⟨keys', idx, t1, t2, l, hsort, -, -, hlen, hget, rfl⟩ := h
  rw [ha] at hsort hlen hget
  have hperm : [idx 0, idx 1].Perm [0, 1] := hsort.perm
  have hidx : idx 0 = 1 ∧ idx 1 = 0 := by
    have h0 : idx 0 = 0 ∨ idx 0 = 1 := by simpa using hperm.subset (List.mem_cons_self : idx 0 ∈ [idx 0, idx 1])
    have h1 : idx 1 = 0 ∨ idx 1 = 1 := by
      simpa using hperm.subset (List.mem_cons_of_mem _ List.mem_cons_self : idx 1 ∈ [idx 0, idx 1])
    have hne : idx 0 ≠ idx 1 := by
      have := hperm.nodup_iff.2 (by simp)
      simpa using this
    have hle := hsort.sorted 0 1 (by norm_num) (by norm_num)
    rw [hsort.keys_eq 0 (by norm_num), hsort.keys_eq 1 (by norm_num)] at hle
    rcases h0 with h0 | h0
    · have h1 : idx 1 = 1 := h1.resolve_left fun h => hne (h0.trans h.symm)
      rw [h0, h1] at hle
      exact absurd hle (not_le.2 hcell)
    · exact ⟨h0, h1.resolve_right fun h => hne (h0.trans h.symm)⟩
  have e0 := hget 0 q p (by rw [hidx.1]; rfl) rfl
  have e1 := hget 1 p q (by rw [hidx.2]; rfl) rfl
  have hl : l = [{ q with F := p.F }, { p with F := q.F }] := by
    rw [hk] at e0 e1
    match l, hlen, e0, e1 with
    | [x, y], _, e0, e1 =>
      have e0 : x = _ := Option.some.inj e0
      have e1 : y = _ := Option.some.inj e1
      rw [e0, e1]; rfl
  refine ⟨hl, fun hF hp => ?_⟩
  have hp : l.Perm a.sp.ptcl := hp
  rw [hl, ha] at hp
  have := hp.subset (List.mem_cons_self : ({ q with F := p.F } : Ptcl) ∈ _)
  rcases List.mem_cons.1 this with h | h
  · have hpush := congrArg Ptcl.push h
    dsimp only at hpush
    unfold cellOf at hcell
    rw [hpush] at hcell
    exact lt_irrefl _ hcell
  · have h := congrArg Ptcl.F (List.mem_singleton.1 h)
    exact hF h

/-! ### Examples -/

/-- The two electrons of `pairSim` on the GPU, in the other order, with other fields left in the arrays. -/
noncomputable def gpuPair : GSim where
  zmin := pairSim.zmin
  zmax := pairSim.zmax
  time := pairSim.time
  iteration := pairSim.iteration
  species := [⟨⟨-1, 1, .linear, false, false, none,
    [⟨⟨-10, 0, 7.9, ⟨0, 0, 4 / 3, 3 / 5⟩, 0⟩, 1, fun _ => 5⟩,
      ⟨⟨10, 0, 7.9, ⟨0, 0, 4 / 3, 3 / 5⟩, 0⟩, 1, fun _ => 6⟩]⟩, false, false, fun _ => 7⟩]
  interp := pairSim.interp
  spect := pairSim.spect

theorem gpuPair_same : SameOnGpu pairSim gpuPair ∧ Unsorted gpuPair := by
  refine ⟨⟨rfl, rfl, rfl, rfl, rfl, rfl, .cons ⟨rfl, rfl, rfl, rfl, rfl, rfl, ?_⟩ .nil⟩, ?_⟩
  · exact List.Perm.swap _ _ _
  · intro a ha
    rw [List.mem_singleton.1 ha]

/-- A run of 1000 steps, then 5 steps with frozen particles. -/
example : ∃ t, wideCfg.calls [(1000, {}), (5, { movePositions := false })] pairSim = .ok t ∧
    (∃ g', Calls wideCfg [(1000, {}), (5, { movePositions := false })] gpuPair g') ∧
    ∀ g', Calls wideCfg [(1000, {}), (5, { movePositions := false })] gpuPair g' → SameOnGpu t g' :=
  C106_gpu_reasonable wideCfg _ pairSim gpuPair (pair_reasonable _) rfl (fun _ _ _ => rfl) (fun h => by cases h)
    gpuPair_same.1 gpuPair_same.2

/-- The diagnostics of the second iteration. -/
example : ∃ u v, wideCfg.loop {} 0 1 (wideCfg.startFields pairSim) = .ok u ∧ wideCfg.iterStart 1 u = .ok v ∧
    (∃ g0 g1 g2, StartFields wideCfg gpuPair g0 ∧ Loop wideCfg {} 0 1 g0 g1 ∧ IterStart wideCfg 1 g1 g2) ∧
    ∀ g0 g1 g2, StartFields wideCfg gpuPair g0 → Loop wideCfg {} 0 1 g0 g1 → IterStart wideCfg 1 g1 g2 →
      SameAtDiagnostics v g2 := by
  have h := pair_reasonable [(2, {})]
  obtain ⟨hc, hl⟩ := reasonable_invariant (fun _ => False) wideCfg _ pairSim h (-1)
    (fun _ _ _ _ => lt_of_lt_of_le (by norm_num) (Real.sqrt_nonneg _)) (fun q hq => by cases hq)
  have h0 : Loose wideCfg (fun _ => False) (-1) (wideCfg.startFields pairSim) := ⟨hl.box, hl.sp, hl.ptcl, hl.seen⟩
  obtain ⟨u, hu, hlu⟩ := h0.loop wideCfg hc {} (fun x => by cases x) 1 0
  obtain ⟨w, hw, hlw⟩ := hlu.iter wideCfg hc {} (fun x => by cases x) 1
  have hw' := hw
  rw [iter_eq, if_neg (by show ¬ (1 = 0); norm_num)] at hw
  obtain ⟨v, hv, hw⟩ := (except_bind_ok _ _ _).1 hw
  have hsub : v.seen ⊆ w.seen := Grows.comp (grows_iterHalf wideCfg {}) (Grows.comp (grows_iterDeposit wideCfg {})
    (grows_iterEnd wideCfg {})) v w hw
  refine ⟨u, v, hu, hv, C106_diagnostics wideCfg 1 {} pairSim u v gpuPair
    ⟨h.Nz, h.Nr, h.invdz, h.invdr, h.threads, h.beta, fun _ _ _ => rfl, h.box⟩ (fun x => by cases x)
    gpuPair_same.1 gpuPair_same.2 hu hv fun q hq sp hsp => ?_⟩
  have hr := (hl.sp sp hsp).reach
  obtain ⟨h3, h4⟩ := (hlw.seen q (hsub hq)).2.resolve_left id
  have := mul_lt_mul_of_pos_left h3 h.invdz
  refine ⟨?_, ?_⟩
  · show -sp.shape.reach < wideCfg.invdz * (q.z - q.zmin)
    linarith
  · show wideCfg.invdz * (q.z - q.zmin) ≤ wideCfg.Nz + sp.shape.reach
    linarith

/-- Two particles in the wrong order, as after a `push_x`. -/
example : ∃ (a b : GSpecies) (p q : Ptcl), a.sp.ptcl = [p, q] ∧ a.keepFields = false ∧ p.F ≠ q.F ∧
    cellOf wideCfg 0 q < cellOf wideCfg 0 p ∧ SortedTo wideCfg 0 a b := by
  let p : Ptcl := ⟨⟨10, 0, 7.3, ⟨0, 0, 0, 1⟩, 0⟩, 1, fun _ => 1⟩
  let q : Ptcl := ⟨⟨10, 0, 1.2, ⟨0, 0, 0, 1⟩, 0⟩, 1, fun _ => 2⟩
  let a : GSpecies := ⟨⟨-1, 1, .linear, false, false, none, [p, q]⟩, false, false, fun _ => 0⟩
  obtain ⟨b, hb⟩ := exists_sortedTo wideCfg 0 a
  refine ⟨a, b, p, q, rfl, rfl, ?_, ?_, hb⟩
  · intro h
    have := congrFun h .Ex
    norm_num [p, q] at this
  · have hr : cylR 10 0 = 10 := by
      unfold cylR
      rw [show (10 : ℝ) ^ 2 + 0 ^ 2 = 10 ^ 2 by ring, Real.sqrt_sq (by norm_num)]
    have hz : (⌈(1.2 : ℝ) - 1 / 2⌉ : ℤ) = 1 := by rw [Int.ceil_eq_iff]; norm_num
    have hz' : (⌈(7.3 : ℝ) - 1 / 2⌉ : ℤ) = 7 := by rw [Int.ceil_eq_iff]; norm_num
    have h1 : (⌈(1 : ℝ) * (10 - 0) - 1 / 2⌉ : ℤ) = 10 := by rw [Int.ceil_eq_iff]; norm_num
    unfold cellOf Sorting.cellIdx
    simp only [p, q, wideCfg, cubicCfg, hr, h1, one_mul, sub_zero, hz, hz']
    norm_num

end Fbpic.Pic.Gpu
