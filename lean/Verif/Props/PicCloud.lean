import Verif.Lemmas.PicCloud
import Verif.Props.Pic

/-!
# What a run depends on

C88 order and splitting of the macroparticles and number of threads, C89 species that do not act on the fields,
C90 symmetric states.
-/

namespace Fbpic.Pic

open Transform ExternalField Step
open Spec (Motion weighted NoNewPlace SameCloud SameSpecies SameRun FoldSymmetric)

/-! ### C88 -/

/-- **C88.** A run gives the same fields, and the same clouds of particles, for any two sets of macroparticles that
carry the same weight at each place of phase space, and for any number of threads. -/
theorem C88_representation (c : Cfg) [NeZero c.Nz] (n : ℕ) (hn : 0 < c.nthreads) (hn' : 0 < n)
    (L : List (ℕ × Opts)) (s s' t : Sim) (h : SameRun SameCloud s s') (ht : c.calls L s = .ok t) :
    ∃ t', (Spec.withThreads c n).calls L s' = .ok t' ∧ SameRun SameCloud t t' :=
  calls_cloud c SameCloud n hn hn' L s s' t h ht

/-- **C88**, order. Macroparticles in another order stand for the same cloud. -/
theorem C88_order (l l' : List Ptcl) (h : l.Perm l') : NoNewPlace l l' ∧ SameCloud l l' :=
  ⟨fun p hp => ⟨p, h.mem_iff.2 hp, rfl, rfl⟩, fun _ => ((h.map _).sum_eq).symm⟩

/-- **C88**, splitting. A macroparticle may be replaced by several ones at the same place, with the same total
weight, and conversely. -/
theorem C88_split (l : List Ptcl) (p : Ptcl) (ws : List ℝ) (hw : ws.sum = p.w) (h0 : ws ≠ []) :
    (NoNewPlace (p :: l) (ws.map (fun w => { p with w := w }) ++ l) ∧
      SameCloud (p :: l) (ws.map (fun w => { p with w := w }) ++ l)) ∧
    (NoNewPlace (ws.map (fun w => { p with w := w }) ++ l) (p :: l) ∧
      SameCloud (ws.map (fun w => { p with w := w }) ++ l) (p :: l)) := by
  have hs : SameCloud (p :: l) (ws.map (fun w => { p with w := w }) ++ l) := by
    intro φ
    unfold weighted
    rw [List.map_append, List.map_map, List.sum_append, List.map_cons, List.sum_cons, ← hw]
    congr 1
    clear hw h0
    induction ws with
    | nil => simp
    | cons w ws ih =>
      rw [List.map_cons, List.sum_cons, ih, List.sum_cons, Complex.ofReal_add, add_mul]
      rfl
  refine ⟨⟨?_, hs⟩, ?_, fun φ => (hs φ).symm⟩
  · intro q hq
    rcases List.mem_append.1 hq with hq | hq
    · obtain ⟨w, -, rfl⟩ := List.mem_map.1 hq
      exact ⟨p, List.mem_cons_self, rfl, rfl⟩
    · exact ⟨q, List.mem_cons_of_mem _ hq, rfl, rfl⟩
  · intro q hq
    rcases List.mem_cons.1 hq with rfl | hq
    · obtain ⟨w, ws, rfl⟩ := List.exists_cons_of_ne_nil h0
      exact ⟨{ q with w := w }, by simp, rfl, rfl⟩
    · exact ⟨q, List.mem_append_right _ hq, rfl, rfl⟩

/-! ### C89 -/

/-- **C89.** Particles of tracer species and neutral particles do not act on anything: if some of them are left
out, then the fields and all the other particles are exactly the same at the end of the run. -/
theorem C89_passive_particles (c : Cfg) [NeZero c.Nz] (hn : 0 < c.nthreads) (L : List (ℕ × Opts)) (s s' t : Sim)
    (h : SameRun (· = ·) s s') (ht : c.calls L s = .ok t) :
    ∃ t', c.calls L s' = .ok t' ∧ t'.interp = t.interp ∧ t'.spect = t.spect ∧ t'.time = t.time ∧
      List.Forall₂ (fun a b => a = b ∨ (a.isTracer = true ∨ a.q = 0) ∧ NoNewPlace a.ptcl b.ptcl)
        t.species t'.species := by
  obtain ⟨t', h1, h2⟩ := calls_cloud c (· = ·) c.nthreads hn hn L s s' t h ht
  refine ⟨t', h1, h2.interp, h2.spect, h2.time, h2.species.imp ?_⟩
  intro a b hab
  rcases hab.cloud with h | h | h
  · exact Or.inr ⟨Or.inl h, hab.places⟩
  · exact Or.inr ⟨Or.inr h, hab.places⟩
  · refine Or.inl ?_
    cases a; cases b
    have := hab.q; have := hab.m; have := hab.shape; have := hab.tracer; have := hab.ionizable; have := hab.plane
    simp only at *
    subst_vars
    rfl

/-- **C89**, whole species. If tracer species or neutral species `e` are added after the other ones, then the fields
and all the other particles are exactly the same at the end of the run. -/
theorem C89_passive_species (c : Cfg) [NeZero c.Nz] (hn : 0 < c.nthreads) (L : List (ℕ × Opts)) (s t : Sim)
    (e : List Species) (he : ∀ sp ∈ e, sp.isTracer = true ∨ sp.q = 0)
    (ht : c.calls L { s with species := s.species ++ e } = .ok t) :
    ∃ t', c.calls L s = .ok t' ∧ t'.interp = t.interp ∧ t'.spect = t.spect ∧ t'.time = t.time ∧
      t'.zmin = t.zmin ∧ t'.zmax = t.zmax ∧ t'.species <+: t.species := by
  obtain ⟨t', e', h1, h2, h3, h4, h5, h6, h7⟩ := calls_extra c hn L _ t s.species e rfl he ht
  exact ⟨t', h1, h3, h4, h5, h6, h7, ⟨e', h2.symm⟩⟩

/-! ### C90 -/

private theorem root_ne_one (n m : ℕ) (hn : 0 < n) (hm : ¬ n ∣ m) :
    (Motion.rotation (2 * Real.pi / n)).factor m ≠ 1 := by
  intro h
  have hn' : (n : ℂ) ≠ 0 := by exact_mod_cast hn.ne'
  unfold Motion.factor Motion.rotation at h
  simp only [Complex.ofReal_one, one_mul, Complex.ofReal_cos, Complex.ofReal_sin] at h
  rw [mul_comm Complex.I, ← Complex.exp_mul_I, ← Complex.exp_nat_mul, Complex.exp_eq_one_iff] at h
  obtain ⟨k, hk⟩ := h
  apply hm
  have h2 : (m : ℂ) = n * k := by
    have h3 : (2 * Real.pi * Complex.I : ℂ) ≠ 0 := by
      simp [Real.pi_ne_zero]
    have h4 : (2 * Real.pi * Complex.I : ℂ) * m = (2 * Real.pi * Complex.I) * (n * k) := by
      push_cast at hk
      field_simp at hk
      linear_combination (2 * Real.pi * Complex.I : ℂ) * hk
    exact mul_left_cancel₀ h3 h4
  have h5 : (m : ℤ) = n * k := by exact_mod_cast h2
  exact Int.natCast_dvd_natCast.1 ⟨k, h5⟩

/-- **C90.** If the initial state is the same after one `n`-th of a revolution (and the external fields too), then
so is the final state, and all the fields of the modes `m` that are not multiples of `n` are exactly zero. This needs
that no particle was exactly on the axis when it was deposited or gathered, except with a single mode. -/
theorem C90_fold_symmetry (n : ℕ) (h0 : 0 < n) (c : Cfg) [NeZero c.Nz]
    (hext : (Motion.rotation (2 * Real.pi / n)).ExtMoved c c.ext) (hn : 0 < c.nthreads) (L : List (ℕ × Opts))
    (s t : Sim) (hs : FoldSymmetric n s) (ht : c.calls L s = .ok t)
    (haxis : (∀ q ∈ t.seen, q.x ≠ 0 ∨ q.y ≠ 0) ∨
      (c.Nm ≤ 1 ∧ 2 ≤ c.Nr ∧ ∀ sh, (c.beta sh 0).getD 0 0 = 0)) :
    FoldSymmetric n t ∧
      ∀ m, ¬ n ∣ m → ∀ (f : Spec.GridArray) (iz ir : ℕ), f.get (t.interp m) iz ir = 0 := by
  obtain ⟨s', h1, h2⟩ := hs
  obtain ⟨t', h3, h4⟩ := C84_rotation_partial _ c c.ext hext hn L s s' t h1 ht haxis
  have e : (Motion.rotation (2 * Real.pi / n)).cfg c c.ext = c := by
    unfold Motion.cfg Motion.rotation
    simp only [one_mul]
  have h5 : c.calls L s' = .ok t' := by
    rw [← h3]
    congr 1 <;> exact e.symm
  obtain ⟨t'', h6, h7⟩ := C88_representation c c.nthreads hn hn L s' s t' h2 h5
  have h8 : t'' = t := by
    have : c.calls L s = .ok t'' := h6
    rw [ht] at this
    exact (Except.ok.inj this).symm
  subst h8
  refine ⟨⟨t', h4, h7⟩, ?_⟩
  intro m hm f iz ir
  have h9 : f.get (t''.interp m) iz ir = (Motion.rotation (2 * Real.pi / n)).factor m * f.get (t''.interp m) iz ir := by
    have h10 : f.get (t'.interp m) = (Motion.rotation (2 * Real.pi / n)).arr m (f.get (t''.interp m)) := by
      cases f
      · exact h4.Er m
      · exact h4.Et m
      · exact h4.Ez m
      · exact h4.Br m
      · exact h4.Bt m
      · exact h4.Bz m
      · exact h4.Jr m
      · exact h4.Jt m
      · exact h4.Jz m
      · exact h4.rho m
    have h11 : t''.interp = t'.interp := h7.interp
    conv_lhs => rw [h11, h10]
    rfl
  by_contra hne
  exact root_ne_one n m h0 hm (mul_right_cancel₀ hne (by rw [one_mul]; exact h9.symm))

/-! ### Examples -/

/-- Two electrons on both sides of the axis: the run takes place, the state is symmetric, and mode 1 stays zero. -/
noncomputable def pairSim : Sim :=
  { wideSim with
    species := [⟨-1, 1, .linear, false, false, none,
      [⟨⟨10, 0, 7.9, ⟨0, 0, 4 / 3, 3 / 5⟩, 0⟩, 1, fun _ => 0⟩,
        ⟨⟨-10, 0, 7.9, ⟨0, 0, 4 / 3, 3 / 5⟩, 0⟩, 1, fun _ => 0⟩]⟩] }

theorem pair_symmetric : FoldSymmetric 2 pairSim := by
  have hc : Real.cos (2 * Real.pi / (2 : ℕ)) = -1 := by
    rw [show 2 * Real.pi / ((2 : ℕ) : ℝ) = Real.pi by push_cast; ring, Real.cos_pi]
  have hs : Real.sin (2 * Real.pi / (2 : ℕ)) = 0 := by
    rw [show 2 * Real.pi / ((2 : ℕ) : ℝ) = Real.pi by push_cast; ring, Real.sin_pi]
  set M := Motion.rotation (2 * Real.pi / (2 : ℕ)) with hM
  obtain ⟨s', h⟩ := exists_moved M pairSim
  refine ⟨s', h, ?_⟩
  have hf : M.fields (fun _ => 0) = fun _ => 0 := by
    funext k
    cases k <;> simp [Motion.fields, Motion.vx, Motion.vy]
  have hp : s'.species = [⟨-1, 1, .linear, false, false, none,
      [⟨⟨-10, 0, 7.9, ⟨0, 0, 4 / 3, 3 / 5⟩, 0⟩, 1, fun _ => 0⟩,
        ⟨⟨10, 0, 7.9, ⟨0, 0, 4 / 3, 3 / 5⟩, 0⟩, 1, fun _ => 0⟩]⟩] := by
    rw [h.species]
    simp only [pairSim, List.map_cons, List.map_nil, Motion.species, Motion.ptcl, hf, Motion.push, Motion.vx, Motion.vy]
    have h1 : M.cos = -1 := hc
    have h2 : M.sin = 0 := hs
    have h3 : M.sign = 1 := rfl
    have h4 : M.shift = 0 := rfl
    rw [h1, h2, h3, h4]
    norm_num
  have hz : ∀ m, s'.interp m = pairSim.interp m := by
    intro m
    have e : s'.interp m = ⟨⟨(s'.interp m).E.r, (s'.interp m).E.t, (s'.interp m).E.z⟩,
        ⟨(s'.interp m).B.r, (s'.interp m).B.t, (s'.interp m).B.z⟩,
        ⟨(s'.interp m).J.r, (s'.interp m).J.t, (s'.interp m).J.z⟩, (s'.interp m).rho⟩ := rfl
    have h0 : M.arr m 0 = 0 := by funext i j; exact mul_zero _
    rw [e, h.Er m, h.Et m, h.Ez m, h.Br m, h.Bt m, h.Bz m, h.Jr m, h.Jt m, h.Jz m, h.rho m]
    show Interp.mk ⟨M.arr m 0, M.arr m 0, M.arr m 0⟩ ⟨M.arr m 0, M.arr m 0, M.arr m 0⟩
      ⟨M.arr m 0, M.arr m 0, M.arr m 0⟩ (M.arr m 0) = _
    rw [h0]
    rfl
  have hsp : ∀ m, s'.spect m = pairSim.spect m := by
    intro m
    rw [h.spect m]
    simp only [pairSim, wideSim, cubicSim, Motion.cell, mul_zero]
  refine ⟨?_, ?_, h.time.symm, h.iteration.symm, ?_, (funext hz).symm, (funext hsp).symm⟩
  · rw [h.zmin]; exact (add_zero _).symm
  · rw [h.zmax]; exact (add_zero _).symm
  · rw [hp]
    have hperm := C88_order _ _ (List.Perm.swap (⟨⟨10, 0, 7.9, ⟨0, 0, 4 / 3, 3 / 5⟩, 0⟩, 1, fun _ => 0⟩ : Ptcl)
      (⟨⟨-10, 0, 7.9, ⟨0, 0, 4 / 3, 3 / 5⟩, 0⟩, 1, fun _ => 0⟩ : Ptcl) [])
    exact List.Forall₂.cons ⟨rfl, rfl, rfl, rfl, rfl, rfl, hperm.1, Or.inr (Or.inr hperm.2)⟩ List.Forall₂.nil

theorem pair_reasonable (L : List (ℕ × Opts)) : Spec.Reasonable wideCfg L pairSim := by
  constructor <;> norm_num [wideCfg, cubicCfg, pairSim, wideSim, cubicSim, Spec.maxCells, Spec.frameVelocity]
  rw [show (9 : ℝ) = 3 ^ 2 by norm_num, show (25 : ℝ) = 5 ^ 2 by norm_num, Real.sqrt_sq (by norm_num),
    Real.sqrt_sq (by norm_num)]

theorem pair_run : ∃ t, wideCfg.calls [(3, {})] pairSim = .ok t ∧ ∀ q ∈ t.seen, q.x ≠ 0 ∨ q.y ≠ 0 := by
  refine C87_off_axis wideCfg _ pairSim (pair_reasonable _) rfl ?_
  intro sp hsp p hp
  rw [List.mem_singleton.1 hsp] at hp
  have hs : Real.sqrt (p.push.x ^ 2 + p.push.y ^ 2) = 10 := by
    rcases List.mem_cons.1 hp with rfl | hp
    · show Real.sqrt ((10 : ℝ) ^ 2 + 0 ^ 2) = 10
      rw [show (10 : ℝ) ^ 2 + 0 ^ 2 = 10 ^ 2 by ring, Real.sqrt_sq (by norm_num)]
    · rw [List.mem_singleton.1 hp]
      show Real.sqrt ((-10 : ℝ) ^ 2 + 0 ^ 2) = 10
      rw [show (-10 : ℝ) ^ 2 + 0 ^ 2 = 10 ^ 2 by ring, Real.sqrt_sq (by norm_num)]
  rw [hs]
  show 3 * (1 : ℝ) * 1 * _ < 10
  simp only [List.map_cons, List.map_nil, List.sum_cons, List.sum_nil, add_zero]
  norm_num

example : ∃ t, wideCfg.calls [(3, {})] pairSim = .ok t ∧ FoldSymmetric 2 t ∧ ∀ iz ir, (t.interp 1).rho iz ir = 0 := by
  obtain ⟨t, h1, h2⟩ := pair_run
  obtain ⟨h3, h4⟩ := C90_fold_symmetry 2 two_pos wideCfg (fun _ _ _ => rfl) Nat.one_pos [(3, {})] pairSim t
    pair_symmetric h1 (Or.inl h2)
  exact ⟨t, h1, h3, fun iz ir => h4 1 (by norm_num) .rho iz ir⟩

/-- The same electrons, one of them split in two, in another order, with five threads: the same run. -/
example (sp : Species) (hsp : pairSim.species = [sp]) (a b : Ptcl) (hab : sp.ptcl = [a, b]) : ∃ t t',
    wideCfg.calls [(3, {})] pairSim = .ok t ∧
    (Spec.withThreads wideCfg 5).calls [(3, {})]
      { pairSim with species := [{ sp with ptcl := [b, { a with w := 1 / 3 }, { a with w := 2 / 3 }] }] } = .ok t' ∧
    t'.interp = t.interp := by
  obtain ⟨t, h1, -⟩ := pair_run
  have hw : a.w = 1 := by
    have h := hsp
    simp only [pairSim, List.cons.injEq, and_true] at h
    rw [← h] at hab
    simp only [List.cons.injEq, and_true] at hab
    rw [← hab.1]
  have hc := (C88_split [b] a [1 / 3, 2 / 3] (by rw [hw]; norm_num) (by simp)).1
  have hp := C88_order ([1 / 3, 2 / 3].map (fun w => { a with w := w }) ++ [b])
    [b, { a with w := 1 / 3 }, { a with w := 2 / 3 }] (List.perm_append_comm (l₁ := [_, _]) (l₂ := [b]))
  obtain ⟨t', h2, h3⟩ := C88_representation wideCfg 5 Nat.one_pos (by norm_num) [(3, {})] pairSim
    { pairSim with species := [{ sp with ptcl := [b, { a with w := 1 / 3 }, { a with w := 2 / 3 }] }] } t
    ⟨rfl, rfl, rfl, rfl, by
      rw [hsp]
      refine List.Forall₂.cons ⟨rfl, rfl, rfl, rfl, rfl, rfl, ?_, Or.inr (Or.inr ?_)⟩ List.Forall₂.nil
      · rw [hab]
        intro p hp'
        obtain ⟨p1, h4, h5, h6⟩ := hp.1 p hp'
        obtain ⟨p2, h7, h8, h9⟩ := hc.1 p1 h4
        exact ⟨p2, h7, h5.trans h8, h6.trans h9⟩
      · rw [hab]
        exact fun φ => (hp.2 φ).trans (hc.2 φ), rfl, rfl⟩ h1
  exact ⟨t, t', h1, h2, h3.interp⟩

/-- A neutral species and a tracer species after the electron. -/
noncomputable def passive : List Species :=
  [⟨0, 1, .linear, false, false, none, [⟨⟨9, 1, 3, ⟨0, 0, 0, 1⟩, 0⟩, 1, fun _ => 0⟩]⟩,
    ⟨1, 1, .linear, true, false, none, [⟨⟨11, 1, 3, ⟨0, 0, 0, 1⟩, 0⟩, 1, fun _ => 0⟩]⟩]

example : (∀ sp ∈ passive, sp.isTracer = true ∨ sp.q = 0) ∧
    ∃ t t', wideCfg.calls [(7, {})] { pairSim with species := pairSim.species ++ passive } = .ok t ∧
      wideCfg.calls [(7, {})] pairSim = .ok t' ∧ t'.interp = t.interp := by
  have h1 : ∀ sp ∈ passive, sp.isTracer = true ∨ sp.q = 0 := by
    intro sp hsp
    simp only [passive, List.mem_cons, List.not_mem_nil, or_false] at hsp
    rcases hsp with rfl | rfl <;> simp
  refine ⟨h1, ?_⟩
  obtain ⟨t, ht⟩ : ∃ t, wideCfg.calls [(7, {})] { pairSim with species := pairSim.species ++ passive } = .ok t := by
    refine (C87_total_partial wideCfg _ _ ?_).imp fun _ h => h.1
    constructor <;>
      norm_num [wideCfg, cubicCfg, pairSim, wideSim, cubicSim, Spec.maxCells, Spec.frameVelocity, passive]
    rw [show (9 : ℝ) = 3 ^ 2 by norm_num, show (25 : ℝ) = 5 ^ 2 by norm_num, Real.sqrt_sq (by norm_num),
      Real.sqrt_sq (by norm_num)]
  obtain ⟨t', h2, h3, -⟩ := C89_passive_species wideCfg Nat.one_pos _ pairSim t passive h1 ht
  exact ⟨t, t', ht, h2, h3⟩

end Fbpic.Pic
