import Verif.Lemmas.PicMotion
import Verif.Lemmas.PicTotal

/-!
# Symmetries of whole runs

C84 rotation, C85 reversal of the charges, C86 displacement along z, C87 runs always finish. All of them are
about any sequence of calls to `step`, with any options, any number of species and modes.
-/

namespace Fbpic.Pic

open Transform ExternalField Step
open Spec (Motion)

variable (M : Motion)

theorem moved_iff (s s' : Sim) (hp : ∀ sp ∈ s.species, PlaneOk M sp) :
    M.Moved s s' ↔ Scaled M.factor M.shift (RSm M) s s' := by
  constructor
  · intro h
    refine ⟨h.zmin, h.zmax, h.time, h.iteration, ⟨h.species, hp⟩, ?_, ?_⟩
    · funext m
      show s'.interp m = Interp.mk (GridVec.mk _ _ _) (GridVec.mk _ _ _) (GridVec.mk _ _ _) _
      have e : s'.interp m = ⟨⟨(s'.interp m).E.r, (s'.interp m).E.t, (s'.interp m).E.z⟩,
        ⟨(s'.interp m).B.r, (s'.interp m).B.t, (s'.interp m).B.z⟩,
        ⟨(s'.interp m).J.r, (s'.interp m).J.t, (s'.interp m).J.z⟩, (s'.interp m).rho⟩ := rfl
      rw [e, h.Er m, h.Et m, h.Ez m, h.Br m, h.Bt m, h.Bz m, h.Jr m, h.Jt m, h.Jz m, h.rho m]
      rfl
    · funext m
      exact h.spect m
  · intro h
    have hi : ∀ m, s'.interp m = scaleI (M.factor m) (s.interp m) := fun m => congrFun h.interp m
    refine ⟨h.zmin, h.zmax, h.time, h.iteration, h.species.1, ?_, ?_, ?_, ?_, ?_, ?_, ?_, ?_, ?_, ?_,
      fun m => congrFun h.spect m⟩ <;> intro m <;> rw [hi m] <;> rfl

/-- All three symmetries at once. -/
theorem calls_moved (c : Cfg) [NeZero c.Nz] (ext : List Ext) (hext : M.ExtMoved c ext) (hn : 0 < c.nthreads)
    (L : List (ℕ × Opts)) (s s' t : Sim) (hp : ∀ sp ∈ s.species, PlaneOk M sp) (hm : M.Moved s s')
    (ht : c.calls L s = .ok t) (hs : ∀ q ∈ t.seen, PosOk M c q.x q.y) :
    ∃ t', (M.cfg c ext).calls L s' = .ok t' ∧ M.Moved t t' := by
  obtain ⟨t', h1, h2⟩ := calls_motion M c ext hext hn L s s' ((moved_iff M s s' hp).1 hm) t ht hs
  exact ⟨t', h1, (moved_iff M t t' h2.species.2).2 h2⟩

/-! ### C84 -/

/-- **C84.** If all the particles, momenta and fields of a simulation are turned by the angle `a` around the
axis (for the fields: the arrays of mode `m` are multiplied by `e^{ima}`), and the external fields are turned
too, then the run does the same thing, turned by `a`: it finishes if the other one does, and the final states
are related as the initial ones. This needs that no particle was exactly on the axis when it was deposited or
gathered, except with a single mode. Missing: particles on the axis with several modes, for which it is false
(`C84_violated`). -/
theorem C84_rotation_partial (a : ℝ) (c : Cfg) [NeZero c.Nz] (ext : List Ext)
    (hext : (Motion.rotation a).ExtMoved c ext) (hn : 0 < c.nthreads) (L : List (ℕ × Opts)) (s s' t : Sim)
    (hm : (Motion.rotation a).Moved s s') (ht : c.calls L s = .ok t)
    (haxis : (∀ q ∈ t.seen, q.x ≠ 0 ∨ q.y ≠ 0) ∨
      (c.Nm ≤ 1 ∧ 2 ≤ c.Nr ∧ ∀ sh, (c.beta sh 0).getD 0 0 = 0)) :
    ∃ t', ((Motion.rotation a).cfg c ext).calls L s' = .ok t' ∧ (Motion.rotation a).Moved t t' := by
  refine calls_moved _ c ext hext hn L s s' t (fun sp _ b _ => Or.inr rfl) hm ht ?_
  intro q hq
  rcases haxis with h | h
  · left; right
    intro h0
    unfold cylR at h0
    rw [Real.sqrt_eq_zero (by positivity)] at h0
    have hx : q.x = 0 := by nlinarith [sq_nonneg q.x, sq_nonneg q.y]
    have hy : q.y = 0 := by nlinarith [sq_nonneg q.x, sq_nonneg q.y]
    rcases h q hq with h | h
    · exact h hx
    · exact h hy
  · exact Or.inr h

/-- **C84.** What this means for the fields: in a turned state, every field at the angle `θ + a` is the field
of the original state at the angle `θ`. -/
theorem C84_fields (a : ℝ) (s s' : Sim) (hm : (Motion.rotation a).Moved s s') (Nm : ℕ) (f : Spec.GridArray)
    (iz ir : ℕ) (θ : ℝ) : Spec.physical Nm s' f iz ir (θ + a) = Spec.physical Nm s f iz ir θ := by
  have key : ∀ m, f.get (s'.interp m) iz ir = (Motion.rotation a).factor m * f.get (s.interp m) iz ir := by
    intro m
    cases f
    · exact congrFun (congrFun (hm.Er m) iz) ir
    · exact congrFun (congrFun (hm.Et m) iz) ir
    · exact congrFun (congrFun (hm.Ez m) iz) ir
    · exact congrFun (congrFun (hm.Br m) iz) ir
    · exact congrFun (congrFun (hm.Bt m) iz) ir
    · exact congrFun (congrFun (hm.Bz m) iz) ir
    · exact congrFun (congrFun (hm.Jr m) iz) ir
    · exact congrFun (congrFun (hm.Jt m) iz) ir
    · exact congrFun (congrFun (hm.Jz m) iz) ir
    · exact congrFun (congrFun (hm.rho m) iz) ir
  unfold Spec.physical Spec.atAngle
  refine Finset.sum_congr rfl fun m _ => ?_
  dsimp only
  rw [key m]
  congr 2
  have hf : (Motion.rotation a).factor m = Complex.exp (Complex.I * m * a) := by
    unfold Motion.factor
    show ((1 : ℝ) : ℂ) * (((Real.cos a : ℝ) : ℂ) + Complex.I * ((Real.sin a : ℝ) : ℂ)) ^ m = _
    rw [Complex.ofReal_one, one_mul, Complex.ofReal_cos, Complex.ofReal_sin, mul_comm Complex.I,
      ← Complex.exp_mul_I, ← Complex.exp_nat_mul]
    congr 1; ring
  rw [hf, mul_right_comm, ← Complex.exp_add, mul_comm]
  congr 2
  push_cast; ring

/-! ### C85 -/

/-- **C85.** If the sign of all the charges (and of the elementary charge) is reversed, with the same positions,
momenta and weights, and all the fields (and external fields) are reversed too, then the run is the same, with
reversed fields: the trajectories of all particles are identical. -/
theorem C85_conjugation (c : Cfg) [NeZero c.Nz] (ext : List Ext) (hext : Motion.conjugation.ExtMoved c ext)
    (hn : 0 < c.nthreads) (L : List (ℕ × Opts)) (s s' t : Sim) (hm : Motion.conjugation.Moved s s')
    (ht : c.calls L s = .ok t) :
    ∃ t', (Motion.conjugation.cfg c ext).calls L s' = .ok t' ∧ Motion.conjugation.Moved t t' :=
  calls_moved _ c ext hext hn L s s' t (fun _ _ _ _ => Or.inr rfl) hm ht fun _ _ => Or.inl (Or.inl ⟨rfl, rfl⟩)

/-! ### C86 -/

/-- **C86.** If the box, all particles, external fields and planes are displaced by `d` along z, then the run is
the same, displaced by `d`: the arrays of the fields are identical. -/
theorem C86_translation (d : ℝ) (c : Cfg) [NeZero c.Nz] (ext : List Ext)
    (hext : (Motion.translation d).ExtMoved c ext) (hn : 0 < c.nthreads) (L : List (ℕ × Opts)) (s s' t : Sim)
    (hplane : ∀ sp ∈ s.species, ∀ b, sp.plane = some b → b.invGammaBoost ≠ 0)
    (hm : (Motion.translation d).Moved s s') (ht : c.calls L s = .ok t) :
    ∃ t', ((Motion.translation d).cfg c ext).calls L s' = .ok t' ∧ (Motion.translation d).Moved t t' :=
  calls_moved _ c ext hext hn L s s' t (fun sp hsp b hb => Or.inl (hplane sp hsp b hb)) hm ht
    fun _ _ => Or.inl (Or.inl ⟨rfl, rfl⟩)

/-! ### C87 -/

theorem reasonable_invariant (Old : Seen → Prop) (c : Cfg) (L : List (ℕ × Opts)) (s : Sim) (h : Spec.Reasonable c L s) (rho : ℝ)
    (hr : ∀ sp ∈ s.species, ∀ p ∈ sp.ptcl, rho < cylR p.push.x p.push.y)
    (hs : ∀ q ∈ s.seen, rho < cylR q.x q.y ∧ (Old q ∨ InRange c q)) : Sane c ∧ Loose c Old rho s := by
  refine ⟨⟨h.light, h.dt, h.invdz, h.invdr, h.Nz, h.Nr, h.threads, h.period, h.fuel, h.beta⟩, ?_, ?_, ?_, hs⟩
  · rw [mul_comm]; exact h.box
  · intro sp hsp
    refine ⟨h.plane sp hsp, ?_⟩
    have h1 := h.speed sp hsp
    have h2 : Spec.maxCells sp.shape = sp.shape.reach := by
      cases sp.shape <;> simp [Spec.maxCells, Shape.reach]
    rw [h2] at h1
    exact h1
  · intro sp hsp p hp
    exact ⟨h.mom sp hsp p hp, hr sp hsp p hp, h.near sp hsp p hp⟩

theorem reasonable_loose (c : Cfg) (L : List (ℕ × Opts)) (s : Sim) (h : Spec.Reasonable c L s) (rho : ℝ)
    (hr : ∀ sp ∈ s.species, ∀ p ∈ sp.ptcl, rho < cylR p.push.x p.push.y)
    (hs : ∀ q ∈ s.seen, rho < cylR q.x q.y) : Sane c ∧ Loose c (fun _ => True) rho s :=
  reasonable_invariant _ c L s h rho hr fun q hq => ⟨hs q hq, Or.inl trivial⟩

/-- **C87.** A run of a reasonable simulation never raises an exception and never accesses an array out of its
bounds, for any number of steps; and the state that it leaves is reasonable again. Missing: cubic particles with
a time step above half a cell, for which it is false (`C87_violated`). -/
theorem C87_total_partial (c : Cfg) [NeZero c.Nz] (L : List (ℕ × Opts)) (s : Sim) (h : Spec.Reasonable c L s) :
    ∃ t, c.calls L s = .ok t ∧ Spec.Reasonable c L t := by
  -- a lower bound for all the distances to the axis
  have neg : ∀ x y : ℝ, (-1 : ℝ) < cylR x y := fun x y => lt_of_lt_of_le (by norm_num) (Real.sqrt_nonneg _)
  obtain ⟨hs, hl⟩ := reasonable_loose c L s h (-1) (fun _ _ _ _ => neg _ _) fun _ _ => neg _ _
  obtain ⟨t, h1, h2⟩ := hl.calls c hs L (-1) s h.opts
  refine ⟨t, h1, h.light, h.dt, h.invdz, h.invdr, h.Nz, h.Nr, h.threads, h.period, h.fuel, h.beta, h.opts, ?_,
    fun sp hsp => (h2.sp sp hsp).plane, ?_, fun sp hsp p hp => (h2.ptcl sp hsp p hp).1,
    fun sp hsp p hp => (h2.ptcl sp hsp p hp).2.2⟩
  · rw [mul_comm]; exact h2.box
  · intro sp hsp
    have h3 : Spec.maxCells sp.shape = sp.shape.reach := by
      cases sp.shape <;> simp [Spec.maxCells, Shape.reach]
    rw [h3]
    exact (h2.sp sp hsp).reach

/-- **C87.** Particles do not reach the axis if they are far enough: a particle whose distance to the axis is more
than three times the distance that light travels during the run is never on the axis. -/
theorem C87_off_axis (c : Cfg) [NeZero c.Nz] (L : List (ℕ × Opts)) (s : Sim) (h : Spec.Reasonable c L s)
    (hseen : s.seen = []) (hr : ∀ sp ∈ s.species, ∀ p ∈ sp.ptcl,
      3 * c.k.c * c.dt * (L.map Prod.fst).sum < Real.sqrt (p.push.x ^ 2 + p.push.y ^ 2)) :
    ∃ t, c.calls L s = .ok t ∧ ∀ q ∈ t.seen, q.x ≠ 0 ∨ q.y ≠ 0 := by
  obtain ⟨hs, hl⟩ := reasonable_loose c L s h _ hr (by rw [hseen]; simp)
  obtain ⟨t, h1, h2⟩ := hl.calls c hs L _ s h.opts
  refine ⟨t, h1, fun q hq => ?_⟩
  have := (h2.seen q hq).1
  rw [show 3 * c.k.c * c.dt * ((L.map Prod.fst).sum : ℕ) - ((L.map Prod.fst).sum : ℕ) * (3 * (c.k.c * c.dt)) = 0 by
    ring] at this
  by_contra hne
  push Not at hne
  rw [hne.1, hne.2] at this
  simp [cylR] at this

/-! A cubic particle that leaves the box by more than half a cell within one step. -/

private theorem forall₂_mem {α β : Type} {R : α → β → Prop} {l : List α} {l' : List β} (h : List.Forall₂ R l l')
    {a : α} (ha : a ∈ l) : ∃ b ∈ l', R a b := by
  induction h with
  | nil => simp at ha
  | cons hab _ ih =>
    rcases List.mem_cons.1 ha with rfl | ha
    · exact ⟨_, by simp, hab⟩
    · obtain ⟨b, hb, hr⟩ := ih ha; exact ⟨b, by simp [hb], hr⟩

/-- There is a cubic particle at `z`, with momentum 4/3 along z, in the box of 8 cells. -/
private def HasAt (s : Sim) (z : ℝ) : Prop :=
  s.zmin = 0 ∧ s.zmax = 8 ∧ ∃ sp ∈ s.species, sp.q ≠ 0 ∧ sp.shape = .cubic ∧ sp.isTracer = false ∧
    ∃ p ∈ sp.ptcl, p.push.z = z ∧ p.push.mom = ⟨0, 0, 4 / 3, 3 / 5⟩

private theorem HasAt.mapM {s t : Sim} {z z' : ℝ} (h : HasAt s z) (f : Species → Ptcl → Except PyErr Ptcl)
    (ht : s.mapPtclM f = .ok t) (hf : ∀ sp p p', p.push.z = z → p.push.mom = ⟨0, 0, 4 / 3, 3 / 5⟩ → f sp p = .ok p' →
      p'.push.z = z' ∧ p'.push.mom = ⟨0, 0, 4 / 3, 3 / 5⟩) : HasAt t z' := by
  obtain ⟨h0, h8, sp, hsp, hq, hsh, htr, p, hp, hz, hm⟩ := h
  obtain ⟨sps, hF, rfl⟩ := (mapPtclM_ok _ _ _).1 ht
  obtain ⟨sp', hsp', hR⟩ := forall₂_mem hF hsp
  obtain ⟨p', hp', he⟩ := forall₂_mem hR.ptcl hp
  obtain ⟨e1, e2⟩ := hf sp p p' hz hm he
  exact ⟨h0, h8, sp', hsp', by rw [hR.q]; exact hq, by rw [hR.shape, hsh], by rw [hR.tracer, htr], p', hp', e1, e2⟩

private theorem HasAt.map {s : Sim} {z z' : ℝ} (h : HasAt s z) (f : ℕ → Ptcl → Ptcl) (t : Sim)
    (ht : t = { s with species := s.species.mapIdx fun i sp => { sp with ptcl := sp.ptcl.map (f i) } })
    (hf : ∀ i p, p.push.z = z → p.push.mom = ⟨0, 0, 4 / 3, 3 / 5⟩ →
      (f i p).push.z = z' ∧ (f i p).push.mom = ⟨0, 0, 4 / 3, 3 / 5⟩) : HasAt t z' := by
  obtain ⟨h0, h8, sp, hsp, hq, hsh, htr, p, hp, hz, hm⟩ := h
  subst ht
  obtain ⟨i, hi, rfl⟩ := List.mem_iff_getElem.1 hsp
  refine ⟨h0, h8, { s.species[i] with ptcl := s.species[i].ptcl.map (f i) }, ?_, hq, hsh, htr, f i p,
    List.mem_map_of_mem hp, hf i p hz hm⟩
  exact List.mem_iff_getElem.2 ⟨i, by simpa using hi, by rw [List.getElem_mapIdx]⟩

private theorem not_hasAt (c : Cfg) [NeZero c.Nz] (hn : 0 < c.nthreads) (hNm : 0 < c.Nm) (hNz : c.Nz = 8)
    (hinv : c.invdz = 1) (n : RhoName) (s t : Sim) (h : HasAt s 8.7) : c.depositRho n s ≠ .ok t := by
  intro hok
  obtain ⟨h0, -, sp, hsp, hq, hsh, htr, p, hp, hz, -⟩ := h
  have h1 := ((depositRho_ok c hn n s t).1 hok).1 0 hNm sp.dep
    (List.mem_map_of_mem (List.mem_filter.2 ⟨hsp, by simp [htr]⟩))
    hq (p.dep sp.ionizable) (List.mem_map_of_mem hp)
  have hceil : ⌈(c.grid s.zmin).zCell (p.dep sp.ionizable).z⌉ = 9 := by
    show ⌈c.invdz * (p.push.z - s.zmin) - 1 / 2⌉ = 9
    rw [hz, hinv, h0, Int.ceil_eq_iff]; norm_num
  have h2 := h1.2 _ (by
    unfold addsOf ptclAdds
    simp only [List.mem_flatMap, List.mem_map, List.mem_range]
    exact ⟨3, by rw [show sp.dep.shape = sp.shape from rfl, hsh]; simp [Shape.width], 0,
      by rw [show sp.dep.shape = sp.shape from rfl, hsh]; simp [Shape.width], rfl⟩)
  unfold addOk idxOk at h2
  have hs : sp.dep.shape = .cubic := hsh
  simp only [hs, izCell, hceil] at h2
  have : ((c.grid s.zmin).Nz : ℤ) = 8 := by show ((c.Nz : ℕ) : ℤ) = 8; rw [hNz]; rfl
  have h3 := h2.1
  push_cast at h3
  rw [this] at h3
  norm_num at h3

/-- A configuration with the time step `c dt = dz` that the documentation recommends. -/
noncomputable def cubicCfg : Cfg where
  k := ⟨1, 1, 1⟩
  eCharge := 1
  dt := 1
  Nm := 1
  Nz := 8
  Nr := 4
  nthreads := 1
  invdz := 1
  invdr := 1
  rmaxGather := 4
  beta := fun _ _ => List.replicate 5 0
  vol := fun _ _ => 1
  mats := fun _ => ⟨fun _ _ => 0, fun _ _ => 0, fun _ _ => 0, fun _ _ => 0, fun _ _ => 0, fun _ _ => 0⟩
  filter := none
  V := none
  galilean := false
  correction := .curlFree
  exchangePeriod := 1
  ext := []
  fuel := 10

instance : NeZero cubicCfg.Nz := ⟨by show (8 : ℕ) ≠ 0; norm_num⟩

/-- One electron near the upper edge of the box. -/
noncomputable def cubicSim (p : PushPtcl) (sh : Shape) : Sim where
  zmin := 0
  zmax := 8
  time := 0
  iteration := 0
  species := [⟨-1, 1, sh, false, false, none, [⟨p, 1, fun _ => 0⟩]⟩]
  interp := fun _ => ⟨⟨0, 0, 0⟩, ⟨0, 0, 0⟩, ⟨0, 0, 0⟩, 0⟩
  spect := fun _ => ⟨8, 4, fun _ => 0, fun _ => 0, fun _ _ => ⟨0, 0, 0, 0, 0, 0, 0, 0, 0, 0, 0, 0, 0, 0, 0, 0, 0⟩⟩
  seen := []

/-- **C87, not true in general.** With cubic particles and `c dt = dz`, everything else being reasonable, the
deposition of a particle that left the periodic box during the step is out of bounds. -/
theorem C87_violated : ∃ (c : Cfg) (_ : NeZero c.Nz) (L : List (ℕ × Opts)) (s : Sim),
    (∀ sh, Spec.Reasonable c L { s with species := s.species.map fun sp => { sp with shape := sh } } ↔ sh = .linear) ∧
    c.k.c * c.dt = 1 / c.invdz ∧ (∀ sp ∈ s.species, sp.shape = .cubic) ∧ ∀ t, c.calls L s ≠ .ok t := by
  refine ⟨cubicCfg, inferInstance, [(1, { moveMomenta := false })],
    cubicSim ⟨0, 0, 7.9, ⟨0, 0, 4 / 3, 3 / 5⟩, 0⟩ .cubic, ?_, ?_, ?_, ?_⟩
  · intro sh
    constructor
    · intro h
      have := h.speed ⟨-1, 1, sh, false, false, none, _⟩ (by simp only [cubicSim, List.map_cons, List.map_nil, List.mem_singleton]; rfl)
      cases sh
      · rfl
      · norm_num [Spec.maxCells, Spec.frameVelocity, cubicCfg] at this
    · rintro rfl
      constructor <;> norm_num [cubicCfg, cubicSim, Spec.maxCells, Spec.frameVelocity]
      rw [show (9 : ℝ) = 3 ^ 2 by norm_num, show (25 : ℝ) = 5 ^ 2 by norm_num, Real.sqrt_sq (by norm_num),
        Real.sqrt_sq (by norm_num)]
  · norm_num [cubicCfg]
  · intro sp hsp
    rw [List.mem_singleton.1 hsp]
  · intro t ht
    set c := cubicCfg with hc
    have hn : 0 < c.nthreads := Nat.one_pos
    obtain ⟨s1, hs1, -⟩ := (except_bind_ok _ _ _).1 ht
    obtain ⟨s2, hs2, -⟩ := (except_bind_ok _ _ _).1 hs1
    obtain ⟨s3, hs3, -⟩ := (except_bind_ok _ _ _).1 hs2
    rw [iter_eq, if_neg (by show ¬ (1 : ℕ) = 0; norm_num)] at hs3
    obtain ⟨a1, ha1, hs3⟩ := (except_bind_ok _ _ _).1 hs3
    obtain ⟨a2, ha2, hs3⟩ := (except_bind_ok _ _ _).1 hs3
    obtain ⟨a3, ha3, -⟩ := (except_bind_ok _ _ _).1 hs3
    have H0 : HasAt (c.startFields (cubicSim ⟨0, 0, 7.9, ⟨0, 0, 4 / 3, 3 / 5⟩, 0⟩ .cubic)) 7.9 :=
      ⟨rfl, rfl, _, List.mem_singleton.2 rfl, by norm_num, rfl, rfl, _, List.mem_singleton.2 rfl, rfl, rfl⟩
    -- exchange, first depositions, gathering
    have H1 : HasAt a1 7.9 := by
      rw [iterStart_eq] at ha1
      rw [if_pos (Or.inr rfl)] at ha1
      obtain ⟨b1, hb1, ha1⟩ := (except_bind_ok _ _ _).1 ha1
      obtain ⟨b0, hb0, hb1⟩ := (except_bind_ok _ _ _).1 hb1
      obtain ⟨b2, hb2, ha1⟩ := (except_bind_ok _ _ _).1 ha1
      obtain ⟨b3, hb3, ha1⟩ := (except_bind_ok _ _ _).1 ha1
      have K0 : HasAt b0 7.9 := by
        refine H0.mapM _ hb0 ?_
        intro sp p p' hz hm he
        unfold Cfg.wrap at he
        have hw : wrapZ (c.startFields (cubicSim ⟨0, 0, 7.9, ⟨0, 0, 4 / 3, 3 / 5⟩, 0⟩ .cubic)).zmin
            (c.startFields (cubicSim ⟨0, 0, 7.9, ⟨0, 0, 4 / 3, 3 / 5⟩, 0⟩ .cubic)).zmax c.fuel p.push.z
              = some 7.9 := by
          rw [hz]
          show wrapZ 0 8 10 7.9 = some 7.9
          unfold wrapZ loopDown
          rw [if_neg (by norm_num)]
          show loopUp _ _ _ _ = _
          unfold loopUp
          rw [if_neg (by norm_num)]
        rw [hw] at he
        cases he
        exact ⟨rfl, hm⟩
      have K1 : HasAt b1 7.9 := by
        rw [((depositRho_ok c hn _ _ _).1 hb1).2]; exact K0
      have K2 : HasAt b2 7.9 := by
        rw [((depositJ_ok c hn _ _).1 hb2).2]; exact K1
      have K3 : HasAt b3 7.9 := by
        refine HasAt.mapM (show HasAt b2.record 7.9 from K2) _ hb3 ?_
        intro sp p p' hz hm he
        unfold Cfg.gatherPtcl at he
        by_cases hq : sp.q = 0
        · rw [if_pos hq] at he; cases he; exact ⟨hz, hm⟩
        · rw [if_neg hq] at he
          obtain ⟨E, -, he⟩ := (except_bind_ok _ _ _).1 he
          obtain ⟨B, -, he⟩ := (except_bind_ok _ _ _).1 he
          cases he; exact ⟨hz, hm⟩
      cases ha1
      refine K3.map (fun i p => c.ext.foldl (fun p e => applyExt e b3.time i p) p) _ rfl ?_
      intro i p hz hm
      rw [applyExts_push]; exact ⟨hz, hm⟩
    have move : ∀ (s : Sim) (z : ℝ), HasAt s z → HasAt (c.movePush true (0.5 * c.dt) 1 1 1 (0.5 * c.dt) s) (z + 0.4) := by
      intro s z h
      have hg : ¬ (c.galilean = true) := by simp [hc, cubicCfg]
      unfold Cfg.movePush Cfg.shiftGalilean
      rw [if_neg hg, if_pos rfl]
      refine h.map (fun _ p => { p with push := Fbpic.pushX c.k.c (0.5 * c.dt) 1 1 1 p.push }) _ ?_ ?_
      · unfold Cfg.pushX Sim.mapPtcl
        congr 1
        apply List.ext_getElem
        · simp
        · intro i h1 h2; simp
      · intro i p hz hm
        refine ⟨?_, hm⟩
        show p.push.z + c.k.c * (0.5 * c.dt) * p.push.mom.invGamma * 1 * p.push.mom.uz = _
        rw [hz, hm]
        show z + 1 * (0.5 * 1) * (3 / 5) * 1 * (4 / 3) = _
        norm_num
    have H2 : HasAt a2 (7.9 + 0.4) := by
      rw [iterHalf_eq] at ha2
      obtain ⟨b, hb, ha2⟩ := (except_bind_ok _ _ _).1 ha2
      rw [if_neg (by simp)] at hb
      cases hb
      cases ha2
      exact move _ _ H1
    rw [iterDeposit_eq] at ha3
    obtain ⟨b1, hb1, ha3⟩ := (except_bind_ok _ _ _).1 ha3
    obtain ⟨b2, hb2, ha3⟩ := (except_bind_ok _ _ _).1 ha3
    have H3 : HasAt b2 (7.9 + 0.4) := by
      cases hb2
      rw [((depositJ_ok c hn _ _).1 hb1).2]; exact H2
    have H4 := move _ _ H3
    rw [show (7.9 + 0.4 + 0.4 : ℝ) = 8.7 by norm_num] at H4
    exact not_hasAt c hn Nat.one_pos rfl rfl _ _ _ H4 ha3

/-! ### Examples -/

/-- The moved state exists. -/
theorem exists_moved (s : Sim) : ∃ s', M.Moved s s' :=
  ⟨{ zmin := s.zmin + M.shift
     zmax := s.zmax + M.shift
     time := s.time
     iteration := s.iteration
     species := s.species.map M.species
     interp := fun m => scaleI (M.factor m) (s.interp m)
     spect := fun m => { s.spect m with cell := fun iz ir => M.cell m ((s.spect m).cell iz ir) }
     seen := [] }, ⟨rfl, rfl, rfl, rfl, rfl, fun _ => rfl, fun _ => rfl, fun _ => rfl, fun _ => rfl, fun _ => rfl,
    fun _ => rfl, fun _ => rfl, fun _ => rfl, fun _ => rfl, fun _ => rfl, fun _ => rfl⟩⟩

/-- Two modes, sixteen radial cells. -/
noncomputable def wideCfg : Cfg := { cubicCfg with Nm := 2, Nr := 16, beta := fun _ _ => List.replicate 17 0 }

instance : NeZero wideCfg.Nz := ⟨by show (8 : ℕ) ≠ 0; norm_num⟩

/-- An electron at the distance 10 from the axis. -/
noncomputable def wideSim : Sim := cubicSim ⟨10, 0, 7.9, ⟨0, 0, 4 / 3, 3 / 5⟩, 0⟩ .linear

theorem wide_reasonable (L : List (ℕ × Opts)) : Spec.Reasonable wideCfg L wideSim := by
  constructor <;> norm_num [wideCfg, cubicCfg, wideSim, cubicSim, Spec.maxCells, Spec.frameVelocity]
  rw [show (9 : ℝ) = 3 ^ 2 by norm_num, show (25 : ℝ) = 5 ^ 2 by norm_num, Real.sqrt_sq (by norm_num),
    Real.sqrt_sq (by norm_num)]

theorem wide_run (n : ℕ) (hn : n ≤ 3) : ∃ t, wideCfg.calls [(n, {})] wideSim = .ok t ∧ ∀ q ∈ t.seen, q.x ≠ 0 ∨ q.y ≠ 0 := by
  refine C87_off_axis wideCfg _ wideSim (wide_reasonable _) rfl ?_
  intro sp hsp p hp
  rw [List.mem_singleton.1 hsp] at hp
  rw [List.mem_singleton.1 hp]
  have h3 : (n : ℝ) ≤ 3 := by exact_mod_cast hn
  have hs : Real.sqrt ((10 : ℝ) ^ 2 + 0 ^ 2) = 10 := by
    rw [show (10 : ℝ) ^ 2 + 0 ^ 2 = 10 ^ 2 by ring, Real.sqrt_sq (by norm_num)]
  show 3 * (1 : ℝ) * 1 * _ < Real.sqrt ((10 : ℝ) ^ 2 + 0 ^ 2)
  rw [hs]
  simp only [List.map_cons, List.map_nil, List.sum_cons, List.sum_nil, add_zero]
  linarith

example : Spec.Reasonable wideCfg [(1000, {}), (5, { movePositions := false })] wideSim := wide_reasonable _

example (a : ℝ) : ∃ s' t, (Motion.rotation a).Moved wideSim s' ∧ (Motion.rotation a).ExtMoved wideCfg [] ∧
    wideCfg.calls [(3, {})] wideSim = .ok t ∧ ∀ q ∈ t.seen, q.x ≠ 0 ∨ q.y ≠ 0 := by
  obtain ⟨s', hs'⟩ := exists_moved (Motion.rotation a) wideSim
  obtain ⟨t, ht⟩ := wide_run 3 le_rfl
  exact ⟨s', t, hs', fun _ _ _ => rfl, ht⟩

/-- A constant external field along z may be kept in a rotation, and is reversed with the charges. -/
example (a E : ℝ) (c : Cfg) (hc : c.ext = [⟨fun F _ _ _ _ amp _ => F + amp, [(.Ez, E)], 1, none⟩]) :
    (Motion.rotation a).ExtMoved c c.ext ∧
      Motion.conjugation.ExtMoved c [⟨fun F _ _ _ _ amp _ => F + amp, [(.Ez, -E)], 1, none⟩] := by
  rw [hc]
  constructor <;> intro t id p <;>
    simp only [hc, List.foldl_cons, List.foldl_nil, applyExt, true_or, if_true, applyTerm, Motion.ptcl] <;>
    congr 1 <;> funext k <;>
    cases k <;> simp [Motion.fields, Function.update, Motion.rotation, Motion.conjugation, Motion.vx, Motion.vy] <;>
    ring

/-- A field that oscillates along z is displaced with the particles. -/
example (d E k : ℝ) (c : Cfg) (hc : c.ext = [⟨fun F _ _ z t amp _ => F + amp * Real.cos (k * z - t), [(.Ex, E)], 1, none⟩]) :
    (Motion.translation d).ExtMoved c
      [⟨fun F _ _ z t amp _ => F + amp * Real.cos (k * (z - d) - t), [(.Ex, E)], 1, none⟩] := by
  intro t id p
  simp only [hc, List.foldl_cons, List.foldl_nil, applyExt, true_or, if_true, applyTerm, Motion.ptcl]
  congr 1
  funext k
  cases k <;> simp [Motion.fields, Function.update, Motion.translation, Motion.vx, Motion.vy, Motion.push]

/-! ### A particle on the axis -/

/-- Two modes, and a particle that crosses the axis in the direction `(ux, uy)`. -/
noncomputable def axisCfg : Cfg := { cubicCfg with Nm := 2 }

instance : NeZero axisCfg.Nz := ⟨by show (8 : ℕ) ≠ 0; norm_num⟩

noncomputable def axisSim : Sim := cubicSim ⟨0, 0, 2.5, ⟨4 / 3, 0, 0, 3 / 5⟩, 0⟩ .linear

theorem axis_reasonable (s : Sim) (h : s.species = axisSim.species ∨
      s.species = axisSim.species.map (Motion.rotation (Real.pi / 2)).species) (h0 : s.zmin = 0) (f : DepField) :
    axisCfg.depOk f s := by
  intro m _ sp hsp
  have := (depositAll_ok f axisCfg.k.c (axisCfg.grid s.zmin) axisCfg.beta m 1 one_pos [sp] _).1
    (C24_deposit_partial f axisCfg.k.c (axisCfg.grid s.zmin) axisCfg.beta m 1 one_pos [sp]
      (fun _ _ => by simp [axisCfg, cubicCfg, Cfg.grid]) (by norm_num [axisCfg, cubicCfg, Cfg.grid]) rfl ?_).choose_spec
  · exact this.1 sp (by simp)
  · intro sp' hsp' p hp
    rw [List.mem_singleton.1 hsp'] at hp ⊢
    obtain ⟨sp0, h1, rfl⟩ := List.mem_map.1 hsp
    obtain ⟨p0, hp0, rfl⟩ := List.mem_map.1 hp
    have hsp0 := (List.mem_filter.1 h1).1
    have hz : p0.push.z = 2.5 := by
      rcases h with h | h
      · rw [h] at hsp0
        rw [List.mem_singleton.1 hsp0] at hp0
        rw [List.mem_singleton.1 hp0]
      · rw [h] at hsp0
        rw [List.mem_singleton.1 hsp0] at hp0
        rw [List.mem_singleton.1 hp0]
        show (2.5 : ℝ) + 0 = 2.5
        norm_num
    show -sp0.shape.reach < axisCfg.invdz * (p0.push.z - s.zmin) ∧ axisCfg.invdz * (p0.push.z - s.zmin) ≤ axisCfg.Nz + sp0.shape.reach
    have hr : 0 ≤ sp0.shape.reach := by cases sp0.shape <;> norm_num [Shape.reach]
    rw [hz, h0]
    show -_ < (1 : ℝ) * (2.5 - 0) ∧ (1 : ℝ) * (2.5 - 0) ≤ ((8 : ℕ) : ℝ) + _
    push_cast
    constructor <;> linarith

/-- What the particle adds to `Jr` of mode 1. -/
theorem axis_value (s : Sim) (ux uy : ℝ) (h0 : s.zmin = 0)
    (hs : s.depositing = [⟨-1, .linear, [⟨0, 0, 2.5, 1, ux, uy, 0, 3 / 5⟩]⟩]) :
    axisCfg.depArr .Jr s 1 2 0 = -(3 / 5) * ux := by
  unfold Cfg.depArr
  rw [if_pos (by show 1 < 2; norm_num), hs]
  have hr : cylR 0 0 = 0 := by simp [cylR]
  have hc : cylCos 0 0 = 1 := by simp [cylCos, hr]
  have hsn : cylSin 0 0 = 0 := by simp [cylSin, hr]
  have hz : (axisCfg.grid s.zmin).zCell 2.5 = 2 := by
    rw [h0]; show (1 : ℝ) * (2.5 - 0) - 1 / 2 = 2; norm_num
  have hrc : (axisCfg.grid s.zmin).rCell 0 = -1 / 2 := rCell_zero _ _
  have hbeta : ∀ p, betaOf (axisCfg.grid s.zmin) (axisCfg.beta .linear (min 1 1)) p = 0 := by
    intro p
    unfold betaOf
    show (List.replicate 5 (0 : ℝ)).getD _ 0 = 0
    generalize wrapIdx _ _ = k
    rw [List.getD_eq_getElem?_getD, List.getElem?_replicate]
    split_ifs <;> rfl
  have hcell : izCell .linear 2 = 3 := by simp [izCell]
  have hcol : irCell .linear (-1 / 2) (axisCfg.grid s.zmin).Nr = 1 := by
    simp only [irCell, ceil_half]; rfl
  show reduceBuf 8 4 ([speciesBuf _ _ _ _ _ _].sum) 2 0 * ((1 / 1 : ℝ) : ℂ) = _
  rw [List.sum_singleton]
  unfold speciesBuf
  rw [if_neg (by norm_num)]
  simp only [List.map_cons, List.map_nil, List.sum_singleton]
  unfold ptclBuf addsOf ptclAdds
  simp only [hbeta, hz, hrc, hcell, hcol, hr]
  simp only [Shape.width, List.range_succ, List.range_zero, List.nil_append, List.cons_append, List.map_cons,
    List.map_nil, List.flatMap_cons, List.flatMap_nil, List.append_nil, List.sum_cons, List.sum_nil, add_zero,
    reduceBuf_add, addBuf]
  simp only [Nat.cast_zero, Nat.cast_one, add_zero]
  rw [wrapIdx_of_nonneg (show (0 : ℤ) ≤ 3 by norm_num), wrapIdx_of_nonneg (show (0 : ℤ) ≤ 3 + 1 by norm_num),
    wrapIdx_of_nonneg (show (0 : ℤ) ≤ 1 by norm_num), wrapIdx_of_nonneg (show (0 : ℤ) ≤ 1 + 1 by norm_num)]
  simp only [reduceBuf_cellBuf, foldRow, foldCol, cellBuf, Pi.add_apply]
  simp [scalOf, modeScal, DepField.scal0, DepField.flip, hc, hsn, Shape.sz, Shape.sr, szLinear, srLinear, ceil_half,
    cubicCfg, axisCfg]
  simp [cellBuf]
  ring

/-- **C84, not true in general.** With two modes, a particle that is exactly on the axis is deposited as if its
azimuth were 0: turning it by 90 degrees does not turn the current. -/
theorem C84_violated : ∃ (c : Cfg) (_ : NeZero c.Nz) (a : ℝ) (s s' t t' : Sim),
    (Motion.rotation a).Moved s s' ∧ (Motion.rotation a).ExtMoved c c.ext ∧ c.depositJ s = .ok t ∧
      ((Motion.rotation a).cfg c c.ext).depositJ s' = .ok t' ∧ ¬ (Motion.rotation a).Moved t t' := by
  obtain ⟨s', hs'⟩ := exists_moved (Motion.rotation (Real.pi / 2)) axisSim
  have hcfg : (Motion.rotation (Real.pi / 2)).cfg axisCfg axisCfg.ext = axisCfg := by
    show Cfg.mk _ (1 * 1) _ _ _ _ _ _ _ _ _ _ _ _ _ _ _ _ _ _ = _
    rw [one_mul]; rfl
  have hz0 : s'.zmin = 0 := by rw [hs'.zmin]; show (0 : ℝ) + 0 = 0; norm_num
  refine ⟨axisCfg, inferInstance, Real.pi / 2, axisSim, s', axisCfg.withJ axisSim, axisCfg.withJ s', hs',
    fun _ _ _ => rfl, ?_, ?_, ?_⟩
  · exact (depositJ_ok axisCfg Nat.one_pos _ _).2 ⟨⟨axis_reasonable _ (Or.inl rfl) rfl _,
      axis_reasonable _ (Or.inl rfl) rfl _, axis_reasonable _ (Or.inl rfl) rfl _⟩, rfl⟩
  · have := (depositJ_ok axisCfg Nat.one_pos s' (axisCfg.withJ s')).2 ⟨⟨axis_reasonable _ (Or.inr hs'.species) hz0 _,
      axis_reasonable _ (Or.inr hs'.species) hz0 _, axis_reasonable _ (Or.inr hs'.species) hz0 _⟩, rfl⟩
    convert this using 2
  · intro hm
    have h1 := congrFun (congrFun (hm.Jr 1) 2) 0
    have e1 : ((axisCfg.withJ axisSim).interp 1).J.r = axisCfg.depArr .Jr axisSim 1 := rfl
    have e2 : ((axisCfg.withJ s').interp 1).J.r = axisCfg.depArr .Jr s' 1 := rfl
    rw [e1, e2] at h1
    unfold Motion.arr at h1
    rw [axis_value axisSim (4 / 3) 0 rfl rfl, axis_value s' 0 (4 / 3) hz0] at h1
    · have hf : (Motion.rotation (Real.pi / 2)).factor 1 = Complex.I := by
        simp [Motion.factor, Motion.rotation]
      rw [hf] at h1
      have h2 := congrArg Complex.im h1
      norm_num at h2
    · unfold Sim.depositing
      rw [hs'.species]
      simp [axisSim, cubicSim, Motion.species, Species.dep, Ptcl.dep, Motion.ptcl, Motion.push, Motion.rotation,
        Motion.vx, Motion.vy]

end Fbpic.Pic
