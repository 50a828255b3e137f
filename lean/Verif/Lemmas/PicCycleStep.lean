import Verif.Lemmas.PicCycleSrc

/-!
# Lemmas: one call of `step` with one iteration
-/

namespace Fbpic.Pic

open Transform ExternalField Step
open Spec (Paired Wrapped velocity back scalHat vecHat scalBack vecBack OnGrid smoothing Density ChargeOf CurrentOf
  PlusGradient PlusGradients V3 EM grad div IsMaxwell SolverOk EqOn Leap LeapFrom Sources)

variable (c : Cfg)

theorem wrapped_unique {zmin zmax z a b : ℝ} (ha : Wrapped zmin zmax z a) (hb : Wrapped zmin zmax z b) : a = b := by
  obtain ⟨⟨n, hn⟩, h1, h2⟩ := ha
  obtain ⟨⟨k, hk⟩, h3, h4⟩ := hb
  have hL : 0 < zmax - zmin := by linarith
  have e : a - b = ((n - k : ℤ) : ℝ) * (zmax - zmin) := by rw [hn, hk]; push_cast; ring
  have l1 : ((n - k : ℤ) : ℝ) * (zmax - zmin) < 1 * (zmax - zmin) := by rw [← e]; linarith
  have l2 : (-1 : ℝ) * (zmax - zmin) < ((n - k : ℤ) : ℝ) * (zmax - zmin) := by rw [← e]; linarith
  have l1 := lt_of_mul_lt_mul_right l1 hL.le
  have l2 := lt_of_mul_lt_mul_right l2 hL.le
  have u1 : n - k < 1 := by exact_mod_cast l1
  have u2 : -1 < n - k := by exact_mod_cast l2
  have : n - k = 0 := by omega
  rw [this] at e
  push_cast at e
  linarith

theorem _root_.Fbpic.Spec.Paired.join {R R' : ℕ → Species → Ptcl → Ptcl → Prop} {s t u : Sim} (h : Paired R s t) (h' : Paired R' s u) :
    Paired (fun id _ p' p'' => ∃ sp p, sp ∈ s.species ∧ p ∈ sp.ptcl ∧ R id sp p p' ∧ R' id sp p p'') t u := by
  have mid : ∀ (id : ℕ) (tp : Species), t.species[id]? = some tp → ∃ sp, s.species[id]? = some sp := by
    intro id tp h1
    obtain ⟨hi, -⟩ := List.getElem?_eq_some_iff.1 h1
    have hi' : id < s.species.length := by rw [← h.count]; exact hi
    exact ⟨_, List.getElem?_eq_getElem hi'⟩
  refine ⟨h'.count.trans h.count.symm, fun id tp up h1 h2 => ?_, fun id tp up h1 h2 j p p' g1 g2 => ?_⟩
  · obtain ⟨sp, h0⟩ := mid id tp h1
    obtain ⟨e1, l1⟩ := h.same id sp tp h0 h1
    obtain ⟨e2, l2⟩ := h'.same id sp up h0 h2
    refine ⟨?_, l2.trans l1.symm⟩
    calc { up with ptcl := tp.ptcl } = { ({ up with ptcl := sp.ptcl } : Species) with ptcl := tp.ptcl } := rfl
      _ = { ({ tp with ptcl := sp.ptcl } : Species) with ptcl := tp.ptcl } := by rw [e1, e2]
      _ = tp := rfl
  · obtain ⟨sp, h0⟩ := mid id tp h1
    obtain ⟨-, l1⟩ := h.same id sp tp h0 h1
    obtain ⟨hj, -⟩ := List.getElem?_eq_some_iff.1 g1
    have hj' : j < sp.ptcl.length := by rw [← l1]; exact hj
    have g0 : sp.ptcl[j]? = some sp.ptcl[j] := List.getElem?_eq_getElem hj'
    exact ⟨sp, sp.ptcl[j], List.mem_of_getElem? h0, List.mem_of_getElem? g0, h.ptcl id sp tp h0 h1 j _ _ g0 g1,
      h'.ptcl id sp up h0 h2 j _ _ g0 g2⟩

theorem sound_of {R : ℕ → Species → Ptcl → Ptcl → Prop} {s t : Sim} (h : Paired R s t) (hs : s.Sound)
    (hR : ∀ id sp p p', R id sp p p' → p.push.mom.ok → p'.push.mom.ok) : t.Sound := by
  intro tp htp p' hp'
  obtain ⟨id, h1⟩ := List.getElem?_of_mem htp
  obtain ⟨j, g1⟩ := List.getElem?_of_mem hp'
  obtain ⟨hi, -⟩ := List.getElem?_eq_some_iff.1 h1
  have hi' : id < s.species.length := by rw [← h.count]; exact hi
  have h0 : s.species[id]? = some s.species[id] := List.getElem?_eq_getElem hi'
  obtain ⟨-, l1⟩ := h.same id _ tp h0 h1
  obtain ⟨hj, -⟩ := List.getElem?_eq_some_iff.1 g1
  have hj' : j < s.species[id].ptcl.length := by rw [← l1]; exact hj
  have g0 : s.species[id].ptcl[j]? = some s.species[id].ptcl[j] := List.getElem?_eq_getElem hj'
  exact hR _ _ _ _ (h.ptcl id _ tp h0 h1 j _ _ g0 g1) (hs _ (List.mem_of_getElem? h0) _ (List.mem_of_getElem? g0))

/-! ### The end of an iteration -/

/-- The cell with which the fields are pushed. -/
noncomputable def Cfg.beforePush (o : Opts) (kz kr : ℝ) (u : SpecCell) : SpecCell :=
  if o.correctCurrents then correctCurrents c.correction kz kr (psatdCoefs c.k kz kr c.dt c.V c.galilean) u else u

/-- What happens in a cell of the spectral grid at the end of an iteration. -/
structure Cfg.CellEnd (o : Opts) (kz kr : ℝ) (u v : SpecCell) : Prop where
  J : v.J = (c.beforePush o kz kr u).J
  rho : v.rhoPrev = u.rhoNext
  B : v.em.B = (pushEBWith c.k kz kr (psatdCoefs c.k kz kr c.dt c.V c.galilean) false o.useTrueRho (c.beforePush o kz kr u)).em.B
  E : o.correctDivE = false →
    v.em.E = (pushEBWith c.k kz kr (psatdCoefs c.k kz kr c.dt c.V c.galilean) false o.useTrueRho (c.beforePush o kz kr u)).em.E
  divE : o.correctDivE = true → PlusGradient kz kr
    (pushEBWith c.k kz kr (psatdCoefs c.k kz kr c.dt c.V c.galilean) false o.useTrueRho (c.beforePush o kz kr u)).em.E v.em.E ∧
    (kz ≠ 0 ∨ kr ≠ 0 → div kz kr v.em.E = v.rhoPrev / c.k.eps0)

theorem beforePush_rest (o : Opts) (kz kr : ℝ) (u : SpecCell) : (c.beforePush o kz kr u).rhoPrev = u.rhoPrev ∧
    (c.beforePush o kz kr u).rhoNext = u.rhoNext ∧ (c.beforePush o kz kr u).em = u.em := by
  unfold Cfg.beforePush
  split_ifs
  · exact rho_correct _ _ _ _ _ _ _ _
  · exact ⟨rfl, rfl, rfl⟩

theorem end_cell (o : Opts) (g : SpecGrid) {iz ir : ℕ} (hz : iz < g.Nz) (hr : ir < g.Nr) :
    c.CellEnd o (g.kz iz) (g.kr ir) (g.cell iz ir) ((c.endGrid o g).cell iz ir) := by
  set g1 := if o.correctCurrents then g.correctCurrents c.k c.correction c.dt c.V c.galilean else g with hg1
  have hsh1 : g.SameShape g1 := by
    rw [hg1]; split_ifs <;> exact ⟨rfl, rfl, rfl, rfl⟩
  have hc1 : g1.cell iz ir = c.beforePush o (g.kz iz) (g.kr ir) (g.cell iz ir) := by
    rw [hg1]
    unfold Cfg.beforePush
    split_ifs
    · unfold SpecGrid.correctCurrents
      rw [mapCells_cell _ _ hz hr]
    · rfl
  have hz1 : iz < g1.Nz := by rw [hsh1.1]; exact hz
  have hr1 : ir < g1.Nr := by rw [hsh1.2.1]; exact hr
  set g2 := g1.push c.k c.dt c.V c.galilean false o.useTrueRho with hg2
  have hc2 := push_cell c.k c.dt c.V c.galilean false o.useTrueRho g1 hz1 hr1
  rw [← hg2, hc1, hsh1.2.2.1, hsh1.2.2.2] at hc2
  have hend : (c.endGrid o g).cell iz ir = if o.correctDivE then
      (match Fbpic.correctDivE c.k .curlFree (g.kz iz) (g.kr ir) (g2.cell iz ir) with
      | .ok s' => s'
      | .error _ => g2.cell iz ir) else g2.cell iz ir := by
    unfold Cfg.endGrid
    dsimp only
    rw [← hg1, ← hg2]
    by_cases hd : o.correctDivE = true
    · rw [if_pos hd, if_pos hd, mapCells_cell _ _ (by exact hz1) (by exact hr1)]
      rw [show g2.kz = g.kz from hsh1.2.2.1, show g2.kr = g.kr from hsh1.2.2.2]
      rfl
    · rw [if_neg hd, if_neg hd]
  have hJ : (g2.cell iz ir).J = (c.beforePush o (g.kz iz) (g.kr ir) (g.cell iz ir)).J := by
    rw [hc2]; exact (pushEBWith_sources _ _ _ _ _ _ _).1
  have hrho : (g2.cell iz ir).rhoPrev = (g.cell iz ir).rhoNext := by
    rw [hc2]
    exact (pushEBWith_sources _ _ _ _ _ _ _).2.2.trans (beforePush_rest c o _ _ _).2.1
  have hem : (g2.cell iz ir).em = (pushEBWith c.k (g.kz iz) (g.kr ir) (psatdCoefs c.k (g.kz iz) (g.kr ir) c.dt c.V c.galilean) false
      o.useTrueRho (c.beforePush o (g.kz iz) (g.kr ir) (g.cell iz ir))).em := by rw [hc2, pushRho_em]
  rw [hend]
  by_cases hd : o.correctDivE = true
  · rw [if_pos hd]
    refine ⟨?_, ?_, ?_, fun h => (by rw [hd] at h; cases h), fun _ => ⟨?_, fun hk => ?_⟩⟩
    · rw [← hJ]; rfl
    · rw [← hrho]; rfl
    · rw [← hem]; rfl
    · rw [← hem]
      simp only [Fbpic.correctDivE]
      generalize hF : -_ * (_ + _ + _ : ℂ) = F
      refine ⟨-F, ?_, ?_, ?_⟩ <;> simp only [SpecCell.em, grad] <;> ring
    · obtain ⟨f, e, hdiv, -⟩ := C58_gauss_partial c.k (g.kz iz) (g.kr ir) hk (g2.cell iz ir)
      have hp : f.rhoPrev = (g2.cell iz ir).rhoPrev := by
        rw [← Except.ok.inj e]
      rw [e]
      dsimp only
      rw [hdiv, hp]
  · rw [if_neg hd]
    exact ⟨hJ, hrho, by rw [hem], fun _ => by rw [hem], fun h => absurd h hd⟩

section
variable [NeZero c.Nz]

/-- The states on the way through one call of `step` with one iteration. -/
theorem step_one (o : Opts) {s t : Sim} (h : c.step 1 o s = .ok t) : ∃ a b d u, c.exchangePeriod ≠ 0 ∧
    c.iterStart 0 (c.startFields s) = .ok a ∧ c.iterHalf o a = .ok b ∧ c.iterDeposit o b = .ok d ∧ c.iterEnd o d = .ok u ∧
    t = c.endFields u := by
  unfold Cfg.step at h
  obtain ⟨u, hu, h⟩ := (except_bind_ok _ _ _).1 h
  unfold Cfg.loop at hu
  obtain ⟨u', hu', hu⟩ := (except_bind_ok _ _ _).1 hu
  have : u' = u := Except.ok.inj hu
  subst this
  rw [iter_eq] at hu'
  by_cases hp : c.exchangePeriod = 0
  · rw [if_pos hp] at hu'; cases hu'
  rw [if_neg hp] at hu'
  obtain ⟨a, ha, hu'⟩ := (except_bind_ok _ _ _).1 hu'
  obtain ⟨b, hb, hu'⟩ := (except_bind_ok _ _ _).1 hu'
  obtain ⟨d, hd, hu'⟩ := (except_bind_ok _ _ _).1 hu'
  exact ⟨a, b, d, u', hp, ha, hb, hd, hu', (Except.ok.inj h).symm⟩

/-- The two halves of the way together. -/
theorem leap_of (o : Opts) {s : Sim} {id : ℕ} {sp : Species} {p p1 : Ptcl} (h : p1.w = p.w ∧ p1.push.level = p.push.level ∧
    p1.push.x = p.push.x ∧ p1.push.y = p.push.y ∧ p1.push.mom.ok ∧
    (sp.q ≠ 0 → Spec.FieldsAt c s id sp p.push.x p.push.y p1.push.z p1.F) ∧
    (o.moveMomenta = true ∧ Spec.Feels c s sp p1.push.z →
      Spec.NewtonLorentz (Spec.chargeOf c sp p * c.dt / (sp.m * c.k.c)) (Spec.chargeOf c sp p * c.dt / (2 * sp.m))
        ⟨p1.F .Ex, p1.F .Ey, p1.F .Ez⟩ ⟨p1.F .Bx, p1.F .By, p1.F .Bz⟩ p.push.mom p1.push.mom) ∧
    (¬ (o.moveMomenta = true ∧ Spec.Feels c s sp p1.push.z) → p1.push.mom = p.push.mom)) :
    LeapFrom c o s id sp p1.push.z p (c.shiftP (if o.movePositions then 0.5 * c.dt else 0) (if o.movePositions then 0.5 * c.dt else 0)
      (c.shiftP (if o.movePositions then 0.5 * c.dt else 0) (if o.movePositions then 0.5 * c.dt else 0) p1)) := by
  obtain ⟨m1, m2, m3, m4, m5, m7, m8, m9⟩ := h
  have hv : p1.push.mom.invGamma = 1 / p1.push.mom.gamma := m5
  refine ⟨m1, m2, m7, m8, m9, fun hmv => ?_, fun hmv => ?_⟩
  · simp only [Cfg.shiftP, hmv, if_true, velocity, hv, m3, m4]
    refine ⟨?_, ?_, ?_⟩ <;> ring
  · simp only [Cfg.shiftP, hmv, Bool.false_eq_true, if_false, m3, m4]
    refine ⟨?_, ?_, ?_⟩ <;> ring

/-- The particles at the end. -/
theorem step_ptcl (hn : 0 < c.nthreads) (o : Opts) {s t : Sim} (h : c.step 1 o s = .ok t) :
    Paired (fun id sp p p' => p.push.mom.ok → Leap c o s id sp p p') s t ∧ (s.Sound → t.Sound) ∧ c.Clock c.dt c.dt 1 s t := by
  obtain ⟨a, b, d, u, -, ha, hb, hd, hu, rfl⟩ := step_one c o h
  obtain ⟨w, -, pa, ka, -⟩ := start_ptcl c hn ha
  obtain ⟨pb, kb, -⟩ := half_ptcl c _ o pa ka hb
  obtain ⟨ed, kd, -⟩ := deposit_ptcl c hn o hd
  obtain ⟨e1, e2, e3, e4, e5, -⟩ := iterEnd_full o hu
  have pd := shiftAll_paired c ed
  have pall := ((pb.trans pd).of_eq (s' := s) (t' := c.endFields u) rfl e1)
  refine ⟨pall.mono ?_, fun hs => sound_of pall hs ?_, ?_⟩
  · rintro id sp p p' ⟨p2, hm, l, rfl⟩ hok
    obtain ⟨p1, ⟨m1, m2, m3, m4, m5, m6, m7, m8, m9⟩, rfl⟩ := hm hok
    exact ⟨p1.push.z, m6, leap_of c o ⟨m1, m2, m3, m4, m5,
      fun hq => FieldsAt_congr c (s := s) (t := c.startFields s) (.of_eq c rfl) rfl rfl (m7 hq), m8, m9⟩⟩
  · rintro id sp p p' ⟨p2, hm, l, rfl⟩ hok
    obtain ⟨p1, ⟨m1, m2, m3, m4, m5, -⟩, rfl⟩ := hm hok
    exact m5
  · have k1 := ((ka.trans c kb).trans c kd)
    refine ⟨?_, ?_, ?_, ?_⟩
    · show u.zmin = _
      rw [e2, k1.zmin]
      show s.zmin + _ = _
      congr 2
      ring
    · show u.zmax = _
      rw [e3, k1.zmax]
      show s.zmax + _ = _
      congr 2
      ring
    · show u.time = _
      rw [e4, k1.time]
      show s.time + _ + _ = _
      ring
    · show u.iteration = _
      rw [e5, k1.iteration]
      rfl

theorem depositing_congr {s t : Sim} (h : t.species = s.species) : t.depositing = s.depositing := by
  unfold Sim.depositing
  rw [h]

/-- The charge density of a state whose particles are, up to their momenta, those of another. -/
theorem charge_same {w s : Sim} (hn : 0 < c.nthreads) (hd : c.depOk .rho w) (hz : s.zmin = w.zmin)
    (h : Paired (fun _ _ p p' => p'.w = p.w ∧ p'.push.level = p.push.level ∧
      p'.push.x = p.push.x ∧ p'.push.y = p.push.y ∧ p'.push.z = p.push.z) w s) : ChargeOf c s (c.rhoHat w) := by
  obtain ⟨h1, h2⟩ := dep_strip c hz (strip_of_paired h)
  have := chargeOf_rhoHat c hn (h1 hd)
  rwa [rhoHat_congr c h2] at this

theorem _root_.Fbpic.Spec.Sources.waves {o : Opts} {kz kr kz' kr' : ℕ → ℕ → ℝ} {P : ℝ → ℝ → Sim} {rho₀ rho : ℕ → ℕ → ℕ → ℂ}
    {J : ℕ → ℕ → ℕ → V3} (h : Sources c o kz kr P rho₀ rho J) (e : ∀ m < c.Nm, kz m = kz' m ∧ kr m = kr' m) :
    Sources c o kz' kr' P rho₀ rho J := by
  refine ⟨h.after, h.plain, fun h1 h2 => ?_, fun h1 h2 => ?_⟩
  · obtain ⟨J₀, a, b⟩ := h.curlFree h1 h2
    refine ⟨J₀, a, fun m hm => ?_⟩
    rw [← (e m hm).1, ← (e m hm).2]
    exact b m hm
  · obtain ⟨J₀, r1, r2, a, a', a'', b⟩ := h.cross h1 h2
    refine ⟨J₀, r1, r2, a, a', a'', fun m hm => ?_⟩
    rw [← (e m hm).1, ← (e m hm).2]
    exact b m hm

/-- The sources and the cells of the spectral grid, from the middle of the step to its end. -/
theorem sources_core (hn : 0 < c.nthreads) (o : Opts) {b d : Sim} (zb : c.Sized b)
    (hreg : ∀ m < c.Nm, ∀ iz < c.Nz, Regular c.k ((b.spect m).kz iz) c.dt c.V) (hd : c.iterDeposit o b = .ok d)
    {g : ℕ → SpecGrid} (hg : ∀ m < c.Nm, g m = c.endGrid o (d.spect m)) (P : ℝ → ℝ → Sim)
    (hP : ∀ x y, (P x y).species = c.shiftAll ((if o.movePositions then 0.5 * c.dt else 0) + if o.movePositions then -x else 0)
      ((if o.movePositions then 0.5 * c.dt else 0) + if o.movePositions then -y else 0) b.species)
    (hPz : ∀ x y, (P x y).zmin = b.zmin + c.drift (0.5 * c.dt + -y)) :
    (∀ m < c.Nm, (b.spect m).SameShape (g m)) ∧
    Sources c o (fun m => (b.spect m).kz) (fun m => (b.spect m).kr) P (fun m iz ir => ((b.spect m).cell iz ir).rhoPrev)
      (fun m iz ir => ((g m).cell iz ir).rhoPrev) (fun m iz ir => ((g m).cell iz ir).J) ∧
    ∀ m < c.Nm, ∀ iz < c.Nz, ∀ ir < c.Nr, ∃ u : SpecCell,
      u.em = ((b.spect m).cell iz ir).em ∧ u.rhoPrev = ((b.spect m).cell iz ir).rhoPrev ∧
      c.CellEnd o ((b.spect m).kz iz) ((b.spect m).kr ir) u ((g m).cell iz ir) := by
  obtain ⟨ed, kd, -⟩ := deposit_ptcl c hn o hd
  obtain ⟨⟨dJ1, dJ2, dJ3⟩, dd, kpd, X, Z, hXZ, stored⟩ := deposit_stored c hn o zb hd
  have zd := kpd.sized c zb
  have shd : ∀ m < c.Nm, (b.spect m).SameShape (d.spect m) := fun m hm => (kpd m hm).1
  have shu : ∀ m < c.Nm, (b.spect m).SameShape (g m) := by
    intro m hm
    obtain ⟨a1, a2, a3, a4⟩ := shd m hm
    obtain ⟨b1, b2, b3, b4⟩ := endGrid_shape c o (d.spect m)
    rw [hg m hm]
    exact ⟨b1.trans a1, b2.trans a2, b3.trans a3, b4.trans a4⟩
  have cells : ∀ m < c.Nm, ∀ iz < c.Nz, ∀ ir < c.Nr, c.CellEnd o ((b.spect m).kz iz) ((b.spect m).kr ir)
      ((d.spect m).cell iz ir) ((g m).cell iz ir) := by
    intro m hm iz hz ir hr
    have := end_cell c o (d.spect m) (iz := iz) (ir := ir) (by rw [(zd m hm).1]; exact hz) (by rw [(zd m hm).2]; exact hr)
    rw [(shd m hm).2.2.1, (shd m hm).2.2.2, ← hg m hm] at this
    exact this
  have prev : ∀ m < c.Nm, ∀ iz < c.Nz, ∀ ir < c.Nr,
      ((d.spect m).cell iz ir).rhoPrev = ((b.spect m).cell iz ir).rhoPrev :=
    fun m hm iz hz ir hr => (stored m hm iz hz ir hr).prev
  set hh : ℝ := if o.movePositions then 0.5 * c.dt else 0 with hhh
  have half : (P (c.dt / 2) (c.dt / 2)).depositing = b.depositing ∧ (P (c.dt / 2) (c.dt / 2)).zmin = b.zmin := by
    refine ⟨depositing_congr ?_, ?_⟩
    · rw [hP]
      have : (hh + if o.movePositions then -(c.dt / 2) else 0) = 0 := by rw [hhh]; split_ifs <;> ring
      rw [this]
      exact shiftAll_zero c _
    · rw [hPz, show 0.5 * c.dt + -(c.dt / 2) = 0 by ring, drift_zero, add_zero]
  have hJ0 : CurrentOf c (P (c.dt / 2) (c.dt / 2)) fun m iz ir => ((d.spect m).cell iz ir).J :=
    (CurrentOf.values c (currentOf_jHat c hn dJ1 dJ2 dJ3) fun m hm iz hz ir hr => (stored m hm iz hz ir hr).J)
      |> CurrentOf_congr c half.1 half.2
  have hafter : ChargeOf c (P 0 0) (fun m iz ir => ((g m).cell iz ir).rhoPrev) := by
    refine ChargeOf_congr c (s := d) (depositing_congr ?_) ?_ (ChargeOf.values c (chargeOf_rhoHat c hn dd) fun m hm iz hz ir hr => ?_)
    · rw [hP, ed]; simp
    · rw [hPz, kd.zmin]; simp
    · exact ((cells m hm iz hz ir hr).rho).trans (stored m hm iz hz ir hr).next
  refine ⟨shu, ⟨hafter, fun hc => ?_, fun hc hcc => ?_, fun hc hcc => ?_⟩, fun m hm iz hz ir hr => ?_⟩
  · refine CurrentOf.values c hJ0 fun m hm iz hz ir hr => ?_
    have := (cells m hm iz hz ir hr).J
    unfold Cfg.beforePush at this
    rw [hc] at this
    exact this
  · refine ⟨_, hJ0, fun m hm iz hz ir hr => ?_⟩
    have hcell := cells m hm iz hz ir hr
    have hJ := hcell.J
    unfold Cfg.beforePush at hJ
    rw [if_pos hc, hcc] at hJ
    refine ⟨?_, fun hk => ?_⟩
    · rw [hJ]
      exact curlFree_gradient _ _ _ _ _ _ _
    · have zz : iz < (d.spect m).Nz := by rw [(zd m hm).1]; exact hz
      have rr : ir < (d.spect m).Nr := by rw [(zd m hm).2]; exact hr
      have := (C30_curl_free c.k (d.spect m) c.dt c.V c.galilean iz ir zz rr
        (by rw [(shd m hm).2.2.1]; exact hreg m hm iz hz) (by rw [(shd m hm).2.2.1, (shd m hm).2.2.2]; exact hk))
      obtain ⟨q1, q2, q3, -⟩ := this
      unfold SpecCell.Conserving at q1
      rw [q2, q3, (shd m hm).2.2.1, (shd m hm).2.2.2, prev m hm iz hz ir hr] at q1
      rw [hJ, hcell.rho]
      unfold SpecGrid.correctCurrents at q1
      rw [mapCells_cell _ _ zz rr, (shd m hm).2.2.1, (shd m hm).2.2.2] at q1
      exact q1
  · have hx : c.crosses o = true := by unfold Cfg.crosses; rw [hc, hcc]
    obtain ⟨dX, dZ, sX, zX, sZ, zZ⟩ := hXZ hx
    refine ⟨_, c.rhoHat X, c.rhoHat Z, hJ0, ?_, ?_, fun m hm iz hz ir hr => ?_⟩
    · refine ChargeOf_congr c (s := X) (depositing_congr ?_) ?_ (chargeOf_rhoHat c hn dX)
      · rw [hP, sX]
        congr 1 <;> rw [hhh] <;> split_ifs <;> ring
      · rw [hPz, zX]
        congr 2
        ring
    · refine ChargeOf_congr c (s := Z) (depositing_congr ?_) ?_ (chargeOf_rhoHat c hn dZ)
      · rw [hP, sZ]
        congr 1 <;> rw [hhh] <;> split_ifs <;> ring
      · rw [hPz, zZ]
        congr 2
        ring
    · have hcell := cells m hm iz hz ir hr
      have hJ := hcell.J
      unfold Cfg.beforePush at hJ
      rw [if_pos hc, hcc] at hJ
      have cc := cross_continuity ((b.spect m).kz iz) ((b.spect m).kr ir) c.dt c.V c.galilean (hreg m hm iz hz) ((d.spect m).cell iz ir)
      rw [prev m hm iz hz ir hr, (stored m hm iz hz ir hr).xy hx, (stored m hm iz hz ir hr).z hx] at cc
      refine ⟨?_, fun hk => ?_, fun hk => ?_⟩
      · rw [hJ]
        exact cross_gradients _ _ _ _ _ _ _
      · rw [hJ, hcell.rho]
        exact cc.1 hk
      · rw [hJ, hcell.rho]
        exact cc.2 hk
  · exact ⟨(d.spect m).cell iz ir, ((kpd m hm).2 iz hz ir hr).1, prev m hm iz hz ir hr, cells m hm iz hz ir hr⟩

/-- The sources and the fields at the end. -/
theorem step_sources (hn : 0 < c.nthreads) (o : Opts) {s t : Sim} (hs : c.Sized s) (hok : s.Sound)
    (hreg : ∀ m < c.Nm, ∀ iz < c.Nz, Regular c.k ((s.spect m).kz iz) c.dt c.V) (h : c.step 1 o s = .ok t) :
    (∀ m < c.Nm, (s.spect m).SameShape (t.spect m)) ∧
    ∃ rho₀, ChargeOf c (back c o c.dt c.dt t) rho₀ ∧
    Sources c o (fun m => (s.spect m).kz) (fun m => (s.spect m).kr) (fun x y => back c o x y t) rho₀
      (fun m iz ir => ((t.spect m).cell iz ir).rhoPrev) (fun m iz ir => ((t.spect m).cell iz ir).J) ∧
    (∀ m < c.Nm, ∃ i i' : Interp, (t.interp m).E = (c.interpEB m (t.spect m) i).E ∧ (t.interp m).B = (c.interpEB m (t.spect m) i).B ∧
      (t.interp m).J = (c.interpSources m (t.spect m) i').J ∧ (t.interp m).rho = (c.interpSources m (t.spect m) i').rho) ∧
    ∀ m < c.Nm, ∀ iz < c.Nz, ∀ ir < c.Nr, ∃ u : SpecCell,
      u.em = ⟨vecHat c m (s.interp m).E iz ir, vecHat c m (s.interp m).B iz ir⟩ ∧ u.rhoPrev = rho₀ m iz ir ∧
      c.CellEnd o ((s.spect m).kz iz) ((s.spect m).kr ir) u ((t.spect m).cell iz ir) := by
  have hst := (step_ptcl c hn o h).2.1 hok
  obtain ⟨a, b, d, u, -, ha, hb, hd, hu, rfl⟩ := step_one c o h
  set s0 := c.startFields s with hs0
  have sh0 : ∀ m < c.Nm, (s.spect m).SameShape (s0.spect m) := fun m hm => start_shape c s hm
  have z0 : c.Sized s0 := fun m hm => ⟨(sh0 m hm).1.trans (hs m hm).1, (sh0 m hm).2.1.trans (hs m hm).2⟩
  obtain ⟨w, hw, pa, ka, -⟩ := start_ptcl c hn ha
  obtain ⟨w', hw', kpa, hpa, tx, dw, za⟩ := start_fields c hn 0 (Or.inr rfl) z0 ha
  have : w' = w := Except.ok.inj (hw'.symm.trans hw)
  subst this
  obtain ⟨pb, kb, -⟩ := half_ptcl c _ o pa ka hb
  obtain ⟨eb, -⟩ := half_fields c o tx hb
  have kpb : c.Keeps (fun _ => True) a b := .of_eq c _ eb
  have zb := kpb.sized c za
  obtain ⟨ed, kd, -⟩ := deposit_ptcl c hn o hd
  have kall := kpa.trans c kpb
  obtain ⟨-, -, -, -, hsp, -⟩ := iterEnd_ok c o hu
  obtain ⟨e1, e2, e3, e4, e5, e6⟩ := iterEnd_full o hu
  have shb : ∀ m < c.Nm, (s.spect m).SameShape (b.spect m) := by
    intro m hm
    obtain ⟨a1, a2, a3, a4⟩ := sh0 m hm
    obtain ⟨b1, b2, b3, b4⟩ := (kall m hm).1
    exact ⟨b1.trans a1, b2.trans a2, b3.trans a3, b4.trans a4⟩
  have prev : ∀ m < c.Nm, ∀ iz < c.Nz, ∀ ir < c.Nr, ((b.spect m).cell iz ir).rhoPrev = c.rhoHat w' m iz ir := by
    intro m hm iz hz ir hr
    rw [eb]
    exact hpa m hm iz hz ir hr
  -- the particles and the grid at the end
  set t := c.endFields u with ht
  set hh : ℝ := if o.movePositions then 0.5 * c.dt else 0 with hhh
  have tsp : t.species = c.shiftAll hh hh b.species := e1.trans ed
  have tz : t.zmin = b.zmin + c.drift (0.5 * c.dt) := e2.trans kd.zmin
  have bz : b.zmin = s.zmin + c.drift (0.5 * c.dt) := by
    rw [kb.zmin, ka.zmin, drift_zero, add_zero]; rfl
  have bsp : ∀ x y, (back c o x y t).species = c.shiftAll (hh + if o.movePositions then -x else 0)
      (hh + if o.movePositions then -y else 0) b.species := by
    intro x y
    rw [back_species c o x y hst, tsp, shiftAll_add]
  have bzm : ∀ x y, (back c o x y t).zmin = b.zmin + c.drift (0.5 * c.dt + -y) := by
    intro x y
    rw [back_zmin, tz, add_assoc, drift_add]
  have hbefore : ChargeOf c (back c o c.dt c.dt t) (c.rhoHat w') := by
    have pw : Paired (fun _ _ p p' => c.wrap s0.zmin s0.zmax p = .ok p') s0 w' := by
      obtain ⟨l1, f1, e1⟩ := (mapPtclM_ok _ _ _).1 hw
      exact Paired.of_forall₂ (by rw [e1]; exact f1)
    have pt := (pb.trans (shiftAll_paired c (bsp c.dt c.dt)))
    refine charge_same c hn dw ?_ ((pw.join pt).mono ?_)
    · have wz : w'.zmin = s.zmin := by
        obtain ⟨l1, f1, e1⟩ := (mapPtclM_ok _ _ _).1 hw
        rw [e1]; rfl
      rw [bzm, bz, wz, add_assoc, drift_add, show 0.5 * c.dt + (0.5 * c.dt + -c.dt) = 0 by ring, drift_zero, add_zero]
    · rintro id - p' p'' ⟨sp, p, hsp, hp, hwr, p2, hm, l, rfl⟩
      obtain ⟨z, hz, rfl⟩ := wrap_spec c hwr
      obtain ⟨p1, ⟨m1, m2, m3, m4, m5, m6, -⟩, rfl⟩ := hm (hok sp hsp p hp)
      have hzz : p1.push.z = z := wrapped_unique m6 hz
      have : ∀ x v : ℝ, x + hh * v + (hh + if o.movePositions then -c.dt else 0) * v = x := by
        intro x v
        rw [hhh]
        split_ifs <;> ring
      refine ⟨m1, m2, ?_, ?_, ?_⟩
      · exact (this _ _).trans m3
      · exact (this _ _).trans m4
      · exact (this _ _).trans hzz
  have hkz : ∀ m < c.Nm, (b.spect m).kz = (s.spect m).kz ∧ (b.spect m).kr = (s.spect m).kr :=
    fun m hm => ⟨(shb m hm).2.2.1, (shb m hm).2.2.2⟩
  obtain ⟨c1, c2, c3⟩ := sources_core c hn o zb (fun m hm => by rw [(hkz m hm).1]; exact hreg m hm) hd
    (g := t.spect) hsp (fun x y => back c o x y t) bsp bzm
  refine ⟨fun m hm => ?_, fun m iz ir => ((b.spect m).cell iz ir).rhoPrev, ChargeOf.values c hbefore prev, ?_, fun m hm => ?_,
    fun m hm iz hz ir hr => ?_⟩
  · obtain ⟨a1, a2, a3, a4⟩ := shb m hm
    obtain ⟨b1, b2, b3, b4⟩ := c1 m hm
    exact ⟨b1.trans a1, b2.trans a2, b3.trans a3, b4.trans a4⟩
  · exact c2.waves c hkz
  · have hi : t.interp m = c.interpSources m (u.spect m) (u.interp m) := by
      rw [ht]
      unfold Cfg.endFields
      dsimp only [onModes]
      rw [if_pos hm]
    refine ⟨d.interp m, u.interp m, ?_, ?_, by rw [hi]; rfl, by rw [hi]; rfl⟩
    · rw [hi]
      show (u.interp m).E = _
      rw [e6 m hm]; rfl
    · rw [hi]
      show (u.interp m).B = _
      rw [e6 m hm]; rfl
  · obtain ⟨v, v1, v2, v3⟩ := c3 m hm iz hz ir hr
    rw [(hkz m hm).1, (hkz m hm).2] at v3
    refine ⟨v, ?_, v2, v3⟩
    rw [v1, ((kall m hm).2 iz hz ir hr).1]
    exact start_hat c s hm hz hr

end

end Fbpic.Pic
