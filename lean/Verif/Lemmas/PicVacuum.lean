import Verif.Spec.PicVacuum
import Verif.Lemmas.PicRealRun
import Verif.Lemmas.PicCycleRun

/-!
# Lemmas: runs without sources
-/

namespace Fbpic.Pic

open Transform ExternalField Step
open Spec (VacuumOk NoSources Transverse emAt MaxwellEvolution TransOk V3 EM div curl hankel IsMaxwell EM.smul)

/-! ### The free solution -/

/-- Free propagation during the time `t`. -/
noncomputable def freeAt (k : Consts) (kz kr : ℝ) (V : Option ℝ) (b : Bool) (t : ℝ) (f : EM) : EM :=
  (freeStep k.c kz kr (coefC k kz kr t) (coefSw k kz kr t) f).smul (TebOf kz t V b)

theorem freeAt_zero (k : Consts) (kz kr : ℝ) (V : Option ℝ) (b : Bool) (f : EM) : freeAt k kz kr V b 0 f = f := by
  have hT : TebOf kz 0 V b = 1 := by cases V <;> cases b <;> simp [TebOf, coefTeb, coefT2]
  unfold freeAt
  rw [hT]
  simp [coefC, coefSw, freeStep, EM.smul]

theorem freeAt_add {k : Consts} (hk : k.Ok) (kz kr : ℝ) (V : Option ℝ) (b : Bool) (s t : ℝ) (f : EM)
    (hE : div kz kr f.E = 0) (hB : div kz kr f.B = 0) :
    freeAt k kz kr V b t (freeAt k kz kr V b s f) = freeAt k kz kr V b (s + t) f := by
  unfold freeAt
  rw [freeStep_comp _ _ _ _ _ _ _ _ _ _ hE hB, TebOf_add, (coefC_add k hk _ _ _ _).1, (coefC_add k hk _ _ _ _).2]
  push_cast
  rfl

theorem freeAt_div (k : Consts) (kz kr : ℝ) (V : Option ℝ) (b : Bool) (t : ℝ) (f : EM)
    (hE : div kz kr f.E = 0) (hB : div kz kr f.B = 0) :
    div kz kr (freeAt k kz kr V b t f).E = 0 ∧ div kz kr (freeAt k kz kr V b t f).B = 0 := by
  have h := div_freeStep k.c kz kr (coefC k kz kr t) (coefSw k kz kr t) (TebOf kz t V b) f
  rw [hE, hB, mul_zero] at h
  exact h

theorem freeAt_low (k : Consts) (kz : ℝ) (V : Option ℝ) (b : Bool) (t : ℝ) (f : EM)
    (h : f.E.p = 0 ∧ f.E.z = 0 ∧ f.B.p = 0 ∧ f.B.z = 0) :
    (freeAt k kz 0 V b t f).E.p = 0 ∧ (freeAt k kz 0 V b t f).E.z = 0 ∧ (freeAt k kz 0 V b t f).B.p = 0 ∧
    (freeAt k kz 0 V b t f).B.z = 0 := by
  obtain ⟨h1, h2, h3, h4⟩ := h
  simp [freeAt, freeStep, EM.smul, curl, h1, h2, h3, h4]

theorem closed_free (c kz kr : ℝ) (C S j b r1 r2 : ℂ) (f : EM) (hE : div kz kr f.E = 0) :
    Spec.closed c kz kr C S j b r1 r2 f.E f.B ⟨0, 0, 0⟩ = freeStep c kz kr C S f := by
  have hE' : (kr : ℂ) * (f.E.p - f.E.m) + Complex.I * kz * f.E.z = 0 := hE
  simp only [Spec.closed, freeStep, Spec.grad, curl, div, hE']
  simp

theorem TebOf_phase (kz t : ℝ) (V : Option ℝ) (b : Bool) :
    TebOf kz t V b = Complex.exp (Complex.I * kz * (schemeOf V b).gridVelocity * t) := by
  cases V <;> cases b <;> simp [TebOf, coefTeb, coefT2, schemeOf, Spec.Scheme.gridVelocity]

theorem freeAt_maxwell {k : Consts} (hk : k.Ok) (kz kr : ℝ) (V : Option ℝ) (b : Bool) (f : EM)
    (hE : div kz kr f.E = 0) (hB : div kz kr f.B = 0) :
    IsMaxwell k.c k.mu0 kz kr (schemeOf V b).gridVelocity (fun _ => ⟨0, 0, 0⟩) fun t => freeAt k kz kr V b t f := by
  have key : IsMaxwell k.c k.mu0 kz kr 0 (fun _ => ⟨0, 0, 0⟩)
      fun t => freeStep k.c kz kr (coefC k kz kr t) (coefSw k kz kr t) f := by
    by_cases hw : omega k kz kr = 0
    · obtain ⟨rfl, rfl⟩ := omega_eq_zero hk hw
      have h := Spec.isMaxwell_closed (Spec.coefODE_zero k.c k.mu0) f.E f.B ⟨0, 0, 0⟩ hB
      simp only [closed_free _ _ _ _ _ _ _ _ _ f hE, mul_zero] at h
      simpa [coefC, coefSw, hw] using h
    · have h := Spec.isMaxwell_closed (Spec.coefODE_static k.c k.mu0 kz kr (omega k kz kr) hw
        (by rw [omega, mul_pow, Real.sq_sqrt (by positivity)])) f.E f.B ⟨0, 0, 0⟩ hB
      simp only [closed_free _ _ _ _ _ _ _ _ _ f hE, mul_zero] at h
      simpa [coefC, coefSw, hw, invOmega, div_eq_mul_inv] using h
  have := key.toMoving (V := (schemeOf V b).gridVelocity)
  simp only [mul_zero] at this
  unfold freeAt
  simp only [TebOf_phase]
  exact this

/-! ### No sources -/

variable (c : Cfg) [NeZero c.Nz]

theorem depArr_silent (f : DepField) {s : Sim} (h : ∀ sp ∈ s.species, sp.isTracer = true ∨ sp.q = 0) (m : ℕ) :
    c.depArr f s m = 0 := by
  unfold Cfg.depArr
  split_ifs
  · have : (s.depositing.map (speciesBuf f c.k.c (c.grid s.zmin) c.beta m)).sum = 0 := by
      refine List.sum_eq_zero fun A hA => ?_
      obtain ⟨d, hd, rfl⟩ := List.mem_map.1 hA
      unfold Sim.depositing at hd
      obtain ⟨sp, hsp, rfl⟩ := List.mem_map.1 hd
      rw [List.mem_filter] at hsp
      have hq : sp.q = 0 := (h sp hsp.1).resolve_left (by simpa using hsp.2)
      unfold speciesBuf
      exact if_pos hq
    rw [this]
    unfold CellVolume.divideByVolume reduceBuf
    funext i j
    simp [cellBuf]
  · rfl

theorem hankel_nil (Nr : ℕ) (M : ℕ → ℕ → ℝ) (i j : ℕ) : hankel Nr M (fun _ _ => 0) i j = 0 := by
  unfold hankel
  simp

theorem fft_nil (N : ℕ) [NeZero N] : fftAxis0 N false (0 : Buf) = fun _ _ => 0 := by
  funext i j
  simp [fftAxis0, fftZ]

theorem toSpectScal_nil {m : ℕ} (out : Buf) {iz ir : ℕ} (hz : iz < c.Nz) (hr : ir < c.Nr) :
    c.toSpectScal m 0 out iz ir = 0 := by
  rw [toSpectScal_eq]
  unfold fwd
  rw [if_pos ⟨hz, hr⟩, fft_nil]
  exact hankel_nil _ _ _ _

theorem toSpectVect_nil {m : ℕ} (o o' : Buf) {iz ir : ℕ} (hz : iz < c.Nz) (hr : ir < c.Nr) :
    (c.toSpectVect m 0 0 o o').1 iz ir = 0 ∧ (c.toSpectVect m 0 0 o o').2 iz ir = 0 := by
  have e1 : (fun i j => (1 : ℂ) / 2 * ((0 : Buf) i j - Complex.I * (0 : Buf) i j)) = 0 := by funext i j; simp
  have e2 : (fun i j => (1 : ℂ) / 2 * ((0 : Buf) i j + Complex.I * (0 : Buf) i j)) = 0 := by funext i j; simp
  rw [toSpectVect_eq]
  unfold fwd
  dsimp only
  rw [if_pos ⟨hz, hr⟩, if_pos ⟨hz, hr⟩, e1, e2, fft_nil]
  exact ⟨hankel_nil _ _ _ _, hankel_nil _ _ _ _⟩

/-! ### The invariant -/

/-- The state between the pieces of the cycle, `e` being the fields at the start of the run and `A`
the wavenumbers that are looked at. -/
structure Cfg.FreeInv (A : ℕ → ℕ → ℕ → Prop) (e : ℕ → ℕ → ℕ → EM) (kz kr : ℕ → ℕ → ℝ) (n₀ : ℕ) (s : Sim) : Prop where
  ok : VacuumOk c s
  src : NoSources c s
  kz_eq : ∀ m < c.Nm, (s.spect m).kz = kz m
  kr_eq : ∀ m < c.Nm, (s.spect m).kr = kr m
  later : n₀ ≤ s.iteration
  spect : ∀ m < c.Nm, ∀ iz < c.Nz, ∀ ir < c.Nr, A m iz ir → ((s.spect m).cell iz ir).em =
    freeAt c.k (kz m iz) (kr m ir) c.V c.galilean ((s.iteration - n₀ : ℕ) * c.dt) (e m iz ir)
  interp : ∀ m < c.Nm, ∀ iz < c.Nz, ∀ ir < c.Nr, A m iz ir → emAt c s m iz ir =
    freeAt c.k (kz m iz) (kr m ir) c.V c.galilean ((s.iteration - n₀ : ℕ) * c.dt) (e m iz ir)

/-- What is needed of the fields at the start. -/
structure Cfg.FreeStart (A : ℕ → ℕ → ℕ → Prop) (e : ℕ → ℕ → ℕ → EM) (kz kr : ℕ → ℕ → ℝ) : Prop where
  div : ∀ m < c.Nm, ∀ iz < c.Nz, ∀ ir < c.Nr, A m iz ir → div (kz m iz) (kr m ir) (e m iz ir).E = 0 ∧
    div (kz m iz) (kr m ir) (e m iz ir).B = 0
  low : ∀ m < c.Nm, m ≠ 0 → ∀ iz < c.Nz, 0 < c.Nr → (e m iz 0).E.p = 0 ∧ (e m iz 0).E.z = 0 ∧ (e m iz 0).B.p = 0 ∧
    (e m iz 0).B.z = 0
  kr : ∀ m < c.Nm, m ≠ 0 → kr m 0 = 0

theorem VacuumOk_of {s t : Sim} (h : VacuumOk c s) (ht : ∀ m < c.Nm, (s.spect m).SameShape (t.spect m)) :
    VacuumOk c t where
  consts := h.consts
  Nz := fun m hm => (ht m hm).1.trans (h.Nz m hm)
  Nr := fun m hm => (ht m hm).2.1.trans (h.Nr m hm)
  trans := h.trans
  kr := fun m hm h0 => by rw [(ht m hm).2.2.2]; exact h.kr m hm h0

variable {c} {A : ℕ → ℕ → ℕ → Prop} {e : ℕ → ℕ → ℕ → EM} {kz kr : ℕ → ℕ → ℝ} {n₀ : ℕ}

theorem Cfg.FreeInv.congr {s t : Sim} (h : c.FreeInv A e kz kr n₀ s) (h1 : t.interp = s.interp) (h2 : t.spect = s.spect)
    (h3 : t.iteration = s.iteration) (h4 : ∀ sp ∈ t.species, sp.isTracer = true ∨ sp.q = 0) :
    c.FreeInv A e kz kr n₀ t := by
  obtain ⟨k1, k2, k3, k4, k5, k6, k7⟩ := h
  refine ⟨VacuumOk_of c k1 fun m _ => by rw [h2]; exact ⟨rfl, rfl, rfl, rfl⟩, ⟨h4, by rw [h2]; exact k2.spect⟩,
    by rw [h2]; exact k3, by rw [h2]; exact k4, by rw [h3]; exact k5, by rw [h2, h3]; exact k6, ?_⟩
  intro m hm iz hz ir hr hA
  rw [h3, ← k7 m hm iz hz ir hr hA]
  exact start_em c hm hz hr (by rw [h1]) (by rw [h1])

/-- A piece of the cycle that keeps the fields and leaves no sources. -/
theorem Cfg.FreeInv.keep {s t : Sim} (h : c.FreeInv A e kz kr n₀ s)
    (h1 : ∀ m < c.Nm, (t.interp m).E = (s.interp m).E ∧ (t.interp m).B = (s.interp m).B)
    (h2 : ∀ m < c.Nm, (s.spect m).SameShape (t.spect m))
    (h3 : t.iteration = s.iteration) (h4 : t.species = s.species)
    (h5 : ∀ m < c.Nm, ∀ iz < c.Nz, ∀ ir < c.Nr, ((t.spect m).cell iz ir).em = ((s.spect m).cell iz ir).em)
    (h6 : ∀ m < c.Nm, ∀ iz < c.Nz, ∀ ir < c.Nr, ((t.spect m).cell iz ir).J = ⟨0, 0, 0⟩ ∧
      ∀ n : RhoName, n.get ((t.spect m).cell iz ir) = 0) :
    c.FreeInv A e kz kr n₀ t := by
  obtain ⟨k1, k2, k3, k4, k5, k6, k7⟩ := h
  refine ⟨VacuumOk_of c k1 h2, ⟨by rw [h4]; exact k2.species, h6⟩,
    fun m hm => (h2 m hm).2.2.1.trans (k3 m hm), fun m hm => (h2 m hm).2.2.2.trans (k4 m hm), by rw [h3]; exact k5, ?_, ?_⟩
  · intro m hm iz hz ir hr hA
    rw [h3, h5 m hm iz hz ir hr, k6 m hm iz hz ir hr hA]
  · intro m hm iz hz ir hr hA
    rw [h3, ← k7 m hm iz hz ir hr hA]
    exact start_em c hm hz hr (h1 m hm).1 (h1 m hm).2

theorem filterSpect_shape (fld : FilterField) (m : ℕ) (g : SpecGrid) : g.SameShape (c.filterSpect fld m g) := by
  unfold Cfg.filterSpect
  split <;> exact ⟨rfl, rfl, rfl, rfl⟩

theorem filterSpect_free {fld : FilterField} (hE : fld ≠ .E) (hB : fld ≠ .B) (m : ℕ) (g : SpecGrid) (iz ir : ℕ) :
    ((c.filterSpect fld m g).cell iz ir).em = (g.cell iz ir).em ∧
    ((g.cell iz ir).J = ⟨0, 0, 0⟩ ∧ (∀ n : RhoName, n.get (g.cell iz ir) = 0) →
      ((c.filterSpect fld m g).cell iz ir).J = ⟨0, 0, 0⟩ ∧ ∀ n : RhoName, n.get ((c.filterSpect fld m g).cell iz ir) = 0) := by
  unfold Cfg.filterSpect
  split
  · rename_i fz fr _
    show ((if iz < g.Nz ∧ ir < g.Nr then _ else _ : SpecCell)).em = _ ∧ (_ → (if iz < g.Nz ∧ ir < g.Nr then _ else _ : SpecCell).J = _ ∧
      ∀ n : RhoName, n.get (if iz < g.Nz ∧ ir < g.Nr then _ else _ : SpecCell) = 0)
    split_ifs
    · refine ⟨by cases fld <;> first | rfl | exact absurd rfl hE | exact absurd rfl hB, ?_⟩
      rintro ⟨h1, h2⟩
      simp only [SpecCell.J, V3.mk.injEq] at h1
      obtain ⟨a, b, d⟩ := h1
      have r1 := h2 .prev
      have r2 := h2 .next
      have r3 := h2 .nextZ
      have r4 := h2 .nextXY
      simp only [RhoName.get] at r1 r2 r3 r4
      refine ⟨?_, fun n => ?_⟩
      · cases fld <;> simp [filterCell, SpecCell.J, a, b, d]
      · cases fld <;> cases n <;> simp [filterCell, RhoName.get, r1, r2, r3, r4]
    · exact ⟨rfl, id⟩
  · exact ⟨rfl, id⟩

theorem Cfg.FreeInv.withRho {s : Sim} (n : RhoName) (h : c.FreeInv A e kz kr n₀ s) : c.FreeInv A e kz kr n₀ (c.withRho n s) := by
  have hs : ∀ m < c.Nm, (c.withRho n s).spect m = c.filterSpect n.filterField m
      (c.spectRho n m ((c.withRho n s).interp m) (s.spect m)) := fun m hm => if_pos hm
  refine h.keep (withRho_sameEB c n s) (fun m hm => ?_) rfl rfl ?_ ?_
  · rw [hs m hm]; exact filterSpect_shape n.filterField m (c.spectRho n m ((c.withRho n s).interp m) (s.spect m))
  · intro m hm iz hz ir hr
    rw [hs m hm, (filterSpect_free (by cases n <;> simp [RhoName.filterField]) (by cases n <;> simp [RhoName.filterField]) _ _ _ _).1]
    cases n <;> rfl
  · intro m hm iz hz ir hr
    rw [hs m hm]
    refine (filterSpect_free (by cases n <;> simp [RhoName.filterField]) (by cases n <;> simp [RhoName.filterField]) _ _ _ _).2 ?_
    have hi : (c.withRho n s).interp m = { s.interp m with rho := c.depArr .rho s m } := if_pos hm
    obtain ⟨hJ, hrho⟩ := h.src.spect m hm iz hz ir hr
    have hv : ∀ o, c.toSpectScal m ((c.withRho n s).interp m).rho o iz ir = 0 := by
      intro o
      rw [hi]
      show c.toSpectScal m (c.depArr .rho s m) o iz ir = 0
      rw [depArr_silent c _ h.src.species]
      exact toSpectScal_nil c o hz hr
    unfold Cfg.spectRho
    dsimp only
    rw [hv]
    refine ⟨by rw [← hJ]; cases n <;> rfl, fun n' => ?_⟩
    have := hrho n'
    cases n <;> cases n' <;> first | rfl | exact this

theorem Cfg.FreeInv.withJ {s : Sim} (h : c.FreeInv A e kz kr n₀ s) : c.FreeInv A e kz kr n₀ (c.withJ s) := by
  have hs : ∀ m < c.Nm, (c.withJ s).spect m = c.filterSpect .J m
      (c.spectJ m ((c.withJ s).interp m) (s.spect m)) := fun m hm => if_pos hm
  refine h.keep (withJ_sameEB c s) (fun m hm => ?_) rfl rfl ?_ ?_
  · rw [hs m hm]; exact filterSpect_shape .J m (c.spectJ m ((c.withJ s).interp m) (s.spect m))
  · intro m hm iz hz ir hr
    rw [hs m hm, (filterSpect_free (by simp) (by simp) _ _ _ _).1]
    rfl
  · intro m hm iz hz ir hr
    rw [hs m hm]
    refine (filterSpect_free (by simp) (by simp) _ _ _ _).2 ?_
    have hi : (c.withJ s).interp m = { s.interp m with J := ⟨c.depArr .Jr s m, c.depArr .Jt s m, c.depArr .Jz s m⟩ } :=
      if_pos hm
    obtain ⟨-, hrho⟩ := h.src.spect m hm iz hz ir hr
    have hv : ∀ o, c.toSpectScal m ((c.withJ s).interp m).J.z o iz ir = 0 := by
      intro o
      rw [hi]
      show c.toSpectScal m (c.depArr .Jz s m) o iz ir = 0
      rw [depArr_silent c _ h.src.species]
      exact toSpectScal_nil c o hz hr
    have hw : ∀ o o', (c.toSpectVect m ((c.withJ s).interp m).J.r ((c.withJ s).interp m).J.t o o').1 iz ir = 0 ∧
        (c.toSpectVect m ((c.withJ s).interp m).J.r ((c.withJ s).interp m).J.t o o').2 iz ir = 0 := by
      intro o o'
      rw [hi]
      show (c.toSpectVect m (c.depArr .Jr s m) (c.depArr .Jt s m) o o').1 iz ir = 0 ∧
        (c.toSpectVect m (c.depArr .Jr s m) (c.depArr .Jt s m) o o').2 iz ir = 0
      rw [depArr_silent c _ h.src.species, depArr_silent c _ h.src.species]
      exact toSpectVect_nil c o o' hz hr
    unfold Cfg.spectJ
    dsimp only
    rw [hv, (hw _ _).1, (hw _ _).2]
    refine ⟨rfl, fun n' => ?_⟩
    have := hrho n'
    cases n' <;> exact this

theorem Cfg.FreeInv.start {s : Sim} (h : c.FreeInv A e kz kr n₀ s) : c.FreeInv A e kz kr n₀ (c.startFields s) := by
  obtain ⟨k1, k2, k3, k4, k5, k6, k7⟩ := h
  refine ⟨VacuumOk_of c k1 fun m hm => start_shape c s hm, ⟨k2.species, ?_⟩,
    fun m hm => (start_shape c s hm).2.2.1.trans (k3 m hm), fun m hm => (start_shape c s hm).2.2.2.trans (k4 m hm), k5, k7, ?_⟩
  · intro m hm iz hz ir hr
    obtain ⟨hJ, hrho⟩ := k2.spect m hm iz hz ir hr
    rw [start_cell c s hm]
    exact ⟨hJ, fun n => by have := hrho n; cases n <;> exact this⟩
  · intro m hm iz hz ir hr hA
    show emAt c (c.startFields s) m iz ir = _
    rw [show (c.startFields s).iteration = s.iteration from rfl, ← k7 m hm iz hz ir hr hA]
    exact start_em c hm hz hr rfl rfl

theorem Cfg.FreeInv.finish {s : Sim} (h : c.FreeInv A e kz kr n₀ s) : c.FreeInv A e kz kr n₀ (c.endFields s) := by
  refine h.keep (fun m hm => ?_) (fun m hm => ⟨rfl, rfl, rfl, rfl⟩) rfl rfl (fun _ _ _ _ _ _ => rfl) h.src.spect
  have : (c.endFields s).interp m = c.interpSources m (s.spect m) (s.interp m) := if_pos hm
  rw [this]
  exact ⟨rfl, rfl⟩

theorem correct_free (k : CurrentCorrection) (kz kr : ℝ) (ps : PsatdCoefs) (a : SpecCell) (hJ : a.J = ⟨0, 0, 0⟩)
    (hr : ∀ n : RhoName, n.get a = 0) : correctCurrents k kz kr ps a = a := by
  simp only [SpecCell.J, V3.mk.injEq] at hJ
  obtain ⟨h1, h2, h3⟩ := hJ
  have r1 : a.rhoPrev = 0 := hr .prev
  have r2 : a.rhoNext = 0 := hr .next
  have r3 : a.rhoNextZ = 0 := hr .nextZ
  have r4 : a.rhoNextXY = 0 := hr .nextXY
  obtain ⟨⟩ := a
  dsimp only at h1 h2 h3 r1 r2 r3 r4
  subst h1 h2 h3 r1 r2 r3 r4
  unfold correctCurrents
  cases ps.comov <;> cases k <;>
    simp only [curlFreeStandard, curlFreeComoving, crossDepStandard, crossDepComoving, crossCorrect] <;>
    (try split_ifs) <;> simp

theorem divE_free (k : Consts) (kz kr : ℝ) (a : SpecCell) (hr : a.rhoPrev = 0) (hd : div kz kr a.em.E = 0) :
    (match Fbpic.correctDivE k .curlFree kz kr a with | .ok s' => s' | .error _ => a) = a := by
  have hd' : Complex.I * kz * a.Ez + kr * (a.Ep - a.Em) = 0 := by rw [add_comm]; exact hd
  simp only [correctDivE]
  have : -a.rhoPrev / k.eps0 + Complex.I * kz * a.Ez + kr * (a.Ep - a.Em) = 0 := by
    rw [hr, neg_zero, zero_div, zero_add, hd']
  rw [this]
  simp

theorem push_cross (k : Consts) (kz kr : ℝ) (ps : PsatdCoefs) (usePml useTrueRho : Bool) (s : SpecCell) :
    (pushEBWith k kz kr ps usePml useTrueRho s).rhoNextZ = s.rhoNextZ ∧
    (pushEBWith k kz kr ps usePml useTrueRho s).rhoNextXY = s.rhoNextXY := by
  unfold pushEBWith
  cases ps.comov <;> cases usePml <;> simp [pushEBStandard, pushEBComoving, pushPmlStandard, pushPmlComoving]

/-- Components that no field on the grid has. -/
theorem emAt_low (s : Sim) {m : ℕ} (hm : m < c.Nm) (hT : TransOk m (c.trans m)) (h0 : m ≠ 0) {iz : ℕ} (hz : iz < c.Nz)
    (hr : 0 < c.Nr) : (emAt c s m iz 0).E.p = 0 ∧ (emAt c s m iz 0).E.z = 0 ∧ (emAt c s m iz 0).B.p = 0 ∧
    (emAt c s m iz 0).B.z = 0 := by
  have e1 : ∀ a o, c.toSpectScal m a o iz 0 = 0 := by
    intro a o
    rw [toSpectScal_eq]
    unfold fwd
    rw [if_pos ⟨hz, hr⟩]
    exact hankel_low hT.ok0 (by exact_mod_cast h0) (by omega) _ _
  have e2 : ∀ a b o o', (c.toSpectVect m a b o o').1 iz 0 = 0 := by
    intro a b o o'
    rw [toSpectVect_eq]
    unfold fwd
    dsimp only
    rw [if_pos ⟨hz, hr⟩]
    exact hankel_low hT.okp (by exact_mod_cast h0) (by omega) _ _
  unfold emAt
  rw [start_cell c s hm]
  exact ⟨e2 _ _ _ _, e1 _ _, e2 _ _ _ _, e1 _ _⟩

/-- The other components of the column are kept on the way to the grid and back. -/
theorem emAt_minus {s : Sim} (h : c.Synced s) {m : ℕ} (hm : m < c.Nm) (hT : TransOk m (c.trans m)) {iz ir : ℕ}
    (hz : iz < c.Nz) (hr : ir < c.Nr) : (emAt c s m iz ir).E.m = ((s.spect m).cell iz ir).em.E.m ∧
    (emAt c s m iz ir).B.m = ((s.spect m).cell iz ir).em.B.m := by
  obtain ⟨i, hE, hB⟩ := h m hm
  have e2 := fun p q a b x y => rt_vect c hT p q a b x y hz hr
  unfold emAt
  rw [start_cell c s hm, hE, hB]
  exact ⟨(e2 _ _ _ _ _ _).2, (e2 _ _ _ _ _ _).2⟩

/-- The end of an iteration. -/
theorem Cfg.FreeInv.iterEnd {s t : Sim} (o : Opts) (hf : c.FreeStart A e kz kr) (h : c.FreeInv A e kz kr n₀ s)
    (ht : c.iterEnd o s = .ok t) : c.FreeInv A e kz kr n₀ t := by
  obtain ⟨-, e1, -, -, hsp, hsync⟩ := iterEnd_ok c o ht
  have hit : t.iteration = s.iteration + 1 := by
    unfold Cfg.iterEnd at ht
    obtain ⟨sp, -, ht⟩ := (except_bind_ok _ _ _).1 ht
    rw [← Except.ok.inj ht]
  obtain ⟨k1, k2, k3, k4, k5, k6, k7⟩ := h
  have hsh : ∀ m < c.Nm, (s.spect m).SameShape (t.spect m) := fun m hm => by rw [hsp m hm]; exact endGrid_shape c o _
  have hT : (((t.iteration - n₀ : ℕ) : ℝ)) * c.dt = ((s.iteration - n₀ : ℕ) : ℝ) * c.dt + c.dt := by
    rw [hit, Nat.succ_sub k5]; push_cast; ring
  have cell : ∀ m < c.Nm, ∀ iz < c.Nz, ∀ ir < c.Nr, (A m iz ir → ((t.spect m).cell iz ir).em =
      freeAt c.k (kz m iz) (kr m ir) c.V c.galilean ((t.iteration - n₀ : ℕ) * c.dt) (e m iz ir)) ∧
      ((t.spect m).cell iz ir).J = ⟨0, 0, 0⟩ ∧ ∀ n : RhoName, n.get ((t.spect m).cell iz ir) = 0 := by
    intro m hm iz hz ir hr
    have hz' : iz < (s.spect m).Nz := by rw [k1.Nz m hm]; exact hz
    have hr' : ir < (s.spect m).Nr := by rw [k1.Nr m hm]; exact hr
    obtain ⟨hJ, hrho⟩ := k2.spect m hm iz hz ir hr
    set g1 := (if o.correctCurrents then (s.spect m).correctCurrents c.k c.correction c.dt c.V c.galilean else s.spect m)
      with hg1
    have hc1 : g1.cell iz ir = (s.spect m).cell iz ir := by
      rw [hg1]
      split_ifs
      · unfold SpecGrid.correctCurrents
        rw [mapCells_cell _ _ hz' hr']
        exact correct_free _ _ _ _ _ hJ hrho
      · rfl
    have hs1 : (s.spect m).SameShape g1 := by rw [hg1]; split_ifs <;> exact ⟨rfl, rfl, rfl, rfl⟩
    have hz1 : iz < g1.Nz := by rw [hs1.1]; exact hz'
    have hr1 : ir < g1.Nr := by rw [hs1.2.1]; exact hr'
    set g2 := g1.push c.k c.dt c.V c.galilean false o.useTrueRho with hg2
    have hc2 := push_cell (k := c.k) (g := g1) c.dt c.V c.galilean false o.useTrueRho hz1 hr1
    rw [hc1, hs1.2.2.1, hs1.2.2.2, k3 m hm, k4 m hm, ← hg2] at hc2
    obtain ⟨p1, p2, p3⟩ := pushEBWith_sources c.k (kz m iz) (kr m ir)
      (psatdCoefs c.k (kz m iz) (kr m ir) c.dt c.V c.galilean) false o.useTrueRho ((s.spect m).cell iz ir)
    have hem : A m iz ir → (g2.cell iz ir).em =
        freeAt c.k (kz m iz) (kr m ir) c.V c.galilean ((t.iteration - n₀ : ℕ) * c.dt) (e m iz ir) := by
      intro hA
      obtain ⟨d1, d2⟩ := hf.div m hm iz hz ir hr hA
      have hE := k6 m hm iz hz ir hr hA
      have hdiv : div (kz m iz) (kr m ir) ((s.spect m).cell iz ir).em.E = 0 := by
        rw [hE]; exact (freeAt_div _ _ _ _ _ _ _ d1 d2).1
      rw [hc2, pushRho_em, pushEBWith_vacuum _ _ _ _ _ hJ (hrho .prev) (hrho .next) hdiv, hE, hT,
        ← freeAt_add k1.consts _ _ _ _ _ _ _ d1 d2]
      rfl
    have hsrc : (g2.cell iz ir).J = ⟨0, 0, 0⟩ ∧ ∀ n : RhoName, n.get (g2.cell iz ir) = 0 := by
      rw [hc2]
      refine ⟨p1.trans hJ, fun n => ?_⟩
      cases n
      · exact p3.trans (hrho .next)
      · rfl
      · exact (push_cross _ _ _ _ _ _ _).1.trans (hrho .nextZ)
      · exact (push_cross _ _ _ _ _ _ _).2.trans (hrho .nextXY)
    have hend : c.endGrid o (s.spect m) = if o.correctDivE then g2.mapCells (fun kz kr s =>
        match Fbpic.correctDivE c.k .curlFree kz kr s with | .ok s' => s' | .error _ => s) else g2 := rfl
    by_cases hd : o.correctDivE = true
    · have hcell : (t.spect m).cell iz ir = match Fbpic.correctDivE c.k .curlFree (g2.kz iz) (g2.kr ir) (g2.cell iz ir) with
          | .ok s' => s' | .error _ => g2.cell iz ir := by
        rw [hsp m hm, hend, if_pos hd, mapCells_cell _ _ (by exact hz1) (by exact hr1)]
      refine ⟨fun hA => ?_, ?_⟩
      · obtain ⟨d1, d2⟩ := hf.div m hm iz hz ir hr hA
        rw [hcell, divE_free _ _ _ _ (hsrc.2 .prev) ?_, hem hA]
        rw [show g2.kz = _ from hs1.2.2.1.trans (k3 m hm), show g2.kr = _ from hs1.2.2.2.trans (k4 m hm), hem hA]
        exact (freeAt_div _ _ _ _ _ _ _ d1 d2).1
      · rw [hcell]
        refine ⟨hsrc.1, fun n => ?_⟩
        have := hsrc.2 n
        cases n <;> exact this
    · have hcell : (t.spect m).cell iz ir = g2.cell iz ir := by rw [hsp m hm, hend, if_neg hd]
      rw [hcell]
      exact ⟨hem, hsrc⟩
  refine ⟨VacuumOk_of c k1 hsh, ⟨by rw [e1]; exact k2.species, fun m hm iz hz ir hr => (cell m hm iz hz ir hr).2⟩,
    fun m hm => (hsh m hm).2.2.1.trans (k3 m hm), fun m hm => (hsh m hm).2.2.2.trans (k4 m hm), by rw [hit]; omega,
    fun m hm iz hz ir hr => (cell m hm iz hz ir hr).1, ?_⟩
  intro m hm iz hz ir hr hA
  rw [← (cell m hm iz hz ir hr).1 hA]
  by_cases hl : m ≠ 0 ∧ ir = 0
  · obtain ⟨hm0, rfl⟩ := hl
    obtain ⟨a1, a2, a3, a4⟩ := emAt_low t hm (k1.trans m hm) hm0 hz hr
    obtain ⟨b1, b2⟩ := emAt_minus hsync hm (k1.trans m hm) hz hr
    have hc := (cell m hm iz hz 0 hr).1 hA
    rw [hf.kr m hm hm0] at hc
    obtain ⟨q1, q2, q3, q4⟩ := freeAt_low c.k (kz m iz) c.V c.galilean ((t.iteration - n₀ : ℕ) * c.dt) _
      (hf.low m hm hm0 iz hz hr)
    rw [← hc] at q1 q2 q3 q4
    refine EM.ext (V3.ext ?_ b1 ?_) (V3.ext ?_ b2 ?_)
    · rw [a1, q1]
    · rw [a2, q2]
    · rw [a3, q3]
    · rw [a4, q4]
  · exact (hsync.back c hm (k1.trans m hm) hz hr).1 hl

end Fbpic.Pic
