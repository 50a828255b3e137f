import Verif.Lemmas.PicCycleStep
import Verif.Props.PicSplit

/-!
# C93: one iteration is the PIC cycle of the textbooks
-/

namespace Fbpic.Pic

open Transform ExternalField Step
open Spec (Paired Leap Sources ChargeOf back vecHat vecBack scalBack OnGrid PlusGradient V3 EM IsMaxwell div SolverOk)

private theorem start_clock (c : Cfg) [NeZero c.Nz] (hn : 0 < c.nthreads) (i : ℕ) {s t : Sim} (h : c.iterStart i s = .ok t) :
    c.Clock 0 0 0 s t := by
  rw [iterStart_eq] at h
  obtain ⟨s2, h2, h⟩ := (except_bind_ok _ _ _).1 h
  obtain ⟨s3, h3, h⟩ := (except_bind_ok _ _ _).1 h
  obtain ⟨s4, h4, h⟩ := (except_bind_ok _ _ _).1 h
  have ht : c.applyExts s4 = t := Except.ok.inj h
  have k2 : c.Clock 0 0 0 s s2 := by
    split_ifs at h2
    · obtain ⟨s1, h1, h2⟩ := (except_bind_ok _ _ _).1 h2
      obtain ⟨-, rfl⟩ := (depositRho_ok c hn _ _ _).1 h2
      obtain ⟨l1, f1, e1⟩ := (mapPtclM_ok _ _ _).1 h1
      rw [e1]
      exact .of_eq c rfl rfl rfl rfl
    · rw [← Except.ok.inj h2]; exact .of_eq c rfl rfl rfl rfl
  have k3 : c.Clock 0 0 0 s2 s3 := by
    split_ifs at h3
    · obtain ⟨-, rfl⟩ := (depositJ_ok c hn _ _).1 h3
      exact .of_eq c rfl rfl rfl rfl
    · rw [← Except.ok.inj h3]; exact .of_eq c rfl rfl rfl rfl
  obtain ⟨l4, f4, e4⟩ := (mapPtclM_ok _ _ _).1 h4
  have k4 : c.Clock 0 0 0 s3 t := by
    rw [← ht, e4]
    exact .of_eq c rfl rfl rfl rfl
  have := (k2.trans c k3).trans c k4
  simpa using this

private theorem half_clock (c : Cfg) [NeZero c.Nz] (o : Opts) {a b : Sim} (h : c.iterHalf o a = .ok b) : c.Clock (0.5 * c.dt) 0 0 a b := by
  rw [iterHalf_eq] at h
  obtain ⟨a1, h1, h⟩ := (except_bind_ok _ _ _).1 h
  have hb : c.movePush o.movePositions (0.5 * c.dt) 1 1 1 (0.5 * c.dt) a1 = b := Except.ok.inj h
  have k1 : c.Clock 0 0 0 a a1 := by
    split_ifs at h1
    · obtain ⟨l1, f1, e1⟩ := (mapPtclM_ok _ _ _).1 h1
      rw [e1]
      exact .of_eq c rfl rfl rfl rfl
    · rw [← Except.ok.inj h1]; exact .of_eq c rfl rfl rfl rfl
  have := k1.trans c (clock_move c o.movePositions (0.5 * c.dt) 1 1 1 (0.5 * c.dt) a1)
  rw [hb] at this
  simpa using this

theorem iter_clock (c : Cfg) [NeZero c.Nz] (hn : 0 < c.nthreads) (o : Opts) (i : ℕ) {s t : Sim} (h : c.iter o i s = .ok t) :
    c.Clock c.dt c.dt 1 s t := by
  rw [iter_eq] at h
  by_cases hp : c.exchangePeriod = 0
  · rw [if_pos hp] at h; cases h
  rw [if_neg hp] at h
  obtain ⟨a, ha, h⟩ := (except_bind_ok _ _ _).1 h
  obtain ⟨b, hb, h⟩ := (except_bind_ok _ _ _).1 h
  obtain ⟨d, hd, h⟩ := (except_bind_ok _ _ _).1 h
  obtain ⟨-, kd, -⟩ := deposit_ptcl c hn o hd
  obtain ⟨-, e2, e3, e4, e5, -⟩ := iterEnd_full o h
  have k1 := ((start_clock c hn i ha).trans c (half_clock c o hb)).trans c kd
  have e : (0 : ℝ) + 0.5 * c.dt + 0.5 * c.dt = c.dt := by ring
  rw [e] at k1
  exact ⟨e2.trans k1.zmin, e3.trans k1.zmax, by rw [e4, k1.time]; ring, by rw [e5, k1.iteration]⟩

private theorem loop_clock (c : Cfg) [NeZero c.Nz] (hn : 0 < c.nthreads) (o : Opts) (n : ℕ) : ∀ (i : ℕ) {s t : Sim},
    c.loop o i n s = .ok t → c.Clock (n * c.dt) (n * c.dt) n s t := by
  induction n with
  | zero =>
    intro i s t h
    rw [← Except.ok.inj h]
    simpa using Cfg.Clock.of_eq c (s := s) (t := s) rfl rfl rfl rfl
  | succ n ih =>
    intro i s t h
    obtain ⟨a, ha, h⟩ := (except_bind_ok _ _ _).1 h
    have := (iter_clock c hn o i ha).trans c (ih (i + 1) h)
    have e : c.dt + n * c.dt = ((n + 1 : ℕ) : ℝ) * c.dt := by push_cast; ring
    rw [e, show 1 + n = n + 1 by ring] at this
    exact this

/-- **C93** (counters): after any calls of `step` with `N` iterations in total, the time has advanced by `N dt`, the
iteration number by `N`, and the box has moved by `N dt V` with the Galilean scheme and not at all otherwise. -/
theorem C93_counters (c : Cfg) [NeZero c.Nz] (hn : 0 < c.nthreads) (L : List (ℕ × Opts)) (s t : Sim)
    (h : c.calls L s = .ok t) :
    let N := (L.map Prod.fst).sum
    t.iteration = s.iteration + N ∧ t.time = s.time + N * c.dt ∧
      t.zmin = s.zmin + (if c.galilean then c.V.getD 0 * (N * c.dt) else 0) ∧
      t.zmax = s.zmax + (if c.galilean then c.V.getD 0 * (N * c.dt) else 0) := by
  have key : c.Clock ((L.map Prod.fst).sum * c.dt) ((L.map Prod.fst).sum * c.dt) (L.map Prod.fst).sum s t := by
    induction L generalizing s with
    | nil =>
      rw [← Except.ok.inj h]
      simpa using Cfg.Clock.of_eq c (s := s) (t := s) rfl rfl rfl rfl
    | cons x L ih =>
      obtain ⟨n, o⟩ := x
      obtain ⟨a, ha, h⟩ := (except_bind_ok _ _ _).1 h
      unfold Cfg.step at ha
      obtain ⟨b, hb, ha⟩ := (except_bind_ok _ _ _).1 ha
      have k1 := loop_clock c hn o n 0 hb
      have k2 : c.Clock (n * c.dt) (n * c.dt) n s a := by
        rw [← Except.ok.inj ha]
        exact ⟨k1.zmin, k1.zmax, k1.time, k1.iteration⟩
      have := k2.trans c (ih a h)
      rw [← add_mul, ← Nat.cast_add] at this
      simpa using this
  exact ⟨key.iteration, key.time, key.zmin, key.zmax⟩

/-- **C93** (particles): one iteration moves every particle by one leap-frog step. The fields at its position, those of
the grid and the external ones, act on its momentum for a whole step, as the equation of motion says; then it moves
for a whole step with its new velocity. Nothing is assumed about the grid, the fields, or where the particles are;
only that `inv_gamma` belongs to the momentum of the particle at the beginning. -/
theorem C93_particles (c : Cfg) [NeZero c.Nz] (hn : 0 < c.nthreads) (o : Opts) (s t : Sim) (h : c.step 1 o s = .ok t) :
    Paired (fun id sp p p' => p.push.mom.ok → Leap c o s id sp p p') s t :=
  (step_ptcl c hn o h).1

/-- **C93** (momenta stay sound): `inv_gamma` belongs to the momentum also at the end. -/
theorem C93_sound (c : Cfg) [NeZero c.Nz] (hn : 0 < c.nthreads) (o : Opts) (s t : Sim) (h : c.step 1 o s = .ok t)
    (hs : ∀ sp ∈ s.species, ∀ p ∈ sp.ptcl, p.push.mom.ok) : ∀ sp ∈ t.species, ∀ p ∈ sp.ptcl, p.push.mom.ok :=
  (step_ptcl c hn o h).2.1 hs

theorem push_exact {k : Consts} (hk : k.Ok) {kz kr dt : ℝ} {V : Option ℝ} (b useTrueRho : Bool)
    (hreg : Regular k kz dt V) (s : SpecCell) (f : ℝ → EM)
    (hf : IsMaxwell k.c k.mu0 kz kr (schemeOf V b).gridVelocity ((schemeOf V b).current kz dt s.J) f) (h0 : f 0 = s.em)
    (hB : div kz kr s.em.B = 0)
    (ht : useTrueRho = true → s.Gauss k kz kr ∧ s.Conserving kz kr dt V b) :
    (pushEBWith k kz kr (psatdCoefs k kz kr dt V b) false useTrueRho s).em = f dt := by
  have e : pushEBWith k kz kr (psatdCoefs k kz kr dt V b) false useTrueRho s =
      pushEBWith k kz kr (psatdCoefs k kz kr dt V b) false false s := by
    cases useTrueRho
    · rfl
    · exact C34_true_rho k hk kz kr dt hreg.1 V b false s (ht rfl).1 (ht rfl).2
  rw [e]
  have := C33_exact k hk ⟨1, 1, fun _ => kz, fun _ => kr, fun _ _ => s⟩ dt V b false 0 0 one_pos one_pos hreg hB f hf h0
  rw [push_cell _ _ _ _ _ _ _ (by exact one_pos) (by exact one_pos), pushRho_em] at this
  exact this

/-- **C93** (sources and fields): the charge density at the end of the iteration is the one of the particles, the
current density the one of the particles at the middle of the step, corrected so that the charge is conserved; the
fields E and B are the exact solution of Maxwell's equations with this current, from those at the beginning. With
the divergence correction a gradient is added to E, so that Gauss' law holds. With the option `use_true_rho` this is
only claimed where Gauss' law holds at the beginning and the charge is conserved. -/
theorem C93_fields (c : Cfg) [NeZero c.Nz] (hn : 0 < c.nthreads) (hk : c.k.Ok) (o : Opts) (s t : Sim)
    (hsize : ∀ m < c.Nm, (s.spect m).Nz = c.Nz ∧ (s.spect m).Nr = c.Nr)
    (hreg : ∀ m < c.Nm, ∀ iz < c.Nz, Regular c.k ((s.spect m).kz iz) c.dt c.V)
    (hok : ∀ sp ∈ s.species, ∀ p ∈ sp.ptcl, p.push.mom.ok) (h : c.step 1 o s = .ok t) :
    ∃ (rho₀ rho : ℕ → ℕ → ℕ → ℂ) (J E B : ℕ → ℕ → ℕ → V3),
      ChargeOf c (back c o c.dt c.dt t) rho₀ ∧
      Sources c o (fun m => (s.spect m).kz) (fun m => (s.spect m).kr) (fun a b => back c o a b t) rho₀ rho J ∧
      (∀ m < c.Nm, OnGrid c (t.interp m).J (vecBack c m (J m)) ∧ OnGrid c (t.interp m).E (vecBack c m (E m)) ∧
        OnGrid c (t.interp m).B (vecBack c m (B m)) ∧
        ∀ iz < c.Nz, ∀ ir < c.Nr, (t.interp m).rho iz ir = scalBack c m (rho m) iz ir) ∧
      ∀ m < c.Nm, ∀ iz < c.Nz, ∀ ir < c.Nr, ∀ f : ℝ → EM,
        IsMaxwell c.k.c c.k.mu0 ((s.spect m).kz iz) ((s.spect m).kr ir) (schemeOf c.V c.galilean).gridVelocity
          ((schemeOf c.V c.galilean).current ((s.spect m).kz iz) c.dt (J m iz ir)) f →
        f 0 = ⟨vecHat c m (s.interp m).E iz ir, vecHat c m (s.interp m).B iz ir⟩ →
        div ((s.spect m).kz iz) ((s.spect m).kr ir) (f 0).B = 0 →
        (o.useTrueRho = true → div ((s.spect m).kz iz) ((s.spect m).kr ir) (f 0).E = rho₀ m iz ir / c.k.eps0 ∧
          (schemeOf c.V c.galilean).Continuity ((s.spect m).kz iz) ((s.spect m).kr ir) c.dt (rho₀ m iz ir) (rho m iz ir)
            (J m iz ir)) →
        B m iz ir = (f c.dt).B ∧ (o.correctDivE = false → E m iz ir = (f c.dt).E) ∧
        (o.correctDivE = true → PlusGradient ((s.spect m).kz iz) ((s.spect m).kr ir) (f c.dt).E (E m iz ir) ∧
          ((s.spect m).kz iz ≠ 0 ∨ (s.spect m).kr ir ≠ 0 →
            div ((s.spect m).kz iz) ((s.spect m).kr ir) (E m iz ir) = rho m iz ir / c.k.eps0)) := by
  obtain ⟨-, rho₀, hbef, hsrc, hint, hcell⟩ := step_sources c hn o hsize hok hreg h
  refine ⟨rho₀, _, _, fun m iz ir => ((t.spect m).cell iz ir).em.E, fun m iz ir => ((t.spect m).cell iz ir).em.B, hbef, hsrc,
    fun m hm => ?_, fun m hm iz hz ir hr f hf h0 hB ht => ?_⟩
  · obtain ⟨i, i', e1, e2, e3, e4⟩ := hint m hm
    obtain ⟨a1, a2, -, -⟩ := interp_back c m (t.spect m) i
    obtain ⟨-, -, a3, a4⟩ := interp_back c m (t.spect m) i'
    rw [e1, e2, e3, e4]
    exact ⟨a3, a1, a2, a4⟩
  · obtain ⟨u, hu1, hu2, hu⟩ := hcell m hm iz hz ir hr
    dsimp only at hf ht ⊢
    obtain ⟨b1, b2, b3⟩ := beforePush_rest c o ((s.spect m).kz iz) ((s.spect m).kr ir) u
    rw [hu.J] at hf
    have key := push_exact hk c.galilean o.useTrueRho (hreg m hm iz hz) _ f hf (by rw [b3, hu1, h0])
      (by rw [b3, hu1, ← h0]; exact hB) (fun htr => by
        obtain ⟨t1, t2⟩ := ht htr
        refine ⟨?_, ?_⟩
        · unfold SpecCell.Gauss
          rw [b3, hu1, b1, hu2, ← h0]
          exact t1
        · unfold SpecCell.Conserving
          rw [b1, hu2, b2, ← hu.rho, ← hu.J]
          exact t2)
    rw [← key]
    exact ⟨hu.B, hu.E, hu.divE⟩

/-- The hypotheses can be met with an electron that moves, and the solution of Maxwell's equations exists in every
mode and at every wavenumber, whatever the current is. -/
example (corr : CurrentCorrection) (J : V3) (m iz ir : ℕ) (hm : m < 2) (hz : iz < 8) (hr : ir < 2) :
    ∃ t, (gaussCfg corr).step 1 {} gaussSim = .ok t ∧ 0 < (gaussCfg corr).nthreads ∧ (gaussCfg corr).k.Ok ∧
      (∀ sp ∈ gaussSim.species, ∀ p ∈ sp.ptcl, p.push.mom.ok) ∧ SolverOk (gaussCfg corr) gaussSim ∧
      ∃ f : ℝ → EM, IsMaxwell (gaussCfg corr).k.c (gaussCfg corr).k.mu0 ((gaussSim.spect m).kz iz) ((gaussSim.spect m).kr ir)
        (schemeOf (gaussCfg corr).V (gaussCfg corr).galilean).gridVelocity
        ((schemeOf (gaussCfg corr).V (gaussCfg corr).galilean).current ((gaussSim.spect m).kz iz) (gaussCfg corr).dt J) f ∧
        f 0 = ⟨vecHat (gaussCfg corr) m (gaussSim.interp m).E iz ir, vecHat (gaussCfg corr) m (gaussSim.interp m).B iz ir⟩ ∧
        div ((gaussSim.spect m).kz iz) ((gaussSim.spect m).kr ir) (f 0).B = 0 := by
  have hk := gauss_solver corr
  have hr' := gauss_reasonable corr [(1, {})] fun x hx h => by simp at hx; subst hx; cases h
  obtain ⟨t, ht, -⟩ := C87_total_partial (gaussCfg corr) [(1, {})] gaussSim hr'
  obtain ⟨t', ht', e⟩ := (except_bind_ok _ _ _).1 ht
  refine ⟨t', ht', by norm_num [gaussCfg, cubicCfg], hk.consts, hr'.mom, hk, ?_⟩
  have hB : div ((gaussSim.spect m).kz iz) ((gaussSim.spect m).kr ir) (vecHat (gaussCfg corr) m (gaussSim.interp m).B iz ir) = 0 := by
    have z : ∀ M a, a = (0 : Buf) → Spec.hankel (gaussCfg corr).Nr M (fftAxis0 (gaussCfg corr).Nz false a) iz ir = 0 := by
      rintro M a rfl
      unfold Spec.hankel
      refine Finset.sum_eq_zero fun l _ => ?_
      simp [fftAxis0, fftZ]
    have z' : ∀ x : Complex, (gaussSim.interp m).B.r = 0 ∧ (gaussSim.interp m).B.t = 0 ∧ (gaussSim.interp m).B.z = 0 :=
      fun _ => ⟨rfl, rfl, rfl⟩
    unfold vecHat Spec.scalHat div
    dsimp only
    rw [z _ _ (by funext i j; simp [z' 0]), z _ _ (by funext i j; simp [z' 0]), z _ _ (z' 0).2.2]
    ring
  obtain ⟨f, h1, h2⟩ := C33_solution (gaussCfg corr).k hk.consts ((gaussSim.spect m).kz iz) ((gaussSim.spect m).kr ir)
    (gaussCfg corr).dt (gaussCfg corr).V (gaussCfg corr).galilean (hk.regular m hm iz hz) J
    ⟨vecHat (gaussCfg corr) m (gaussSim.interp m).E iz ir, vecHat (gaussCfg corr) m (gaussSim.interp m).B iz ir⟩ hB
  exact ⟨f, h1, h2, by rw [h2]; exact hB⟩

end Fbpic.Pic
