import Verif.Lemmas.PicVacuum
import Verif.Props.PicCycle
import Verif.Props.PicReal

/-!
# C98: fields without sources propagate exactly over whole runs

and C97 at the Nyquist wavenumber.
-/

namespace Fbpic.Pic

open Transform ExternalField Step
open Spec (VacuumOk NoSources Transverse emAt MaxwellEvolution TransOk V3 EM div curl hankel IsMaxwell EM.smul
  negIdx RealArr RealVec Mode0Real RealSolver BlankSpect energy)
open scoped ComplexConjugate

section
variable (c : Cfg) [NeZero c.Nz]

private theorem silent_of {P : Species → Ptcl → Ptcl → Prop} {l l' : List Species}
    (h : ∀ sp ∈ l, sp.isTracer = true ∨ sp.q = 0) (hf : List.Forall₂ (SpRel P) l l') :
    ∀ sp ∈ l', sp.isTracer = true ∨ sp.q = 0 := by
  induction hf with
  | nil => exact fun sp hsp => absurd hsp List.not_mem_nil
  | cons r _ ih =>
    intro sp hsp
    rcases List.mem_cons.1 hsp with rfl | hsp
    · rw [r.tracer, r.q]; exact h _ List.mem_cons_self
    · exact ih (fun sp hsp => h sp (List.mem_cons_of_mem _ hsp)) sp hsp

private theorem freeSim (hn : 0 < c.nthreads) {A : ℕ → ℕ → ℕ → Prop} {e : ℕ → ℕ → ℕ → EM} {kz kr : ℕ → ℕ → ℝ} {n₀ : ℕ}
    (hf : c.FreeStart A e kz kr) :
    Simulates c c (fun _ => True) (fun s s' => s' = s ∧ c.FreeInv A e kz kr n₀ s) where
  period := rfl
  correction := rfl
  dt := rfl
  iteration := by rintro s _ ⟨rfl, -⟩; rfl
  wrap := by
    rintro s _ ⟨rfl, h⟩ t ht -
    obtain ⟨sps, hr, rfl⟩ := (mapPtclM_ok _ _ _).1 ht
    exact ⟨_, ht, rfl, h.congr rfl rfl rfl (silent_of h.src.species hr)⟩
  rho := by
    rintro n s _ ⟨rfl, h⟩ t ht -
    obtain ⟨-, e⟩ := (depositRho_ok c hn n _ t).1 ht
    exact ⟨t, ht, rfl, by rw [e]; exact h.withRho n⟩
  J := by
    rintro s _ ⟨rfl, h⟩ t ht -
    obtain ⟨-, e⟩ := (depositJ_ok c hn _ t).1 ht
    exact ⟨t, ht, rfl, by rw [e]; exact h.withJ⟩
  gather := by
    rintro s _ ⟨rfl, h⟩ t ht -
    obtain ⟨sps, hr, rfl⟩ := (mapPtclM_ok _ _ _).1 ht
    exact ⟨_, ht, rfl, h.congr rfl rfl rfl (by refine silent_of ?_ hr; exact h.src.species)⟩
  exts := by
    rintro s _ ⟨rfl, h⟩
    refine ⟨rfl, h.congr rfl rfl rfl ?_⟩
    intro sp hsp
    obtain ⟨i, hi, rfl⟩ := List.mem_mapIdx.1 hsp
    have := h.src.species _ (List.getElem_mem hi)
    exact this
  pushP := by
    rintro s _ ⟨rfl, h⟩ t ht -
    obtain ⟨sps, hr, rfl⟩ := (mapPtclM_ok _ _ _).1 ht
    exact ⟨_, ht, rfl, h.congr rfl rfl rfl (silent_of h.src.species hr)⟩
  pushX := by
    rintro dt a b s _ ⟨rfl, h⟩
    refine ⟨rfl, h.congr rfl rfl rfl ?_⟩
    intro sp hsp
    obtain ⟨a, ha, rfl⟩ := List.mem_map.1 hsp
    exact h.src.species a ha
  shift := by
    rintro dt _ s ⟨rfl, h⟩
    have e : ∀ dt, (c.shiftGalilean dt s).species = s.species := fun dt => by
      unfold Cfg.shiftGalilean; split_ifs <;> rfl
    refine ⟨rfl, h.congr ?_ ?_ ?_ (by rw [e]; exact h.src.species)⟩ <;> · unfold Cfg.shiftGalilean; split_ifs <;> rfl
  iterEnd := by
    rintro o s _ ⟨rfl, h⟩ t ht -
    exact ⟨t, ht, rfl, h.iterEnd o hf ht⟩
  start := by
    rintro s _ ⟨rfl, h⟩
    exact ⟨rfl, h.start⟩
  finish := by
    rintro s _ ⟨rfl, h⟩
    exact ⟨rfl, h.finish⟩

private theorem start_start (s : Sim) : c.startFields (c.startFields s) = c.startFields s := by
  have key : ∀ m, (c.startFields (c.startFields s)).spect m = (c.startFields s).spect m := by
    intro m
    by_cases hm : m < c.Nm
    · have hsh := start_shape c (c.startFields s) hm
      have hc : ((c.startFields (c.startFields s)).spect m).cell = ((c.startFields s).spect m).cell := by
        funext iz ir
        by_cases hr : iz < c.Nz ∧ ir < c.Nr
        · have hem := start_em c (s := s) (s' := c.startFields s) hm hr.1 hr.2 rfl rfl
          rw [start_cell c (c.startFields s) hm] at hem ⊢
          simp only [SpecCell.em, EM.mk.injEq, V3.mk.injEq] at hem
          obtain ⟨⟨h1, h2, h3⟩, h4, h5, h6⟩ := hem
          rw [h1, h2, h3, h4, h5, h6]
        · rw [start_cell c (c.startFields s) hm]
          simp only [toSpectScal_eq, toSpectVect_eq]
          unfold fwd
          simp only [if_neg hr]
      obtain ⟨a1, a2, a3, a4⟩ := hsh
      generalize (c.startFields (c.startFields s)).spect m = g at *
      generalize (c.startFields s).spect m = g' at *
      cases g; cases g'
      dsimp only at *
      subst a1 a2 a3 a4 hc
      rfl
    · simp only [Cfg.startFields, onModes, if_neg hm]
  show { (c.startFields s) with spect := (c.startFields (c.startFields s)).spect } = c.startFields s
  rw [funext key]

private theorem calls_start (L : List (ℕ × Opts)) (hL : L ≠ []) (s : Sim) : c.calls L (c.startFields s) = c.calls L s := by
  obtain ⟨a, L, rfl⟩ := List.exists_cons_of_ne_nil hL
  unfold Cfg.calls Cfg.step
  rw [start_start]

private theorem free_start (A : ℕ → ℕ → ℕ → Prop) (s : Sim) (hs : VacuumOk c s) (hsrc : NoSources c s)
    (htr : ∀ m < c.Nm, ∀ iz < c.Nz, ∀ ir < c.Nr, A m iz ir → div ((s.spect m).kz iz) ((s.spect m).kr ir) (emAt c s m iz ir).E = 0 ∧
      div ((s.spect m).kz iz) ((s.spect m).kr ir) (emAt c s m iz ir).B = 0) :
    c.FreeStart A (emAt c s) (fun m => (s.spect m).kz) (fun m => (s.spect m).kr) ∧
    c.FreeInv A (emAt c s) (fun m => (s.spect m).kz) (fun m => (s.spect m).kr) s.iteration (c.startFields s) := by
  have h0 : ∀ m iz ir, emAt c s m iz ir = freeAt c.k ((s.spect m).kz iz) ((s.spect m).kr ir) c.V c.galilean
      ((s.iteration - s.iteration : ℕ) * c.dt) (emAt c s m iz ir) := by
    intro m iz ir
    rw [Nat.sub_self, Nat.cast_zero, zero_mul, freeAt_zero]
  refine ⟨⟨htr, fun m hm hm0 iz hz hr => emAt_low s hm (hs.trans m hm) hm0 hz hr, hs.kr⟩, ?_⟩
  refine ⟨VacuumOk_of c hs fun m hm => start_shape c s hm, ⟨hsrc.species, ?_⟩,
    fun m hm => (start_shape c s hm).2.2.1, fun m hm => (start_shape c s hm).2.2.2, le_refl _,
    fun m hm iz hz ir hr _ => h0 m iz ir, fun m hm iz hz ir hr _ => ?_⟩
  · intro m hm iz hz ir hr
    obtain ⟨hJ, hrho⟩ := hsrc.spect m hm iz hz ir hr
    rw [start_cell c s hm]
    exact ⟨hJ, fun n => by have := hrho n; cases n <;> exact this⟩
  · refine Eq.trans ?_ (h0 m iz ir)
    exact start_em c hm hz hr rfl rfl

/-- At each wavenumber where the fields have no divergence at the start, whatever the fields at the other ones. -/
theorem free_calls (hn : 0 < c.nthreads) (L : List (ℕ × Opts)) (s t : Sim) (hs : VacuumOk c s)
    (hsrc : NoSources c s) (h : c.calls L s = .ok t) {m iz ir : ℕ} (hm : m < c.Nm) (hz : iz < c.Nz) (hr : ir < c.Nr)
    (htr : div ((s.spect m).kz iz) ((s.spect m).kr ir) (emAt c s m iz ir).E = 0 ∧
      div ((s.spect m).kz iz) ((s.spect m).kr ir) (emAt c s m iz ir).B = 0) :
    emAt c t m iz ir = freeAt c.k ((s.spect m).kz iz) ((s.spect m).kr ir) c.V
      c.galilean ((L.map Prod.fst).sum * c.dt) (emAt c s m iz ir) := by
  by_cases hL : L = []
  · subst hL
    rw [← Except.ok.inj h]
    simp [freeAt_zero]
  · rw [← calls_start c L hL] at h
    obtain ⟨hf, hi⟩ := free_start c (fun m' iz' ir' => m' = m ∧ iz' = iz ∧ ir' = ir) s hs hsrc
      (by rintro _ - _ - _ - ⟨rfl, rfl, rfl⟩; exact htr)
    obtain ⟨t', -, rfl, ht⟩ := (freeSim c hn hf).calls L _ _ ⟨rfl, hi⟩ t h fun _ _ => trivial
    have hN := (C93_counters c hn L _ _ h).1
    have := ht.interp m hm iz hz ir hr ⟨rfl, rfl, rfl⟩
    rw [this, hN, show (c.startFields s).iteration = s.iteration from rfl, Nat.add_sub_cancel_left]

private theorem transverse_at {s : Sim} (hs : VacuumOk c s) (htr : Transverse c s) {m iz ir : ℕ} (hm : m < c.Nm)
    (hz : iz < c.Nz) (hr : ir < c.Nr) : div ((s.spect m).kz iz) ((s.spect m).kr ir) (emAt c s m iz ir).E = 0 ∧
      div ((s.spect m).kz iz) ((s.spect m).kr ir) (emAt c s m iz ir).B = 0 := by
  have hsh := start_shape c s hm
  have := htr m hm iz ir (by rw [hsh.1, hs.Nz m hm]; exact hz) (by rw [hsh.2.1, hs.Nr m hm]; exact hr)
  rw [hsh.2.2.1, hsh.2.2.2] at this
  exact this

/-- **C98**: in a simulation without charged particles, after any sequence of calls to `step` with `N` iterations in total
and any options, the fields on the grid are exactly those to which Maxwell's equations in vacuum lead from the initial
fields after the time `N dt`, whatever the time step: no numerical dispersion (other than that of the modified wavenumbers),
no damping, no Courant limit, no effect of the number of calls, of the smoother, of the current correction or of
`correct_divE`. The initial fields must be free of divergence. -/
theorem C98_vacuum (hn : 0 < c.nthreads) (L : List (ℕ × Opts)) (s t : Sim) (hs : VacuumOk c s)
    (hsrc : NoSources c s) (htr : Transverse c s) (h : c.calls L s = .ok t) :
    MaxwellEvolution c ((L.map Prod.fst).sum * c.dt) s t := by
  intro m hm iz hz ir hr
  obtain ⟨d1, d2⟩ := transverse_at c hs htr hm hz hr
  exact ⟨_, freeAt_maxwell hs.consts _ _ _ _ _ d1 d2, freeAt_zero _ _ _ _ _ _,
    (free_calls c hn L s t hs hsrc h hm hz hr ⟨d1, d2⟩).symm⟩

/-- **C98** (each wavenumber by itself): this holds at each wavenumber of each mode where the initial fields have no divergence,
whatever the fields at the other wavenumbers. -/
theorem C98_wavenumber (hn : 0 < c.nthreads) (L : List (ℕ × Opts)) (s t : Sim) (hs : VacuumOk c s)
    (hsrc : NoSources c s) (h : c.calls L s = .ok t) (m iz ir : ℕ) (hm : m < c.Nm) (hz : iz < c.Nz) (hr : ir < c.Nr)
    (hE : div ((s.spect m).kz iz) ((s.spect m).kr ir) (emAt c s m iz ir).E = 0)
    (hB : div ((s.spect m).kz iz) ((s.spect m).kr ir) (emAt c s m iz ir).B = 0) :
    ∃ f : ℝ → EM, IsMaxwell c.k.c c.k.mu0 ((s.spect m).kz iz) ((s.spect m).kr ir) (schemeOf c.V c.galilean).gridVelocity
      (fun _ => ⟨0, 0, 0⟩) f ∧ f 0 = emAt c s m iz ir ∧ f ((L.map Prod.fst).sum * c.dt) = emAt c t m iz ir :=
  ⟨_, freeAt_maxwell hs.consts _ _ _ _ _ hE hB, freeAt_zero _ _ _ _ _ _,
    (free_calls c hn L s t hs hsrc h hm hz hr ⟨hE, hB⟩).symm⟩

/-- **C98** (energy): the electromagnetic energy at each wavenumber is the same after the run, and the fields are still free of
divergence. -/
theorem C98_energy (hn : 0 < c.nthreads) (L : List (ℕ × Opts)) (s t : Sim) (hs : VacuumOk c s)
    (hsrc : NoSources c s) (htr : Transverse c s) (h : c.calls L s = .ok t) :
    ∀ m < c.Nm, ∀ iz < c.Nz, ∀ ir < c.Nr, energy c.k.c (emAt c t m iz ir) = energy c.k.c (emAt c s m iz ir) ∧
      div ((s.spect m).kz iz) ((s.spect m).kr ir) (emAt c t m iz ir).E = 0 ∧
      div ((s.spect m).kz iz) ((s.spect m).kr ir) (emAt c t m iz ir).B = 0 := by
  intro m hm iz hz ir hr
  obtain ⟨d1, d2⟩ := transverse_at c hs htr hm hz hr
  rw [free_calls c hn L s t hs hsrc h hm hz hr ⟨d1, d2⟩]
  exact ⟨energy_freeStep hs.consts _ _ _ _ (normSq_Teb _ _ _ _) _ d1 d2, freeAt_div _ _ _ _ _ _ _ d1 d2⟩

/-- **C98** (order of the calls): two runs with the same total number of iterations give the same fields, whatever the calls and
their options. -/
theorem C98_calls (hn : 0 < c.nthreads) (L L' : List (ℕ × Opts)) (s t t' : Sim) (hs : VacuumOk c s)
    (hsrc : NoSources c s) (htr : Transverse c s) (h : c.calls L s = .ok t) (h' : c.calls L' s = .ok t')
    (hN : (L.map Prod.fst).sum = (L'.map Prod.fst).sum) :
    ∀ m < c.Nm, ∀ iz < c.Nz, ∀ ir < c.Nr, emAt c t m iz ir = emAt c t' m iz ir := by
  intro m hm iz hz ir hr
  have d := transverse_at c hs htr hm hz hr
  rw [free_calls c hn L s t hs hsrc h hm hz hr d, free_calls c hn L' s t' hs hsrc h' hm hz hr d, hN]

/-- **C97, not true in general** (mechanism): at a wavenumber that is its own opposite (the Nyquist wavenumber of an even number of
cells) and where the modified wavenumber does not vanish (infinite order), a real transverse electric field without magnetic
field gets an imaginary magnetic field in one iteration. -/
theorem C97_nyquist (hn : 0 < c.nthreads) (o : Opts) (s t : Sim) (hs : VacuumOk c s) (hsrc : NoSources c s)
    (htr : Transverse c s) (h0 : 0 < c.Nm) (hV : c.V = none) (hM : ∀ i < c.Nr, ∀ j < c.Nr, (c.mats 0).Mm i j = -(c.mats 0).Mp i j)
    (hr : Mode0Real c s) (hB : (s.interp 0).B = ⟨0, 0, 0⟩) (hEz : (s.interp 0).E.z = 0)
    (iz ir : ℕ) (hz : iz < c.Nz) (hi : ir < c.Nr) (hny : negIdx c.Nz iz = iz) (hk : (s.spect 0).kz iz ≠ 0)
    (hS : coefSw c.k ((s.spect 0).kz iz) ((s.spect 0).kr ir) c.dt ≠ 0) (hE : (emAt c s 0 iz ir).E.p ≠ 0)
    (h : c.calls [(1, o)] s = .ok t) : ¬ RealVec c (t.interp 0).B := by
  intro hreal
  have he := free_calls c hn _ s t hs hsrc h h0 hz hi (transverse_at c hs htr h0 hz hi)
  have hE0 : (emAt c s 0 iz ir).E.p = -conj (emAt c s 0 iz ir).E.m := by
    have w := (spectVect_herm c hM (o := fun iz ir => ((s.spect 0).cell iz ir).Ep)
      (o' := fun iz ir => ((s.spect 0).cell iz ir).Em) hr.E.1 hr.E.2.1 hz hi).1
    rw [hny] at w
    unfold emAt
    rw [start_cell c s h0]
    exact w
  have hB1 : (emAt c t 0 iz ir).B.p = -conj (emAt c t 0 iz ir).B.m := by
    have w := (spectVect_herm c hM (o := fun iz ir => ((t.spect 0).cell iz ir).Bp)
      (o' := fun iz ir => ((t.spect 0).cell iz ir).Bm) hreal.1 hreal.2.1 hz hi).1
    rw [hny] at w
    unfold emAt
    rw [start_cell c t h0]
    exact w
  have hB0 : (emAt c s 0 iz ir).B = ⟨0, 0, 0⟩ := by
    unfold emAt
    rw [start_cell c s h0, hB]
    exact V3.ext (toSpectVect_nil c _ _ hz hi).1 (toSpectVect_nil c _ _ hz hi).2 (toSpectScal_nil c _ hz hi)
  have hEz0 : (emAt c s 0 iz ir).E.z = 0 := by
    unfold emAt
    rw [start_cell c s h0, hEz]
    exact toSpectScal_nil c _ hz hi
  rw [he] at hB1
  simp only [freeAt, freeStep, EM.smul, hV, TebOf, curl, hB0, hEz0, List.map_cons, List.map_nil, List.sum_cons, List.sum_nil,
    Nat.add_zero, Nat.cast_one, one_mul, mul_zero, zero_add, zero_sub, sub_zero, map_neg, map_mul, Complex.conj_ofReal,
    neg_neg] at hB1
  have hc : conj (emAt c s 0 iz ir).E.m = -(emAt c s 0 iz ir).E.p := by rw [hE0, neg_neg]
  rw [hc] at hB1
  have : (2 : ℂ) * (coefSw c.k ((s.spect 0).kz iz) ((s.spect 0).kr ir) c.dt : ℝ) * ((s.spect 0).kz iz : ℝ) *
      (emAt c s 0 iz ir).E.p = 0 := by linear_combination -hB1
  have hk' : (((s.spect 0).kz iz : ℝ) : ℂ) ≠ 0 := by exact_mod_cast hk
  have hS' : ((coefSw c.k ((s.spect 0).kz iz) ((s.spect 0).kr ir) c.dt : ℝ) : ℂ) ≠ 0 := by exact_mod_cast hS
  exact mul_ne_zero (mul_ne_zero (mul_ne_zero two_ne_zero hS') hk') hE this

end

/-! ### Examples -/

/-- Matrices of mode 0 with two radial cells: those of the order -1 are opposite to those of the order 1. -/
noncomputable def waveMats : Mats :=
  let one : ℕ → ℕ → ℝ := fun i j => if i = j then 1 else 0
  let neg : ℕ → ℕ → ℝ := fun i j => if i = j then -1 else 0
  ⟨one, one, one, one, neg, neg⟩

/-- Two cells along z, `dz = 1`, and the default smoother. -/
noncomputable def waveCfg : Cfg :=
  { cubicCfg with
    Nz := 2, Nr := 2, beta := fun _ _ => List.replicate 3 0, mats := fun _ => waveMats
    dt := 1 / Real.sqrt (Real.pi ^ 2 + 1)
    filter := some (fun iz => filterFactor 1 false (kzTrue 2 1 iz) 1, fun _ _ => 1) }

instance : NeZero waveCfg.Nz := ⟨by show (2 : ℕ) ≠ 0; norm_num⟩

/-- No particles, and an azimuthal electric field that changes sign from cell to cell. -/
noncomputable def waveSim : Sim :=
  { cubicSim ⟨1, 0, 7.9, ⟨0, 0, 4 / 3, 3 / 5⟩, 0⟩ .linear with
    zmax := 2
    species := []
    interp := fun _ => ⟨⟨0, fun iz _ => if iz = 0 then 1 else -1, 0⟩, ⟨0, 0, 0⟩, ⟨0, 0, 0⟩, 0⟩
    spect := fun _ => ⟨2, 2, kzTrue 2 1, fun _ => 1, fun _ _ => ⟨0, 0, 0, 0, 0, 0, 0, 0, 0, 0, 0, 0, 0, 0, 0, 0, 0⟩⟩ }

theorem wave_trans (m : ℕ) (hm : m < 1) (c : Cfg) (hNr : c.Nr = 2)
    (hm' : c.mats = fun _ => waveMats) : TransOk m (c.trans m) := by
  have ok : ∀ p (z : ℝ), z * z = 1 → Spec.DhtOk 0 p 2 (fun i j => if i = j then z else 0) (fun i j => if i = j then z else 0) := by
    intro p z hz
    refine ⟨1, fun _ => 0, fun i j => if i = j then z else 0, fun i j => if i = j then z else 0, fun _ _ => 0, ?_, ?_, ?_, ?_⟩
    · funext i j; simp [hankelInvM]
    · funext i j; simp [hankelM]
    · intro _
      constructor <;>
      · intro i j hi hj
        interval_cases i <;> interval_cases j <;> simp [Finset.sum_range_succ, hz]
    · intro h; exact absurd rfl h.1
  have hm0 : m = 0 := by omega
  subst hm0
  refine ⟨?_, ?_, ?_, ?_⟩
  · exact covers_loop2d _ _
  · show Spec.DhtOk 0 0 c.Nr (c.mats 0).M0 (c.mats 0).invM0
    rw [hNr, hm']; exact ok _ 1 (by norm_num)
  · show Spec.DhtOk 0 (0 + 1) c.Nr (c.mats 0).Mp (c.mats 0).invMp
    rw [hNr, hm']; exact ok _ 1 (by norm_num)
  · show Spec.DhtOk 0 (0 - 1) c.Nr (c.mats 0).Mm (c.mats 0).invMm
    rw [hNr, hm']; exact ok _ (-1) (by norm_num)

theorem wave_ok : VacuumOk waveCfg waveSim where
  consts := ⟨one_pos, one_pos, one_pos, by norm_num [waveCfg, cubicCfg]⟩
  Nz := fun _ _ => rfl
  Nr := fun _ _ => rfl
  trans := fun m hm => wave_trans m hm waveCfg rfl rfl
  kr := fun m hm h => absurd (show m = 0 from by have : m < 1 := hm; omega) h

theorem wave_src : NoSources waveCfg waveSim where
  species := fun sp h => absurd h List.not_mem_nil
  spect := fun m _ iz _ ir _ => ⟨rfl, fun n => by cases n <;> rfl⟩

private theorem wave_vec (iz ir : ℕ) (hz : iz < 2) (hr : ir < 2) (o o' : Buf) :
    let v := waveCfg.toSpectVect 0 (waveSim.interp 0).E.r (waveSim.interp 0).E.t o o'
    v.1 iz ir = -(Complex.I / 2) * (if iz = 1 then 2 else 0) ∧ v.2 iz ir = v.1 iz ir := by
  intro v
  have hf : ∀ (z : ℂ) (j : ℕ), fftAxis0 2 false (fun i _ => z * (if i = 0 then 1 else -1)) iz j = z * (if iz = 1 then 2 else 0) := by
    intro z j
    have h2 : ∀ f : ZMod 2 → ℂ, ∑ j : ZMod 2, f j = f 0 + f 1 := fun f => Fin.sum_univ_two f
    have v0 : (0 : ZMod 2).val = 0 := rfl
    have v1 : (1 : ZMod 2).val = 1 := rfl
    unfold fftAxis0
    rw [if_neg (by simp)]
    unfold fftZ
    rw [h2, v0, v1]
    interval_cases iz
    · simp
    · have : ((1 : ℕ) : ZMod 2).val = 1 := rfl
      rw [this]
      have e : Complex.exp (-2 * Real.pi * Complex.I * ((1 * 1 : ℕ) : ℂ) / (2 : ℕ)) = -1 := by
        rw [← Complex.exp_neg_pi_mul_I]
        congr 1
        push_cast
        ring
      rw [e]
      norm_num
      ring
  have hr1 : ∀ i j, (waveSim.interp 0).E.r i j = 0 := fun _ _ => rfl
  have ht : ∀ i j, (waveSim.interp 0).E.t i j = if i = 0 then 1 else -1 := fun _ _ => rfl
  have hv1 : v.1 iz ir = -(Complex.I / 2) * (if iz = 1 then 2 else 0) := by
    show (waveCfg.toSpectVect 0 (waveSim.interp 0).E.r (waveSim.interp 0).E.t o o').1 iz ir = _
    rw [toSpectVect_eq]
    unfold fwd
    dsimp only
    rw [if_pos (show iz < waveCfg.Nz ∧ ir < waveCfg.Nr from ⟨hz, hr⟩)]
    simp only [hr1, ht, zero_sub]
    rw [show (fun (i _ : ℕ) => (1 : ℂ) / 2 * -(Complex.I * (if i = 0 then 1 else -1))) = fun i _ => -(Complex.I / 2) * (if i = 0 then 1 else -1)
      from by funext i j; ring]
    have := hf (-(Complex.I / 2))
    show ∑ l ∈ Finset.range 2, fftAxis0 2 false _ iz l * (((if l = ir then (1 : ℝ) else 0) : ℝ) : ℂ) = _
    simp only [this]
    interval_cases ir <;> simp [Finset.sum_range_succ]
  refine ⟨hv1, ?_⟩
  rw [hv1]
  show (waveCfg.toSpectVect 0 (waveSim.interp 0).E.r (waveSim.interp 0).E.t o o').2 iz ir = _
  rw [toSpectVect_eq]
  unfold fwd
  dsimp only
  rw [if_pos (show iz < waveCfg.Nz ∧ ir < waveCfg.Nr from ⟨hz, hr⟩)]
  simp only [hr1, ht, zero_add]
  rw [show (fun (i _ : ℕ) => (1 : ℂ) / 2 * (Complex.I * (if i = 0 then 1 else -1))) = fun i _ => (Complex.I / 2) * (if i = 0 then 1 else -1)
    from by funext i j; ring]
  have := hf (Complex.I / 2)
  show ∑ l ∈ Finset.range 2, fftAxis0 2 false _ iz l * (((if l = ir then (-1 : ℝ) else 0) : ℝ) : ℂ) = _
  simp only [this]
  interval_cases ir <;> simp [Finset.sum_range_succ]

private theorem wave_em (iz ir : ℕ) (hz : iz < 2) (hr : ir < 2) : (emAt waveCfg waveSim 0 iz ir).E =
    ⟨-(Complex.I / 2) * (if iz = 1 then 2 else 0), -(Complex.I / 2) * (if iz = 1 then 2 else 0), 0⟩ ∧
    (emAt waveCfg waveSim 0 iz ir).B = ⟨0, 0, 0⟩ := by
  have h0 : 0 < waveCfg.Nm := Nat.one_pos
  have w := wave_vec iz ir hz hr (fun _ _ => 0) (fun _ _ => 0)
  unfold emAt
  rw [start_cell _ _ h0]
  refine ⟨V3.ext w.1 (w.2.trans w.1) (toSpectScal_nil waveCfg _ hz hr), V3.ext ?_ ?_ (toSpectScal_nil waveCfg _ hz hr)⟩
  · exact (toSpectVect_nil waveCfg _ _ hz hr).1
  · exact (toSpectVect_nil waveCfg _ _ hz hr).2

theorem wave_transverse : Transverse waveCfg waveSim := by
  intro m hm iz ir hz hr
  have hm0 : m = 0 := by have : m < 1 := hm; omega
  subst hm0
  have hsh := start_shape waveCfg waveSim hm
  have hz' : iz < 2 := by rw [hsh.1] at hz; exact hz
  have hr' : ir < 2 := by rw [hsh.2.1] at hr; exact hr
  obtain ⟨h1, h2⟩ := wave_em iz ir hz' hr'
  unfold emAt at h1 h2
  rw [h1, h2]
  simp [div]

theorem wave_runs (L : List (ℕ × Opts)) : Spec.Reasonable waveCfg L waveSim := by
  have hs : (0 : ℝ) < Real.sqrt (Real.pi ^ 2 + 1) := Real.sqrt_pos.2 (by positivity)
  refine ⟨one_pos, ?_, one_pos, one_pos, le_refl _, le_refl _, Nat.one_pos, rfl, ?_, fun _ _ => rfl, fun _ _ _ => rfl, ?_,
    fun _ h => absurd h List.not_mem_nil, fun _ h => absurd h List.not_mem_nil, fun _ h => absurd h List.not_mem_nil,
    fun _ h => absurd h List.not_mem_nil⟩
  · show 0 < 1 / Real.sqrt (Real.pi ^ 2 + 1)
    positivity
  · show 2 ≤ 10; norm_num
  · show ((2 : ℝ) - 0) * 1 = (2 : ℕ); norm_num

/-- The hypotheses of `C98_vacuum` can be met, with fields that do not vanish. -/
example (L : List (ℕ × Opts)) : ∃ t, waveCfg.calls L waveSim = .ok t ∧
    MaxwellEvolution waveCfg ((L.map Prod.fst).sum * waveCfg.dt) waveSim t ∧ (emAt waveCfg waveSim 0 1 0).E.p = -Complex.I := by
  obtain ⟨t, h, -⟩ := C87_total_partial waveCfg L waveSim (wave_runs L)
  refine ⟨t, h, C98_vacuum waveCfg Nat.one_pos L waveSim t wave_ok wave_src wave_transverse h, ?_⟩
  rw [(wave_em 1 0 (by norm_num) (by norm_num)).1]
  simp

theorem wave_real : Mode0Real waveCfg waveSim := by
  refine ⟨⟨fun _ _ _ _ => rfl, fun iz _ ir _ => ?_, fun _ _ _ _ => rfl⟩, ⟨fun _ _ _ _ => rfl, fun _ _ _ _ => rfl, fun _ _ _ _ => rfl⟩,
    ⟨fun _ _ _ _ => rfl, fun _ _ _ _ => rfl, fun _ _ _ _ => rfl⟩, fun _ _ _ _ => rfl⟩
  show ((if iz = 0 then (1 : ℂ) else -1)).im = 0
  split_ifs <;> simp

private theorem wave_mats (i j : ℕ) : waveMats.Mm i j = -waveMats.Mp i j := by
  show (if i = j then (-1 : ℝ) else 0) = -(if i = j then 1 else 0)
  split_ifs <;> simp

theorem wave_complex : ∃ t, waveCfg.calls [(1, {})] waveSim = .ok t ∧ ¬ RealVec waveCfg (t.interp 0).B := by
  obtain ⟨t, h, -⟩ := C87_total_partial waveCfg [(1, {})] waveSim (wave_runs _)
  have hk : kzTrue 2 1 1 = -Real.pi := by
    have := (kzTrue_nyquist (Nz := 2) (by norm_num) 1 one_pos (iz := 1) rfl).1
    rw [this, div_one]
  refine ⟨t, h, ?_⟩
  refine C97_nyquist waveCfg Nat.one_pos {} waveSim t wave_ok wave_src wave_transverse Nat.one_pos rfl (fun i _ j _ => wave_mats i j)
    wave_real rfl rfl 1 0 (show 1 < 2 by norm_num) (show 0 < 2 by norm_num) rfl ?_ ?_ ?_ h
  · show kzTrue 2 1 1 ≠ 0
    rw [hk]
    exact neg_ne_zero.2 Real.pi_ne_zero
  · show coefSw ⟨1, 1, 1⟩ (kzTrue 2 1 1) 1 (1 / Real.sqrt (Real.pi ^ 2 + 1)) ≠ 0
    have hw : omega ⟨1, 1, 1⟩ (kzTrue 2 1 1) 1 = Real.sqrt (Real.pi ^ 2 + 1) := by
      rw [hk]; simp [omega]
    have hs : Real.sqrt (Real.pi ^ 2 + 1) ≠ 0 := (Real.sqrt_pos.2 (by positivity)).ne'
    unfold coefSw invOmega
    simp only [hw, if_neg hs, mul_one_div_cancel hs]
    have : Real.sin 1 ≠ 0 := (Real.sin_pos_of_pos_of_lt_pi one_pos (by linarith [Real.two_le_pi])).ne'
    positivity
  · rw [(wave_em 1 0 (by norm_num) (by norm_num)).1]
    simp

/-- **C97, not true in general.** With `n_order = -1`, an even number of cells along z and the default smoother, a new
simulation without particles and with real fields, with the matrices of the Hankel transforms in the form of
`C97_matrices`, has fields in mode 0 that are not real after one iteration. The diagnostics and the checkpoints then lose
the imaginary part. -/
theorem C97_violated : ∃ (c : Cfg) (_ : NeZero c.Nz) (s t : Sim), Spec.Reasonable c [(1, {})] s ∧ VacuumOk c s ∧ Transverse c s ∧
    s.species = [] ∧ BlankSpect s ∧ Mode0Real c s ∧
    (∀ iz < c.Nz, modifiedK (kzTrue c.Nz (1 / c.invdz) iz) (-1) (1 / c.invdz) = .ok ((s.spect 0).kz iz)) ∧
    (∃ fz fr, c.filter = some (fz, fr) ∧ ∀ iz, fz iz = filterFactor 1 false (kzTrue c.Nz (1 / c.invdz) iz) (1 / c.invdz)) ∧
    (∀ i < c.Nr, ∀ j < c.Nr, (c.mats 0).Mm i j = -(c.mats 0).Mp i j ∧ (c.mats 0).invMm i j = -(c.mats 0).invMp i j) ∧
    c.calls [(1, {})] s = .ok t ∧ ¬ Mode0Real c t := by
  obtain ⟨t, h, hB⟩ := wave_complex
  have hdz : (1 : ℝ) / waveCfg.invdz = 1 := by show (1 : ℝ) / 1 = 1; norm_num
  refine ⟨waveCfg, inferInstance, waveSim, t, wave_runs _, wave_ok, wave_transverse, rfl, fun _ _ => rfl, wave_real, ?_, ?_,
    fun i _ j _ => ⟨wave_mats i j, wave_mats i j⟩, h, ?_⟩
  · intro iz _
    rw [hdz]
    unfold modifiedK
    rw [if_pos rfl]
    rfl
  · rw [hdz]
    exact ⟨_, _, rfl, fun _ => rfl⟩
  · exact fun hr => hB hr.B

/-- Eight cells along z, and an electron at the distance 1 from the axis. -/
noncomputable def realCfg : Cfg :=
  { cubicCfg with Nr := 2, beta := fun _ _ => List.replicate 3 0, mats := fun _ => waveMats }

instance : NeZero realCfg.Nz := ⟨by show (8 : ℕ) ≠ 0; norm_num⟩

noncomputable def realSim' : Sim :=
  { gaussSim with
    interp := fun _ => ⟨⟨fun iz _ => iz, 0, fun _ ir => ir⟩, ⟨0, fun iz ir => iz * ir, 0⟩, ⟨0, 0, 0⟩, 0⟩
    spect := fun _ => ⟨8, 2, fun iz => if iz < 4 then iz else if iz = 4 then 0 else iz - 8, fun _ => 1,
      fun _ _ => ⟨0, 0, 0, 0, 0, 0, 0, 0, 0, 0, 0, 0, 0, 0, 0, 0, 0⟩⟩ }

theorem real_runs (L : List (ℕ × Opts)) (hL : ∀ x ∈ L, x.2.correctDivE = true → realCfg.correction = .curlFree) :
    Spec.Reasonable realCfg L realSim' := by
  have := gauss_reasonable .curlFree L hL
  exact ⟨this.light, this.dt, this.invdz, this.invdr, this.Nz, this.Nr, this.threads, this.period, this.fuel, this.beta, hL,
    this.box, this.plane, this.speed, this.mom, this.near⟩

theorem real_solver : RealSolver realCfg realSim' := by
  refine ⟨Nat.one_pos, rfl, rfl, fun i _ j _ => wave_mats i j, fun i _ j _ => wave_mats i j, fun fz fr h => (by cases h),
    fun iz hz => Or.inl ?_⟩
  have hz : iz < 8 := hz
  show (if negIdx 8 iz < 4 then ((negIdx 8 iz : ℕ) : ℝ) else if negIdx 8 iz = 4 then 0 else ((negIdx 8 iz : ℕ) : ℝ) - 8) =
    -(if iz < 4 then (iz : ℝ) else if iz = 4 then 0 else (iz : ℝ) - 8)
  unfold negIdx
  interval_cases iz <;> norm_num

theorem real_mode0 : Mode0Real realCfg realSim' := by
  refine ⟨⟨fun iz _ _ _ => Complex.natCast_im iz, fun _ _ _ _ => rfl, fun _ _ ir _ => Complex.natCast_im ir⟩,
    ⟨fun _ _ _ _ => rfl, fun iz _ ir _ => ?_, fun _ _ _ _ => rfl⟩,
    ⟨fun _ _ _ _ => rfl, fun _ _ _ _ => rfl, fun _ _ _ _ => rfl⟩, fun _ _ _ _ => rfl⟩
  show ((iz : ℂ) * (ir : ℂ)).im = 0
  rw [← Nat.cast_mul]; exact Complex.natCast_im _

/-- The hypotheses of `C97_real` can be met, with a charged particle and real fields that do not vanish. -/
example (L : List (ℕ × Opts)) (hL : ∀ x ∈ L, x.2.correctDivE = true → realCfg.correction = .curlFree) :
    ∃ t, realCfg.calls L realSim' = .ok t ∧ RealSolver realCfg realSim' ∧ BlankSpect realSim' ∧ Mode0Real realCfg realSim' ∧
      Mode0Real realCfg t := by
  obtain ⟨t, h, -⟩ := C87_total_partial realCfg L realSim' (real_runs L hL)
  exact ⟨t, h, real_solver, fun _ _ => rfl, real_mode0, C97_real realCfg Nat.one_pos L realSim' t real_solver (fun _ _ => rfl)
    real_mode0 h⟩

end Fbpic.Pic
