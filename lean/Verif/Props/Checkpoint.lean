import Verif.Spec.Checkpoint
import Verif.Lemmas.Tactics

/-!
# C43, C44: checkpoints and restarts

openpmd_diag/checkpoint_restart.py.
-/

namespace Fbpic

open Checkpoint Spec

/-- The state after loading the arrays `cs` of mode `m`. -/
private noncomputable def loaded (f : File) (cs : List Comp) (P : ℕ → Prop) (s : Sim) : Sim :=
  open Classical in
  { s with
    field := fun c' m' iz ir => if c' ∈ cs ∧ P m' ∧ iz < s.Nz ∧ ir < s.Nr then loadedField f c' m' iz ir
      else s.field c' m' iz ir
    zmin := fun m' => if P m' then f.offset else s.zmin m'
    zmax := fun m' => if P m' then f.offset + f.Nz * f.dz else s.zmax m' }

private theorem infoZmin_eq (f : File) : f.infoZmin - f.dz / 2 = f.offset := by
  unfold File.infoZmin; ring

private theorem infoZmax_eq (f : File) : f.infoZmax + f.dz / 2 = f.offset + f.Nz * f.dz := by
  unfold File.infoZmax; ring

private theorem loadFields_ok (f : File) (c : Comp) (m : ℕ) (s : Sim) (hp : c.isPml = true → f.hasPml = true)
    (hm : m < f.Nm) (hz : f.Nz = s.Nz) (hr : f.Nr = s.Nr)
    (hl : allclose (s.zmax m - s.zmin m) (f.Nz * f.dz)) :
    loadFields f c m s = .ok (loaded f [c] (· = m) s) := by
  have h1 : ¬ ((c.isPml && !f.hasPml) = true) := by
    cases h : c.isPml
    · simp
    · simp [hp h]
  have h2 : allclose (s.zmax m - s.zmin m) (f.infoZmax + f.dz / 2 - (f.infoZmin - f.dz / 2)) := by
    rwa [infoZmin_eq, infoZmax_eq, add_sub_cancel_left]
  unfold loadFields
  simp only [infoZmin_eq, infoZmax_eq]
  rw [if_neg h1, if_neg (not_not.mpr hm), if_neg (not_not.mpr ⟨hz, hr⟩), if_neg (not_not.mpr h2)]
  unfold loaded
  simp only [bind, Except.bind, pure, Except.pure, List.mem_singleton]
  refine congrArg Except.ok ?_
  simp only [Sim.mk.injEq, true_and, and_true]
  refine ⟨?_, ?_, ?_⟩
  · funext m'; by_cases h : m' = m <;> simp [h]
  · funext m'; by_cases h : m' = m <;> simp [h]
  · funext c' m' iz ir
    by_cases h : c' = c ∧ m' = m ∧ iz < s.Nz ∧ ir < s.Nr
    · rw [if_pos h, if_pos h, h.1, h.2.1]
    · rw [if_neg h, if_neg h]

private theorem allclose_refl (a : ℝ) : allclose a a := by
  unfold allclose
  rw [sub_self, abs_zero]
  positivity

/-- Loading all arrays of one mode. -/
private theorem loadMode_ok (f : File) (m : ℕ) (cs : List Comp) : ∀ (s : Sim), cs ≠ [] →
    (∀ c ∈ cs, c.isPml = true → f.hasPml = true) → m < f.Nm → f.Nz = s.Nz → f.Nr = s.Nr →
    allclose (s.zmax m - s.zmin m) (f.Nz * f.dz) →
    cs.foldlM (fun s c => loadFields f c m s) s = .ok (loaded f cs (· = m) s) := by
  induction cs with
  | nil => intro s h; exact absurd rfl h
  | cons c cs ih =>
    intro s _ hp hm hz hr hl
    rw [List.foldlM_cons, loadFields_ok f c m s (hp c (by simp)) hm hz hr hl]
    simp only [bind, Except.bind]
    by_cases hcs : cs = []
    · subst hcs; rfl
    · rw [ih (loaded f [c] (· = m) s) hcs (fun c' hc' => hp c' (by simp [hc'])) hm hz hr ?_]
      · refine congrArg Except.ok ?_
        unfold loaded
        simp only [List.mem_cons, List.mem_singleton, Sim.mk.injEq, true_and, and_true]
        refine ⟨?_, ?_, ?_⟩
        · funext m'; by_cases h : m' = m <;> simp [h]
        · funext m'; by_cases h : m' = m <;> simp [h]
        · funext c' m' iz ir
          by_cases h1 : c' = c <;> by_cases h2 : c' ∈ cs <;> by_cases h3 : m' = m <;>
            by_cases h4 : iz < s.Nz <;> by_cases h5 : ir < s.Nr <;> simp [h1, h2, h3, h4, h5]
      · have : (loaded f [c] (· = m) s).zmax m - (loaded f [c] (· = m) s).zmin m = f.Nz * f.dz := by
          simp [loaded]
        rw [this]
        exact allclose_refl _

/-- Loading all arrays of all modes. -/
private theorem loadModes_ok (f : File) (s : Sim)
    (hp : ∀ c ∈ comps s.usePml, c.isPml = true → f.hasPml = true) (n : ℕ) (hn : n ≤ f.Nm)
    (hz : f.Nz = s.Nz) (hr : f.Nr = s.Nr)
    (hl : ∀ m < n, allclose (s.zmax m - s.zmin m) (f.Nz * f.dz)) :
    (List.range n).foldlM (fun s m => (comps s.usePml).foldlM (fun s c => loadFields f c m s) s) s =
      .ok (loaded f (comps s.usePml) (· < n) s) := by
  have hcs : comps s.usePml ≠ [] := by simp [comps]
  induction n with
  | zero => simp [loaded, pure, Except.pure]
  | succ n ih =>
    rw [List.range_succ, List.foldlM_append, ih (by omega) (fun m hm => hl m (by omega))]
    simp only [bind, Except.bind, List.foldlM_cons, List.foldlM_nil]
    generalize hcse : comps s.usePml = cs at *
    have hu : comps (loaded f cs (· < n) s).usePml = cs := hcse
    rw [hu, loadMode_ok f n cs (loaded f cs (· < n) s) hcs hp (by omega) hz hr]
    · simp only [pure, Except.pure]
      refine congrArg Except.ok ?_
      unfold loaded
      simp only [Sim.mk.injEq, true_and, and_true]
      refine ⟨?_, ?_, ?_⟩
      · funext m'
        by_cases h : m' = n
        · simp [h]
        · by_cases h' : m' < n
          · simp [h, h', Nat.lt_succ_of_lt h']
          · simp [h, h', show ¬ m' < n + 1 by omega]
      · funext m'
        by_cases h : m' = n
        · simp [h]
        · by_cases h' : m' < n
          · simp [h, h', Nat.lt_succ_of_lt h']
          · simp [h, h', show ¬ m' < n + 1 by omega]
      · funext c' m' iz ir
        have e : m' < n + 1 ↔ m' = n ∨ m' < n := by omega
        by_cases h1 : c' ∈ cs <;> by_cases h2 : m' = n <;> by_cases h3 : m' < n <;>
            by_cases h4 : iz < s.Nz <;> by_cases h5 : ir < s.Nr <;> simp [e, h1, h2, h3, h4, h5]
    · have : (loaded f cs (· < n) s).zmax n - (loaded f cs (· < n) s).zmin n = s.zmax n - s.zmin n := by
        simp [loaded]
      rw [this]
      exact hl n (by omega)

private theorem comps_pml (p : Bool) (c : Comp) (h : c ∈ comps p) (hc : c.isPml = true) : p = true := by
  cases p
  · revert h hc; cases c <;> simp [comps, Comp.isPml]
  · rfl

/-- What is read from a dataset is what was written (for mode 0: its real part). -/
private theorem loadedField_write (k : Consts) (a : Sim) (c : Comp) (m iz ir : ℕ) :
    loadedField (write k a) c m iz ir = if m = 0 then ((a.field c 0 iz ir).re : ℂ) else a.field c m iz ir := by
  unfold loadedField
  by_cases hm : m = 0
  · simp [hm, File.getField, write, writeDataset]
  · have hpos : (m : ℝ) ≠ 0 := by exact_mod_cast hm
    have e1 : (m : ℝ) * (Real.pi / (2 * m)) = Real.pi / 2 := by field_simp
    have e2 : ¬ (2 * m - 1 = 0) := by omega
    have e3 : (2 * m - 1) % 2 = 1 := by omega
    have e4 : (2 * m - 1 + 1) / 2 = m := by omega
    have e5 : ¬ (2 * m = 0) := by omega
    have e6 : ¬ (2 * m % 2 = 1) := by omega
    have e7 : 2 * m / 2 = m := by omega
    rw [if_neg hm, if_neg hm]
    simp only [File.getField, if_neg hm, write, writeDataset, if_neg e2, if_pos e3, e4, if_neg e5,
      if_neg e6, e7, e1, mul_zero, Real.cos_zero, Real.sin_zero, Real.cos_pi_div_two,
      Real.sin_pi_div_two, mul_one, add_zero, zero_add]
    push_cast
    linear_combination Complex.re_add_im (a.field c m iz ir)

theorem closest_mem (l : List File) (f : File) (hf : f ∈ l)
    (hn : (l.map fun (f : File) => f.iteration).Nodup) : closest f.iteration l = some f := by
  unfold closest
  cases h : l.argmin fun g => |(g.iteration : ℤ) - f.iteration| with
  | none =>
    rw [List.argmin_eq_none] at h
    rw [h] at hf
    exact absurd hf (by simp)
  | some g =>
    have hg : g ∈ l := List.argmin_mem h
    have hle := List.le_of_mem_argmin hf h
    simp only [sub_self, abs_zero] at hle
    have he : (g.iteration : ℤ) - f.iteration = 0 := abs_nonpos_iff.mp hle
    have he' : g.iteration = f.iteration := by omega
    exact congrArg some (List.inj_on_of_nodup_map hn hg hf he')

private theorem select_eq (k : Consts) (a : Sim) (series : List File) (request : Option ℕ)
    (h : Requests k a series request) : select series request = .ok (a.iteration, write k a) := by
  obtain ⟨rfl, h1, h2⟩ | ⟨rfl, h1, h2⟩ := h
  · have := closest_mem series _ h1 h2
    simp only [write] at this
    simp only [select, bind, Except.bind, this]
    rfl
  · have := closest_mem series _ (List.mem_of_getLast? h1) h2
    simp only [write] at this
    simp only [select, bind, Except.bind, h1]
    simp only [write, this]

private theorem readMomentum_write (k : Consts) (m : ℝ) (u : List ℝ) (hm : 0 ≤ m) (hc : k.c ≠ 0) :
    readMomentum k m (writeMomentum k m u) = u := by
  unfold readMomentum writeMomentum
  by_cases h : m = 0
  · simp [h]
  · have h' : 0 < m := lt_of_le_of_ne hm (Ne.symm h)
    rw [if_pos h, if_pos h', List.map_map]
    conv_rhs => rw [← List.map_id u]
    refine List.map_congr_left fun x _ => ?_
    simp only [Function.comp, id]
    field_simp

private theorem levels_write (e : ℝ) (he : e ≠ 0) (l : List ℕ) :
    (l.map fun (n : ℕ) => e * (n : ℝ)).map (fun q => (round (q / e)).toNat) = l := by
  rw [List.map_map]
  conv_rhs => rw [← List.map_id l]
  refine List.map_congr_left fun n _ => ?_
  simp only [Function.comp, id]
  rw [mul_div_cancel_left₀ _ he, round_natCast]
  simp

private theorem restartRank_ok (k : Consts) (hc : k.c ≠ 0) (he : k.e ≠ 0) (size rank : ℕ)
    (pids : ℕ → ℕ → List ℕ) (series : List File) (request : Option ℕ) (a b : Sim)
    (ha : Consistent a) (hab : SameSetup a b) (n : ℕ)
    (hsel : select series request = .ok (n, write k a))
    (hmass : ∀ s ∈ a.ptcl, 0 ≤ s.m)
    (hpids : ∀ i (h : i < a.ptcl.length) t, a.ptcl[i].tracker = some t → pids i rank = t.id) :
    ∃ b', restartRank k size rank pids series request b = .ok b' ∧ SameState { a with iteration := n } b' ∧
      b'.zminGlobal - b'.zmin 0 = b.zminGlobal - b.zmin 0 := by
  have hlen : (write k a).species.length = b.ptcl.length := by simp [write, hab.count]
  unfold restartRank
  rw [hsel]
  simp only [bind, Except.bind]
  rw [if_neg (not_not.mpr hlen)]
  rw [loadModes_ok (write k a)]
  rotate_left
  · intro c h1 h2
    have : b.usePml = true := comps_pml _ _ h1 h2
    rw [hab.usePml] at this
    exact this
  · exact hab.Nm.le
  · exact hab.Nz.symm
  · exact hab.Nr.symm
  · intro m hm
    exact hab.length m (hab.Nm ▸ hm)
  refine ⟨_, rfl, ?_, ?_⟩
  · have hm0 : 0 < b.Nm := by rw [hab.Nm]; exact ha.modes
    refine ⟨rfl, by simp [loaded, write, ha.time], ?_, ?_, ?_, ?_, ?_⟩
    · intro m hm
      have : m < b.Nm := by rw [hab.Nm]; exact hm
      simp [loaded, this, write, ha.zmin m]
    · intro m hm
      have : m < b.Nm := by rw [hab.Nm]; exact hm
      simp [loaded, this, write, ha.zmax m]
    · intro c hc m hm iz hiz ir hir
      have h1 : m < b.Nm := by rw [hab.Nm]; exact hm
      have h2 : c ∈ comps b.usePml := by
        rw [hab.usePml]
        revert hc
        cases a.usePml <;> cases c <;> simp [comps]
      simp only [loaded, hab.Nz, hab.Nr, h1, h2, hiz, hir, and_self, if_true]
      rw [loadedField_write]
      by_cases hz : m = 0
      · rw [if_pos hz, hz]
        apply Complex.ext <;> simp [ha.real]
      · rw [if_neg hz]
    · simp [loaded, write, hab.count]
    · intro i hi hi'
      have hib : i < b.ptcl.length := by rw [hab.count]; exact hi
      have hlt : i < (List.mapIdx (fun i p => loadSpecies k size rank (pids i) p.1 p.2)
          (b.ptcl.zip (write k a).species)).length := by simp [write, hib, hi]
      have hget : (List.mapIdx (fun i p => loadSpecies k size rank (pids i) p.1 p.2)
          (b.ptcl.zip (write k a).species))[i]'hlt =
          loadSpecies k size rank (pids i) b.ptcl[i] (writeSpecies k a.ptcl[i]) := by
        simp [write]
      change SameParticles _ ((List.mapIdx (fun i p => loadSpecies k size rank (pids i) p.1 p.2)
          (b.ptcl.zip (write k a).species))[i]'hlt)
      rw [hget]
      have hs := List.getElem_mem hi
      have hM := hmass _ hs
      have hux := readMomentum_write k a.ptcl[i].m a.ptcl[i].ux hM hc
      have huy := readMomentum_write k a.ptcl[i].m a.ptcl[i].uy hM hc
      have huz := readMomentum_write k a.ptcl[i].m a.ptcl[i].uz hM hc
      refine ⟨rfl, rfl, rfl, hux, huy, huz, rfl, ?_, ?_, ?_, ?_, ?_⟩
      · simp only [loadSpecies, writeSpecies, hux, huy, huz]
        exact (ha.gamma _ hs).symm
      · simp only [loadSpecies, writeSpecies]
        cases ht : a.ptcl[i].tracker with
        | none => simp [hab.tracked i hi hib ht]
        | some t => simp [restartTracker, Tracker.overwrite, hpids i hi t ht]
      · have hin := hab.injecting i hi hib
        simp only [loadSpecies]
        cases ht : a.ptcl[i].inject with
        | none => rw [ht] at hin; simp at hin; simp [hin]
        | some t =>
          rw [ht] at hin
          obtain ⟨t', ht'⟩ := Option.isSome_iff_exists.mp (by simpa using hin)
          simp [ht']
      · have hio := hab.ionizable i hi hib
        simp only [loadSpecies, writeSpecies, SpeciesFile.charges]
        cases ht : a.ptcl[i].ionizer with
        | none => 
          rw [ht] at hio
          simp at hio
          simp [hio]
        | some t =>
          rw [ht] at hio
          obtain ⟨t', ht'⟩ := Option.isSome_iff_exists.mp (by simpa using hio)
          simp only [ht', Option.map_some, levels_write k.e he]
      · have hio := hab.ionizable i hi hib
        simp only [loadSpecies, writeSpecies, SpeciesFile.charges]
        cases ht : a.ptcl[i].ionizer with
        | none => 
          rw [ht] at hio
          simp at hio
          simp [hio]
        | some t =>
          rw [ht] at hio
          obtain ⟨t', ht'⟩ := Option.isSome_iff_exists.mp (by simpa using hio)
          simp only [ht', Option.map_some, levels_write k.e he, ha.wlevel _ hs t ht]
  · have hm0 : 0 < b.Nm := by rw [hab.Nm]; exact ha.modes
    simp only [loaded, hm0, if_true]
    ring

/-- **C43** (partial: see `C43_violated_iteration`, `C43_violated_photons` and
`C43_violated_ranks`): on every rank, a restart of the same input script from the checkpoint of a
consistent state restores all fields, all particles, position, time and iteration, provided that
the iteration asked for (if any) is one that was stored. (`Consistent` asks that the Lorentz factors
are those of massive particles.) The global domain moves along with the grid. -/
theorem C43_restored_partial (k : Consts) (hc : k.c ≠ 0) (he : k.e ≠ 0) (size rank : ℕ)
    (pids : ℕ → ℕ → List ℕ) (series : List File) (request : Option ℕ) (a b : Sim)
    (ha : Consistent a) (hab : SameSetup a b) (hreq : Requests k a series request)
    (hmass : ∀ s ∈ a.ptcl, 0 ≤ s.m)
    (hpids : ∀ i (h : i < a.ptcl.length) t, a.ptcl[i].tracker = some t → pids i rank = t.id) :
    ∃ b', restartRank k size rank pids series request b = .ok b' ∧ SameState a b' ∧
      b'.zminGlobal - b'.zmin 0 = b.zminGlobal - b.zmin 0 :=
  restartRank_ok k hc he size rank pids series request a b ha hab a.iteration
    (select_eq k a series request hreq) hmass hpids

private theorem mapM_ok {β : Type} (f : ℕ → Except PyErr β) (P : ℕ → β → Prop) (l : List ℕ)
    (h : ∀ r ∈ l, ∃ b, f r = .ok b ∧ P r b) :
    ∃ bs, l.mapM f = .ok bs ∧ List.Forall₂ P l bs := by
  induction l with
  | nil => exact ⟨[], rfl, .nil⟩
  | cons r l ih =>
    obtain ⟨b, h1, h2⟩ := h r (by simp)
    obtain ⟨bs, h3, h4⟩ := ih fun r' hr' => h r' (by simp [hr'])
    exact ⟨b :: bs, by simp [List.mapM_cons, h1, h3, bind, Except.bind, pure, Except.pure], .cons h2 h4⟩

/-- **C43** (partial, as above), for the whole program: the states that all ranks wrote to their
checkpoints of the same iteration are restored, with the ids and everything else. -/
theorem C43_program_partial (k : Consts) (hc : k.c ≠ 0) (he : k.e ≠ 0) (size : ℕ)
    (listing : List (List Char)) (hdirs : (listing.filter isProcDir).length = size)
    (series : ℕ → List File) (request : Option ℕ) (a b : ℕ → Sim)
    (ha : ∀ r < size, Consistent (a r)) (hab : ∀ r < size, SameSetup (a r) (b r))
    (hreq : ∀ r < size, Requests k (a r) (series r) request)
    (hmass : ∀ r < size, ∀ s ∈ (a r).ptcl, 0 ≤ s.m) :
    ∃ bs, restart k size (some listing) false series request b = .ok bs ∧
      List.Forall₂ (fun r b' => SameState (a r) b') (List.range size) bs := by
  have := mapM_ok (fun r => restartRank k size r (pidsOf series request) (series r) request (b r))
    (fun r b' => SameState (a r) b') (List.range size) ?_
  · obtain ⟨bs, h1, h2⟩ := this
    refine ⟨bs, ?_, h2⟩
    simp only [restart, checkRestart, hdirs, ne_eq, not_true_eq_false, if_false, bind, Except.bind,
      Bool.false_eq_true]
    exact h1
  · intro r hr
    rw [List.mem_range] at hr
    obtain ⟨b', h1, h2, -⟩ := C43_restored_partial k hc he size r (pidsOf series request) (series r)
      request (a r) (b r) (ha r hr) (hab r hr) (hreq r hr) (hmass r hr) (by
        intro i hi t ht
        simp only [pidsOf, select_eq k (a r) (series r) request (hreq r hr)]
        simp [write, hi, writeSpecies, ht])
    exact ⟨b', h1, h2⟩

/-- **C43** is violated when the iteration asked for was not stored: the restart goes on silently with
the closest stored one, whose fields, particles and time are restored, but the iteration counter is
set to the one asked for. (So the outputs are labelled with iterations that do not fit the time; with
`time ≠ iteration*dt` from then on.) -/
theorem C43_violated_iteration (k : Consts) (hc : k.c ≠ 0) (he : k.e ≠ 0) (a b : Sim)
    (ha : Consistent a) (hab : SameSetup a b) (hmass : ∀ s ∈ a.ptcl, 0 ≤ s.m)
    (htr : ∀ s ∈ a.ptcl, s.tracker = none) (n : ℕ) (hn : n ≠ a.iteration) (hdt : a.dt ≠ 0) :
    ∃ b', restartRank k 1 0 (fun _ _ => []) [write k a] (some n) b = .ok b' ∧
      b'.iteration ≠ a.iteration ∧ b'.time = a.time ∧ b'.time ≠ b'.iteration * a.dt ∧
      SameState { a with iteration := n } b' := by
  obtain ⟨b', h1, h2, -⟩ := restartRank_ok k hc he 1 0 (fun _ _ => []) [write k a] (some n) a b ha hab n
    (by simp [select, closest, bind, Except.bind]) hmass (by
      intro i hi t ht
      rw [htr _ (List.getElem_mem hi)] at ht
      exact absurd ht (by simp))
  refine ⟨b', h1, by rw [h2.iteration]; exact hn, h2.time, ?_, h2⟩
  rw [h2.time, h2.iteration]
  simp only [ha.time]
  intro h
  have := mul_right_cancel₀ hdt h
  exact hn (by exact_mod_cast this.symm)

/-- **C43** is violated for photons: they move at the speed of light before the checkpoint
(`inv_gamma = 1/p`, compton/numba_methods.py), and at the fraction `p/sqrt(1+p²) < min(1, p)` of it
after the restart, which recomputes `inv_gamma` as for massive particles. (`p` is in kg m/s here, of
the order of 1e-22: the photons stop.) -/
theorem C43_violated_photons (k : Consts) (size rank : ℕ) (pids : ℕ → List ℕ) (s : Species) (hm : s.m = 0)
    (px py pz : ℝ) (hp : px ^ 2 + py ^ 2 + pz ^ 2 ≠ 0)
    (hux : s.ux = [px]) (huy : s.uy = [py]) (huz : s.uz = [pz])
    (hg : s.invGamma = [1 / Real.sqrt (px ^ 2 + py ^ 2 + pz ^ 2)]) :
    let s' := loadSpecies k size rank pids s (writeSpecies k s)
    let p := Real.sqrt (px ^ 2 + py ^ 2 + pz ^ 2)
    s'.ux = s.ux ∧ s'.uy = s.uy ∧ s'.uz = s.uz ∧ s'.invGamma ≠ s.invGamma ∧
    s.invGamma.map (p * ·) = [1] ∧ ∀ v ∈ s'.invGamma.map (p * ·), v < 1 ∧ v < p := by
  intro s' p
  have hq : 0 < px ^ 2 + py ^ 2 + pz ^ 2 := lt_of_le_of_ne (by positivity) (Ne.symm hp)
  have hp0 : 0 < p := Real.sqrt_pos.mpr hq
  have h1 : s'.invGamma = [1 / Real.sqrt (1 + px ^ 2 + py ^ 2 + pz ^ 2)] := by
    simp [s', loadSpecies, writeSpecies, readMomentum, writeMomentum, hm, hux, huy, huz, invGammas]
  have hlt : p < Real.sqrt (1 + px ^ 2 + py ^ 2 + pz ^ 2) :=
    Real.sqrt_lt_sqrt hq.le (by linarith)
  have h1lt : 1 < Real.sqrt (1 + px ^ 2 + py ^ 2 + pz ^ 2) := by
    rw [Real.lt_sqrt (by norm_num)]; linarith
  have hr0 : 0 < Real.sqrt (1 + px ^ 2 + py ^ 2 + pz ^ 2) := by linarith
  refine ⟨?_, ?_, ?_, ?_, ?_, ?_⟩
  · simp [s', loadSpecies, writeSpecies, readMomentum, writeMomentum, hm]
  · simp [s', loadSpecies, writeSpecies, readMomentum, writeMomentum, hm]
  · simp [s', loadSpecies, writeSpecies, readMomentum, writeMomentum, hm]
  · rw [h1, hg]
    intro h
    have h := (List.cons.inj h).1
    rw [one_div, one_div, inv_inj] at h
    exact absurd h hlt.ne'
  · rw [hg]
    simp only [List.map_cons, List.map_nil]
    rw [mul_one_div, div_self hp0.ne']
  · rw [h1]
    intro v hv
    obtain rfl : v = p * (1 / Real.sqrt (1 + px ^ 2 + py ^ 2 + pz ^ 2)) := by simpa using hv
    constructor
    · rw [mul_one_div, div_lt_one hr0]; exact hlt
    · rw [mul_one_div, div_lt_iff₀ hr0]
      nlinarith

/-- A restart that goes through passed all the checks. -/
private theorem mapM_error {β : Type} (f : ℕ → Except PyErr β) (l : List ℕ) (r : ℕ) (hr : r ∈ l)
    (h : ∃ e, f r = .error e) : ∃ e, l.mapM f = .error e := by
  induction l with
  | nil => simp at hr
  | cons x l ih =>
    rw [List.mapM_cons]
    cases hx : f x with
    | error e => exact ⟨e, by simp [bind, Except.bind]⟩
    | ok b =>
      rcases List.mem_cons.mp hr with rfl | hr
      · rw [hx] at h; obtain ⟨e, h⟩ := h; exact absurd h (by simp)
      · obtain ⟨e, he⟩ := ih hr
        exact ⟨e, by simp [bind, Except.bind, he]⟩

/-- **C44**: a restart raises an error if the directory does not exist, if the number of process
directories is not the number of processes, or if the moving window is already set. -/
theorem C44_refused (k : Consts) (size : ℕ) (listing : Option (List (List Char))) (movingWin : Bool)
    (series : ℕ → List File) (request : Option ℕ) (b : ℕ → Sim)
    (h : listing = none ∨ (∃ l, listing = some l ∧ (l.filter isProcDir).length ≠ size) ∨ movingWin = true) :
    ∃ m, restart k size listing movingWin series request b = .error (.runtimeError m) := by
  have : ∃ m, checkRestart listing size movingWin = .error (.runtimeError m) := by
    cases listing with
    | none => exact ⟨_, rfl⟩
    | some l =>
      simp only [checkRestart]
      by_cases hn : (l.filter isProcDir).length ≠ size
      · exact ⟨_, if_pos hn⟩
      · rw [if_neg hn]
        rcases h with h | ⟨l', h1, h2⟩ | h
        · exact absurd h (by simp)
        · obtain rfl := Option.some.inj h1
          exact absurd h2 hn
        · exact ⟨_, if_pos h⟩
  obtain ⟨m, hm⟩ := this
  exact ⟨m, by simp [restart, hm, bind, Except.bind]⟩

/-- **C44**: a restart raises an error if on any rank the checkpoint read has not as many species as
the simulation, or if there is no checkpoint. -/
theorem C44_species (k : Consts) (size : ℕ) (listing : Option (List (List Char))) (movingWin : Bool)
    (series : ℕ → List File) (request : Option ℕ) (b : ℕ → Sim) (r : ℕ) (hr : r < size)
    (h : series r = [] ∨ ∃ n f, select (series r) request = .ok (n, f) ∧ f.species.length ≠ (b r).ptcl.length) :
    ∃ e, restart k size listing movingWin series request b = .error e := by
  unfold restart
  cases hch : checkRestart listing size movingWin with
  | error e => exact ⟨e, rfl⟩
  | ok u =>
    simp only [bind, Except.bind]
    refine mapM_error _ _ r (List.mem_range.mpr hr) ?_
    rcases h with h | ⟨n, f, h1, h2⟩
    · unfold restartRank
      rw [h]
      cases request <;> exact ⟨_, rfl⟩
    · unfold restartRank
      simp only [h1, bind, Except.bind]
      rw [if_pos h2]
      exact ⟨_, rfl⟩

/-! ### Concrete cases -/

/-- One rank with two modes, one tracked electron and one ion. -/
noncomputable def exSim (iteration : ℕ) (id : ℕ) : Sim where
  iteration := iteration
  time := iteration * (1 / 2)
  dt := 1 / 2
  Nm := 2
  Nz := 4
  Nr := 3
  dz := 1 / 4
  zmin := fun _ => iteration / 4
  zmax := fun _ => iteration / 4 + 1
  zminGlobal := iteration / 4 - 1
  usePml := true
  field := fun _ m iz ir => if m = 0 then (iteration : ℂ) else iz + ir * Complex.I
  ptcl := [⟨1, -1, [1], [2], [3], [4], [5], [6], [7], invGammas [4] [5] [6], some ⟨id + 1, 1, [id], none⟩, none, 1, none⟩,
    ⟨4, 1, [0], [0], [0], [0], [0], [0], [7], invGammas [0] [0] [0], none,
      some ⟨[2], List.zipWith (fun (w : ℝ) (l : ℕ) => w * l) [7] [2]⟩, 1, some (some 1)⟩]

private theorem exSim_consistent (n i : ℕ) : Consistent (exSim n i) := by
  refine ⟨?_, fun _ => rfl, ?_, rfl, by simp [exSim], ?_, ?_⟩
  · intro c iz ir; simp [exSim]
  · intro m; simp [exSim]
  · intro s hs
    simp only [exSim, List.mem_cons, List.not_mem_nil, or_false] at hs
    rcases hs with rfl | rfl <;> rfl
  · intro s hs i hi
    simp only [exSim, List.mem_cons, List.not_mem_nil, or_false] at hs
    rcases hs with rfl | rfl
    · simp at hi
    · simp only [Option.some.injEq] at hi
      subst hi
      rfl

private theorem exSim_setup (n i n' i' : ℕ) : SameSetup (exSim n i) (exSim n' i') := by
  refine ⟨rfl, rfl, rfl, rfl, ?_, rfl, ?_, ?_, ?_⟩
  · intro m _
    have : (exSim n' i').zmax m - (exSim n' i').zmin m = (exSim n i).Nz * (exSim n i).dz := by simp [exSim]
    rw [this]
    exact allclose_refl _
  · intro j h h'
    have : j = 0 ∨ j = 1 := by simp [exSim] at h; omega
    rcases this with rfl | rfl <;> rfl
  · intro j h h'
    have : j = 0 ∨ j = 1 := by simp [exSim] at h; omega
    rcases this with rfl | rfl <;> rfl
  · intro j h h'
    have : j = 0 ∨ j = 1 := by simp [exSim] at h; omega
    rcases this with rfl | rfl
    · simp [exSim]
    · intro _; rfl

private theorem exSim_mass (n i : ℕ) : ∀ s ∈ (exSim n i).ptcl, 0 ≤ s.m := by
  intro s hs
  simp only [exSim, List.mem_cons, List.not_mem_nil, or_false] at hs
  rcases hs with rfl | rfl <;> norm_num

/-- The hypotheses of `C43_program_partial` are met by a run on two ranks with two checkpoints. -/
example : ∃ bs, restart ⟨3, 1⟩ 2 (some ["proc0".toList, "proc1".toList, "log".toList]) false
    (fun r => [write ⟨3, 1⟩ (exSim 10 r), write ⟨3, 1⟩ (exSim 20 r)]) (some 10) (fun r => exSim 0 r) = .ok bs ∧
      List.Forall₂ (fun r b' => SameState (exSim 10 r) b') (List.range 2) bs :=
  C43_program_partial ⟨3, 1⟩ (by norm_num) (by norm_num) 2 _ (by decide) _ _ (fun r => exSim 10 r) _
    (fun r _ => exSim_consistent 10 r) (fun r _ => exSim_setup 10 r 0 r)
    (fun r _ => Or.inl ⟨rfl, by simp, by simp [write, exSim]⟩) (fun r _ => exSim_mass 10 r)

/-- **C43** is violated after a crash: if one rank had time to write its last checkpoint and another one
had not, a restart without explicit iteration goes through and leaves the ranks at different
iterations and times. -/
theorem C43_violated_ranks : ∃ (series : ℕ → List File) (b0 b1 : Sim),
    (∀ r, ∃ n, series r = (List.range n).map fun i => write ⟨3, 1⟩ (exSim (10 * (i + 1)) r)) ∧
    restart ⟨3, 1⟩ 2 (some ["proc0".toList, "proc1".toList]) false series none (fun r => exSim 0 r) =
      .ok [b0, b1] ∧ b0.iteration ≠ b1.iteration ∧ b0.time ≠ b1.time := by
  obtain ⟨bs, h1, h2⟩ := C43_program_partial ⟨3, 1⟩ (by norm_num) (by norm_num) 2
    ["proc0".toList, "proc1".toList] (by decide)
    (fun r => (List.range (if r = 0 then 2 else 1)).map fun i => write ⟨3, 1⟩ (exSim (10 * (i + 1)) r)) none
    (fun r => exSim (if r = 0 then 20 else 10) r) (fun r => exSim 0 r)
    (fun r _ => exSim_consistent _ r) (fun r _ => exSim_setup _ r 0 r)
    (fun r _ => Or.inr ⟨rfl, by
      by_cases h : r = 0
      · simp [h, List.range_succ]
      · simp [h, List.range_succ], by
      by_cases h : r = 0
      · simp [h, List.range_succ, write, exSim]
      · simp [h, List.range_succ, write, exSim]⟩)
    (fun r _ => exSim_mass _ r)
  simp only [List.range_succ, List.range_zero, List.nil_append, List.singleton_append] at h2
  cases h2 with
  | cons g1 h2 =>
    cases h2 with
    | cons g2 h2 =>
      cases h2
      refine ⟨_, _, _, fun r => ⟨_, rfl⟩, h1, ?_, ?_⟩
      · rw [g1.iteration, g2.iteration]; simp [exSim]
      · rw [g1.time, g2.time]; norm_num [exSim]

end Fbpic
