import Verif.Lemmas.PicHistory
import Verif.Props.PicVacuum

/-!
# C99: crashes and restarts of whole runs
-/

namespace Fbpic.Pic

open Transform ExternalField Step
open Spec (SameStored SameSeen SameResult perIteration cut SetUpLike Prepared Fresh Crash RunHistory TransOk)
open Checkpoint (File)

section
variable {c : Cfg} [NeZero c.Nz] {k : Checkpoint.Consts} {period : ℕ}

private theorem stored_refl {s : Sim} (hs : Prepared c s) : SameStored c s s :=
  { zmin := rfl, zmax := rfl, time := rfl, iteration := rfl, species := species_refl _ _
    E := fun _ _ => rfl, B := fun _ _ => rfl
    Nz := fun m hm => ⟨hs.Nz m hm, hs.Nz m hm⟩, Nr := fun m hm => ⟨hs.Nr m hm, hs.Nr m hm⟩
    kz := fun _ _ => rfl, kr := fun _ _ => rfl }

private theorem result_trans {x y z : Except PyErr Sim} (h : SameResult c x y) (h' : SameResult c y z) : SameResult c x z := by
  constructor
  · intro t ht
    obtain ⟨u, hu, h1⟩ := h.1 t ht
    obtain ⟨v, hv, h2⟩ := h'.1 u hu
    exact ⟨v, hv, Pic.SameSeen.trans h1 h2⟩
  · intro v hv
    obtain ⟨u, hu, h1⟩ := h'.2 v hv
    obtain ⟨t, ht, h2⟩ := h.2 u hu
    exact ⟨t, ht, Pic.SameSeen.trans h2 h1⟩

private theorem kept_kr {s u : Sim} (hs : Prepared c s) (h : c.Kept s u) : ∀ m < c.Nm, m ≠ 0 → 0 < c.Nr → (u.spect m).kr 0 = 0 := by
  intro m hm h0 hr
  rw [(h.shape m hm).2.2.2]
  exact hs.kr m hm h0 hr

/-- A complete file: what the uninterrupted run has after `i` iterations. -/
private def Good (c : Cfg) [NeZero c.Nz] (k : Checkpoint.Consts) (L : List (ℕ × Opts)) (s : Sim) (f : File) : Prop :=
  ∃ (i : ℕ) (L₀ : List (ℕ × Opts)) (u : Sim), 1 ≤ i ∧ i ≤ (perIteration L).length ∧ perIteration L₀ = (perIteration L).take i ∧
    c.calls L₀ s = .ok u ∧ f = c.file k u

/-- What holds at any time. -/
private structure Inv (c : Cfg) [NeZero c.Nz] (k : Checkpoint.Consts) (L : List (ℕ × Opts)) (s a : Sim) (P : List (ℕ × Opts))
    (D : List File) : Prop where
  state : ∃ (n : ℕ) (L₀ : List (ℕ × Opts)) (u : Sim), n ≤ (perIteration L).length ∧ perIteration L₀ = (perIteration L).take n ∧
    c.calls L₀ s = .ok u ∧ SameStored c u a ∧ perIteration P = (perIteration L).drop n
  ordered : Ordered D
  files : ∀ f ∈ D, Good c k L s f ∨ f.species = []

private theorem good_iteration (hn : 0 < c.nthreads) {L : List (ℕ × Opts)} {s : Sim} {i : ℕ} {L₀ : List (ℕ × Opts)} {u : Sim}
    (hi : i ≤ (perIteration L).length) (h0 : perIteration L₀ = (perIteration L).take i) (h : c.calls L₀ s = .ok u) :
    u.iteration = s.iteration + i := by
  rw [calls_iteration hn h, h0, List.length_take, Nat.min_eq_left hi]

/-- Complete files of the same iteration are equal. -/
private theorem good_unique (hn : 0 < c.nthreads) (hp : c.exchangePeriod = 1) {L : List (ℕ × Opts)} {s : Sim} (hs : Prepared c s)
    {f g : File} (hf : Good c k L s f) (hg : Good c k L s g) (h : f.iteration = g.iteration) : f = g := by
  obtain ⟨i, L₁, u, h1, h2, h3, h4, rfl⟩ := hf
  obtain ⟨j, L₂, v, g1, g2, g3, g4, rfl⟩ := hg
  have e1 := good_iteration hn h2 h3 h4
  have e2 := good_iteration hn g2 g3 g4
  have e : u.iteration = v.iteration := h
  have hij : i = j := by omega
  subst hij
  have hne : perIteration L₁ ≠ [] := by
    intro e
    have := congrArg List.length (h3.symm.trans e)
    rw [List.length_take, Nat.min_eq_left h2] at this
    simp at this
    omega
  obtain ⟨v', hv, hsame⟩ := (C92_calls c hn hp hs.trans L₁ L₂ (h3.trans g3.symm) hne s s (stored_refl hs) hs.kr).1 u h4
  obtain rfl := Except.ok.inj (hv.symm.trans g4)
  exact (file_congr hsame.toSameStored).symm

/-- The states of a resumed run are those of the uninterrupted one. -/
private theorem resumed (hn : 0 < c.nthreads) (hp : c.exchangePeriod = 1) {L : List (ℕ × Opts)} {s : Sim} (hs : Prepared c s)
    {a : Sim} {n : ℕ} {L₀ : List (ℕ × Opts)} {u : Sim}
    (h2 : perIteration L₀ = (perIteration L).take n) (h3 : c.calls L₀ s = .ok u) (h4 : SameStored c u a)
    {Q : List (ℕ × Opts)} {j : ℕ} (hQ : perIteration Q = ((perIteration L).drop n).take j) (hj1 : 1 ≤ j)
    (hj : n + j ≤ (perIteration L).length) {v : Sim} (hv : c.calls Q a = .ok v) : Good c k L s (c.file k v) := by
  have hne : perIteration Q ≠ [] := by
    intro e
    have := congrArg List.length e
    rw [hQ, List.length_take, List.length_drop] at this
    simp at this
    omega
  obtain ⟨u', hu', hsame⟩ := (C92_calls c hn hp hs.trans _ _ rfl hne u a h4 (kept_kr hs (kept_calls hn h3))).2 v hv
  refine ⟨n + j, L₀ ++ Q, u', by omega, hj, ?_, ?_, file_congr hsame.toSameStored⟩
  · rw [perIteration_append, h2, hQ, List.take_add]
  · rw [calls_app, h3]
    exact hu'

private theorem inv_saving (hn : 0 < c.nthreads) (hp : c.exchangePeriod = 1) (hper : 0 < period) {L : List (ℕ × Opts)} {s : Sim}
    (hs : Prepared c s) {a : Sim} {P : List (ℕ × Opts)} {D : List File} (h : Inv c k L s a P D) (j : ℕ) :
    ∀ f ∈ (c.callsSaving k period (cut j P) a D).2, Good c k L s f ∨ f.species = [] := by
  obtain ⟨n, L₀, u, h1, h2, h3, h4, h5⟩ := h.state
  intro f hf
  rcases calls_files _ _ _ _ hf hper with hf | ⟨i, v, i1, i2, hv, rfl⟩
  · exact h.files f hf
  · rw [perIteration_cut, List.length_take, h5, List.length_drop] at i2
    refine Or.inl (resumed hn hp hs h2 h3 h4 ?_ i1 (by omega) hv)
    rw [perIteration_cut, perIteration_cut, List.take_take, Nat.min_eq_left (by omega), h5]

private theorem inv_crash (hn : 0 < c.nthreads) (hp : c.exchangePeriod = 1) (hper : 0 < period) {L : List (ℕ × Opts)} {s : Sim}
    (hs : Prepared c s) {a : Sim} {P : List (ℕ × Opts)} {D D' : List File} (h : Inv c k L s a P D)
    (hc : Crash c k period a P D D') : Ordered D' ∧ ∀ f ∈ D', Good c k L s f ∨ f.species = [] := by
  have hf := inv_saving (k := k) hn hp hper hs h
  cases hc with
  | between j => exact ⟨calls_ordered _ _ _ h.ordered, hf j⟩
  | during j v st hj hv hp' =>
    refine ⟨(calls_ordered _ _ _ h.ordered).store, fun f hfm => ?_⟩
    rcases mem_store hfm with rfl | hfm
    · obtain ⟨n, L₀, u, h1, h2, h3, h4, h5⟩ := h.state
      rw [h5, List.length_drop] at hj
      have hg : Good c k L s (c.file k v) :=
        resumed hn hp hs h2 h3 h4 (by rw [perIteration_cut, h5]) (by omega : 1 ≤ j + 1) (by omega) hv
      cases hold : (c.callsSaving k period (cut j P) a D).2.find? fun g => g.iteration = (c.file k v).iteration with
      | none => right; cases st <;> rfl
      | some g =>
        have hgm := List.mem_of_find?_eq_some hold
        have hgi : g.iteration = (c.file k v).iteration := by simpa using List.find?_some hold
        rcases hf j g hgm with hgood | htorn
        · left
          obtain rfl := good_unique hn hp hs hgood hg hgi
          cases st <;> exact hg
        · right
          cases st <;> exact htorn
    · exact hf j f hfm

private theorem select_stored {D : List File} (h : Ordered D) {request : Option ℕ} {f : File}
    (hr : (request = none ∧ D.getLast? = some f) ∨ (f ∈ D ∧ request = some f.iteration)) :
    Checkpoint.select D request = .ok (f.iteration, f) := by
  rcases hr with ⟨rfl, h1⟩ | ⟨h1, rfl⟩
  · have := closest_mem D f (List.mem_of_getLast? h1) h.nodup
    simp only [Checkpoint.select, bind, Except.bind, h1, this]
  · have := closest_mem D f h1 h.nodup
    simp only [Checkpoint.select, bind, Except.bind, this]

/-- Restarting from a file without particles raises. -/
private theorem restart_torn {D : List File} {request : Option ℕ} {f : File} (hsel : Checkpoint.select D request = .ok (f.iteration, f))
    (hf : f.species = []) {b : Sim} (hb : b.species ≠ []) :
    c.restartFrom k D request b = .error (.runtimeError "Species numbers in checkpoint and simulation should be same") := by
  have hlen : f.species.length ≠ (c.arrays b).ptcl.length := by
    rw [hf]
    show 0 ≠ (b.species.map _).length
    rw [List.length_map]
    exact fun h => hb (List.length_eq_zero_iff.1 h.symm)
  unfold Cfg.restartFrom Checkpoint.restartRank
  rw [hsel]
  simp only [bind, Except.bind]
  rw [if_pos hlen]

private theorem restart_good (hn : 0 < c.nthreads) (hc : k.c ≠ 0) (he : k.e ≠ 0) {L : List (ℕ × Opts)} {s : Sim} (hs : Fresh c s)
    {D : List File} (hD : Ordered D) {request : Option ℕ} {f : File} (hf : Good c k L s f)
    (hr : (request = none ∧ D.getLast? = some f) ∨ (f ∈ D ∧ request = some f.iteration)) {b : Sim} (hb : SetUpLike c s b) :
    ∃ (i : ℕ) (L₀ : List (ℕ × Opts)) (u a : Sim), 1 ≤ i ∧ i ≤ (perIteration L).length ∧ perIteration L₀ = (perIteration L).take i ∧
      c.calls L₀ s = .ok u ∧ f.iteration = s.iteration + i ∧ c.restartFrom k D request b = .ok a ∧ SameStored c u a := by
  obtain ⟨i, L₀, u, h1, h2, h3, h4, rfl⟩ := hf
  have hi := good_iteration hn h2 h3 h4
  obtain ⟨a, ha, hsame⟩ := restart_stored hc he hs.toPrepared (sound_calls hn hs h4) hb (D := D) (request := request) (by
    rcases hr with ⟨rfl, hr⟩ | ⟨hr, rfl⟩
    · exact Or.inr ⟨rfl, hr, hD.nodup⟩
    · exact Or.inl ⟨rfl, hr, hD.nodup⟩)
  exact ⟨i, L₀, u, a, h1, h2, h3, h4, hi, ha, hsame⟩

private theorem setup_ne {s b : Sim} (h : SetUpLike c s b) (hs : s.species ≠ []) : b.species ≠ [] := by
  intro e
  have := h.species.length_eq
  rw [e] at this
  exact hs (List.length_eq_zero_iff.1 this)

private theorem inv_history (hn : 0 < c.nthreads) (hp : c.exchangePeriod = 1) (hper : 0 < period) (hc : k.c ≠ 0) (he : k.e ≠ 0)
    {L : List (ℕ × Opts)} {s : Sim} (hs : Fresh c s) (hsp : s.species ≠ []) {a : Sim} {P : List (ℕ × Opts)} {D : List File}
    (h : RunHistory c k period L s a P D) : Inv c k L s a P D := by
  induction h with
  | start =>
    exact ⟨⟨0, [], s, Nat.zero_le _, rfl, rfl, stored_refl hs.toPrepared, rfl⟩, List.Pairwise.nil, fun f hf => absurd hf List.not_mem_nil⟩
  | @restart a b a' P P' D D' request h crash setup req ok rest ih =>
    obtain ⟨hD, hf⟩ := inv_crash hn hp hper hs.toPrepared ih crash
    have : ∃ f ∈ D', (request = none ∧ D'.getLast? = some f) ∨ (f ∈ D' ∧ request = some f.iteration) := by
      rcases req with rfl | ⟨f, h1, h2⟩
      · cases hl : D'.getLast? with
        | none =>
          exfalso
          have : Checkpoint.select D' none = .error (.indexError "list index out of range") := by
            simp only [Checkpoint.select, hl, bind, Except.bind]
          unfold Cfg.restartFrom Checkpoint.restartRank at ok
          rw [this] at ok
          cases ok
        | some f => exact ⟨f, List.mem_of_getLast? hl, Or.inl ⟨rfl, rfl⟩⟩
      · exact ⟨f, h1, Or.inr ⟨h1, h2⟩⟩
    obtain ⟨f, hfm, hreq⟩ := this
    rcases hf f hfm with hg | ht
    · obtain ⟨i, L₀, u, a'', g1, g2, g3, g4, g5, g6, g7⟩ := restart_good hn hc he hs hD hg hreq setup
      obtain rfl := Except.ok.inj (g6.symm.trans ok)
      have hit : a''.iteration - s.iteration = i := by
        rw [g7.iteration, good_iteration hn g2 g3 g4]; omega
      rw [hit] at rest
      exact ⟨⟨i, L₀, u, g2, g3, g4, g7, rest⟩, hD, hf⟩
    · rw [restart_torn (select_stored hD hreq) ht (setup_ne setup hsp)] at ok
      cases ok

end

/-- **C99**: a simulation is interrupted any number of times, at any moments (between two iterations, after an exception,
or while a checkpoint is written), and after each crash a simulation that is set up by the same script is filled by
`restart_from_checkpoint` from the last checkpoint, or from any one that is asked for, and makes the remaining iterations.
The calls to `step` may be different from the original ones as long as the iterations are the same, and checkpoints
are written all along, also over those of an earlier attempt. The last attempt then ends like the run that
was never interrupted: it succeeds or fails alike, and all fields and all particles are the same. -/
theorem C99_history (c : Cfg) [NeZero c.Nz] (hn : 0 < c.nthreads) (hp : c.exchangePeriod = 1) (k : Checkpoint.Consts)
    (hc : k.c ≠ 0) (he : k.e ≠ 0) (period : ℕ) (hper : 0 < period) (L : List (ℕ × Opts)) (s : Sim) (hs : Fresh c s)
    (hsp : s.species ≠ []) (a : Sim) (P : List (ℕ × Opts)) (D : List File) (h : RunHistory c k period L s a P D)
    (hP : perIteration P ≠ []) : SameResult c (c.calls L s) (c.callsSaving k period P a D).1 := by
  rw [callsSaving_fst hper]
  obtain ⟨n, L₀, u, h1, h2, h3, h4, h5⟩ := (inv_history hn hp hper hc he hs hsp h).state
  have hpi : perIteration L = perIteration (L₀ ++ P) := by
    rw [perIteration_append, h2, h5, List.take_append_drop]
  have hne : perIteration L ≠ [] := by
    intro e
    rw [h5, e, List.drop_nil] at hP
    exact hP rfl
  have g1 := C92_calls c hn hp hs.trans L (L₀ ++ P) hpi hne s s (stored_refl hs.toPrepared) hs.kr
  have g2 := C92_calls c hn hp hs.trans P P rfl hP u a h4 (kept_kr hs.toPrepared (kept_calls hn h3))
  rw [calls_app, h3] at g1
  exact result_trans g1 g2

/-- **C99** (no file is useless): after a crash, every file that has the particles of the species can be used for a restart,
and gives the state that the uninterrupted run has at the iteration of the file. -/
theorem C99_restart (c : Cfg) [NeZero c.Nz] (hn : 0 < c.nthreads) (hp : c.exchangePeriod = 1) (k : Checkpoint.Consts)
    (hc : k.c ≠ 0) (he : k.e ≠ 0) (period : ℕ) (hper : 0 < period) (L : List (ℕ × Opts)) (s : Sim) (hs : Fresh c s)
    (hsp : s.species ≠ []) (a : Sim) (P : List (ℕ × Opts)) (D D' : List File) (h : RunHistory c k period L s a P D)
    (hcr : Crash c k period a P D D') (f : File) (hf : f ∈ D') (hsf : f.species ≠ []) (b : Sim) (hb : SetUpLike c s b) :
    ∃ u a', c.calls (cut (f.iteration - s.iteration) L) s = .ok u ∧ c.restartFrom k D' (some f.iteration) b = .ok a' ∧
      SameStored c u a' ∧ a'.iteration = f.iteration := by
  obtain ⟨hD, hfs⟩ := inv_crash hn hp hper hs.toPrepared (inv_history hn hp hper hc he hs hsp h) hcr
  rcases hfs f hf with hg | ht
  · obtain ⟨i, L₀, u, a', g1, g2, g3, g4, g5, g6, g7⟩ := restart_good hn hc he hs hD hg (Or.inr ⟨hf, rfl⟩) hb
    have hit : f.iteration - s.iteration = i := by omega
    have hne : perIteration L₀ ≠ [] := by
      intro e
      have := congrArg List.length (g3.symm.trans e)
      rw [List.length_take, Nat.min_eq_left g2] at this
      simp at this
      omega
    obtain ⟨u', hu', hsame⟩ := (C92_calls c hn hp hs.trans L₀ (cut i L) (by rw [g3, perIteration_cut]) hne s s
      (stored_refl hs.toPrepared) hs.kr).1 u g4
    rw [hit]
    refine ⟨u', a', hu', g6, ?_, ?_⟩
    · have e := (SameSeen.symm hsame).toSameStored
      exact { zmin := g7.zmin.trans e.zmin, zmax := g7.zmax.trans e.zmax, time := g7.time.trans e.time
              iteration := g7.iteration.trans e.iteration
              species := forall₂_trans e.species g7.species fun x y z p q =>
                ⟨q.q.trans p.q, q.m.trans p.m, q.shape.trans p.shape, q.tracer.trans p.tracer, q.ionizable.trans p.ionizable,
                  q.plane.trans p.plane, forall₂_trans p.ptcl q.ptcl fun x y z p q => ⟨q.push.trans p.push, q.w.trans p.w, fun h => h.1.elim⟩⟩
              E := fun m hm => (g7.E m hm).trans (e.E m hm), B := fun m hm => (g7.B m hm).trans (e.B m hm)
              Nz := fun m hm => ⟨(e.Nz m hm).1, (g7.Nz m hm).2⟩, Nr := fun m hm => ⟨(e.Nr m hm).1, (g7.Nr m hm).2⟩
              kz := fun m hm => (g7.kz m hm).trans (e.kz m hm), kr := fun m hm => (g7.kr m hm).trans (e.kr m hm) }
    · rw [g7.iteration, good_iteration hn g2 g3 g4, g5]
  · exact absurd ht hsf

/-- **C99** (files that are not complete): a file without the particles, as it is left when the program ends while the checkpoint is
written, is never taken for a checkpoint: the restart raises. -/
theorem C99_torn (c : Cfg) [NeZero c.Nz] (hn : 0 < c.nthreads) (hp : c.exchangePeriod = 1) (k : Checkpoint.Consts)
    (hc : k.c ≠ 0) (he : k.e ≠ 0) (period : ℕ) (hper : 0 < period) (L : List (ℕ × Opts)) (s : Sim) (hs : Fresh c s)
    (hsp : s.species ≠ []) (a : Sim) (P : List (ℕ × Opts)) (D D' : List File) (h : RunHistory c k period L s a P D)
    (hcr : Crash c k period a P D D') (f : File) (hsf : f.species = []) (request : Option ℕ)
    (hr : (request = none ∧ D'.getLast? = some f) ∨ (f ∈ D' ∧ request = some f.iteration)) (b : Sim) (hb : SetUpLike c s b) :
    c.restartFrom k D' request b = .error (.runtimeError "Species numbers in checkpoint and simulation should be same") := by
  obtain ⟨hD, -⟩ := inv_crash hn hp hper hs.toPrepared (inv_history hn hp hper hc he hs hsp h) hcr
  exact restart_torn (select_stored hD hr) hsf (setup_ne hb hsp)

/-- **C99** (how much is lost): after the run has passed an iteration that is a multiple of the period, the directory has a
file of this iteration with all species, whatever the calls; and it is still there if the program ends later, while another
checkpoint is written. -/
theorem C99_written (c : Cfg) [NeZero c.Nz] (hn : 0 < c.nthreads) (k : Checkpoint.Consts) (period : ℕ) (hper : 0 < period)
    (Q : List (ℕ × Opts)) (a v : Sim) (D : List File) (h : c.calls Q a = .ok v) (N : ℕ) (hN : N % period = 0)
    (h1 : a.iteration < N) (h2 : N ≤ v.iteration) :
    ∃ f ∈ (c.callsSaving k period Q a D).2, f.iteration = N ∧ f.species.length = a.species.length ∧
      ∀ (st : Stage) (w : Sim), w.iteration ≠ N → f ∈ tear st (c.file k w) (c.callsSaving k period Q a D).2 := by
  obtain ⟨f, h1, h2, h3⟩ := calls_written (k := k) hn hper hN Q a v D rfl h h1 h2
  refine ⟨f, h1, h2, h3, fun st w hw => ?_⟩
  refine (store_mem h1).resolve_right fun e => hw ?_
  have : (partialFile (c.file k w) ((c.callsSaving k period Q a D).2.find? fun g => g.iteration = (c.file k w).iteration) st).iteration =
    w.iteration := by cases st <;> rfl
  rw [← this, ← e, h2]

/-! ### Violations -/

section
variable {c : Cfg} [NeZero c.Nz] {k : Checkpoint.Consts} {period : ℕ}

omit [NeZero c.Nz] in
private theorem paste_in {a b : Buf} {iz ir : ℕ} (hz : iz < c.Nz) (hr : ir < c.Nr) : c.paste a b iz ir = a iz ir :=
  if_pos ⟨hz, hr⟩

omit [NeZero c.Nz] in
private theorem paste_out {a b : Buf} {iz ir : ℕ} (h : ¬ (iz < c.Nz ∧ ir < c.Nr)) : c.paste a b iz ir = b iz ir := if_neg h

/-- The state with other fields. -/
private def Cfg.swap (c : Cfg) (u : Sim) (g : ℕ → GridVec × GridVec) : Sim :=
  { u with interp := fun m => { u.interp m with
      E := ⟨c.paste (g m).1.r (u.interp m).E.r, c.paste (g m).1.t (u.interp m).E.t, c.paste (g m).1.z (u.interp m).E.z⟩
      B := ⟨c.paste (g m).2.r (u.interp m).B.r, c.paste (g m).2.t (u.interp m).B.t, c.paste (g m).2.z (u.interp m).B.z⟩ } }

private theorem swap_sound (hn : 0 < c.nthreads) {s u : Sim} (hs : Prepared c s) {L : List (ℕ × Opts)} (h : c.calls L s = .ok u)
    (g : ℕ → GridVec × GridVec) (hg : Spec.RealVec c (g 0).1 ∧ Spec.RealVec c (g 0).2) : c.Sound s (c.swap u g) := by
  obtain ⟨h1, h2, h3, h4⟩ := C93_counters c hn L s u h
  have hk := kept_calls hn h
  refine ⟨⟨hk.shape, fun m hm iz ir ho => ?_, hk.species⟩, ?_, ?_, ?_⟩
  · simp only [Cfg.swap, paste_out ho]
    exact hk.out m hm iz ir ho
  · obtain ⟨⟨a1, a2, a3⟩, b1, b2, b3⟩ := hg
    refine ⟨⟨?_, ?_, ?_⟩, ?_, ?_, ?_⟩ <;> intro iz hz ir hr <;> simp only [Cfg.swap, paste_in hz hr]
    · exact a1 iz hz ir hr
    · exact a2 iz hz ir hr
    · exact a3 iz hz ir hr
    · exact b1 iz hz ir hr
    · exact b2 iz hz ir hr
    · exact b3 iz hz ir hr
  · show u.time = u.iteration * c.dt
    rw [h2, h1, hs.time]; push_cast; ring
  · show u.zmax = u.zmin + c.Nz * (1 / c.invdz)
    rw [h4, h3, hs.box]; ring

omit [NeZero c.Nz] in
private theorem store_last {g : File} {D : List File} (h : ∀ f ∈ D, f.iteration < g.iteration) : storeFile g D = D ++ [g] := by
  induction D with
  | nil => rfl
  | cons d D ih =>
    have h1 := h d List.mem_cons_self
    unfold storeFile
    rw [if_neg (by omega), if_neg (by omega), ih fun f hf => h f (List.mem_cons_of_mem _ hf)]
    rfl

private theorem files_before (hn : 0 < c.nthreads) (hper : 0 < period) (L : List (ℕ × Opts)) (s : Sim) (j : ℕ) :
    ∀ f ∈ (c.callsSaving k period (cut j L) s []).2, f.iteration ≤ s.iteration + j := by
  intro f hf
  rcases calls_files _ _ _ _ hf hper with hf | ⟨i, v, -, i2, hv, rfl⟩
  · exact absurd hf List.not_mem_nil
  · have := calls_iteration hn hv
    rw [perIteration_cut, List.length_take, Nat.min_eq_left i2] at this
    rw [perIteration_cut, List.length_take] at i2
    show v.iteration ≤ _
    omega

private theorem cut_iteration (hn : 0 < c.nthreads) {L : List (ℕ × Opts)} {s v : Sim} {j : ℕ} (hj : j ≤ (perIteration L).length)
    (hv : c.calls (cut j L) s = .ok v) : v.iteration = s.iteration + j := by
  rw [calls_iteration hn hv, perIteration_cut, List.length_take, Nat.min_eq_left hj]

/-- **C99 does not hold without particles** (mechanism): if a simulation that has no species ends while a checkpoint is
written, after the file has been created, then the restart without a request finds this file, takes it for a
checkpoint, and continues at its iteration with fields that are zero everywhere. -/
theorem C99_blank (hn : 0 < c.nthreads) (hc : k.c ≠ 0) (he : k.e ≠ 0) (hper : 0 < period) (L : List (ℕ × Opts)) (s : Sim)
    (hs : Prepared c s) (hsp : s.species = []) (j : ℕ) (hj : j < (perIteration L).length) (v : Sim)
    (hv : c.calls (cut (j + 1) L) s = .ok v) (hp : v.iteration % period = 0) (b : Sim) (hb : SetUpLike c s b) :
    ∃ D a, Crash c k period s L [] D ∧ c.restartFrom k D none b = .ok a ∧ a.iteration = v.iteration ∧ a.time = v.time ∧
      ∀ m < c.Nm, ∀ iz < c.Nz, ∀ ir < c.Nr,
        (a.interp m).E.r iz ir = 0 ∧ (a.interp m).E.t iz ir = 0 ∧ (a.interp m).E.z iz ir = 0 ∧
        (a.interp m).B.r iz ir = 0 ∧ (a.interp m).B.t iz ir = 0 ∧ (a.interp m).B.z iz ir = 0 := by
  have hit := cut_iteration hn (by omega) hv
  have hlt : ∀ f ∈ (c.callsSaving k period (cut j L) s []).2, f.iteration < (c.file k v).iteration := by
    intro f hf
    have := files_before hn hper L s j f hf
    show f.iteration < v.iteration
    omega
  have hnone : ((c.callsSaving k period (cut j L) s []).2.find? fun g => g.iteration = (c.file k v).iteration) = none := by
    rw [List.find?_eq_none]
    intro f hf
    have := hlt f hf
    simp only [decide_eq_true_eq]
    omega
  let z : ℕ → GridVec × GridVec := fun _ => (⟨0, 0, 0⟩, ⟨0, 0, 0⟩)
  have hvs : v.species = [] := by
    have := (kept_calls hn hv).species.length_eq
    rw [hsp] at this
    exact List.length_eq_zero_iff.1 this.symm
  have hfield : ∀ (a : Checkpoint.Comp) m iz ir, (c.arrays (c.swap v z)).field a m iz ir = 0 := by
    intro a m iz ir
    show (if m < c.Nm ∧ iz < c.Nz ∧ ir < c.Nr then _ else (0 : ℂ)) = 0
    by_cases hg : m < c.Nm ∧ iz < c.Nz ∧ ir < c.Nr
    · rw [if_pos hg]
      cases a <;> simp only [Cfg.swap, paste_in hg.2.1 hg.2.2] <;> rfl
    · rw [if_neg hg]
  have hfile : partialFile (c.file k v) none .created = c.file k (c.swap v z) := by
    have e1 : (c.file k (c.swap v z)).species = [] := by
      show (v.species.map _).map _ = []
      rw [hvs]; rfl
    have e2 : (c.file k (c.swap v z)).dset = fun _ _ _ _ => 0 := by
      funext a q ir iz
      show Checkpoint.writeDataset (c.arrays (c.swap v z)) a q ir iz = 0
      unfold Checkpoint.writeDataset
      rw [hfield, hfield, hfield]
      simp
    have e3 : c.file k (c.swap v z) = { c.file k v with dset := (c.file k (c.swap v z)).dset, species := (c.file k (c.swap v z)).species } :=
      rfl
    rw [e3, e1, e2]
    rfl
  have hD : tear .created (c.file k v) (c.callsSaving k period (cut j L) s []).2 =
      (c.callsSaving k period (cut j L) s []).2 ++ [c.file k (c.swap v z)] := by
    unfold tear
    rw [hnone, hfile, store_last (g := c.file k (c.swap v z)) hlt]
  have hord : Ordered (tear .created (c.file k v) (c.callsSaving k period (cut j L) s []).2) :=
    (calls_ordered _ _ _ List.Pairwise.nil).store
  obtain ⟨a, ha, hsame⟩ := restart_stored hc he hs (swap_sound hn hs hv z
    ⟨⟨fun _ _ _ _ => rfl, fun _ _ _ _ => rfl, fun _ _ _ _ => rfl⟩, fun _ _ _ _ => rfl, fun _ _ _ _ => rfl, fun _ _ _ _ => rfl⟩) hb
    (D := tear .created (c.file k v) (c.callsSaving k period (cut j L) s []).2) (request := none)
    (Or.inr ⟨rfl, by rw [hD, List.getLast?_append]; rfl, hord.nodup⟩)
  refine ⟨_, a, Crash.during j v .created hj hv hp, ha, hsame.iteration, hsame.time, fun m hm iz hz ir hr => ?_⟩
  rw [hsame.E m hm, hsame.B m hm]
  simp only [Cfg.swap, paste_in hz hr]
  exact ⟨rfl, rfl, rfl, rfl, rfl, rfl⟩

/-- **C99 does not hold if mode 0 is not real** (mechanism): the checkpoint has only the real parts, and the fields of mode 0
are real after the restart. -/
theorem C99_real_part (hn : 0 < c.nthreads) (hc : k.c ≠ 0) (he : k.e ≠ 0) (hper : 0 < period) (L : List (ℕ × Opts)) (s : Sim)
    (hs : Prepared c s) (j : ℕ) (hj1 : 1 ≤ j) (hj : j ≤ (perIteration L).length) (v : Sim)
    (hv : c.calls (cut j L) s = .ok v) (hp : v.iteration % period = 0) (b : Sim) (hb : SetUpLike c s b) :
    ∃ a, c.restartFrom k (c.callsSaving k period (cut j L) s []).2 none b = .ok a ∧ a.iteration = v.iteration ∧
      ∀ iz < c.Nz, ∀ ir < c.Nr,
        (a.interp 0).E.r iz ir = ((v.interp 0).E.r iz ir).re ∧ (a.interp 0).E.t iz ir = ((v.interp 0).E.t iz ir).re ∧
        (a.interp 0).E.z iz ir = ((v.interp 0).E.z iz ir).re ∧ (a.interp 0).B.r iz ir = ((v.interp 0).B.r iz ir).re ∧
        (a.interp 0).B.t iz ir = ((v.interp 0).B.t iz ir).re ∧ (a.interp 0).B.z iz ir = ((v.interp 0).B.z iz ir).re := by
  have hit := cut_iteration hn hj hv
  let re : Buf → Buf := fun a iz ir => ((a iz ir).re : ℂ)
  let z : ℕ → GridVec × GridVec := fun m => if m = 0 then
      (⟨re (v.interp 0).E.r, re (v.interp 0).E.t, re (v.interp 0).E.z⟩, ⟨re (v.interp 0).B.r, re (v.interp 0).B.t, re (v.interp 0).B.z⟩)
    else ((v.interp m).E, (v.interp m).B)
  have hre : ∀ a : Buf, Spec.RealArr c (re a) := fun a iz _ ir _ => Complex.ofReal_im _
  have hz0 : z 0 = (⟨re (v.interp 0).E.r, re (v.interp 0).E.t, re (v.interp 0).E.z⟩,
      ⟨re (v.interp 0).B.r, re (v.interp 0).B.t, re (v.interp 0).B.z⟩) := if_pos rfl
  have hother : ∀ (a : Checkpoint.Comp) m iz ir, m ≠ 0 → (c.arrays (c.swap v z)).field a m iz ir = (c.arrays v).field a m iz ir := by
    intro a m iz ir hm0
    show (if m < c.Nm ∧ iz < c.Nz ∧ ir < c.Nr then _ else (0 : ℂ)) = (if m < c.Nm ∧ iz < c.Nz ∧ ir < c.Nr then _ else (0 : ℂ))
    by_cases hg : m < c.Nm ∧ iz < c.Nz ∧ ir < c.Nr
    · rw [if_pos hg, if_pos hg]
      have : z m = ((v.interp m).E, (v.interp m).B) := if_neg hm0
      cases a <;> simp only [Cfg.swap, paste_in hg.2.1 hg.2.2, this]
    · rw [if_neg hg, if_neg hg]
  have hzero : ∀ (a : Checkpoint.Comp) iz ir, ((c.arrays (c.swap v z)).field a 0 iz ir).re = ((c.arrays v).field a 0 iz ir).re := by
    intro a iz ir
    show (if 0 < c.Nm ∧ iz < c.Nz ∧ ir < c.Nr then _ else (0 : ℂ)).re = (if 0 < c.Nm ∧ iz < c.Nz ∧ ir < c.Nr then _ else (0 : ℂ)).re
    by_cases hg : 0 < c.Nm ∧ iz < c.Nz ∧ ir < c.Nr
    · rw [if_pos hg, if_pos hg]
      cases a <;> simp only [Cfg.swap, paste_in hg.2.1 hg.2.2, hz0] <;> first | rfl | exact Complex.ofReal_re _
    · rw [if_neg hg, if_neg hg]
  have hfile : c.file k v = c.file k (c.swap v z) := by
    have e2 : (c.file k (c.swap v z)).dset = (c.file k v).dset := by
      funext a q ir iz
      show Checkpoint.writeDataset (c.arrays (c.swap v z)) a q ir iz = Checkpoint.writeDataset (c.arrays v) a q ir iz
      unfold Checkpoint.writeDataset
      by_cases h0 : q = 0
      · rw [if_pos h0, if_pos h0, hzero]
      · rw [if_neg h0, if_neg h0]
        by_cases h1 : q % 2 = 1
        · rw [if_pos h1, if_pos h1, hother _ _ _ _ (by omega)]
        · rw [if_neg h1, if_neg h1, hother _ _ _ _ (by omega)]
    have e3 : c.file k (c.swap v z) = { c.file k v with dset := (c.file k (c.swap v z)).dset } := rfl
    rw [e3, e2]
  obtain ⟨f, hf, hfi, -, -⟩ := C99_written c hn k period hper (cut j L) s v [] hv v.iteration hp (by omega) le_rfl
  have hord : Ordered (c.callsSaving k period (cut j L) s []).2 := calls_ordered _ _ _ List.Pairwise.nil
  have hle := files_before (k := k) hn hper L s j
  -- the last file is the one of the present iteration
  have hlast : (c.callsSaving k period (cut j L) s []).2.getLast? = some f := by
    have hmax : ∀ (D : List File), Ordered D → f ∈ D → (∀ g ∈ D, g.iteration ≤ f.iteration) → D.getLast? = some f := by
      intro D
      induction D with
      | nil => intro _ h _; exact absurd h List.not_mem_nil
      | cons d D ih =>
        intro ho hm hle
        obtain ⟨h1, h2⟩ := List.pairwise_cons.1 ho
        cases D with
        | nil =>
          obtain rfl : f = d := by simpa using hm
          rfl
        | cons e D =>
          rw [List.getLast?_cons_cons]
          refine ih h2 ?_ fun g hg => hle g (List.mem_cons_of_mem _ hg)
          rcases List.mem_cons.1 hm with rfl | hm
          · have := h1 e List.mem_cons_self
            have := hle e (by simp)
            omega
          · exact hm
    refine hmax _ hord hf fun g hg => ?_
    have := hle g hg
    omega
  have hfv : f = c.file k v := by
    rcases calls_files _ _ _ _ hf hper with hf | ⟨i, w, i1, i2, hw, rfl⟩
    · exact absurd hf List.not_mem_nil
    · have := calls_iteration hn hw
      have hfi : w.iteration = v.iteration := hfi
      rw [perIteration_cut, List.length_take, Nat.min_eq_left i2] at this
      rw [perIteration_cut, List.length_take] at i2
      have hij : i = j := by omega
      subst hij
      have hcc : ∀ (L : List (ℕ × Opts)) i, cut i (cut i L) = cut i L := by
        intro L
        induction L with
        | nil => intro i; rfl
        | cons x L ih =>
          intro i
          obtain ⟨n, o⟩ := x
          by_cases h : i ≤ n
          · simp [cut, h]
          · simp [cut, h, ih]
      rw [hcc] at hw
      rw [Except.ok.inj (hw.symm.trans hv)]
  obtain ⟨a, ha, hsame⟩ := restart_stored hc he hs (swap_sound hn hs hv z (by
      rw [hz0]; exact ⟨⟨hre _, hre _, hre _⟩, hre _, hre _, hre _⟩)) hb
    (D := (c.callsSaving k period (cut j L) s []).2) (request := none)
    (Or.inr ⟨rfl, by rw [hlast, hfv, hfile]; rfl, hord.nodup⟩)
  refine ⟨a, ha, hsame.iteration, fun iz hz ir hr => ?_⟩
  rw [hsame.E 0 hs.modes, hsame.B 0 hs.modes]
  simp only [Cfg.swap, paste_in hz hr, hz0]
  exact ⟨rfl, rfl, rfl, rfl, rfl, rfl⟩

end

/-! ### Examples -/

theorem setup_self {c : Cfg} [NeZero c.Nz] {s : Sim} (hs : Prepared c s) : SetUpLike c s s where
  outside := fun _ _ _ _ _ => ⟨rfl, rfl, rfl, rfl, rfl, rfl⟩
  length := by
    rw [hs.box, add_sub_cancel_left]
    unfold Checkpoint.allclose
    rw [sub_self, abs_zero]
    positivity
  Nz := hs.Nz
  Nr := hs.Nr
  kz := fun _ _ => rfl
  kr := fun _ _ => rfl
  species := List.forall₂_same.2 fun _ _ => rfl

theorem real_fresh : Fresh realCfg realSim' where
  modes := Nat.one_pos
  trans := fun m hm => wave_trans m hm realCfg rfl rfl
  Nz := fun _ _ => rfl
  Nr := fun _ _ => rfl
  kr := fun m hm h => absurd (show m = 0 from by have : m < 1 := hm; omega) h
  time := by show (0 : ℝ) = (0 : ℕ) * 1; simp
  box := by show (8 : ℝ) = 0 + (8 : ℕ) * (1 / 1); norm_num
  mass := by
    intro sp hsp
    obtain rfl : sp = ⟨-1, 1, .linear, false, false, none, [⟨⟨1, 0, 7.9, ⟨0, 0, 4 / 3, 3 / 5⟩, 0⟩, 1, fun _ => 0⟩]⟩ := by
      simpa [realSim', gaussSim, cubicSim] using hsp
    exact zero_le_one
  momenta := fun sp hsp p hpm => (real_runs [] (fun x hx => absurd hx List.not_mem_nil)).mom sp hsp p hpm
  levels := by
    intro sp hsp _ p hpm
    obtain rfl : sp = ⟨-1, 1, .linear, false, false, none, [⟨⟨1, 0, 7.9, ⟨0, 0, 4 / 3, 3 / 5⟩, 0⟩, 1, fun _ => 0⟩]⟩ := by
      simpa [realSim', gaussSim, cubicSim] using hsp
    obtain rfl : p = ⟨⟨1, 0, 7.9, ⟨0, 0, 4 / 3, 3 / 5⟩, 0⟩, 1, fun _ => 0⟩ := by simpa using hpm
    rfl
  solver := real_solver
  blank := fun _ _ => rfl
  real := real_mode0

/-- The hypotheses of `C99_history` can be met: a run of 5 iterations with a checkpoint every 2 iterations is interrupted after
3 iterations, restarted from the checkpoint of the iteration 2, and makes the 3 remaining iterations in two calls. -/
example (k : Checkpoint.Consts) (hc : k.c ≠ 0) (he : k.e ≠ 0) : ∃ a D, RunHistory realCfg k 2 [(5, {})] realSim' a [(1, {}), (2, {})] D ∧
    a.iteration = 2 ∧ SameResult realCfg (realCfg.calls [(5, {})] realSim') (realCfg.callsSaving k 2 [(1, {}), (2, {})] a D).1 := by
  have hopt : ∀ L : List (ℕ × Opts), (∀ x ∈ L, x.2 = {}) → ∀ x ∈ L, x.2.correctDivE = true → realCfg.correction = .curlFree :=
    fun _ _ _ _ _ => rfl
  obtain ⟨v, hv, -⟩ := C87_total_partial realCfg [(3, {})] realSim' (real_runs _ (hopt _ (by simp)))
  have hcut : cut 3 [(5, ({} : Opts))] = [(3, {})] := by simp [cut]
  have hvi : v.iteration = 3 := by
    rw [calls_iteration Nat.one_pos hv]
    show (0 : ℕ) + 3 = 3
    rfl
  obtain ⟨f, hf, hfi, hfs, -⟩ := C99_written realCfg Nat.one_pos k 2 (by norm_num) [(3, {})] realSim' v [] hv 2 rfl
    (show (0 : ℕ) < 2 by norm_num) (by omega)
  have hcr : Crash realCfg k 2 realSim' [(5, {})] [] (realCfg.callsSaving k 2 [(3, {})] realSim' []).2 := by
    have := Crash.between (c := realCfg) (k := k) (period := 2) (a := realSim') (P := [(5, {})]) (D := []) 3
    rwa [hcut] at this
  have hne : f.species ≠ [] := by
    intro e
    rw [e] at hfs
    exact absurd hfs (show (0 : ℕ) ≠ 1 by norm_num)
  have hsp : realSim'.species ≠ [] := List.cons_ne_nil _ _
  obtain ⟨u, a, hu, ha, hsame, hai⟩ := C99_restart realCfg Nat.one_pos rfl k hc he 2 (by norm_num) [(5, {})] realSim' real_fresh hsp
    realSim' [(5, {})] [] _ .start hcr f hf hne realSim' (setup_self real_fresh.toPrepared)
  have h : RunHistory realCfg k 2 [(5, {})] realSim' a [(1, {}), (2, {})] (realCfg.callsSaving k 2 [(3, {})] realSim' []).2 := by
    refine .restart .start hcr (setup_self real_fresh.toPrepared) (Or.inr ⟨f, hf, rfl⟩) ha ?_
    rw [hai, hfi]
    rfl
  exact ⟨a, _, h, by rw [hai, hfi], C99_history realCfg Nat.one_pos rfl k hc he 2 (by norm_num) _ _ real_fresh hsp a _ _ h
    (List.cons_ne_nil _ _)⟩

/-- The hypotheses of `C99_torn` can be met: the run ends while the checkpoint of the iteration 2 is written. -/
example (k : Checkpoint.Consts) (hc : k.c ≠ 0) (he : k.e ≠ 0) (st : Stage) : ∃ D f, Crash realCfg k 2 realSim' [(5, {})] [] D ∧
    D.getLast? = some f ∧ f.species = [] ∧ f.iteration = 2 ∧
    realCfg.restartFrom k D none realSim' = .error (.runtimeError "Species numbers in checkpoint and simulation should be same") := by
  obtain ⟨v, hv, -⟩ := C87_total_partial realCfg [(2, {})] realSim' (real_runs _ fun _ _ _ => rfl)
  have hvi : v.iteration = 2 := calls_iteration Nat.one_pos hv
  have hcr := Crash.during (c := realCfg) (k := k) (period := 2) (a := realSim') (P := [(5, {})]) (D := []) 1 v st
    (show 1 < 5 by norm_num) (by simpa [cut] using hv) (by rw [hvi])
  have hnil : ∀ f ∈ (realCfg.callsSaving k 2 (cut 1 [(5, {})]) realSim' []).2, False := by
    intro f hf
    have h1 := files_before (k := k) Nat.one_pos (by norm_num : 0 < 2) [(5, {})] realSim' 1 f hf
    rcases calls_files _ _ _ _ hf (by norm_num) with hf | ⟨i, w, i1, i2, hw, rfl⟩
    · exact absurd hf List.not_mem_nil
    · -- the only iteration before is not a multiple of the period
      obtain ⟨u, hu, -⟩ := C87_total_partial realCfg [(1, {})] realSim' (real_runs _ fun _ _ _ => rfl)
      have hcut : cut 1 [(5, ({} : Opts))] = [(1, {})] := by simp [cut]
      rw [hcut] at hf
      have hui : u.iteration = 1 := calls_iteration Nat.one_pos hu
      obtain ⟨b, hb, -⟩ := (except_bind_ok _ _ _).1 hu
      obtain ⟨b', hb', -⟩ := (except_bind_ok _ _ _).1 hb
      obtain ⟨b'', hb'', hb3⟩ := (except_bind_ok _ _ _).1 hb'
      have hbi : b''.iteration = 1 := (iter_clock realCfg Nat.one_pos _ 0 hb'').iteration
      have : (realCfg.callsSaving k 2 [(1, {})] realSim' []).2 = [] := by
        have e : (realCfg.callsSaving k 2 [(1, {})] realSim' []).2 = (realCfg.stepSaving k 2 1 {} realSim' []).2 := by
          unfold Cfg.callsSaving
          generalize realCfg.stepSaving k 2 1 {} realSim' [] = x
          obtain ⟨r, D'⟩ := x
          cases r <;> rfl
        rw [e, stepSaving_snd]
        unfold Cfg.loopSaving
        rw [hb'']
        dsimp only
        rw [if_neg (by norm_num), hbi]
        rfl
      rw [this] at hf
      exact List.not_mem_nil hf
  have hD : (realCfg.callsSaving k 2 (cut 1 [(5, {})]) realSim' []).2 = [] := List.eq_nil_iff_forall_not_mem.2 hnil
  rw [hD] at hcr
  refine ⟨_, partialFile (realCfg.file k v) none st, hcr, rfl, by cases st <;> rfl, by cases st <;> exact hvi, ?_⟩
  exact C99_torn realCfg Nat.one_pos rfl k hc he 2 (by norm_num) [(5, {})] realSim' real_fresh (List.cons_ne_nil _ _) realSim' [(5, {})] []
    _ .start hcr _ (by cases st <;> rfl) none (Or.inl ⟨rfl, rfl⟩) realSim' (setup_self real_fresh.toPrepared)

/-- No particles, and a uniform longitudinal electric field. -/
noncomputable def flatSim : Sim :=
  { waveSim with
    interp := fun _ => ⟨⟨0, 0, fun iz ir => if iz < 2 ∧ ir < 2 then 1 else 0⟩, ⟨0, 0, 0⟩, ⟨0, 0, 0⟩, 0⟩ }

private theorem flat_fft (iz ir : ℕ) (hz : iz < 2) (hr : ir < 2) :
    fftAxis0 2 false (flatSim.interp 0).E.z iz ir = if iz = 0 then 2 else 0 := by
  have h2 : ∀ f : ZMod 2 → ℂ, ∑ j : ZMod 2, f j = f 0 + f 1 := fun f => Fin.sum_univ_two f
  have v0 : (0 : ZMod 2).val = 0 := rfl
  have v1 : (1 : ZMod 2).val = 1 := rfl
  have e0 : (flatSim.interp 0).E.z 0 ir = 1 := if_pos ⟨by norm_num, hr⟩
  have e1 : (flatSim.interp 0).E.z 1 ir = 1 := if_pos ⟨by norm_num, hr⟩
  unfold fftAxis0
  rw [if_neg (by simp)]
  unfold fftZ
  rw [h2]
  dsimp only
  rw [v0, v1, e0, e1]
  interval_cases iz
  · simp
    norm_num
  · have : ((1 : ℕ) : ZMod 2).val = 1 := rfl
    rw [this]
    have e : Complex.exp (-2 * Real.pi * Complex.I * ((1 * 1 : ℕ) : ℂ) / (2 : ℕ)) = -1 := by
      rw [← Complex.exp_neg_pi_mul_I]
      congr 1
      push_cast
      ring
    rw [e]
    norm_num

private theorem flat_em (iz ir : ℕ) (hz : iz < 2) (hr : ir < 2) : (Spec.emAt waveCfg flatSim 0 iz ir).E =
    ⟨0, 0, if iz = 0 then 2 else 0⟩ ∧ (Spec.emAt waveCfg flatSim 0 iz ir).B = ⟨0, 0, 0⟩ := by
  have h0 : 0 < waveCfg.Nm := Nat.one_pos
  unfold Spec.emAt
  rw [start_cell _ _ h0]
  refine ⟨Spec.V3.ext ?_ ?_ ?_, Spec.V3.ext ?_ ?_ (toSpectScal_nil waveCfg _ hz hr)⟩
  · exact (toSpectVect_nil waveCfg _ _ hz hr).1
  · exact (toSpectVect_nil waveCfg _ _ hz hr).2
  · show waveCfg.toSpectScal 0 (flatSim.interp 0).E.z _ iz ir = _
    rw [toSpectScal_eq]
    unfold fwd
    rw [if_pos (show iz < waveCfg.Nz ∧ ir < waveCfg.Nr from ⟨hz, hr⟩)]
    show ∑ l ∈ Finset.range 2, fftAxis0 2 false (flatSim.interp 0).E.z iz l * (((if l = ir then (1 : ℝ) else 0) : ℝ) : ℂ) = _
    rw [Finset.sum_range_succ, Finset.sum_range_one, flat_fft iz 0 hz (by norm_num), flat_fft iz 1 hz (by norm_num)]
    interval_cases ir <;> simp
  · exact (toSpectVect_nil waveCfg _ _ hz hr).1
  · exact (toSpectVect_nil waveCfg _ _ hz hr).2

private theorem flat_ready : Prepared waveCfg flatSim where
  modes := Nat.one_pos
  trans := wave_ok.trans
  Nz := fun _ _ => rfl
  Nr := fun _ _ => rfl
  kr := fun m hm h _ => wave_ok.kr m hm h
  time := by show (0 : ℝ) = (0 : ℕ) * (1 / Real.sqrt (Real.pi ^ 2 + 1)); simp
  box := by show (2 : ℝ) = 0 + (2 : ℕ) * (1 / 1); norm_num
  mass := fun _ h => absurd h List.not_mem_nil
  momenta := fun _ h => absurd h List.not_mem_nil
  levels := fun _ h => absurd h List.not_mem_nil

private theorem flat_fresh : Fresh waveCfg flatSim where
  toPrepared := flat_ready
  solver := by
    have hM : ∀ i j, waveMats.Mm i j = -waveMats.Mp i j := by
      intro i j
      show (if i = j then (-1 : ℝ) else 0) = -(if i = j then 1 else 0)
      split_ifs <;> simp
    have hk : kzTrue 2 1 1 = -Real.pi := by
      have := (kzTrue_nyquist (Nz := 2) (by norm_num) 1 one_pos (iz := 1) rfl).1
      rw [this, div_one]
    refine ⟨Nat.one_pos, rfl, rfl, fun i _ j _ => hM i j, fun i _ j _ => hM i j, ?_, fun iz hz => ?_⟩
    · intro fz fr h iz hz
      obtain ⟨rfl, -⟩ := Prod.mk.inj (Option.some.inj h)
      have hz : iz < 2 := hz
      interval_cases iz <;> rfl
    · have hz : iz < 2 := hz
      interval_cases iz
      · left
        show kzTrue 2 1 0 = -kzTrue 2 1 0
        have : fftfreq 2 1 0 = 0 := by simp [fftfreq]
        simp [kzTrue, this]
      · right
        refine ⟨⟨_, _, rfl, ?_⟩, ⟨?_, ?_, ?_⟩, ⟨?_, ?_, ?_⟩⟩
        · show filterFactor 1 false (kzTrue 2 1 1) 1 = 0
          rw [hk]
          have : Real.sin (0.5 * Real.pi) = 1 := by
            rw [show (0.5 : ℝ) * Real.pi = Real.pi / 2 by ring, Real.sin_pi_div_two]
          simp [filterFactor, this]
        all_goals
          intro ir hr
          first
          | exact congrFun (congrFun (fft_nil waveCfg.Nz) 1) ir
          | exact flat_fft 1 ir (by norm_num) hr
  blank := fun _ _ => rfl
  real := by
    refine ⟨⟨fun _ _ _ _ => rfl, fun _ _ _ _ => rfl, fun iz _ ir _ => ?_⟩, ⟨fun _ _ _ _ => rfl, fun _ _ _ _ => rfl, fun _ _ _ _ => rfl⟩,
      ⟨fun _ _ _ _ => rfl, fun _ _ _ _ => rfl, fun _ _ _ _ => rfl⟩, fun _ _ _ _ => rfl⟩
    show ((if iz < 2 ∧ ir < 2 then (1 : ℂ) else 0)).im = 0
    split_ifs <;> simp

/-- **C99 does not hold for a simulation without particles**: if it ends while a checkpoint is written, the restart from
the last checkpoint succeeds, and the fields are not those of the uninterrupted run. -/
theorem C99_violated_vacuum : ∃ (c : Cfg) (_ : NeZero c.Nz) (s : Sim), Spec.Reasonable c [(1, {})] s ∧ Fresh c s ∧ s.species = [] ∧
    c.nthreads = 1 ∧ c.exchangePeriod = 1 ∧ ∀ k : Checkpoint.Consts, k.c ≠ 0 → k.e ≠ 0 → ∃ D a u, Crash c k 1 s [(1, {})] [] D ∧
      c.restartFrom k D none s = .ok a ∧ a.iteration = 1 ∧ c.calls [(1, {})] s = .ok u ∧ u.iteration = 1 ∧ ¬ SameStored c u a := by
  have hR : Spec.Reasonable waveCfg [(1, {})] flatSim := by
    have := wave_runs [(1, {})]
    exact ⟨this.light, this.dt, this.invdz, this.invdr, this.Nz, this.Nr, this.threads, this.period, this.fuel, this.beta,
      this.opts, this.box, this.plane, this.speed, this.mom, this.near⟩
  refine ⟨waveCfg, inferInstance, flatSim, hR, flat_fresh, rfl, rfl, rfl, fun k hc he => ?_⟩
  obtain ⟨u, hu, -⟩ := C87_total_partial waveCfg [(1, {})] flatSim hR
  have hui : u.iteration = 1 := calls_iteration Nat.one_pos hu
  obtain ⟨D, a, hD, ha, hai, -, hz⟩ := C99_blank (c := waveCfg) (period := 1) Nat.one_pos hc he one_pos [(1, {})] flatSim flat_ready rfl 0
    (show (0 : ℕ) < 1 from one_pos) u (by simpa [cut] using hu) (by rw [hui]) flatSim (setup_self flat_ready)
  refine ⟨D, a, u, hD, ha, hai.trans hui, hu, hui, fun hsame => ?_⟩
  have hout := (kept_calls (c := waveCfg) Nat.one_pos hu).out 0 Nat.one_pos
  have hzero : ∀ (x : Buf) (y : Buf), (∀ iz < 2, ∀ ir < 2, x iz ir = 0) → (∀ iz ir, ¬ (iz < 2 ∧ ir < 2) → x iz ir = y iz ir) →
      (∀ iz ir, ¬ (iz < 2 ∧ ir < 2) → y iz ir = 0) → x = 0 := by
    intro x y h1 h2 h3
    funext iz ir
    by_cases h : iz < 2 ∧ ir < 2
    · exact h1 iz h.1 ir h.2
    · rw [h2 iz ir h, h3 iz ir h]; rfl
  have hE := hsame.E 0 Nat.one_pos
  have hB := hsame.B 0 Nat.one_pos
  have hz0 := hz 0 Nat.one_pos
  have e1 := hzero (u.interp 0).E.r (flatSim.interp 0).E.r (fun iz h ir h' => by rw [← hE]; exact (hz0 iz h ir h').1)
    (fun iz ir h => (hout iz ir h).1) (fun _ _ _ => rfl)
  have e2 := hzero (u.interp 0).E.t (flatSim.interp 0).E.t (fun iz h ir h' => by rw [← hE]; exact (hz0 iz h ir h').2.1)
    (fun iz ir h => (hout iz ir h).2.1) (fun _ _ _ => rfl)
  have e3 := hzero (u.interp 0).E.z (flatSim.interp 0).E.z (fun iz h ir h' => by rw [← hE]; exact (hz0 iz h ir h').2.2.1)
    (fun iz ir h => (hout iz ir h).2.2.1) (fun iz ir h => if_neg h)
  have e4 := hzero (u.interp 0).B.r (flatSim.interp 0).B.r (fun iz h ir h' => by rw [← hB]; exact (hz0 iz h ir h').2.2.2.1)
    (fun iz ir h => (hout iz ir h).2.2.2.1) (fun _ _ _ => rfl)
  have e5 := hzero (u.interp 0).B.t (flatSim.interp 0).B.t (fun iz h ir h' => by rw [← hB]; exact (hz0 iz h ir h').2.2.2.2.1)
    (fun iz ir h => (hout iz ir h).2.2.2.2.1) (fun _ _ _ => rfl)
  have e6 := hzero (u.interp 0).B.z (flatSim.interp 0).B.z (fun iz h ir h' => by rw [← hB]; exact (hz0 iz h ir h').2.2.2.2.2)
    (fun iz ir h => (hout iz ir h).2.2.2.2.2) (fun _ _ _ => rfl)
  have hem : (Spec.emAt waveCfg u 0 0 0).E = ⟨0, 0, 0⟩ ∧ (Spec.emAt waveCfg u 0 0 0).B = ⟨0, 0, 0⟩ := by
    have hz : 0 < waveCfg.Nz := show 0 < 2 by norm_num
    have hr : 0 < waveCfg.Nr := show 0 < 2 by norm_num
    unfold Spec.emAt
    rw [start_cell _ _ (Nat.one_pos : 0 < waveCfg.Nm)]
    rw [e1, e2, e3, e4, e5, e6]
    exact ⟨Spec.V3.ext (toSpectVect_nil waveCfg _ _ hz hr).1 (toSpectVect_nil waveCfg _ _ hz hr).2 (toSpectScal_nil waveCfg _ hz hr),
      Spec.V3.ext (toSpectVect_nil waveCfg _ _ hz hr).1 (toSpectVect_nil waveCfg _ _ hz hr).2 (toSpectScal_nil waveCfg _ hz hr)⟩
  have htr : Spec.Transverse waveCfg flatSim := by
    intro m hm iz ir hz hr
    have hm0 : m = 0 := by have : m < 1 := hm; omega
    subst hm0
    have hsh := start_shape waveCfg flatSim hm
    have hz' : iz < 2 := by rw [hsh.1] at hz; exact hz
    have hr' : ir < 2 := by rw [hsh.2.1] at hr; exact hr
    obtain ⟨h1, h2⟩ := flat_em iz ir hz' hr'
    unfold Spec.emAt at h1 h2
    rw [h1, h2, hsh.2.2.1]
    interval_cases iz
    · have : (flatSim.spect 0).kz 0 = 0 := by
        show kzTrue 2 1 0 = 0
        have : fftfreq 2 1 0 = 0 := by simp [fftfreq]
        simp [kzTrue, this]
      rw [this]
      simp [Spec.div]
    · simp [Spec.div]
  have hen := (C98_energy waveCfg Nat.one_pos [(1, {})] flatSim u
    ⟨wave_ok.consts, fun _ _ => rfl, fun _ _ => rfl, wave_ok.trans, wave_ok.kr⟩
    ⟨fun _ h => absurd h List.not_mem_nil, fun m _ iz _ ir _ => ⟨rfl, fun n => by cases n <;> rfl⟩⟩ htr hu 0 Nat.one_pos 0
    (show 0 < 2 by norm_num) 0 (show 0 < 2 by norm_num)).1
  obtain ⟨f1, f2⟩ := flat_em 0 0 (by norm_num) (by norm_num)
  unfold Spec.energy at hen
  rw [hem.1, hem.2, f1, f2] at hen
  norm_num [Spec.normSq] at hen

/-- **C99 does not hold if mode 0 is not real** (see `C97_violated`): a restart from a complete checkpoint then gives fields that
are not those of the uninterrupted run. -/
theorem C99_violated_complex : ∃ (c : Cfg) (_ : NeZero c.Nz) (s : Sim), Spec.Reasonable c [(1, {})] s ∧ Prepared c s ∧
    Spec.BlankSpect s ∧ Spec.Mode0Real c s ∧ c.nthreads = 1 ∧ c.exchangePeriod = 1 ∧
    ∀ k : Checkpoint.Consts, k.c ≠ 0 → k.e ≠ 0 → ∃ a u, c.restartFrom k (c.callsSaving k 1 [(1, {})] s []).2 none s = .ok a ∧
      a.iteration = 1 ∧ c.calls [(1, {})] s = .ok u ∧ u.iteration = 1 ∧ ¬ SameStored c u a := by
  have hs : Prepared waveCfg waveSim := { flat_ready with }
  refine ⟨waveCfg, inferInstance, waveSim, wave_runs _, hs, fun _ _ => rfl, wave_real, rfl, rfl, fun k hc he => ?_⟩
  obtain ⟨u, hu, hB⟩ := wave_complex
  have hui : u.iteration = 1 := calls_iteration Nat.one_pos hu
  have hcut : cut 1 [(1, ({} : Opts))] = [(1, {})] := by simp [cut]
  obtain ⟨a, ha, hai, hre⟩ := C99_real_part (c := waveCfg) (period := 1) Nat.one_pos hc he one_pos [(1, {})] waveSim hs 1 le_rfl
    (show (1 : ℕ) ≤ 1 from le_rfl) u (by rw [hcut]; exact hu) (by rw [hui]) waveSim (setup_self hs)
  rw [hcut] at ha
  refine ⟨a, u, ha, hai.trans hui, hu, hui, fun hsame => hB ?_⟩
  rw [← hsame.B 0 Nat.one_pos]
  refine ⟨fun iz hz ir hr => ?_, fun iz hz ir hr => ?_, fun iz hz ir hr => ?_⟩
  · rw [(hre iz hz ir hr).2.2.2.1]; exact Complex.ofReal_im _
  · rw [(hre iz hz ir hr).2.2.2.2.1]; exact Complex.ofReal_im _
  · rw [(hre iz hz ir hr).2.2.2.2.2]; exact Complex.ofReal_im _

end Fbpic.Pic
