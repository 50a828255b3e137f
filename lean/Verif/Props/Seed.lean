import Verif.Lemmas.Seed
import Verif.Props.PicIonize
import Verif.Props.PicCompton

/-!
# C117: seeded runs can be repeated
-/

namespace Fbpic.Seed

open Pic Transform ExternalField Step
open Spec (IonizersOk netCharge macroCount levelCount LevelsGrow)
open Spec.Seed (Seedable SameButMemory rings evenly nthDraw)

variable {G C : Type}

/-- **C117 (partial: without Compton scattering on CPU).** After `set_random_seed`, an input script leads to the same
simulation, the same files and the same exceptions on each process, whatever random numbers were drawn before
(`g`, `g'`): loading of particles, Gaussian bunches, ionization, subsampled diagnostics, steps, and on GPU also Compton
scattering, in any order and number. -/
theorem C117_seed_partial (c : Cfg) [NeZero c.Nz] (lib : Lib G C) (cupy : Bool) (rank seed : ℕ) (M : Machine)
    (P : Processes) (h : Seedable cupy M P) (L : List Command) (w : Session) (g g' : Gens G C) :
    seededRun c lib cupy rank seed M P L w g' = seededRun c lib cupy rank seed M P L w g :=
  run_alike lib (seeds_script c h lib.xoro L w) (alike_seed lib cupy rank seed g g')

/-- A library of generators (a counter), for the examples. -/
noncomputable def counter : Lib ℕ ℕ where
  npSeed := id
  npUniform := fun g => ((g % 10 : ℕ) / 10, g + 1)
  npNormal := fun g => ((g % 10 : ℕ), g + 1)
  npBelow := fun g => (⟨g % 256, Nat.mod_lt _ (by norm_num)⟩, g + 1)
  cpSeed := id
  cpUniform := fun g => ((g % 10 : ℕ) / 10, g + 1)
  xoro := fun s b k => ((s + b + k) % 10 : ℕ) / 10

/-- A CPU, or a GPU. -/
noncomputable def anyMachine (gpu : Bool) : Machine :=
  ⟨gpu, fun _ _ => ⟨fun _ _ => 0, fun _ => 0, fun _ _ => (noPtcl.attr, 0)⟩, fun _ _ _ _ => 0,
    fun _ _ _ => (fun _ _ => ⟨0, 0⟩, fun _ => 0)⟩

/-- The hypothesis of `C117_seed_partial` can be met: ions on CPU, ions and scattering electrons on GPU; and the numbers
do depend on the state of the generators, so that without the seed the results differ. -/
example : Seedable false (anyMachine false) ⟨atomIonizers, fun _ => none⟩ ∧
    Seedable true (anyMachine true) ⟨atomIonizers, pulse (1 / 2)⟩ ∧
    ((Ask.uniform 1 fun d => .done (.ok d)).run counter ⟨0, 0, fun _ _ _ => 0⟩).1
      ≠ ((Ask.uniform 1 fun d => .done (.ok d)).run counter ⟨1, 0, fun _ _ _ => 0⟩).1 := by
  refine ⟨⟨fun _ _ => rfl, fun h => nomatch h⟩, ⟨fun h => (nomatch h), fun _ => rfl⟩, fun h => ?_⟩
  have := List.head_eq_of_cons_eq (Except.ok.inj h)
  norm_num [counter] at this

/-- **C117 (ionization).** The runs with ionization of C100 are repeated exactly, also if the uninitialised memory
that the two processes get has other contents. -/
theorem C117_ionization (c : Cfg) [NeZero c.Nz] (hn : 0 < c.nthreads) (lib : Lib G C) (cupy : Bool) (rank seed : ℕ)
    (M M' : Machine) (hM : SameButMemory M M') (hg : M.gpu = true → cupy = true) (ionizers : ℕ → Option Ionizer)
    (L : List (ℕ × Opts)) (s : Sim) (hi : IonizersOk c ionizers s.species) (g g' : Gens G C) :
    ((callsAsk c (processAsk lib.xoro M' ionizers (fun _ => none) c.k.c c.dt) L s).run lib
        (setRandomSeed lib cupy rank seed g')).1
      = ((callsAsk c (processAsk lib.xoro M ionizers (fun _ => none) c.k.c c.dt) L s).run lib
        (setRandomSeed lib cupy rank seed g)).1 := by
  have hgpu : M'.gpu = M.gpu := by rw [hM]
  have part : ∀ (t : ℝ) (it : ℕ) (sps : List Pic.Species) (id : ℕ), IonizersOk c ionizers sps →
      elementaryAsk lib.xoro M' ionizers (fun _ => none) c.k.c c.dt t it sps id
        = elementaryAsk lib.xoro M ionizers (fun _ => none) c.k.c c.dt t it sps id ∧
      (elementaryAsk lib.xoro M ionizers (fun _ => none) c.k.c c.dt t it sps id).Ends (IonizersOk c ionizers) := by
    intro t it sps id hok
    have e : ∀ M : Machine, comptonPart lib.xoro M (fun _ => none) c.k.c c.dt t it id = fun sps => Pure.pure sps := fun _ => rfl
    unfold elementaryAsk
    rw [e, e]
    unfold ionizePart
    cases hI : ionizers id with
    | none => exact ⟨rfl, hok⟩
    | some I =>
      have hk : ∀ d : List ℝ, (Ask.done (I.handle c.k.c (fun i => d.getD i 0) (M'.junkI it id) id sps) : Ask (List Pic.Species))
          = .done (I.handle c.k.c (fun i => d.getD i 0) (M.junkI it id) id sps) :=
        fun d => congrArg Ask.done (handle_memory c hok hI _ _ _ _)
      have hend : ∀ d : List ℝ, (Ask.done (I.handle c.k.c (fun i => d.getD i 0) (M.junkI it id) id sps)).Ends
          (IonizersOk c ionizers) := by
        intro d
        obtain ⟨sps', h1, h2⟩ := handle_rel hok hI c.k.c (fun i => d.getD i 0) (M.junkI it id)
        rw [h1]
        exact h2.ok hok
      show (ionizeAsk M' I c.k.c it id sps >>= _) = (ionizeAsk M I c.k.c it id sps >>= _) ∧
        (ionizeAsk M I c.k.c it id sps >>= _).Ends _
      have e1 : ionizeAsk M' I c.k.c it id sps = ionizeAsk M I c.k.c it id sps := by
        unfold ionizeAsk
        simp only [hk, hgpu]
      rw [e1]
      refine ⟨rfl, ends_bind (Q := IonizersOk c ionizers) ?_ fun a ha => ha⟩
      unfold ionizeAsk
      simp only
      by_cases h : M.gpu = true
      · rw [if_pos h]; exact hend
      · rw [if_neg h]; exact hend
  have proc : ∀ s : Sim, IonizersOk c ionizers s.species →
      processAsk lib.xoro M' ionizers (fun _ => none) c.k.c c.dt s = processAsk lib.xoro M ionizers (fun _ => none) c.k.c c.dt s ∧
      (processAsk lib.xoro M ionizers (fun _ => none) c.k.c c.dt s).Ends fun t => IonizersOk c ionizers t.species := by
    intro s hs
    obtain ⟨h1, h2⟩ := foldlM_agree (f := elementaryAsk lib.xoro M ionizers (fun _ => none) c.k.c c.dt (s.time + 0.5 * c.dt) s.iteration)
      (f' := elementaryAsk lib.xoro M' ionizers (fun _ => none) c.k.c c.dt (s.time + 0.5 * c.dt) s.iteration)
      (fun a i ha => (part _ _ a i ha).1) (fun a i ha => (part _ _ a i ha).2) (List.range s.species.length) s.species hs
    unfold processAsk
    rw [h1]
    exact ⟨rfl, ends_bind h2 fun a ha => ha⟩
  rw [calls_agree c hn (Q := IonizersOk c ionizers) (fun s hs => (proc s hs).1) (fun a b h => ionizersOk_moved h)
    (fun s hs => (proc s hs).2) L s hi]
  exact run_alike lib (seeds_calls c (seeds_process (P := ⟨ionizers, fun _ => none⟩) ⟨fun _ _ => rfl, hg⟩ lib.xoro _ _) L s)
    (alike_seed lib cupy rank seed g g')

/-- **C117 (all results of C100 hold for the random numbers of the generators).** A run with ionization, with any state
of the generators, is a run of C100 for some random numbers. -/
theorem C117_ionize (c : Cfg) [NeZero c.Nz] (lib : Lib G C) (M : Machine) (ionizers : ℕ → Option Ionizer)
    (L : List (ℕ × Opts)) (s : Sim) (g : Gens G C) : ∃ draw,
    ((callsAsk c (processAsk lib.xoro M ionizers (fun _ => none) c.k.c c.dt) L s).run lib g).1
      = c.callsIonize ionizers ⟨draw, M.junkI⟩ L s := by
  obtain ⟨ch, h⟩ := calls_covered c (covers_ionize lib lib.xoro M ionizers c.k.c c.dt) (fun _ _ => 0) L s g
  exact ⟨ch, h ch fun _ _ => rfl⟩

/-- **C117 (all results of C105 hold for the random numbers of the generators).** The same for Compton scattering, on
CPU and on GPU. -/
theorem C117_compton (c : Cfg) [NeZero c.Nz] (lib : Lib G C) (M : Machine) (scat : ℕ → Option Scatterer)
    (L : List (ℕ × Opts)) (s : Sim) (g : Gens G C) : ∃ draws,
    ((callsAsk c (processAsk lib.xoro M (fun _ => none) scat c.k.c c.dt) L s).run lib g).1
      = c.callsCompton scat ⟨draws, M.junkC⟩ L s := by
  obtain ⟨ch, h⟩ := calls_covered c (covers_compton lib lib.xoro M scat c.k.c c.dt)
    (fun _ => ⟨fun _ => 0, fun _ _ => ⟨0, 0⟩, fun _ => 0⟩) L s g
  exact ⟨ch, h ch fun _ _ => rfl⟩

/-- The hypotheses of `C117_ionization` can be met by a run that ends without exception (by `C117_ionize` and `C100_run`),
and conserves the charge. -/
example (L : List (ℕ × Opts)) (g g' : Gens ℕ ℕ) (J : ℕ → ℕ → Junk ℝ IonAttr) : ∃ t,
    ((callsAsk (gaussCfg .curlFree) (processAsk counter.xoro (anyMachine false) atomIonizers (fun _ => none)
        (gaussCfg .curlFree).k.c (gaussCfg .curlFree).dt) L (atomSim false)).run counter
          (setRandomSeed counter false 0 3 g)).1 = .ok t ∧
    ((callsAsk (gaussCfg .curlFree) (processAsk counter.xoro { anyMachine false with junkI := J } atomIonizers (fun _ => none)
        (gaussCfg .curlFree).k.c (gaussCfg .curlFree).dt) L (atomSim false)).run counter
          (setRandomSeed counter false 0 3 g')).1 = .ok t ∧ netCharge t = netCharge (atomSim false) := by
  have hi := atom_ionizers .curlFree
  obtain ⟨draw, h⟩ := C117_ionize (gaussCfg .curlFree) counter (anyMachine false) atomIonizers L (atomSim false)
    (setRandomSeed counter false 0 3 g)
  obtain ⟨t, h1, -, -, h2, -⟩ := C100_run (gaussCfg .curlFree) atomIonizers ⟨draw, (anyMachine false).junkI⟩ L (atomSim false)
    (atom_reasonable .curlFree false L fun _ _ _ => rfl) hi
  refine ⟨t, h.trans h1, ?_, h2⟩
  rw [C117_ionization (gaussCfg .curlFree) (by norm_num [gaussCfg, cubicCfg]) counter false 0 3 (anyMachine false)
    { anyMachine false with junkI := J } rfl (fun h => by cases h) atomIonizers L _ hi g g']
  exact h.trans h1

private theorem mesh_rings (a : Load) (d : ℝ → ℝ → ℝ) (hd : ∀ x y z, a.dens x y z = d (x ^ 2 + y ^ 2) z) (rand : List ℝ) :
    (a.mesh rand).map (fun p => (p.1 ^ 2 + p.2.1 ^ 2, p.2.2.1, p.2.2.2)) = rings a d := by
  have cs : ∀ r t : ℝ, (r * Real.cos t) ^ 2 + (r * Real.sin t) ^ 2 = r ^ 2 := fun r t => by
    linear_combination r ^ 2 * Real.cos_sq_add_sin_sq t
  unfold Load.mesh rings
  simp only
  rw [show ∀ l : List (ℝ × ℝ × ℝ × ℝ), (l.filter fun p => 0 < p.2.2.2).map (fun p => (p.1 ^ 2 + p.2.1 ^ 2, p.2.2.1, p.2.2.2))
      = (l.map fun p => (p.1 ^ 2 + p.2.1 ^ 2, p.2.2.1, p.2.2.2)).filter fun p => 0 < p.2.2 from fun l => by
        rw [List.filter_map]; rfl]
  congr 1
  simp only [List.map_flatMap, List.map_map]
  congr 1
  funext i
  congr 1
  funext j
  refine List.eq_replicate_iff.2 ⟨by rw [List.length_map, List.length_range], fun b hb => ?_⟩
  obtain ⟨k, -, rfl⟩ := List.mem_map.1 hb
  simp only [Function.comp, hd, cs]
  have h2 : ∀ (x y : ℝ) (n : ℕ), x + y * (n + 0.5) = x + (n + 1 / 2) * y := fun x y n => by norm_num; ring
  rw [h2, h2]
  refine Prod.ext rfl (Prod.ext rfl ?_)
  simp only
  ring

/-- **C117 (loading).** Whatever the state of the generators, the macroparticles that are loaded are evenly spaced: only
the angle of the first one of each ring is random. -/
theorem C117_spread (lib : Lib G C) (a : Load) (g : Gens G C) : ∃ (theta : ℕ → ℕ → ℝ) (l : List Ptcl),
    (a.ask.run lib g).1 = .ok l ∧ l.map (fun p => (p.push.x, p.push.y, p.push.z, p.w)) = evenly a theta := by
  have e : ∀ rand : List ℝ, a.mesh rand = evenly a fun i j => 2 * Real.pi * rand.getD (i * a.Npr + j) 0 := by
    intro rand
    unfold Load.mesh evenly
    simp only
    congr 1
    congr 1
    funext i
    congr 1
    funext j
    congr 1
    funext k
    have h2 : ∀ (x y : ℝ) (n : ℕ), x + y * (n + 0.5) = x + (n + 1 / 2) * y := fun x y n => by norm_num; ring
    have h3 : 2 * Real.pi / (a.Nptheta : ℝ) * k + 2 * Real.pi * rand.getD (i * a.Npr + j) 0
        = 2 * Real.pi * rand.getD (i * a.Npr + j) 0 + 2 * Real.pi * k / a.Nptheta := by ring
    rw [h2, h2, h3]
    refine Prod.ext rfl (Prod.ext rfl (Prod.ext rfl ?_))
    simp only
    ring
  unfold Load.ask
  by_cases h : a.Npz * a.Npr * a.Nptheta = 0
  · rw [if_pos h]
    refine ⟨fun i j => 2 * Real.pi * ([] : List ℝ).getD (i * a.Npr + j) 0, [], rfl, ?_⟩
    rw [← e []]
    unfold Load.mesh
    rcases Nat.mul_eq_zero.1 h with h | h
    · rcases Nat.mul_eq_zero.1 h with h | h <;> simp [h]
    · simp [h]
  · rw [if_neg h]
    refine ⟨fun i j => 2 * Real.pi * (takeN lib.npUniform (a.Npz * a.Npr) g.np).1.getD (i * a.Npr + j) 0, _, rfl, ?_⟩
    rw [← e (takeN lib.npUniform (a.Npz * a.Npr) g.np).1]
    exact List.ext_getElem (by simp) fun i h1 h2 => by simp

/-- **C117 (the random numbers do not matter for the density).** Whatever the state of the generators: if the density
depends on r and z only, the radii, positions along z and weights of the macroparticles that are loaded do not depend
on the random angles and momenta; and without temperature neither do the momenta. -/
theorem C117_load (lib : Lib G C) (a : Load) (d : ℝ → ℝ → ℝ) (hd : ∀ x y z, a.dens x y z = d (x ^ 2 + y ^ 2) z)
    (g : Gens G C) : ∃ l : List Ptcl, (a.ask.run lib g).1 = .ok l ∧
      l.map (fun p => (p.push.x ^ 2 + p.push.y ^ 2, p.push.z, p.w)) = rings a d ∧
      ∀ p ∈ l, (a.uxTh = 0 → p.push.mom.ux = a.uxM) ∧ (a.uyTh = 0 → p.push.mom.uy = a.uyM) ∧
        (a.uzTh = 0 → p.push.mom.uz = a.uzM) ∧
        p.push.mom.invGamma ^ 2 * (1 + p.push.mom.ux ^ 2 + p.push.mom.uy ^ 2 + p.push.mom.uz ^ 2) = 1 := by
  unfold Load.ask
  by_cases h : a.Npz * a.Npr * a.Nptheta = 0
  · rw [if_pos h]
    refine ⟨[], rfl, ?_, fun p hp => by simp at hp⟩
    rw [← mesh_rings a d hd []]
    unfold Load.mesh
    rcases Nat.mul_eq_zero.1 h with h | h
    · rcases Nat.mul_eq_zero.1 h with h | h <;> simp [h]
    · simp [h]
  · rw [if_neg h]
    refine ⟨_, rfl, ?_, ?_⟩
    · rw [← mesh_rings a d hd (takeN lib.npUniform (a.Npz * a.Npr) g.np).1]
      exact List.ext_getElem (by simp) fun i h1 h2 => by simp
    · intro p hp
      obtain ⟨i, hi, rfl⟩ := List.mem_mapIdx.1 hp
      refine ⟨fun h => by simp [h], fun h => by simp [h], fun h => by simp [h], ?_⟩
      simp only
      rw [div_pow, one_pow, Real.sq_sqrt (by positivity)]
      exact one_div_mul_cancel (by positivity)

/-- A plasma with a hole on the axis; half of the four rings are left. -/
example (lib : Lib G C) (g : Gens G C) : ∃ l : List Ptcl,
    ((Load.mk 2 2 3 0 2 0 2 (fun x y _ => if x ^ 2 + y ^ 2 < 1 then 0 else 5) 0 0 1 0 0 0).ask.run lib g).1 = .ok l ∧ l.length = 6 := by
  obtain ⟨l, h1, h2, -⟩ := C117_load lib (Load.mk 2 2 3 0 2 0 2 (fun x y _ => if x ^ 2 + y ^ 2 < 1 then 0 else 5) 0 0 1 0 0 0)
    (fun r _ => if r < 1 then 0 else 5) (fun _ _ _ => rfl) g
  refine ⟨l, h1, ?_⟩
  have := congrArg List.length h2
  rw [List.length_map] at this
  rw [this]
  have hp := Real.pi_pos
  norm_num [rings, List.range_succ, hp, List.replicate]

private theorem takeN_get {S : Type} (next : S → ℝ × S) (n : ℕ) : ∀ (g : S) (i : ℕ), i < n →
    (takeN next n g).1.getD i 0 = nthDraw next i g := by
  induction n with
  | zero => intro g i h; omega
  | succ n ih =>
    intro g i h
    cases i with
    | zero => rfl
    | succ i => exact ih _ i (by omega)

private theorem takeN_state {S : Type} (next : S → ℝ × S) (n : ℕ) : ∀ (g : S) (i : ℕ),
    nthDraw next i (takeN next n g).2 = nthDraw next (n + i) g := by
  induction n with
  | zero => intro g i; rw [Nat.zero_add]; rfl
  | succ n ih =>
    intro g i
    rw [show n + 1 + i = n + i + 1 by omega]
    exact ih _ i

/-- **C117 (bunches).** Whatever the state of the generators, a Gaussian bunch is one of the bunches of C62 and C83
(`Bunch.gaussian` for some normal random numbers), or the same exception. Each macroparticle that is drawn (a quarter of
them if the bunch is symmetrized) has its own numbers: no number is used twice. -/
theorem C117_bunch (lib : Lib G C) (cl : ℝ) (a : Bunch.GaussArgs) (n m : ℕ) (hn : n = if a.symmetrize then a.N / 4 else a.N)
    (hm : m = if 0 < a.sigGamma then n else 0) (g : Gens G C) :
    ∃ draw, ((bunchAsk cl a).run lib g).1 = Bunch.gaussian cl a draw ∧
      ∀ i < n, (0 < a.sigGamma → (draw i).g = nthDraw lib.npNormal i g.np) ∧
        (draw i).x = nthDraw lib.npNormal (m + i) g.np ∧
        (draw i).y = nthDraw lib.npNormal (m + n + i) g.np ∧
        (draw i).z = nthDraw lib.npNormal (m + 2 * n + i) g.np ∧
        (draw i).ux = nthDraw lib.npNormal (m + 3 * n + i) g.np ∧
        (draw i).uy = nthDraw lib.npNormal (m + 4 * n + i) g.np := by
  unfold bunchAsk
  by_cases h : a.symmetrize = true ∧ a.N % 4 ≠ 0
  · simp only [if_pos h]
    refine ⟨fun i => ⟨nthDraw lib.npNormal i g.np, nthDraw lib.npNormal (m + i) g.np, nthDraw lib.npNormal (m + n + i) g.np,
      nthDraw lib.npNormal (m + 2 * n + i) g.np, nthDraw lib.npNormal (m + 3 * n + i) g.np,
      nthDraw lib.npNormal (m + 4 * n + i) g.np⟩, ?_, fun i _ => ⟨fun _ => rfl, rfl, rfl, rfl, rfl, rfl⟩⟩
    unfold Bunch.gaussian
    rw [if_pos h]
    rfl
  · simp only [if_neg h]
    rw [← hn, ← hm]
    refine ⟨_, rfl, fun i hi => ⟨fun hg => ?_, ?_, ?_, ?_, ?_, ?_⟩⟩
    · rw [if_pos hg] at hm
      exact takeN_get _ _ _ _ (by omega)
    all_goals
      refine (takeN_get _ _ _ _ hi).trans ?_
      simp only [takeN_state]
      try (congr 1; omega)

private theorem takeN_length {S : Type} (next : S → ℝ × S) (n : ℕ) : ∀ g, (takeN next n g).1.length = n := by
  induction n with
  | zero => intro g; rfl
  | succ n ih => intro g; exact congrArg (· + 1) (ih _)

/-- **C117 (subsampling).** A subsampled output draws one number per macroparticle and decides about each of them;
the simulation stays as it is. -/
theorem C117_sample (c : Cfg) [NeZero c.Nz] (lib : Lib G C) (M : Machine) (P : Processes) (w : Session) (fraction : ℝ)
    (id : ℕ) (sp : Pic.Species) (hsp : w.sim.species[id]? = some sp) (g : Gens G C) : ∃ sel : List Bool,
    (((Command.sample fraction id).ask c lib.xoro M P w).run lib g).1 = .ok { w with out := w.out ++ [sel] } ∧
      sel.length = sp.ptcl.length ∧ sel = (takeN lib.npUniform sp.ptcl.length g.np).1.map fun x => decide (x < fraction) := by
  have e : ((w.sim.species[id]?).map fun sp => sp.ptcl.length).getD 0 = sp.ptcl.length := by rw [hsp]; rfl
  refine ⟨(takeN lib.npUniform sp.ptcl.length g.np).1.map fun x => decide (x < fraction), ?_, ?_, rfl⟩
  · rw [← e]; rfl
  · rw [List.length_map, takeN_length]

/-- **C117, not true: runs with different seeds use different random numbers.** Each process uses the sum of the seed
and its number: what process 1 does with the seed 0 is exactly what process 0 does with the seed 1. -/
theorem C117_overlap_violated (c : Cfg) [NeZero c.Nz] (lib : Lib G C) (cupy : Bool) (M : Machine)
    (P : Processes) (h : Seedable cupy M P) (L : List Command) (w : Session) (g g' : Gens G C) (rank seed : ℕ) :
    seededRun c lib cupy (rank + 1) seed M P L w g' = seededRun c lib cupy rank (seed + 1) M P L w g := by
  have e : setRandomSeed lib cupy (rank + 1) seed g' = setRandomSeed lib cupy rank (seed + 1) g' := by
    unfold setRandomSeed
    rw [show seed + (rank + 1) = seed + 1 + rank by omega]
  have : seededRun c lib cupy (rank + 1) seed M P L w g' = seededRun c lib cupy rank (seed + 1) M P L w g' := by
    unfold seededRun
    rw [e]
  rw [this]
  exact C117_seed_partial c lib cupy rank (seed + 1) M P h L w g g'

private theorem elementary_compton (xoro : ℕ → ℕ → ℕ → ℝ) (M : Machine) (scat : ℕ → Option Scatterer) (cl dt t : ℝ)
    (it : ℕ) (sps : List Pic.Species) (id : ℕ) :
    elementaryAsk xoro M (fun _ => none) scat cl dt t it sps id = comptonPart xoro M scat cl dt t it id sps := rfl

private theorem pulse_run (lib : Lib G C) (g : Gens G C) (x : ℝ) (hx : ∀ b k, g.nb 0 b k = x) :
    ∃ sps' new, (((processAsk lib.xoro (anyMachine false) (fun _ => none) (pulse (9 / 10)) 1 1 (pulseSim ⟨0, 0, 0, 1⟩)).run lib g).1
      = .ok { pulseSim ⟨0, 0, 0, 1⟩ with species := sps' }) ∧
      sps'[1]? = some ⟨0, 1, .linear, false, false, none, new⟩ ∧
      new.length = (nScatter (pulseProb (1 * ((pulseSim ⟨0, 0, 0, 1⟩).time + 0.5 * 1))) 1 x).toNat := by
  set D : ComptonDraws := comptonDraws (anyMachine false) (pulseScatterer (9 / 10)).batch (g.nb 0)
    (pulseSim ⟨0, 0, 0, 1⟩).species 0 with hD
  obtain ⟨sps', new, h1, -, h3, h4, -⟩ := C105_scatter (pulseScatterer (9 / 10)) (by norm_num [pulseScatterer]) 1 1
    ((pulseSim ⟨0, 0, 0, 1⟩).time + 0.5 * 1) D ((anyMachine false).junkC (pulseSim ⟨0, 0, 0, 1⟩).iteration 0) 0
    (pulseSim ⟨0, 0, 0, 1⟩).species ⟨-1, 1, .linear, false, false, none, [⟨⟨1, 0, 7.9, ⟨0, 0, 0, 1⟩, 0⟩, 1, fun _ => 0⟩]⟩
    ⟨0, 1, .linear, false, false, none, []⟩ rfl rfl (by norm_num [pulseScatterer])
  refine ⟨sps', new, ?_, h3, ?_⟩
  · have e0 : pulse (9 / 10) 0 = some (pulseScatterer (9 / 10)) := if_pos rfl
    have e1 : pulse (9 / 10) 1 = none := if_neg (by norm_num)
    unfold processAsk
    have hr : List.range (pulseSim ⟨0, 0, 0, 1⟩).species.length = [0, 1] := rfl
    rw [hr]
    simp only [List.foldlM_cons, List.foldlM_nil]
    have a0 : elementaryAsk lib.xoro (anyMachine false) (fun _ => none) (pulse (9 / 10)) 1 1
        ((pulseSim ⟨0, 0, 0, 1⟩).time + 0.5 * 1) (pulseSim ⟨0, 0, 0, 1⟩).iteration (pulseSim ⟨0, 0, 0, 1⟩).species 0
        = comptonAsk lib.xoro (anyMachine false) (pulseScatterer (9 / 10)) 1 1 ((pulseSim ⟨0, 0, 0, 1⟩).time + 0.5 * 1)
          (pulseSim ⟨0, 0, 0, 1⟩).iteration 0 (pulseSim ⟨0, 0, 0, 1⟩).species := by
      rw [elementary_compton]
      unfold comptonPart
      rw [e0]
    have a1 : ∀ sps : List Pic.Species, elementaryAsk lib.xoro (anyMachine false) (fun _ => none) (pulse (9 / 10)) 1 1
        ((pulseSim ⟨0, 0, 0, 1⟩).time + 0.5 * 1) (pulseSim ⟨0, 0, 0, 1⟩).iteration sps 1 = Pure.pure sps := by
      intro sps
      rw [elementary_compton]
      unfold comptonPart
      rw [e1]
    rw [a0]
    simp only [a1, run_bind]
    have a2 : (comptonAsk lib.xoro (anyMachine false) (pulseScatterer (9 / 10)) 1 1 ((pulseSim ⟨0, 0, 0, 1⟩).time + 0.5 * 1)
          (pulseSim ⟨0, 0, 0, 1⟩).iteration 0 (pulseSim ⟨0, 0, 0, 1⟩).species).run lib g
        = (.ok sps', { g with nb := fun i => g.nb (i + 1) }) := by
      rw [← h1]; rfl
    rw [a2]
    rfl
  · have := h4.length_eq
    rw [← this]
    have hc : (pulseScatterer (9 / 10)).count 1 1 ((pulseSim ⟨0, 0, 0, 1⟩).time + 0.5 * 1) D
        (Species.electrons ⟨-1, 1, .linear, false, false, none, [⟨⟨1, 0, 7.9, ⟨0, 0, 0, 1⟩, 0⟩, 1, fun _ => 0⟩]⟩) 0
        = (nScatter (pulseProb (1 * ((pulseSim ⟨0, 0, 0, 1⟩).time + 0.5 * 1))) 1 x).toNat := by
      rw [← hx (0 / 10) (0 % 10)]; rfl
    rw [← hc]
    simp [Spec.scatterings]

/-- **C117, not true with Compton scattering on CPU.** The random numbers of the compiled functions come from
generators that `set_random_seed` does not set. For every library and seed there are two processes which do the same
after the same seed, and get different numbers of photons. -/
theorem C117_compton_violated (lib : Lib G C) (cupy : Bool) (rank seed : ℕ) (a : G) (b : C) :
    ∃ (M : Machine) (scat : ℕ → Option Scatterer) (s t t' : Sim) (g g' : Gens G C), Spec.ScatterersOk scat s.species ∧
      (∀ i j k, 0 ≤ g.nb i j k ∧ g.nb i j k < 1 ∧ 0 ≤ g'.nb i j k ∧ g'.nb i j k < 1) ∧
      ((processAsk lib.xoro M (fun _ => none) scat 1 1 s).run lib (setRandomSeed lib cupy rank seed g)).1 = .ok t ∧
      ((processAsk lib.xoro M (fun _ => none) scat 1 1 s).run lib (setRandomSeed lib cupy rank seed g')).1 = .ok t' ∧
      ∃ ph ph', t.species[1]? = some ph ∧ t'.species[1]? = some ph' ∧ ph.ptcl.length = 0 ∧ ph'.ptcl.length = 1 := by
  set ct : ℝ := 1 * ((pulseSim ⟨0, 0, 0, 1⟩).time + 0.5 * 1) with hct
  have hm := pulseProb_mem ct
  set g : Gens G C := ⟨a, b, fun _ _ _ => 0⟩ with hg
  set g' : Gens G C := ⟨a, b, fun _ _ _ => 1 - pulseProb ct⟩ with hg'
  obtain ⟨sps, new, h1, h2, h3⟩ := pulse_run lib (setRandomSeed lib cupy rank seed g) 0 fun _ _ => rfl
  obtain ⟨sps', new', h1', h2', h3'⟩ := pulse_run lib (setRandomSeed lib cupy rank seed g') (1 - pulseProb ct) fun _ _ => rfl
  refine ⟨anyMachine false, pulse (9 / 10), pulseSim ⟨0, 0, 0, 1⟩, _, _, g, g', pulse_scatterers _ (by norm_num) _, ?_, h1, h1',
    _, _, h2, h2', ?_, ?_⟩
  · intro i j k
    refine ⟨le_rfl, one_pos, ?_, ?_⟩
    · show 0 ≤ 1 - pulseProb ct; linarith [hm.2]
    · show 1 - pulseProb ct < 1; linarith [hm.1]
  · show new.length = 0
    rw [h3, (C18_number (pulseProb ct) 1 0 hm.1.le zero_le_one le_rfl one_pos).1, mul_one, add_zero,
      Int.floor_eq_zero_iff.2 ⟨hm.1.le, hm.2⟩]
    rfl
  · show new'.length = 1
    rw [h3', (C18_number (pulseProb ct) 1 (1 - pulseProb ct) hm.1.le zero_le_one (by linarith [hm.2]) (by linarith [hm.1])).1,
      show pulseProb ct * 1 + (1 - pulseProb ct) = ((1 : ℤ) : ℝ) by push_cast; ring, Int.floor_intCast]
    rfl

/-- **C117, not true: each step uses new random numbers.** On GPU, each call of the Compton process takes its random
numbers from one of 256 fixed sequences. Of any 257 calls, at any times, with any electrons and whatever happens in
between, two use the same sequence. -/
theorem C117_repeat_violated (lib : Lib G C) (M : Machine) (hM : M.gpu = true) (S : ℕ → Scatterer) (cl dt : ℝ) (t : ℕ → ℝ)
    (it id : ℕ → ℕ) (sps : ℕ → List Pic.Species) (g : ℕ → Gens G C) : ∃ i j, i < j ∧ j ≤ 256 ∧ ∃ st, ∀ k, k = i ∨ k = j →
      ((comptonAsk lib.xoro M (S k) cl dt (t k) (it k) (id k) (sps k)).run lib (g k)).1
        = (S k).handle cl dt (t k) (comptonDraws M (S k).batch st (sps k) (id k)) (M.junkC (it k) (id k)) (id k) (sps k) := by
  have run : ∀ k, ((comptonAsk lib.xoro M (S k) cl dt (t k) (it k) (id k) (sps k)).run lib (g k)).1
      = (S k).handle cl dt (t k) (comptonDraws M (S k).batch (lib.xoro (lib.npBelow (g k).np).1) (sps k) (id k))
        (M.junkC (it k) (id k)) (id k) (sps k) := by
    intro k
    unfold comptonAsk
    simp only
    rw [if_pos hM]
    rfl
  obtain ⟨x, y, hxy, he⟩ := Fintype.exists_ne_map_eq_of_card_lt (fun k : Fin 257 => (lib.npBelow (g k).np).1) (by simp)
  have fin : ∀ x y : Fin 257, x < y → (lib.npBelow (g x).np).1 = (lib.npBelow (g y).np).1 → ∃ i j : ℕ, i < j ∧ j ≤ 256 ∧ ∃ st,
      ∀ k, k = i ∨ k = j → ((comptonAsk lib.xoro M (S k) cl dt (t k) (it k) (id k) (sps k)).run lib (g k)).1
        = (S k).handle cl dt (t k) (comptonDraws M (S k).batch st (sps k) (id k)) (M.junkC (it k) (id k)) (id k) (sps k) := by
    intro x y h e
    refine ⟨x, y, h, by omega, lib.xoro (lib.npBelow (g x).np).1, ?_⟩
    rintro k (rfl | rfl)
    · exact run _
    · rw [run, e]
  rcases lt_or_gt_of_ne hxy with h | h
  · exact fin x y h he
  · exact fin y x h he.symm

/-- With the same electrons and the same state of the laser, two such calls do the same. -/
example : (comptonDraws (anyMachine true) 10 (counter.xoro 7) (pulseSim ⟨0, 0, 0, 1⟩).species 0).num 13 = 1 / 10 := by
  norm_num [comptonDraws, counter]

end Fbpic.Seed
