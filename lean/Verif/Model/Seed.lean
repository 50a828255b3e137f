import Verif.Model.PicIonize
import Verif.Model.PicCompton
import Verif.Model.Bunch

/-!
# The random numbers of a run

Who draws random numbers, from which generator, and what `set_random_seed` does (utils/random_seed.py). Each process
has three generators: the one of `numpy.random`, the one of `cupy.random`, and those which Numba uses inside
compiled functions (`random.random()` in compton/numba_methods.py), one per thread. A fourth kind is created anew by
each call of the Compton kernels on GPU (compton.py:164-166). What these libraries compute is a parameter (`Lib`).

A function that draws random numbers is a tree of questions (`Ask`): it asks for numbers of some kind, and goes on
depending on the answer. Modelled here: the loading of a species, the Gaussian bunch, ionization, Compton scattering
and the subsampling of a particle diagnostic, and their use in whole runs with the cycle of `Model/PicIonize.lean`.
-/

namespace Fbpic.Seed

open Pic Transform ExternalField Step

noncomputable section

/-- The libraries: seeding and drawing of `numpy.random` (`rand`, `normal`, `randint(256)`) and `cupy.random`
(`rand`), and the `k`-th number of state number `b` of `create_xoroshiro128p_states(n, seed)`, `b < n` (the first `n`
states do not depend on `n`). random_seed.py:27-31, compton.py:165-166 -/
structure Lib (G C : Type) where
  npSeed : ℕ → G
  npUniform : G → ℝ × G
  npNormal : G → ℝ × G
  npBelow : G → Fin 256 × G
  cpSeed : ℕ → C
  cpUniform : C → ℝ × C
  xoro : ℕ → ℕ → ℕ → ℝ

/-- The generators of a process. `nb i b k` is the `k`-th random number that batch `b` will get from the Numba thread
that treats it, in the `i`-th of the calls still to come: it depends on the seeds that Numba takes from the operating
system, and on the distribution of the batches over the threads. numba_methods.py:60-66, 92 -/
structure Gens (G C : Type) where
  np : G
  cp : C
  nb : ℕ → ℕ → ℕ → ℝ

/-- `set_random_seed(random_seed)` on the process `rank`; `cupy` is `cupy_installed`. The generators of Numba are not
concerned: `np.random.seed` is not called inside a compiled function. random_seed.py:15-31 -/
def setRandomSeed {G C : Type} (lib : Lib G C) (cupy : Bool) (rank seed : ℕ) (g : Gens G C) : Gens G C :=
  { g with np := lib.npSeed (seed + rank), cp := if cupy then lib.cpSeed (seed + rank) else g.cp }

/-- `n` numbers, one after the other. -/
def takeN {S : Type} (next : S → ℝ × S) : ℕ → S → List ℝ × S
  | 0, g => ([], g)
  | n + 1, g => ((next g).1 :: (takeN next n (next g).2).1, (takeN next n (next g).2).2)

/-- A function that draws random numbers. -/
inductive Ask (α : Type)
  /-- the result, or an exception -/
  | done (r : Except PyErr α)
  /-- `np.random.rand(n)` -/
  | uniform (n : ℕ) (k : List ℝ → Ask α)
  /-- `np.random.normal(size=n)` -/
  | normal (n : ℕ) (k : List ℝ → Ask α)
  /-- `cupy.random.rand(n)` -/
  | gpuUniform (n : ℕ) (k : List ℝ → Ask α)
  /-- `np.random.randint(256)` -/
  | byte (k : Fin 256 → Ask α)
  /-- `random.random()` in compiled functions, for each batch -/
  | numba (k : (ℕ → ℕ → ℝ) → Ask α)

/-- One after the other; an exception ends both. -/
def Ask.bind {α β : Type} : Ask α → (α → Ask β) → Ask β
  | .done (.ok a), f => f a
  | .done (.error e), _ => .done (.error e)
  | .uniform n k, f => .uniform n fun d => (k d).bind f
  | .normal n k, f => .normal n fun d => (k d).bind f
  | .gpuUniform n k, f => .gpuUniform n fun d => (k d).bind f
  | .byte k, f => .byte fun d => (k d).bind f
  | .numba k, f => .numba fun d => (k d).bind f

instance : Monad Ask where
  pure a := .done (.ok a)
  bind := Ask.bind

/-- What the function does with the generators of a process. -/
def Ask.run {G C : Type} (lib : Lib G C) {α : Type} : Ask α → Gens G C → Except PyErr α × Gens G C
  | .done r, g => (r, g)
  | .uniform n k, g => (k (takeN lib.npUniform n g.np).1).run lib { g with np := (takeN lib.npUniform n g.np).2 }
  | .normal n k, g => (k (takeN lib.npNormal n g.np).1).run lib { g with np := (takeN lib.npNormal n g.np).2 }
  | .gpuUniform n k, g => (k (takeN lib.cpUniform n g.cp).1).run lib { g with cp := (takeN lib.cpUniform n g.cp).2 }
  | .byte k, g => (k (lib.npBelow g.np).1).run lib { g with np := (lib.npBelow g.np).2 }
  | .numba k, g => (k (g.nb 0)).run lib { g with nb := fun i => g.nb (i + 1) }

/-! ### The functions that draw -/

/-- The arguments of `generate_evenly_spaced`; `dens` is the density profile times `n`. continuous_injection.py:203-204 -/
structure Load where
  (Npz Npr Nptheta : ℕ)
  (zmin zmax rmin rmax : ℝ)
  dens : ℝ → ℝ → ℝ → ℝ
  (uxM uyM uzM uxTh uyTh uzTh : ℝ)

/-- The positions and weights, for the numbers of `np.random.rand(Npz, Npr)`; the particles without weight are
removed. continuous_injection.py:215-260, 303-304, 320 -/
def Load.mesh (a : Load) (rand : List ℝ) : List (ℝ × ℝ × ℝ × ℝ) :=
  let dz := (a.zmax - a.zmin) / a.Npz
  let dr := (a.rmax - a.rmin) / a.Npr
  let dtheta := 2 * Real.pi / a.Nptheta
  ((List.range a.Npz).flatMap fun (iz : ℕ) => (List.range a.Npr).flatMap fun (ir : ℕ) =>
    (List.range a.Nptheta).map fun (it : ℕ) =>
    let z := a.zmin + dz * (iz + 0.5)
    let r := a.rmin + dr * (ir + 0.5)
    let theta := dtheta * it + 2 * Real.pi * rand.getD (iz * a.Npr + ir) 0
    let x := r * Real.cos theta
    let y := r * Real.sin theta
    (x, y, z, r * dtheta * dr * dz * a.dens x y z)).filter fun p => 0 < p.2.2.2

/-- `generate_evenly_spaced`: the angles, then the thermal momenta along z, x and y.
continuous_injection.py:203-272 -/
def Load.ask (a : Load) : Ask (List Ptcl) :=
  if a.Npz * a.Npr * a.Nptheta = 0 then .done (.ok [])
  else .uniform (a.Npz * a.Npr) fun rand =>
    let l := a.mesh rand
    .normal l.length fun nz => .normal l.length fun nx => .normal l.length fun ny =>
      .done (.ok (l.mapIdx fun i p =>
        let ux := a.uxM + a.uxTh * nx.getD i 0
        let uy := a.uyM + a.uyTh * ny.getD i 0
        let uz := a.uzM + a.uzTh * nz.getD i 0
        ⟨⟨p.1, p.2.1, p.2.2.1, ⟨ux, uy, uz, 1 / Real.sqrt (1 + ux ^ 2 + uy ^ 2 + uz ^ 2)⟩, 0⟩, p.2.2.2, fun _ => 0⟩))

/-- The particles are put into species number `id` (of the initial loading, or of the continuous injection).
particles.py:210-236 -/
def Load.into (a : Load) (id : ℕ) (s : Sim) : Ask Sim := do
  let l ← a.ask
  pure { s with species := growSpecies s.species id l }

/-- The questions of `add_particle_bunch_gaussian`: the Lorentz factors if they are spread, then x, y, z, ux, uy.
bunch.py:203-229 -/
def bunchAsk (cl : ℝ) (a : Bunch.GaussArgs) : Ask (List Bunch.In) :=
  let n := if a.symmetrize then a.N / 4 else a.N
  if a.symmetrize ∧ a.N % 4 ≠ 0 then
    .done (.error (.assertionError "When using symmetrize, `n_macroparticles` must be a multiple of 4."))
  else .normal (if 0 < a.sigGamma then n else 0) fun g => .normal n fun x => .normal n fun y => .normal n fun z =>
    .normal n fun ux => .normal n fun uy =>
      .done (Bunch.gaussian cl a fun i => ⟨g.getD i 0, x.getD i 0, y.getD i 0, z.getD i 0, ux.getD i 0, uy.getD i 0⟩)

/-- What does not come from the generators: `gpu` is `use_cuda`, `junk` the uninitialised memory that species number
`id` meets in iteration `i`, and `later` the numbers that the second Compton kernel reads from the streams of the
batches (how many of them depends on the rejections). compton.py:164-241 -/
structure Machine where
  gpu : Bool
  junkI : ℕ → ℕ → Junk ℝ IonAttr
  junkC : ℕ → ℕ → ℕ → ExternalField.Comp → ℝ
  later : (ℕ → ℕ → ℝ) → List Pic.Species → ℕ → (ℕ → ℕ → ScatDraw) × (ℕ → ℝ)

/-- `handle_ionization` with its random numbers: one per ion. ionizer.py:243-247 -/
def ionizeAsk (M : Machine) (I : Ionizer) (cl : ℝ) (iteration id : ℕ) (sps : List Pic.Species) : Ask (List Pic.Species) :=
  let n := ((sps[id]?).map fun sp => sp.ptcl.length).getD 0
  let k := fun d : List ℝ => Ask.done (I.handle cl (fun i => d.getD i 0) (M.junkI iteration id) id sps)
  if M.gpu then .gpuUniform n k else .uniform n k

/-- The random numbers of one call of the Compton kernels: the first kernel takes one number per electron from the
stream of its batch. numba_methods.py:70-100, cuda_methods.py:68-101 -/
def comptonDraws (M : Machine) (batch : ℕ) (st : ℕ → ℕ → ℝ) (sps : List Pic.Species) (id : ℕ) : ComptonDraws :=
  ⟨fun i => st (i / batch) (i % batch), (M.later st sps id).1, (M.later st sps id).2⟩

/-- `handle_scattering` with its random numbers. compton.py:139-241 -/
def comptonAsk (xoro : ℕ → ℕ → ℕ → ℝ) (M : Machine) (S : Scatterer) (cl dt t : ℝ) (iteration id : ℕ)
    (sps : List Pic.Species) : Ask (List Pic.Species) :=
  let k := fun st => Ask.done (S.handle cl dt t (comptonDraws M S.batch st sps id) (M.junkC iteration id) id sps)
  if M.gpu then .byte fun seed => k (xoro seed) else .numba k

/-- `if self.ionizer is not None`. particles.py:503-505 -/
def ionizePart (M : Machine) (ionizers : ℕ → Option Ionizer) (cl : ℝ) (iteration id : ℕ) (sps : List Pic.Species) :
    Ask (List Pic.Species) :=
  match ionizers id with
  | none => pure sps
  | some I => ionizeAsk M I cl iteration id sps

/-- `if self.compton_scatterer is not None`. particles.py:506-508 -/
def comptonPart (xoro : ℕ → ℕ → ℕ → ℝ) (M : Machine) (scat : ℕ → Option Scatterer) (cl dt t : ℝ) (iteration id : ℕ)
    (sps : List Pic.Species) : Ask (List Pic.Species) :=
  match scat id with
  | none => pure sps
  | some S => comptonAsk xoro M S cl dt t iteration id sps

/-- `species.handle_elementary_processes(t)`. particles.py:498-508 -/
def elementaryAsk (xoro : ℕ → ℕ → ℕ → ℝ) (M : Machine) (ionizers : ℕ → Option Ionizer) (scat : ℕ → Option Scatterer)
    (cl dt t : ℝ) (iteration : ℕ) (sps : List Pic.Species) (id : ℕ) : Ask (List Pic.Species) := do
  let sps ← ionizePart M ionizers cl iteration id sps
  comptonPart xoro M scat cl dt t iteration id sps

/-- `for species in ptcl: species.handle_elementary_processes(self.time + 0.5*dt)`. main.py:502-503 -/
def processAsk (xoro : ℕ → ℕ → ℕ → ℝ) (M : Machine) (ionizers : ℕ → Option Ionizer) (scat : ℕ → Option Scatterer)
    (cl dt : ℝ) (s : Sim) : Ask Sim := do
  let sps ← (List.range s.species.length).foldlM
    (elementaryAsk xoro M ionizers scat cl dt (s.time + 0.5 * dt) s.iteration) s.species
  pure { s with species := sps }

/-! ### Whole runs -/

variable (c : Cfg)

/-- One round of the loop of `step`, as `Cfg.iterEv`. main.py:421-565 -/
def iterAsk [NeZero c.Nz] (ev : Sim → Ask Sim) (o : Opts) (iStep : ℕ) (s : Sim) : Ask Sim :=
  if c.exchangePeriod = 0 then .done (.error (.valueError "ZeroDivisionError"))
  else do
    let s ← Ask.done (c.iterStart iStep s)
    let s ← Ask.done (c.iterHalf o s)
    let s ← ev s
    let s ← Ask.done (c.iterDeposit o s)
    Ask.done (c.iterEnd o s)

/-- `for i_step in range(N)`, from `i_step = i`. -/
def loopAsk [NeZero c.Nz] (ev : Sim → Ask Sim) (o : Opts) (i : ℕ) : ℕ → Sim → Ask Sim
  | 0, s => pure s
  | n + 1, s => do
    let s ← iterAsk c ev o i s
    loopAsk ev o (i + 1) n s

/-- `step(N, …)`. main.py:346-585 -/
def stepAsk [NeZero c.Nz] (ev : Sim → Ask Sim) (N : ℕ) (o : Opts) (s : Sim) : Ask Sim := do
  let s ← loopAsk c ev o 0 N (c.startFields s)
  pure (c.endFields s)

/-- Several calls to `step`. -/
def callsAsk [NeZero c.Nz] (ev : Sim → Ask Sim) : List (ℕ × Opts) → Sim → Ask Sim
  | [], s => pure s
  | (n, o) :: L, s => do
    let s ← stepAsk c ev n o s
    callsAsk ev L s

/-- A line of an input script. -/
inductive Command
  /-- something without random numbers -/
  | plain (f : Sim → Except PyErr Sim)
  /-- particles are loaded into species `id` -/
  | load (a : Load) (id : ℕ)
  /-- a Gaussian bunch goes into species `id`; `place` makes macroparticles from the arrays -/
  | bunch (a : Bunch.GaussArgs) (place : Bunch.In → Ptcl) (id : ℕ)
  /-- a diagnostic with `subsampling_fraction` is written for species `id` -/
  | sample (fraction : ℝ) (id : ℕ)
  /-- `step(N, …)` -/
  | step (N : ℕ) (o : Opts)

/-- A simulation and the files: for each subsampling the macroparticles that were selected. -/
structure Session where
  sim : Sim
  out : List (List Bool)

/-- The processes of a simulation. -/
structure Processes where
  ionizers : ℕ → Option Ionizer
  scat : ℕ → Option Scatterer

/-- One line. main.py:346-585, particle_diag.py:384-388 -/
def Command.ask [NeZero c.Nz] (xoro : ℕ → ℕ → ℕ → ℝ) (M : Machine) (P : Processes) (w : Session) :
    Command → Ask Session
  | .plain f => do
    let s ← Ask.done (f w.sim)
    pure { w with sim := s }
  | .load a id => do
    let s ← a.into id w.sim
    pure { w with sim := s }
  | .bunch a place id => do
    let l ← bunchAsk c.k.c a
    pure { w with sim := { w.sim with species := growSpecies w.sim.species id (l.map place) } }
  | .sample fraction id =>
    .uniform (((w.sim.species[id]?).map fun sp => sp.ptcl.length).getD 0) fun d =>
      .done (.ok { w with out := w.out ++ [d.map fun x => decide (x < fraction)] })
  | .step N o => do
    let s ← stepAsk c (processAsk xoro M P.ionizers P.scat c.k.c c.dt) N o w.sim
    pure { w with sim := s }

/-- The lines one after the other. -/
def script [NeZero c.Nz] (xoro : ℕ → ℕ → ℕ → ℝ) (M : Machine) (P : Processes) : List Command → Session → Ask Session
  | [], w => pure w
  | x :: L, w => do
    let w ← x.ask c xoro M P w
    script xoro M P L w

/-- `set_random_seed(seed)`, then the script, on the process `rank`. -/
def seededRun [NeZero c.Nz] {G C : Type} (lib : Lib G C) (cupy : Bool) (rank seed : ℕ) (M : Machine) (P : Processes)
    (L : List Command) (w : Session) (g : Gens G C) : Except PyErr Session :=
  ((script c lib.xoro M P L w).run lib (setRandomSeed lib cupy rank seed g)).1

end

end Fbpic.Seed
