import Verif.Model.Pic
import Verif.Model.Adk

/-!
# A whole simulation with field ionization

The cycle of `Model/Pic.lean` with the call to `handle_elementary_processes` (main.py:502-503,
particles.py:498-508) between the first half of the position push and the deposition of the current: any number
of ionizable species, each with one electron species or one per level, which may be shared. The species refer to
each other by their number in `sim.ptcl`. What the code does not determine (the random numbers and the
uninitialised memory) is an arbitrary argument. The array `w_times_level` is `w * ionization_level` (C16) and not
stored. Not part of this model: Compton scattering, tracking of the new electrons (C20).
-/

namespace Fbpic.Pic

open Transform ExternalField Step

/-- What an electron inherits from its ion besides the weight: position, momentum, fields. Electrons have no
level; it is set to 0. inline_functions.py:96-111 -/
abbrev IonAttr := PushPtcl × (Comp → ℝ)

/-- An `Ionizer`: its parameters, the ADK arrays, and the numbers of the target species. ionizer.py:97-140 -/
structure Ionizer where
  P : IonParams
  adk : Adk.Params
  targets : List ℕ

/-- What is not determined by the code: the random numbers and the uninitialised memory that species number `id`
meets in iteration `i`. ionizer.py:226-234, cuda_numba_utils.py:65-124 -/
structure Chance where
  draw : ℕ → ℕ → ℕ → ℝ
  junk : ℕ → ℕ → Junk ℝ IonAttr

/-- A particle beyond the end of the arrays (never read). -/
noncomputable def noPtcl : Ptcl := ⟨⟨0, 0, 0, ⟨0, 0, 0, 0⟩, 0⟩, 0, fun _ => 0⟩

/-- The attributes that are copied. -/
def Ptcl.attr (p : Ptcl) : IonAttr := ({ p.push with level := 0 }, p.F)

/-- A new electron. -/
def freeElectron (a : IonAttr × ℝ) : Ptcl := ⟨a.1.1, a.2, a.1.2⟩

/-- The arrays of an ionizable species, for `handle_ionization`. -/
noncomputable def Species.ions (sp : Species) : Ions ℝ IonAttr where
  Ntot := sp.ptcl.length
  attr := fun i => (sp.ptcl.getD i noPtcl).attr
  w := fun i => (sp.ptcl.getD i noPtcl).w
  level := fun i => (sp.ptcl.getD i noPtcl).push.level
  wtl := fun i => (sp.ptcl.getD i noPtcl).w * (sp.ptcl.getD i noPtcl).push.level

/-- The arrays of an electron species. -/
noncomputable def Species.elecs (sp : Species) : Elecs ℝ IonAttr where
  Ntot := sp.ptcl.length
  data := fun i => ((sp.ptcl.getD i noPtcl).attr, (sp.ptcl.getD i noPtcl).w)

/-- What the ADK rate is computed from: momentum, `E` and `c B`. numba_methods.py:58-62 -/
def Ptcl.probe (cl : ℝ) (p : Ptcl) : Adk.Probe :=
  ⟨p.push.mom.ux, p.push.mom.uy, p.push.mom.uz, p.F .Ex, p.F .Ey, p.F .Ez, cl * p.F .Bx, cl * p.F .By, cl * p.F .Bz⟩

/-- The new levels are written. ionizer.py:237-257 -/
def Species.setLevels (sp : Species) (level : ℕ → ℕ) : Species :=
  { sp with ptcl := sp.ptcl.mapIdx fun i p => { p with push := { p.push with level := level i } } }

/-- Electrons are added to species number `j`. ionizer.py:279-318 -/
def growSpecies (sps : List Species) (j : ℕ) (l : List Ptcl) : List Species :=
  sps.modify j fun e => { e with ptcl := e.ptcl ++ l }

/-- `self.ionizer.handle_ionization(self)` for species number `id`. The electrons that `handleIonization` puts
behind the old ones of each target are added to that species; a target that is given for several levels grows
several times. ionizer.py:191-318 -/
noncomputable def Ionizer.handle (I : Ionizer) (cl : ℝ) (draw : ℕ → ℝ) (J : Junk ℝ IonAttr) (id : ℕ)
    (sps : List Species) : Except PyErr (List Species) :=
  match sps[id]? with
  | none => .error (.indexError "no such species")
  | some sp => do
    let targets ← I.targets.mapM fun j => match sps[j]? with
      | some e => (.ok e.elecs : Except PyErr (Elecs ℝ IonAttr))
      | none => .error (.indexError "no such species")
    let r ← handleIonization I.P sp.ions targets
      (Adk.ionDecide I.adk (fun ip => (sp.ptcl.getD ip noPtcl).probe cl) draw) J
    let grown := (targets.zip r.2).map fun x => (x.2.toList.drop x.1.Ntot).map freeElectron
    pure ((I.targets.zip grown).foldl (fun sps x => growSpecies sps x.1 x.2) 
      (sps.modify id fun sp => sp.setLevels r.1.level))

/-- `for species in ptcl: species.handle_elementary_processes(...)`, main.py:502-503. `ionizers` gives the
`ionizer` attribute of each species. -/
noncomputable def ionizeAll (ionizers : ℕ → Option Ionizer) (cl : ℝ) (ch : Chance) (s : Sim) : Except PyErr Sim := do
  let sps ← (List.range s.species.length).foldlM (fun sps id =>
    match ionizers id with
    | none => (.ok sps : Except PyErr (List Species))
    | some I => I.handle cl (ch.draw s.iteration id) (ch.junk s.iteration id) id sps) s.species
  pure { s with species := sps }

variable (c : Cfg)

/-- One round of the loop of `step` with something (`ev`) that happens to the particles at mid-step, between
main.py:497 and main.py:509. main.py:421-565 -/
noncomputable def Cfg.iterEv [NeZero c.Nz] (ev : Sim → Except PyErr Sim) (o : Opts) (iStep : ℕ) (s : Sim) :
    Except PyErr Sim := do
  if c.exchangePeriod = 0 then .error (.valueError "ZeroDivisionError")
  else do
    let s ← c.iterStart iStep s
    let s ← c.iterHalf o s
    let s ← ev s
    let s ← c.iterDeposit o s
    c.iterEnd o s

/-- `for i_step in range(N)`, from `i_step = i`. -/
noncomputable def Cfg.loopEv [NeZero c.Nz] (ev : Sim → Except PyErr Sim) (o : Opts) (i : ℕ) :
    ℕ → Sim → Except PyErr Sim
  | 0, s => .ok s
  | n + 1, s => do
    let s ← c.iterEv ev o i s
    Cfg.loopEv ev o (i + 1) n s

/-- `step(N, …)` (main.py:346-585). -/
noncomputable def Cfg.stepEv [NeZero c.Nz] (ev : Sim → Except PyErr Sim) (N : ℕ) (o : Opts) (s : Sim) :
    Except PyErr Sim := do
  let s ← c.loopEv ev o 0 N (c.startFields s)
  pure (c.endFields s)

/-- Several calls to `step`, one after the other. -/
noncomputable def Cfg.callsEv [NeZero c.Nz] (ev : Sim → Except PyErr Sim) :
    List (ℕ × Opts) → Sim → Except PyErr Sim
  | [], s => .ok s
  | (n, o) :: L, s => do
    let s ← c.stepEv ev n o s
    Cfg.callsEv ev L s

/-- A run with ionization. -/
noncomputable def Cfg.callsIonize [NeZero c.Nz] (ionizers : ℕ → Option Ionizer) (ch : Chance)
    (L : List (ℕ × Opts)) (s : Sim) : Except PyErr Sim :=
  c.callsEv (ionizeAll ionizers c.k.c ch) L s

/-! ### `make_ionizable` -/

/-- The argument `target_species`: one species, or a dictionary from levels to species. -/
inductive Target
  | single (j : ℕ)
  | perLevel (d : ℕ → Option ℕ)

/-- The list `self.target_species`. ionizer.py:116-140 -/
def Target.list (levelStart levelMax : ℕ) : Target → Except PyErr (List ℕ)
  | .single j => .ok [j]
  | .perLevel d => (List.range' levelStart (levelMax - levelStart)).mapM fun l => match d l with
      | some j => (.ok j : Except PyErr ℕ)
      | none => .error (.valueError "its keys should be the integers corresponding to the ionizable levels")

/-- `store_electrons_per_level`. ionizer.py:131, 135 -/
def Target.storePerLevel : Target → Bool
  | .single _ => false
  | .perLevel _ => true

/-- `sim.ptcl[id].make_ionizable(element, target_species, level_start, level_max)`: the new ionizer and the
species. The ADK arrays `adk` are those of `initAdk` (`level_max` after the check of the element);
`me` is the mass of the electron. particles.py:441-496, ionizer.py:55-140 -/
noncomputable def makeIonizable (eCharge me : ℝ) (adk : Adk.Params) (levelStart : ℕ) (target : Target) (id : ℕ)
    (sps : List Species) : Except PyErr (Ionizer × List Species) := do
  let targets ← target.list levelStart adk.levelMax
  let ok ← targets.mapM fun j => match sps[j]? with
    | some e => (.ok (decide (e.q = -eCharge ∧ e.m = me)) : Except PyErr Bool)
    | none => .error (.indexError "no such species")
  if ok.all (fun b => b) then
    pure (⟨⟨10, levelStart, adk.levelMax, target.storePerLevel⟩, adk, targets⟩,
      sps.modify id fun sp => { sp.setLevels (fun _ => levelStart) with q := eCharge, ionizable := true })
  else .error (.assertionError "the target species must be electrons")

end Fbpic.Pic
