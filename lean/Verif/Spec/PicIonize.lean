import Verif.Model.PicIonize
import Verif.Spec.PicGauss

/-!
# Charge, levels and electrons of a simulation with ionization
-/

namespace Fbpic.Spec

open Pic

/-- The charge that a macroparticle stands for: `q` times the number of physical particles; ions have the charge
of their level. -/
noncomputable def macroCharge (sp : Pic.Species) (p : Pic.Ptcl) : ℝ :=
  sp.q * if sp.ionizable then p.w * p.push.level else p.w

/-- The sum over all macroparticles of the charge times any function of the place: shape and kind (tracer or not) of
the species, position and momentum. -/
noncomputable def chargeSum (φ : Shape → Bool → PushPtcl → ℂ) (sps : List Pic.Species) : ℂ :=
  (sps.map fun sp => (sp.ptcl.map fun p =>
    (macroCharge sp p : ℂ) * φ sp.shape sp.isTracer { p.push with level := 0 }).sum).sum

/-- The total charge of all particles. -/
noncomputable def netCharge (s : Sim) : ℝ :=
  (s.species.map fun sp => (sp.ptcl.map (macroCharge sp)).sum).sum

/-- The number of all macroparticles. -/
def macroCount (s : Sim) : ℕ := (s.species.map fun sp => sp.ptcl.length).sum

/-- The sum of the levels of all ions. -/
def levelCount (s : Sim) : ℕ :=
  (s.species.map fun sp => if sp.ionizable then (sp.ptcl.map fun p => p.push.level).sum else 0).sum

/-- The ionizers fit the species: an ionizer belongs to an ionizable species with the charge `e`; there is one
target per level or a single one; the targets are electrons (not ionizable, charge `-e`) with the particle shape of
the ions, which are tracers if and only if the ions are; the ions have levels between `level_start` and
`level_max`. `C100_make` shows that `make_ionizable` leads to this. -/
structure IonizersOk (c : Cfg) (ionizers : ℕ → Option Ionizer) (sps : List Pic.Species) : Prop where
  ion : ∀ id I, ionizers id = some I → ∃ sp, sps[id]? = some sp ∧ sp.ionizable = true ∧ sp.q = c.eCharge
  batch : ∀ id I, ionizers id = some I → 0 < I.P.batchSize
  order : ∀ id I, ionizers id = some I → I.P.levelStart ≤ I.P.levelMax
  count : ∀ id I, ionizers id = some I → I.targets.length = I.P.nLevels
  target : ∀ id I, ionizers id = some I → ∀ sp, sps[id]? = some sp → ∀ j ∈ I.targets, ∃ e, sps[j]? = some e ∧
    e.ionizable = false ∧ e.q = -c.eCharge ∧ e.shape = sp.shape ∧ e.isTracer = sp.isTracer
  levels : ∀ id I, ionizers id = some I → ∀ sp, sps[id]? = some sp → ∀ p ∈ sp.ptcl,
    I.P.levelStart ≤ p.push.level ∧ p.push.level ≤ I.P.levelMax

/-- The ions of a species have the same weights as before, in the same order, and no lower levels. -/
def LevelsGrow (a b : Pic.Species) : Prop :=
  a.ionizable = true → List.Forall₂ (fun p p' => p'.w = p.w ∧ p.push.level ≤ p'.push.level) a.ptcl b.ptcl

/-- Macroparticle `ip` of the species is ionized once more: it is below the maximal level, and its random number is
smaller than the ADK probability for its level, its momentum and the fields that it feels. -/
def Freed (I : Ionizer) (cl : ℝ) (draw : ℕ → ℝ) (sp : Pic.Species) (ip : ℕ) : Prop :=
  ∃ p, sp.ptcl[ip]? = some p ∧ p.push.level < I.P.levelMax ∧
    ∃ pr, Adk.ionProb I.adk (p.probe cl) p.push.level = some pr ∧ draw ip < pr

/-- The macroparticle `n` levels higher. -/
def raised (p : Pic.Ptcl) (n : ℕ) : Pic.Ptcl := { p with push := { p.push with level := p.push.level + n } }

open Classical in
/-- The electrons for target `i`, in the order of their ions: all of them, or those from the level `level_start + i`
when there is one target per level. They have the position, the momentum, the fields and the weight of the ion. -/
noncomputable def freedElectrons (I : Ionizer) (cl : ℝ) (draw : ℕ → ℝ) (sp : Pic.Species) (i : ℕ) : List Pic.Ptcl :=
  ((List.range sp.ptcl.length).filter fun ip => Freed I cl draw sp ip ∧
    (I.P.storePerLevel = true → (sp.ptcl.getD ip noPtcl).push.level = I.P.levelStart + i)).map fun ip =>
      let p := sp.ptcl.getD ip noPtcl
      { p with push := { p.push with level := 0 } }

end Fbpic.Spec
