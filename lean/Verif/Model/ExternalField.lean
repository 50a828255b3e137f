import Verif.Model.Comm
import Mathlib.Analysis.SpecialFunctions.Sqrt

/-!
# `lpa_utils/external_fields.py`: `ExternalField`

The compilation to CPU and GPU code is not modelled: both apply the same function to every particle.
-/

namespace Fbpic.ExternalField

/-- The six components known to external_fields.py:107. -/
inductive Comp | Ex | Ey | Ez | Bx | By | Bz
  deriving DecidableEq

/-- The check of the name, external_fields.py:107-108. -/
def parse : String → Option Comp
  | "Ex" => some .Ex
  | "Ey" => some .Ey
  | "Ez" => some .Ez
  | "Bx" => some .Bx
  | "By" => some .By
  | "Bz" => some .Bz
  | _ => none

/-- Signature of the function given by the user: `F, x, y, z, t, amplitude, length_scale`. -/
abbrev FieldFunc := ℝ → ℝ → ℝ → ℝ → ℝ → ℝ → ℝ → ℝ

/-- The attributes of an `ExternalField`; a species is identified by a number (`species is self.species`). -/
structure Ext where
  func : FieldFunc
  terms : List (Comp × ℝ)
  lengthScale : ℝ
  species : Option ℕ

/-- `beta_boost`, external_fields.py:120. -/
noncomputable def betaBoost (γ : ℝ) : ℝ := Real.sqrt (1 - 1 / γ ^ 2)

/-- `func` in the boosted frame, external_fields.py:119-125. -/
noncomputable def boostedFunc (c γ : ℝ) (f : FieldFunc) : FieldFunc := fun F x y z t amplitude ls =>
  let zlab := γ * (z + betaBoost γ * c * t)
  let tlab := γ * (t + betaBoost γ * (1 / c) * z)
  f F x y zlab tlab amplitude ls

/-- `fieldtypes_and_amplitudes` in the boosted frame, external_fields.py:152-169. -/
noncomputable def boostedTerms (c γ amplitude : ℝ) : Comp → List (Comp × ℝ)
  | .Ex => [(.Ex, γ * amplitude), (.By, -(γ * betaBoost γ) * (1 / c) * amplitude)]
  | .Ey => [(.Ey, γ * amplitude), (.Bx, γ * betaBoost γ * (1 / c) * amplitude)]
  | .Bx => [(.Bx, γ * amplitude), (.Ey, γ * betaBoost γ * c * amplitude)]
  | .By => [(.By, γ * amplitude), (.Ex, -(γ * betaBoost γ) * c * amplitude)]
  | .Ez => [(.Ez, amplitude)]
  | .Bz => [(.Bz, amplitude)]

/-- `ExternalField.__init__`, external_fields.py:103-171. -/
noncomputable def make (c : ℝ) (f : FieldFunc) (fieldtype : String) (amplitude ls : ℝ) (species : Option ℕ)
    (gammaBoost : Option ℝ) : Except PyErr Ext :=
  match parse fieldtype with
  | none => .error (.valueError "`fieldtype` must be one of Ex, Ey, Ez, Bx, By, Bz")
  | some k =>
    match gammaBoost with
    | none => .ok ⟨f, [(k, amplitude)], ls, species⟩
    | some γ =>
      if γ ≠ 1 then .ok ⟨boostedFunc c γ f, boostedTerms c γ amplitude k, ls, species⟩
      else .ok ⟨f, [(k, amplitude)], ls, species⟩

/-- The attributes of a particle that are used: position and gathered fields. -/
structure Part where
  (x y z : ℝ)
  F : Comp → ℝ

/-- A species. -/
structure Species where
  id : ℕ
  ptcls : List Part

/-- One element of the call of `cpu_func` with `out=field`, external_fields.py:203-206. -/
def applyTerm (e : Ext) (t : ℝ) (p : Part) (a : Comp × ℝ) : Part :=
  { p with F := Function.update p.F a.1 (e.func (p.F a.1) p.x p.y p.z t a.2 e.lengthScale) }

/-- `apply_expression`, external_fields.py:174-215: for every species, for every field, all particles. -/
def applyExpression (e : Ext) (ptcl : List Species) (t : ℝ) : List Species :=
  ptcl.map fun s =>
    if e.species = none ∨ e.species = some s.id then
      if s.ptcls.length ≤ 0 then s
      else e.terms.foldl (fun (s : Species) a => { s with ptcls := s.ptcls.map fun p => applyTerm e t p a }) s
    else s

/-- The loop over the external fields in the PIC cycle, main.py:472-473. -/
def applyAll (es : List Ext) (ptcl : List Species) (t : ℝ) : List Species :=
  es.foldl (fun ps e => applyExpression e ps t) ptcl

end Fbpic.ExternalField
