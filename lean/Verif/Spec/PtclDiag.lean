import Verif.Model.PtclDiag

/-!
# Specification of the particle diagnostics: rows instead of arrays
-/

namespace Fbpic.Spec

open PtclDiag

variable {K : Type} [Field K] [LinearOrder K]

/-- One macroparticle: its float attributes by name, its id and its ionization level. -/
structure Row (K : Type) where
  field : String → K
  id : ℕ
  level : ℕ

/-- Names of the float attributes of every species (the gathered fields are there unless switched off). -/
def fields : List String :=
  ["x", "y", "z", "ux", "uy", "uz", "w", "inv_gamma", "Ex", "Ey", "Ez", "Bx", "By", "Bz"]

/-- The species consists of these macroparticles, in this order. -/
def RowsHeld (s : Species K) (rows : List (Row K)) : Prop :=
  s.Ntot = rows.length ∧
  (∀ q ∈ fields, ∃ a, s.attr q = some a ∧ ∀ i (h : i < rows.length), a i = rows[i].field q) ∧
  (∀ a, s.id = some a → ∀ i (h : i < rows.length), a i = rows[i].id) ∧
  (∀ a, s.level = some a → ∀ i (h : i < rows.length), a i = rows[i].level)

/-- Value of a quantity on which rules may be given, in the units of the rules. -/
def Row.value (r : Row K) (q : String) : K := if q = "gamma" then 1 / r.field "inv_gamma" else r.field q

/-- Strictly between the bounds that are given. -/
def accepts (rule : Rule K) (v : K) : Bool :=
  rule.lower.all (fun lo => decide (lo < v)) && rule.upper.all (fun hi => decide (v < hi))

/-- All rules are satisfied. -/
def keep (rules : List (Rule K)) (r : Row K) : Bool := rules.all fun rule => accepts rule (r.value rule.quantity)

/-- The value stored in the file, in SI units: momenta are multiplied by `m c` if there is a mass. -/
def Row.stored (e c m : K) (q : String) (r : Row K) : K :=
  if q = "charge" then e * r.level
  else if q = "ux" ∨ q = "uy" ∨ q = "uz" then (if m > 0 then r.field q * (m * c) else r.field q)
  else r.value q

end Fbpic.Spec
