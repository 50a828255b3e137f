import Verif.Model.Script

/-!
# What the files hold
-/

namespace Fbpic.Script.Spec

/-- Iterations at which the diagnostic is to write. -/
def Due (d : ScriptDiag) (it : ℕ) : Prop := d.period ∣ it ∧ d.itMin ≤ it ∧ ∀ m, d.itMax = some m → it < m

/-- The documentation: strings as byte strings, lists as arrays, numbers as they are. -/
def Represents : Val → HVal → Prop
  | .str s, h => h = .bytes s
  | .seq l, h => h = .array l
  | .num x, h => h = .scalar x

/-- The file `new` is the file `old` (`none` if there was none) with the script and the parameters. -/
def Holds (text : String) (params : List (String × Val)) (old : Option Attrs) (new : Attrs) : Prop :=
  new "inputScript" = some (.bytes text) ∧
    (∀ k v, (k, v) ∈ params → ∃ h, new k = some h ∧ Represents v h) ∧
    ∀ k, k ≠ "inputScript" → k ∉ params.map Prod.fst → new k = old.bind fun a => a k

end Fbpic.Script.Spec
