import Verif.Model.Comm
import Mathlib.Data.List.Infix

/-!
# `InputScriptDiagnostic`

The files of the diagnostics are modelled by the attributes of their root group; the rest of the files is not touched by this diagnostic.
-/

namespace Fbpic.Script

/-- Values of `param_dict`: strings, lists or tuples of numbers, numbers. -/
inductive Val
  | str (s : String)
  | seq (l : List ℚ)
  | num (x : ℚ)
deriving DecidableEq

/-- Attributes of an HDF5 file: byte strings, arrays, scalars. -/
inductive HVal
  | bytes (s : String)
  | array (l : List ℚ)
  | scalar (x : ℚ)
deriving DecidableEq

/-- Attributes of a file. -/
abbrev Attrs := String → Option HVal

/-- The files of a directory, by iteration (`"data%08d.h5" % iteration`). -/
abbrev Dir := ℕ → Option Attrs

/-- `'.py' in f`. -/
def hasPy (f : String) : Bool := decide (".py".toList <:+: f.toList)

/-- `_get_input_script`: `read` gives the text of the files that can be read; otherwise `open` raises `OSError`.
inputscript_diag.py:68-86 -/
def getInputScript (argv : List String) (read : String → Option String) : Except PyErr (Option String) :=
  match argv.filter hasPy with
  | [] => .ok .none
  | f :: _ =>
    match read f with
    | some text => .ok (some text)
    | .none => .error (.runtimeError "FileNotFoundError")

/-- The diagnostic: rank in `comm` (0 without `comm`), period, bounds of the iterations (`none` is infinite), text, parameters as the list
of the items of the dictionary. inputscript_diag.py:20-66, generic_diag.py:61-92 -/
structure ScriptDiag where
  rank : ℕ
  period : ℕ
  itMin : ℕ
  itMax : Option ℕ
  script : Option String
  params : Option (List (String × Val))

/-- `f.attrs[key] = val`. -/
def setAttr (a : Attrs) (k : String) (v : HVal) : Attrs := fun k' => if k' = k then some v else a k'

/-- The value that is stored. inputscript_diag.py:113-118 -/
def stored : Val → HVal
  | .str s => .bytes s
  | .seq l => .array l
  | .num x => .scalar x

/-- The loop over the items. inputscript_diag.py:112-118 -/
def setItems (a : Attrs) : List (String × Val) → Attrs
  | [] => a
  | (k, v) :: l => setItems (setAttr a k (stored v)) l

/-- `write_hdf5`: a file that does not exist is created (mode `a`). inputscript_diag.py:88-120, generic_diag.py:94-121 -/
def writeHdf5 (d : ScriptDiag) (it : ℕ) (dir : Dir) : Dir :=
  match d.script with
  | .none => dir
  | some text =>
    if d.rank = 0 then
      let a := setAttr ((dir it).getD fun _ => .none) "inputScript" (.bytes text)
      let a := match d.params with
        | .none => a
        | some l => setItems a l
      fun j => if j = it then some a else dir j
    else dir

/-- `write`. generic_diag.py:124-142 -/
def write (d : ScriptDiag) (it : ℕ) (dir : Dir) : Dir :=
  if it % d.period = 0 ∧ it ≥ d.itMin ∧ (∀ m, d.itMax = some m → it < m) then writeHdf5 d it dir else dir

/-- The calls of `write` during a run. main.py:477-482 -/
def runWrites (d : ScriptDiag) (its : List ℕ) (dir : Dir) : Dir := its.foldl (fun dir it => write d it dir) dir

end Fbpic.Script
