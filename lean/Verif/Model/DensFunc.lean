import Verif.Model.Comm
import Mathlib.Analysis.SpecialFunctions.Trigonometric.Basic

/-!
# The argument `dens_func`: check of its arguments, changes of coordinates, evaluation on the particles

The density functions act on arrays of positions in the code; they are modelled as functions of the position of one particle, that is, they
are assumed to act element by element. The momenta are not modelled here.
-/

namespace Fbpic.DensF

/-- A callable object of Python: the list `args` of `inspect.getfullargspec`, which begins with `self` for a method or an object with a
method `__call__`, and the result of a call with positional arguments (without `self`). A plain function whose first argument is named
`self` and arguments after `*` are not modelled. -/
structure Callable where
  args : List String
  value : List ℝ → Except PyErr ℝ

/-- The arguments that the caller has to pass. -/
def Callable.formals (f : Callable) : List String :=
  match f.args with
  | "self" :: l => l
  | l => l

/-- A call `f(a, b, …)`. -/
def Callable.call (f : Callable) (v : List ℝ) : Except PyErr ℝ :=
  if v.length = f.formals.length then f.value v else .error (.typeError "wrong number of positional arguments")

/-- A call `f(x=…, y=…)`. -/
def Callable.callKw (f : Callable) (kw : List (String × ℝ)) : Except PyErr ℝ :=
  match f.formals.mapM fun a => kw.lookup a with
  | some v => if kw.length = v.length then f.value v else .error (.typeError "got an unexpected keyword argument")
  | .none => .error (.typeError "missing required positional argument")

/-- `_check_dens_func_arguments`. continuous_injection.py:323-346 -/
def checkArguments (f : Callable) : Except PyErr (List String) :=
  match f.args with
  | [] => .error (.indexError "list index out of range")
  | a :: l =>
    let argList := if a = "self" then l else a :: l
    if ¬ (argList = ["x", "y", "z"] ∨ argList = ["z", "r"]) then
      .error (.valueError "The argument `dens_func` needs to be a function of z, r or a function of x, y, z.")
    else .ok argList

/-- The density function of `add_new_species`. `boost` is the factor `coef` if the simulation is in a boosted frame. The function is only
changed if a density `n` is given. main.py:893-895, 940-949 -/
def speciesFunc (boost : Option ℝ) (boostPositions : Bool) (f : Option Callable) : Except PyErr (Option Callable) :=
  match boost, f with
  | some coef, some f =>
    if boostPositions then do
      let args ← checkArguments f
      if args = ["z", "r"] then
        return some ⟨["z", "r"], fun v => match v with
          | [z, r] => f.call [coef * z, r]
          | _ => .error (.typeError "")⟩
      else
        return some ⟨["x", "y", "z"], fun v => match v with
          | [x, y, z] => f.call [x, y, coef * z]
          | _ => .error (.typeError "")⟩
    else .ok (some f)
  | _, f => .ok f

/-- The temporary density function of `generate_particles`. continuous_injection.py:169-180 -/
def movedFunc (vEnd time : ℝ) (f : Option Callable) : Except PyErr (Option Callable) :=
  match f with
  | some f => do
    let args ← checkArguments f
    if args = ["z", "r"] then
      return some ⟨["z", "r"], fun v => match v with
        | [z, r] => f.call [z - vEnd * time, r]
        | _ => .error (.typeError "")⟩
    else
      return some ⟨["x", "y", "z"], fun v => match v with
        | [x, y, z] => f.call [x, y, z - vEnd * time]
        | _ => .error (.typeError "")⟩
  | .none => .ok .none

/-- A macroparticle: position, radius of its ring, weight. -/
@[ext] structure Macro where
  (x y z r w : ℝ)

/-- The arguments of `generate_evenly_spaced`. `theta iz ir it` is the angle of a particle, after the random shift of the angles. -/
structure Slab where
  Npz : ℤ
  (zmin zmax : ℝ)
  Npr : ℕ
  (rmin rmax : ℝ)
  Nptheta : ℕ
  n : ℝ
  theta : ℕ → ℕ → ℕ → ℝ

/-- Positions and weights before the modulation by the density. continuous_injection.py:213-238 -/
noncomputable def Slab.mesh (s : Slab) : List Macro :=
  let dz := (s.zmax - s.zmin) / s.Npz
  let dr := (s.rmax - s.rmin) / s.Npr
  let dtheta := 2 * Real.pi / s.Nptheta
  (List.range s.Npz.toNat).flatMap fun (iz : ℕ) => (List.range s.Npr).flatMap fun (ir : ℕ) => (List.range s.Nptheta).map fun (it : ℕ) =>
    let z := s.zmin + dz * (iz + 1 / 2)
    let r := s.rmin + dr * (ir + 1 / 2)
    ⟨r * Real.cos (s.theta iz ir it), r * Real.sin (s.theta iz ir it), z, r, s.n * r * dtheta * dr * dz⟩

/-- The density function on a particle. continuous_injection.py:242-245 -/
def evalAt (f : Callable) (args : List String) (p : Macro) : Except PyErr ℝ :=
  if args = ["x", "y", "z"] then f.callKw [("x", p.x), ("y", p.y), ("z", p.z)]
  else f.callKw [("z", p.z), ("r", p.r)]

open Classical in
/-- `generate_evenly_spaced`. continuous_injection.py:203-290 -/
noncomputable def generate (s : Slab) (f : Option Callable) : Except PyErr (List Macro) :=
  if 0 < s.Npz * s.Npr * s.Nptheta then do
    let l ← match f with
      | .none => .ok s.mesh
      | some f => do
        let args ← checkArguments f
        s.mesh.mapM fun p => do
          let d ← evalAt f args p
          return { p with w := p.w * d }
    return l.filter fun p => 0 < p.w
  else .ok []

/-- The particles that `add_new_species` creates at the beginning. main.py:893-949, particles.py:160-163 -/
noncomputable def load (boost : Option ℝ) (boostPositions : Bool) (s : Slab) (f : Option Callable) : Except PyErr (List Macro) := do
  let f ← speciesFunc boost boostPositions f
  generate s f

/-- The particles that the injector of this species creates at the time `time`. main.py:893-949, continuous_injection.py:159-197 -/
noncomputable def inject (boost : Option ℝ) (boostPositions : Bool) (vEnd time : ℝ) (s : Slab) (f : Option Callable) :
    Except PyErr (List Macro) := do
  let f ← speciesFunc boost boostPositions f
  let f ← movedFunc vEnd time f
  generate s f

end Fbpic.DensF
