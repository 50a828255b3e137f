import Verif.Model.Smoothing
import Verif.Model.SpectShift
import Verif.Model.Comm

/-!
# Reach of the stencil of the field solver (fields/utility_methods.py:69-185)

The real numbers stand for the double-precision numbers of the code; `1.e-16` is the number of the code.
-/

namespace Fbpic

open Complex

section
variable (N : ℕ) [NeZero N] (c : ℝ) (kz : ℕ → ℝ) (kperp cdt : ℝ) (theta : ℕ → ℂ)

/-- `k = np.sqrt(kz**2 + kperp**2)` (utility_methods.py:104). -/
noncomputable def reachK (i : ℕ) : ℝ := Real.sqrt (kz i ^ 2 + kperp ^ 2)

/-- `cos_stencil` (utility_methods.py:116-117). -/
noncomputable def cosStencil (j : ℕ) : ℂ :=
  ifftZ N (fun k => theta k.val ^ 2 * (Real.cos (reachK kz kperp k.val * cdt) : ℝ)) (j : ZMod N)

open Classical in
/-- `sin_z_stencil` (utility_methods.py:118-119). -/
noncomputable def sinZStencil (j : ℕ) : ℂ :=
  ifftZ N (fun k => if reachK kz kperp k.val = 0 then (kz k.val : ℂ)
    else theta k.val ^ 2 * (Real.sin (reachK kz kperp k.val * cdt) : ℝ) / (reachK kz kperp k.val : ℝ) * kz k.val) (j : ZMod N)

open Classical in
/-- `sin_perp_stencil` (utility_methods.py:120-121). -/
noncomputable def sinPerpStencil (j : ℕ) : ℂ :=
  ifftZ N (fun k => if reachK kz kperp k.val = 0 then (kperp : ℂ)
    else theta k.val ^ 2 * (Real.sin (reachK kz kperp k.val * cdt) : ℝ) / (reachK kz kperp k.val : ℝ) * kperp) (j : ZMod N)

/-- `alpha` (utility_methods.py:124-126). -/
noncomputable def reachAlpha (j : ℕ) : ℝ :=
  Real.sqrt (‖cosStencil N kz kperp cdt theta j‖ ^ 2 + ‖sinZStencil N kz kperp cdt theta j‖ ^ 2 + ‖sinPerpStencil N kz kperp cdt theta j‖ ^ 2)

/-- `theta` (utility_methods.py:105-113). `np.abs(None)` raises `TypeError`. -/
noncomputable def reachTheta (v : Option ℝ) (useGalilean : Bool) : Except PyErr (ℕ → ℂ) :=
  if useGalilean then
    match v with
    | none => .error (.typeError "bad operand type for abs(): 'NoneType'")
    | some v => .ok (fun i => exp (I * (|v| : ℝ) * kz i * cdt / c / 2))
  else .ok (fun _ => 1)

open Classical in
/-- `stencil_reach` (utility_methods.py:69-132). `np.where(…)[0][0]` raises `IndexError` if there is no such cell. -/
noncomputable def stencilReach (v : Option ℝ) (useGalilean : Bool) : Except PyErr ℕ := do
  let theta ← reachTheta c kz cdt v useGalilean
  match (List.range (N / 2)).find? (fun j => decide (|reachAlpha N kz kperp cdt theta j| < 1 / 10 ^ 16)) with
  | some j => .ok j
  | none => .error (.indexError "index 0 is out of bounds for axis 0 with size 0")

/-- `get_stencil_reach` (utility_methods.py:135-185). The error of an invalid order does not depend on `k`. -/
noncomputable def getStencilReach (dz : ℝ) (nOrder : ℤ) (v : Option ℝ) (useGalilean : Bool) : Except PyErr ℕ := do
  let _ ← modifiedK 0 nOrder dz
  stencilReach N c (fun i => (modifiedK (kzTrue N dz i) nOrder dz).toOption.getD 0) 0.5 cdt v useGalilean

end

end Fbpic
