import Verif.Model.AtomicData
import Verif.Model.Ionization
import Mathlib.Analysis.SpecialFunctions.Pow.Real
import Mathlib.Analysis.SpecialFunctions.Gamma.Basic

/-!
# The ADK ionization probability

Models `Ionizer.initialize_ADK_parameters` (`ionizer.py:142-188`) and the device functions
`get_E_amplitude`, `get_ionization_probability` (`inline_functions.py:11-48`), and the test
`random_draw[ip] < p` (`numba_methods.py:58-66`, same in `cuda_methods.py`). Exact real arithmetic;
`scipy.special.gamma` is the gamma function, `**` with a real exponent is `Real.rpow`.
-/

namespace Fbpic.Adk

/-- Physical constants read from scipy. ionizer.py:30, 172-173 -/
structure Consts where
  /-- fine-structure constant -/
  alpha : ℝ
  /-- classical electron radius -/
  re : ℝ
  c : ℝ
  me : ℝ
  e : ℝ

/-- `wa = alpha**3 * c / r_e`. ionizer.py:174 -/
noncomputable def Consts.wa (K : Consts) : ℝ := K.alpha ^ 3 * K.c / K.re

/-- `Ea = m_e*c**2/e * alpha**4/r_e`. ionizer.py:175 -/
noncomputable def Consts.Ea (K : Consts) : ℝ := K.me * K.c ^ 2 / K.e * K.alpha ^ 4 / K.re

/-- What `initialize_ADK_parameters` sets. -/
structure Params where
  levelMax : ℕ
  power : List ℝ
  prefactor : List ℝ
  expPrefactor : List ℝ

/-- `n_eff = Z * np.sqrt( UH/Uion )` with `Z = arange + 1`. ionizer.py:178-179 -/
noncomputable def nEff (UH U : ℝ) (i : ℕ) : ℝ := ((i : ℝ) + 1) * √(UH / U)

/-- `C2`. ionizer.py:181 -/
noncomputable def c2 (n l : ℝ) : ℝ :=
  (2 : ℝ) ^ (2 * n) / (n * Real.Gamma (n + l + 1) * Real.Gamma (n - l))

/-- `self.adk_power`. ionizer.py:183 -/
noncomputable def power (n : ℝ) : ℝ := -(2 * n - 1)

/-- `self.adk_prefactor`. ionizer.py:184-185 -/
noncomputable def prefactor (K : Consts) (dt UH U n l : ℝ) : ℝ :=
  dt * K.wa * c2 n l * (U / (2 * UH)) * (2 * (U / UH) ^ (3 / 2 : ℝ) * K.Ea) ^ (2 * n - 1)

/-- `self.adk_exp_prefactor`. ionizer.py:186 -/
noncomputable def expPrefactor (K : Consts) (UH U : ℝ) : ℝ :=
  -2 / 3 * (U / UH) ^ (3 / 2 : ℝ) * K.Ea

/-- The arrays, one entry per ionization level (`Uion`, `UH` in Joules). ionizer.py:176-186 -/
noncomputable def tables (K : Consts) (dt : ℝ) (UH : ℝ) (Uion : List ℝ) (levelMax : ℕ) : Params :=
  let l := nEff UH (Uion.headD 0) 0 - 1
  { levelMax := levelMax
    power := Uion.mapIdx fun i U => power (nEff UH U i)
    prefactor := Uion.mapIdx fun i U => prefactor K dt UH U (nEff UH U i) l
    expPrefactor := Uion.mapIdx fun _ U => expPrefactor K UH U }

/-- `initialize_ADK_parameters`. `level_max` is `None` or a (non-negative) integer. The last
branch stands for the `TypeError` that `get_ionization_energies('H')[0]` would give if hydrogen
were not in the table. ionizer.py:142-188 -/
noncomputable def initAdk (K : Consts) (data : List Row) (cache : Cache) (element : String) (dt : ℝ)
    (levelMax : Option ℕ) : Except PyErr (Params × Cache) :=
  match getEnergies data cache element with
  | .error er => .error er
  | .ok (none, _) => .error (.valueError "Unknown ionizable element")
  | .ok (some ev, cache) =>
    if levelMax.getD ev.length > ev.length then .error (.valueError "Chosen level_max cannot exceed")
    else
      match getEnergies data cache "H" with
      | .error er => .error er
      | .ok (some (uh :: _), cache) =>
        .ok (tables K dt (K.e * uh) (ev.map fun u : ℚ => K.e * (u : ℝ)) (levelMax.getD ev.length), cache)
      | .ok (_, _) => .error (.typeError "'NoneType' object is not subscriptable")

/-- `E2_on_particle` in `get_E_amplitude`. inline_functions.py:19-25 -/
noncomputable def e2OnParticle (ux uy uz Ex Ey Ez cBx cBy cBz : ℝ) : ℝ :=
  let uE := ux * Ex + uy * Ey + uz * Ez
  let gamma := √(1 + ux ^ 2 + uy ^ 2 + uz ^ 2);
  -(uE) ^ 2 + (gamma * Ex + uy * cBz - uz * cBy) ^ 2
    + (gamma * Ey + uz * cBx - ux * cBz) ^ 2
    + (gamma * Ez + ux * cBy - uy * cBx) ^ 2

/-- What the kernel reads of one ion: momentum, electric field, magnetic field times `c`. -/
structure Probe where
  ux : ℝ
  uy : ℝ
  uz : ℝ
  Ex : ℝ
  Ey : ℝ
  Ez : ℝ
  cBx : ℝ
  cBy : ℝ
  cBz : ℝ

/-- First result of `get_E_amplitude`. (`math.sqrt` would raise on a negative number; `Real.sqrt`
gives 0: see `C82_field`, the argument is not negative.) inline_functions.py:27 -/
noncomputable def Probe.E (q : Probe) : ℝ :=
  √(e2OnParticle q.ux q.uy q.uz q.Ex q.Ey q.Ez q.cBx q.cBy q.cBz)

/-- Second result of `get_E_amplitude`. inline_functions.py:20 -/
noncomputable def Probe.gamma (q : Probe) : ℝ := √(1 + q.ux ^ 2 + q.uy ^ 2 + q.uz ^ 2)

/-- `get_ionization_probability`. inline_functions.py:32-48 -/
noncomputable def probability (E gamma prefactor power expPrefactor : ℝ) : ℝ :=
  if E = 0 then 0
  else
    let wDtau := 1 / gamma * prefactor * E ^ power * Real.exp (expPrefactor / E)
    1 - Real.exp (-wDtau)

/-- The probability computed for one ion found at `level`; `none` stands for an access beyond the
end of the ADK arrays. numba_methods.py:58-63 -/
noncomputable def ionProb (A : Params) (q : Probe) (level : ℕ) : Option ℝ := do
  let pre ← A.prefactor[level]?
  let pow ← A.power[level]?
  let ex ← A.expPrefactor[level]?
  return probability q.E q.gamma pre pow ex

open Classical in
/-- `random_draw[ip] < p`: the decision that `ionizeOne` (Model/Ionization.lean) takes.
numba_methods.py:65 -/
noncomputable def ionDecide (A : Params) (q : ℕ → Probe) (draw : ℕ → ℝ) (ip level : ℕ) : Bool :=
  match ionProb A (q ip) level with
  | some p => if draw ip < p then true else false
  | none => false

end Fbpic.Adk
