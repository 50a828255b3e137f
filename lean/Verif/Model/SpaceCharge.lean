import Verif.Model.DirectLaser
import Verif.Model.Deposit

/-!
# `lpa_utils/bunch.py`: initial space-charge fields

The transforms between the interpolation and the spectral grid and the filter are a parameter.
-/

namespace Fbpic.SpaceCharge

open Complex

/-- Weight and inverse Lorentz factor of a macroparticle. -/
structure WG where
  (w invGamma : ℝ)

/-- `gamma` in `get_space_charge_fields` (bunch.py:861-879): the particles of all ranks, `none` if the sum of the weights is 0 (nothing is
done then). `allreduce` sums over the ranks. -/
noncomputable def meanGamma (ranks : List (List WG)) : Option ℝ :=
  let wSum := (ranks.map fun l => (l.map fun p => p.w).sum).sum
  let wGammaSum := (ranks.map fun l => (l.map fun p => p.w * 1 / p.invGamma).sum).sum
  if wSum = 0 then none else some (wGammaSum / wSum)

/-- `get_space_charge_spect` in one cell (bunch.py:946-1007). -/
noncomputable def spaceChargeCell (k : Consts) (gamma : ℝ) (direction : String) (neglect : Bool) (kz kr : ℝ) (s : SpecCell) : SpecCell :=
  let beta : ℝ := Real.sqrt (1 - 1 / gamma ^ 2)
  let beta : ℝ := if direction = "backward" then beta * -1 else beta
  let K2 : ℝ := kr ^ 2 + kz ^ 2 * 1 / gamma ^ 2
  let invK2 : ℝ := if K2 ≠ 0 then 1 / K2 else 0
  let phi : ℂ := s.rhoPrev * invK2 / k.eps0
  let Ap : ℂ := s.Jp * invK2 * k.mu0
  let Am : ℂ := s.Jm * invK2 * k.mu0
  let Az : ℂ := s.Jz * invK2 * k.mu0
  let s := { s with Ep := s.Ep + 0.5 * kr * phi, Em := s.Em + -0.5 * kr * phi,
                    Ez := s.Ez + (-I * kz * phi + I * beta * k.c * kz * Az) }
  let s := if !neglect then { s with Ep := s.Ep + I * beta * k.c * kz * Ap, Em := s.Em + I * beta * k.c * kz * Am } else s
  let s := { s with Bp := s.Bp + -(0.5 * I) * kr * Az, Bm := s.Bm + -(0.5 * I) * kr * Az }
  if !neglect then
    { s with Bp := s.Bp + kz * Ap, Bm := s.Bm - kz * Am, Bz := s.Bz + (I * kr * Ap + I * kr * Am) }
  else s

/-- `get_space_charge_fields` (bunch.py:838-943) after the deposition: `src k` are the deposited arrays of rank `k`, `solve gamma` the
calculation on the global grid (transforms, filter, `get_space_charge_spect`). Gathering, scattering and adding are the same statements as
in `add_laser_direct`. -/
noncomputable def addSpaceCharge (cm : Comm) (Nr : ℕ) (ranks : List (List WG)) (src : ℕ → DirectLaser.Arrays)
    (solve : ℝ → DirectLaser.Arrays → DirectLaser.Arrays) (fld : ℕ → DirectLaser.Arrays) (k : ℕ) : DirectLaser.Arrays :=
  match meanGamma ranks with
  | none => fld k
  | some gamma => DirectLaser.addLaserDirect cm Nr src (solve gamma) fld k

end Fbpic.SpaceCharge
