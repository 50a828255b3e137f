import Verif.Model.Antenna

/-! # `lpa_utils/laser/laser.py`: `add_laser_pulse` -/

namespace Fbpic.LaserPulse

open BoostConv

/-- Arguments of `add_laser_pulse` (laser.py:14-15) and what it uses of the profile: `E_field`, `propag_direction`, and whether it is a
`FromLasyFileLaser`. -/
structure Args where
  profile : ℝ → ℝ → ℝ → ℝ → ℝ × ℝ
  direction : ℝ
  isLasy : Bool
  gammaBoost : Option ℝ
  method : String
  z0 : Option ℝ
  v : ℝ

/-- What is done: fields are added to the grid (see `DirectLaser`), or an antenna is appended to the simulation. -/
inductive Pulse
  | direct (boost : Option Conv)
  | antenna (a : Antenna.Ant)

/-- `add_laser_pulse`, laser.py:66-108. `npr` and `epsilon` have their default values (antenna_injection.py:57). -/
noncomputable def addLaserPulse (k : Antenna.Consts) (dr : ℝ) (Nr Nm : ℕ) (x : Args) : Except PyErr Pulse := do
  let boost : Option Conv ← match x.gammaBoost with
    | none => pure none
    | some g =>
      if g ≠ 1 then
        if x.direction = 1 then pure (some ⟨k.c, g⟩)
        else throw (.valueError "For now, backward-propagating lasers cannot be used in the boosted-frame.")
      else pure none
  if x.method = "direct" then
    if x.isLasy then throw (.runtimeError "A laser profile from a `lasy` file cannot be emitted with the `direct` method.")
    else return .direct boost
  else if x.method = "antenna" then
    match x.z0 with
    | none => throw (.valueError "You need to provide `z0_antenna`.")
    | some z0 =>
      if x.isLasy ∧ x.v ≠ 0 then
        throw (.runtimeError "A laser profile from a `lasy` file cannot be emitted with a moving antenna.")
      else
        let a ← Antenna.make k x.profile x.direction z0 x.v dr Nr Nm 2 (1 / 100) boost
        return .antenna a
  else throw (.valueError "Unknown laser method")

end Fbpic.LaserPulse
