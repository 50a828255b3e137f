import Verif.Model.Deposit
import Verif.Model.BoostConv
import Mathlib.Analysis.SpecialFunctions.Trigonometric.Basic

/-!
# `lpa_utils/laser/antenna_injection.py`: `LaserAntenna`

The GPU deposition (same arguments, other kernel) and the copies between CPU and GPU are not modelled. The arrays of the virtual
particles are one list of records.
-/

namespace Fbpic.Antenna

open BoostConv

/-- Physical constants, antenna_injection.py:10-11. -/
structure Consts where
  (c e re eps0 : ℝ)

/-- A virtual particle (the positive one of a pair): antenna_injection.py:140-160. -/
structure VP where
  (x y z w ex ey vx vy vz : ℝ)

/-- The attributes of an antenna. `profile x y z t` is `laser_profile.E_field`. -/
structure Ant where
  profile : ℝ → ℝ → ℝ → ℝ → ℝ × ℝ
  boost : Option Conv
  mobility : ℝ
  parts : List VP
  onRank : Bool

/-- `alpha_weights`, antenna_injection.py:121. -/
noncomputable def alphaWeights (k : Consts) (nptheta npr : ℕ) (epsilon dr : ℝ) : ℝ :=
  2 * Real.pi / (nptheta * npr * epsilon) * dr / k.re * k.e

/-- `mobility_coef`, antenna_injection.py:124-132. -/
noncomputable def mobilityCoef (k : Consts) (nptheta npr : ℕ) (alpha dr direction v : ℝ) (boost : Option Conv) : ℝ :=
  let mob := 2 * Real.pi * dr ^ 2 / (nptheta * npr * alpha) * k.eps0 * k.c
  match boost with
  | some b => mob / b.gamma0
  | none => mob * (1 - direction * v / k.c)

/-- Initial virtual particle at the radius number `i` and the angle number `j`, antenna_injection.py:137-169. -/
noncomputable def initPart (k : Consts) (nptheta npr : ℕ) (alpha dr z0 v : ℝ) (boost : Option Conv) (j i : ℕ) : VP :=
  let r := dr / npr * (i + 1 / 2)
  let theta := 2 * Real.pi / nptheta * j
  let z := match boost with | some b => b.staticLength z0 | none => z0
  let vz := match boost with
    | some b => b.velocity 0
    | none => if v ≠ 0 then 0 + v else 0
  ⟨r * Real.cos theta, r * Real.sin theta, z, alpha * r / dr, 0, 0, 0, 0, vz⟩

/-- `LaserAntenna.__init__`, antenna_injection.py:55-175 (on the CPU). -/
noncomputable def make (k : Consts) (profile : ℝ → ℝ → ℝ → ℝ → ℝ × ℝ) (direction z0 v dr : ℝ) (Nr Nm npr : ℕ)
    (epsilon : ℝ) (boost : Option Conv) : Except PyErr Ant :=
  let bad : Bool := match boost with
    | some b => decide (v ≠ 0 ∧ b.gamma0 ≠ 1)
    | none => false
  if bad then .error (.valueError "For now, the boosted frame is incompatible with non-zero v_antenna.")
  else
    let nptheta := 2 * Nm
    let alpha := alphaWeights k nptheta npr epsilon dr
    .ok { profile := profile, boost := boost,
          mobility := mobilityCoef k nptheta npr alpha dr direction v boost,
          parts := (List.range nptheta).flatMap fun j => (List.range (Nr * npr)).map fun i =>
            initPart k nptheta npr alpha dr z0 v boost j i,
          onRank := false }

/-- `update_current_rank`, antenna_injection.py:194-221; `baseline_z[0]` fails on an empty array. -/
noncomputable def updateCurrentRank (a : Ant) (cm : Comm) (zminGlobal dz : ℝ) (rank : ℕ) : Except PyErr Ant := do
  let (zmin, zmax) ← cm.getZminZmax zminGlobal dz true true false (some rank)
  match a.parts with
  | [] => throw (.indexError "index 0 is out of bounds")
  | p :: _ => return { a with onRank := decide (p.z ≥ zmin ∧ p.z < zmax) }

/-- `push_x`, antenna_injection.py:223-247. -/
def pushX (a : Ant) (dt xPush yPush zPush : ℝ) : Ant :=
  { a with parts := a.parts.map fun p =>
      { p with ex := p.ex + dt * xPush * p.vx, ey := p.ey + dt * yPush * p.vy, z := p.z + dt * zPush * p.vz } }

/-- `update_v`, antenna_injection.py:249-311. -/
noncomputable def updateV (k : Consts) (a : Ant) (t dt : ℝ) : Ant :=
  { a with parts := a.parts.map fun p =>
      let x := p.x + p.vx * (1 / 2) * dt
      let y := p.y + p.vy * (1 / 2) * dt
      let z := p.z + p.vz * (1 / 2) * dt
      let zlab := match a.boost with | some b => b.gamma0 * (z + k.c * b.beta0 * t) | none => z
      let tlab := match a.boost with | some b => b.gamma0 * (t + 1 / k.c * b.beta0 * z) | none => t
      let E := a.profile x y zlab tlab
      { p with vx := a.mobility * E.1, vy := a.mobility * E.2 } }

/-- The arguments of the kernels for the charge `q`, antenna_injection.py:389-442. -/
noncomputable def species (k : Consts) (q : ℝ) (a : Ant) : DepSpecies :=
  { q := q, shape := .linear, ptcls := a.parts.map fun p =>
      { x := p.x + q * p.ex, y := p.y + q * p.ey, z := p.z, w := p.w,
        ux := q * p.vx / k.c, uy := q * p.vy / k.c, uz := p.vz / k.c, invGamma := 1 } }

/-- `deposit` into the buffers of mode `m`, antenna_injection.py:314-348. -/
noncomputable def deposit (k : Consts) (f : DepField) (g : CylGrid) (beta : Shape → ℕ → List ℝ) (m nthreads : ℕ)
    (G : ℕ → Buf) (a : Ant) : Except PyErr (ℕ → Buf) :=
  if !a.onRank then .ok G
  else ([-1, 1] : List ℝ).foldlM (fun G q => depositSpecies f k.c g beta m nthreads G (species k q a)) G

/-- `Simulation.deposit` with antennas (main.py:600-656): first all species, then all antennas, then the reduction of the
buffers of the threads. Extends `depositAll` (without antennas). -/
noncomputable def depositAllWith (k : Consts) (f : DepField) (g : CylGrid) (beta : Shape → ℕ → List ℝ) (m nthreads : ℕ)
    (sps : List DepSpecies) (ants : List Ant) : Except PyErr Buf := do
  let G ← sps.foldlM (depositSpecies f k.c g beta m nthreads) (fun _ _ _ => 0)
  let G ← ants.foldlM (deposit k f g beta m nthreads) G
  return sumReduce g.Nz g.Nr nthreads G (fun _ _ => 0)

/-- What the PIC cycle and the cross-deposition call (main.py:491-522, 684-713). -/
inductive Op | push (dt xPush yPush zPush : ℝ) | update (t dt : ℝ)

/-- One call. -/
noncomputable def Op.run (k : Consts) (a : Ant) : Op → Ant
  | .push dt xp yp zp => pushX a dt xp yp zp
  | .update t dt => updateV k a t dt

end Fbpic.Antenna
