import Verif.Model.Step

/-!
# Specification for C40, C41: what a PIC cycle has to do
-/

namespace Fbpic.Spec

open Step

variable {K : Type} [Field K]

/-- Motion at constant velocity during `h`. -/
def move (x v : Vec K) (h : K) : Vec K := ⟨x.x + h * v.x, x.y + h * v.y, x.z + h * v.z⟩

/-- Velocity of the grid: `v_comoving` with the Galilean scheme, else zero (the moving window moves
the grid by whole cells together with its fields, see C12). -/
def gridVelocity (c : Cfg K) : K := if c.useGalilean then c.vComoving else 0

/-- Charge densities and current handed to the field push in one cycle that starts with the particle
at `x0`, moves it with velocity `v1` to `t + dt/2` and `v2` to `t + dt`, and the antenna particle
from `a0` with velocity `av`, on a grid that moves from `g0` with velocity `vg` (velocities are zero
for what does not move). `v` is the velocity deposited in the current; `e` tells whether the guard
cells of the charge densities are exchanged. -/
structure Centred (e : Bool) (dt : K) (x0 v1 v2 v a0 av : Vec K) (g0 vg : K) (s : Sources K) : Prop where
  rhoPrev : s.rhoPrev = some ⟨x0, a0, g0, e⟩
  rhoNext : s.rhoNext = some ⟨move (move x0 v1 (dt / 2)) v2 (dt / 2), move a0 av dt, g0 + vg * dt, e⟩
  J : ∃ b, s.J = some ⟨move x0 v1 (dt / 2), v, move a0 av (dt / 2), av, g0 + vg * (dt / 2), b⟩

/-- The intermediate densities of the cross-deposition: transverse positions at the end of the step,
longitudinal ones (of particles and grid) at the beginning, and conversely. -/
structure CrossCentred (dt : K) (x0 v a0 av : Vec K) (g0 vg : K) (s : Sources K) : Prop where
  xy : ∃ b, s.rhoNextXY = some ⟨⟨x0.x + dt * v.x, x0.y + dt * v.y, x0.z⟩,
    ⟨a0.x + dt * av.x, a0.y + dt * av.y, a0.z⟩, g0, b⟩
  z : ∃ b, s.rhoNextZ = some ⟨⟨x0.x, x0.y, x0.z + dt * v.z⟩,
    ⟨a0.x, a0.y, a0.z + dt * av.z⟩, g0 + vg * dt, b⟩

/-- The calls of one kind in a log. -/
def pushes (l : List (Ev K)) : List (Sources K) :=
  l.filterMap fun | .push s => some s | _ => none

def corrections (l : List (Ev K)) : List (Sources K) :=
  l.filterMap fun | .correctCurrents s => some s | _ => none

def momentumPushes (l : List (Ev K)) : List K :=
  l.filterMap fun | .pushP t => some t | _ => none

def diagWrites (l : List (Ev K)) : List (ℕ × Sources K × Flags) :=
  l.filterMap fun | .diagWrite i s f => some (i, s, f) | _ => none

def checkpointWrites (l : List (Ev K)) : List ℕ :=
  l.filterMap fun | .checkpointWrite i => some i | _ => none

/-- Position from which the cycle starts: the particles are exchanged between the ranks at the first
iteration of a call and at the multiples of the exchange period. -/
def startPos (c : Cfg K) (d : Dynamics K) (first : Bool) (w : World K) : Vec K :=
  if first ∨ w.iteration % c.exchangePeriod = 0 then d.exchange w.time w.pos else w.pos

/-- `v`, or zero if the particles do not move. -/
def ifMoving (o : Opts) (v : Vec K) : Vec K := if o.movePositions then v else ⟨0, 0, 0⟩

/-- Velocity after the momentum push at `t + dt/2`. -/
def pushedVel (c : Cfg K) (o : Opts) (d : Dynamics K) (x0 : Vec K) (w : World K) : Vec K :=
  if o.moveMomenta then d.pushP (w.time + c.dt / 2) x0 w.vel else w.vel

/-- One cycle, from `w` to `w'`: one momentum push at `t + dt/2`, half a position push before and
after it, one field push with sources centred in time, one iteration more. The diagnostics are
offered the iteration before the cycle and the checkpoints the one after it. -/
structure Cycle (c : Cfg K) (o : Opts) (d : Dynamics K) (first : Bool) (w w' : World K) : Prop where
  iteration : w'.iteration = w.iteration + 1
  time : w'.time = w.time + c.dt
  pos : let x0 := startPos c d first w
    let xh := move x0 (ifMoving o (pushedVel c o d x0 w)) (c.dt / 2)
    w'.pos = move xh (ifMoving o w'.vel) (c.dt / 2) ∧
      w'.vel = d.elementary (w.time + c.dt / 2) xh (pushedVel c o d x0 w)
  antenna : w'.avel = d.antenna (w.time + c.dt / 2) ∧ w'.apos = move w.apos w'.avel c.dt
  grid : w'.grid = w.grid + gridVelocity c * c.dt
  pushed : ∃ s, pushes w'.log = pushes w.log ++ [s] ∧
    Centred o.useTrueRho c.dt (startPos c d first w) (ifMoving o (pushedVel c o d (startPos c d first w) w))
      (ifMoving o w'.vel) w'.vel w.apos w'.avel w.grid (gridVelocity c) s ∧
    (c.size > 1 → ∃ j, s.J = some j ∧ j.exchanged = true) ∧
    w'.src.rhoPrev = s.rhoNext
  corrected : if o.correctCurrents then
      ∃ s, corrections w'.log = corrections w.log ++ [s] ∧
        Centred o.useTrueRho c.dt (startPos c d first w) (ifMoving o (pushedVel c o d (startPos c d first w) w))
          (ifMoving o w'.vel) w'.vel w.apos w'.avel w.grid (gridVelocity c) s ∧
        (∃ j, s.J = some j ∧ j.exchanged = false) ∧
        (c.crossDep → ifMoving o (pushedVel c o d (startPos c d first w) w) = ifMoving o w'.vel →
          CrossCentred c.dt (startPos c d first w) (ifMoving o w'.vel) w.apos w'.avel w.grid
            (gridVelocity c) s)
    else corrections w'.log = corrections w.log
  momentum : momentumPushes w'.log =
    momentumPushes w.log ++ if o.moveMomenta then [w.time + c.dt / 2] else []
  diags : ∃ r j f, diagWrites w'.log = diagWrites w.log ++ [(w.iteration, r, f)] ∧
    r.rhoPrev = some ⟨startPos c d first w, w.apos, w.grid, f.rhoPrev⟩ ∧ r.J = some j ∧
    f.J = true ∧ (c.size > 1 → j.exchanged = true)
  checkpoints : checkpointWrites w'.log = checkpointWrites w.log ++ [w.iteration + 1]

/-- What the exchanged flags say about the sources at the beginning of a cycle other than the first
one of a call. -/
structure Ready (c : Cfg K) (o : Opts) (w : World K) : Prop where
  rhoPrev : w.src.rhoPrev = some ⟨w.pos, w.apos, w.grid, o.useTrueRho⟩
  flagRho : w.flags.rhoPrev = o.useTrueRho
  flagJ : w.flags.J = true
  J : ∃ j, w.src.J = some j ∧ (c.size > 1 → j.exchanged = true)

/-- The combinations of options that `step` accepts. -/
def Accepted (c : Cfg K) (o : Opts) : Prop :=
  c.size > 1 → o.correctDivE = false ∧ ¬ (o.useTrueRho = true ∧ o.correctCurrents = true)

/-- `n` cycles in any number of calls, from `w` to `w'`. `ex k` tells whether the particles are
exchanged at the beginning of the `k`-th cycle; `mom` are the times of the momentum pushes. The charge
density used as previous one is the next one of the preceding cycle, unless the particles were
exchanged, in which case it is deposited from the exchanged particles. -/
structure Run (c : Cfg K) (d : Dynamics K) (ex : ℕ → Prop) (mom : List K) (n : ℕ) (w w' : World K) :
    Prop where
  iteration : w'.iteration = w.iteration + n
  time : w'.time = w.time + n * c.dt
  momentum : momentumPushes w'.log = momentumPushes w.log ++ mom
  pushed : ∃ ps, pushes w'.log = pushes w.log ++ ps ∧ ps.length = n ∧
    (∀ s, ps[0]? = some s → ∃ r, s.rhoPrev = some r ∧ (ex 0 → r.pos = d.exchange w.time w.pos) ∧
      r.antenna = w.apos ∧ r.grid = w.grid ∧ (¬ ex 0 → w.src.rhoPrev = some r)) ∧
    (∀ k s s', ps[k]? = some s → ps[k + 1]? = some s' →
      ∃ r r', s.rhoNext = some r ∧ s'.rhoPrev = some r' ∧
        (ex (k + 1) → r'.pos = d.exchange (w.time + (k + 1) * c.dt) r.pos) ∧
        r'.antenna = r.antenna ∧ r'.grid = r.grid ∧ (¬ ex (k + 1) → r' = r)) ∧
    (∀ s, ps[n - 1]? = some s → s.rhoNext = w'.src.rhoPrev ∧
      ∃ b, w'.src.rhoPrev = some ⟨w'.pos, w'.apos, w'.grid, b⟩)
  still : n = 0 → w'.pos = w.pos ∧ w'.apos = w.apos ∧ w'.grid = w.grid ∧ w'.src = w.src
  diags : (diagWrites w'.log).map Prod.fst = (diagWrites w.log).map Prod.fst ++ List.range' w.iteration n
  checkpoints : checkpointWrites w'.log = checkpointWrites w.log ++ List.range' (w.iteration + 1) n

/-- Cycles at the beginning of which the particles are exchanged, for calls starting at iteration
`it`. -/
def exchangesAt (c : Cfg K) : ℕ → List (ℕ × Opts) → ℕ → Prop
  | _, [], _ => False
  | it, (n, _) :: L, k =>
    (k < n ∧ (k = 0 ∨ (it + k) % c.exchangePeriod = 0)) ∨ (n ≤ k ∧ exchangesAt c (it + n) L (k - n))

/-- Times of the momentum pushes, for calls starting at time `t`. -/
def momentumTimes (c : Cfg K) : K → List (ℕ × Opts) → List K
  | _, [] => []
  | t, (n, o) :: L => (if o.moveMomenta then (List.range n).map fun k : ℕ => t + k * c.dt + c.dt / 2 else []) ++
      momentumTimes c (t + n * c.dt) L

end Fbpic.Spec
