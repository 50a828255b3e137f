import Verif.Spec.Step
import Verif.Lemmas.Tactics

/-! # Lemmas for the PIC cycle -/

namespace Fbpic

open Step Spec

variable {K : Type} [Field K]

namespace StepLemmas

@[simp] theorem emit_iteration (e : Ev K) (w : World K) : (w.emit e).iteration = w.iteration := rfl
@[simp] theorem emit_time (e : Ev K) (w : World K) : (w.emit e).time = w.time := rfl
@[simp] theorem emit_pos (e : Ev K) (w : World K) : (w.emit e).pos = w.pos := rfl
@[simp] theorem emit_vel (e : Ev K) (w : World K) : (w.emit e).vel = w.vel := rfl
@[simp] theorem emit_apos (e : Ev K) (w : World K) : (w.emit e).apos = w.apos := rfl
@[simp] theorem emit_avel (e : Ev K) (w : World K) : (w.emit e).avel = w.avel := rfl
@[simp] theorem emit_grid (e : Ev K) (w : World K) : (w.emit e).grid = w.grid := rfl
@[simp] theorem emit_src (e : Ev K) (w : World K) : (w.emit e).src = w.src := rfl
@[simp] theorem emit_flags (e : Ev K) (w : World K) : (w.emit e).flags = w.flags := rfl
@[simp] theorem emit_log (e : Ev K) (w : World K) : (w.emit e).log = w.log ++ [e] := rfl
@[simp] theorem pushX_iteration (h a b e : K) (w : World K) : (w.pushX h a b e).iteration = w.iteration := rfl
@[simp] theorem antennaX_iteration (h a b e : K) (w : World K) : (w.antennaX h a b e).iteration = w.iteration := rfl
@[simp] theorem shiftIf_iteration (c : Cfg K) (h : K) (w : World K) : (w.shiftIf c h).iteration = w.iteration := by
  unfold World.shiftIf; split_ifs <;> rfl
@[simp] theorem pushX_time (h a b e : K) (w : World K) : (w.pushX h a b e).time = w.time := rfl
@[simp] theorem antennaX_time (h a b e : K) (w : World K) : (w.antennaX h a b e).time = w.time := rfl
@[simp] theorem shiftIf_time (c : Cfg K) (h : K) (w : World K) : (w.shiftIf c h).time = w.time := by
  unfold World.shiftIf; split_ifs <;> rfl
@[simp] theorem antennaX_pos (h a b e : K) (w : World K) : (w.antennaX h a b e).pos = w.pos := rfl
@[simp] theorem shiftIf_pos (c : Cfg K) (h : K) (w : World K) : (w.shiftIf c h).pos = w.pos := by
  unfold World.shiftIf; split_ifs <;> rfl
@[simp] theorem pushX_vel (h a b e : K) (w : World K) : (w.pushX h a b e).vel = w.vel := rfl
@[simp] theorem antennaX_vel (h a b e : K) (w : World K) : (w.antennaX h a b e).vel = w.vel := rfl
@[simp] theorem shiftIf_vel (c : Cfg K) (h : K) (w : World K) : (w.shiftIf c h).vel = w.vel := by
  unfold World.shiftIf; split_ifs <;> rfl
@[simp] theorem pushX_apos (h a b e : K) (w : World K) : (w.pushX h a b e).apos = w.apos := rfl
@[simp] theorem shiftIf_apos (c : Cfg K) (h : K) (w : World K) : (w.shiftIf c h).apos = w.apos := by
  unfold World.shiftIf; split_ifs <;> rfl
@[simp] theorem pushX_avel (h a b e : K) (w : World K) : (w.pushX h a b e).avel = w.avel := rfl
@[simp] theorem antennaX_avel (h a b e : K) (w : World K) : (w.antennaX h a b e).avel = w.avel := rfl
@[simp] theorem shiftIf_avel (c : Cfg K) (h : K) (w : World K) : (w.shiftIf c h).avel = w.avel := by
  unfold World.shiftIf; split_ifs <;> rfl
@[simp] theorem pushX_grid (h a b e : K) (w : World K) : (w.pushX h a b e).grid = w.grid := rfl
@[simp] theorem antennaX_grid (h a b e : K) (w : World K) : (w.antennaX h a b e).grid = w.grid := rfl
@[simp] theorem pushX_src (h a b e : K) (w : World K) : (w.pushX h a b e).src = w.src := rfl
@[simp] theorem antennaX_src (h a b e : K) (w : World K) : (w.antennaX h a b e).src = w.src := rfl
@[simp] theorem shiftIf_src (c : Cfg K) (h : K) (w : World K) : (w.shiftIf c h).src = w.src := by
  unfold World.shiftIf; split_ifs <;> rfl
@[simp] theorem pushX_flags (h a b e : K) (w : World K) : (w.pushX h a b e).flags = w.flags := rfl
@[simp] theorem antennaX_flags (h a b e : K) (w : World K) : (w.antennaX h a b e).flags = w.flags := rfl
@[simp] theorem shiftIf_flags (c : Cfg K) (h : K) (w : World K) : (w.shiftIf c h).flags = w.flags := by
  unfold World.shiftIf; split_ifs <;> rfl
@[simp] theorem pushX_pos (h a b e : K) (w : World K) : (w.pushX h a b e).pos =
    ⟨w.pos.x + h * a * w.vel.x, w.pos.y + h * b * w.vel.y, w.pos.z + h * e * w.vel.z⟩ := rfl
@[simp] theorem antennaX_apos (h a b e : K) (w : World K) : (w.antennaX h a b e).apos =
    ⟨w.apos.x + h * a * w.avel.x, w.apos.y + h * b * w.avel.y, w.apos.z + h * e * w.avel.z⟩ := rfl
@[simp] theorem shiftIf_grid (c : Cfg K) (h : K) (w : World K) :
    (w.shiftIf c h).grid = w.grid + gridVelocity c * h := by
  unfold World.shiftIf gridVelocity; split_ifs <;> simp [World.shiftGalilean]
@[simp] theorem pushX_log (h a b e : K) (w : World K) : (w.pushX h a b e).log = w.log ++ [.pushX h a b e] := rfl
@[simp] theorem antennaX_log (h a b e : K) (w : World K) : (w.antennaX h a b e).log = w.log ++ [.antennaX h a b e] := rfl
@[simp] theorem shiftIf_log (c : Cfg K) (h : K) (w : World K) : (w.shiftIf c h).log =
    w.log ++ (if c.useGalilean then [.shiftGalilean h] else []) := by
  unfold World.shiftIf; split_ifs <;> simp [World.shiftGalilean]
@[simp] theorem deposit_iteration (f : Src) (ex : Bool) (w : World K) : (w.deposit f ex).iteration = w.iteration := by
  cases f <;> rfl
@[simp] theorem deposit_time (f : Src) (ex : Bool) (w : World K) : (w.deposit f ex).time = w.time := by
  cases f <;> rfl
@[simp] theorem deposit_pos (f : Src) (ex : Bool) (w : World K) : (w.deposit f ex).pos = w.pos := by
  cases f <;> rfl
@[simp] theorem deposit_vel (f : Src) (ex : Bool) (w : World K) : (w.deposit f ex).vel = w.vel := by
  cases f <;> rfl
@[simp] theorem deposit_apos (f : Src) (ex : Bool) (w : World K) : (w.deposit f ex).apos = w.apos := by
  cases f <;> rfl
@[simp] theorem deposit_avel (f : Src) (ex : Bool) (w : World K) : (w.deposit f ex).avel = w.avel := by
  cases f <;> rfl
@[simp] theorem deposit_grid (f : Src) (ex : Bool) (w : World K) : (w.deposit f ex).grid = w.grid := by
  cases f <;> rfl
@[simp] theorem deposit_log (f : Src) (ex : Bool) (w : World K) : (w.deposit f ex).log = w.log ++ [.deposit f ex] := by
  cases f <;> rfl
@[simp] theorem deposit_rhoPrev_src_rhoNext (ex : Bool) (w : World K) : (w.deposit .rhoPrev ex).src.rhoNext = w.src.rhoNext := rfl
@[simp] theorem deposit_rhoPrev_flags_rhoNext (ex : Bool) (w : World K) : (w.deposit .rhoPrev ex).flags.rhoNext = w.flags.rhoNext := rfl
@[simp] theorem deposit_rhoPrev_src_rhoNextXY (ex : Bool) (w : World K) : (w.deposit .rhoPrev ex).src.rhoNextXY = w.src.rhoNextXY := rfl
@[simp] theorem deposit_rhoPrev_flags_rhoNextXY (ex : Bool) (w : World K) : (w.deposit .rhoPrev ex).flags.rhoNextXY = w.flags.rhoNextXY := rfl
@[simp] theorem deposit_rhoPrev_src_rhoNextZ (ex : Bool) (w : World K) : (w.deposit .rhoPrev ex).src.rhoNextZ = w.src.rhoNextZ := rfl
@[simp] theorem deposit_rhoPrev_flags_rhoNextZ (ex : Bool) (w : World K) : (w.deposit .rhoPrev ex).flags.rhoNextZ = w.flags.rhoNextZ := rfl
@[simp] theorem deposit_rhoPrev_src_J (ex : Bool) (w : World K) : (w.deposit .rhoPrev ex).src.J = w.src.J := rfl
@[simp] theorem deposit_rhoPrev_flags_J (ex : Bool) (w : World K) : (w.deposit .rhoPrev ex).flags.J = w.flags.J := rfl
@[simp] theorem deposit_rhoPrev_src (ex : Bool) (w : World K) : (w.deposit .rhoPrev ex).src.rhoPrev = some ⟨w.pos, w.apos, w.grid, ex⟩ := rfl
@[simp] theorem deposit_rhoPrev_flags (ex : Bool) (w : World K) : (w.deposit .rhoPrev ex).flags.rhoPrev = ex := rfl
@[simp] theorem deposit_rhoNext_src_rhoPrev (ex : Bool) (w : World K) : (w.deposit .rhoNext ex).src.rhoPrev = w.src.rhoPrev := rfl
@[simp] theorem deposit_rhoNext_flags_rhoPrev (ex : Bool) (w : World K) : (w.deposit .rhoNext ex).flags.rhoPrev = w.flags.rhoPrev := rfl
@[simp] theorem deposit_rhoNext_src_rhoNextXY (ex : Bool) (w : World K) : (w.deposit .rhoNext ex).src.rhoNextXY = w.src.rhoNextXY := rfl
@[simp] theorem deposit_rhoNext_flags_rhoNextXY (ex : Bool) (w : World K) : (w.deposit .rhoNext ex).flags.rhoNextXY = w.flags.rhoNextXY := rfl
@[simp] theorem deposit_rhoNext_src_rhoNextZ (ex : Bool) (w : World K) : (w.deposit .rhoNext ex).src.rhoNextZ = w.src.rhoNextZ := rfl
@[simp] theorem deposit_rhoNext_flags_rhoNextZ (ex : Bool) (w : World K) : (w.deposit .rhoNext ex).flags.rhoNextZ = w.flags.rhoNextZ := rfl
@[simp] theorem deposit_rhoNext_src_J (ex : Bool) (w : World K) : (w.deposit .rhoNext ex).src.J = w.src.J := rfl
@[simp] theorem deposit_rhoNext_flags_J (ex : Bool) (w : World K) : (w.deposit .rhoNext ex).flags.J = w.flags.J := rfl
@[simp] theorem deposit_rhoNext_src (ex : Bool) (w : World K) : (w.deposit .rhoNext ex).src.rhoNext = some ⟨w.pos, w.apos, w.grid, ex⟩ := rfl
@[simp] theorem deposit_rhoNext_flags (ex : Bool) (w : World K) : (w.deposit .rhoNext ex).flags.rhoNext = some ex := rfl
@[simp] theorem deposit_rhoNextXY_src_rhoPrev (ex : Bool) (w : World K) : (w.deposit .rhoNextXY ex).src.rhoPrev = w.src.rhoPrev := rfl
@[simp] theorem deposit_rhoNextXY_flags_rhoPrev (ex : Bool) (w : World K) : (w.deposit .rhoNextXY ex).flags.rhoPrev = w.flags.rhoPrev := rfl
@[simp] theorem deposit_rhoNextXY_src_rhoNext (ex : Bool) (w : World K) : (w.deposit .rhoNextXY ex).src.rhoNext = w.src.rhoNext := rfl
@[simp] theorem deposit_rhoNextXY_flags_rhoNext (ex : Bool) (w : World K) : (w.deposit .rhoNextXY ex).flags.rhoNext = w.flags.rhoNext := rfl
@[simp] theorem deposit_rhoNextXY_src_rhoNextZ (ex : Bool) (w : World K) : (w.deposit .rhoNextXY ex).src.rhoNextZ = w.src.rhoNextZ := rfl
@[simp] theorem deposit_rhoNextXY_flags_rhoNextZ (ex : Bool) (w : World K) : (w.deposit .rhoNextXY ex).flags.rhoNextZ = w.flags.rhoNextZ := rfl
@[simp] theorem deposit_rhoNextXY_src_J (ex : Bool) (w : World K) : (w.deposit .rhoNextXY ex).src.J = w.src.J := rfl
@[simp] theorem deposit_rhoNextXY_flags_J (ex : Bool) (w : World K) : (w.deposit .rhoNextXY ex).flags.J = w.flags.J := rfl
@[simp] theorem deposit_rhoNextXY_src (ex : Bool) (w : World K) : (w.deposit .rhoNextXY ex).src.rhoNextXY = some ⟨w.pos, w.apos, w.grid, ex⟩ := rfl
@[simp] theorem deposit_rhoNextXY_flags (ex : Bool) (w : World K) : (w.deposit .rhoNextXY ex).flags.rhoNextXY = ex := rfl
@[simp] theorem deposit_rhoNextZ_src_rhoPrev (ex : Bool) (w : World K) : (w.deposit .rhoNextZ ex).src.rhoPrev = w.src.rhoPrev := rfl
@[simp] theorem deposit_rhoNextZ_flags_rhoPrev (ex : Bool) (w : World K) : (w.deposit .rhoNextZ ex).flags.rhoPrev = w.flags.rhoPrev := rfl
@[simp] theorem deposit_rhoNextZ_src_rhoNext (ex : Bool) (w : World K) : (w.deposit .rhoNextZ ex).src.rhoNext = w.src.rhoNext := rfl
@[simp] theorem deposit_rhoNextZ_flags_rhoNext (ex : Bool) (w : World K) : (w.deposit .rhoNextZ ex).flags.rhoNext = w.flags.rhoNext := rfl
@[simp] theorem deposit_rhoNextZ_src_rhoNextXY (ex : Bool) (w : World K) : (w.deposit .rhoNextZ ex).src.rhoNextXY = w.src.rhoNextXY := rfl
@[simp] theorem deposit_rhoNextZ_flags_rhoNextXY (ex : Bool) (w : World K) : (w.deposit .rhoNextZ ex).flags.rhoNextXY = w.flags.rhoNextXY := rfl
@[simp] theorem deposit_rhoNextZ_src_J (ex : Bool) (w : World K) : (w.deposit .rhoNextZ ex).src.J = w.src.J := rfl
@[simp] theorem deposit_rhoNextZ_flags_J (ex : Bool) (w : World K) : (w.deposit .rhoNextZ ex).flags.J = w.flags.J := rfl
@[simp] theorem deposit_rhoNextZ_src (ex : Bool) (w : World K) : (w.deposit .rhoNextZ ex).src.rhoNextZ = some ⟨w.pos, w.apos, w.grid, ex⟩ := rfl
@[simp] theorem deposit_rhoNextZ_flags (ex : Bool) (w : World K) : (w.deposit .rhoNextZ ex).flags.rhoNextZ = ex := rfl
@[simp] theorem deposit_J_src_rhoPrev (ex : Bool) (w : World K) : (w.deposit .J ex).src.rhoPrev = w.src.rhoPrev := rfl
@[simp] theorem deposit_J_flags_rhoPrev (ex : Bool) (w : World K) : (w.deposit .J ex).flags.rhoPrev = w.flags.rhoPrev := rfl
@[simp] theorem deposit_J_src_rhoNext (ex : Bool) (w : World K) : (w.deposit .J ex).src.rhoNext = w.src.rhoNext := rfl
@[simp] theorem deposit_J_flags_rhoNext (ex : Bool) (w : World K) : (w.deposit .J ex).flags.rhoNext = w.flags.rhoNext := rfl
@[simp] theorem deposit_J_src_rhoNextXY (ex : Bool) (w : World K) : (w.deposit .J ex).src.rhoNextXY = w.src.rhoNextXY := rfl
@[simp] theorem deposit_J_flags_rhoNextXY (ex : Bool) (w : World K) : (w.deposit .J ex).flags.rhoNextXY = w.flags.rhoNextXY := rfl
@[simp] theorem deposit_J_src_rhoNextZ (ex : Bool) (w : World K) : (w.deposit .J ex).src.rhoNextZ = w.src.rhoNextZ := rfl
@[simp] theorem deposit_J_flags_rhoNextZ (ex : Bool) (w : World K) : (w.deposit .J ex).flags.rhoNextZ = w.flags.rhoNextZ := rfl
@[simp] theorem deposit_J_src (ex : Bool) (w : World K) : (w.deposit .J ex).src.J = some ⟨w.pos, w.vel, w.apos, w.avel, w.grid, ex⟩ := rfl
@[simp] theorem deposit_J_flags (ex : Bool) (w : World K) : (w.deposit .J ex).flags.J = ex := rfl

/-- What the log says about each kind of call. -/
structure Logs (K : Type) where
  pushes : List (Sources K)
  corrections : List (Sources K)
  momentum : List K
  diags : List (ℕ × Sources K × Flags)
  checkpoints : List ℕ

def logsOf (l : List (Ev K)) : Logs K :=
  ⟨pushes l, corrections l, momentumPushes l, diagWrites l, checkpointWrites l⟩

def Logs.append (a b : Logs K) : Logs K :=
  ⟨a.pushes ++ b.pushes, a.corrections ++ b.corrections, a.momentum ++ b.momentum, a.diags ++ b.diags,
    a.checkpoints ++ b.checkpoints⟩

theorem logsOf_append (a b : List (Ev K)) : logsOf (a ++ b) = (logsOf a).append (logsOf b) := by
  simp [logsOf, Logs.append, pushes, corrections, momentumPushes, diagWrites, checkpointWrites]

theorem start_log (c : Cfg K) (o : Opts) (d : Dynamics K) (i : ℕ) (w : World K) :
    ∃ l, (w.iterStart c o d i).log = w.log ++ l ∧
      logsOf l = ⟨[], [], [], [(w.iteration, (w.iterStart c o d i).src, (w.iterStart c o d i).flags)], []⟩ := by
  by_cases hi : i = 0
  · by_cases h : w.iteration % c.exchangePeriod = 0 <;>
    exact ⟨_, by simp [World.iterStart, h, hi]; rfl, by
      simp [World.iterStart, h, hi, logsOf, pushes, corrections, momentumPushes, diagWrites,
        checkpointWrites]⟩
  · by_cases h : w.iteration % c.exchangePeriod = 0
    · exact ⟨_, by simp [World.iterStart, h, hi]; rfl, by
        simp [World.iterStart, h, hi, logsOf, pushes, corrections, momentumPushes, diagWrites,
          checkpointWrites]⟩
    · exact ⟨_, by simp [World.iterStart, h, hi]; rfl, by
        simp [World.iterStart, h, hi, logsOf, pushes, corrections, momentumPushes, diagWrites,
          checkpointWrites]⟩

theorem start_facts (c : Cfg K) (o : Opts) (d : Dynamics K) (i : ℕ) (w : World K) :
    let w' := w.iterStart c o d i
    let ex := w.iteration % c.exchangePeriod = 0 ∨ i = 0
    let x0 := if ex then d.exchange w.time w.pos else w.pos
    w'.iteration = w.iteration ∧ w'.time = w.time ∧ w'.pos = x0 ∧ w'.vel = w.vel ∧
    w'.apos = w.apos ∧ w'.avel = w.avel ∧ w'.grid = w.grid ∧
    w'.src.rhoPrev = (if ex then some ⟨x0, w.apos, w.grid, o.useTrueRho⟩ else w.src.rhoPrev) ∧
    w'.flags.rhoPrev = (if ex then o.useTrueRho else w.flags.rhoPrev) ∧
    w'.src.J = (if i = 0 then some ⟨x0, w.vel, w.apos, w.avel, w.grid, true⟩ else w.src.J) ∧
    w'.flags.J = (if i = 0 then true else w.flags.J) := by
  intro w' ex x0
  by_cases hi : i = 0
  · by_cases h : w.iteration % c.exchangePeriod = 0 <;>
    simp [w', ex, x0, h, hi, World.iterStart]
  · by_cases h : w.iteration % c.exchangePeriod = 0 <;>
    simp [w', ex, x0, h, hi, World.iterStart]

theorem pushX_move (h : K) (w : World K) : (w.pushX h 1 1 1).pos = move w.pos w.vel h := by
  simp [move]

theorem antennaX_move (h : K) (w : World K) : (w.antennaX h 1 1 1).apos = move w.apos w.avel h := by
  simp [move]

theorem half_log (c : Cfg K) (o : Opts) (d : Dynamics K) (w : World K) :
    ∃ l, (w.iterHalf c o d).log = w.log ++ l ∧
      logsOf l = ⟨[], [], if o.moveMomenta then [w.time + 1 / 2 * c.dt] else [], [], []⟩ := by
  cases h1 : o.moveMomenta <;> cases h2 : o.movePositions <;> cases h3 : c.useGalilean <;>
    exact ⟨_, by simp [World.iterHalf, h1, h2, h3]; rfl, by
      simp [logsOf, pushes, corrections, momentumPushes, diagWrites, checkpointWrites]⟩

theorem half_facts (c : Cfg K) (o : Opts) (d : Dynamics K) (w : World K) :
    let w' := w.iterHalf c o d
    let th := w.time + 1 / 2 * c.dt
    let v1 := if o.moveMomenta then d.pushP th w.pos w.vel else w.vel
    let xh := if o.movePositions then move w.pos v1 (c.dt / 2) else w.pos
    w'.iteration = w.iteration ∧ w'.time = w.time ∧ w'.pos = xh ∧ w'.vel = d.elementary th xh v1 ∧
    w'.apos = move w.apos (d.antenna th) (c.dt / 2) ∧ w'.avel = d.antenna th ∧
    w'.grid = w.grid + gridVelocity c * (c.dt / 2) ∧
    w'.src = w.src ∧ w'.flags = w.flags := by
  intro w' th v1 xh
  have e : 1 / 2 * c.dt = c.dt / 2 := by ring
  simp only [w', th, v1, xh, World.iterHalf, e]
  cases h1 : o.moveMomenta <;> cases h2 : o.movePositions <;>
    simp [h1, h2, move]

variable [CharZero K]

/-- The three pushes of the cross-deposition. -/
theorem cross_facts (c : Cfg K) (m : Bool) (w : World K) :
    let w' := w.crossDeposit c m
    let vx := if m then w.vel else ⟨0, 0, 0⟩
    w'.iteration = w.iteration ∧ w'.time = w.time ∧ w'.pos = w.pos ∧ w'.vel = w.vel ∧
    w'.apos = w.apos ∧ w'.avel = w.avel ∧ w'.grid = w.grid ∧
    w'.src.rhoPrev = w.src.rhoPrev ∧ w'.src.rhoNext = w.src.rhoNext ∧ w'.src.J = w.src.J ∧
    w'.flags.rhoPrev = w.flags.rhoPrev ∧ w'.flags.rhoNext = w.flags.rhoNext ∧ w'.flags.J = w.flags.J ∧
    w'.src.rhoNextXY = some ⟨⟨w.pos.x + c.dt / 2 * vx.x, w.pos.y + c.dt / 2 * vx.y,
        w.pos.z - c.dt / 2 * vx.z⟩, ⟨w.apos.x + c.dt / 2 * w.avel.x, w.apos.y + c.dt / 2 * w.avel.y,
        w.apos.z - c.dt / 2 * w.avel.z⟩, w.grid - gridVelocity c * (c.dt / 2), false⟩ ∧
    w'.src.rhoNextZ = some ⟨⟨w.pos.x - c.dt / 2 * vx.x, w.pos.y - c.dt / 2 * vx.y,
        w.pos.z + c.dt / 2 * vx.z⟩, ⟨w.apos.x - c.dt / 2 * w.avel.x, w.apos.y - c.dt / 2 * w.avel.y,
        w.apos.z + c.dt / 2 * w.avel.z⟩, w.grid + gridVelocity c * (c.dt / 2), false⟩ ∧
    w'.flags.rhoNextXY = false ∧ w'.flags.rhoNextZ = false := by
  intro w' vx
  have e : 1 / 2 * c.dt = c.dt / 2 := by ring
  have e' : -(1 / 2) * c.dt = -(c.dt / 2) := by ring
  simp only [w', vx, World.crossDeposit, e, e']
  cases m <;> simp <;> (repeat' apply And.intro) <;>
    first
    | ring1
    | (ext <;> simp <;> ring)

omit [CharZero K] in
theorem cross_log (c : Cfg K) (m : Bool) (w : World K) :
    ∃ l, (w.crossDeposit c m).log = w.log ++ l ∧ logsOf l = ⟨[], [], [], [], []⟩ := by
  cases m <;> cases h3 : c.useGalilean <;>
    exact ⟨_, by simp [World.crossDeposit, h3]; rfl, by
      simp [logsOf, pushes, corrections, momentumPushes, diagWrites, checkpointWrites]⟩

theorem deposit_facts (c : Cfg K) (o : Opts) (w : World K) :
    let w' := w.iterDeposit c o
    let v2 : Vec K := if o.movePositions then w.vel else ⟨0, 0, 0⟩
    w'.iteration = w.iteration ∧ w'.time = w.time ∧ w'.pos = move w.pos v2 (c.dt / 2) ∧
    w'.vel = w.vel ∧ w'.apos = move w.apos w.avel (c.dt / 2) ∧ w'.avel = w.avel ∧
    w'.grid = w.grid + gridVelocity c * (c.dt / 2) ∧
    w'.src.rhoPrev = w.src.rhoPrev ∧ w'.flags.rhoPrev = w.flags.rhoPrev ∧
    w'.src.J = some ⟨w.pos, w.vel, w.apos, w.avel, w.grid, !o.correctCurrents⟩ ∧
    w'.flags.J = !o.correctCurrents ∧
    w'.src.rhoNext = some ⟨move w.pos v2 (c.dt / 2), move w.apos w.avel (c.dt / 2),
      w.grid + gridVelocity c * (c.dt / 2), o.useTrueRho⟩ ∧ w'.flags.rhoNext = some o.useTrueRho ∧
    (o.correctCurrents = true → c.crossDep = true →
      w'.src.rhoNextXY = some ⟨⟨w.pos.x + c.dt / 2 * v2.x, w.pos.y + c.dt / 2 * v2.y,
          w.pos.z - c.dt / 2 * v2.z⟩, ⟨w.apos.x + c.dt / 2 * w.avel.x, w.apos.y + c.dt / 2 * w.avel.y,
          w.apos.z - c.dt / 2 * w.avel.z⟩, w.grid - gridVelocity c * (c.dt / 2), false⟩ ∧
      w'.src.rhoNextZ = some ⟨⟨w.pos.x - c.dt / 2 * v2.x, w.pos.y - c.dt / 2 * v2.y,
          w.pos.z + c.dt / 2 * v2.z⟩, ⟨w.apos.x - c.dt / 2 * w.avel.x, w.apos.y - c.dt / 2 * w.avel.y,
          w.apos.z + c.dt / 2 * w.avel.z⟩, w.grid + gridVelocity c * (c.dt / 2), false⟩ ∧
      w'.flags.rhoNextXY = false ∧ w'.flags.rhoNextZ = false) := by
  intro w' v2
  have e : 1 / 2 * c.dt = c.dt / 2 := by ring
  simp only [w', World.iterDeposit, e]
  by_cases h : (o.correctCurrents && c.crossDep) = true
  · rw [if_pos h]
    have hc := cross_facts c o.movePositions (w.deposit .J (!o.correctCurrents))
    generalize (w.deposit .J (!o.correctCurrents)).crossDeposit c o.movePositions = u at hc
    simp only [deposit_iteration, deposit_time, deposit_pos, deposit_vel, deposit_apos, deposit_avel,
      deposit_grid, deposit_J_src, deposit_J_flags, deposit_J_src_rhoPrev,
      deposit_J_flags_rhoPrev] at hc
    obtain ⟨h1, h2, h3, h4, h5, h6, h7, h8, h9, h10, h11, h12, h13, h14, h15, h16, h17⟩ := hc
    cases hm : o.movePositions <;> simp only [hm] at h14 h15 <;>
      simp [v2, hm, h1, h2, h3, h4, h5, h6, h7, h8, h10, h11, h13, h14, h15, h16, h17, move]
  · rw [if_neg h]
    have h' : o.correctCurrents = true → c.crossDep = true → False := by
      intro a b; simp [a, b] at h
    cases hm : o.movePositions <;> simp [v2, hm, move] <;> intro a b <;> exact (h' a b).elim

omit [CharZero K] in
theorem deposit_phase_log (c : Cfg K) (o : Opts) (w : World K) :
    ∃ l, (w.iterDeposit c o).log = w.log ++ l ∧ logsOf l = ⟨[], [], [], [], []⟩ := by
  simp only [World.iterDeposit]
  by_cases h : (o.correctCurrents && c.crossDep) = true
  · rw [if_pos h]
    obtain ⟨l, hl, hl'⟩ := cross_log c o.movePositions (w.deposit .J (!o.correctCurrents))
    generalize (w.deposit .J (!o.correctCurrents)).crossDeposit c o.movePositions = u at hl
    rw [deposit_log] at hl
    cases hm : o.movePositions <;> cases h3 : c.useGalilean <;>
    exact ⟨.deposit .J (!o.correctCurrents) :: l ++ _, by simp [hl, h3]; rfl, by
      rw [List.cons_append, ← List.singleton_append, logsOf_append, logsOf_append, hl']
      simp [logsOf, Logs.append, pushes, corrections, momentumPushes, diagWrites, checkpointWrites]⟩
  · rw [if_neg h]
    cases hm : o.movePositions <;> cases h3 : c.useGalilean <;>
    exact ⟨_, by simp [h3]; rfl, by
      simp [logsOf, pushes, corrections, momentumPushes, diagWrites, checkpointWrites]⟩

omit [CharZero K] in
theorem end_facts (c : Cfg K) (o : Opts) (w : World K) (j : JSrc K)
    (hr : c.size > 1 → o.useTrueRho = true → o.correctCurrents = false)
    (f1 : w.flags.rhoPrev = o.useTrueRho) (f2 : w.flags.rhoNext = some o.useTrueRho)
    (f3 : w.flags.J = !o.correctCurrents)
    (f4 : o.correctCurrents = true → c.crossDep = true →
      w.flags.rhoNextXY = false ∧ w.flags.rhoNextZ = false)
    (hj : w.src.J = some j) :
    ∃ w' l, w.iterEnd c o = .ok w' ∧ w'.log = w.log ++ l ∧
      let s : Sources K := { w.src with J := some { j with exchanged := j.exchanged || (o.correctCurrents && decide (c.size > 1)) } }
      logsOf l = ⟨[s], if o.correctCurrents then [w.src] else [], [], [], [w.iteration + 1]⟩ ∧
      w'.src = { s with rhoPrev := w.src.rhoNext } ∧ w'.flags = { w.flags with J := true } ∧
      w'.iteration = w.iteration + 1 ∧ w'.time = w.time + c.dt ∧ w'.pos = w.pos ∧ w'.vel = w.vel ∧
      w'.apos = w.apos ∧ w'.avel = w.avel ∧ w'.grid = w.grid := by
  obtain ⟨it, t, x, v, a, av, g, ⟨rp, rn, rxy, rz, J⟩, ⟨fJ, frp, frn, fxy, fz⟩, lg⟩ := w
  obtain ⟨jp, jv, ja, jav, jg, je⟩ := j
  simp only at f1 f2 f3 f4 hj
  subst f1 f2 f3 hj
  by_cases hs : c.size > 1
  · cases hc : o.correctCurrents
    · cases h1 : o.useTrueRho <;> cases h2 : o.correctDivE <;> cases h3 : c.movingWin <;>
      exact ⟨_, _, by
        simp [World.iterEnd, World.push, World.assert, World.rhoNextFlag, hc, hs, h1, h2, h3, bind, Except.bind,
          World.emit]; rfl, by simp; rfl, by
        simp [logsOf, pushes, corrections, momentumPushes, diagWrites, checkpointWrites, hc, h1]⟩
    · have h1 : o.useTrueRho = false := by
        cases h : o.useTrueRho
        · rfl
        · rw [hr hs h] at hc; exact absurd hc (by simp)
      cases h4 : c.crossDep
      · cases h2 : o.correctDivE <;> cases h3 : c.movingWin <;>
        exact ⟨_, _, by
          simp [World.iterEnd, World.push, World.correctCurrents, World.exchangeJ, World.markExchanged, World.assert, World.rhoNextFlag, hc, hs, h1, h2, h3,
            h4, bind, Except.bind, World.emit]; rfl, by simp; rfl, by
          simp [logsOf, pushes, corrections, momentumPushes, diagWrites, checkpointWrites, hc, h1, hs]⟩
      · obtain ⟨hx, hz⟩ := f4 hc h4
        subst hx hz
        cases h2 : o.correctDivE <;> cases h3 : c.movingWin <;>
        exact ⟨_, _, by
          simp [World.iterEnd, World.push, World.correctCurrents, World.exchangeJ, World.markExchanged, World.assert, World.rhoNextFlag, hc, hs, h1, h2, h3,
            h4, bind, Except.bind, World.emit]; rfl, by simp; rfl, by
          simp [logsOf, pushes, corrections, momentumPushes, diagWrites, checkpointWrites, hc, h1, hs]⟩
  · cases hc : o.correctCurrents <;> cases h2 : o.correctDivE <;> cases h3 : c.movingWin <;>
    exact ⟨_, _, by
      simp [World.iterEnd, World.push, World.correctCurrents, World.assert, hc, hs, h2, h3,
        bind, Except.bind, World.emit]; rfl, by simp; rfl, by
      simp [logsOf, pushes, corrections, momentumPushes, diagWrites, checkpointWrites, hc, hs]⟩

end StepLemmas
end Fbpic
