import Verif.Spec.PicOpen
import Verif.Spec.Injection

/-!
# The plasma that a moving window meets in a whole run (C96)
-/

namespace Fbpic.Spec

open Pic Transform ExternalField Step

variable (c : OCfg) [NeZero c.base.Nz]

/-- `Rounds c o i n S l T`: the iterations `i`, …, `i + n - 1` of a call lead from `S` to `T`; `l` are their numbers,
with the states at their beginnings. -/
inductive Rounds (o : Opts) : ℕ → ℕ → OSim → List (ℕ × OSim) → OSim → Prop
  | stop (i : ℕ) (S : OSim) : Rounds o i 0 S [] S
  | round {i n : ℕ} {S S' T : OSim} {l : List (ℕ × OSim)} (h : c.iter o i S = .ok S') (hl : Rounds o (i + 1) n S' l T) :
      Rounds o i (n + 1) S ((i, S) :: l) T

/-- `Runs c L S l T`: the calls `L` lead from `S` to `T`, and `l` are all iterations. -/
inductive Runs : List (ℕ × Opts) → OSim → List (ℕ × OSim) → OSim → Prop
  | done (S : OSim) : Runs [] S [] S
  | call {n : ℕ} {o : Opts} {L : List (ℕ × Opts)} {S S1 S2 S3 T : OSim} {l l' : List (ℕ × OSim)} (h1 : c.startInj S = .ok S1)
      (h2 : c.startFields S1 = .ok S2) (h3 : Rounds c o 0 n S2 l S3)
      (h4 : Runs L { S3 with sim := c.base.endFields S3.sim } l' T) : Runs ((n, o) :: L) S (l ++ l') T

/-- The particles are exchanged in this iteration. -/
def Exchanges (x : ℕ × OSim) : Prop := (x.2.sim.iteration : ℤ) % c.comm.exchangePeriod = 0 ∨ x.1 = 0

instance (x : ℕ × OSim) : Decidable (Exchanges c x) := by unfold Exchanges; infer_instance

/-- All plasma that species `id` has received in some iterations, seen in the frame that moves with the velocity `v` of
the plasma. -/
noncomputable def arrivals (id : ℕ) (v : ℝ) (l : List (ℕ × OSim)) : List (NewPtcl ℝ) :=
  l.flatMap fun x => if Exchanges c x then (injected c x.2 id).map (fun p => { p with z := p.z - v * x.2.sim.time }) else []

/-- Where the plasma of a species ends at the beginning: half a spacing after the last particle, or at the end of the
physical domain if there are none. -/
structure PlasmaEnd (S : OSim) (sp : Pic.Species) (d z0 : ℝ) : Prop where
  none : sp.ptcl = [] → z0 = S.zminG + c.comm.NzGlobal * c.dz
  last : sp.ptcl ≠ [] → (∃ p ∈ sp.ptcl, z0 = p.push.z + d / 2) ∧ ∀ p ∈ sp.ptcl, p.push.z + d / 2 ≤ z0

/-- `N k` is the number of layers that have been created after `k` iterations of a run. All particles that were created
are, in the frame of the plasma, the ones of a uniform plasma of so many layers that continues the plasma of the
beginning; and the plasma is never created further ahead than the injection plane. -/
structure Continues (S : OSim) (w : MovWin ℝ) (id : ℕ) (d v : ℝ) (l : List (ℕ × OSim)) (z0 : ℝ) (N : ℕ → ℕ) : Prop where
  start : N 0 = 0
  tiles : ∀ k, arrivals c id v (l.take k) = plasma (c.plasma id) d (N k) (z0 - v * S.sim.time)
  ahead : ∀ k x, l[k]? = some x → z0 + v * (x.2.sim.time - S.sim.time) + N (k + 1) * d <
    x.2.zminG + (c.comm.NzGlobal + c.comm.nzDamp + 5) * c.dz + d + c.comm.exchangePeriod * (c.base.dt * (w.v - v))

/-- In iteration `k` there is plasma up to the end of the physical domain and of the damping region, except for less than
one spacing. -/
def Filled (S : OSim) (d v : ℝ) (l : List (ℕ × OSim)) (z0 : ℝ) (N : ℕ → ℕ) (k : ℕ) : Prop :=
  ∀ x, l[k]? = some x →
    x.2.zminG + (c.comm.NzGlobal + c.comm.nzDamp) * c.dz - d < z0 + v * (x.2.sim.time - S.sim.time) + N (k + 1) * d

end Fbpic.Spec
