import Mathlib.Analysis.Complex.Basic
import Mathlib.Analysis.SpecialFunctions.Exponential
import Mathlib.MeasureTheory.Integral.IntervalIntegral.Basic
import Mathlib.Analysis.Calculus.Deriv.Basic

/-!
# Maxwell's equations at one wavenumber

Independent of the model of the solver. A vector field of one azimuthal mode is described at the
wavenumber `(kz, kr)` by its components `+`, `-` and `z`, with `F_r = F_+ + F_-` and
`F_theta = i (F_+ - F_-)` before the Hankel transforms; in this basis the differential operators are
multiplications (Lehe et al., Comput. Phys. Commun. 203 (2016) 66, eq. 19-21).
-/

namespace Fbpic.Spec

open Complex

/-- A vector at one wavenumber. -/
@[ext] structure V3 where
  p : ℂ
  m : ℂ
  z : ℂ

/-- Electric and magnetic field at one wavenumber. -/
@[ext] structure EM where
  E : V3
  B : V3

/-- Divergence. -/
noncomputable def div (kz kr : ℝ) (F : V3) : ℂ := kr * (F.p - F.m) + I * kz * F.z

/-- Curl. -/
noncomputable def curl (kz kr : ℝ) (F : V3) : V3 where
  p := -(I / 2) * kr * F.z + kz * F.p
  m := -(I / 2) * kr * F.z - kz * F.m
  z := I * kr * (F.p + F.m)

/-- Gradient of a scalar. -/
noncomputable def grad (kz kr : ℝ) (f : ℂ) : V3 where
  p := -(1 / 2) * kr * f
  m := 1 / 2 * kr * f
  z := I * kz * f

/-- `|F|^2`, with `|F_r|^2 + |F_theta|^2 = 2 |F_+|^2 + 2 |F_-|^2`. -/
noncomputable def normSq (F : V3) : ℝ :=
  2 * Complex.normSq F.p + 2 * Complex.normSq F.m + Complex.normSq F.z

/-- Electromagnetic energy at one wavenumber, in units of `eps0 / 2`. -/
noncomputable def energy (c : ℝ) (f : EM) : ℝ := normSq f.E + c ^ 2 * normSq f.B

/-- `f` solves Maxwell's equations `dE/dt = c^2 (curl B - mu0 J)`, `dB/dt = - curl E` on a grid
that moves along z with velocity `Vgrid` (in which a time derivative picks up the advection
`Vgrid d/dz`). -/
structure IsMaxwell (c mu0 kz kr Vgrid : ℝ) (J : ℝ → V3) (f : ℝ → EM) : Prop where
  Ep : ∀ t, HasDerivAt (fun t => (f t).E.p)
    (I * kz * Vgrid * (f t).E.p + c ^ 2 * ((curl kz kr (f t).B).p - mu0 * (J t).p)) t
  Em : ∀ t, HasDerivAt (fun t => (f t).E.m)
    (I * kz * Vgrid * (f t).E.m + c ^ 2 * ((curl kz kr (f t).B).m - mu0 * (J t).m)) t
  Ez : ∀ t, HasDerivAt (fun t => (f t).E.z)
    (I * kz * Vgrid * (f t).E.z + c ^ 2 * ((curl kz kr (f t).B).z - mu0 * (J t).z)) t
  Bp : ∀ t, HasDerivAt (fun t => (f t).B.p)
    (I * kz * Vgrid * (f t).B.p - (curl kz kr (f t).E).p) t
  Bm : ∀ t, HasDerivAt (fun t => (f t).B.m)
    (I * kz * Vgrid * (f t).B.m - (curl kz kr (f t).E).m) t
  Bz : ∀ t, HasDerivAt (fun t => (f t).B.z)
    (I * kz * Vgrid * (f t).B.z - (curl kz kr (f t).E).z) t

/-- What a solver assumes about the current during one step. -/
inductive Scheme where
  /-- constant on a fixed grid -/
  | standard
  /-- constant on a grid moving with velocity `V` -/
  | galilean (V : ℝ)
  /-- moving with velocity `V` on a fixed grid -/
  | comoving (V : ℝ)

/-- Velocity of the grid. -/
def Scheme.gridVelocity : Scheme → ℝ
  | .standard => 0
  | .galilean V => V
  | .comoving _ => 0

/-- The current at time `t` after the beginning of the step, when the deposited value (at the
middle of the step) is `J`. -/
noncomputable def Scheme.current (kz dt : ℝ) (J : V3) : Scheme → ℝ → V3
  | .standard, _ => J
  | .galilean _, _ => J
  | .comoving V, t =>
    let ph := exp (-(I * kz * V * (t - dt / 2)))
    ⟨ph * J.p, ph * J.m, ph * J.z⟩

/-- The continuity equation over one step: the charge density changes by the time integral of
minus the divergence of the current (on a moving grid: seen from that grid). -/
noncomputable def Scheme.Continuity (kz kr dt : ℝ) (rhoPrev rhoNext : ℂ) (J : V3) : Scheme → Prop
  | .standard => (rhoNext - rhoPrev) / dt + div kz kr J = 0
  | .galilean V => rhoNext - exp (I * kz * V * dt) * rhoPrev
      = -∫ t in (0 : ℝ)..dt, exp (I * kz * V * (dt - t)) * div kz kr J
  | .comoving V => rhoNext - rhoPrev
      = -∫ t in (0 : ℝ)..dt, exp (-(I * kz * V * (t - dt / 2))) * div kz kr J

end Fbpic.Spec
