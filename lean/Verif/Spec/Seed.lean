import Verif.Model.Seed

/-!
# Reproducible runs
-/

namespace Fbpic.Spec.Seed

open Fbpic.Seed

/-- All random numbers of the simulation come from generators that `set_random_seed` sets: no Compton scattering on
CPU; and on GPU, cupy is installed. -/
structure Seedable (cupy : Bool) (M : Machine) (P : Processes) : Prop where
  cpu : M.gpu = false → ∀ id, P.scat id = none
  gpu : M.gpu = true → cupy = true

/-- The two processes differ only in the contents of uninitialised memory that the ionizers see. -/
def SameButMemory (M M' : Machine) : Prop := M' = { M with junkI := M'.junkI }

/-- Number `k` of the numbers that a generator gives one after the other. -/
def nthDraw {S : Type} (next : S → ℝ × S) : ℕ → S → ℝ
  | 0, g => (next g).1
  | k + 1, g => nthDraw next k (next g).2

/-- The macroparticles of an evenly spaced plasma: `x, y, z` and the weight (density times volume). There are `Npz` times
`Npr` rings in the middle of equal intervals, with `Nptheta` macroparticles each, at equal angles from a first one,
`theta i j`. None where there is no density. -/
noncomputable def evenly (a : Load) (theta : ℕ → ℕ → ℝ) : List (ℝ × ℝ × ℝ × ℝ) :=
  let dz := (a.zmax - a.zmin) / a.Npz
  let dr := (a.rmax - a.rmin) / a.Npr
  ((List.range a.Npz).flatMap fun (i : ℕ) => (List.range a.Npr).flatMap fun (j : ℕ) =>
    (List.range a.Nptheta).map fun (k : ℕ) =>
    let z := a.zmin + (i + 1 / 2) * dz
    let r := a.rmin + (j + 1 / 2) * dr
    let x := r * Real.cos (theta i j + 2 * Real.pi * k / a.Nptheta)
    let y := r * Real.sin (theta i j + 2 * Real.pi * k / a.Nptheta)
    (x, y, z, a.dens x y z * (2 * Real.pi / a.Nptheta * r * dr * dz))).filter fun p => 0 < p.2.2.2

/-- The macroparticles of a plasma with cylindrical symmetry, `d (r²) z` being the density: square of the radius,
position along z, and weight (density times volume); none where there is no density. -/
noncomputable def rings (a : Load) (d : ℝ → ℝ → ℝ) : List (ℝ × ℝ × ℝ) :=
  let dz := (a.zmax - a.zmin) / a.Npz
  let dr := (a.rmax - a.rmin) / a.Npr
  ((List.range a.Npz).flatMap fun (i : ℕ) => (List.range a.Npr).flatMap fun (j : ℕ) =>
    let z := a.zmin + (i + 1 / 2) * dz
    let r := a.rmin + (j + 1 / 2) * dr
    List.replicate a.Nptheta (r ^ 2, z, d (r ^ 2) z * (2 * Real.pi / a.Nptheta * r * dr * dz))).filter
      fun p => 0 < p.2.2

end Fbpic.Spec.Seed
