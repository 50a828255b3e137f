import Verif.Model.Prelude
import Mathlib.Algebra.Order.Floor.Ring
import Mathlib.Data.List.Defs

/-!
# Particle shape factors and thread chunks

Models `fbpic/particles/deposition/particle_shapes.py` and
`fbpic/utils/threading.py`. Exact arithmetic in an ordered field instead of
IEEE doubles.
-/

namespace Fbpic

/-- `get_chunk_indices` (`fbpic/utils/threading.py:66-93`): the bounds
`i*n_avg`, the last one replaced by `Ntot`.
Simplification: `int(Ntot/nthreads)` is integer division (exact for the sizes
that doubles represent exactly). -/
def chunkIndices (Ntot nthreads : ℕ) : List ℕ :=
  let nAvg := Ntot / nthreads
  ((List.range (nthreads + 1)).map (fun i => i * nAvg)).set nthreads Ntot

/-- The particles on which thread `t` loops:
`range(ptcl_chunk_indices[t], ptcl_chunk_indices[t+1])`
(`fbpic/particles/deposition/threading_methods.py:98-99`). -/
def chunkOf {α : Type} (ps : List α) (nthreads t : ℕ) : List α :=
  let ci := chunkIndices ps.length nthreads
  let a := ci.getD t 0
  let b := ci.getD (t + 1) 0
  (ps.drop a).take (b - a)

variable {K : Type} [Field K] [LinearOrder K] [FloorRing K]

/-- `Sz_linear` (`fbpic/particles/deposition/particle_shapes.py:17-21`). -/
def szLinear (p : K) (index : ℕ) : K :=
  let s : K := (⌈p⌉ : K) - p
  if index = 1 then 1 - s else s

/-- `Sr_linear` (`fbpic/particles/deposition/particle_shapes.py:24-37`). -/
def srLinear (p : K) (index : ℕ) (flip betaN : K) : K :=
  let ir : ℤ := ⌈p⌉ - 1
  let u : K := p - ir
  let s : K := (1 - u) + betaN * (1 - u) * u
  let s : K := if index = 1 then 1 - s else s
  if (index : ℤ) + ir < 0 then s * flip else s

/-- `Sz_cubic` (`fbpic/particles/deposition/particle_shapes.py:42-56`). -/
def szCubic (p : K) (index : ℕ) : K :=
  let iz : ℤ := ⌈p⌉ - 2
  let u : K := p - iz - 1
  if index = 0 then (1/6) * (1 - u)^3
  else if index = 1 then (1/6) * (3*u^3 - 6*u^2 + 4)
  else if index = 2 then (1/6) * (3*(1 - u)^3 - 6*(1 - u)^2 + 4)
  else if index = 3 then (1/6) * u^3
  else 0

/-- `Sr_cubic` (`fbpic/particles/deposition/particle_shapes.py:59-80`). -/
def srCubic (p : K) (index : ℕ) (flip betaN : K) : K :=
  let ir : ℤ := ⌈p⌉ - 2
  let u : K := p - ir - 1
  let s : K :=
    if index = 0 then (1/6) * (1 - u)^3
    else if index = 1 then (1/6) * (3*u^3 - 6*u^2 + 4) + betaN * (1 - u) * u
    else if index = 2 then (1/6) * (3*(1 - u)^3 - 6*(1 - u)^2 + 4) - betaN * (1 - u) * u
    else if index = 3 then (1/6) * u^3
    else 0
  if (index : ℤ) + ir < 0 then s * flip else s

/-- The two macroparticle shapes accepted by `Particles`
(`fbpic/particles/particles.py:866`). -/
inductive Shape | linear | cubic
  deriving DecidableEq

/-- Number of cells touched in each direction (2 for linear, 4 for cubic;
`fbpic/particles/deposition/threading_methods.py:143-146, 425-446`). -/
def Shape.width : Shape → ℕ
  | .linear => 2
  | .cubic => 4

/-- The longitudinal shape factor used by a deposition kernel. -/
def Shape.sz (s : Shape) (p : K) (index : ℕ) : K :=
  match s with
  | .linear => szLinear p index
  | .cubic => szCubic p index

/-- The radial shape factor used by a deposition kernel. -/
def Shape.sr (s : Shape) (p : K) (index : ℕ) (flip betaN : K) : K :=
  match s with
  | .linear => srLinear p index flip betaN
  | .cubic => srCubic p index flip betaN

end Fbpic
