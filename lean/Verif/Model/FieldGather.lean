import Verif.Model.Deposit

/-!
# Field gathering on the CPU

Models `fbpic/particles/gathering/inline_functions.py`,
`fbpic/particles/gathering/threading_methods.py` (two modes) and
`fbpic/particles/gathering/threading_methods_one_mode.py` (any number of modes).
Exact real and complex arithmetic instead of IEEE doubles.
-/

namespace Fbpic

/-- The three components of E (or B) of one azimuthal mode on the grid. -/
structure GridVec where
  r : Buf
  t : Buf
  z : Buf

/-- One grid cell from which a particle gathers: indices, weight for the transverse
components (`r`, `t`) and weight for the longitudinal component. -/
structure GCell where
  iz : ℤ
  ir : ℤ
  perp : ℝ
  long : ℝ

/-- The longitudinal index correction of the linear kernels, "periodic boundaries in z"
(`threading_methods.py:125-136`): two successive `if`s. -/
def wrapLinear (iz : ℤ) (Nz : ℕ) : ℤ :=
  let iz := if iz < 0 then iz + Nz else iz
  if iz > Nz - 1 then iz - Nz else iz

/-- The longitudinal index correction of the cubic kernels
(`inline_functions.py:166-169`): `if … elif`. -/
def wrapCubic (iz : ℤ) (Nz : ℕ) : ℤ :=
  if iz < 0 then iz + Nz else if iz > Nz - 1 then iz - Nz else iz

/-- The radial index correction of the cubic kernels (`inline_functions.py:154-157`). -/
def foldCubic (ir : ℤ) (Nr : ℕ) : ℤ :=
  if ir < 0 then |ir| - 1 else if ir > Nr - 1 then Nr - 1 else ir

/-- The cells and weights of the linear kernel: index and weight computation
(`threading_methods.py:104-144`), then the order of accumulation and the guard
contribution of `add_linear_gather_for_mode` (`inline_functions.py:53-80`). -/
noncomputable def linearCells (g : CylGrid) (m : ℕ) (r z : ℝ) : List GCell :=
  let rc := g.rCell r
  let zc := g.zCell z
  let irLower : ℤ := ⌊rc⌋
  let irUpper : ℤ := irLower + 1
  let izLower : ℤ := ⌊zc⌋
  let izUpper : ℤ := izLower + 1
  let SrLower : ℝ := irUpper - rc
  let SrUpper : ℝ := rc - irLower
  let SzLower : ℝ := izUpper - zc
  let SzUpper : ℝ := zc - izLower
  -- guard cells in lower r
  let SrGuard : ℝ := if irLower < 0 then SrLower else 0
  let SrLower : ℝ := if irLower < 0 then 0 else SrLower
  let irLower : ℤ := if irLower < 0 then 0 else irLower
  -- absorbing in upper r
  let irLower : ℤ := if irLower > g.Nr - 1 then g.Nr - 1 else irLower
  let irUpper : ℤ := if irUpper > g.Nr - 1 then g.Nr - 1 else irUpper
  -- periodic boundaries in z
  let izLower : ℤ := wrapLinear izLower g.Nz
  let izUpper : ℤ := wrapLinear izUpper g.Nz
  let Sll := SzLower * SrLower
  let Slu := SzLower * SrUpper
  let Sul := SzUpper * SrLower
  let Suu := SzUpper * SrUpper
  let Slg := SzLower * SrGuard
  let Sug := SzUpper * SrGuard
  let flipFactor : ℝ := (-1)^m
  [⟨izLower, irLower, Sll, Sll⟩, ⟨izLower, irUpper, Slu, Slu⟩,
   ⟨izUpper, irLower, Sul, Sul⟩, ⟨izUpper, irUpper, Suu, Suu⟩] ++
  (if irLower = irUpper ∧ irUpper = 0 then
    [⟨izLower, 0, -flipFactor * Slg, flipFactor * Slg⟩,
     ⟨izUpper, 0, -flipFactor * Sug, flipFactor * Sug⟩] else [])

/-- The four cubic weights (`threading_methods.py:308-318`), `l` being the position
relative to the lowest cell. -/
def cubicWeight {K : Type} [Field K] (l : K) (i : ℕ) : K :=
  if i = 0 then -1/6 * (l - 2)^3
  else if i = 1 then 1/6 * (3*(l - 1)^3 - 6*(l - 1)^2 + 4)
  else if i = 2 then 1/6 * (3*(2 - l)^3 - 6*(2 - l)^2 + 4)
  else -1/6 * (1 - l)^3

/-- The cells and weights of the cubic kernel (`threading_methods.py:306-318`,
`inline_functions.py:138-174`). -/
noncomputable def cubicCells (g : CylGrid) (m : ℕ) (r z : ℝ) : List GCell :=
  let rc := g.rCell r
  let zc := g.zCell z
  let irLowest : ℤ := ⌊rc⌋ - 1
  let rLocal : ℝ := rc - irLowest
  let izLowest : ℤ := ⌊zc⌋ - 1
  let zLocal : ℝ := zc - izLowest
  (List.range 4).flatMap fun (b : ℕ) =>
    let ir : ℤ := irLowest + b
    let Sr := cubicWeight rLocal b
    let SrLong : ℝ := if ir < 0 then Sr * (-1)^m else Sr
    let SrPerp : ℝ := if ir < 0 then Sr * -(-1)^m else Sr
    (List.range 4).map fun (a : ℕ) =>
      let Sz := cubicWeight zLocal a
      ⟨wrapCubic (izLowest + a) g.Nz, foldCubic ir g.Nr, Sz * SrPerp, Sz * SrLong⟩

/-- The cells used by the kernel of the species' shape. -/
noncomputable def Shape.cells (s : Shape) (g : CylGrid) (m : ℕ) (r z : ℝ) : List GCell :=
  match s with
  | .linear => linearCells g m r z
  | .cubic => cubicCells g m r z

/-- Accumulation of `Fr_m`, `Ft_m`, `Fz_m` (`inline_functions.py:53-80, 171-174`). -/
noncomputable def gatherCells (g : CylGrid) (F : GridVec) (cells : List GCell) :
    Except PyErr (ℂ × ℂ × ℂ) :=
  cells.foldlM (fun (acc : ℂ × ℂ × ℂ) (cl : GCell) => do
    let i ← bufIndex g.Nz cl.iz
    let j ← bufIndex g.Nr cl.ir
    pure (acc.1 + cl.perp * F.r i j, acc.2.1 + cl.perp * F.t i j,
      acc.2.2 + cl.long * F.z i j)) (0, 0, 0)

/-- `add_linear_gather_for_mode` / `add_cubic_gather_for_mode`
(`inline_functions.py:9-90, 93-187`): add the contribution of mode `m`. -/
noncomputable def addGather (s : Shape) (g : CylGrid) (m : ℕ) (F : GridVec)
    (exptheta : ℂ) (r z : ℝ) (acc : ℝ × ℝ × ℝ) : Except PyErr (ℝ × ℝ × ℝ) := do
  let (Frm, Ftm, Fzm) ← gatherCells g F (s.cells g m r z)
  let factor : ℝ := if m = 0 then 1 else 2
  pure (acc.1 + factor * (Frm * exptheta).re, acc.2.1 + factor * (Ftm * exptheta).re,
    acc.2.2 + factor * (Fzm * exptheta).re)

/-- `gather_field_numba_linear` and `gather_field_numba_cubic` for one particle and one
of the two fields, two azimuthal modes (`threading_methods.py:84-168, 280-337`): the
Cartesian field on the particle. -/
noncomputable def gatherTwoModes (s : Shape) (g : CylGrid) (rmaxGather : ℝ)
    (F0 F1 : GridVec) (x y z : ℝ) : Except PyErr (ℝ × ℝ × ℝ) := do
  let r := cylR x y
  let cos := cylCos x y
  let sin := cylSin x y
  let (Fr, Ft, Fz) ←
    if r < rmaxGather then do
      let acc ← addGather s g 0 F0 1 r z (0, 0, 0)
      addGather s g 1 F1 ((cos : ℂ) - Complex.I * sin) r z acc
    else pure (0, 0, 0)
  pure (cos * Fr - sin * Ft, sin * Fr + cos * Ft, Fz)

/-- One call of `gather_field_numba_*_one_mode` for one particle
(`threading_methods_one_mode.py:88-193, 250-360`): add the Cartesian field of mode `m`
to the field already on the particle. -/
noncomputable def gatherOneMode (s : Shape) (g : CylGrid) (rmaxGather : ℝ) (m : ℕ)
    (F : GridVec) (x y z : ℝ) (E : ℝ × ℝ × ℝ) : Except PyErr (ℝ × ℝ × ℝ) := do
  let r := cylR x y
  let cos := cylCos x y
  let sin := cylSin x y
  if r < rmaxGather then do
    let (Fr, Ft, Fz) ← addGather s g m F (((cos : ℂ) - Complex.I * sin)^m) r z (0, 0, 0)
    pure (E.1 + (cos * Fr - sin * Ft), E.2.1 + (sin * Fr + cos * Ft), E.2.2 + Fz)
  else pure E

/-- `Particles.gather` on the CPU for one particle and one field
(`fbpic/particles/particles.py:755-827`): the optimised version for two modes, the
erase-and-accumulate version otherwise. Species with `q = 0` are skipped
(`:690-692`), which is not part of this function. -/
noncomputable def gatherField (s : Shape) (g : CylGrid) (rmaxGather : ℝ)
    (Fs : List GridVec) (x y z : ℝ) : Except PyErr (ℝ × ℝ × ℝ) :=
  match Fs with
  | [F0, F1] => gatherTwoModes s g rmaxGather F0 F1 x y z
  | Fs => Fs.zipIdx.foldlM (fun (E : ℝ × ℝ × ℝ) (Fm : GridVec × ℕ) =>
      gatherOneMode s g rmaxGather Fm.2 Fm.1 x y z E) (0, 0, 0)

end Fbpic
