import Verif.Model.Shapes
import Verif.Model.Comm
import Mathlib.Analysis.SpecialFunctions.Sqrt
import Mathlib.Data.Complex.Basic
import Mathlib.Algebra.Group.Pi.Basic

/-!
# Charge and current deposition on the CPU

Models `fbpic/particles/deposition/threading_methods.py` (the four threaded
kernels) and `sum_reduce_2d_array`, `reduce_slice` of
`fbpic/fields/numba_methods.py`. Exact real and complex arithmetic instead of
IEEE doubles. The parallel loop over threads is modelled sequentially: each
thread only writes to its own buffer `global_array[i_thread]`.
-/

namespace Fbpic

/-- The geometry that is passed to the kernels (`grid[0].invdz, zmin, Nz, invdr,
rmin, Nr`, `fbpic/particles/particles.py:1004-1006`). -/
structure CylGrid where
  invdz : ℝ
  zmin : ℝ
  Nz : ℕ
  invdr : ℝ
  rmin : ℝ
  Nr : ℕ

/-- The quantities of one macroparticle that the kernels read. `w` is the
effective weight (`w` or `w_times_level`, `fbpic/particles/particles.py:879-882`). -/
structure DepPtcl where
  x : ℝ
  y : ℝ
  z : ℝ
  w : ℝ
  ux : ℝ
  uy : ℝ
  uz : ℝ
  invGamma : ℝ

/-- `rj = math.sqrt(xj**2 + yj**2)` (`threading_methods.py:109`). -/
noncomputable def cylR (x y : ℝ) : ℝ := Real.sqrt (x^2 + y^2)

/-- `cos`, with the on-axis convention (`threading_methods.py:110-117`). -/
noncomputable def cylCos (x y : ℝ) : ℝ := if cylR x y ≠ 0 then x * (1 / cylR x y) else 1

/-- `sin`, with the on-axis convention (`threading_methods.py:110-117`). -/
noncomputable def cylSin (x y : ℝ) : ℝ := if cylR x y ≠ 0 then y * (1 / cylR x y) else 0

/-- `rho_scal[m] = (cos + 1.j*sin)*rho_scal[m-1]` (`threading_methods.py:119-121`,
and 240-243 for the currents). -/
noncomputable def modeScal (s0 : ℂ) (cos sin : ℝ) : ℕ → ℂ
  | 0 => s0
  | m + 1 => ((cos : ℂ) + Complex.I * sin) * modeScal s0 cos sin m

/-- The four deposited quantities. -/
inductive DepField | rho | Jr | Jt | Jz
  deriving DecidableEq

/-- The mode-0 contribution of a particle: `wj` for the charge
(`threading_methods.py:106,119`), the cylindrical current components
(`threading_methods.py:237-239`). -/
noncomputable def DepField.scal0 (f : DepField) (c q : ℝ) (p : DepPtcl) : ℝ :=
  let wj := q * p.w
  let cos := cylCos p.x p.y
  let sin := cylSin p.x p.y
  match f with
  | .rho => wj
  | .Jr => wj * c * p.invGamma * (cos * p.ux + sin * p.uy)
  | .Jt => wj * c * p.invGamma * (cos * p.uy - sin * p.ux)
  | .Jz => wj * c * p.invGamma * p.uz

/-- The factor passed as `flip`: `(-1)**m` for `rho` and `Jz`, `-(-1)**m` for `Jr`
and `Jt` (`threading_methods.py:143-146, 288-303`). -/
def DepField.flip (f : DepField) (m : ℕ) : ℝ :=
  match f with
  | .rho | .Jz => (-1)^m
  | .Jr | .Jt => -(-1)^m

/-- `r_cell = invdr*(rj - rmin) - 0.5` (`threading_methods.py:124`). -/
noncomputable def CylGrid.rCell (g : CylGrid) (r : ℝ) : ℝ := g.invdr * (r - g.rmin) - 1/2

/-- `z_cell = invdz*(zj - zmin) - 0.5` (`threading_methods.py:125`). -/
noncomputable def CylGrid.zCell (g : CylGrid) (z : ℝ) : ℝ := g.invdz * (z - g.zmin) - 1/2

/-- `ir_cell`: lowest radial index that is written
(linear `threading_methods.py:129`, cubic `:411`). -/
noncomputable def irCell (s : Shape) (rc : ℝ) (Nr : ℕ) : ℤ :=
  match s with
  | .linear => min (⌈rc⌉ + 1) (Nr + 2)
  | .cubic => min ⌈rc⌉ Nr

/-- `iz_cell`: lowest longitudinal index that is written
(linear `threading_methods.py:130`, cubic `:412`). -/
noncomputable def izCell (s : Shape) (zc : ℝ) : ℤ :=
  match s with
  | .linear => ⌈zc⌉ + 1
  | .cubic => ⌈zc⌉

/-- Array indexing as numba does it: a negative index counts from the end.
Simplification: where numba (no bounds check) would access foreign memory the
model stops with `indexError`. -/
def bufIndex (n : ℕ) (i : ℤ) : Except PyErr ℕ :=
  if 0 ≤ i ∧ i < n then .ok i.toNat
  else if -(n : ℤ) ≤ i ∧ i < 0 then .ok (i + n).toNat
  else .error (.indexError "out of bounds")

/-- One 2d array of complex numbers (indices beyond the allocated shape are never
touched, see `bufIndex`). -/
abbrev Buf := ℕ → ℕ → ℂ

/-- `A[i,j] += v` for valid indices. -/
def addAt (A : Buf) (i j : ℕ) (v : ℂ) : Buf :=
  fun i' j' => if i' = i ∧ j' = j then A i' j' + v else A i' j'

/-- `global_array[i_thread, m, iz, ir] += v` on a buffer of shape `(nz, nr)`. -/
def addTo (nz nr : ℕ) (b : Buf) (a : ℤ × ℤ × ℂ) : Except PyErr Buf := do
  let i ← bufIndex nz a.1
  let j ← bufIndex nr a.2.1
  pure (addAt b i j a.2.2)

/-- The `width × width` additions that one particle makes to the buffer of one mode, in
program order (linear `threading_methods.py:143-146`, cubic `:425-446`; currents
`:288-303` and `:587-648`). -/
noncomputable def ptclAdds (s : Shape) (g : CylGrid) (bn flip : ℝ) (scal : ℂ)
    (r z : ℝ) : List (ℤ × ℤ × ℂ) :=
  let rc := g.rCell r
  let zc := g.zCell z
  let ir := irCell s rc g.Nr
  let iz := izCell s zc
  (List.range s.width).flatMap fun (a : ℕ) =>
    (List.range s.width).map fun (b : ℕ) =>
      (iz + a, ir + b, (((s.sz zc a * s.sr rc b flip bn : ℝ)) : ℂ) * scal)

/-- The body of the particle loop for one mode: look up the Ruyten coefficient
(`threading_methods.py:132, 138-141`), then add the contributions. -/
noncomputable def depositPtcl (s : Shape) (f : DepField) (c q : ℝ) (g : CylGrid)
    (beta : List ℝ) (m : ℕ) (b : Buf) (p : DepPtcl) : Except PyErr Buf := do
  let r := cylR p.x p.y
  let ir : ℤ := min ⌈g.rCell r⌉ g.Nr
  let k ← bufIndex beta.length ir
  let bn := beta.getD k 0
  let scal := modeScal (f.scal0 c q p) (cylCos p.x p.y) (cylSin p.x p.y) m
  (ptclAdds s g bn (f.flip m) scal r p.z).foldlM (addTo (g.Nz + 4) (g.Nr + 4)) b

/-- A species as seen by the deposition: charge, shape and particles. -/
structure DepSpecies where
  q : ℝ
  shape : Shape
  ptcls : List DepPtcl

/-- One call of a deposition kernel, restricted to mode `m`
(`threading_methods.py:28-650`): each thread loops on its chunk and adds into its
own buffer. Simplification: the loop over modes inside the particle loop is
separated (the buffers of distinct modes are distinct memory). `beta0` and `betaH`
are the coefficients for mode 0 and for the higher modes
(`fbpic/particles/particles.py:990-1046`). Species with `q = 0` are skipped
(`fbpic/particles/particles.py:856-857`). -/
noncomputable def depositSpecies (f : DepField) (c : ℝ) (g : CylGrid)
    (beta : Shape → ℕ → List ℝ) (m nthreads : ℕ) (G : ℕ → Buf) (sp : DepSpecies) :
    Except PyErr (ℕ → Buf) :=
  if sp.q = 0 then pure G
  else
    (List.range nthreads).foldlM (fun (G : ℕ → Buf) (t : ℕ) => do
      let b ← (chunkOf sp.ptcls nthreads t).foldlM
        (depositPtcl sp.shape f c sp.q g (beta sp.shape (min m 1)) m) (G t)
      pure (Function.update G t b)) G

/-- `reduce_slice` (`fbpic/fields/numba_methods.py:444-461`). -/
def reduceSlice (Nr nthreads : ℕ) (A : Buf) (iz : ℕ) (G : ℕ → Buf) (izg : ℕ) : Buf :=
  (List.range nthreads).foldl (fun (A : Buf) (t : ℕ) =>
    let A := addAt A iz 1 (G t izg 0)
    let A := addAt A iz 0 (G t izg 1)
    let A := (List.range Nr).foldl (fun (A : Buf) (ir : ℕ) =>
      addAt A iz ir (G t izg (ir + 2))) A
    let A := addAt A iz (Nr - 1) (G t izg (Nr + 2))
    addAt A iz (Nr - 1) (G t izg (Nr + 3))) A

/-- `sum_reduce_2d_array` (`fbpic/fields/numba_methods.py:410-441`).
Simplification: the rows `Nz-2 … 1` are used as natural numbers, which is what the
code does for `Nz ≥ 2` (and `Nr ≥ 2`). -/
def sumReduce (Nz Nr nthreads : ℕ) (G : ℕ → Buf) (A : Buf) : Buf :=
  let A := (List.range Nz).foldl (fun (A : Buf) (iz : ℕ) =>
    reduceSlice Nr nthreads A iz G (iz + 2)) A
  let A := reduceSlice Nr nthreads A (Nz - 2) G 0
  let A := reduceSlice Nr nthreads A (Nz - 1) G 1
  let A := reduceSlice Nr nthreads A 0 G (Nz + 2)
  reduceSlice Nr nthreads A 1 G (Nz + 3)

/-- The deposition of one quantity, one mode, for all species, as driven by
`Simulation.deposit` (`fbpic/main.py:615-656`): erase the grid and the buffers,
deposit every species, reduce. Simplification: laser antennas (which call the same
kernels, `fbpic/lpa_utils/laser/antenna_injection.py:351-442`), the division by the
cell volume and the filtering come afterwards and are not part of this function. -/
noncomputable def depositAll (f : DepField) (c : ℝ) (g : CylGrid)
    (beta : Shape → ℕ → List ℝ) (m nthreads : ℕ) (sps : List DepSpecies) :
    Except PyErr Buf := do
  let G ← sps.foldlM (depositSpecies f c g beta m nthreads) (fun _ _ _ => 0)
  pure (sumReduce g.Nz g.Nr nthreads G (fun _ _ => 0))

end Fbpic
