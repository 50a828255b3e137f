import Verif.Model.Deposit
import Verif.Model.Sorting
import Verif.Model.Antenna

/-!
# Charge and current deposition on the GPU

Models `fbpic/particles/deposition/cuda_methods.py` (two modes),
`cuda_methods_one_mode.py` and `cuda_methods_unsorted.py` (laser antennas), and the GPU
branch of `Particles.deposit` (`fbpic/particles/particles.py:839-985`).

A kernel first computes, in each thread, local sums that only depend on read-only arrays; then all
threads add them to the grid by atomic additions. The execution of a launch is therefore any
interleaving of the atomic additions of all threads: any permutation of their list
(`Launched`). Exact real arithmetic; the conversions to `int32` are not modelled.
-/

namespace Fbpic.GpuDeposit

/-- `exptheta_m`: `1.` and `cos + 1.j*sin` in the kernels for two modes
(`cuda_methods.py:138-139`), a product in a loop in the kernels for one mode
(`cuda_methods_one_mode.py:137-140`, `cuda_methods_unsorted.py:84-87`). -/
noncomputable def expTheta (Nm m : ℕ) (cos sin : ℝ) : ℂ :=
  if Nm = 2 then
    if m = 0 then 1 else (cos : ℂ) + Complex.I * sin
  else (List.range m).foldl (fun e _ => e * ((cos : ℂ) + Complex.I * sin)) 1

/-- The argument `flip` of the shape factors: constants in the kernels for two modes
(`cuda_methods.py:157-164, 376-401`), `f = (-1)**m` or `-f` in the kernels for one mode
(`cuda_methods_one_mode.py:109, 155-158`). -/
def gpuFlip (Nm m : ℕ) (f : DepField) : ℝ :=
  if Nm = 2 then
    match f with
    | .rho | .Jz => if m = 0 then 1 else -1
    | .Jr | .Jt => if m = 0 then -1 else 1
  else
    match f with
    | .rho | .Jz => (-1)^m
    | .Jr | .Jt => -(-1)^m

/-- One `cuda.atomic.add` on the real or imaginary part of an array. -/
structure AtomicAdd where
  iz : ℕ
  ir : ℕ
  imag : Bool
  v : ℝ

/-- Effect of an atomic addition. -/
noncomputable def AtomicAdd.run (A : Buf) (o : AtomicAdd) : Buf :=
  addAt A o.iz o.ir (if o.imag then Complex.I * (o.v : ℂ) else (o.v : ℂ))

/-- The effect of a kernel launch whose threads perform the atomic additions `ops`: these run
in any order. -/
def Launched (ops : List AtomicAdd) (A A' : Buf) : Prop :=
  ∃ ops' : List AtomicAdd, ops'.Perm ops ∧ A' = ops'.foldl AtomicAdd.run A

/-- `iz0, iz1, …` (linear `cuda_methods.py:167-170`, cubic `:665-676`). -/
def izIdx (s : Shape) (Nz : ℕ) (izUpper : ℤ) (a : ℕ) : ℤ :=
  match s with
  | .linear =>
    if a = 0 then (let iz0 := izUpper - 1; if iz0 < 0 then iz0 + Nz else iz0)
    else izUpper
  | .cubic =>
    if a = 0 then (let iz0 := izUpper - 2; if iz0 < 0 then iz0 + Nz else iz0)
    else if a = 1 then (let iz1 := izUpper - 1; if iz1 < 0 then iz1 + Nz else iz1)
    else if a = 2 then izUpper
    else (let iz3 := izUpper + 1; if iz3 > (Nz : ℤ) - 1 then iz3 - Nz else iz3)

/-- `ir0, ir1, …` (linear `cuda_methods.py:172-176`, cubic `:678-691`). -/
def irIdx (s : Shape) (Nr : ℕ) (irUpper : ℤ) (b : ℕ) : ℤ :=
  match s with
  | .linear =>
    if b = 0 then (let ir0 := irUpper - 1; if ir0 < 0 then -(1 + ir0) else ir0)
    else min irUpper ((Nr : ℤ) - 1)
  | .cubic =>
    if b = 0 then (let ir0 := irUpper - 2; if ir0 < 0 then -(1 + ir0) else ir0)
    else if b = 1 then
      (let ir1 := min (irUpper - 1) ((Nr : ℤ) - 1); if ir1 < 0 then -(1 + ir1) else ir1)
    else if b = 2 then min irUpper ((Nr : ℤ) - 1)
    else min (irUpper + 1) ((Nr : ℤ) - 1)

/-- The local sums of a thread: entry `a b` is the register with longitudinal index `a` and radial
index `b` (`R_m_ba` in the code). -/
abbrev Regs := ℕ → ℕ → ℂ

/-- The body of the particle loop: the contributions of one particle are added to the registers
(`cuda_methods.py:116-164`, and the same lines in the other kernels). -/
noncomputable def addPtcl (s : Shape) (f : DepField) (c q : ℝ) (g : CylGrid) (beta : List ℝ)
    (Nm m : ℕ) (p : DepPtcl) (R : Regs) : Except PyErr Regs := do
  let r := cylR p.x p.y
  let cos := cylCos p.x p.y
  let sin := cylSin p.x p.y
  let rc := g.rCell r
  let zc := g.zCell p.z
  let ir : ℤ := min ⌈rc⌉ g.Nr
  let k ← bufIndex beta.length ir
  let bn := beta.getD k 0
  let scal : ℂ := (f.scal0 c q p : ℂ) * expTheta Nm m cos sin
  pure fun a b => R a b
    + (((s.sr rc b (gpuFlip Nm m f) bn * s.sz zc a : ℝ)) : ℂ) * scal

/-- The atomic additions of the registers: real part, and imaginary part for `m > 0`
(`cuda_methods.py:179-196`, `cuda_methods_one_mode.py:170-182`). -/
def storeRegs (s : Shape) (g : CylGrid) (m : ℕ) (izUpper irUpper : ℤ) (R : Regs) :
    Except PyErr (List AtomicAdd) := do
  let L ← (List.range s.width).mapM fun (a : ℕ) =>
    (List.range s.width).mapM fun (b : ℕ) => do
      let i ← bufIndex g.Nz (izIdx s g.Nz izUpper a)
      let j ← bufIndex g.Nr (irIdx s g.Nr irUpper b)
      pure (AtomicAdd.mk i j false (R a b).re
        :: if m > 0 then [AtomicAdd.mk i j true (R a b).im] else [])
  pure (L.flatten.flatten)

/-- The loop over the particles of a cell, from the last one down: iteration `j` reads the particle
`incl_offset-1-j` (`cuda_methods.py:116-119`). -/
noncomputable def ptclStep (s : Shape) (f : DepField) (c q : ℝ) (g : CylGrid) (beta : List ℝ)
    (Nm m : ℕ) (ps : List DepPtcl) (inclOffset : ℕ) (R : Regs) (j : ℕ) : Except PyErr Regs :=
  match ps[inclOffset - 1 - j]? with
  | some p => addPtcl s f c q g beta Nm m p R
  | none => .error (.indexError "particle index")

/-- Thread `i` of a kernel on sorted particles: the atomic additions it makes
(`cuda_methods.py:84-196`); `P` is the prefix sum, of length `Nz*(Nr+1)`. -/
noncomputable def sortedThread (s : Shape) (f : DepField) (c q : ℝ) (g : CylGrid) (beta : List ℝ)
    (Nm m : ℕ) (ps : List DepPtcl) (P : ℕ → ℕ) (i : ℕ) : Except PyErr (List AtomicAdd) :=
  if i < g.Nz * (g.Nr + 1) then do
    let izUpper := i / (g.Nr + 1)
    let irUpper := i - izUpper * (g.Nr + 1)
    let inclOffset := P i
    let frequency := if i > 0 then inclOffset - P (i - 1) else inclOffset
    let R ← (List.range frequency).foldlM (ptclStep s f c q g beta Nm m ps inclOffset) (fun _ _ => 0)
    if frequency > 0 then storeRegs s g m izUpper irUpper R else pure []
  else pure []

/-- Number of threads launched for `x` elements by `cuda_tpb_bpg_1d(x, TPB)`: `int(x/TPB + 1)`
blocks of `TPB` threads (`fbpic/utils/cuda.py:50-70`). -/
def threadsFor (x tpb : ℕ) : ℕ := (x / tpb + 1) * tpb

/-- A kernel launch on sorted particles with `T` threads. -/
noncomputable def sortedKernel (s : Shape) (f : DepField) (c q : ℝ) (g : CylGrid) (beta : List ℝ)
    (Nm m T : ℕ) (ps : List DepPtcl) (P : ℕ → ℕ) : Except PyErr (List AtomicAdd) := do
  let L ← (List.range T).mapM (sortedThread s f c q g beta Nm m ps P)
  pure L.flatten

/-- Thread `i` of a kernel on unsorted particles (`cuda_methods_unsorted.py:65-139`): the same
with one particle per thread, always the loop for `exptheta_m`, and the indices of its own cell. -/
noncomputable def unsortedThread (f : DepField) (q : ℝ) (g : CylGrid) (beta : List ℝ)
    (m : ℕ) (ps : List DepPtcl) (i : ℕ) : Except PyErr (List AtomicAdd) :=
  match ps[i]? with
  | none => pure []
  | some p => do
    let iz : ℤ := ⌈g.zCell p.z⌉
    let ir : ℤ := min ⌈g.rCell (cylR p.x p.y)⌉ g.Nr
    let iz := if iz < 0 then iz + g.Nz else if iz ≥ g.Nz then iz - g.Nz else iz
    let R ← addPtcl .linear f 1 q g beta 0 m p (fun _ _ => 0)
    storeRegs .linear g m iz ir R

/-- A launch of a kernel on unsorted particles. The particles carry the velocity in `ux, uy, uz`
and 1 in `invGamma` (these kernels have neither the factor `c` nor `inv_gamma`:
`cuda_methods_unsorted.py:264-266`). -/
noncomputable def unsortedKernel (f : DepField) (q : ℝ) (g : CylGrid) (beta : List ℝ)
    (m T : ℕ) (ps : List DepPtcl) : Except PyErr (List AtomicAdd) := do
  let L ← (List.range T).mapM (unsortedThread f q g beta m ps)
  pure L.flatten

/-- A species in the memory of the GPU: particle arrays and prefix sum. -/
structure GpuSpecies where
  q : ℝ
  shape : Shape
  ptcls : List DepPtcl
  prefixSum : ℕ → ℕ

/-- `Particles.sort_particles` (`particles.py:1049-1092`) on the grid `g`: the cell indices
are computed, sorted by `thrust.argsort`, the prefix sum is computed by kernels with threads in any
order, and the arrays are rearranged. -/
def Sorts (g : CylGrid) (ps ps' : List DepPtcl) (P : ℕ → ℕ) : Prop :=
  ∃ (keys' idx P0 : ℕ → ℕ) (threads1 threads2 : List ℕ),
    Sorting.ArgSorted ps.length
      (fun i => match ps[i]? with
        | some p => (Sorting.cellIdx (cylR p.x p.y) p.z g.invdz g.zmin g.Nz g.invdr g.rmin g.Nr).toNat
        | none => 0) keys' idx ∧
    (∀ i, i < g.Nz * (g.Nr + 1) → i ∈ threads1) ∧ (∀ i, i < ps.length → i ∈ threads2) ∧
    P = Sorting.prefixSum keys' ps.length (g.Nz * (g.Nr + 1)) threads1 threads2 P0 ∧
    ps'.length = ps.length ∧ ∀ i, i < ps.length → ps'[i]? = ps[idx i]?

/-- The depositions of all species in one mode, one after the other, onto the array `A`
(`particles.py:856-985`, GPU branch; `beta s m` are the coefficients of `grid[m]`, `tpb` is
`deposit_tpb`). -/
inductive SpeciesLaunched (f : DepField) (c : ℝ) (g : CylGrid) (beta : Shape → ℕ → List ℝ)
    (Nm m : ℕ) : List GpuSpecies → Buf → Buf → Prop
  | nil (A : Buf) : SpeciesLaunched f c g beta Nm m [] A A
  | skip {sp : GpuSpecies} {sps : List GpuSpecies} {A A' : Buf} (hq : sp.q = 0)
      (h : SpeciesLaunched f c g beta Nm m sps A A') :
      SpeciesLaunched f c g beta Nm m (sp :: sps) A A'
  | launch {sp : GpuSpecies} {sps : List GpuSpecies} {A A1 A' : Buf} (tpb : ℕ)
      (ops : List AtomicAdd) (hq : sp.q ≠ 0) (htpb : 0 < tpb)
      (hk : sortedKernel sp.shape f c sp.q g (beta sp.shape m) Nm m
        (threadsFor (g.Nz * (g.Nr + 1)) tpb) sp.ptcls sp.prefixSum = .ok ops)
      (hl : Launched ops A A1) (h : SpeciesLaunched f c g beta Nm m sps A1 A') :
      SpeciesLaunched f c g beta Nm m (sp :: sps) A A'

/-- The arguments of the unsorted kernels for the virtual particles of charge `q` of an antenna
(`fbpic/lpa_utils/laser/antenna_injection.py:351-386`). -/
noncomputable def antennaPtcls (q : ℝ) (a : Antenna.Ant) : List DepPtcl :=
  a.parts.map fun p =>
    { x := p.x + q * p.ex, y := p.y + q * p.ey, z := p.z, w := p.w,
      ux := q * p.vx, uy := q * p.vy, uz := p.vz, invGamma := 1 }

/-- The deposition of the antennas (`antenna_injection.py:314-386`): for each antenna on this
rank, the charges `-1` and `1`. -/
inductive AntennasLaunched (f : DepField) (g : CylGrid) (beta : Shape → ℕ → List ℝ)
    (m : ℕ) : List Antenna.Ant → Buf → Buf → Prop
  | nil (A : Buf) : AntennasLaunched f g beta m [] A A
  | skip {a : Antenna.Ant} {as : List Antenna.Ant} {A A' : Buf} (hr : a.onRank = false)
      (h : AntennasLaunched f g beta m as A A') : AntennasLaunched f g beta m (a :: as) A A'
  | launch {a : Antenna.Ant} {as : List Antenna.Ant} {A A1 A2 A' : Buf} (tpb : ℕ)
      (ops1 ops2 : List AtomicAdd) (hr : a.onRank = true) (htpb : 0 < tpb)
      (hk1 : unsortedKernel f (-1) g (beta .linear m) m (threadsFor a.parts.length tpb)
        (antennaPtcls (-1) a) = .ok ops1)
      (hk2 : unsortedKernel f 1 g (beta .linear m) m (threadsFor a.parts.length tpb)
        (antennaPtcls 1 a) = .ok ops2)
      (hl1 : Launched ops1 A A1) (hl2 : Launched ops2 A1 A2)
      (h : AntennasLaunched f g beta m as A2 A') : AntennasLaunched f g beta m (a :: as) A A'

/-- `Simulation.deposit` on the GPU, one quantity and one mode (`fbpic/main.py:615-656`): the
array is erased, then species and antennas deposit directly onto it. -/
def GpuDeposited (f : DepField) (c : ℝ) (g : CylGrid) (beta : Shape → ℕ → List ℝ) (Nm m : ℕ)
    (sps : List GpuSpecies) (ants : List Antenna.Ant) (A : Buf) : Prop :=
  ∃ A1, SpeciesLaunched f c g beta Nm m sps 0 A1 ∧ AntennasLaunched f g beta m ants A1 A

end Fbpic.GpuDeposit
