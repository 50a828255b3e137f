import Verif.Model.Pic
import Verif.Model.GpuDeposit

/-!
# A whole simulation on the GPU

`Simulation.step` with `use_cuda = True`, for the same case as `Model/Pic.lean` (one process, periodic in z,
reflective in r, no antennas, no elementary processes). What differs from the CPU:

* the particles of a species are sorted by cell (`sort_particles`) before the deposition and before the
  diagnostics in the boosted frame; the flag `sorted` says whether the arrays and the prefix sum are valid, the
  flag `keep_fields_sorted` whether the fields on the particles are sorted as well;
* the deposition makes one thread per cell, with atomic additions directly onto the arrays of the grid, instead
  of copies of the grid for each thread and a reduction;
* the transforms use the kernels of the GPU, with any number of threads per block in any order, and buffers with
  any content;
* the order in which `thrust.argsort` leaves the particles of a cell is not specified.

Therefore a piece of the cycle is a relation between the state before and after. The kernels with one thread per
particle (periodic shift, gathering, pushers) and with one thread per cell of the grid (filter, current
correction, field push) are the functions of the CPU (C102). `send_data_to_gpu` and `receive_data_from_gpu`
(main.py:400-402, 580-583) copy the arrays and do not appear.
-/

namespace Fbpic.Pic.Gpu

open Transform ExternalField Step GpuDeposit

/-- A `Particles` object with its arrays on the GPU (particles.py:215-246). -/
structure GSpecies where
  sp : Species
  sorted : Bool
  keepFields : Bool
  prefixSum : ℕ → ℕ

/-- The state of the simulation. -/
structure GSim where
  zmin : ℝ
  zmax : ℝ
  time : ℝ
  iteration : ℕ
  species : List GSpecies
  interp : ℕ → Interp
  spect : ℕ → SpecGrid

/-- The same state without the flags. -/
def GSim.sim (g : GSim) : Sim :=
  ⟨g.zmin, g.zmax, g.time, g.iteration, g.species.map GSpecies.sp, g.interp, g.spect, []⟩

variable (c : Cfg)

/-! ### Transforms -/

/-- The launch of the kernels of one transform, and what the buffers contain before
(spectral_transform/hankel.py:100-135, spectral_transform/fourier.py:50-90). -/
structure Dev where
  threads : List (ℕ × ℕ)
  dhtIn : ℕ → ℕ → ℝ
  dhtOut : ℕ → ℕ → ℝ
  fftIn : ℕ → ℂ

/-- The kernels are launched with `cuda_tpb_bpg_2d(Nz, Nr, TPBx, TPBy)` for some block size, and the threads run
in any order (utils/cuda.py:72-95). -/
def Dev.Launch (d : Dev) : Prop :=
  ∃ TPBx TPBy, 0 < TPBx ∧ 0 < TPBy ∧ d.threads.Perm (grid2d c.Nz c.Nr TPBx TPBy)

/-- The `SpectralTransformer` of mode `m` on the GPU (spectral_transformer.py:20-87). -/
def transOn (d : Dev) (m : ℕ) : Trans where
  Nz := c.Nz
  Nr := c.Nr
  gpu := true
  M0 := (c.mats m).M0
  invM0 := (c.mats m).invM0
  Mp := (c.mats m).Mp
  invMp := (c.mats m).invMp
  Mm := (c.mats m).Mm
  invMm := (c.mats m).invMm
  bufR := 0
  bufT := 1
  threads := d.threads
  dhtIn := d.dhtIn
  dhtOut := d.dhtOut
  fftIn := d.fftIn

instance [h : NeZero c.Nz] (d : Dev) (m : ℕ) : NeZero (transOn c d m).Nz := h

section
variable [NeZero c.Nz]

/-- `interp2spect_scal(a, out)`. spectral_transformer.py:157-177 -/
noncomputable def toSpectScal (d : Dev) (m : ℕ) (a out : Buf) : Buf :=
  (transOn c d m).interp2spectScal 2 3 (fun b => if b = 2 then a else if b = 3 then out else 0) 3

/-- `spect2interp_scal(a, out)`. spectral_transformer.py:89-109 -/
noncomputable def toInterpScal (d : Dev) (m : ℕ) (a out : Buf) : Buf :=
  (transOn c d m).spect2interpScal 2 3 (fun b => if b = 2 then a else if b = 3 then out else 0) 3

/-- `interp2spect_vect(r, t, outP, outM)`. spectral_transformer.py:179-223 -/
noncomputable def toSpectVect (d : Dev) (m : ℕ) (r t outP outM : Buf) : Buf × Buf :=
  let mem := (transOn c d m).interp2spectVect 2 3 4 5 (vectMem r t outP outM)
  (mem 4, mem 5)

/-- `spect2interp_vect(p, m, outR, outT)`. spectral_transformer.py:111-155 -/
noncomputable def toInterpVect (d : Dev) (m : ℕ) (p q outR outT : Buf) : Buf × Buf :=
  let mem := (transOn c d m).spect2interpVect 2 3 4 5 (vectMem p q outR outT)
  (mem 4, mem 5)

/-- `interp2spect('E')` for one mode, fields.py:334-341. The transforms are numbered: each has its own launch. -/
noncomputable def spectE (d : ℕ → Dev) (m : ℕ) (i : Interp) (g : SpecGrid) : SpecGrid :=
  let z := toSpectScal c (d 0) m i.E.z (fun iz ir => (g.cell iz ir).Ez)
  let pm := toSpectVect c (d 1) m i.E.r i.E.t (fun iz ir => (g.cell iz ir).Ep) (fun iz ir => (g.cell iz ir).Em)
  { g with cell := fun iz ir =>
      { g.cell iz ir with Ez := z iz ir, Ep := pm.1 iz ir, Em := pm.2 iz ir } }

/-- `interp2spect('B')` for one mode, fields.py:342-349. -/
noncomputable def spectB (d : ℕ → Dev) (m : ℕ) (i : Interp) (g : SpecGrid) : SpecGrid :=
  let z := toSpectScal c (d 2) m i.B.z (fun iz ir => (g.cell iz ir).Bz)
  let pm := toSpectVect c (d 3) m i.B.r i.B.t (fun iz ir => (g.cell iz ir).Bp) (fun iz ir => (g.cell iz ir).Bm)
  { g with cell := fun iz ir =>
      { g.cell iz ir with Bz := z iz ir, Bp := pm.1 iz ir, Bm := pm.2 iz ir } }

/-- `interp2spect('J')` for one mode, fields.py:362-369. -/
noncomputable def spectJ (d : ℕ → Dev) (m : ℕ) (i : Interp) (g : SpecGrid) : SpecGrid :=
  let z := toSpectScal c (d 0) m i.J.z (fun iz ir => (g.cell iz ir).Jz)
  let pm := toSpectVect c (d 1) m i.J.r i.J.t (fun iz ir => (g.cell iz ir).Jp) (fun iz ir => (g.cell iz ir).Jm)
  { g with cell := fun iz ir =>
      { g.cell iz ir with Jz := z iz ir, Jp := pm.1 iz ir, Jm := pm.2 iz ir } }

/-- `interp2spect` of a charge density for one mode, fields.py:370-375. -/
noncomputable def spectRho (d : ℕ → Dev) (n : RhoName) (m : ℕ) (i : Interp) (g : SpecGrid) : SpecGrid :=
  let a := toSpectScal c (d 0) m i.rho (fun iz ir => n.get (g.cell iz ir))
  { g with cell := fun iz ir => n.set (a iz ir) (g.cell iz ir) }

/-- `spect2interp('E')` and `spect2interp('B')` for one mode, fields.py:392-407. -/
noncomputable def interpEB (d : ℕ → Dev) (m : ℕ) (g : SpecGrid) (i : Interp) : Interp :=
  let ez := toInterpScal c (d 0) m (fun iz ir => (g.cell iz ir).Ez) i.E.z
  let e := toInterpVect c (d 1) m (fun iz ir => (g.cell iz ir).Ep) (fun iz ir => (g.cell iz ir).Em) i.E.r i.E.t
  let bz := toInterpScal c (d 2) m (fun iz ir => (g.cell iz ir).Bz) i.B.z
  let b := toInterpVect c (d 3) m (fun iz ir => (g.cell iz ir).Bp) (fun iz ir => (g.cell iz ir).Bm) i.B.r i.B.t
  { i with E := ⟨e.1, e.2, ez⟩, B := ⟨b.1, b.2, bz⟩ }

/-- `spect2interp('J')` and `spect2interp('rho_prev')` for one mode, fields.py:420-440. -/
noncomputable def interpSources (d : ℕ → Dev) (m : ℕ) (g : SpecGrid) (i : Interp) : Interp :=
  let jz := toInterpScal c (d 0) m (fun iz ir => (g.cell iz ir).Jz) i.J.z
  let j := toInterpVect c (d 1) m (fun iz ir => (g.cell iz ir).Jp) (fun iz ir => (g.cell iz ir).Jm) i.J.r i.J.t
  let rho := toInterpScal c (d 2) m (fun iz ir => (g.cell iz ir).rhoPrev) i.rho
  { i with J := ⟨j.1, j.2, jz⟩, rho := rho }

end

/-! ### Sorting -/

/-- The cell of a particle on the grid with lower edge `zmin` (`get_cell_idx_per_particle`,
cuda_sorting.py:56-85). -/
noncomputable def cellOf (zmin : ℝ) (p : Ptcl) : ℕ :=
  (Sorting.cellIdx (cylR p.push.x p.push.y) p.push.z c.invdz zmin c.Nz c.invdr 0 c.Nr).toNat

/-- `species.sort_particles(fld)` followed by `species.sorted = True` (particles.py:1049-1092, 510-555): the
cell indices are sorted together with the numbers of the particles, the prefix sum is computed by kernels with
threads in any order, all the arrays of the particles are rearranged; the fields on the particles only if
`keep_fields_sorted`, otherwise these arrays stay as they are. -/
def SortedTo (zmin : ℝ) (a b : GSpecies) : Prop :=
  ∃ (keys' idx : ℕ → ℕ) (threads1 threads2 : List ℕ) (l : List Ptcl),
    Sorting.ArgSorted a.sp.ptcl.length
      (fun i => match a.sp.ptcl[i]? with
        | some p => cellOf c zmin p
        | none => 0) keys' idx ∧
    (∀ i, i < c.Nz * (c.Nr + 1) → i ∈ threads1) ∧ (∀ i, i < a.sp.ptcl.length → i ∈ threads2) ∧
    l.length = a.sp.ptcl.length ∧
    (∀ i p f, a.sp.ptcl[idx i]? = some p → a.sp.ptcl[i]? = some f →
      l[i]? = some { p with F := if a.keepFields then p.F else f.F }) ∧
    b = { a with
      sp := { a.sp with ptcl := l }
      sorted := true
      prefixSum := Sorting.prefixSum keys' a.sp.ptcl.length (c.Nz * (c.Nr + 1)) threads1 threads2 a.prefixSum }

/-- What `deposit` does with a species before the kernels: tracers are left out (main.py:623-624), neutral
species return (particles.py:850-852), unsorted ones are sorted (particles.py:866-871). -/
def SortIfNeeded (zmin : ℝ) (a b : GSpecies) : Prop :=
  if a.sp.isTracer ∨ a.sp.q = 0 ∨ a.sorted then b = a else SortedTo c zmin a b

/-! ### Deposition -/

/-- What the kernels of the deposition read. -/
noncomputable def GSpecies.dep (a : GSpecies) : GpuSpecies :=
  ⟨a.sp.q, a.sp.shape, a.sp.ptcl.map (Ptcl.dep a.sp.ionizable), a.prefixSum⟩

/-- One quantity on the grids of all modes: erase, deposit, divide by the volume (main.py:615-657). -/
def Deposited (f : DepField) (zmin : ℝ) (sps : List GSpecies) (A : ℕ → Buf) : Prop :=
  ∀ m, if m < c.Nm then
      ∃ B, GpuDeposited f c.k.c (c.grid zmin) c.beta c.Nm m
          ((sps.filter fun a => !a.sp.isTracer).map GSpecies.dep) [] B ∧
        A m = CellVolume.divideByVolume (c.vol m) B
    else A m = 0

section
variable [NeZero c.Nz]

/-- `deposit('rho_prev')` etc. (main.py:588-670). -/
def DepositRho (n : RhoName) (g g' : GSim) : Prop :=
  ∃ (sps : List GSpecies) (A : ℕ → Buf) (d : ℕ → ℕ → Dev),
    List.Forall₂ (SortIfNeeded c g.zmin) g.species sps ∧ Deposited c .rho g.zmin sps A ∧
    (∀ m k, (d m k).Launch c) ∧
    g' = { g with
      species := sps
      interp := onModes c.Nm (fun m i => { i with rho := A m }) g.interp
      spect := onModes c.Nm (fun m s => c.filterSpect n.filterField m
        (spectRho c (d m) n m (onModes c.Nm (fun m i => { i with rho := A m }) g.interp m) s)) g.spect }

/-- `deposit('J')` (main.py:588-670). -/
def DepositJ (g g' : GSim) : Prop :=
  ∃ (sps : List GSpecies) (Jr Jt Jz : ℕ → Buf) (d : ℕ → ℕ → Dev),
    List.Forall₂ (SortIfNeeded c g.zmin) g.species sps ∧ Deposited c .Jr g.zmin sps Jr ∧
    Deposited c .Jt g.zmin sps Jt ∧ Deposited c .Jz g.zmin sps Jz ∧ (∀ m k, (d m k).Launch c) ∧
    g' = { g with
      species := sps
      interp := onModes c.Nm (fun m i => { i with J := ⟨Jr m, Jt m, Jz m⟩ }) g.interp
      spect := onModes c.Nm (fun m s => c.filterSpect .J m
        (spectJ c (d m) m (onModes c.Nm (fun m i => { i with J := ⟨Jr m, Jt m, Jz m⟩ }) g.interp m) s)) g.spect }

end

/-! ### Particles -/

/-- A kernel with one thread per particle, on every species. -/
def GSim.mapPtclM (f : Species → Ptcl → Except PyErr Ptcl) (g : GSim) : Except PyErr GSim := do
  let sps ← g.species.mapM fun a => do
    let l ← a.sp.ptcl.mapM (f a.sp)
    pure { a with sp := { a.sp with ptcl := l } }
  pure { g with species := sps }

/-- `shift_particles_periodic_cuda` on all species (particle_buffer_handling.py:514-534, cuda_methods.py of
`boundaries`); the flag `sorted` is kept. -/
noncomputable def wrapAll (g : GSim) : Except PyErr GSim := g.mapPtclM fun _ p => c.wrap g.zmin g.zmax p

/-- `species.keep_fields_sorted = b` for all species (main.py:464-466, 505-507). -/
def GSim.keep (b : Bool) (g : GSim) : GSim :=
  { g with species := g.species.map fun a => { a with keepFields := b } }

/-- `gather` on all species (particles.py:674-830, GPU). -/
noncomputable def gatherAll (g : GSim) : Except PyErr GSim := g.mapPtclM (c.gatherPtcl g.sim)

/-- The external fields, main.py:472-473. -/
def applyExts (g : GSim) : GSim :=
  { g with species := g.species.mapIdx fun id a => { a with sp :=
      { a.sp with ptcl := a.sp.ptcl.map fun p => c.ext.foldl (fun p e => applyExt e g.time id p) p } } }

/-- The diagnostics: some of them sort the particles of some species
(openpmd_diag/boosted_particle_diag.py:669-675). -/
def Diags (g g' : GSim) : Prop :=
  ∃ sps, List.Forall₂ (fun a b => b = a ∨ (a.sorted = false ∧ SortedTo c g.zmin a b)) g.species sps ∧
    g' = { g with species := sps }

/-- `push_p` on all species (particles.py:557-636, GPU). -/
noncomputable def pushPAll (g : GSim) : Except PyErr GSim := g.mapPtclM (c.pushP (g.time + 0.5 * c.dt))

/-- `push_x` on all species: the particles are not sorted any more (particles.py:639-672). -/
noncomputable def pushX (dt px py pz : ℝ) (g : GSim) : GSim :=
  { g with species := g.species.map fun a => { a with
      sp := { a.sp with ptcl := a.sp.ptcl.map fun p => { p with push := Fbpic.pushX c.k.c dt px py pz p.push } }
      sorted := false } }

/-- `shift_galilean_boundaries` (main.py:772-789). -/
noncomputable def shiftGalilean (dt : ℝ) (g : GSim) : GSim :=
  if c.galilean then
    { g with zmin := g.zmin + c.V.getD 0 * dt, zmax := g.zmax + c.V.getD 0 * dt }
  else g

/-- Position push, if the positions are moved, and shift of the Galilean frame (e.g. main.py:487-497). -/
noncomputable def movePush (move : Bool) (dt px py pz dtg : ℝ) (g : GSim) : GSim :=
  shiftGalilean c dtg (if move then pushX c dt px py pz g else g)

/-! ### The cycle -/

section
variable [NeZero c.Nz]

/-- `cross_deposit(move_positions)`, main.py:672-716. -/
def CrossDeposit (move : Bool) (g g' : GSim) : Prop :=
  ∃ g1 g2, DepositRho c .nextXY (movePush c move (0.5 * c.dt) 1 1 (-1) (-0.5 * c.dt) g) g1 ∧
    DepositRho c .nextZ (movePush c move c.dt (-1) (-1) 1 c.dt g1) g2 ∧
    g' = movePush c move (0.5 * c.dt) 1 1 (-1) (-0.5 * c.dt) g2

/-- First part of the loop of `step`: particle exchange, depositions of the first iteration, gathering,
external fields, diagnostics (main.py:435-482). -/
def IterStart (iStep : ℕ) (g g' : GSim) : Prop :=
  ∃ g1 g2 g3, (if g.iteration % c.exchangePeriod = 0 ∨ iStep = 0 then
        ∃ ga, wrapAll c g = .ok ga ∧ DepositRho c .prev ga g1 else g1 = g) ∧
    (if iStep = 0 then DepositJ c g1 g2 else g2 = g1) ∧
    gatherAll c (g2.keep true) = .ok g3 ∧ Diags c (applyExts c g3) g'

/-- Second part: momentum push, first half of the position push, Galilean shift (main.py:484-507). -/
def IterHalf (o : Opts) (g g' : GSim) : Prop :=
  ∃ g1, (if o.moveMomenta then pushPAll c g = .ok g1 else g1 = g) ∧
    g' = (movePush c o.movePositions (0.5 * c.dt) 1 1 1 (0.5 * c.dt) g1).keep false

/-- Third part: deposition of the current, cross-deposition, second half of the position push, deposition of
the charge (main.py:509-527). -/
def IterDeposit (o : Opts) (g g' : GSim) : Prop :=
  ∃ g1 g2, DepositJ c g g1 ∧
    (match o.correctCurrents, c.correction with
      | true, .crossDeposition => CrossDeposit c o.movePositions g1 g2
      | _, _ => g2 = g1) ∧
    DepositRho c .next (movePush c o.movePositions (0.5 * c.dt) 1 1 1 (0.5 * c.dt) g2) g'

/-- The new spectral fields: current correction, field push (main.py:528-545). -/
noncomputable def newSpect (o : Opts) (spect : ℕ → SpecGrid) : Except PyErr (ℕ → SpecGrid) := do
  let spect := if o.correctCurrents then
      onModes c.Nm (fun _ g => g.correctCurrents c.k c.correction c.dt c.V c.galilean) spect
    else spect
  let spect := onModes c.Nm (fun _ g => g.push c.k c.dt c.V c.galilean false o.useTrueRho) spect
  if o.correctDivE then c.correctDivE spect else pure spect

/-- Last part (main.py:528-560). -/
def IterEnd (o : Opts) (g g' : GSim) : Prop :=
  ∃ (spect : ℕ → SpecGrid) (d : ℕ → ℕ → Dev), newSpect c o g.spect = .ok spect ∧ (∀ m k, (d m k).Launch c) ∧
    g' = { g with
      spect := spect
      interp := onModes c.Nm (fun m i => interpEB c (d m) m (spect m) i) g.interp
      time := g.time + c.dt
      iteration := g.iteration + 1 }

/-- One round of the loop of `step` (main.py:421-565). -/
def Iter (o : Opts) (iStep : ℕ) (g g' : GSim) : Prop :=
  c.exchangePeriod ≠ 0 ∧ ∃ g1 g2 g3, IterStart c iStep g g1 ∧ IterHalf c o g1 g2 ∧ IterDeposit c o g2 g3 ∧
    IterEnd c o g3 g'

/-- `for i_step in range(N)`, from `i_step = i`. -/
def Loop (o : Opts) (i : ℕ) : ℕ → GSim → GSim → Prop
  | 0, g, g' => g' = g
  | n + 1, g, g' => ∃ g1, Iter c o i g g1 ∧ Loop o (i + 1) n g1 g'

/-- Before the loop (main.py:404-416). -/
def StartFields (g g' : GSim) : Prop :=
  ∃ d : ℕ → ℕ → Dev, (∀ m k, (d m k).Launch c) ∧
    g' = { g with
      spect := onModes c.Nm (fun m s => spectB c (d m) m (g.interp m)
        (spectE c (d m) m (g.interp m) s)) g.spect }

/-- After the loop (main.py:570-577). -/
def EndFields (g g' : GSim) : Prop :=
  ∃ d : ℕ → ℕ → Dev, (∀ m k, (d m k).Launch c) ∧
    g' = { g with interp := onModes c.Nm (fun m i => interpSources c (d m) m (g.spect m) i) g.interp }

/-- `step(N, …)` (main.py:346-585). -/
def Step (N : ℕ) (o : Opts) (g g' : GSim) : Prop :=
  ∃ g1 g2, StartFields c g g1 ∧ Loop c o 0 N g1 g2 ∧ EndFields c g2 g'

/-- Several calls to `step`, one after the other. -/
def Calls : List (ℕ × Opts) → GSim → GSim → Prop
  | [], g, g' => g' = g
  | (n, o) :: L, g, g' => ∃ g1, Step c n o g g1 ∧ Calls L g1 g'

end

end Fbpic.Pic.Gpu
