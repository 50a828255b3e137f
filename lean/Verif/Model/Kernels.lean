import Verif.Model.Parallel
import Verif.Model.Smoothing
import Verif.Model.Damping
import Verif.Model.Push
import Verif.Model.FieldGather
import Verif.Model.Exchange

/-!
# The parallel loops of the code, statement by statement

The kernels of `fields/cuda_methods.py`, `fields/numba_methods.py`, `particles/push/cuda_methods.py`,
`particles/push/numba_methods.py`, `particles/gathering/cuda_methods*.py`,
`particles/gathering/threading_methods*.py` and `boundaries/cuda_methods.py` as programs of the machine
of `Model/Parallel.lean`, and the methods that launch them. Exact real and complex arithmetic.
-/

namespace Fbpic.Parallel

open Complex

noncomputable section

/-! ### Spectral space -/

/-- The local variables of the kernels in spectral space. -/
structure FieldRegs where
  F : ℂ
  Dz : ℂ
  Dxy : ℂ
  invKr : ℂ
  invKz : ℂ
  epOld : ℂ
  emOld : ℂ
  ezOld : ℂ
  divE : ℂ
  divJ : ℂ
  rhoDiff : ℂ

instance : Nonempty FieldRegs := ⟨⟨0, 0, 0, 0, 0, 0, 0, 0, 0, 0, 0⟩⟩

/-- Statements of the kernels in spectral space. -/
abbrev FieldCode := List (FieldRegs → SpecCell → FieldRegs × SpecCell)

/-- The end of both curl-free kernels. cuda_methods.py:138-141, 194-197 -/
def correctByF (kz kr : ℝ) : FieldCode :=
  [ store fun r s => { s with Jp := s.Jp + 0.5 * kr * r.F },
    store fun r s => { s with Jm := s.Jm + -0.5 * kr * r.F },
    store fun r s => { s with Jz := s.Jz + -I * kz * r.F } ]

/-- `cuda_correct_currents_curlfree_standard` (cuda_methods.py:120-141), same statements in
`numba_correct_currents_curlfree_standard` (numba_methods.py:63-83). -/
def curlFreeStandardCode (kz kr invk2 invdt : ℝ) : FieldCode :=
  [ assign fun r s => { r with
      F := -invk2 * ((s.rhoNext - s.rhoPrev) * invdt + I * kz * s.Jz + kr * (s.Jp - s.Jm)) } ]
  ++ correctByF kz kr

/-- The end of both cross-deposition kernels. cuda_methods.py:164-171, 225-232 -/
def correctByD (kz kr : ℝ) : FieldCode :=
  (if kr ≠ 0 then
    [ assign fun r _ => { r with invKr := 1 / kr },
      store fun r s => { s with Jp := s.Jp + -0.5 * r.Dxy * r.invKr },
      store fun r s => { s with Jm := s.Jm + 0.5 * r.Dxy * r.invKr } ]
  else []) ++
  (if kz ≠ 0 then
    [ assign fun r _ => { r with invKz := 1 / kz },
      store fun r s => { s with Jz := s.Jz + I * r.Dz * r.invKz } ]
  else [])

/-- `cuda_correct_currents_crossdeposition_standard` (cuda_methods.py:143-171), same statements in
numba_methods.py:87-114. -/
def crossDepStandardCode (kz kr invdt : ℝ) : FieldCode :=
  [ assign fun r s => { r with
      Dz := I * kz * s.Jz + 0.5 * invdt * (s.rhoNext - s.rhoNextXY + s.rhoNextZ - s.rhoPrev) },
    assign fun r s => { r with
      Dxy := kr * (s.Jp - s.Jm)
        + 0.5 * invdt * (s.rhoNext - s.rhoNextZ + s.rhoNextXY - s.rhoPrev) } ]
  ++ correctByD kz kr

/-- `cuda_correct_currents_curlfree_comoving` (cuda_methods.py:173-197), same statements in
numba_methods.py:216-238. -/
def curlFreeComovingCode (kz kr invk2 : ℝ) (a : ComovCoefs) : FieldCode :=
  [ assign fun r s => { r with
      F := -invk2 * (a.Tcc * a.jCorr * (s.rhoNext - s.rhoPrev * a.Teb)
        + I * kz * s.Jz + kr * (s.Jp - s.Jm)) } ]
  ++ correctByF kz kr

/-- `cuda_correct_currents_crossdeposition_comoving` (cuda_methods.py:199-232), same statements in
numba_methods.py:242-273. -/
def crossDepComovingCode (kz kr : ℝ) (a : ComovCoefs) : FieldCode :=
  [ assign fun r s => { r with
      Dz := I * kz * s.Jz + 0.5 * a.Tcc * a.jCorr *
        (s.rhoNext - a.Teb * s.rhoNextXY + s.rhoNextZ - a.Teb * s.rhoPrev) },
    assign fun r s => { r with
      Dxy := kr * (s.Jp - s.Jm) + 0.5 * a.Tcc * a.jCorr *
        (s.rhoNext + a.Teb * s.rhoNextXY - s.rhoNextZ - a.Teb * s.rhoPrev) } ]
  ++ correctByD kz kr

/-- "Save the electric fields, since it is needed for the B push". cuda_methods.py:251-254, 353-356 -/
def saveE : FieldCode :=
  [ assign fun r s => { r with epOld := s.Ep },
    assign fun r s => { r with emOld := s.Em },
    assign fun r s => { r with ezOld := s.Ez } ]

/-- `cuda_push_eb_standard` (cuda_methods.py:234-301), same statements in numba_methods.py:118-183. -/
def pushEBStandardCode (k : Consts) (kz kr : ℝ) (ps : PsatdCoefs) (useTrueRho : Bool) : FieldCode :=
  saveE ++
  (if useTrueRho then
    [ assign fun r s => { r with
        rhoDiff := ps.rhoNextCoef * s.rhoNext - ps.rhoPrevCoef * s.rhoPrev } ]
  else
    [ assign fun r s => { r with divE := kr * (s.Ep - s.Em) + I * kz * s.Ez },
      assign fun r s => { r with divJ := kr * (s.Jp - s.Jm) + I * kz * s.Jz },
      assign fun r _ => { r with
        rhoDiff := (ps.rhoNextCoef - ps.rhoPrevCoef) * k.eps0 * r.divE
          - ps.rhoNextCoef * ps.dt * r.divJ } ]) ++
  [ store fun r s => { s with
      Ep := ps.C * s.Ep + 0.5 * kr * r.rhoDiff
        + k.c ^ 2 * ps.Sw * (-I * 0.5 * kr * s.Bz + kz * s.Bp - k.mu0 * s.Jp) },
    store fun r s => { s with
      Em := ps.C * s.Em - 0.5 * kr * r.rhoDiff
        + k.c ^ 2 * ps.Sw * (-I * 0.5 * kr * s.Bz - kz * s.Bm - k.mu0 * s.Jm) },
    store fun r s => { s with
      Ez := ps.C * s.Ez - I * kz * r.rhoDiff
        + k.c ^ 2 * ps.Sw * (I * kr * s.Bp + I * kr * s.Bm - k.mu0 * s.Jz) },
    store fun r s => { s with
      Bp := ps.C * s.Bp - ps.Sw * (-I * 0.5 * kr * r.ezOld + kz * r.epOld)
        + ps.jCoef * (-I * 0.5 * kr * s.Jz + kz * s.Jp) },
    store fun r s => { s with
      Bm := ps.C * s.Bm - ps.Sw * (-I * 0.5 * kr * r.ezOld - kz * r.emOld)
        + ps.jCoef * (-I * 0.5 * kr * s.Jz - kz * s.Jm) },
    store fun r s => { s with
      Bz := ps.C * s.Bz - ps.Sw * (I * kr * r.epOld + I * kr * r.emOld)
        + ps.jCoef * (I * kr * s.Jp + I * kr * s.Jm) } ]

/-- `cuda_push_eb_pml_standard` (cuda_methods.py:304-330), same statements in numba_methods.py:188-212. -/
def pushPmlStandardCode (k : Consts) (kr : ℝ) (ps : PsatdCoefs) : FieldCode :=
  [ store fun _ s => { s with
      EpPml := ps.C * s.EpPml + k.c ^ 2 * ps.Sw * (-I * 0.5 * kr * s.Bz) },
    store fun _ s => { s with
      EmPml := ps.C * s.EmPml + k.c ^ 2 * ps.Sw * (-I * 0.5 * kr * s.Bz) },
    store fun _ s => { s with BpPml := ps.C * s.BpPml - ps.Sw * (-I * 0.5 * kr * s.Ez) },
    store fun _ s => { s with BmPml := ps.C * s.BmPml - ps.Sw * (-I * 0.5 * kr * s.Ez) } ]

/-- `cuda_push_eb_comoving` (cuda_methods.py:333-411), same statements in numba_methods.py:277-353. -/
def pushEBComovingCode (k : Consts) (kz kr : ℝ) (ps : PsatdCoefs) (a : ComovCoefs)
    (useTrueRho : Bool) : FieldCode :=
  saveE ++
  (if useTrueRho then
    [ assign fun r s => { r with
        rhoDiff := ps.rhoNextCoef * s.rhoNext - ps.rhoPrevCoef * s.rhoPrev } ]
  else
    [ assign fun r s => { r with divE := kr * (s.Ep - s.Em) + I * kz * s.Ez },
      assign fun r s => { r with divJ := kr * (s.Jp - s.Jm) + I * kz * s.Jz },
      assign fun r _ => { r with
        rhoDiff := (a.Teb * ps.rhoNextCoef - ps.rhoPrevCoef) * k.eps0 * r.divE
          + a.Trho * ps.rhoNextCoef * r.divJ } ]) ++
  [ store fun r s => { s with
      Ep := a.Teb * ps.C * s.Ep + 0.5 * kr * r.rhoDiff + ps.jCoef * I * kz * a.V * s.Jp
        + k.c ^ 2 * a.Teb * ps.Sw * (-I * 0.5 * kr * s.Bz + kz * s.Bp - k.mu0 * a.Tcc * s.Jp) },
    store fun r s => { s with
      Em := a.Teb * ps.C * s.Em - 0.5 * kr * r.rhoDiff + ps.jCoef * I * kz * a.V * s.Jm
        + k.c ^ 2 * a.Teb * ps.Sw * (-I * 0.5 * kr * s.Bz - kz * s.Bm - k.mu0 * a.Tcc * s.Jm) },
    store fun r s => { s with
      Ez := a.Teb * ps.C * s.Ez - I * kz * r.rhoDiff + ps.jCoef * I * kz * a.V * s.Jz
        + k.c ^ 2 * a.Teb * ps.Sw * (I * kr * s.Bp + I * kr * s.Bm - k.mu0 * a.Tcc * s.Jz) },
    store fun r s => { s with
      Bp := a.Teb * ps.C * s.Bp - a.Teb * ps.Sw * (-I * 0.5 * kr * r.ezOld + kz * r.epOld)
        + ps.jCoef * (-I * 0.5 * kr * s.Jz + kz * s.Jp) },
    store fun r s => { s with
      Bm := a.Teb * ps.C * s.Bm - a.Teb * ps.Sw * (-I * 0.5 * kr * r.ezOld - kz * r.emOld)
        + ps.jCoef * (-I * 0.5 * kr * s.Jz - kz * s.Jm) },
    store fun r s => { s with
      Bz := a.Teb * ps.C * s.Bz - a.Teb * ps.Sw * (I * kr * r.epOld + I * kr * r.emOld)
        + ps.jCoef * (I * kr * s.Jp + I * kr * s.Jm) } ]

/-- `cuda_push_eb_pml_comoving` (cuda_methods.py:414-439), same statements in numba_methods.py:357-380. -/
def pushPmlComovingCode (k : Consts) (kr : ℝ) (ps : PsatdCoefs) (a : ComovCoefs) : FieldCode :=
  [ store fun _ s => { s with
      EpPml := a.Teb * ps.C * s.EpPml + k.c ^ 2 * a.Teb * ps.Sw * (-I * 0.5 * kr * s.Bz) },
    store fun _ s => { s with
      EmPml := a.Teb * ps.C * s.EmPml + k.c ^ 2 * a.Teb * ps.Sw * (-I * 0.5 * kr * s.Bz) },
    store fun _ s => { s with BpPml := a.Teb * ps.C * s.BpPml - a.Teb * ps.Sw * (-I * 0.5 * kr * s.Ez) },
    store fun _ s => { s with BmPml := a.Teb * ps.C * s.BmPml - a.Teb * ps.Sw * (-I * 0.5 * kr * s.Ez) } ]

/-- `cuda_push_rho`. cuda_methods.py:442-464 -/
def pushRhoCode : FieldCode :=
  [ store fun _ s => { s with rhoPrev := s.rhoNext }, store fun _ s => { s with rhoNext := 0 } ]

/-- `cuda_filter_vector`, `cuda_filter_scalar` (cuda_methods.py:466-517) with the arrays that
`SpectralGrid.filter` passes (spectral_grid.py:423-478); same statements in numba_methods.py:14-60. -/
def filterCode (f : ℝ) : FilterField → FieldCode
  | .J => [ store fun _ s => { s with Jp := f * s.Jp }, store fun _ s => { s with Jm := f * s.Jm },
      store fun _ s => { s with Jz := f * s.Jz } ]
  | .E => [ store fun _ s => { s with Ep := f * s.Ep }, store fun _ s => { s with Em := f * s.Em },
      store fun _ s => { s with Ez := f * s.Ez } ]
  | .B => [ store fun _ s => { s with Bp := f * s.Bp }, store fun _ s => { s with Bm := f * s.Bm },
      store fun _ s => { s with Bz := f * s.Bz } ]
  | .rhoPrev => [ store fun _ s => { s with rhoPrev := f * s.rhoPrev } ]
  | .rhoNext => [ store fun _ s => { s with rhoNext := f * s.rhoNext } ]
  | .rhoNextZ => [ store fun _ s => { s with rhoNextZ := f * s.rhoNextZ } ]
  | .rhoNextXY => [ store fun _ s => { s with rhoNextXY := f * s.rhoNextXY } ]

/-- The arrays of a `SpectralGrid` as the memory of the machine. -/
def specMem (g : SpecGrid) : ℕ × ℕ → SpecCell := fun i => g.cell i.1 i.2

/-- The kernel that `correct_currents` chooses, in one cell. spectral_grid.py:220-257 (GPU), 258-296 (CPU) -/
def correctCurrentsCode (m : CurrentCorrection) (kz kr : ℝ) (ps : PsatdCoefs) : FieldCode :=
  match ps.comov, m with
  | none, .curlFree => curlFreeStandardCode kz kr (invK2 kz kr) (1 / ps.dt)
  | none, .crossDeposition => crossDepStandardCode kz kr (1 / ps.dt)
  | some a, .curlFree => curlFreeComovingCode kz kr (invK2 kz kr) a
  | some a, .crossDeposition => crossDepComovingCode kz kr a

/-- The first kernel of `push_eb_with` with PML. spectral_grid.py:343-349, 360-366, 375-381, 390-396 -/
def pushPmlCode (k : Consts) (kr : ℝ) (ps : PsatdCoefs) : FieldCode :=
  match ps.comov with
  | none => pushPmlStandardCode k kr ps
  | some a => pushPmlComovingCode k kr ps a

/-- The kernel of `push_eb_with` for the regular fields. -/
def pushEBCode (k : Consts) (kz kr : ℝ) (ps : PsatdCoefs) (useTrueRho : Bool) : FieldCode :=
  match ps.comov with
  | none => pushEBStandardCode k kz kr ps useTrueRho
  | some a => pushEBComovingCode k kz kr ps a useTrueRho

/-- Type of the launches over a two-dimensional grid on the GPU. -/
abbrev GpuLaunch := Launch ((ℕ × ℕ) × (ℕ × ℕ)) (ℕ × ℕ) FieldRegs SpecCell

/-- Type of the loops over a two-dimensional grid on the CPU. -/
abbrev CpuLaunch := Launch ℕ (ℕ × ℕ) FieldRegs SpecCell

/-- A kernel on the grid `g`, with `TPB` threads per block along r. -/
def gpuGrid (g : SpecGrid) (TPB : ℕ) (code : ℕ → ℕ → FieldCode) : GpuLaunch :=
  launch2d g.Nz g.Nr 1 TPB (cellKernel g.Nz g.Nr code)

/-- The loop over the grid `g` on the CPU. -/
def cpuGrid (g : SpecGrid) (code : ℕ → ℕ → FieldCode) : CpuLaunch :=
  prangeLoop g.Nz (rowLoop g.Nr code)

/-- `SpectralGrid.correct_currents` on the GPU. spectral_grid.py:217-257 -/
def correctCurrentsGpu (k : Consts) (m : CurrentCorrection) (dt : ℝ) (V : Option ℝ) (useGalilean : Bool)
    (g : SpecGrid) : List GpuLaunch :=
  [gpuGrid g 16 fun iz ir =>
    correctCurrentsCode m (g.kz iz) (g.kr ir) (psatdCoefs k (g.kz iz) (g.kr ir) dt V useGalilean)]

/-- `SpectralGrid.correct_currents` on the CPU. spectral_grid.py:258-296 -/
def correctCurrentsCpu (k : Consts) (m : CurrentCorrection) (dt : ℝ) (V : Option ℝ) (useGalilean : Bool)
    (g : SpecGrid) : List CpuLaunch :=
  [cpuGrid g fun iz ir =>
    correctCurrentsCode m (g.kz iz) (g.kr ir) (psatdCoefs k (g.kz iz) (g.kr ir) dt V useGalilean)]

/-- `Fields.push` for one mode on the GPU: PML components, regular fields, `push_rho`.
fields.py:247-276, spectral_grid.py:337-371, 412-417 -/
def pushGpu (k : Consts) (dt : ℝ) (V : Option ℝ) (useGalilean usePml useTrueRho : Bool) (g : SpecGrid) :
    List GpuLaunch :=
  (if usePml then
    [gpuGrid g 16 fun iz ir => pushPmlCode k (g.kr ir) (psatdCoefs k (g.kz iz) (g.kr ir) dt V useGalilean)]
  else []) ++
  [gpuGrid g 16 fun iz ir => pushEBCode k (g.kz iz) (g.kr ir)
      (psatdCoefs k (g.kz iz) (g.kr ir) dt V useGalilean) useTrueRho,
    gpuGrid g 128 fun _ _ => pushRhoCode]

/-- `push_eb_with` for one mode on the CPU. spectral_grid.py:372-405 (`push_rho` is one numpy assignment
on the CPU) -/
def pushCpu (k : Consts) (dt : ℝ) (V : Option ℝ) (useGalilean usePml useTrueRho : Bool) (g : SpecGrid) :
    List CpuLaunch :=
  (if usePml then
    [cpuGrid g fun iz ir => pushPmlCode k (g.kr ir) (psatdCoefs k (g.kz iz) (g.kr ir) dt V useGalilean)]
  else []) ++
  [cpuGrid g fun iz ir => pushEBCode k (g.kz iz) (g.kr ir)
      (psatdCoefs k (g.kz iz) (g.kr ir) dt V useGalilean) useTrueRho]

/-- `SpectralGrid.filter` on the GPU. spectral_grid.py:433-455 -/
def filterGpu (g : SpecGrid) (filtZ filtR : ℕ → ℝ) (fld : FilterField) : List GpuLaunch :=
  [gpuGrid g 128 fun iz ir => filterCode (filtZ iz * filtR ir) fld]

/-- `SpectralGrid.filter` on the CPU. spectral_grid.py:456-478 -/
def filterCpu (g : SpecGrid) (filtZ filtR : ℕ → ℝ) (fld : FilterField) : List CpuLaunch :=
  [cpuGrid g fun iz ir => filterCode (filtZ iz * filtR ir) fld]

/-! ### Particles -/

/-- The entries of the particle arrays at one index: position, momentum, level, fields. -/
@[ext] structure PtclCell where
  p : PushPtcl
  E : Vec3
  B : Vec3

/-- The local variables of the particle kernels. -/
structure PtclRegs where
  invG : ℝ
  econst : ℝ
  bconst : ℝ
  mom : ElecMom
  r : ℝ
  cos : ℝ
  sin : ℝ
  exptheta : ℂ
  Fr : ℝ
  Ft : ℝ
  Fz : ℝ

instance : Nonempty PtclRegs := ⟨⟨0, 0, 0, ⟨0, 0, 0, 0⟩, 0, 0, 0, 0, 0, 0, 0⟩⟩

/-- Statements of the particle kernels. -/
abbrev PtclCode := List (PtclRegs → PtclCell → PtclRegs × PtclCell)

/-- `push_x_gpu`. push/cuda_methods.py:43-52 -/
def pushXGpuCode (c dt px py pz : ℝ) : PtclCode :=
  let cdt := c * dt
  [ assign fun r s => { r with invG := s.p.mom.invGamma },
    store fun r s => { s with p := { s.p with x := s.p.x + cdt * px * r.invG * s.p.mom.ux } },
    store fun r s => { s with p := { s.p with y := s.p.y + cdt * py * r.invG * s.p.mom.uy } },
    store fun r s => { s with p := { s.p with z := s.p.z + cdt * pz * r.invG * s.p.mom.uz } } ]

/-- `push_x_numba`. push/numba_methods.py:24-30 -/
def pushXCpuCode (c dt px py pz : ℝ) : PtclCode :=
  let chdt := c * dt
  [ store fun _ s => { s with p := { s.p with x := s.p.x + chdt * s.p.mom.invGamma * px * s.p.mom.ux } },
    store fun _ s => { s with p := { s.p with y := s.p.y + chdt * s.p.mom.invGamma * py * s.p.mom.uy } },
    store fun _ s => { s with p := { s.p with z := s.p.z + chdt * s.p.mom.invGamma * pz * s.p.mom.uz } } ]

/-- `if cond: ux[ip], uy[ip], uz[ip], inv_gamma[ip] = push_p_vay( ..., econst, bconst )`: the right-hand
side is evaluated first, then the four entries are written one after the other. `cond` looks only at
entries that are not written. -/
def vayCode (cond : PtclCell → Prop) [DecidablePred cond] : PtclCode :=
  [ assign fun r s => if cond s then { r with mom := pushVay s.p.mom s.E s.B r.econst r.bconst } else r,
    store fun r s => if cond s then { s with p := { s.p with mom := { s.p.mom with ux := r.mom.ux } } } else s,
    store fun r s => if cond s then { s with p := { s.p with mom := { s.p.mom with uy := r.mom.uy } } } else s,
    store fun r s => if cond s then { s with p := { s.p with mom := { s.p.mom with uz := r.mom.uz } } } else s,
    store fun r s => if cond s then
      { s with p := { s.p with mom := { s.p.mom with invGamma := r.mom.invGamma } } } else s ]

/-- The constants `econst`, `bconst` of `push_p_gpu`, `push_p_after_plane_gpu` and their numba versions.
push/cuda_methods.py:86-87, 122-123, push/numba_methods.py:41-42, 61-62 -/
def vayConsts (c q m dt : ℝ) : PtclCode :=
  [ assign fun r _ => { r with econst := q * dt / (m * c) },
    assign fun r _ => { r with bconst := 0.5 * q * dt / m } ]

/-- `push_p_gpu`, `push_p_numba`. push/cuda_methods.py:85-97, push/numba_methods.py:40-48 -/
def pushPCode (c q m dt : ℝ) : PtclCode := vayConsts c q m dt ++ vayCode fun _ => True

open Classical in
/-- `push_p_after_plane_gpu`, `push_p_after_plane_numba`. push/cuda_methods.py:121-133,
push/numba_methods.py:60-69 -/
def pushPAfterPlaneCode (c zPlane q m dt : ℝ) : PtclCode :=
  vayConsts c q m dt ++ vayCode fun s => s.p.z > zPlane

/-- `push_p_ioniz_gpu`. push/cuda_methods.py:153-166 -/
def pushPIonizGpuCode (c eCharge m dt : ℝ) : PtclCode :=
  [ assign fun r s => if s.p.level ≠ 0 then
      { r with econst := (s.p.level : ℝ) * eCharge * dt / (m * c) } else r,
    assign fun r s => if s.p.level ≠ 0 then
      { r with bconst := 0.5 * (s.p.level : ℝ) * eCharge * dt / m } else r ]
  ++ vayCode fun s => s.p.level ≠ 0

/-- `push_p_ioniz_numba`. push/numba_methods.py:78-98 -/
def pushPIonizCpuCode (c eCharge m dt : ℝ) : PtclCode :=
  [ assign fun r s => if s.p.level ≠ 0 then
      { r with econst := eCharge * dt / (m * c) * (s.p.level : ℝ) } else r,
    assign fun r s => if s.p.level ≠ 0 then
      { r with bconst := 0.5 * eCharge * dt / m * (s.p.level : ℝ) } else r ]
  ++ vayCode fun s => s.p.level ≠ 0

/-- The particle arrays as the memory of the machine: particle `i` with the fields `F i` on it (the rest of
the memory is irrelevant). -/
def ptclMem (ps : List PushPtcl) (F : ℕ → PtclFields) : ℕ → PtclCell := fun i =>
  match ps[i]? with
  | some p => ⟨p, (F i).E, (F i).B⟩
  | none => ⟨⟨0, 0, 0, ⟨0, 0, 0, 0⟩, 0⟩, ⟨0, 0, 0⟩, ⟨0, 0, 0⟩⟩

/-- Type of the launches over the particles on the GPU. -/
abbrev GpuPtcl := Launch (ℕ × ℕ) ℕ PtclRegs PtclCell

/-- Type of the loops over the particles on the CPU. -/
abbrev CpuPtcl := Launch ℕ ℕ PtclRegs PtclCell

/-- `Particles.push_x` on the GPU. particles.py:655-666 -/
def pushXGpu (c dt px py pz : ℝ) (Ntot : ℕ) : List GpuPtcl :=
  [launch1d Ntot 256 (ptclKernel Ntot fun _ => pushXGpuCode c dt px py pz)]

/-- `Particles.push_x` on the CPU. particles.py:667-672 -/
def pushXCpu (c dt px py pz : ℝ) (Ntot : ℕ) : List CpuPtcl :=
  [prangeLoop Ntot fun i => atCell i (pushXCpuCode c dt px py pz)]

/-- The attributes of a species that `push_p` looks at. -/
structure PushArgs where
  c : ℝ
  eCharge : ℝ
  q : ℝ
  m : ℝ
  dt : ℝ
  ionizable : Bool
  zPlane : Option ℝ

/-- `Particles.push_p` on the GPU. particles.py:571-617 -/
def pushPGpu (a : PushArgs) (Ntot : ℕ) : Except PyErr (List GpuPtcl) :=
  if a.q = 0 then .ok []
  else if a.zPlane.isSome ∧ a.ionizable then
    .error (.runtimeError "NotImplementedError: ballistic injection of ionizable particles")
  else .ok [launch1d Ntot 256 (ptclKernel Ntot fun _ =>
    if a.ionizable then pushPIonizGpuCode a.c a.eCharge a.m a.dt
    else match a.zPlane with
      | some zp => pushPAfterPlaneCode a.c zp a.q a.m a.dt
      | none => pushPCode a.c a.q a.m a.dt)]

/-- `Particles.push_p` on the CPU. particles.py:571-584, 619-640 -/
def pushPCpu (a : PushArgs) (Ntot : ℕ) : Except PyErr (List CpuPtcl) :=
  if a.q = 0 then .ok []
  else if a.zPlane.isSome ∧ a.ionizable then
    .error (.runtimeError "NotImplementedError: ballistic injection of ionizable particles")
  else .ok [prangeLoop Ntot fun i => atCell i
    (if a.ionizable then pushPIonizCpuCode a.c a.eCharge a.m a.dt
    else match a.zPlane with
      | some zp => pushPAfterPlaneCode a.c zp a.q a.m a.dt
      | none => pushPCode a.c a.q a.m a.dt)]

/-! ### Gathering -/

/-- The result of a gathering that does not access an entry outside the arrays; otherwise (undefined
behaviour) some value. -/
def inBounds (oob : ℝ × ℝ × ℝ) (v : Except PyErr (ℝ × ℝ × ℝ)) : ℝ × ℝ × ℝ :=
  match v with
  | .ok v => v
  | .error _ => oob

/-- What the gathering kernels get: shape, grid, `rmax_gather` (and the value read when an access is out
of bounds). -/
structure GatherArgs where
  shape : Shape
  g : CylGrid
  rmax : ℝ
  oob : ℝ × ℝ × ℝ

/-- The conversion to cylindrical coordinates at the beginning of all gathering kernels.
gathering/cuda_methods.py:90-104, threading_methods.py:88-102 -/
def cylindrical : PtclCode :=
  [ assign fun r s => { r with r := cylR s.p.x s.p.y },
    assign fun r s => { r with cos := cylCos s.p.x s.p.y },
    assign fun r s => { r with sin := cylSin s.p.x s.p.y } ]

/-- `Fr = 0.; Ft = 0.; Fz = 0.` -/
def eraseF : PtclCode := [ assign fun r _ => { r with Fr := 0, Ft := 0, Fz := 0 } ]

open Classical in
/-- `Fr, Ft, Fz = add_..._gather_for_mode( m, Fr, Ft, Fz, exptheta, ... )` inside
`if rj < rmax_gather`. -/
def addMode (A : GatherArgs) (m : ℕ) (F : GridVec) (exptheta : PtclRegs → ℂ) : PtclCode :=
  [ assign fun r s =>
      if r.r < A.rmax then
        let v := inBounds A.oob (addGather A.shape A.g m F (exptheta r) r.r s.p.z (r.Fr, r.Ft, r.Fz))
        { r with Fr := v.1, Ft := v.2.1, Fz := v.2.2 }
      else r ]

/-- `gather_field_gpu_linear`, `gather_field_gpu_cubic` (cuda_methods.py:86-205, 285-350) and their
numba versions (threading_methods.py:83-168, 277-370): E, then B, from two modes. -/
def gatherTwoCode (A : GatherArgs) (E0 E1 B0 B1 : GridVec) : PtclCode :=
  cylindrical ++
  eraseF ++ addMode A 0 E0 (fun _ => 1) ++ addMode A 1 E1 (fun r => (r.cos : ℂ) - I * r.sin) ++
  [ store fun r s => { s with E := { s.E with x := r.cos * r.Fr - r.sin * r.Ft } },
    store fun r s => { s with E := { s.E with y := r.sin * r.Fr + r.cos * r.Ft } },
    store fun r s => { s with E := { s.E with z := r.Fz } } ] ++
  eraseF ++ addMode A 0 B0 (fun _ => 1) ++ addMode A 1 B1 (fun r => (r.cos : ℂ) - I * r.sin) ++
  [ store fun r s => { s with B := { s.B with x := r.cos * r.Fr - r.sin * r.Ft } },
    store fun r s => { s with B := { s.B with y := r.sin * r.Fr + r.cos * r.Ft } },
    store fun r s => { s with B := { s.B with z := r.Fz } } ]

/-- `exptheta_m = 1.; for _ in range(m): exptheta_m *= (cos - 1.j*sin)`.
cuda_methods_one_mode.py:112-114, 251-253 -/
def expthetaLoop (m : ℕ) : PtclCode :=
  [ assign fun r _ => { r with exptheta := 1 } ] ++
  List.replicate m (assign fun r _ => { r with exptheta := r.exptheta * ((r.cos : ℂ) - I * r.sin) })

/-- `exptheta_m = (cos - 1.j*sin)**m`. threading_methods_one_mode.py:115, 296 -/
def expthetaPow (m : ℕ) : PtclCode :=
  [ assign fun r _ => { r with exptheta := ((r.cos : ℂ) - I * r.sin) ^ m } ]

open Classical in
/-- The rest of the kernels for one mode: gathering and addition to the fields on the particle, for
particles with `rj < rmax_gather`. cuda_methods_one_mode.py:122-190, 261-330,
threading_methods_one_mode.py:123-193, 304-360 -/
def addOneMode (A : GatherArgs) (m : ℕ) (Em Bm : GridVec) : PtclCode :=
  eraseF ++ addMode A m Em (·.exptheta) ++
  [ store fun r s => if r.r < A.rmax then
      { s with E := { s.E with x := s.E.x + (r.cos * r.Fr - r.sin * r.Ft) } } else s,
    store fun r s => if r.r < A.rmax then
      { s with E := { s.E with y := s.E.y + (r.sin * r.Fr + r.cos * r.Ft) } } else s,
    store fun r s => if r.r < A.rmax then { s with E := { s.E with z := s.E.z + r.Fz } } else s ] ++
  eraseF ++ addMode A m Bm (·.exptheta) ++
  [ store fun r s => if r.r < A.rmax then
      { s with B := { s.B with x := s.B.x + (r.cos * r.Fr - r.sin * r.Ft) } } else s,
    store fun r s => if r.r < A.rmax then
      { s with B := { s.B with y := s.B.y + (r.sin * r.Fr + r.cos * r.Ft) } } else s,
    store fun r s => if r.r < A.rmax then { s with B := { s.B with z := s.B.z + r.Fz } } else s ]

/-- `erase_eb_cuda`, `erase_eb_numba`. cuda_methods_one_mode.py:24-45, threading_methods_one_mode.py:19-41 -/
def eraseEBCode : PtclCode :=
  [ store fun _ s => { s with E := { s.E with x := 0 } }, store fun _ s => { s with E := { s.E with y := 0 } },
    store fun _ s => { s with E := { s.E with z := 0 } }, store fun _ s => { s with B := { s.B with x := 0 } },
    store fun _ s => { s with B := { s.B with y := 0 } }, store fun _ s => { s with B := { s.B with z := 0 } } ]

/-- `gather_tpb`. particles.py:243-250 -/
def gatherTpb : Shape → ℕ
  | .cubic => 256
  | .linear => 128

/-- `Particles.gather` on the GPU, with the fields `(E, B)` of every mode. particles.py:690-757 -/
def gatherGpu (A : GatherArgs) (q : ℝ) (Fs : List (GridVec × GridVec)) (Ntot : ℕ) : List GpuPtcl :=
  if q = 0 then []
  else
    let launch (code : PtclCode) : GpuPtcl :=
      launch1d Ntot (gatherTpb A.shape) (ptclKernel Ntot fun _ => code)
    match Fs with
    | [F0, F1] => [launch (gatherTwoCode A F0.1 F1.1 F0.2 F1.2)]
    | Fs => launch eraseEBCode :: Fs.zipIdx.map fun Fm =>
        launch (cylindrical ++ expthetaLoop Fm.2 ++ addOneMode A Fm.2 Fm.1.1 Fm.1.2)

/-- The loop over the particles in the CPU gathering: over all particles (linear), or over `nthreads`
chunks (cubic). threading_methods.py:83, 273-282; threading_methods_one_mode.py:98, 272-281 -/
def gatherLoop (A : GatherArgs) (nthreads Ntot : ℕ) (code : PtclCode) : CpuPtcl :=
  match A.shape with
  | .linear => prangeLoop Ntot fun i => atCell i code
  | .cubic => prangeLoop nthreads (chunkLoop Ntot nthreads fun _ => code)

/-- `Particles.gather` on the CPU. particles.py:690-692, 758-840 -/
def gatherCpu (A : GatherArgs) (q : ℝ) (nthreads : ℕ) (Fs : List (GridVec × GridVec)) (Ntot : ℕ) :
    List CpuPtcl :=
  if q = 0 then []
  else
    match Fs with
    | [F0, F1] => [gatherLoop A nthreads Ntot (gatherTwoCode A F0.1 F1.1 F0.2 F1.2)]
    | Fs => (prangeLoop Ntot fun i => atCell i eraseEBCode) :: Fs.zipIdx.map fun Fm =>
        gatherLoop A nthreads Ntot (cylindrical ++ expthetaPow Fm.2 ++ addOneMode A Fm.2 Fm.1.1 Fm.1.2)

/-! ### Guard cells and damping on the GPU -/

/-- The entries of the three grids of a vector field (or `nf` grids) at one index. -/
abbrev XCell (nf : ℕ) := Fin nf → ℂ

/-- The grids of mode `m` as the memory of the machine; `F m k row` is a row of component `k`. -/
def xMem (nf m : ℕ) (F : ℕ → ℕ → ℕ → ℕ → ℂ) : ℕ × ℕ → XCell nf := fun i k => F m k i.1 i.2

/-- The entries `[:, iz, ir]` of both send buffers. -/
structure SendCell where
  l : ℕ → ℂ
  r : ℕ → ℂ

/-- `copy_vec_to_gpu_buffer`, `copy_pml_to_gpu_buffer`, `copy_scal_to_gpu_buffer` for mode `m`; the grids
are only read. boundaries/cuda_methods.py:11-193 -/
def toBuffer (nf m Nz Nr nzStart nzEnd : ℕ) (copyLeft copyRight : Bool) (F : ℕ → ℕ → ℕ → ℕ → ℂ)
    (iz ir : ℕ) : List (Stmt (ℕ × ℕ) Unit SendCell) :=
  if ir < Nr then
    if iz < nzEnd - nzStart then
      atCell (iz, ir)
        ((if copyLeft then (List.range nf).map fun k => store fun _ s =>
            { s with l := Function.update s.l (nf * m + k) (F m k (nzStart + iz) ir) } else []) ++
        (if copyRight then (List.range nf).map fun k => store fun _ s =>
            { s with r := Function.update s.r (nf * m + k) (F m k (Nz - nzEnd + iz) ir) } else []))
    else []
  else []

/-- `handle_vec_buffer`, `handle_scal_buffer` before sending, on the GPU: one launch per mode.
field_buffer_handling.py:191-224 -/
def sendGpu (meth : XMethod) (ng nf Nm Nz Nr : ℕ) (copyLeft copyRight : Bool)
    (F : ℕ → ℕ → ℕ → ℕ → ℂ) : List (Launch ((ℕ × ℕ) × (ℕ × ℕ)) (ℕ × ℕ) Unit SendCell) :=
  let zone := meth.zone ng
  (List.range Nm).map fun m =>
    launch2d (zone.2 - zone.1) Nr 1 128 (toBuffer nf m Nz Nr zone.1 zone.2 copyLeft copyRight F)

/-- `grid[iz', ir] = buffer[nf*m+k, iz, ir]` for all components `k`. boundaries/cuda_methods.py:238-252 -/
def replaceRow (nf : ℕ) (b : Fin nf → ℂ) : List (ℂ → XCell nf → ℂ × XCell nf) :=
  (List.finRange nf).map fun k => store fun _ s => Function.update s k (b k)

/-- `grid[iz', ir] += buffer[nf*m+k, iz, ir]` for all components `k`: load and addition, then store.
boundaries/cuda_methods.py:416-430 -/
def addRow (nf : ℕ) (b : Fin nf → ℂ) : List (ℂ → XCell nf → ℂ × XCell nf) :=
  (List.finRange nf).flatMap fun k => [ assign fun _ s => s k + b k, store fun r s => Function.update s k r ]

/-- `replace_vec_from_gpu_buffer`, `add_vec_from_gpu_buffer` and their `scal`, `pml` versions, for mode
`m`: `w = nz_end - nz_start`, the receive buffers `none` where `copy_left`, `copy_right` are False.
boundaries/cuda_methods.py:190-440 -/
def fromBuffer (meth : XMethod) (nf m Nz Nr w : ℕ) (bl br : Option (ℕ → ℕ → ℕ → ℂ)) (iz ir : ℕ) :
    List (Stmt (ℕ × ℕ) ℂ (XCell nf)) :=
  let row : (Fin nf → ℂ) → List (ℂ → XCell nf → ℂ × XCell nf) :=
    match meth with
    | .replace => replaceRow nf
    | .add => addRow nf
  if ir < Nr then
    if iz < w then
      (match bl with
        | some b => atCell (iz, ir) (row fun k => b (nf * m + k) iz ir)
        | none => []) ++
      (match br with
        | some b => atCell (Nz - w + iz, ir) (row fun k => b (nf * m + k) iz ir)
        | none => [])
    else []
  else []

/-- The launch in `handle_vec_buffer`/`handle_scal_buffer` after the reception, for one mode.
field_buffer_handling.py:195-196, 236-263 -/
def recvGpu (meth : XMethod) (nf m Nz Nr w : ℕ) (bl br : Option (ℕ → ℕ → ℕ → ℂ)) :
    Launch ((ℕ × ℕ) × (ℕ × ℕ)) (ℕ × ℕ) ℂ (XCell nf) :=
  launch2d w Nr 1 128 (fromBuffer meth nf m Nz Nr w bl br)

/-- `cuda_erase_scalar` (`nf = 1`), `cuda_erase_vector` (`nf = 3`). fields/cuda_methods.py:17-62 -/
def eraseCode (nf : ℕ) : List (ℂ → XCell nf → ℂ × XCell nf) :=
  (List.finRange nf).map fun k => store fun _ s => Function.update s k 0

/-- `InterpolationGrid.erase` on the GPU. interpolation_grid.py:234-250 -/
def eraseGpu (nf Nz Nr : ℕ) : Launch ((ℕ × ℕ) × (ℕ × ℕ)) (ℕ × ℕ) ℂ (XCell nf) :=
  launch2d Nz Nr 1 128 (cellKernel Nz Nr fun _ _ => eraseCode nf)

/-- `cuda_divide_scalar_by_volume`, `cuda_divide_vector_by_volume`. fields/cuda_methods.py:67-115 -/
def divideCode (nf : ℕ) (invvol : ℝ) : List (ℂ → XCell nf → ℂ × XCell nf) :=
  (List.finRange nf).map fun k => store fun _ s => Function.update s k (s k * invvol)

/-- `InterpolationGrid.divide_by_volume` on the GPU. interpolation_grid.py:99-104, 283-296 -/
def divideGpu (nf Nz Nr : ℕ) (vol : ℕ → ℝ) : Launch ((ℕ × ℕ) × (ℕ × ℕ)) (ℕ × ℕ) ℂ (XCell nf) :=
  launch2d Nz Nr 1 128 (cellKernel Nz Nr fun _ ir => divideCode nf (1 / vol ir))

/-- The entries of the E and B arrays of an `InterpolationGrid` at one index. -/
@[ext] structure EBCell where
  Er : ℂ
  Et : ℂ
  Ez : ℂ
  Br : ℂ
  Bt : ℂ
  Bz : ℂ
  ErPml : ℂ
  EtPml : ℂ
  BrPml : ℂ
  BtPml : ℂ

/-- The arrays as the memory of the machine. -/
def ebMem (g : EBGrid) : ℕ × ℕ → EBCell := fun i =>
  ⟨g.Er i.1 i.2, g.Et i.1 i.2, g.Ez i.1 i.2, g.Br i.1 i.2, g.Bt i.1 i.2, g.Bz i.1 i.2,
    g.ErPml i.1 i.2, g.EtPml i.1 i.2, g.BrPml i.1 i.2, g.BtPml i.1 i.2⟩

/-- Statements of the damping kernels; the only local variable is the damping factor. -/
abbrev DampCode := List (ℝ → EBCell → ℝ × EBCell)

/-- `cuda_damp_EB_left`, `cuda_damp_EB_right` in one cell. boundaries/cuda_methods.py:512-522, 588-600 -/
def dampCode (d : ℝ) : DampCode :=
  [ assign fun _ _ => d,
    store fun r s => { s with Er := s.Er * r }, store fun r s => { s with Et := s.Et * r },
    store fun r s => { s with Ez := s.Ez * r }, store fun r s => { s with Br := s.Br * r },
    store fun r s => { s with Bt := s.Bt * r }, store fun r s => { s with Bz := s.Bz * r } ]

/-- `cuda_damp_EB_left_pml`, `cuda_damp_EB_right_pml` in one cell. boundaries/cuda_methods.py:551-559,
629-639 -/
def dampPmlCompCode (d : ℝ) : DampCode :=
  [ assign fun _ _ => d,
    store fun r s => { s with ErPml := s.ErPml * r }, store fun r s => { s with EtPml := s.EtPml * r },
    store fun r s => { s with BrPml := s.BrPml * r }, store fun r s => { s with BtPml := s.BtPml * r } ]

/-- Kernel of the damping at the left end. -/
def dampLeftKernel (Nr nd : ℕ) (code : ℕ → DampCode) (iz ir : ℕ) : List (Stmt (ℕ × ℕ) ℝ EBCell) :=
  if ir < Nr then (if iz < nd then atCell (iz, ir) (code iz) else []) else []

/-- Kernel of the damping at the right end: `iz_right = Nz - iz - 1`. -/
def dampRightKernel (Nz Nr nd : ℕ) (code : ℕ → DampCode) (iz ir : ℕ) : List (Stmt (ℕ × ℕ) ℝ EBCell) :=
  if ir < Nr then (if iz < nd then atCell (Nz - iz - 1, ir) (code iz) else []) else []

/-- Type of the damping launches. -/
abbrev GpuDamp := Launch ((ℕ × ℕ) × (ℕ × ℕ)) (ℕ × ℕ) ℝ EBCell

/-- `damp_EB_open_boundary` on the GPU, for one mode. boundary_communicator.py:838-858, 876-891 -/
def dampGpu (c : Comm) (rank Nz Nr : ℕ) (usePml : Bool) : List GpuDamp :=
  if c.nzDamp ≠ 0 then
    let nd := c.nGuard + c.nzDamp + c.nInject
    let d := dampArray c.nGuard c.nzDamp c.nInject
    (if c.leftProc rank = none then
      [launch2d nd Nr 1 128 (dampLeftKernel Nr nd fun iz => dampCode (d iz))] ++
        (if usePml then [launch2d nd Nr 1 128 (dampLeftKernel Nr nd fun iz => dampPmlCompCode (d iz))] else [])
    else []) ++
    (if c.rightProc rank = none then
      [launch2d nd Nr 1 128 (dampRightKernel Nz Nr nd fun iz => dampCode (d iz))] ++
        (if usePml then [launch2d nd Nr 1 128 (dampRightKernel Nz Nr nd fun iz => dampPmlCompCode (d iz))]
        else [])
    else [])
  else []

/-- `cuda_damp_pml_EB` in one cell. boundaries/pml_damping.py:136-154 -/
def pmlCode (d : ℝ) : DampCode :=
  [ assign fun _ _ => d,
    store fun _ s => { s with Et := s.Et - s.EtPml }, store fun _ s => { s with Bt := s.Bt - s.BtPml },
    store fun r s => { s with EtPml := s.EtPml * r }, store fun r s => { s with BtPml := s.BtPml * r },
    store fun _ s => { s with Et := s.Et + s.EtPml }, store fun _ s => { s with Bt := s.Bt + s.BtPml },
    store fun r s => { s with Ez := s.Ez * r }, store fun r s => { s with Bz := s.Bz * r } ]

/-- `PMLDamper.damp_pml_EB` on the GPU, for one mode. boundaries/pml_damping.py:58-66, 127-137 -/
def pmlGpu (Nz Nr nPml : ℕ) (cdtOverDr : ℝ) : GpuDamp :=
  launch2d Nz nPml 1 128 fun iz ipml =>
    if ipml < nPml then
      (if iz < Nz then atCell (iz, Nr - nPml + ipml) (pmlCode (pmlDampArray nPml cdtOverDr ipml)) else [])
    else []

end

end Fbpic.Parallel
