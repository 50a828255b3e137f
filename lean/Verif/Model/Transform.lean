import Verif.Model.SpectShift
import Mathlib.Data.List.ProdSigma
import Mathlib.Algebra.BigOperators.Group.Finset.Basic

/-!
# Transforms between the interpolation grid and the spectral grid (`fields/spectral_transform/`)

The memory is a function of the number of an array and of its indices; different names of the code may
be the same array. A kernel is the execution of its threads (or loop rounds) one after the other in an
arbitrary order: the list `threads` of index pairs. Each thread reads and writes only at its own
indices, so that interleavings of the statements of different threads give the same result.

External: the FFT libraries (documented meaning: `fftZ`, `ifftZ`), `np.dot` and cuBLAS `dgemm`, and the
inversion of the Bessel matrices (`np.linalg.inv`, `pinv`).
-/

namespace Fbpic.Transform

open Complex

/-- Complex arrays in memory. -/
abbrev Mem := ℕ → ℕ → ℕ → ℂ

/-- `array[iz, ir] = v`. -/
def Mem.set (mem : Mem) (a iz ir : ℕ) (v : ℂ) : Mem :=
  fun b i j => if b = a ∧ i = iz ∧ j = ir then v else mem b i j

/-- One round of `numba_rt_to_pm` or thread of `cuda_rt_to_pm`, numba_methods.py:68-80,
cuda_methods.py:119-138. -/
noncomputable def rtToPmThread (Nz Nr r t p m : ℕ) (mem : Mem) (th : ℕ × ℕ) : Mem :=
  if th.1 < Nz ∧ th.2 < Nr then
    let valueR := mem r th.1 th.2
    let valueT := mem t th.1 th.2
    let mem := mem.set p th.1 th.2 (1 / 2 * (valueR - I * valueT))
    mem.set m th.1 th.2 (1 / 2 * (valueR + I * valueT))
  else mem

/-- `rt_to_pm`. -/
noncomputable def rtToPm (Nz Nr : ℕ) (threads : List (ℕ × ℕ)) (r t p m : ℕ) (mem : Mem) : Mem :=
  threads.foldl (rtToPmThread Nz Nr r t p m) mem

/-- One round of `numba_pm_to_rt` or thread of `cuda_pm_to_rt`, numba_methods.py:90-103,
cuda_methods.py:142-161. -/
noncomputable def pmToRtThread (Nz Nr p m r t : ℕ) (mem : Mem) (th : ℕ × ℕ) : Mem :=
  if th.1 < Nz ∧ th.2 < Nr then
    let valueP := mem p th.1 th.2
    let valueM := mem m th.1 th.2
    let mem := mem.set r th.1 th.2 (valueP + valueM)
    mem.set t th.1 th.2 (I * (valueP - valueM))
  else mem

/-- `pm_to_rt`. -/
noncomputable def pmToRt (Nz Nr : ℕ) (threads : List (ℕ × ℕ)) (p m r t : ℕ) (mem : Mem) : Mem :=
  threads.foldl (pmToRtThread Nz Nr p m r t) mem

/-! ### Complex arrays as real arrays -/

/-- `numba_copy_2dC_to_2dR`, `cuda_copy_2dC_to_2dR` into the array `out`, numba_methods.py:27-32,
cuda_methods.py:33-40. -/
noncomputable def cToR (Nz Nr : ℕ) (threads : List (ℕ × ℕ)) (a : ℕ → ℕ → ℂ) (out : ℕ → ℕ → ℝ) : ℕ → ℕ → ℝ :=
  threads.foldl (fun out th =>
    if th.1 < Nz ∧ th.2 < Nr then
      let out := fun i j => if i = th.1 ∧ j = th.2 then (a th.1 th.2).re else out i j
      fun i j => if i = th.1 + Nz ∧ j = th.2 then (a th.1 th.2).im else out i j
    else out) out

/-- `numba_copy_2dR_to_2dC`, `cuda_copy_2dR_to_2dC` into the array `out`, numba_methods.py:49-54,
cuda_methods.py:57-63. -/
noncomputable def rToC (Nz Nr : ℕ) (threads : List (ℕ × ℕ)) (a : ℕ → ℕ → ℝ) (out : ℕ → ℕ → ℂ) : ℕ → ℕ → ℂ :=
  threads.foldl (fun out th =>
    if th.1 < Nz ∧ th.2 < Nr then
      fun i j => if i = th.1 ∧ j = th.2 then (a th.1 th.2 : ℂ) + I * (a (th.1 + Nz) th.2 : ℂ) else out i j
    else out) out

/-! ### Hankel transform -/

/-- `np.dot(a, M, out)` for a `2 Nz x Nr` array and a `Nr x Nr` matrix. -/
noncomputable def npDot (Nr : ℕ) (a M : ℕ → ℕ → ℝ) : ℕ → ℕ → ℝ := fun i j =>
  ∑ l ∈ Finset.range Nr, a i l * M l j

/-- cuBLAS `dgemm` without transposition on flat, column-major arrays:
`C[i+j*ldc] = alpha*sum_l A[i+l*lda]*B[l+j*ldb] + beta*C[i+j*ldc]` for `i < m`, `j < n`. -/
noncomputable def dgemm (m n k : ℕ) (alpha : ℝ) (A : ℕ → ℝ) (lda : ℕ) (B : ℕ → ℝ) (ldb : ℕ) (beta : ℝ)
    (C : ℕ → ℝ) (ldc : ℕ) : ℕ → ℝ := fun x =>
  if x % ldc < m ∧ x / ldc < n then
    alpha * ∑ l ∈ Finset.range k, A (x % ldc + l * lda) * B (l + (x / ldc) * ldb) + beta * C x
  else C x

/-- A C-contiguous 2d array with `Nr` columns as a flat array. -/
def flatR (Nr : ℕ) (a : ℕ → ℕ → ℝ) : ℕ → ℝ := fun x => a (x / Nr) (x % Nr)

/-- A flat array as a C-contiguous 2d array. -/
def unflatR (Nr : ℕ) (b : ℕ → ℝ) : ℕ → ℕ → ℝ := fun i j => b (i * Nr + j)

/-- The real matrix product of `DHT.transform` and `inverse_transform`, hankel.py:181-199, 218-236: `np.dot` on
the CPU, `dgemm` with `(Nr, 2*Nz, Nr)` and leading dimensions `Nr` on the GPU. -/
noncomputable def realProduct (gpu : Bool) (Nz Nr : ℕ) (a M out : ℕ → ℕ → ℝ) : ℕ → ℕ → ℝ :=
  if gpu then
    unflatR Nr (dgemm Nr (2 * Nz) Nr 1 (flatR Nr M) Nr (flatR Nr a) Nr 0 (flatR Nr out) Nr)
  else npDot Nr a M

/-- Copy kernels, buffers and threads of a `DHT` object. `bufIn`, `bufOut` are the contents of `array_in` and
`array_out` (`d_in`, `d_out`) before the call. -/
structure Launch where
  gpu : Bool
  threads : List (ℕ × ℕ)
  bufIn : ℕ → ℕ → ℝ
  bufOut : ℕ → ℕ → ℝ

/-- `DHT.transform` (`mat = M`) and `DHT.inverse_transform` (`mat = invM`) from array `src` to `dst`,
hankel.py:168-243. -/
noncomputable def dht (Nz Nr : ℕ) (L : Launch) (mat : ℕ → ℕ → ℝ) (src dst : ℕ) (mem : Mem) : Mem :=
  let arrayIn := cToR Nz Nr L.threads (mem src) L.bufIn
  let arrayOut := realProduct L.gpu Nz Nr arrayIn mat L.bufOut
  fun b => if b = dst then rToC Nz Nr L.threads arrayOut (mem dst) else mem b

/-! ### Fourier transform -/

/-- FFT along axis 0 of a `Nz x Nr` array (pyfftw with `axes=(0,)`; MKL with strides `(0, Nr)`, distance 1),
fourier.py:86-101, mkl_fft.py:83-104. -/
noncomputable def fftAxis0 (Nz : ℕ) [NeZero Nz] (inv : Bool) (a : ℕ → ℕ → ℂ) : ℕ → ℕ → ℂ := fun iz ir =>
  if inv then ifftZ Nz (fun j => a j.val ir) (iz : ZMod Nz) else fftZ Nz (fun j => a j.val ir) (iz : ZMod Nz)

/-- `cuda_copy_2d_to_1d`, cuda_methods.py:65-90. -/
def copy2dTo1d (Nz Nr : ℕ) (threads : List (ℕ × ℕ)) (a : ℕ → ℕ → ℂ) (out : ℕ → ℂ) : ℕ → ℂ :=
  threads.foldl (fun out th =>
    if th.1 < Nz ∧ th.2 < Nr then
      let i := th.1 + Nz * th.2
      fun x => if x = i then a th.1 th.2 else out x
    else out) out

/-- `cuda_copy_1d_to_2d`, cuda_methods.py:92-115. -/
def copy1dTo2d (Nz Nr : ℕ) (threads : List (ℕ × ℕ)) (a : ℕ → ℂ) (out : ℕ → ℕ → ℂ) : ℕ → ℕ → ℂ :=
  threads.foldl (fun out th =>
    if th.1 < Nz ∧ th.2 < Nr then
      let i := th.1 + Nz * th.2
      fun x y => if x = th.1 ∧ y = th.2 then a i else out x y
    else out) out

/-- `cufft.Plan1d(Nz, CUFFT_Z2Z, Nr)`: transforms of the consecutive pieces of length `Nz`; the inverse one is
not normalised. -/
noncomputable def cufft (Nz : ℕ) [NeZero Nz] (inv : Bool) (a : ℕ → ℂ) : ℕ → ℂ := fun x =>
  if inv then (Nz : ℂ) * ifftZ Nz (fun j => a (j.val + Nz * (x / Nz))) (x : ZMod Nz)
  else fftZ Nz (fun j => a (j.val + Nz * (x / Nz))) (x : ZMod Nz)

/-- `FFT.transform` and `FFT.inverse_transform` from array `src` to `dst`, fourier.py:104-178. On the CPU the
plan writes the whole array `dst` (`Nz x Nr`). `buf` is the content of `buffer1d_in`. -/
noncomputable def fft (Nz Nr : ℕ) [NeZero Nz] (gpu inv : Bool) (threads : List (ℕ × ℕ)) (buf : ℕ → ℂ)
    (src dst : ℕ) (mem : Mem) : Mem :=
  if gpu then
    let b1 := copy2dTo1d Nz Nr threads (mem src) buf
    let b2 := cufft Nz inv b1
    let b2 := if inv then fun x => b2 x * (1 / (Nz : ℂ)) else b2
    fun b => if b = dst then copy1dTo2d Nz Nr threads b2 (mem dst) else mem b
  else
    fun b => if b = dst then fun i j => if i < Nz ∧ j < Nr then fftAxis0 Nz inv (mem src) i j else mem dst i j
      else mem b

/-! ### Matrices of the Hankel transform -/

/-- `invM`, hankel.py:86-110. `bessel i j` is `num[i,j]/denom[i]` and `r` the radial grid. -/
noncomputable def hankelInvM (m p : ℤ) (rmax : ℝ) (r : ℕ → ℝ) (bessel : ℕ → ℕ → ℝ) : ℕ → ℕ → ℝ := fun i j =>
  if m ≠ 0 then
    if i = 0 then (if p = m - 1 then r j ^ (m - 1) * (1 / (Real.pi * rmax ^ (m + 1))) else 0)
    else bessel i j
  else bessel i j

/-- `M`, hankel.py:113-118; `inv` and `pinv` are the results of `np.linalg.inv(invM)` and of
`np.linalg.pinv(invM[1:,:])`. -/
def hankelM (m p : ℤ) (inv pinv : ℕ → ℕ → ℝ) : ℕ → ℕ → ℝ := fun i j =>
  if m ≠ 0 ∧ p ≠ m - 1 then (if j = 0 then 0 else pinv i (j - 1)) else inv i j

/-- Block and thread indices of a 2d launch with `cuda_tpb_bpg_2d(x, y, TPBx, TPBy)`, utils/cuda.py:72-95:
all the pairs `cuda.grid(2)`. -/
def grid2d (x y TPBx TPBy : ℕ) : List (ℕ × ℕ) :=
  let BPGx := x / TPBx + 1
  let BPGy := y / TPBy + 1
  List.product (List.range (BPGx * TPBx)) (List.range (BPGy * TPBy))

/-- The rounds of the loops of a `numba` function, e.g. numba_methods.py:29-30 (`prange` in z). -/
def loop2d (x y : ℕ) : List (ℕ × ℕ) := List.product (List.range x) (List.range y)

/-! ### `SpectralTransformer` -/

/-- A `SpectralTransformer`, spectral_transformer.py:41-87: the matrices of `dht0`, `dhtp`, `dhtm`, the two
buffers (`spect_buffer_p` is `spect_buffer_r`, `spect_buffer_m` is `spect_buffer_t`). -/
structure Trans where
  (Nz Nr : ℕ)
  gpu : Bool
  (M0 invM0 Mp invMp Mm invMm : ℕ → ℕ → ℝ)
  (bufR bufT : ℕ)
  threads : List (ℕ × ℕ)
  (dhtIn dhtOut : ℕ → ℕ → ℝ)
  fftIn : ℕ → ℂ

variable (T : Trans)

/-- The Hankel transform with a matrix of `T`. -/
noncomputable def Trans.dht (mat : ℕ → ℕ → ℝ) (src dst : ℕ) (mem : Mem) : Mem :=
  Transform.dht T.Nz T.Nr ⟨T.gpu, T.threads, T.dhtIn, T.dhtOut⟩ mat src dst mem

/-- The Fourier transform of `T`. -/
noncomputable def Trans.fft [NeZero T.Nz] (inv : Bool) (src dst : ℕ) (mem : Mem) : Mem :=
  Transform.fft T.Nz T.Nr T.gpu inv T.threads T.fftIn src dst mem

/-- `spect2interp_scal`, spectral_transformer.py:89-109. -/
noncomputable def Trans.spect2interpScal [NeZero T.Nz] (spect interp : ℕ) (mem : Mem) : Mem :=
  let mem := T.dht T.invM0 spect T.bufR mem
  T.fft true T.bufR interp mem

/-- `interp2spect_scal`, spectral_transformer.py:157-177. -/
noncomputable def Trans.interp2spectScal [NeZero T.Nz] (interp spect : ℕ) (mem : Mem) : Mem :=
  let mem := T.fft false interp T.bufR mem
  T.dht T.M0 T.bufR spect mem

/-- `spect2interp_vect`, spectral_transformer.py:111-155. -/
noncomputable def Trans.spect2interpVect [NeZero T.Nz] (spectP spectM interpR interpT : ℕ) (mem : Mem) : Mem :=
  let mem := T.dht T.invMp spectP T.bufR mem
  let mem := T.dht T.invMm spectM T.bufT mem
  let mem := pmToRt T.Nz T.Nr T.threads T.bufR T.bufT T.bufR T.bufT mem
  let mem := T.fft true T.bufR interpR mem
  T.fft true T.bufT interpT mem

/-- `interp2spect_vect`, spectral_transformer.py:179-223. -/
noncomputable def Trans.interp2spectVect [NeZero T.Nz] (interpR interpT spectP spectM : ℕ) (mem : Mem) : Mem :=
  let mem := T.fft false interpR T.bufR mem
  let mem := T.fft false interpT T.bufT mem
  let mem := rtToPm T.Nz T.Nr T.threads T.bufR T.bufT T.bufR T.bufT mem
  let mem := T.dht T.Mp T.bufR spectP mem
  T.dht T.Mm T.bufT spectM mem

end Fbpic.Transform
