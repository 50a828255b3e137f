import Verif.Model.Comm

/-!
# The decorator `compile_cupy` (`utils/cuda.py:304-541`)

The decorator compiles a Python function for the types of the arguments of a call, keeps the compiled
kernels in a dictionary, and passes the arguments on to the compiled kernel.
What numba compiles for given types is arbitrary here (`compile`), so is Python's `hash`.
Not modelled: the versions of numba (`make_cupy_kernel`, `cuda.py:376-413`) and the launch itself.
-/

namespace Fbpic.KCache

/-- An array of cupy: number of its dtype, bytes per item, address, shape, strides (in bytes). -/
structure CArr where
  dtype : ℕ
  itemsize : ℕ
  ptr : ℕ
  shape : List ℕ
  strides : List ℤ
  deriving DecidableEq

/-- An argument of a kernel: an array or a scalar (number of `np.dtype(type(a))` and value). -/
inductive Arg where
  | array (a : CArr)
  | scalar (dtype : ℕ) (value : ℤ)
  deriving DecidableEq

/-- What `get_args_hash` puts into the list `types`: dtypes and numbers of dimensions. -/
inductive Atom where
  | dtype (d : ℕ)
  | ndim (n : ℕ)
  deriving DecidableEq

/-- The loop of `get_args_hash` (`cuda.py:320-333`). -/
def types : List Arg → List Atom
  | [] => []
  | .array a :: rest => [.dtype a.dtype, .ndim a.shape.length] ++ types rest
  | .scalar d _ :: rest => [.dtype d] ++ types rest

/-- The strides of a contiguous array in the order of C. -/
def cStrides (itemsize : ℕ) : List ℕ → List ℤ
  | [] => []
  | _ :: rest => ((itemsize * rest.prod : ℕ) : ℤ) :: cStrides itemsize rest

/-- The type of an argument for numba: for arrays it has the layout, `C` or any. -/
inductive NumbaType where
  | array (dtype ndim : ℕ) (isC : Bool)
  | scalar (dtype : ℕ)
  deriving DecidableEq

/-- The type that numba infers (`typeof`, which `specialize(*args)` uses). -/
def numbaType : Arg → NumbaType
  | .array a => .array a.dtype a.shape.length (decide (a.strides = cStrides a.itemsize a.shape))
  | .scalar d _ => .scalar d

/-- What is passed to the compiled kernel. -/
inductive KArg where
  | int (n : ℤ)
  | ptr (p : ℕ)
  | value (v : ℤ)
  deriving DecidableEq

/-- The loop over the arguments (`cuda.py:500-526`). -/
def kernelArgs : List Arg → List KArg
  | [] => []
  | .array a :: rest =>
    [.int 0, .int 0, .int a.shape.prod, .int a.itemsize, .ptr a.ptr]
      ++ a.shape.map (fun n => .int n) ++ a.strides.map .int ++ kernelArgs rest
  | .scalar _ v :: rest => [.value v] ++ kernelArgs rest

/-- The state of the decorator: `specialized_kernel` (if `is_specialized`) and `kernel_dict`
(`cuda.py:357-374`), in the order of insertion. -/
structure Deco (κ : Type) where
  specialized : Option κ
  dict : List (ℤ × κ)

variable {κ : Type}

/-- `__init__` (`cuda.py:357-374`). -/
def Deco.init : Deco κ := ⟨none, []⟩

/-- `specialize` (`cuda.py:415-434`) with the kernel that was compiled for the signature. -/
def Deco.specialize (k : κ) (D : Deco κ) : Deco κ := { D with specialized := some k }

/-- `call_kernel` (`cuda.py:466-535`): the state afterwards, the kernel that is launched, and what it gets. -/
def Deco.call (hash : List Atom → ℤ) (compile : List NumbaType → κ) (D : Deco κ) (args : List Arg) :
    Deco κ × κ × List KArg :=
  match D.specialized with
  | some k => (D, k, kernelArgs args)
  | none =>
    match D.dict.lookup (hash (types args)) with
    | some k => (D, k, kernelArgs args)
    | none =>
      let k := compile (args.map numbaType)
      ({ D with dict := D.dict ++ [(hash (types args), k)] }, k, kernelArgs args)

/-- The state after a sequence of calls. -/
def Deco.after (hash : List Atom → ℤ) (compile : List NumbaType → κ) : List (List Arg) → Deco κ → Deco κ
  | [], D => D
  | c :: cs, D => Deco.after hash compile cs (D.call hash compile c).1

/-- The address of the item `i` of an array with one dimension in a kernel that was compiled for the type
`t` (numba: without strides for the layout C). -/
def address (t : NumbaType) (a : CArr) (i : ℕ) : ℤ :=
  match t with
  | .array _ _ true => a.ptr + a.itemsize * i
  | _ => a.ptr + a.strides.headD 0 * i

end Fbpic.KCache
