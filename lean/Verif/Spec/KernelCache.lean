import Verif.Model.KernelCache

/-!
# Compiled kernels (C115)
-/

namespace Fbpic.Spec

open KCache

/-- The arguments of two calls agree in kind, dtype and number of dimensions. -/
def sameTypes : List Arg → List Arg → Prop
  | [], [] => True
  | .array a :: r, .array b :: r' => a.dtype = b.dtype ∧ a.shape.length = b.shape.length ∧ sameTypes r r'
  | .scalar d _ :: r, .scalar d' _ :: r' => d = d' ∧ sameTypes r r'
  | _, _ => False

/-- All arrays of a call are contiguous in the order of C. -/
def Contiguous (args : List Arg) : Prop :=
  ∀ a, Arg.array a ∈ args → a.strides = cStrides a.itemsize a.shape

/-- Each array has as many strides as dimensions. -/
def WellFormed (args : List Arg) : Prop := ∀ a, Arg.array a ∈ args → a.strides.length = a.shape.length

end Fbpic.Spec
