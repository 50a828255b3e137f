import Verif.Model.GpuDirect

/-!
# Specification of the exchange of fields with GPUDirect
-/

namespace Fbpic.Spec.GpuDirect

open Fbpic.GpuDirect

/-- The version `major.minor` is at least 3.1. -/
def RecentMpi4py (major minor : ℕ) : Prop := 3 < major ∨ (major = 3 ∧ 1 ≤ minor)

variable {A : Type}

/-- The exchange ends without an exception, and the fields are those of the exchange between CPUs (C04, C05), for the modes and components
that exist. -/
def SameAsCpu [Inhabited A] [Add A] (M : Machine) (c : Comm) (meth : XMethod) (nf Nm : ℕ) (N : ℕ → ℕ) (F : RankFields A)
    (s : ℕ → Mem (ℕ → ℕ → A)) : Prop :=
  ∃ F' s' G, exchange M c meth nf Nm N F s = .ok (F', s') ∧ exchangeFields c meth nf Nm N F = .ok G ∧
    ∀ r < c.size, ∀ m < Nm, ∀ k < nf, ∀ row, F' r m k row = G r m k row

end Fbpic.Spec.GpuDirect
