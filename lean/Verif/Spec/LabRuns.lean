import Verif.Model.LabRuns

/-!
# Specification of the lab-frame particle snapshots over several runs
-/

namespace Fbpic.Spec.LabRuns

variable {R A : Type}

/-- Names of the quantities of `particle_data` `"position"`, `"momentum"`, `"weighting"`, of tracked and of ionizable
species; the documentation excludes the gathered fields and the Lorentz factor. -/
def supported : List String :=
  (["x", "y", "z"] ++ ["ux", "uy", "uz"]) ++ ["w"] ++ ["id"] ++ ["charge"]

/-- A run: it performs the iterations `first ≤ n < stop`; `rows n k`: the particles that rank `k` finds at iteration `n` on the
plane of the snapshot (`none`: the plane is not in its subdomain). -/
structure Run (R : Type) where
  first : ℕ
  stop : ℕ
  rows : ℕ → ℕ → Option (List R)

/-- All particles found at the iterations `a ≤ n < b`. -/
def crossed (size : ℕ) (rows : ℕ → ℕ → Option (List R)) (a b : ℕ) : List R :=
  (List.range' a (b - a)).flatMap fun n => (List.range size).flatMap fun k => (rows n k).getD []

/-- The iterations `a ≤ n < m` of the run `a ≤ n < b` are those up to the last multiple of the period. -/
def LastWrite (period a b m : ℕ) : Prop :=
  a ≤ m ∧ m ≤ b ∧ (a < m → (m - 1) % period = 0) ∧ ∀ n, m ≤ n → n < b → n % period ≠ 0

/-- The datasets hold these particles, in the same order for all quantities. -/
def Holds (Q : List String) (col : String → R → A) (f : String → List A) (L : List R) : Prop :=
  ∀ q ∈ Q, f q = L.map (col q)

/-- The run as the diagnostic sees it: every particle has a value `col q` of each quantity. -/
def Run.part (col : String → R → A) (r : Run R) : Fbpic.LabRuns.Part A :=
  ⟨r.first, r.stop - r.first, fun n k => (r.rows n k).map fun l q => l.map (col q)⟩

end Fbpic.Spec.LabRuns
