import Verif.Model.Parallel

/-!
# Specification: what a parallel loop may do
-/

namespace Fbpic.Parallel.Spec

open Fbpic.Parallel

section
variable {τ ι ρ σ : Type} [DecidableEq τ] [DecidableEq ι]

/-- All threads are finished after the schedule. -/
def Complete (M : Machine τ ι ρ σ) (schedule : List τ) : Prop :=
  ∀ t, ((M.run schedule).thread t).code = []

/-- `m'` is a possible content of the memory after the launch, for some content of the registers at the
start and some schedule. -/
def Outcome (L : Launch τ ι ρ σ) (m m' : ι → σ) : Prop :=
  ∃ (junk : τ → ρ) (schedule : List τ), Complete (L m junk) schedule ∧ ((L m junk).run schedule).mem = m'

/-- Several launches, one after the other. -/
def Outcomes : List (Launch τ ι ρ σ) → (ι → σ) → (ι → σ) → Prop
  | [], m, m' => m' = m
  | L :: Ls, m, m' => ∃ m1, Outcome L m m1 ∧ Outcomes Ls m1 m'

/-- No two threads work on the same cell. -/
def RaceFree (M : Machine τ ι ρ σ) : Prop :=
  ∀ t t', t ≠ t' → ∀ s ∈ (M.thread t).code, ∀ s' ∈ (M.thread t').code, s.cell ≠ s'.cell

/-- The loop is deterministic, terminates, and its result is `f` applied to the memory. -/
def Result (L : Launch τ ι ρ σ) (f : (ι → σ) → (ι → σ)) : Prop :=
  ∀ m m', Outcome L m m' ↔ m' = f m

/-- The same for a sequence of launches. -/
def Results (Ls : List (Launch τ ι ρ σ)) (f : (ι → σ) → (ι → σ)) : Prop :=
  ∀ m m', Outcomes Ls m m' ↔ m' = f m

/-- The memory after a loop in which cell `(iz, ir)` of an `Nz x Nr` grid becomes `f iz ir` of itself. -/
def onGrid (Nz Nr : ℕ) (f : ℕ → ℕ → σ → σ) (m : ℕ × ℕ → σ) : ℕ × ℕ → σ := fun i =>
  if i.1 < Nz ∧ i.2 < Nr then f i.1 i.2 (m i) else m i

/-- The memory after a loop in which particle `i < N` becomes `f i` of itself. -/
def onPtcls (N : ℕ) (f : ℕ → σ → σ) (m : ℕ → σ) : ℕ → σ := fun i => if i < N then f i (m i) else m i

end

end Fbpic.Parallel.Spec
