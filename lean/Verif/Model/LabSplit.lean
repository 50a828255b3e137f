import Verif.Model.LabFieldRuns

/-!
# Selection of the lab-frame snapshots (`t_min_snapshots_lab`, `t_max_snapshots_lab`)

The directory of the field snapshots after several simulations that write different ranges of the snapshots. The snapshots do not
depend on each other; they are treated one after the other here, whereas the program treats all of them at each iteration.
-/

namespace Fbpic.LabSplit

open BackTransform LabFieldRuns

variable {K : Type} [Field K] [LinearOrder K] [IsStrictOrderedRing K] [FloorRing K] {α : Type}

/-- Arguments of the constructor that are the same for all simulations, boosted_field_diag.py:30-33. -/
structure Series (K : Type) where
  zmin : K
  zmax : K
  v : K
  dt : K
  total : ℕ

/-- One simulation: range of lab times (`tMax = none`: infinity), first iteration and number of iterations. -/
structure Simul (K : Type) where
  tMin : K
  tMax : Option K
  first : ℕ
  count : ℕ

/-- `LabSnapshot` number `i`, boosted_field_diag.py:110-117. -/
def Series.snap (s : Series K) (i : ℕ) : Snap K := ⟨i * s.dt, s.zmin + s.v * (i * s.dt), s.zmax + s.v * (i * s.dt)⟩

/-- The loop that creates the list of snapshots, boosted_field_diag.py:109-118. -/
def Series.list (s : Series K) (m : Simul K) : List ℕ :=
  (List.range s.total).filter fun i =>
    decide ((i : K) * s.dt ≥ m.tMin) && m.tMax.all fun t => decide ((i : K) * s.dt < t)

/-- One simulation in a directory (file `data%08d.h5` of snapshot `i` at index `i`, boosted_field_diag.py:409). -/
def simulate [Zero α] (b : Boost K) (dt : K) (s : Series K) (w : ℕ → World K α) (lab : α → α) (period size : ℕ) (m : Simul K)
    (dir : ℕ → Option (Dataset α)) : Except PyErr (ℕ → Option (Dataset α)) :=
  (s.list m).foldlM (fun dir i => do
    let st ← one b dt (s.snap i) (w i) lab period size (dir i) m.first m.count
    return Function.update dir i (some ((s.snap i).Nz b dt, st.disk))) dir

/-- Several simulations in the same directory. -/
def simulateAll [Zero α] (b : Boost K) (dt : K) (s : Series K) (w : ℕ → World K α) (lab : α → α) (period size : ℕ)
    (l : List (Simul K)) (dir : ℕ → Option (Dataset α)) : Except PyErr (ℕ → Option (Dataset α)) :=
  l.foldlM (fun dir m => simulate b dt s w lab period size m dir) dir

end Fbpic.LabSplit
