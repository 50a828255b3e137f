import Verif.Model.FieldFile
import Verif.Spec.FieldDiag

/-!
# Field files that are written by several diagnostics and runs
-/

namespace Fbpic.Spec.FFile

open Fbpic.FFile Fbpic.FieldDiag

/-- A reader finds the same: the attributes, and the entries of the dataset. -/
def SameMesh (d d' : Dataset) : Prop :=
  d' = { d with data := d'.data } ∧ ∀ i < d.shape.1, ∀ ir iz, d'.data i ir iz = d.data i ir iz

/-- Datasets that exist already have the shapes of the new ones. -/
def Room (F : Loc → Option Dataset) (f : Disk) : Prop :=
  ∀ p d d₀, F p = some d → f.mesh p = some d₀ → d₀.shape = d.shape

/-- After the operation the file holds the datasets `F` and the given time, and otherwise what it held before;
nothing of the old content of these datasets is left. -/
def Writes (op : Op) (F : Loc → Option Dataset) (time dt : ℝ) : Prop :=
  ∀ f, Room F f → ∃ f', op f = (f', none) ∧ f'.time = some time ∧ f'.dt = some dt ∧
    (∀ p d, F p = some d → ∃ d', f'.mesh p = some d' ∧ SameMesh d d') ∧ ∀ p, F p = none → f'.mesh p = f.mesh p

/-- The last of several contents that has something at a path. -/
def latest (L : List (Loc → Option Dataset)) (p : Loc) : Option Dataset :=
  L.foldl (fun old F => (F p).or old) none

/-- The entries of a `thetaMode` dataset for a field with the modes `A`: `A 0`, then twice the real and the imaginary part
of each higher mode. -/
noncomputable def entries (A : ℕ → ℕ → ℕ → ℂ) (i ir iz : ℕ) : ℝ :=
  if i = 0 then (A 0 iz ir).re
  else if i % 2 = 1 then 2 * (A ((i + 1) / 2) iz ir).re
  else 2 * (A (i / 2) iz ir).im

/-- The densities of species: for each name one dataset over the physical domain, of the gathered arrays (C06) `R name`. -/
noncomputable def densities (s : Sim) (names : List String) (R : String → ℕ → ℕ → ℕ → ℕ → ℂ) : Loc → Option Dataset
  | (.rhoOf n, none) => if n ∈ names then some
      { modes := s.Nm, shape := (2 * s.Nm - 1, s.NrPhys, s.comm.NzGlobal), spacing := (s.dr, s.dz)
        offset := (s.rmin, s.zminGlobal), gridUnitSI := 1, position := (1 / 2, 1 / 2), unitSI := 1
        unitDimension := Dim.chargeDensity, timeOffset := 0
        data := entries fun m => gatherGridArray s.comm s.NrPhys false fun r => R n r m }
    else none
  | _ => none

end Fbpic.Spec.FFile
