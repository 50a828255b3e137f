import Verif.Model.PtclFile
import Verif.Spec.FieldDiag

/-!
# Specification of the particle file

The tree that a reader following the openPMD standard expects.
-/

namespace Fbpic.Spec.PFile

open Fbpic.PFile

variable {K : Type} [Zero K] [One K]

/-- Attributes given by a table. -/
def table (l : List (String × Val K)) : Attrs K := fun k => l.lookup k

/-- The dimension written for each record. Wrong for the mass, see C77. -/
def dimension : Record → (Fin 7 → ℤ)
  | .vec .position | .positionOffset => Dim.length
  | .vec .momentum => Dim.momentum
  | .vec .E => Dim.electricField
  | .vec .B => Dim.magneticField
  | .scal .charge => Dim.charge
  | .scal _ => 0
  | .mass => Dim.length

/-- Whether the values refer to the macroparticle: only the weight does. -/
def macroscopic : Record → ℕ
  | .scal .weighting => 1
  | _ => 0

/-- The power of the weight by which the values of one particle have to be multiplied to get those
of the macroparticle. -/
def power : Record → K
  | .scal .charge | .mass | .scal .weighting | .vec .momentum => 1
  | _ => 0

/-- The attributes of a record. -/
def recordTable (r : Record) : List (String × Val K) :=
  [("unitDimension", .dims (dimension r)), ("timeOffset", .num 0),
   ("macroWeighted", .u32 (macroscopic r)), ("weightingPower", .num (power r))]

/-- A constant: all particles have the same value. -/
def constant (v : K) : List (String × Val K) := [("unitSI", .num 1), ("shape", .shape [1]), ("value", .num v)]

/-- Attributes of the species. -/
def speciesTable : List (String × Val K) :=
  [("particleShape", .num 1), ("currentDeposition", .str "directMorseNielson"),
   ("particleSmoothing", .str "none"), ("particlePush", .str "Vay"), ("particleInterpolation", .str "uniform")]

/-- The scalar records that have one value per particle: what has been asked for, the ids of tracked
particles, the charges of ionizable ones. -/
def listed (pd : List PData) (s : Spc K) : Scal → Bool
  | .weighting => decide (PData.weighting ∈ pd)
  | .gamma => decide (PData.other (.scal .gamma) ∈ pd)
  | .id => s.tracked
  | .charge => s.ionizable

/-- The documented values of `particle_data`. -/
def Documented (pd : List PData) : Prop :=
  ∀ p ∈ pd, (∃ v, p = .vec v) ∨ p = .weighting ∨ p = .other (.scal .gamma)

/-- The data of the quantities that are written are available: `D q` are the values of `q` for the
particles of the species. -/
def Gives (pd : List PData) (s : Spc K) (D : Qty → Data K) : Prop :=
  (∀ v c, PData.vec v ∈ pd → s.content (.vec v c) = .ok (D (.vec v c))) ∧
  ∀ r, listed pd s r → s.content (.scal r) = .ok (D (.scal r))

/-- **The group of a species**: everything that is in it, by path relative to the group. -/
def speciesTree (pd : List PData) (s : Spc K) (D : Qty → Data K) : H5Tree K
  | [] => some (.group (table speciesTable))
  | [.record (.vec v)] => if PData.vec v ∈ pd then some (.group (table (recordTable (.vec v)))) else none
  | [.record (.vec v), .comp c] =>
    if PData.vec v ∈ pd then some (.dset (D (.vec v c)) (table [("unitSI", .num 1)])) else none
  | [.record (.scal r)] =>
    if listed pd s r then some (.dset (D (.scal r)) (table (("unitSI", .num 1) :: recordTable (.scal r))))
    else if r = .charge then some (.group (table (recordTable (.scal .charge) ++ constant s.charge)))
    else none
  | [.record .mass] => some (.group (table (recordTable .mass ++ constant s.mass)))
  | [.record .positionOffset] => some (.group (table (recordTable .positionOffset)))
  | [.record .positionOffset, .comp _] => some (.group (table (constant 0)))
  | _ => none

/-- What an openPMD reader looks for at the root of the file. -/
def fileTable (d : Diag K) : List (String × Val K) :=
  [("openPMD", .str "1.0.0"), ("openPMDextension", .u32 1), ("basePath", .str "/data/%T/"),
   ("meshesPath", .str "fields/"), ("particlesPath", .str "particles/"),
   ("iterationEncoding", .str "fileBased"), ("iterationFormat", .str "data%T.h5"),
   ("software", .str ("fbpic " ++ d.version)), ("date", .str d.now)]

/-- The node is a group that has these attributes. -/
def HasAttrs (n : Option (Node K)) (l : List (String × Val K)) : Prop :=
  ∃ a, n = some (.group a) ∧ ∀ x ∈ l, a x.1 = some x.2

/-- The second diagnostic writes, for a species of that name, at least what the first has written. -/
def Covers (pd₁ pd₂ : List PData) (s₁ s₂ : Spc K) : Prop :=
  (∀ p ∈ pd₁, p ∈ pd₂) ∧ (s₁.tracked → s₂.tracked) ∧ (s₁.ionizable → s₂.ionizable)

/-- Nothing but groups on the way to the species, and nothing at all in the groups of the species. -/
def Clean (d : Diag K) (it : ℕ) (f : H5Tree K) : Prop :=
  (∃ a, f [] = some (.group a)) ∧
  (∀ p ∈ [[Key.data], [.data, .iter it], [.data, .iter it, .particles]], ∀ x a, f p ≠ some (.dset x a)) ∧
  ∀ s ∈ d.species, ∀ r, f (speciesPath it s.name ++ r) = none

/-- What the group of a species may hold from before, for the diagnostic to be able to write over it:
groups where it needs groups, nothing below the places of its datasets. -/
structure Fits (s : Spc K) (T : H5Tree K) : Prop where
  root : ∃ a, T [] = some (.group a)
  mass : isDset (T [.record .mass]) = false
  offset : isDset (T [.record .positionOffset]) = false
  offsets : ∀ c, isDset (T [.record .positionOffset, .comp c]) = false
  vec : ∀ v, isDset (T [.record (.vec v)]) = false
  charge : s.ionizable = false → isDset (T [.record (.scal .charge)]) = false
  belowVec : ∀ v c k r, T (.record (.vec v) :: .comp c :: k :: r) = none
  belowScal : ∀ q k r, T (.record (.scal q) :: k :: r) = none

end Fbpic.Spec.PFile
