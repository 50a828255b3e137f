import Verif.Model.Adk

/-!
# Specification of the ionization probability (C82)

The ADK tunnel-ionization rate as published (Chen et al., J. Comput. Phys. 236 (2013), equation (2), for
`l = m = 0`), the electric field in the rest frame of a particle, the change of frame of the fields,
and what the table of energies must look like.
-/

namespace Fbpic.Spec

open Adk

/-- The elements for which the code ships ionization energies. -/
def elements : List String :=
  ["H", "He", "Li", "Be", "B", "C", "N", "O", "F", "Ne", "Na", "Mg", "Al", "Si", "P", "S", "Cl",
    "Ar", "Kr", "Rb", "Xe", "Rn"]

/-- `ev` is the list of ionization energies (eV) of `element`: as many as the element has electrons;
number `i` is the energy listed for the ion of charge `i`, and these are all the lines of the table on
that element; the energies are positive and increase with the charge. -/
structure EnergiesOf (data : List Row) (element : String) (ev : List ℚ) : Prop where
  listed : ∀ i (h : i < ev.length), (⟨ev.length, element, i, ev[i]⟩ : Row) ∈ data
  all : ∀ r ∈ data, r.symbol = element → r.atomicNumber = ev.length ∧ ev[r.charge]? = some r.energy
  pos : ∀ u ∈ ev, 0 < u
  increasing : ev.Pairwise (· < ·)
  nonempty : ev ≠ []

/-- Constants of the published formula. -/
structure AtomicUnits where
  hbar : ℝ
  alpha : ℝ
  me : ℝ
  c : ℝ
  e : ℝ

/-- Atomic unit of frequency `α² m c² / ħ`. -/
noncomputable def AtomicUnits.freq (a : AtomicUnits) : ℝ := a.alpha ^ 2 * a.me * a.c ^ 2 / a.hbar

/-- Atomic unit of electric field `α³ m² c³ / (e ħ)`. -/
noncomputable def AtomicUnits.field (a : AtomicUnits) : ℝ :=
  a.alpha ^ 3 * a.me ^ 2 * a.c ^ 3 / (a.e * a.hbar)

/-- The constants as scipy gives them: the classical electron radius is `α ħ / (m c)`. -/
noncomputable def AtomicUnits.consts (a : AtomicUnits) : Consts where
  alpha := a.alpha
  re := a.alpha * a.hbar / (a.me * a.c)
  c := a.c
  me := a.me
  e := a.e

/-- The ADK rate (per unit of proper time) for the electron that leaves an ion of charge `Z - 1`, of
ionization energy `U`, in a field of amplitude `E`; `U0` is the first ionization energy of the
element, `UH` that of hydrogen. No ionization without field. -/
noncomputable def adkRate (a : AtomicUnits) (UH U0 U Z E : ℝ) : ℝ :=
  if E = 0 then 0 else
  let n := Z * √(UH / U)
  let l := √(UH / U0) - 1
  let F := (U / UH) ^ (3 / 2 : ℝ) * a.field / E
  a.freq * ((2 : ℝ) ^ (2 * n) / (n * Real.Gamma (n + l + 1) * Real.Gamma (n - l))) * (U / (2 * UH))
    * (2 * F) ^ (2 * n - 1) * Real.exp (-(2 / 3) * F)

/-- Square of the electric field seen in the rest frame of a particle of momentum `u` (in units of `mc`):
`E' = γ E + u × cB − u (u·E)/(1+γ)`. -/
noncomputable def restField2 (q : Probe) : ℝ :=
  let g := √(1 + q.ux ^ 2 + q.uy ^ 2 + q.uz ^ 2)
  let k := (q.ux * q.Ex + q.uy * q.Ey + q.uz * q.Ez) / (1 + g)
  (g * q.Ex + (q.uy * q.cBz - q.uz * q.cBy) - q.ux * k) ^ 2
    + (g * q.Ey + (q.uz * q.cBx - q.ux * q.cBz) - q.uy * k) ^ 2
    + (g * q.Ez + (q.ux * q.cBy - q.uy * q.cBx) - q.uz * k) ^ 2

/-- The same particle and fields seen from a frame that moves at `b c` along `z`, with
`g = 1/√(1 - b²)`. -/
noncomputable def boosted (g b : ℝ) (q : Probe) : Probe where
  ux := q.ux
  uy := q.uy
  uz := g * (q.uz - b * √(1 + q.ux ^ 2 + q.uy ^ 2 + q.uz ^ 2))
  Ex := g * (q.Ex - b * q.cBy)
  Ey := g * (q.Ey + b * q.cBx)
  Ez := q.Ez
  cBx := g * (q.cBx + b * q.Ey)
  cBy := g * (q.cBy - b * q.Ex)
  cBz := q.cBz

end Fbpic.Spec
