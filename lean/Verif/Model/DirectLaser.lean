import Verif.Model.LaserPulse
import Verif.Model.Spectral
import Verif.Model.Gather

/-!
# `lpa_utils/laser/direct_injection.py`

The transforms between the interpolation grid and the spectral grid (`fld.interp2spect`, `fld.spect2interp`) are a parameter; see
`Transform` for them. Exact real and complex arithmetic.
-/

namespace Fbpic.DirectLaser

open Complex BoostConv

/-- Er and Et at the points of one ring `(z, r)`, at the angle `theta` (direct_injection.py:124-156); `t` is `sim.time`. -/
noncomputable def ringErEt (c : ℝ) (profile : ℝ → ℝ → ℝ → ℝ → ℝ × ℝ) (boost : Option Conv) (t z r theta : ℝ) : ℝ × ℝ :=
  let cos := Real.cos theta
  let sin := Real.sin theta
  let x := r * cos
  let y := r * sin
  let zlab := match boost with | some b => b.gamma0 * (z + b.beta0 * c * t) | none => z
  let tlab := match boost with | some b => b.gamma0 * (t + b.beta0 * 1 / c * z) | none => t
  let E := profile x y zlab tlab
  let Er := cos * E.1 + sin * E.2
  let Et := -sin * E.1 + cos * E.2
  match boost with
  | some b =>
    let s := 1 / (b.gamma0 * (1 + b.beta0))
    (Er * s, Et * s)
  | none => (Er, Et)

/-- `np.fft.ifft` of the `n` values `f 0, …, f (n-1)`, element `m`. -/
noncomputable def ifft (n : ℕ) (f : ℕ → ℂ) (m : ℕ) : ℂ :=
  1 / n * ∑ j ∈ Finset.range n, f j * exp (2 * Real.pi * I * (m * j) / n)

/-- `get_laser_Er_Et` at the point `(z, r)`, mode `m` (direct_injection.py:103-160). -/
noncomputable def laserErEt (c : ℝ) (profile : ℝ → ℝ → ℝ → ℝ → ℝ × ℝ) (boost : Option Conv) (Nm : ℕ) (t z r : ℝ) (m : ℕ) : ℂ × ℂ :=
  let ntheta := 2 * Nm
  let theta : ℕ → ℝ := fun j => 2 * Real.pi / ntheta * j
  (ifft ntheta (fun j => (ringErEt c profile boost t z r (theta j)).1) m,
   ifft ntheta (fun j => (ringErEt c profile boost t z r (theta j)).2) m)

/-- `np.sign`. -/
noncomputable def npSign (x : ℝ) : ℝ := if x < 0 then -1 else if x = 0 then 0 else 1

/-- `calculate_laser_fields` between the two transforms, in one spectral cell (direct_injection.py:185-213). -/
noncomputable def laserCell (c dir dz kzTrue kz kr : ℝ) (s : SpecCell) : SpecCell :=
  let filter : ℝ := (1 - Real.sin (0.5 * kzTrue * dz) ^ 2) * (1 + Real.sin (0.5 * kzTrue * dz) ^ 2)
  let s := { s with Ep := s.Ep * filter, Em := s.Em * filter }
  let invKz : ℝ := if kz = 0 then 0 else 1 / kz
  let s := { s with Ez := I * kr * (s.Ep - s.Em) * invKz }
  let w : ℝ := c * Real.sqrt (kz ^ 2 + kr ^ 2) * (npSign kz * dir)
  let invW : ℝ := if w = 0 then 0 else 1 / w
  { s with
    Bp := -I * invW * (kz * s.Ep - 0.5 * I * kr * s.Ez)
    Bm := -I * invW * (-kz * s.Em - 0.5 * I * kr * s.Ez)
    Bz := invW * kr * (s.Ep + s.Em) }

/-- Arrays of one rank: name of the field, mode, row, column. -/
abbrev Arrays := String → ℕ → ℕ → ℕ → ℂ

/-- `add_laser_direct` (direct_injection.py:38-97): `laser k` are the arrays Er and Et computed on rank `k` by `get_laser_Er_Et` (on all the
rows of the local array), `solve` is `calculate_laser_fields` on the global grid (it replaces Er, Et by the filtered ones), `fld k` are
the fields of rank `k`. The result is the fields of rank `k`. The arrays Er and Et of the ranks are overwritten and restored in the code
(which leaves no trace). -/
noncomputable def addLaserDirect (cm : Comm) (Nr : ℕ) (laser : ℕ → Arrays) (solve : Arrays → Arrays) (fld : ℕ → Arrays) (k : ℕ) : Arrays :=
  let global : Arrays := fun f m => gatherGridArray cm Nr true fun k => laser k f m
  let result := solve global
  let Nz := (okOr (0, 0) (cm.getNzIz true true false (some k))).1
  let izDomain := (okOr (0, 0) (cm.getNzIz true true false (some k))).2
  let izArray := (okOr (0, 0) (cm.getNzIz true true true (some k))).2
  let iz := (izDomain - izArray).toNat
  fun f m i j =>
    if iz ≤ i ∧ i < iz + Nz then fld k f m i j + scatterGridArray cm Nr true (result f m) k (i - iz) j
    else fld k f m i j

end Fbpic.DirectLaser
