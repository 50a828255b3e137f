import Verif.Model.CustomSpectrum
import Mathlib.Algebra.Polynomial.Roots

/-!
# Laser pulse from a measured spectrum (C110)
-/

namespace Fbpic.Spec

open CustomSpectrum (Pt)

/-- The file with three columns that holds the data `d`. -/
def threeColumns (d : List Pt) : List (List ℝ) := d.map fun p => [p.lam, p.inten, p.phase]

/-- The file with two columns that holds the data `d` without the phase. -/
def twoColumns (d : List Pt) : List (List ℝ) := d.map fun p => [p.lam, p.inten]

/-- Measured data: at least two rows with different positive wavelengths and intensities that are not negative. -/
structure GoodSpectrum (d : List Pt) : Prop where
  two : 2 ≤ d.length
  pos : ∀ p ∈ d, 0 < p.lam
  inten : ∀ p ∈ d, 0 ≤ p.inten
  distinct : (d.map Pt.lam).Nodup

/-- The angular frequency of a row. -/
noncomputable def frequency (c : ℝ) (p : Pt) : ℝ := 2 * Real.pi * c / p.lam

/-- `f` is the function that is given by the points of `l`, linear between neighbouring points and 0 outside. -/
structure Interpolates {E : Type} [AddCommGroup E] [Module ℝ E] (l : List (ℝ × E)) (f : ℝ → E) : Prop where
  node : ∀ p ∈ l, f p.1 = p.2
  between : ∀ p ∈ l, ∀ q ∈ l, p.1 < q.1 → (∀ r ∈ l, r.1 ≤ p.1 ∨ q.1 ≤ r.1) → ∀ v, p.1 ≤ v → v ≤ q.1 →
    f v = p.2 + ((v - p.1) / (q.1 - p.1)) • (q.2 - p.2)
  below : ∀ v, (∀ p ∈ l, v < p.1) → f v = 0
  above : ∀ v, (∀ p ∈ l, p.1 < v) → f v = 0

/-- The polynomial `p` of degree at most 4 fits the points best in the sense of least squares. -/
structure BestFit (l : List (ℝ × ℝ)) (p : Polynomial ℝ) : Prop where
  degree : p.natDegree ≤ 4
  least : ∀ q : Polynomial ℝ, q.natDegree ≤ 4 →
    (l.map fun x => (p.eval x.1 - x.2) ^ 2).sum ≤ (l.map fun x => (q.eval x.1 - x.2) ^ 2).sum

/-- What is assumed of `np.polyfit(…, 4)[-2]`: it is the linear coefficient of a best fit. -/
def FitsLinear (fit : List (ℝ × ℝ) → ℝ) : Prop := ∀ l, ∃ p, BestFit l p ∧ fit l = p.coeff 1

/-- The data with the phase `f omega` added. -/
noncomputable def addPhase (c : ℝ) (f : ℝ → ℝ) (d : List Pt) : List Pt :=
  d.map fun p => { p with phase := p.phase + f (frequency c p) }

/-- The distance from the centre of the pulse, in units of the spacing of its points, is the integer `k`, within the window
of time for which the pulse is computed. -/
structure AtNode (c lam0 z0 dir z t : ℝ) (k : ℤ) : Prop where
  at' : dir * (z - z0) - c * t = k * (lam0 / 1000)
  lower : -500000 < k
  upper : k ≤ 500000

/-- The pulse with the spectral intensity `s` (per unit of frequency) and the phase `φ`, at the distance `x` in front of its centre: the sum of
plane waves over the frequencies `j/1000` of the central one. -/
noncomputable def pulse (c lam0 : ℝ) (s φ : ℝ → ℝ) (x : ℝ) : ℂ :=
  ∑ j ∈ Finset.range 500000, let w : ℝ := 2 * Real.pi * c / lam0 * (j / 1000)
    (Real.sqrt (s w) : ℂ) * Complex.exp (Complex.I * (φ w + w * x / c : ℝ))

/-- The phase of the pulse at the frequency of the row `p`: that of the file without the slope, and the chirps around the central
frequency `w0`. -/
noncomputable def pulsePhase (c slope w0 phi2 phi3 phi4 : ℝ) (p : Pt) : ℝ :=
  let w := frequency c p
  p.phase - slope * w + phi2 / 2 * (w - w0) ^ 2 + phi3 / 6 * (w - w0) ^ 3 + phi4 / 24 * (w - w0) ^ 4

/-- `F` is the pulse with spectrum `s`, `φ` as a function of the distance in front of its centre: divided by its largest value `M` on the
points with the spacing `lam0/1000`, linear between them, 0 outside the window. -/
structure IsPulse (c lam0 : ℝ) (s φ : ℝ → ℝ) (M : ℝ) (F : ℝ → ℂ) : Prop where
  bound : ∀ k : ℤ, -500000 < k → k ≤ 500000 → ‖pulse c lam0 s φ (k * (lam0 / 1000))‖ ≤ M
  attained : ∃ k : ℤ, -500000 < k ∧ k ≤ 500000 ∧ ‖pulse c lam0 s φ (k * (lam0 / 1000))‖ = M
  node : ∀ k : ℤ, -500000 < k → k ≤ 500000 → F (k * (lam0 / 1000)) = pulse c lam0 s φ (k * (lam0 / 1000)) / M
  between : ∀ k : ℤ, -500000 < k → k < 500000 → ∀ r : ℝ, 0 ≤ r → r ≤ 1 →
    F ((k + r) * (lam0 / 1000)) = (1 - r : ℝ) * F (k * (lam0 / 1000)) + (r : ℝ) * F ((k + 1) * (lam0 / 1000))
  outside : ∀ x, x < -499999 * (lam0 / 1000) ∨ 500000 * (lam0 / 1000) < x → F x = 0

end Fbpic.Spec
