import Mathlib.Analysis.SpecialFunctions.Sqrt

/-!
# `lpa_utils/boosted_frame.py`: `BoostConverter`

Lists of values are converted element by element; the functions below are the conversion of one element.
-/

namespace Fbpic.BoostConv

/-- The converter: `gamma0` and `beta0`, boosted_frame.py:17-28; the speed of light is a parameter. -/
structure Conv where
  c : ℝ
  gamma0 : ℝ

/-- `beta0`, boosted_frame.py:28. -/
noncomputable def Conv.beta0 (b : Conv) : ℝ := Real.sqrt (1 - 1 / b.gamma0 ^ 2)

/-- `static_length`, boosted_frame.py:33-52. -/
noncomputable def Conv.staticLength (b : Conv) (l : ℝ) : ℝ := l / b.gamma0

/-- `copropag_length`, boosted_frame.py:54-78. -/
noncomputable def Conv.copropagLength (b : Conv) (l : ℝ) (beta : ℝ := 1) : ℝ :=
  l * (1 / (b.gamma0 * (1 - b.beta0 * beta)))

/-- `static_density`, boosted_frame.py:80-99. -/
noncomputable def Conv.staticDensity (b : Conv) (n : ℝ) : ℝ := n * b.gamma0

/-- `copropag_density`, boosted_frame.py:101-125. -/
noncomputable def Conv.copropagDensity (b : Conv) (n : ℝ) (beta : ℝ := 1) : ℝ :=
  n * (b.gamma0 * (1 - b.beta0 * beta))

/-- `velocity`, boosted_frame.py:130-148. -/
noncomputable def Conv.velocity (b : Conv) (v : ℝ) : ℝ := (v - b.c * b.beta0) / (1 - v * b.beta0 / b.c)

/-- `longitudinal_momentum`, boosted_frame.py:150-172. -/
noncomputable def Conv.longitudinalMomentum (b : Conv) (uz : ℝ) : ℝ :=
  let g := Real.sqrt (1 + uz ^ 2)
  b.gamma0 * (uz - g * b.beta0)

/-- `gamma`, boosted_frame.py:174-197. -/
noncomputable def Conv.gamma (b : Conv) (g : ℝ) : ℝ :=
  let uz := Real.sqrt (g ^ 2 - 1)
  b.gamma0 * (g - b.beta0 * uz)

/-- `wavenumber`, boosted_frame.py:202-220. -/
noncomputable def Conv.wavenumber (b : Conv) (k : ℝ) : ℝ := k / (b.gamma0 * (1 + b.beta0))

/-- Position, momentum and inverse Lorentz factor of a particle. -/
structure Part where
  (x y z ux uy uz invGamma : ℝ)

/-- `boost_particle_arrays`, boosted_frame.py:222-275, for one particle. -/
noncomputable def Conv.boostParticle (b : Conv) (p : Part) : Part :=
  let uzBoost := b.gamma0 * b.beta0
  let tBoost := -uzBoost * p.z / b.c
  let zBoost := b.gamma0 * p.z
  let gammaLab := Real.sqrt (1 + (p.ux * p.ux + p.uy * p.uy + p.uz * p.uz))
  let newUz := b.gamma0 * p.uz - uzBoost * gammaLab
  let gammaBoost := Real.sqrt (1 + (p.ux ^ 2 + p.uy ^ 2 + newUz ^ 2))
  ⟨p.x - tBoost * p.ux * b.c / gammaBoost, p.y - tBoost * p.uy * b.c / gammaBoost,
    zBoost - tBoost * newUz * b.c / gammaBoost, p.ux, p.uy, newUz, 1 / gammaBoost⟩

/-- `interaction_time`, boosted_frame.py:280-318. -/
noncomputable def Conv.interactionTime (b : Conv) (lInteract lWindow vWindow : ℝ) : ℝ :=
  (b.staticLength lInteract + b.copropagLength lWindow) / (b.velocity vWindow - (-b.beta0 * b.c))

end Fbpic.BoostConv
