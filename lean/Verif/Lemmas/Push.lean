import Verif.Model.Push
import Verif.Spec.Compton
import Verif.Lemmas.Tactics

namespace Fbpic

theorem ElecMom.gamma_sq (e : ElecMom) : e.gamma ^ 2 = 1 + e.ux ^ 2 + e.uy ^ 2 + e.uz ^ 2 :=
  Real.sq_sqrt (by positivity)

theorem ElecMom.gamma_pos (e : ElecMom) : 0 < e.gamma := Real.sqrt_pos.mpr (by positivity)

/-- The positive root of `X² - sigma X - P`. -/
theorem vay_root (sigma P : ℝ) (hP : 0 ≤ P) (h : 0 < P ∨ 0 < sigma) :
    0 < (sigma + Real.sqrt (sigma ^ 2 + 4 * P)) / 2 ∧
      ((sigma + Real.sqrt (sigma ^ 2 + 4 * P)) / 2) ^ 2
        - sigma * ((sigma + Real.sqrt (sigma ^ 2 + 4 * P)) / 2) - P = 0 := by
  have h2 : Real.sqrt (sigma ^ 2 + 4 * P) ^ 2 = sigma ^ 2 + 4 * P := Real.sq_sqrt (by positivity)
  have h0 : 0 ≤ Real.sqrt (sigma ^ 2 + 4 * P) := Real.sqrt_nonneg _
  set R := Real.sqrt (sigma ^ 2 + 4 * P)
  refine ⟨?_, by nlinarith⟩
  have : 0 < sigma + R := by
    rcases h with h | h
    · have : |sigma| < R := by
        apply abs_lt_of_sq_lt_sq _ h0
        rw [h2]; linarith
      have := abs_lt.mp this
      linarith
    · linarith
  linarith

theorem vay_root_unique (sigma P X : ℝ) (hX : 0 < X) (hP : 0 ≤ P)
    (h : X ^ 2 - sigma * X - P = 0) : (sigma + Real.sqrt (sigma ^ 2 + 4 * P)) / 2 = X := by
  have e : sigma ^ 2 + 4 * P = (2 * X - sigma) ^ 2 := by nlinarith
  have h0 : 0 ≤ 2 * X - sigma := by
    have : X * (2 * X - sigma) = X ^ 2 + P := by nlinarith
    have h3 : 0 < X * (2 * X - sigma) ∨ 0 ≤ X * (2 * X - sigma) := Or.inr (by rw [this]; positivity)
    by_contra hc
    have := mul_neg_of_pos_of_neg hX (not_le.mp hc)
    rcases h3 with h3 | h3 <;> linarith
  rw [e, Real.sqrt_sq h0]; ring

variable (e : ElecMom) (E B : Vec3) (ec bc : ℝ)

/-- The momentum `u'` of the Vay scheme. -/
noncomputable def uPrime : Vec3 :=
  ⟨e.ux + ec * E.x + e.invGamma * (e.uy * (bc * B.z) - e.uz * (bc * B.y)),
   e.uy + ec * E.y + e.invGamma * (e.uz * (bc * B.x) - e.ux * (bc * B.z)),
   e.uz + ec * E.z + e.invGamma * (e.ux * (bc * B.y) - e.uy * (bc * B.x))⟩

/-- The solution of the implicit equation with magnetic rotation vector `(tx,ty,tz)/gamma`. -/
noncomputable def vaySolve (u : Vec3) (tx ty tz ig : ℝ) : ElecMom :=
  let s := 1 / (1 + (tx ^ 2 + ty ^ 2 + tz ^ 2) * ig ^ 2)
  let ut := ig * (u.x * tx + u.y * ty + u.z * tz)
  ⟨s * (u.x + ig * tx * ut + u.y * (ig * tz) - u.z * (ig * ty)),
   s * (u.y + ig * ty * ut + u.z * (ig * tx) - u.x * (ig * tz)),
   s * (u.z + ig * tz * ut + u.x * (ig * ty) - u.y * (ig * tx)), ig⟩

theorem vaySolve_eq (u : Vec3) (tx ty tz g : ℝ) (hg : 0 < g) :
    let f := vaySolve u tx ty tz (1 / g)
    f.ux - (f.uy * tz - f.uz * ty) / g = u.x ∧ f.uy - (f.uz * tx - f.ux * tz) / g = u.y ∧
      f.uz - (f.ux * ty - f.uy * tx) / g = u.z := by
  have h : 0 < g ^ 2 + (tx ^ 2 + ty ^ 2 + tz ^ 2) := by positivity
  have hs : 1 / (1 + (tx ^ 2 + ty ^ 2 + tz ^ 2) * (1 / g) ^ 2)
      = g ^ 2 / (g ^ 2 + (tx ^ 2 + ty ^ 2 + tz ^ 2)) := by field_simp
  simp only [vaySolve]
  rw [hs]
  refine ⟨?_, ?_, ?_⟩ <;> field_simp <;> ring

theorem vaySolve_unique (u : Vec3) (tx ty tz : ℝ) (f : ElecMom) (hf : f.ok)
    (hx : f.ux - (f.uy * tz - f.uz * ty) / f.gamma = u.x)
    (hy : f.uy - (f.uz * tx - f.ux * tz) / f.gamma = u.y)
    (hz : f.uz - (f.ux * ty - f.uy * tx) / f.gamma = u.z) :
    vaySolve u tx ty tz (1 / f.gamma) = f := by
  set g := f.gamma with hg
  have hg0 : 0 < g := f.gamma_pos
  have h : 0 < g ^ 2 + (tx ^ 2 + ty ^ 2 + tz ^ 2) := by positivity
  have hs : 1 / (1 + (tx ^ 2 + ty ^ 2 + tz ^ 2) * (1 / g) ^ 2)
      = g ^ 2 / (g ^ 2 + (tx ^ 2 + ty ^ 2 + tz ^ 2)) := by field_simp
  simp only [vaySolve]
  rw [hs, ← hx, ← hy, ← hz]
  ext
  · simp only; field_simp; ring
  · simp only; field_simp; ring
  · simp only; field_simp; ring
  · exact hf.symm

/-- Mass shell: `1+|f|²` for the solution with `ig = 1/g`. -/
theorem vaySolve_gamma (u : Vec3) (tx ty tz g : ℝ) (hg : 0 < g)
    (hroot : (g ^ 2) ^ 2 - (1 + u.x ^ 2 + u.y ^ 2 + u.z ^ 2 - (tx ^ 2 + ty ^ 2 + tz ^ 2)) * g ^ 2
      - (tx ^ 2 + ty ^ 2 + tz ^ 2 + (u.x * tx + u.y * ty + u.z * tz) ^ 2) = 0) :
    (vaySolve u tx ty tz (1 / g)).gamma = g := by
  have h : 0 < g ^ 2 + (tx ^ 2 + ty ^ 2 + tz ^ 2) := by positivity
  have hs : 1 / (1 + (tx ^ 2 + ty ^ 2 + tz ^ 2) * (1 / g) ^ 2)
      = g ^ 2 / (g ^ 2 + (tx ^ 2 + ty ^ 2 + tz ^ 2)) := by field_simp
  unfold ElecMom.gamma
  have key : 1 + (vaySolve u tx ty tz (1 / g)).ux ^ 2 + (vaySolve u tx ty tz (1 / g)).uy ^ 2
      + (vaySolve u tx ty tz (1 / g)).uz ^ 2 = g ^ 2 := by
    set T := tx ^ 2 + ty ^ 2 + tz ^ 2 with hT
    set U := u.x * tx + u.y * ty + u.z * tz with hU
    have e1 : (vaySolve u tx ty tz (1 / g)).ux ^ 2 + (vaySolve u tx ty tz (1 / g)).uy ^ 2
        + (vaySolve u tx ty tz (1 / g)).uz ^ 2
        = (g ^ 2 * (u.x ^ 2 + u.y ^ 2 + u.z ^ 2) + U ^ 2) / (g ^ 2 + T) := by
      simp only [vaySolve]
      rw [← hT, ← hU, hs]
      field_simp
      rw [hT, hU]
      ring
    have e2 : (g ^ 2 * (u.x ^ 2 + u.y ^ 2 + u.z ^ 2) + U ^ 2) / (g ^ 2 + T) = g ^ 2 - 1 := by
      rw [div_eq_iff h.ne']; linear_combination -hroot
    linarith
  rw [key, Real.sqrt_sq hg.le]

/-- The push is the solution for the positive root. -/
theorem pushVay_eq : ∃ g : ℝ, 0 < g ∧
    pushVay e E B ec bc = vaySolve (uPrime e E B ec bc) (bc * B.x) (bc * B.y) (bc * B.z) (1 / g) ∧
    g ^ 2 = (let u := uPrime e E B ec bc
      let T := (bc * B.x) ^ 2 + (bc * B.y) ^ 2 + (bc * B.z) ^ 2
      let sigma := 1 + u.x ^ 2 + u.y ^ 2 + u.z ^ 2 - T
      let U := u.x * (bc * B.x) + u.y * (bc * B.y) + u.z * (bc * B.z)
      (sigma + Real.sqrt (sigma ^ 2 + 4 * (T + U ^ 2))) / 2) ∧
    (g ^ 2) ^ 2 - (1 + (uPrime e E B ec bc).x ^ 2 + (uPrime e E B ec bc).y ^ 2
        + (uPrime e E B ec bc).z ^ 2 - ((bc * B.x) ^ 2 + (bc * B.y) ^ 2 + (bc * B.z) ^ 2)) * g ^ 2
      - ((bc * B.x) ^ 2 + (bc * B.y) ^ 2 + (bc * B.z) ^ 2
        + ((uPrime e E B ec bc).x * (bc * B.x) + (uPrime e E B ec bc).y * (bc * B.y)
          + (uPrime e E B ec bc).z * (bc * B.z)) ^ 2) = 0 := by
  set u := uPrime e E B ec bc with hu
  set T := (bc * B.x) ^ 2 + (bc * B.y) ^ 2 + (bc * B.z) ^ 2 with hT
  set U := u.x * (bc * B.x) + u.y * (bc * B.y) + u.z * (bc * B.z) with hU
  set sigma := 1 + u.x ^ 2 + u.y ^ 2 + u.z ^ 2 - T with hsig
  have hT0 : 0 ≤ T := by positivity
  have hcase : 0 < T + U ^ 2 ∨ 0 < sigma := by
    by_cases h : 0 < T
    · left; positivity
    · right
      have : T = 0 := le_antisymm (not_lt.mp h) hT0
      rw [hsig, this]; nlinarith [sq_nonneg u.x, sq_nonneg u.y, sq_nonneg u.z]
  obtain ⟨hX, hroot⟩ := vay_root sigma (T + U ^ 2) (by positivity) hcase
  set X := (sigma + Real.sqrt (sigma ^ 2 + 4 * (T + U ^ 2))) / 2 with hXd
  refine ⟨Real.sqrt X, Real.sqrt_pos.mpr hX, ?_, ?_, ?_⟩
  · have hig : Real.sqrt (2 / (sigma + Real.sqrt (sigma ^ 2 + 4 * (T + U ^ 2)))) = 1 / Real.sqrt X := by
      rw [show 2 / (sigma + Real.sqrt (sigma ^ 2 + 4 * (T + U ^ 2))) = 1 / X by rw [hXd]; field_simp,
        Real.sqrt_div zero_le_one, Real.sqrt_one]
    rw [← hig]
    rfl
  · rw [Real.sq_sqrt hX.le]
  · rw [Real.sq_sqrt hX.le]; exact hroot

end Fbpic
