import Verif.Spec.Compton
import Verif.Lemmas.Prelude
import Verif.Lemmas.Ionization
import Verif.Lemmas.Tactics

namespace Fbpic

variable {g b nx ny nz : ℝ}

theorem lorentz_parallel (hn : nx ^ 2 + ny ^ 2 + nz ^ 2 = 1) (q : FourMom) :
    nx * (lorentzTransform q g b nx ny nz).px + ny * (lorentzTransform q g b nx ny nz).py
      + nz * (lorentzTransform q g b nx ny nz).pz
      = g * ((nx * q.px + ny * q.py + nz * q.pz) - b * q.p) := by
  simp only [lorentzTransform]
  linear_combination (g * (nx * q.px + ny * q.py + nz * q.pz - b * q.p)
    - (nx * q.px + ny * q.py + nz * q.pz)) * hn

theorem lorentz_inverse (hn : nx ^ 2 + ny ^ 2 + nz ^ 2 = 1) (hg : g ^ 2 * (1 - b ^ 2) = 1)
    (q : FourMom) :
    lorentzTransform (lorentzTransform q g b nx ny nz) g b (-nx) (-ny) (-nz) = q := by
  have hp := lorentz_parallel (g := g) (b := b) hn q
  set P := nx * q.px + ny * q.py + nz * q.pz with hP
  set L := lorentzTransform q g b nx ny nz with hL
  have hLp : L.p = g * (q.p - b * P) := rfl
  have e : -nx * L.px + -ny * L.py + -nz * L.pz = -(g * (P - b * q.p)) := by
    rw [← hp]; ring
  have e2 : g * (-(g * (P - b * q.p)) - b * L.p) = -P := by
    rw [hLp]; linear_combination (-P) * hg
  ext
  · show g * (L.p - b * (-nx * L.px + -ny * L.py + -nz * L.pz)) = q.p
    rw [e, hLp]; linear_combination q.p * hg
  · show L.px + -nx * (g * ((-nx * L.px + -ny * L.py + -nz * L.pz) - b * L.p)
      - (-nx * L.px + -ny * L.py + -nz * L.pz)) = q.px
    rw [e, e2]
    show q.px + nx * (g * (P - b * q.p) - P) + _ = _
    ring
  · show L.py + -ny * (g * ((-nx * L.px + -ny * L.py + -nz * L.pz) - b * L.p)
      - (-nx * L.px + -ny * L.py + -nz * L.pz)) = q.py
    rw [e, e2]
    show q.py + ny * (g * (P - b * q.p) - P) + _ = _
    ring
  · show L.pz + -nz * (g * ((-nx * L.px + -ny * L.py + -nz * L.pz) - b * L.p)
      - (-nx * L.px + -ny * L.py + -nz * L.pz)) = q.pz
    rw [e, e2]
    show q.pz + nz * (g * (P - b * q.p) - P) + _ = _
    ring

theorem lorentz_inv (hn : nx ^ 2 + ny ^ 2 + nz ^ 2 = 1) (hg : g ^ 2 * (1 - b ^ 2) = 1)
    (q : FourMom) : (lorentzTransform q g b nx ny nz).inv = q.inv := by
  simp only [FourMom.inv, lorentzTransform]
  set P := nx * q.px + ny * q.py + nz * q.pz with hP
  linear_combination (q.p ^ 2 - P ^ 2) * hg - (g * (P - b * q.p) - P) ^ 2 * hn
    + 2 * (g * (P - b * q.p) - P) * hP

/-- A transform with `|b| < 1` keeps the energy of a light-like or time-like momentum positive. -/
theorem lorentz_pos (hn : nx ^ 2 + ny ^ 2 + nz ^ 2 = 1) (hg0 : 0 < g) (hb : 0 ≤ b) (hb1 : b < 1)
    (q : FourMom) (hq : 0 ≤ q.inv) (hp : 0 < q.p) :
    0 < (lorentzTransform q g b nx ny nz).p := by
  set P := nx * q.px + ny * q.py + nz * q.pz with hP
  have hle : P ^ 2 ≤ q.p ^ 2 := by
    have h0 : q.px ^ 2 + q.py ^ 2 + q.pz ^ 2 ≤ q.p ^ 2 := by
      simp only [FourMom.inv] at hq; linarith
    have h1 : P ^ 2 = (q.px ^ 2 + q.py ^ 2 + q.pz ^ 2) * (nx ^ 2 + ny ^ 2 + nz ^ 2)
        - ((nx * q.py - ny * q.px) ^ 2 + (ny * q.pz - nz * q.py) ^ 2
          + (nz * q.px - nx * q.pz) ^ 2) := by rw [hP]; ring
    rw [h1, hn]
    nlinarith [sq_nonneg (nx * q.py - ny * q.px), sq_nonneg (ny * q.pz - nz * q.py),
      sq_nonneg (nz * q.px - nx * q.pz)]
  have hPle : P ≤ q.p := abs_le_of_sq_le_sq' hle hp.le |>.2
  have : 0 < q.p - b * P := by nlinarith
  exact mul_pos hg0 this

theorem restFrame_spec (e : ElecMom) (he : e.ok) (g b nx ny nz : ℝ)
    (h : restFrame e = (g, b, nx, ny, nz)) :
    nx ^ 2 + ny ^ 2 + nz ^ 2 = 1 ∧ g ^ 2 * (1 - b ^ 2) = 1 ∧ 0 < g ∧ 0 ≤ b ∧ b < 1 ∧
      g = Real.sqrt (1 + e.ux ^ 2 + e.uy ^ 2 + e.uz ^ 2) ∧
      g * b * nx = e.ux ∧ g * b * ny = e.uy ∧ g * b * nz = e.uz := by
  unfold ElecMom.ok ElecMom.gamma at he
  set G := Real.sqrt (1 + e.ux ^ 2 + e.uy ^ 2 + e.uz ^ 2) with hG
  set U := Real.sqrt (e.ux ^ 2 + e.uy ^ 2 + e.uz ^ 2) with hU
  have hS : 0 ≤ e.ux ^ 2 + e.uy ^ 2 + e.uz ^ 2 := by positivity
  have hG2 : G ^ 2 = 1 + e.ux ^ 2 + e.uy ^ 2 + e.uz ^ 2 := Real.sq_sqrt (by linarith)
  have hU2 : U ^ 2 = e.ux ^ 2 + e.uy ^ 2 + e.uz ^ 2 := Real.sq_sqrt hS
  have hG0 : 0 < G := Real.sqrt_pos.mpr (by linarith)
  have hU0 : 0 ≤ U := Real.sqrt_nonneg _
  have hinv : 1 / e.invGamma = G := by rw [he]; simp [hG]
  have hbeta : U * e.invGamma = U / G := by rw [he]; ring
  have hUG : U < G := by
    have : U ^ 2 < G ^ 2 := by rw [hU2, hG2]; linarith
    exact lt_of_pow_lt_pow_left₀ 2 hG0.le this
  have hb0 : 0 ≤ U / G := by positivity
  have hb1 : U / G < 1 := (div_lt_one hG0).mpr hUG
  have hgb : G ^ 2 * (1 - (U / G) ^ 2) = 1 := by
    have : G ^ 2 * (1 - (U / G) ^ 2) = G ^ 2 - U ^ 2 := by field_simp
    rw [this, hG2, hU2]; ring
  have hGB : G * (U / G) = U := by field_simp
  unfold restFrame at h
  simp only [← hU] at h
  by_cases hz : U ≠ 0
  · rw [if_pos hz, hinv, hbeta] at h
    simp only [Prod.mk.injEq] at h
    obtain ⟨rfl, rfl, rfl, rfl, rfl⟩ := h
    refine ⟨?_, hgb, hG0, hb0, hb1, rfl, ?_, ?_, ?_⟩
    · have : (1 / U * e.ux) ^ 2 + (1 / U * e.uy) ^ 2 + (1 / U * e.uz) ^ 2
          = (e.ux ^ 2 + e.uy ^ 2 + e.uz ^ 2) / U ^ 2 := by field_simp
      rw [this, ← hU2]; field_simp
    · rw [hGB]; field_simp
    · rw [hGB]; field_simp
    · rw [hGB]; field_simp
  · rw [if_neg hz, hinv, hbeta] at h
    simp only [Prod.mk.injEq] at h
    obtain ⟨rfl, rfl, rfl, rfl, rfl⟩ := h
    have hz : U = 0 := by simpa using hz
    have hsum : e.ux ^ 2 + e.uy ^ 2 + e.uz ^ 2 = 0 := by rw [← hU2, hz]; ring
    have h1 : e.ux = 0 := by nlinarith [sq_nonneg e.ux, sq_nonneg e.uy, sq_nonneg e.uz]
    have h2 : e.uy = 0 := by nlinarith [sq_nonneg e.ux, sq_nonneg e.uy, sq_nonneg e.uz]
    have h3 : e.uz = 0 := by nlinarith [sq_nonneg e.ux, sq_nonneg e.uy, sq_nonneg e.uz]
    refine ⟨by norm_num, hgb, hG0, hb0, hb1, rfl, ?_, ?_, ?_⟩
    · rw [h1]; ring
    · rw [h2]; ring
    · rw [hGB, hz, h3]; ring

theorem restAngles_spec (q : FourMom) (hq : q.inv = 0) (hp : 0 < q.p) (ct st cp sp : ℝ)
    (h : restAngles q = (ct, st, cp, sp)) :
    ct ^ 2 + st ^ 2 = 1 ∧ cp ^ 2 + sp ^ 2 = 1 ∧
      q.px = q.p * st * cp ∧ q.py = q.p * st * sp ∧ q.pz = q.p * ct := by
  have h0 : q.p ^ 2 = q.px ^ 2 + q.py ^ 2 + q.pz ^ 2 := by
    simp only [FourMom.inv] at hq; linarith
  unfold restAngles at h
  by_cases hc : (q.pz / q.p) ^ 2 < 1
  · simp only [hc, if_true, Prod.mk.injEq] at h
    obtain ⟨rfl, rfl, rfl, rfl⟩ := h
    have hs : 0 < 1 - (q.pz / q.p) ^ 2 := by linarith
    have hS2 : Real.sqrt (1 - (q.pz / q.p) ^ 2) ^ 2 = 1 - (q.pz / q.p) ^ 2 := Real.sq_sqrt hs.le
    have hS0 : 0 < Real.sqrt (1 - (q.pz / q.p) ^ 2) := Real.sqrt_pos.mpr hs
    set S := Real.sqrt (1 - (q.pz / q.p) ^ 2)
    have hSp : S ^ 2 * q.p ^ 2 = q.px ^ 2 + q.py ^ 2 := by
      rw [hS2]; field_simp; linarith
    refine ⟨by rw [hS2]; ring, ?_, ?_, ?_, ?_⟩
    · have : (q.px * (1 / (S * q.p))) ^ 2 + (q.py * (1 / (S * q.p))) ^ 2
          = (q.px ^ 2 + q.py ^ 2) / (S ^ 2 * q.p ^ 2) := by field_simp
      rw [this, hSp]
      refine div_self ?_
      rw [← hSp]; positivity
    · field_simp
    · field_simp
    · field_simp
  · simp only [hc, if_false, Prod.mk.injEq] at h
    obtain ⟨rfl, rfl, rfl, rfl⟩ := h
    have hge : q.p ^ 2 ≤ q.pz ^ 2 := by
      have : 1 ≤ (q.pz / q.p) ^ 2 := not_lt.mp hc
      rw [div_pow, le_div_iff₀ (by positivity)] at this
      linarith
    have hx : q.px = 0 := by nlinarith [sq_nonneg q.px, sq_nonneg q.py]
    have hy : q.py = 0 := by nlinarith [sq_nonneg q.px, sq_nonneg q.py]
    refine ⟨?_, by norm_num, by rw [hx]; ring, by rw [hy]; ring, by field_simp⟩
    rw [div_pow, h0, hx, hy]
    have : q.pz ^ 2 ≠ 0 := by
      have := pow_pos hp 2; linarith
    field_simp
    simp

/-- In the rest frame the scattered photon is light-like, has positive energy given by Compton's
formula, and makes the angle `acos x` with the incoming one. -/
theorem scatterRest_spec (invMC : ℝ) (hm : 0 < invMC) (q : FourMom) (hq : q.inv = 0) (hp : 0 < q.p)
    (d : ScatDraw) (hx : -1 ≤ d.x ∧ d.x ≤ 1) :
    let n := scatterRest invMC q d
    n.inv = 0 ∧ 0 < n.p ∧ n.p * (1 + q.p * invMC * (1 - d.x)) = q.p ∧
      q.px * n.px + q.py * n.py + q.pz * n.pz = q.p * n.p * d.x := by
  intro n
  obtain ⟨ct, st, cp, sp, h⟩ : ∃ ct st cp sp, restAngles q = (ct, st, cp, sp) := ⟨_, _, _, _, rfl⟩
  obtain ⟨h1, h2, h3, h4, h5⟩ := restAngles_spec q hq hp ct st cp sp h
  have hden : 0 < 1 + q.p * invMC * (1 - d.x) := by
    have : 0 ≤ q.p * invMC * (1 - d.x) := by
      have := hx.2; have : 0 ≤ 1 - d.x := by linarith
      positivity
    linarith
  have hs2 : Real.sqrt (1 - d.x ^ 2) ^ 2 = 1 - d.x ^ 2 :=
    Real.sq_sqrt (by nlinarith [hx.1, hx.2])
  have htr := Real.sin_sq_add_cos_sq d.phi
  have hn : n = scatterRest invMC q d := rfl
  simp only [scatterRest, h] at hn
  have hnp : n.p = q.p / (1 + q.p * invMC * (1 - d.x)) := by rw [hn]
  set S := Real.sqrt (1 - d.x ^ 2)
  set cφ := Real.cos d.phi
  set sφ := Real.sin d.phi
  have hpx : n.px = st * cp * (n.p * d.x) + ct * cp * (n.p * S * cφ) - sp * (n.p * S * sφ) := by
    rw [hnp]; exact congrArg FourMom.px hn
  have hpy : n.py = st * sp * (n.p * d.x) + ct * sp * (n.p * S * cφ) + cp * (n.p * S * sφ) := by
    rw [hnp]; exact congrArg FourMom.py hn
  have hpz : n.pz = ct * (n.p * d.x) - st * (n.p * S * cφ) := by
    rw [hnp]; exact congrArg FourMom.pz hn
  have hnpos : 0 < n.p := by rw [hnp]; positivity
  refine ⟨?_, hnpos, ?_, ?_⟩
  · have e : n.px ^ 2 + n.py ^ 2 + n.pz ^ 2 = n.p ^ 2 := by
      rw [hpx, hpy, hpz]
      have e1 : (st * cp * (n.p * d.x) + ct * cp * (n.p * S * cφ) - sp * (n.p * S * sφ)) ^ 2
          + (st * sp * (n.p * d.x) + ct * sp * (n.p * S * cφ) + cp * (n.p * S * sφ)) ^ 2
          = (cp ^ 2 + sp ^ 2) * (n.p ^ 2 * ((st * d.x + ct * S * cφ) ^ 2 + S ^ 2 * sφ ^ 2)) := by ring
      rw [e1, h2]
      have e2 : 1 * (n.p ^ 2 * ((st * d.x + ct * S * cφ) ^ 2 + S ^ 2 * sφ ^ 2))
          + (ct * (n.p * d.x) - st * (n.p * S * cφ)) ^ 2
          = n.p ^ 2 * ((ct ^ 2 + st ^ 2) * (d.x ^ 2 + S ^ 2 * cφ ^ 2) + S ^ 2 * sφ ^ 2) := by ring
      rw [e2, h1]
      have : 1 * (d.x ^ 2 + S ^ 2 * cφ ^ 2) + S ^ 2 * sφ ^ 2
          = d.x ^ 2 + S ^ 2 * (sφ ^ 2 + cφ ^ 2) := by ring
      rw [this, htr, hs2]; ring
    simp only [FourMom.inv]; linarith
  · rw [hnp]; field_simp
  · rw [h3, h4, h5, hpx, hpy, hpz]
    linear_combination (q.p * n.p * (st ^ 2 * d.x + st * ct * S * cφ)) * h2 + q.p * n.p * d.x * h1

end Fbpic
