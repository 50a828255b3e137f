import Verif.Lemmas.RadialWeight
import Mathlib.RingTheory.RootsOfUnity.Complex

/-! # Deposition of an evenly spaced plasma -/

namespace Fbpic.CellVolume

open Filter Topology

/-- The weight that reaches row `iz` of the reduced array. -/
noncomputable def longW (s : Shape) (Nz : ℕ) (zc : ℝ) (iz : ℕ) : ℝ :=
  ∑ a ∈ Finset.range s.width,
    if foldRow Nz (wrapIdx (Nz + 4) (izCell s zc + a)) = iz then s.sz zc a else 0

theorem adds_factor (s : Shape) (g : CylGrid) (bn flip : ℝ) (scal : ℂ) (r z : ℝ) (iz j : ℕ) :
    ((ptclAdds s g bn flip scal r z).map
      (addVal g.Nz g.Nr (fun i j' => if i = iz ∧ j' = j then 1 else 0))).sum
    = scal * ((longW s g.Nz (g.zCell z) iz * radW s g.Nr flip bn (g.rCell r) j : ℝ) : ℂ) := by
  unfold ptclAdds longW radW
  rw [list_sum_flatMap]
  simp only [List.map_map, Function.comp_def, addVal, list_map_range_sum, Finset.sum_mul_sum]
  push_cast
  rw [Finset.mul_sum]
  apply Finset.sum_congr rfl
  intro a _
  rw [Finset.mul_sum]
  apply Finset.sum_congr rfl
  intro b _
  by_cases h1 : foldRow g.Nz (wrapIdx (g.Nz + 4) (izCell s (g.zCell z) + (a : ℤ))) = iz <;>
  by_cases h2 : foldCol g.Nr (wrapIdx (g.Nr + 4) (irCell s (g.rCell r) g.Nr + (b : ℤ))) = j <;>
  simp [h1, h2]
  ring

/-! ### Longitudinal sum -/

theorem foldRow_emod (Nz : ℕ) (hz : 2 ≤ Nz) (i : ℤ) (h0 : 0 ≤ i) (h1 : i < Nz + 4) :
    ((foldRow Nz (wrapIdx (Nz + 4) i) : ℕ) : ℤ) = (i - 2) % Nz := by
  rw [wrapIdx_of_nonneg h0]
  unfold foldRow
  have hzi : (2 : ℤ) ≤ Nz := by exact_mod_cast hz
  split_ifs with h2 h3 h4 h5
  · have : i = 0 := by omega
    subst this
    rw [Int.emod_eq_add_self_emod, Int.emod_eq_of_lt (by omega) (by omega)]; omega
  · have : i = 1 := by omega
    subst this
    rw [Int.emod_eq_add_self_emod, Int.emod_eq_of_lt (by omega) (by omega)]; omega
  · rw [Int.emod_eq_of_lt (by omega) (by omega)]; omega
  · have : i - 2 = 0 + Nz := by omega
    rw [this, Int.add_emod_right]; simp
  · have : i - 2 = 1 + Nz := by omega
    rw [this, Int.add_emod_right, Int.emod_eq_of_lt (by omega) (by omega)]; simp

theorem sz_shift (s : Shape) (t : ℝ) (n : ℕ) (a : ℕ) : s.sz ((n : ℝ) + t) a = s.sz t a := by
  have h : ⌈(n : ℝ) + t⌉ = n + ⌈t⌉ := by rw [add_comm, Int.ceil_add_natCast, add_comm]
  cases s
  · simp only [Shape.sz, szLinear, h]; push_cast
    rw [show (n : ℝ) + ⌈t⌉ - (n + t) = ⌈t⌉ - t by ring]
  · simp only [Shape.sz, szCubic, h]; push_cast
    rw [show (n : ℝ) + t - (n + ⌈t⌉ - 2) - 1 = t - (⌈t⌉ - 2) - 1 by ring]

theorem sz_sum (s : Shape) (t : ℝ) : ∑ a ∈ Finset.range s.width, s.sz t a = 1 := by
  cases s
  · simp [Shape.width, Finset.sum_range_succ, Shape.sz, szLinear]
  · simp [Shape.width, Finset.sum_range_succ, Shape.sz, szCubic]; ring

/-- One position per cell, with the same offset in all cells. -/
theorem longW_cells (s : Shape) (Nz : ℕ) (hz : 2 ≤ Nz) (t : ℝ) (h0 : -1 < t) (h1 : t ≤ 1)
    (iz : ℕ) (hiz : iz < Nz) :
    ∑ A ∈ Finset.range Nz, longW s Nz ((A : ℝ) + t) iz = 1 := by
  have hc0 : 0 ≤ ⌈t⌉ := by
    have : (-1 : ℤ) < ⌈t⌉ := by rw [Int.lt_ceil]; push_cast; exact h0
    omega
  have hc1 : ⌈t⌉ ≤ 1 := by rw [Int.ceil_le]; push_cast; exact h1
  rw [← sz_sum s t]
  unfold longW
  rw [Finset.sum_comm]
  apply Finset.sum_congr rfl
  intro a ha
  rw [Finset.mem_range] at ha
  simp only [sz_shift]
  set c : ℤ := izCell s t + a - 2 with hc
  have hcr : -2 ≤ c ∧ c ≤ 2 := by
    rw [hc]
    cases s <;> simp only [izCell, Shape.width] at ha ⊢ <;> omega
  have hidx : ∀ A : ℕ, izCell s ((A : ℝ) + t) + (a : ℤ) = A + c + 2 := by
    intro A
    have h : ⌈(A : ℝ) + t⌉ = A + ⌈t⌉ := by rw [add_comm, Int.ceil_add_natCast, add_comm]
    rw [hc]
    cases s <;> simp only [izCell, h] <;> ring
  have hNz : (0 : ℤ) < Nz := by omega
  set A0 : ℕ := ((iz - c) % Nz).toNat with hA0
  have hA0n : 0 ≤ ((iz : ℤ) - c) % Nz := Int.emod_nonneg _ (by omega)
  have hA0l : ((iz : ℤ) - c) % Nz < Nz := Int.emod_lt_of_pos _ hNz
  have hcond : ∀ A ∈ Finset.range Nz,
      (foldRow Nz (wrapIdx (Nz + 4) (izCell s ((A : ℝ) + t) + (a : ℤ))) = iz ↔ A = A0) := by
    intro A hA
    rw [Finset.mem_range] at hA
    rw [hidx]
    have := foldRow_emod Nz hz ((A : ℤ) + c + 2) (by omega) (by omega)
    rw [← Int.ofNat_inj, this, show (A : ℤ) + c + 2 - 2 = A + c by ring]
    constructor
    · intro h
      have : ((iz : ℤ) - c) % Nz = A := by
        rw [← h, Int.emod_sub_emod, show (A : ℤ) + c - c = A by ring, Int.emod_eq_of_lt (by omega) (by omega)]
      omega
    · intro h
      have : (A : ℤ) = ((iz : ℤ) - c) % Nz := by omega
      rw [this, Int.emod_add_emod, show (iz : ℤ) - c + c = iz by ring, Int.emod_eq_of_lt (by omega) (by omega)]
  rw [Finset.sum_congr rfl (fun A hA => if_congr (hcond A hA) rfl rfl)]
  rw [Finset.sum_ite_eq' , if_pos (Finset.mem_range.2 (by omega))]

theorem sum_range_mul' {M : Type} [AddCommMonoid M] (p N : ℕ) (f : ℕ → M) :
    ∑ l ∈ Finset.range (p * N), f l = ∑ A ∈ Finset.range N, ∑ b ∈ Finset.range p, f (p * A + b) := by
  induction N with
  | zero => simp
  | succ N ih => rw [Nat.mul_succ, Finset.sum_range_add, ih, Finset.sum_range_succ]

/-- `p` equidistant positions per cell. -/
theorem longW_sum (s : Shape) (Nz p : ℕ) (hz : 2 ≤ Nz) (hp : 0 < p) (iz : ℕ) (hiz : iz < Nz) :
    ∑ l ∈ Finset.range (p * Nz), longW s Nz (((l : ℝ) + 1 / 2) / p - 1 / 2) iz = p := by
  rw [sum_range_mul', Finset.sum_comm]
  have hp0 : (0 : ℝ) < p := by exact_mod_cast hp
  have : ∀ b ∈ Finset.range p, ∑ A ∈ Finset.range Nz,
      longW s Nz ((((p * A + b : ℕ) : ℝ) + 1 / 2) / p - 1 / 2) iz = 1 := by
    intro b hb
    have hb' : (b : ℝ) + 1 ≤ p := by exact_mod_cast Finset.mem_range.1 hb
    have hb0 : (0 : ℝ) ≤ b := by positivity
    have hq0 : 0 ≤ ((b : ℝ) + 1 / 2) / p := by positivity
    have hq1 : ((b : ℝ) + 1 / 2) / p ≤ 1 := by rw [div_le_one hp0]; linarith
    refine Eq.trans ?_ (longW_cells s Nz hz (((b : ℝ) + 1 / 2) / p - 1 / 2) (by linarith) (by linarith) iz hiz)
    apply Finset.sum_congr rfl
    intro A _
    congr 1
    push_cast
    field_simp
    ring
  rw [Finset.sum_congr rfl this]
  simp

/-! ### Sums over the generated particles -/

theorem gen_sum {M : Type} [AddCommMonoid M] (Npz : ℕ) (zmin zmax : ℝ) (Npr : ℕ) (R : ℝ) (Nt : ℕ)
    (n tp : ℝ) (dens : ℝ → ℝ → ℕ → ℝ) (h : 0 < Npz * Npr * Nt) (G : NewPtcl ℝ → M) :
    ((generateEvenlySpaced (Npz : ℤ) zmin zmax Npr 0 R Nt n tp dens).map G).sum
      = ∑ iz ∈ Finset.range Npz, ∑ ir ∈ Finset.range Npr, ∑ it ∈ Finset.range Nt,
        let z := zmin + (zmax - zmin) / Npz * ((iz : ℝ) + 1 / 2)
        let r := R / Npr * ((ir : ℝ) + 1 / 2)
        let w := n * r * (tp / Nt) * (R / Npr) * ((zmax - zmin) / Npz) * dens z r it
        if 0 < w then G ⟨z, r, it, w⟩ else 0 := by
  unfold generateEvenlySpaced
  rw [if_pos (by exact_mod_cast h)]
  simp only [Int.toNat_natCast, Int.cast_natCast, sub_zero, zero_add]
  have hf : ∀ L : List (NewPtcl ℝ), ((L.filter fun p => 0 < p.w).map G).sum
      = (L.map fun p => if 0 < p.w then G p else 0).sum := by
    intro L
    induction L with
    | nil => rfl
    | cons a L ih =>
      by_cases ha : 0 < a.w
      · simp [List.filter_cons, ha, ih]
      · simp [List.filter_cons, ha, ih]
  rw [hf, list_sum_flatMap, list_map_range_sum]
  apply Finset.sum_congr rfl
  intro iz _
  rw [list_sum_flatMap, list_map_range_sum]
  apply Finset.sum_congr rfl
  intro ir _
  rw [List.map_map, list_map_range_sum]
  rfl

theorem cylR_polar (r th : ℝ) (h : 0 ≤ r) : cylR (r * Real.cos th) (r * Real.sin th) = r := by
  unfold cylR
  rw [show (r * Real.cos th) ^ 2 + (r * Real.sin th) ^ 2 = r ^ 2 * (Real.sin th ^ 2 + Real.cos th ^ 2) by ring,
    Real.sin_sq_add_cos_sq, mul_one, Real.sqrt_sq h]

theorem cylCos_polar (r th : ℝ) (h : 0 < r) : cylCos (r * Real.cos th) (r * Real.sin th) = Real.cos th := by
  unfold cylCos
  rw [cylR_polar _ _ h.le, if_pos h.ne']; field_simp

theorem cylSin_polar (r th : ℝ) (h : 0 < r) : cylSin (r * Real.cos th) (r * Real.sin th) = Real.sin th := by
  unfold cylSin
  rw [cylR_polar _ _ h.le, if_pos h.ne']; field_simp

theorem modeScal_exp (s0 : ℂ) (th : ℝ) (m : ℕ) :
    modeScal s0 (Real.cos th) (Real.sin th) m = s0 * Complex.exp (Complex.I * th) ^ m := by
  induction m with
  | zero => simp [modeScal]
  | succ m ih =>
    have : Complex.exp (Complex.I * th) = (Real.cos th : ℂ) + Complex.I * (Real.sin th : ℂ) := by
      rw [mul_comm, Complex.exp_mul_I]; push_cast; ring
    rw [modeScal, ih, pow_succ, ← this]; ring

/-- Amplitude per unit weight. -/
def amp (f : DepField) (c q uz ig : ℝ) : ℝ :=
  match f with
  | .rho => q
  | .Jz => q * c * ig * uz
  | .Jr | .Jt => 0

theorem scal0_dep (f : DepField) (c q : ℝ) (Nt : ℕ) (sh : ℝ → ℝ → ℝ) (uz ig : ℝ) (p : NewPtcl ℝ) :
    f.scal0 c q (depOf Nt sh uz ig p) = amp f c q uz ig * p.w := by
  cases f <;> simp [DepField.scal0, depOf, amp] <;> ring

/-- Ruyten coefficient used at radius `r`. -/
noncomputable def betaAt (g : CylGrid) (beta : List ℝ) (r : ℝ) : ℝ :=
  beta.getD (wrapIdx beta.length (min ⌈g.rCell r⌉ g.Nr)) 0

/-- One particle. -/
theorem dep_term (s : Shape) (f : DepField) (c q : ℝ) (g : CylGrid) (beta : List ℝ) (m : ℕ)
    (Nt : ℕ) (sh : ℝ → ℝ → ℝ) (uz ig : ℝ) (p : NewPtcl ℝ) (hr : 0 < p.r) (iz j : ℕ) :
    ((addsOf s f c q g beta m (depOf Nt sh uz ig p)).map
      (addVal g.Nz g.Nr (fun i j' => if i = iz ∧ j' = j then 1 else 0))).sum
    = ((amp f c q uz ig * p.w : ℝ) : ℂ)
        * Complex.exp (Complex.I * ((2 * Real.pi / Nt * p.itheta + sh p.z p.r : ℝ) : ℂ)) ^ m
        * ((longW s g.Nz (g.zCell p.z) iz
          * radW s g.Nr (f.flip m) (betaAt g beta p.r) (g.rCell p.r) j : ℝ) : ℂ) := by
  unfold addsOf
  rw [adds_factor]
  have h1 : cylR (depOf Nt sh uz ig p).x (depOf Nt sh uz ig p).y = p.r := cylR_polar _ _ hr.le
  have h2 : betaOf g beta (depOf Nt sh uz ig p) = betaAt g beta p.r := by
    unfold betaOf betaIdx betaAt; rw [h1]
  have h3 : scalOf f c q m (depOf Nt sh uz ig p) = ((amp f c q uz ig * p.w : ℝ) : ℂ)
      * Complex.exp (Complex.I * ((2 * Real.pi / Nt * p.itheta + sh p.z p.r : ℝ) : ℂ)) ^ m := by
    unfold scalOf
    rw [scal0_dep]
    have e1 : cylCos (depOf Nt sh uz ig p).x (depOf Nt sh uz ig p).y
        = Real.cos (2 * Real.pi / Nt * p.itheta + sh p.z p.r) := cylCos_polar _ _ hr
    have e2 : cylSin (depOf Nt sh uz ig p).x (depOf Nt sh uz ig p).y
        = Real.sin (2 * Real.pi / Nt * p.itheta + sh p.z p.r) := cylSin_polar _ _ hr
    rw [e1, e2, modeScal_exp]
  rw [h1, h2, h3]
  rfl

theorem ring_sum (Nt m : ℕ) (hNt : 0 < Nt) (hm : ¬ Nt ∣ m) (sh : ℝ) :
    ∑ it ∈ Finset.range Nt,
      Complex.exp (Complex.I * ((2 * Real.pi / Nt * (it : ℝ) + sh : ℝ) : ℂ)) ^ m = 0 := by
  have hN : (Nt : ℂ) ≠ 0 := by exact_mod_cast hNt.ne'
  set ζ : ℂ := Complex.exp (2 * Real.pi * Complex.I * (m / Nt)) with hζ
  have hterm : ∀ it : ℕ, Complex.exp (Complex.I * ((2 * Real.pi / Nt * (it : ℝ) + sh : ℝ) : ℂ)) ^ m
      = Complex.exp (Complex.I * m * sh) * ζ ^ it := by
    intro it
    rw [hζ, ← Complex.exp_nat_mul, ← Complex.exp_nat_mul, ← Complex.exp_add]
    congr 1
    push_cast
    field_simp
    ring
  simp only [hterm]
  rw [← Finset.mul_sum]
  have h1 : ζ ^ Nt = 1 := by
    rw [hζ, ← Complex.exp_nat_mul, Complex.exp_eq_one_iff]
    exact ⟨m, by push_cast; field_simp⟩
  have h2 : ζ ≠ 1 := by
    rw [hζ, Ne, Complex.exp_eq_one_iff]
    rintro ⟨k, hk⟩
    have hpi : (2 * Real.pi * Complex.I : ℂ) ≠ 0 := Complex.two_pi_I_ne_zero
    have : (m : ℂ) / Nt = k := by
      have : (2 * Real.pi * Complex.I : ℂ) * (m / Nt) = (2 * Real.pi * Complex.I) * k := by rw [hk]; ring
      exact mul_left_cancel₀ hpi this
    have : (m : ℂ) = k * Nt := by rw [← this]; field_simp
    have : (m : ℤ) = k * Nt := by exact_mod_cast this
    exact hm (by exact_mod_cast (Dvd.intro_left k this.symm))
  have : ∑ it ∈ Finset.range Nt, ζ ^ it = 0 := by
    rw [geom_sum_eq h2, h1]; simp
  rw [this, mul_zero]

end Fbpic.CellVolume
