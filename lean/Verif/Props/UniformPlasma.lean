import Verif.Lemmas.UniformPlasma
import Verif.Spec.UniformPlasma
import Verif.Props.Deposit

/-!
# C69: a uniform plasma deposits a uniform density
-/

namespace Fbpic

open CellVolume Spec Filter Topology

section

variable {s : Shape} {q : ℝ} {g : CylGrid} {dr dz : ℝ} {pz Npr Nt : ℕ} {R : ℝ} {dens : ℝ → ℝ → ℝ}
  {shift : ℝ → ℝ → ℝ} {uz ig : ℝ}

/-- The deposition of the plasma succeeds. -/
private theorem plasma_ok (hg : BoxGrid g dr dz) (hpz : 0 < pz) (f : DepField) (c : ℝ)
    (beta : Shape → ℕ → List ℝ) (hbeta : ∀ s k, (beta s k).length = g.Nr + 1) (m nt : ℕ) (hnt : 0 < nt) :
    ∃ A, depositAll f c g beta m nt [evenPlasma s q g dz pz Npr Nt R dens shift uz ig] = .ok A := by
  apply C24_deposit_partial _ _ _ _ _ _ hnt _ hbeta (by rw [hg.invdr]; exact one_div_pos.2 hg.dr_pos) hg.rmin
  intro sp hsp p hp
  rw [List.mem_singleton] at hsp
  subst hsp
  have hNz : (0 : ℝ) < g.Nz := by have := hg.Nz; exact_mod_cast (by omega : 0 < g.Nz)
  have hpz' : (0 : ℝ) < pz := by exact_mod_cast hpz
  have hz : g.zmin ≤ p.z ∧ p.z ≤ g.zmin + g.Nz * dz := by
    simp only [evenPlasma, List.mem_map] at hp
    obtain ⟨p0, hp0, rfl⟩ := hp
    unfold generateEvenlySpaced at hp0
    split_ifs at hp0 with h
    · rw [List.mem_filter] at hp0
      obtain ⟨hp0, -⟩ := hp0
      simp only [List.mem_flatMap, List.mem_map, List.mem_range] at hp0
      obtain ⟨i, hi, j, -, k, -, rfl⟩ := hp0
      have hi' : (i : ℝ) + 1 ≤ pz * g.Nz := by
        have : i + 1 ≤ pz * g.Nz := by rw [Int.toNat_natCast] at hi; omega
        exact_mod_cast this
      have hi0 : (0 : ℝ) ≤ i := by positivity
      have hdz := hg.dz_pos
      have e : (g.zmin + g.Nz * dz - g.zmin) / (((pz * g.Nz : ℕ) : ℤ) : ℝ) = dz / pz := by
        push_cast; field_simp; ring
      have e2 : dz / pz * ((i : ℝ) + 1 / 2) ≤ dz / pz * (pz * g.Nz) :=
        mul_le_mul_of_nonneg_left (by linarith) (by positivity)
      have e3 : dz / pz * (pz * g.Nz) = g.Nz * dz := by field_simp
      simp only [depOf, e]
      refine ⟨by have : 0 ≤ dz / pz * ((i : ℝ) + 1 / 2) := by positivity
                 linarith, by linarith⟩
    · simp at hp0
  have hr : 0 < s.reach := by cases s <;> simp [Shape.reach]
  have hdz := hg.dz_pos
  rw [hg.invdz]
  have h1 : 0 ≤ 1 / dz * (p.z - g.zmin) := mul_nonneg (by positivity) (by linarith)
  have h2 : 1 / dz * (p.z - g.zmin) ≤ g.Nz := by
    rw [one_div_mul_eq_div, div_le_iff₀ hdz]; linarith
  exact ⟨by simp only [evenPlasma]; linarith, by simp only [evenPlasma]; linarith⟩

/-- What is deposited in one cell. -/
private theorem plasma_cell (hg : BoxGrid g dr dz) (hpz : 0 < pz) (hNpr : 0 < Npr) (hNt : 0 < Nt)
    (hNr : 2 ≤ g.Nr) (hR : 0 < R)
    (f : DepField) (c : ℝ) (beta : Shape → ℕ → List ℝ) (m nt : ℕ) (hnt : 0 < nt) (A : Buf)
    (hA : depositAll f c g beta m nt [evenPlasma s q g dz pz Npr Nt R dens shift uz ig] = .ok A)
    (iz j : ℕ) (hiz : iz < g.Nz) (hj : j < g.Nr) :
    A iz j = if q = 0 then 0 else
      ∑ l ∈ Finset.range (pz * g.Nz), ∑ ir ∈ Finset.range Npr, ∑ it ∈ Finset.range Nt,
        let z := g.zmin + dz / pz * ((l : ℝ) + 1 / 2)
        let r := R / Npr * ((ir : ℝ) + 1 / 2)
        let w := 1 * r * (2 * Real.pi / Nt) * (R / Npr) * (dz / pz) * dens z r
        if 0 < w then ((amp f c q uz ig * w : ℝ) : ℂ)
          * Complex.exp (Complex.I * ((2 * Real.pi / Nt * (it : ℝ) + shift z r : ℝ) : ℂ)) ^ m
          * ((longW s g.Nz (g.zCell z) iz
            * radW s g.Nr (f.flip m) (betaAt g (beta s (min m 1)) r) (g.rCell r) j : ℝ) : ℂ) else 0 := by
  have hNz : (0 : ℝ) < g.Nz := by have := hg.Nz; exact_mod_cast (by omega : 0 < g.Nz)
  have hpz' : (0 : ℝ) < pz := by exact_mod_cast hpz
  have hNpr' : (0 : ℝ) < Npr := by exact_mod_cast hNpr
  rw [← pair_indicator g.Nz g.Nr A iz j hiz hj,
    pair_depositAll f c g beta m nt hnt _ A _ hg.Nz hNr hA]
  simp only [List.map_cons, List.map_nil, List.sum_cons, List.sum_nil, add_zero, evenPlasma]
  by_cases hq : q = 0
  · simp [hq]
  rw [if_neg hq, if_neg hq, List.map_map, gen_sum]
  · apply Finset.sum_congr rfl
    intro l _
    apply Finset.sum_congr rfl
    intro ir _
    apply Finset.sum_congr rfl
    intro it _
    have e : (g.zmin + g.Nz * dz - g.zmin) / ((pz * g.Nz : ℕ) : ℝ) = dz / pz := by
      push_cast; field_simp; ring
    simp only [e, Function.comp_apply]
    split_ifs with h
    · rw [dep_term]
      exact mul_pos (by positivity) (by positivity)
    · rfl
  · have := hg.Nz
    positivity

/-- Limit of many particles along r. -/
private theorem plasma_limit (hg : BoxGrid g dr dz) (hNr : 2 ≤ g.Nr) (hpz : 0 < pz) (hNt : 0 < Nt)
    (f : DepField) (hf : f.flip 0 = 1) (c : ℝ) (beta : Shape → ℕ → List ℝ)
    (hbeta : ∀ s k, (beta s k).length = g.Nr + 1) (β : ℕ → ℝ) (hβ0 : β 0 = 0)
    (hβ : ∀ k, k ≤ g.Nr → (beta s 0).getD k 0 = β k) (nt : ℕ) (hnt : 0 < nt)
    (n : ℝ) (hn : 0 < n) (hR : 0 < R) (hRN : R ≤ g.Nr * dr) (sh : ℕ → ℝ → ℝ → ℝ)
    (A : ℕ → Buf)
    (hA : ∀ N, 0 < N → depositAll f c g beta 0 nt
      [evenPlasma s q g dz pz N Nt R (fun _ _ => n) (sh N) uz ig] = .ok (A N))
    (iz j : ℕ) (hiz : iz < g.Nz) (hj : j + 1 < g.Nr) :
    Tendsto (fun N => A N iz j) atTop (𝓝 ((amp f c q uz ig * n * (2 * Real.pi) * dz * dr ^ 2 *
      ∫ x in (0 : ℝ)..(R / dr), x * colW s (β j) (β (j + 1)) ((j : ℝ) + 1 / 2) x : ℝ) : ℂ)) := by
  have hdr := hg.dr_pos
  have hdz := hg.dz_pos
  have hpz' : (0 : ℝ) < pz := by exact_mod_cast hpz
  have hNt' : (0 : ℝ) < Nt := by exact_mod_cast hNt
  set W := colW s (β j) (β (j + 1)) ((j : ℝ) + 1 / 2) with hW
  have hWc : Continuous W := colW_continuous _ _ _ _
  set F : ℝ → ℝ := fun x => x * W (x / dr) with hF
  have hFc : Continuous F := continuous_id.mul (hWc.comp (continuous_id.div_const dr))
  have hint : ∫ x in (0 : ℝ)..R, F x = dr ^ 2 * ∫ x in (0 : ℝ)..(R / dr), x * W x := by
    have := intervalIntegral.integral_comp_div (a := 0) (b := R) (fun x => dr * (x * W x)) hdr.ne'
    rw [zero_div, smul_eq_mul, intervalIntegral.integral_const_mul (a := 0) (b := R / dr)] at this
    rw [pow_two, mul_assoc, ← this]
    congr 1
    funext x
    simp only [hF]
    field_simp
  have hlim := midpoint_tendsto F hFc R hR
  have hval : ∀ N : ℕ, 0 < N → A N iz j = ((amp f c q uz ig * n * (2 * Real.pi) * dz *
      ∑ i ∈ Finset.range N, R / N * F (R / N * ((i : ℝ) + 1 / 2)) : ℝ) : ℂ) := by
    intro N hN
    have hN' : (0 : ℝ) < N := by exact_mod_cast hN
    rw [plasma_cell hg hpz hN hNt hNr hR f c beta 0 nt hnt (A N) (hA N hN) iz j hiz (by omega)]
    split_ifs with hq
    · have : amp f c q uz ig = 0 := by cases f <;> simp [amp, hq]
      rw [this]; simp
    have hrad : ∀ i ∈ Finset.range N,
        radW s g.Nr (f.flip 0) (betaAt g (beta s (min 0 1)) (R / N * ((i : ℝ) + 1 / 2)))
          (g.rCell (R / N * ((i : ℝ) + 1 / 2))) j = W (R / N * ((i : ℝ) + 1 / 2) / dr) := by
      intro i hi
      have hi' : (i : ℝ) + 1 ≤ N := by exact_mod_cast Finset.mem_range.1 hi
      have hi0 : (0 : ℝ) ≤ i := by positivity
      set r := R / N * ((i : ℝ) + 1 / 2) with hr
      have hr0 : 0 ≤ r := by positivity
      have hrR : r ≤ R := by
        have : R / N * ((i : ℝ) + 1 / 2) ≤ R / N * N := mul_le_mul_of_nonneg_left (by linarith) (by positivity)
        rw [hr]; refine this.trans_eq ?_; field_simp
      have hrc : g.rCell r = r / dr - 1 / 2 := by
        unfold CylGrid.rCell; rw [hg.invdr, hg.rmin]; ring
      have hrd0 : 0 ≤ r / dr := by positivity
      have hrdN : r / dr ≤ g.Nr := by rw [div_le_iff₀ hdr]; linarith
      have hceil0 : 0 ≤ ⌈g.rCell r⌉ := by
        have : (-1 : ℤ) < ⌈g.rCell r⌉ := by rw [Int.lt_ceil, hrc]; push_cast; linarith
        omega
      have hceilN : ⌈g.rCell r⌉ ≤ g.Nr := by rw [Int.ceil_le, hrc]; push_cast; linarith
      obtain ⟨k, hk⟩ := Int.eq_ofNat_of_zero_le hceil0
      have hkN : k ≤ g.Nr := by omega
      have hb : betaAt g (beta s (min 0 1)) r = β k := by
        unfold betaAt
        rw [hk, min_eq_left (by exact_mod_cast hkN : (k : ℤ) ≤ g.Nr), wrapIdx_of_nonneg (by positivity)]
        exact hβ k hkN
      rw [hb, hf, radW_eq s g.Nr j k hj β hβ0 (g.rCell r) (by rw [hrc]; linarith) hk hkN, hW, hrc]
      congr 1; ring
    have hz : ∀ l : ℕ, g.zCell (g.zmin + dz / pz * ((l : ℝ) + 1 / 2)) = ((l : ℝ) + 1 / 2) / pz - 1 / 2 := by
      intro l; unfold CylGrid.zCell; rw [hg.invdz]; field_simp; ring
    have hterm : ∀ l ∈ Finset.range (pz * g.Nz), ∀ i ∈ Finset.range N, ∀ it ∈ Finset.range Nt, (
        let z := g.zmin + dz / pz * ((l : ℝ) + 1 / 2)
        let r := R / N * ((i : ℝ) + 1 / 2)
        let w := 1 * r * (2 * Real.pi / Nt) * (R / N) * (dz / pz) * n
        if 0 < w then ((amp f c q uz ig * w : ℝ) : ℂ)
          * Complex.exp (Complex.I * ((2 * Real.pi / Nt * (it : ℝ) + sh N z r : ℝ) : ℂ)) ^ 0
          * ((longW s g.Nz (g.zCell z) iz
            * radW s g.Nr (f.flip 0) (betaAt g (beta s (min 0 1)) r) (g.rCell r) j : ℝ) : ℂ) else 0)
        = ((longW s g.Nz (((l : ℝ) + 1 / 2) / pz - 1 / 2) iz *
            (amp f c q uz ig * n * (2 * Real.pi) * dz / (pz * Nt) * (R / N * F (R / N * ((i : ℝ) + 1 / 2)))) : ℝ) : ℂ) := by
      intro l hl i hi it hit
      have hw : 0 < 1 * (R / N * ((i : ℝ) + 1 / 2)) * (2 * Real.pi / Nt) * (R / N) * (dz / pz) * n := by
        have := Real.pi_pos
        positivity
      simp only
      rw [if_pos hw, hrad i hi, hz, pow_zero, mul_one, ← Complex.ofReal_mul]
      congr 1
      simp only [hF]
      field_simp
    rw [Finset.sum_congr rfl (fun l hl => Finset.sum_congr rfl (fun i hi => Finset.sum_congr rfl (fun it hit =>
      hterm l hl i hi it hit)))]
    simp only [Finset.sum_const, Finset.card_range, nsmul_eq_mul]
    have key : ∑ l ∈ Finset.range (pz * g.Nz), ∑ i ∈ Finset.range N, (Nt : ℝ) *
        (longW s g.Nz (((l : ℝ) + 1 / 2) / pz - 1 / 2) iz *
            (amp f c q uz ig * n * (2 * Real.pi) * dz / (pz * Nt) * (R / N * F (R / N * ((i : ℝ) + 1 / 2)))))
        = amp f c q uz ig * n * (2 * Real.pi) * dz *
            ∑ i ∈ Finset.range N, R / N * F (R / N * ((i : ℝ) + 1 / 2)) := by
      simp only [← Finset.mul_sum]
      rw [← Finset.sum_mul, longW_sum s g.Nz pz hg.Nz hpz iz hiz]
      field_simp
    rw [← key]
    push_cast
    rfl
  have hlim2 : Tendsto (fun N : ℕ => ((amp f c q uz ig * n * (2 * Real.pi) * dz *
      ∑ i ∈ Finset.range N, R / N * F (R / N * ((i : ℝ) + 1 / 2)) : ℝ) : ℂ)) atTop
      (𝓝 ((amp f c q uz ig * n * (2 * Real.pi) * dz * ∫ x in (0 : ℝ)..R, F x : ℝ) : ℂ)) :=
    (Complex.continuous_ofReal.tendsto _).comp (hlim.const_mul _)
  rw [hint, ← mul_assoc _ (dr ^ 2)] at hlim2
  refine hlim2.congr' ?_
  filter_upwards [eventually_gt_atTop 0] with N hN
  exact (hval N hN).symm

private theorem uniform_aux (hg : BoxGrid g dr dz) (hpz : 0 < pz) (hNt : 0 < Nt)
    (f : DepField) (hf : f.flip 0 = 1) (c : ℝ) (beta : Shape → ℕ → List ℝ)
    (hlen : ∀ s k, (beta s k).length = g.Nr + 1) (vol : ℕ → ℝ)
    (hbeta : beta s 0 = ruytenCoefs true s vol dr dz g.Nr) (nt : ℕ) (hnt : 0 < nt)
    (n : ℝ) (hn : 0 < n) (hRN : R ≤ g.Nr * dr) (sh : ℕ → ℝ → ℝ → ℝ) (A : ℕ → Buf)
    (hA : ∀ N, 0 < N → depositAll f c g beta 0 nt
      [evenPlasma s q g dz pz N Nt R (fun _ _ => n) (sh N) uz ig] = .ok (A N))
    (iz j : ℕ) (hiz : iz < g.Nz) (hjR : ((j : ℝ) + 1 / 2 + halfWidth s) * dr ≤ R) (hvol : vol j ≠ 0) :
    Tendsto (fun N => divideByVolume vol (A N) iz j) atTop (𝓝 ((amp f c q uz ig * n : ℝ) : ℂ)) := by
  have hdr := hg.dr_pos
  have hdz := hg.dz_pos
  have hpi := Real.pi_pos
  have hj0 : (0 : ℝ) ≤ j := by positivity
  have hw : 1 ≤ halfWidth s := by cases s <;> simp [halfWidth]
  have hR0 : 0 < R := lt_of_lt_of_le (by positivity) hjR
  have hj1 : j + 1 < g.Nr := by
    have h1 : ((j : ℝ) + 1 / 2 + halfWidth s) * dr ≤ g.Nr * dr := hjR.trans hRN
    have h2 := le_of_mul_le_mul_right h1 hdr
    have : (j : ℝ) + 1 < g.Nr := by linarith
    exact_mod_cast this
  have hlim := plasma_limit (s := s) (q := q) (uz := uz) (ig := ig) hg (by omega) hpz hNt f hf c beta hlen
    (betaK s vol dr dz) rfl (fun k hk => by rw [hbeta, ruytenCoefs_getD _ _ _ _ _ _ hk])
    nt hnt n hn hR0 hRN sh A hA iz j hiz hj1
  rw [colW_moment s vol dr dz j (R / dr) (by rw [le_div_iff₀ hdr]; exact hjR)] at hlim
  have := hlim.mul_const (((1 / vol j : ℝ)) : ℂ)
  rw [← Complex.ofReal_mul] at this
  unfold divideByVolume
  convert this using 3
  unfold normVol
  field_simp

end

/-- **C69** (azimuthal modes). A plasma made of rings of `Nt` particles, of any axisymmetric density profile
and whatever the random rotation of each ring, deposits exactly nothing in the azimuthal modes that are not
multiples of `Nt`. -/
theorem C69_modes (s : Shape) (q : ℝ) (g : CylGrid) (dr dz : ℝ) (hg : BoxGrid g dr dz) (hNr : 2 ≤ g.Nr)
    (pz Npr Nt : ℕ) (hpz : 0 < pz) (hNpr : 0 < Npr) (hNt : 0 < Nt) (R : ℝ) (hR : 0 < R)
    (dens shift : ℝ → ℝ → ℝ) (uz ig : ℝ) (f : DepField) (c : ℝ) (beta : Shape → ℕ → List ℝ)
    (hbeta : ∀ s k, (beta s k).length = g.Nr + 1) (m nt : ℕ) (hnt : 0 < nt) (hm : ¬ Nt ∣ m) :
    ∃ A, depositAll f c g beta m nt [evenPlasma s q g dz pz Npr Nt R dens shift uz ig] = .ok A ∧
      ∀ iz j, iz < g.Nz → j < g.Nr → A iz j = 0 := by
  obtain ⟨A, hA⟩ := plasma_ok (s := s) (q := q) (Npr := Npr) (Nt := Nt) (R := R) (dens := dens)
    (shift := shift) (uz := uz) (ig := ig) hg hpz f c beta hbeta m nt hnt
  refine ⟨A, hA, fun iz j hiz hj => ?_⟩
  rw [plasma_cell hg hpz hNpr hNt hNr hR f c beta m nt hnt A hA iz j hiz hj]
  split_ifs with hq
  · rfl
  apply Finset.sum_eq_zero
  intro l _
  apply Finset.sum_eq_zero
  intro ir _
  simp only
  split_ifs with hw
  · rw [← Finset.sum_mul, ← Finset.mul_sum, ring_sum Nt m hNt hm]
    simp
  · simp

/-- **C69** (Ruyten shapes, the default). A plasma of uniform density `n` that fills the periodic box up to the
radius `R`, with any number of particles per cell along z and in azimuth: as the number of particles along r grows, the charge
density on the grid (deposited, and divided by the volume of the cells) tends to `q n` in every cell whose
neighbours within the reach of the shape are filled, including the cells at the axis. This holds for the
standard and for the modified cell volumes (indeed for any non-zero volumes), and for any random rotation of the
rings. -/
theorem C69_uniform_charge (s : Shape) (q : ℝ) (g : CylGrid) (dr dz : ℝ) (hg : BoxGrid g dr dz)
    (vol : ℕ → ℝ) (beta : Shape → ℕ → List ℝ) (hlen : ∀ s k, (beta s k).length = g.Nr + 1)
    (hbeta : beta s 0 = ruytenCoefs true s vol dr dz g.Nr)
    (pz Nt : ℕ) (hpz : 0 < pz) (hNt : 0 < Nt) (R : ℝ) (hRN : R ≤ g.Nr * dr) (n : ℝ) (hn : 0 < n)
    (shift : ℕ → ℝ → ℝ → ℝ) (uz ig c : ℝ) (nt : ℕ) (hnt : 0 < nt) :
    ∃ A : ℕ → Buf, (∀ N, depositAll .rho c g beta 0 nt
        [evenPlasma s q g dz pz N Nt R (fun _ _ => n) (shift N) uz ig] = .ok (A N)) ∧
      ∀ iz j : ℕ, iz < g.Nz → ((j : ℝ) + 1 / 2 + halfWidth s) * dr ≤ R → vol j ≠ 0 →
        Tendsto (fun N => divideByVolume vol (A N) iz j) atTop (𝓝 ((q * n : ℝ) : ℂ)) := by
  have hex : ∀ N, ∃ A, depositAll .rho c g beta 0 nt
      [evenPlasma s q g dz pz N Nt R (fun _ _ => n) (shift N) uz ig] = .ok A :=
    fun N => plasma_ok hg hpz .rho c beta hlen 0 nt hnt
  choose A hA using hex
  refine ⟨A, hA, fun iz j hiz hjR hvol => ?_⟩
  exact uniform_aux hg hpz hNt .rho (by simp [DepField.flip]) c beta hlen vol hbeta nt hnt n hn hRN shift A
    (fun N _ => hA N) iz j hiz hjR hvol

/-- **C69** (current). The same for the longitudinal current of a plasma that moves along z with `u_z`: it tends to
`q n v_z`, `v_z = c u_z/gamma`. -/
theorem C69_uniform_current (s : Shape) (q : ℝ) (g : CylGrid) (dr dz : ℝ) (hg : BoxGrid g dr dz)
    (vol : ℕ → ℝ) (beta : Shape → ℕ → List ℝ) (hlen : ∀ s k, (beta s k).length = g.Nr + 1)
    (hbeta : beta s 0 = ruytenCoefs true s vol dr dz g.Nr)
    (pz Nt : ℕ) (hpz : 0 < pz) (hNt : 0 < Nt) (R : ℝ) (hRN : R ≤ g.Nr * dr) (n : ℝ) (hn : 0 < n)
    (shift : ℕ → ℝ → ℝ → ℝ) (uz ig c : ℝ) (nt : ℕ) (hnt : 0 < nt) :
    ∃ A : ℕ → Buf, (∀ N, depositAll .Jz c g beta 0 nt
        [evenPlasma s q g dz pz N Nt R (fun _ _ => n) (shift N) uz ig] = .ok (A N)) ∧
      ∀ iz j : ℕ, iz < g.Nz → ((j : ℝ) + 1 / 2 + halfWidth s) * dr ≤ R → vol j ≠ 0 →
        Tendsto (fun N => divideByVolume vol (A N) iz j) atTop (𝓝 ((q * n * (c * (uz * ig)) : ℝ) : ℂ)) := by
  have hex : ∀ N, ∃ A, depositAll .Jz c g beta 0 nt
      [evenPlasma s q g dz pz N Nt R (fun _ _ => n) (shift N) uz ig] = .ok A :=
    fun N => plasma_ok hg hpz .Jz c beta hlen 0 nt hnt
  choose A hA using hex
  refine ⟨A, hA, fun iz j hiz hjR hvol => ?_⟩
  have := uniform_aux hg hpz hNt .Jz (by simp [DepField.flip]) c beta hlen vol hbeta nt hnt n hn hRN shift A
    (fun N _ => hA N) iz j hiz hjR hvol
  rw [show q * n * (c * (uz * ig)) = amp .Jz c q uz ig * n by simp only [amp]; ring]
  exact this

/-- **C69** (without Ruyten shapes). With `use_ruyten_shapes=False` and the standard volumes the density in the cells
next to the axis is too large, by 13/12 for linear and by 1199/960 for cubic shapes, however many particles there are. -/
theorem C69_standard_axis (s : Shape) (q : ℝ) (g : CylGrid) (dr dz : ℝ) (hg : BoxGrid g dr dz)
    (vol : ℕ → ℝ) (beta : Shape → ℕ → List ℝ) (hlen : ∀ s k, (beta s k).length = g.Nr + 1)
    (hbeta : beta s 0 = ruytenCoefs false s vol dr dz g.Nr) (hvol : vol = stdVol dr dz)
    (pz Nt : ℕ) (hpz : 0 < pz) (hNt : 0 < Nt) (R : ℝ) (hRN : R ≤ g.Nr * dr) (n : ℝ) (hn : 0 < n)
    (hR : (1 / 2 + halfWidth s) * dr ≤ R)
    (shift : ℕ → ℝ → ℝ → ℝ) (uz ig c : ℝ) (nt : ℕ) (hnt : 0 < nt) :
    ∃ A : ℕ → Buf, (∀ N, depositAll .rho c g beta 0 nt
        [evenPlasma s q g dz pz N Nt R (fun _ _ => n) (shift N) uz ig] = .ok (A N)) ∧
      ∀ iz : ℕ, iz < g.Nz → Tendsto (fun N => divideByVolume vol (A N) iz 0) atTop
        (𝓝 (((match s with | .linear => 13 / 12 | .cubic => 1199 / 960) * (q * n) : ℝ) : ℂ)) := by
  have hex : ∀ N, ∃ A, depositAll .rho c g beta 0 nt
      [evenPlasma s q g dz pz N Nt R (fun _ _ => n) (shift N) uz ig] = .ok A :=
    fun N => plasma_ok hg hpz .rho c beta hlen 0 nt hnt
  choose A hA using hex
  refine ⟨A, hA, fun iz hiz => ?_⟩
  have hdr := hg.dr_pos
  have hdz := hg.dz_pos
  have hpi := Real.pi_pos
  have hw : 1 ≤ halfWidth s := by cases s <;> simp [halfWidth]
  have hR0 : 0 < R := lt_of_lt_of_le (by positivity) hR
  have hj1 : 0 + 1 < g.Nr := by
    have : (1 / 2 + 1) * dr ≤ g.Nr * dr := by nlinarith
    have := le_of_mul_le_mul_right this hdr
    have : (1 : ℝ) < g.Nr := by linarith
    exact_mod_cast this
  have hlim := plasma_limit (s := s) (q := q) (uz := uz) (ig := ig) hg (by omega) hpz hNt .rho
    (by simp [DepField.flip]) c beta hlen (fun _ => 0) rfl (fun k hk => by
      rw [hbeta]; unfold ruytenCoefs
      cases k with
      | zero => rfl
      | succ k =>
        simp only [List.getD_cons_succ, Bool.false_eq_true, if_false]
        rw [List.getD_eq_getElem?_getD, List.getElem?_map, List.getElem?_range (by omega)]
        rfl) nt hnt n hn hR0 hRN shift A (fun N _ => hA N) iz 0 hiz hj1
  have hmom := colW_moment_axis s (R / dr) (by rw [le_div_iff₀ hdr]; exact hR)
  simp only [Nat.cast_zero, zero_add] at hlim
  rw [hmom] at hlim
  have hv : vol 0 = Real.pi * dz * dr ^ 2 := by
    rw [hvol]; unfold stdVol; push_cast; ring
  have := hlim.mul_const (((1 / vol 0 : ℝ)) : ℂ)
  rw [← Complex.ofReal_mul] at this
  unfold divideByVolume
  convert this using 3
  rw [hv]
  cases s
  · simp only [amp]; field_simp; ring
  · simp only [amp]; field_simp; ring

/-! ### The hypotheses are met -/

/-- A box of 4 x 4 cells. -/
private noncomputable def exG : CylGrid := { invdz := 1 / 2, zmin := -1, Nz := 4, invdr := 1, rmin := 0, Nr := 4 }

private theorem exG_box : BoxGrid exG 1 2 :=
  ⟨by norm_num, by norm_num, by simp [exG], by simp [exG], rfl, by simp [exG]⟩

private theorem stdVol_ne (j : ℕ) : stdVol 1 2 j ≠ 0 := by
  unfold stdVol
  have : Real.pi * 2 * (((1 / 2 + (j : ℝ)) * 1 + 1 / 2 * 1) ^ 2 - ((1 / 2 + (j : ℝ)) * 1 - 1 / 2 * 1) ^ 2)
    = Real.pi * 2 * (2 * j + 1) := by ring
  simp only [this]
  have := Real.pi_pos
  positivity

/-- Electrons, 2 particles per cell along z and 4 in azimuth, cubic shape, standard volumes, plasma up to the edge
of the box: the density in the two cells next to the axis. -/
example : ∃ A : ℕ → Buf, ∀ iz j : ℕ, iz < 4 → j < 2 →
    Tendsto (fun N => divideByVolume (stdVol 1 2) (A N) iz j) atTop (𝓝 ((-1 * 5 : ℝ) : ℂ)) := by
  obtain ⟨A, -, h⟩ := C69_uniform_charge .cubic (-1) exG 1 2 exG_box (stdVol 1 2)
    (fun s _ => ruytenCoefs true s (stdVol 1 2) 1 2 4) (fun s k => by simp [exG, ruytenCoefs_length])
    rfl 2 4 (by norm_num) (by norm_num) 4 (by simp [exG]) 5 (by norm_num) (fun N z r => N * z + r) 0 1 1 3 (by norm_num)
  refine ⟨A, fun iz j hiz hj => h iz j hiz ?_ (stdVol_ne j)⟩
  have : (j : ℝ) + 1 ≤ 2 := by exact_mod_cast hj
  simp only [halfWidth]; linarith

/-- Mode 1 of a plasma of 4 particles per ring. -/
example : ∃ A, depositAll .rho 1 exG (fun _ _ => [0, 0, 0, 0, 0]) 1 2
    [evenPlasma .linear (-1) exG 2 2 3 4 4 (fun z r => z + r) (fun z r => z * r) 0 1] = .ok A ∧
      ∀ iz j, iz < exG.Nz → j < exG.Nr → A iz j = 0 :=
  C69_modes .linear (-1) exG 1 2 exG_box (by simp [exG]) 2 3 4 (by norm_num) (by norm_num) (by norm_num) 4
    (by norm_num) _ _ 0 1 .rho 1 _ (fun _ _ => by simp [exG]) 1 2 (by norm_num) (by decide)

end Fbpic
