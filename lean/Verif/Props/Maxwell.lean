import Verif.Props.Continuity

/-!
# C31: Gauss' law; C32: div B; C33: exact, energy conserving vacuum propagation;
C34: true charge density; C35: Galilean and comoving solver against the standard one
-/

namespace Fbpic

open Complex Spec

/-- Gauss' law for the fields and the charge density stored in a cell. -/
def SpecCell.Gauss (k : Consts) (kz kr : ℝ) (s : SpecCell) : Prop :=
  div kz kr s.em.E = s.rhoPrev / k.eps0

/-- Number of cells and wavenumbers agree. -/
def SpecGrid.SameShape (g g' : SpecGrid) : Prop :=
  g'.Nz = g.Nz ∧ g'.Nr = g.Nr ∧ g'.kz = g.kz ∧ g'.kr = g.kr

/-- `P` holds in every cell. -/
def SpecGrid.All (g : SpecGrid) (P : ℝ → ℝ → SpecCell → Prop) : Prop :=
  ∀ iz ir, iz < g.Nz → ir < g.Nr → P (g.kz iz) (g.kr ir) (g.cell iz ir)

/-- Any number of field pushes, starting from `g₀`; between two pushes the grid may be replaced by
one in relation `R` to it (new sources are deposited). -/
inductive FieldRun (k : Consts) (dt : ℝ) (V : Option ℝ) (useGalilean usePml useTrueRho : Bool)
    (R : SpecGrid → SpecGrid → Prop) (g₀ : SpecGrid) : SpecGrid → Prop
  | start : FieldRun k dt V useGalilean usePml useTrueRho R g₀ g₀
  | step {g g' : SpecGrid} : FieldRun k dt V useGalilean usePml useTrueRho R g₀ g → R g g' →
      FieldRun k dt V useGalilean usePml useTrueRho R g₀
        (g'.push k dt V useGalilean usePml useTrueRho)

/-! ### C34 -/

/-- **C34.** Where Gauss' law and the continuity equation of the scheme hold, the push with the
true charge density and the push that computes it from the fields give the same result. -/
theorem C34_true_rho (k : Consts) (hk : k.Ok) (kz kr dt : ℝ) (hdt : dt ≠ 0) (V : Option ℝ)
    (useGalilean usePml : Bool) (s : SpecCell) (hg : s.Gauss k kz kr)
    (hc : s.Conserving kz kr dt V useGalilean) :
    pushEBWith k kz kr (psatdCoefs k kz kr dt V useGalilean) usePml true s
      = pushEBWith k kz kr (psatdCoefs k kz kr dt V useGalilean) usePml false s := by
  have he : (k.eps0 : ℂ) ≠ 0 := by exact_mod_cast hk.eps0_pos.ne'
  unfold SpecCell.Conserving at hc
  rw [continuity_iff kz kr dt hdt] at hc
  have hg' : (k.eps0 : ℂ) * (kr * (s.Ep - s.Em) + I * kz * s.Ez) = s.rhoPrev := by
    have : (kr : ℂ) * (s.Ep - s.Em) + I * kz * s.Ez = s.rhoPrev / k.eps0 := hg
    rw [this]; field_simp
  have key : ∀ a b c d : ℂ, (a * b - c) * k.eps0 * (kr * (s.Ep - s.Em) + I * kz * s.Ez) + d
      = (a * b - c) * s.rhoPrev + d := by
    intro a b c d; rw [← hg']; ring
  match V with
  | none =>
    have hc' : s.rhoNext = s.rhoPrev - dt * (kr * (s.Jp - s.Jm) + I * kz * s.Jz) := by
      simp only [TebOf, TrhoOf, SpecCell.J, div] at hc
      linear_combination hc
    have e : ∀ a c : ℂ, a * s.rhoNext - c * s.rhoPrev
        = (a - c) * k.eps0 * (kr * (s.Ep - s.Em) + I * kz * s.Ez)
          - a * dt * (kr * (s.Jp - s.Jm) + I * kz * s.Jz) := by
      intro a c; rw [hc']; linear_combination -(a - c) * hg'
    cases usePml <;>
    simp only [pushEBWith, psatdCoefs, Option.map_none, pushEBStandard, pushPmlStandard, e,
      Bool.false_eq_true, if_false, if_true]
  | some v =>
    have hc' : s.rhoNext = coefTeb kz dt v useGalilean * s.rhoPrev
        + coefTrho kz dt v useGalilean * (kr * (s.Jp - s.Jm) + I * kz * s.Jz) := by
      simp only [TebOf, TrhoOf, SpecCell.J, div] at hc
      linear_combination hc
    have e : ∀ a c : ℂ, a * s.rhoNext - c * s.rhoPrev
        = (coefTeb kz dt v useGalilean * a - c) * k.eps0 * (kr * (s.Ep - s.Em) + I * kz * s.Ez)
          + coefTrho kz dt v useGalilean * a * (kr * (s.Jp - s.Jm) + I * kz * s.Jz) := by
      intro a c; rw [hc']; linear_combination -(coefTeb kz dt v useGalilean * a - c) * hg'
    cases usePml <;>
    simp only [pushEBWith, psatdCoefs, Option.map_some, pushEBComoving, pushPmlComoving, e,
      Bool.false_eq_true, if_false, if_true]

/-- The hypotheses of `C34_true_rho` (and of `C31_gauss`) can be met with non-zero charge, current
and drift: `kz = kr = 1`, all constants 1, `rho_prev = 1`, `rho_next = 0`, `div J = 1 / dt`. -/
example : ∃ s : SpecCell, s.Gauss ⟨1, 1, 1⟩ 1 1 ∧ s.Conserving 1 1 2 none false ∧
    s.rhoPrev = 1 ∧ s.rhoNext = 0 :=
  ⟨⟨1, 0, 0, 5, 0, 0, 1/2, 0, 0, 1, 0, 0, 0, 0, 0, 0, 0⟩, by simp [SpecCell.Gauss, SpecCell.em, div],
    by simp [SpecCell.Conserving, schemeOf, Scheme.Continuity, SpecCell.J, div]; norm_num, rfl, rfl⟩

/-! ### C31 -/

private theorem div_push {k : Consts} (hk : k.Ok) {kz kr dt : ℝ} {V : Option ℝ} (b usePml : Bool)
    (hreg : Regular k kz dt V) (s : SpecCell) :
    (¬ (kz = 0 ∧ kr = 0) →
      div kz kr (pushEBWith k kz kr (psatdCoefs k kz kr dt V b) usePml false s).em.E
        = TebOf kz dt V b * div kz kr s.em.E
          + k.c ^ 2 * k.mu0 * TrhoOf kz dt V b * div kz kr s.J) ∧
    ∃ a : ℂ, div kz kr (pushEBWith k kz kr (psatdCoefs k kz kr dt V b) usePml false s).em.B
        = a * div kz kr s.em.B := by
  obtain ⟨C, S, j, b', r1, r2, h⟩ := exists_closed hk (kr := kr) b hreg
  rw [push_closed h usePml s]
  constructor
  · intro hne
    rw [(div_closed _ _ _ _ _ _ _ _ _ _ _ _ _).1, (h.gauss hne dt).1, (h.gauss hne dt).2, Trho_eq]
    simp only [div, SpecCell.J]
    ring
  · exact ⟨_, (div_closed _ _ _ _ _ _ _ _ _ _ _ _ _).2⟩

/-- **C31** (one step): if Gauss' law holds before the step and the sources satisfy the continuity
equation of the scheme, Gauss' law holds after it with the new charge density, at every wavenumber,
for every time step (also far above any Courant limit), with and without PML, with and without true
charge density. -/
theorem C31_gauss (k : Consts) (hk : k.Ok) (g : SpecGrid) (dt : ℝ) (V : Option ℝ)
    (useGalilean usePml useTrueRho : Bool) (iz ir : ℕ) (hz : iz < g.Nz) (hr : ir < g.Nr)
    (hreg : Regular k (g.kz iz) dt V)
    (hc : (g.cell iz ir).Conserving (g.kz iz) (g.kr ir) dt V useGalilean)
    (hg : (g.cell iz ir).Gauss k (g.kz iz) (g.kr ir)) :
    ((g.push k dt V useGalilean usePml useTrueRho).cell iz ir).Gauss k (g.kz iz) (g.kr ir) ∧
    ((g.push k dt V useGalilean usePml useTrueRho).cell iz ir).rhoPrev
      = (g.cell iz ir).rhoNext := by
  rw [push_cell _ _ _ _ _ _ _ hz hr]
  set s := g.cell iz ir
  set kz := g.kz iz
  set kr := g.kr ir
  refine ⟨?_, (pushEBWith_sources _ _ _ _ _ _ s).2.2⟩
  have ht : pushEBWith k kz kr (psatdCoefs k kz kr dt V useGalilean) usePml useTrueRho s
      = pushEBWith k kz kr (psatdCoefs k kz kr dt V useGalilean) usePml false s := by
    cases useTrueRho
    · rfl
    · exact C34_true_rho k hk kz kr dt hreg.1 V useGalilean usePml s hg hc
  rw [ht]
  unfold SpecCell.Gauss at *
  rw [pushRho_em, show (pushRho (pushEBWith k kz kr (psatdCoefs k kz kr dt V useGalilean) usePml
    false s)).rhoPrev = s.rhoNext from (pushEBWith_sources _ _ _ _ _ _ s).2.2]
  have hc' := (continuity_iff kz kr dt hreg.1 V useGalilean _ _ _).1 hc
  have he : (k.eps0 : ℂ) ≠ 0 := by exact_mod_cast hk.eps0_pos.ne'
  by_cases hne : kz = 0 ∧ kr = 0
  · obtain ⟨h1, h2⟩ := hne
    have hd : ∀ F : V3, div kz kr F = 0 := by intro F; simp [div, h1, h2]
    rw [hd] at hg hc' ⊢
    rw [eq_comm, div_eq_zero_iff] at hg
    have hp := hg.resolve_right he
    rw [hp] at hc'
    rw [show s.rhoNext = 0 by linear_combination hc']
    simp
  · rw [(div_push hk useGalilean usePml hreg s).1 hne, hg]
    have hm : (k.c : ℂ) ^ 2 * k.mu0 = 1 / k.eps0 := by
      have : (k.mu0 * k.eps0 * k.c ^ 2 : ℂ) = 1 := by exact_mod_cast hk.rel
      field_simp; linear_combination this
    rw [mul_assoc (_ * _), ← hc', hm]
    field_simp
    ring

/-- Deposition of new sources between two pushes of a charge conserving run: the fields and the
charge density at the beginning of the step stay, the continuity equation holds. -/
def ConservingStep (dt : ℝ) (V : Option ℝ) (useGalilean : Bool) (g g' : SpecGrid) : Prop :=
  g.SameShape g' ∧ (∀ iz ir, (g'.cell iz ir).em = (g.cell iz ir).em ∧
    (g'.cell iz ir).rhoPrev = (g.cell iz ir).rhoPrev) ∧
  g'.All fun kz kr s => s.Conserving kz kr dt V useGalilean

/-- **C31** (any number of steps). -/
theorem C31_run (k : Consts) (hk : k.Ok) (dt : ℝ) (V : Option ℝ)
    (useGalilean usePml useTrueRho : Bool) (g₀ g : SpecGrid)
    (hreg : ∀ iz, iz < g₀.Nz → Regular k (g₀.kz iz) dt V)
    (hg : g₀.All fun kz kr s => s.Gauss k kz kr)
    (hrun : FieldRun k dt V useGalilean usePml useTrueRho (ConservingStep dt V useGalilean) g₀ g) :
    g₀.SameShape g ∧ g.All fun kz kr s => s.Gauss k kz kr := by
  induction hrun with
  | start => exact ⟨⟨rfl, rfl, rfl, rfl⟩, hg⟩
  | @step g1 g2 _ hR ih =>
    obtain ⟨⟨a1, a2, a3, a4⟩, hG⟩ := ih
    obtain ⟨⟨b1, b2, b3, b4⟩, hem, hcons⟩ := hR
    refine ⟨⟨by rw [← a1, ← b1]; rfl, by rw [← a2, ← b2]; rfl, by rw [← a3, ← b3]; rfl,
      by rw [← a4, ← b4]; rfl⟩, ?_⟩
    intro iz ir hz hr
    have hz' : iz < g2.Nz := hz
    have hr' : ir < g2.Nr := hr
    refine (C31_gauss k hk g2 dt V useGalilean usePml useTrueRho iz ir hz' hr' ?_
      (hcons iz ir hz' hr') ?_).1
    · rw [b3, a3]; exact hreg iz (by rw [← a1, ← b1]; exact hz')
    · have := hG iz ir (by rw [← b1]; exact hz') (by rw [← b2]; exact hr')
      unfold SpecCell.Gauss at *
      rw [(hem iz ir).1, (hem iz ir).2, b3, b4]
      exact this

/-- **C31** (with the curl-free current correction): whatever is deposited, at every non-zero
wavenumber correction and push together preserve Gauss' law. -/
theorem C31_corrected (k : Consts) (hk : k.Ok) (g : SpecGrid) (dt : ℝ) (V : Option ℝ)
    (useGalilean usePml useTrueRho : Bool) (iz ir : ℕ) (hz : iz < g.Nz) (hr : ir < g.Nr)
    (hreg : Regular k (g.kz iz) dt V) (hne : g.kz iz ≠ 0 ∨ g.kr ir ≠ 0)
    (hg : (g.cell iz ir).Gauss k (g.kz iz) (g.kr ir)) :
    (((g.correctCurrents k .curlFree dt V useGalilean).push k dt V useGalilean usePml
      useTrueRho).cell iz ir).Gauss k (g.kz iz) (g.kr ir) := by
  obtain ⟨h1, h2, h3, h4⟩ := C30_curl_free k g dt V useGalilean iz ir hz hr hreg hne
  refine (C31_gauss k hk (g.correctCurrents k .curlFree dt V useGalilean) dt V useGalilean usePml
    useTrueRho iz ir hz hr hreg h1 ?_).1
  unfold SpecCell.Gauss at *
  rw [h4, h2]
  exact hg

/-- The hypothesis `Regular` of these theorems always holds up to twice the usual Courant limit:
`|kz| ≤ pi / dz` on a grid of cell size `dz`, `|V| < c` and `c dt ≤ 2 dz`. -/
theorem C31_regular (k : Consts) (kz dz dt v : ℝ) (hdz : 0 < dz) (hkz : |kz| ≤ Real.pi / dz)
    (hv : |v| < k.c) (hdt : 0 < dt) (hcfl : k.c * dt ≤ 2 * dz) : Regular k kz dt (some v) := by
  refine regular_of_lt hdt.ne' hv ?_
  rw [abs_mul, abs_mul, abs_of_pos hdt]
  have h1 : |kz| * dz ≤ Real.pi := by rwa [le_div_iff₀ hdz] at hkz
  have h2 : |v| * dt < 2 * dz := lt_of_lt_of_le (mul_lt_mul_of_pos_right hv hdt) hcfl
  have hp := Real.pi_pos
  rcases (abs_nonneg kz).eq_or_lt with h0 | h0
  · rw [← h0]; linarith
  · calc |kz| * |v| * dt = |kz| * (|v| * dt) := by ring
      _ < |kz| * (2 * dz) := mul_lt_mul_of_pos_left h2 h0
      _ = 2 * (|kz| * dz) := by ring
      _ ≤ 2 * Real.pi := by linarith

/-- At a resonance of a moving-current solver (here `kz V dt = 2 pi`, with a time step far above
the Courant limit) the coefficients are not those of the exact solution, and Gauss' law is lost in
one step, so the restriction of the previous theorems is needed. -/
theorem C31_resonance : ∃ (k : Consts) (kz kr dt v : ℝ) (s : SpecCell), k.Ok ∧ |v| < k.c ∧
    dt ≠ 0 ∧ kz * v * dt = 2 * Real.pi ∧ s.Gauss k kz kr ∧ s.Conserving kz kr dt (some v) true ∧
    ¬ (pushRho (pushEBWith k kz kr (psatdCoefs k kz kr dt (some v) true) false false s)).Gauss
      k kz kr := by
  have hpi := Real.pi_pos
  refine ⟨⟨1, 1, 1⟩, 1, 1, 4 * Real.pi, 1 / 2,
    ⟨1, 0, 0, 0, 0, 0, 0, 0, 0, 1, 1, 0, 0, 0, 0, 0, 0⟩, ⟨by norm_num, by norm_num, by norm_num,
    by norm_num⟩, by rw [abs_of_pos] <;> norm_num, by positivity, by ring, ?_, ?_, ?_⟩
  · simp [SpecCell.Gauss, SpecCell.em, div]
  · unfold SpecCell.Conserving
    rw [continuity_iff _ _ _ (by positivity)]
    have : coefT2 1 (4 * Real.pi) (1 / 2) = 1 := by
      rw [coefT2, ← exp_two_pi_mul_I]; congr 1; push_cast; ring
    rw [one_div] at this
    simp [TebOf, coefTeb, this, SpecCell.J, div]
  · have hT : coefT2 1 (4 * Real.pi) (1 / 2) = 1 := by
      rw [coefT2, ← exp_two_pi_mul_I]; congr 1; push_cast; ring
    have hw2 : omega ⟨1, 1, 1⟩ 1 1 ^ 2 = 2 := by
      simp only [omega, one_mul]; rw [Real.sq_sqrt] <;> norm_num
    have hw : omega ⟨1, 1, 1⟩ 1 1 ≠ 0 := by intro h; rw [h] at hw2; norm_num at hw2
    have hC : coefC ⟨1, 1, 1⟩ 1 1 (4 * Real.pi) ≠ 1 := by
      intro h
      rw [coefC, Real.cos_eq_one_iff] at h
      obtain ⟨n, hn⟩ := h
      have h2 : (n : ℝ) = 2 * omega ⟨1, 1, 1⟩ 1 1 := by
        have : (n : ℝ) * (2 * Real.pi) = 2 * omega ⟨1, 1, 1⟩ 1 1 * (2 * Real.pi) := by
          rw [hn]; ring
        exact mul_right_cancel₀ (by positivity) this
      have h3 : ((n ^ 2 : ℤ) : ℝ) = (8 : ℤ) := by
        push_cast; rw [h2, mul_pow, hw2]; norm_num
      have h4 : n ^ 2 = 8 := by exact_mod_cast h3
      have h5 : n < 3 := by nlinarith
      have h6 : -3 < n := by nlinarith
      interval_cases n <;> omega
    intro hg
    unfold SpecCell.Gauss at hg
    simp only [pushRho, pushEBWith, psatdCoefs, Option.map_some, pushEBComoving, SpecCell.em, div,
      coefTeb, if_true, hT, Bool.false_eq_true, if_false, coefRhoNext, hw, coefRhoPrev, noDrift,
      Option.getD_some, xi2, xi3, inv1T2, invWkzV, hw2, invOmega, reduceCtorEq, Option.some.injEq,
      false_or, one_div, inv_eq_zero, OfNat.ofNat_ne_zero, ne_eq, one_ne_zero, not_false_eq_true]
      at hg
    norm_num at hg
    simp only [hT, if_true] at hg
    apply hC
    have : (coefC ⟨1, 1, 1⟩ 1 1 (4 * Real.pi) : ℂ) = 1 := by
      linear_combination (-7 : ℂ) * hg
        - 4 * (1 - (coefC ⟨1, 1, 1⟩ 1 1 (4 * Real.pi) : ℂ)) * I_sq
    exact_mod_cast this

/-! ### C32 -/

theorem divB_push (k : Consts) (kz kr dt : ℝ) (V : Option ℝ) (b usePml useTrueRho : Bool)
    (s : SpecCell) :
    div kz kr (pushEBWith k kz kr (psatdCoefs k kz kr dt V b) usePml useTrueRho s).em.B
      = TebOf kz dt V b * coefC k kz kr dt * div kz kr s.em.B := by
  match V with
  | none =>
    cases usePml <;>
    · simp only [pushEBWith, psatdCoefs, Option.map_none, pushEBStandard, pushPmlStandard,
        Bool.false_eq_true, if_false, if_true, SpecCell.em, div, TebOf]
      linear_combination (-coefSw k kz kr dt * kr * kz * (s.Ep + s.Em)
        + coefJ k kz kr dt none b * kr * kz * (s.Jp + s.Jm)) * I_sq
  | some v =>
    cases usePml <;>
    · simp only [pushEBWith, psatdCoefs, Option.map_some, pushEBComoving, pushPmlComoving,
        Bool.false_eq_true, if_false, if_true, SpecCell.em, div, TebOf]
      linear_combination (-coefTeb kz dt v b * coefSw k kz kr dt * kr * kz * (s.Ep + s.Em)
        + coefJ k kz kr dt (some v) b * kr * kz * (s.Jp + s.Jm)) * I_sq

/-- **C32** (one step): a divergence-free magnetic field stays divergence free, for arbitrary
sources, every scheme (no restriction on the drift velocity), time step and option. -/
theorem C32_divB (k : Consts) (g : SpecGrid) (dt : ℝ) (V : Option ℝ)
    (useGalilean usePml useTrueRho : Bool)
    (h : g.All fun kz kr s => div kz kr s.em.B = 0) :
    (g.push k dt V useGalilean usePml useTrueRho).All fun kz kr s => div kz kr s.em.B = 0 := by
  intro iz ir hz hr
  rw [push_cell _ _ _ _ _ _ _ (by exact hz) (by exact hr), pushRho_em]
  show div (g.kz iz) (g.kr ir) _ = 0
  rw [divB_push, h iz ir hz hr, mul_zero]

/-- New sources of any kind, charge conserving or not: only the magnetic field is kept. -/
def AnySources (g g' : SpecGrid) : Prop :=
  g.SameShape g' ∧ ∀ iz ir, (g'.cell iz ir).em.B = (g.cell iz ir).em.B

/-- **C32** (any number of steps). -/
theorem C32_run (k : Consts) (dt : ℝ) (V : Option ℝ) (useGalilean usePml useTrueRho : Bool)
    (g₀ g : SpecGrid) (h : g₀.All fun kz kr s => div kz kr s.em.B = 0)
    (hrun : FieldRun k dt V useGalilean usePml useTrueRho AnySources g₀ g) :
    g.All fun kz kr s => div kz kr s.em.B = 0 := by
  induction hrun with
  | start => exact h
  | @step g1 g2 _ hR ih =>
    obtain ⟨⟨b1, b2, b3, b4⟩, hem⟩ := hR
    apply C32_divB
    intro iz ir hz hr
    have := ih iz ir (by rw [← b1]; exact hz) (by rw [← b2]; exact hr)
    rw [hem iz ir, b3, b4]
    exact this

example : ∃ s : SpecCell, div 1 1 s.em.B = 0 ∧ s.Bz = 1 ∧ s.Jp = 1 ∧ s.rhoNext = 5 :=
  ⟨⟨1, 0, 0, 0, I, 1, 1, 0, 0, 1, 5, 0, 0, 0, 0, 0, 0⟩, by simp [SpecCell.em, div], rfl, rfl, rfl⟩

/-! ### C33 -/

/-- **C33** (exactness, also with sources): one push gives the value at `dt` of the solution of
Maxwell's equations with the initial fields, for the current assumed by the scheme (constant on the
grid, constant on the moving grid, or comoving), at every wavenumber and for every time step. -/
theorem C33_exact (k : Consts) (hk : k.Ok) (g : SpecGrid) (dt : ℝ) (V : Option ℝ)
    (useGalilean usePml : Bool) (iz ir : ℕ) (hz : iz < g.Nz) (hr : ir < g.Nr)
    (hreg : Regular k (g.kz iz) dt V) (hB : div (g.kz iz) (g.kr ir) (g.cell iz ir).em.B = 0)
    (f : ℝ → EM) (hf : IsMaxwell k.c k.mu0 (g.kz iz) (g.kr ir) (schemeOf V useGalilean).gridVelocity
      ((schemeOf V useGalilean).current (g.kz iz) dt (g.cell iz ir).J) f)
    (h0 : f 0 = (g.cell iz ir).em) :
    ((g.push k dt V useGalilean usePml false).cell iz ir).em = f dt := by
  rw [push_cell _ _ _ _ _ _ _ hz hr, pushRho_em]
  set s := g.cell iz ir
  set kz := g.kz iz
  set kr := g.kr ir
  obtain ⟨C, S, j, b', r1, r2, h⟩ := exists_closed hk (kr := kr) useGalilean hreg
  rw [push_closed h usePml s]
  have hB' : div kz kr (f 0).B = 0 := by rw [h0]; exact hB
  have key := exact_of_closed hk h.ode h.init (dt := dt)
    (Vg := (schemeOf V useGalilean).gridVelocity)
    ⟨TccOf kz dt V useGalilean * s.Jp, TccOf kz dt V useGalilean * s.Jm,
      TccOf kz dt V useGalilean * s.Jz⟩
    ((schemeOf V useGalilean).current kz dt s.J) ?_ f hf hB'
  · rw [key, h0]
    congr 1
    match V, useGalilean with
    | none, _ => simp [TebOf, schemeOf, Scheme.gridVelocity]
    | some v, true => simp [TebOf, schemeOf, Scheme.gridVelocity, coefTeb, coefT2]
    | some v, false => simp [TebOf, schemeOf, Scheme.gridVelocity, coefTeb]
  · intro t
    match V, useGalilean with
    | none, _ => simp [TccOf, schemeOf, Scheme.gridVelocity, Scheme.current, SpecCell.J]
    | some v, true =>
      have : exp (I * kz * v * t) * exp (-(I * kz * v * t)) = 1 := by
        rw [← exp_add]; simp
      simp [TccOf, schemeOf, Scheme.gridVelocity, Scheme.current, coefTcc, SpecCell.J, ← mul_assoc,
        this]
    | some v, false =>
      have : exp (-(I * kz * v * (t - dt / 2))) = exp (-(I * ((kz * v : ℝ) : ℂ) * t))
          * exp (I * 0.5 * kz * v * dt) := by
        rw [← exp_add]; congr 1; push_cast; ring
      simp only [TccOf, schemeOf, Scheme.gridVelocity, Scheme.current, coefTcc, SpecCell.J, this,
        Option.getD_some, Bool.false_eq_true, if_false, ofReal_zero, mul_zero, zero_mul, exp_zero,
        one_mul]
      simp only [mul_assoc]

/-- **C33** (the solution exists): whatever the initial fields and the current at the middle of the step are, Maxwell's
equations with the current assumed by the scheme have a solution, so that `C33_exact` speaks about every step. -/
theorem C33_solution (k : Consts) (hk : k.Ok) (kz kr dt : ℝ) (V : Option ℝ) (useGalilean : Bool)
    (hreg : Regular k kz dt V) (J : V3) (f₀ : EM) (hB : div kz kr f₀.B = 0) :
    ∃ f : ℝ → EM, IsMaxwell k.c k.mu0 kz kr (schemeOf V useGalilean).gridVelocity
      ((schemeOf V useGalilean).current kz dt J) f ∧ f 0 = f₀ := by
  obtain ⟨C, S, j, b', r1, r2, h⟩ := exists_closed hk (kr := kr) useGalilean hreg
  have h1 := (isMaxwell_closed h.ode f₀.E f₀.B ⟨TccOf kz dt V useGalilean * J.p, TccOf kz dt V useGalilean * J.m,
      TccOf kz dt V useGalilean * J.z⟩ hB).toMoving (V := (schemeOf V useGalilean).gridVelocity)
  refine ⟨fun t => EM.smul (exp (I * kz * (schemeOf V useGalilean).gridVelocity * t))
    (closed k.c kz kr (C t) (S t) (j t) (b' t) (r1 t) (r2 t) f₀.E f₀.B ⟨TccOf kz dt V useGalilean * J.p,
      TccOf kz dt V useGalilean * J.m, TccOf kz dt V useGalilean * J.z⟩), ?_, ?_⟩
  · convert h1 using 1
    funext t
    match V, useGalilean with
    | none, _ => simp [TccOf, schemeOf, Scheme.gridVelocity, Scheme.current]
    | some v, true =>
      have : exp (I * kz * v * t) * exp (-(I * kz * v * t)) = 1 := by
        rw [← exp_add]; simp
      simp [TccOf, schemeOf, Scheme.gridVelocity, Scheme.current, coefTcc, ← mul_assoc, this]
    | some v, false =>
      have : exp (-(I * kz * v * (t - dt / 2))) = exp (-(I * ((kz * v : ℝ) : ℂ) * t))
          * exp (I * 0.5 * kz * v * dt) := by
        rw [← exp_add]; congr 1; push_cast; ring
      simp only [TccOf, schemeOf, Scheme.gridVelocity, Scheme.current, coefTcc, this,
        Option.getD_some, Bool.false_eq_true, if_false, ofReal_zero, mul_zero, zero_mul, exp_zero,
        one_mul]
      simp only [mul_assoc]
  · obtain ⟨a1, a2, a3, a4, a5, a6⟩ := h.init
    simp [closed, EM.smul, grad, a1, a2, a3, a4, a5, a6]

/-- No sources, and transverse fields. -/
def SpecCell.Vacuum (kz kr : ℝ) (s : SpecCell) : Prop :=
  s.J = ⟨0, 0, 0⟩ ∧ s.rhoPrev = 0 ∧ s.rhoNext = 0 ∧ div kz kr s.em.E = 0 ∧ div kz kr s.em.B = 0

private theorem vacuum_push {k : Consts} {g : SpecGrid} (h : g.All SpecCell.Vacuum) (dt : ℝ)
    (V : Option ℝ) (b usePml useTrueRho : Bool) {iz ir : ℕ} (hz : iz < g.Nz) (hr : ir < g.Nr) :
    ((g.push k dt V b usePml useTrueRho).cell iz ir).em
      = (freeStep k.c (g.kz iz) (g.kr ir) (coefC k (g.kz iz) (g.kr ir) dt)
          (coefSw k (g.kz iz) (g.kr ir) dt) (g.cell iz ir).em).smul (TebOf (g.kz iz) dt V b) := by
  obtain ⟨h1, h2, h3, h4, -⟩ := h iz ir hz hr
  rw [push_cell _ _ _ _ _ _ _ hz hr, pushRho_em, pushEBWith_vacuum V b usePml useTrueRho _ h1 h2 h3
    h4]

/-- **C33**: without sources the fields stay transverse (and no source appears). -/
theorem C33_vacuum (k : Consts) (g : SpecGrid) (h : g.All SpecCell.Vacuum) (dt : ℝ) (V : Option ℝ)
    (useGalilean usePml useTrueRho : Bool) :
    (g.push k dt V useGalilean usePml useTrueRho).All SpecCell.Vacuum := by
  intro iz ir hz hr
  have hz' : iz < g.Nz := hz
  have hr' : ir < g.Nr := hr
  obtain ⟨h1, h2, h3, h4, h5⟩ := h iz ir hz' hr'
  have hem := vacuum_push (k := k) h dt V useGalilean usePml useTrueRho hz' hr'
  have hd := div_freeStep k.c (g.kz iz) (g.kr ir) (coefC k (g.kz iz) (g.kr ir) dt)
    (coefSw k (g.kz iz) (g.kr ir) dt) (TebOf (g.kz iz) dt V useGalilean) (g.cell iz ir).em
  refine ⟨?_, ?_, ?_, ?_, ?_⟩
  · rw [push_cell _ _ _ _ _ _ _ hz' hr']
    exact ((pushEBWith_sources _ _ _ _ _ _ _).1).trans h1
  · rw [push_cell _ _ _ _ _ _ _ hz' hr']
    exact ((pushEBWith_sources _ _ _ _ _ _ _).2.2).trans h3
  · rw [push_cell _ _ _ _ _ _ _ hz' hr']; rfl
  · rw [hem]; exact hd.1.trans (by rw [h4, mul_zero])
  · rw [hem]; exact hd.2.trans (by rw [h5, mul_zero])

/-- **C33** (two steps are one): pushing by `dt1` and then by `dt2` gives the same fields as one
push by `dt1 + dt2`, for all (also negative) time steps. -/
theorem C33_semigroup (k : Consts) (hk : k.Ok) (g : SpecGrid) (h : g.All SpecCell.Vacuum)
    (dt1 dt2 : ℝ) (V : Option ℝ) (useGalilean usePml useTrueRho : Bool) (iz ir : ℕ)
    (hz : iz < g.Nz) (hr : ir < g.Nr) :
    (((g.push k dt1 V useGalilean usePml useTrueRho).push k dt2 V useGalilean usePml
      useTrueRho).cell iz ir).em
      = ((g.push k (dt1 + dt2) V useGalilean usePml useTrueRho).cell iz ir).em := by
  have h' := C33_vacuum k g h dt1 V useGalilean usePml useTrueRho
  obtain ⟨-, -, -, h4, h5⟩ := h iz ir hz hr
  rw [vacuum_push h' dt2 V _ _ _ (by exact hz) (by exact hr),
    vacuum_push h dt1 V _ _ _ hz hr, vacuum_push h _ V _ _ _ hz hr]
  show ((freeStep k.c (g.kz iz) (g.kr ir) (coefC k (g.kz iz) (g.kr ir) dt2)
    (coefSw k (g.kz iz) (g.kr ir) dt2) _).smul (TebOf (g.kz iz) dt2 V useGalilean)) = _
  rw [freeStep_comp _ _ _ _ _ _ _ _ _ _ h4 h5, TebOf_add, (coefC_add k hk _ _ _ _).1,
    (coefC_add k hk _ _ _ _).2]
  push_cast
  rfl

/-- **C33** (reversibility): a push by `-dt` undoes a push by `dt`. -/
theorem C33_inverse (k : Consts) (hk : k.Ok) (g : SpecGrid) (h : g.All SpecCell.Vacuum)
    (dt : ℝ) (V : Option ℝ) (useGalilean usePml useTrueRho : Bool) (iz ir : ℕ)
    (hz : iz < g.Nz) (hr : ir < g.Nr) :
    (((g.push k dt V useGalilean usePml useTrueRho).push k (-dt) V useGalilean usePml
      useTrueRho).cell iz ir).em = (g.cell iz ir).em := by
  rw [C33_semigroup k hk g h dt (-dt) V useGalilean usePml useTrueRho iz ir hz hr,
    vacuum_push h _ V _ _ _ hz hr]
  have hT : TebOf (g.kz iz) (dt + -dt) V useGalilean = 1 := by
    cases V <;> cases useGalilean <;> simp [TebOf, coefTeb, coefT2]
  rw [hT]
  simp [coefC, coefSw, freeStep, EM.smul]

/-- Pushes with the time steps of a list, one after the other. -/
noncomputable def pushes (k : Consts) (V : Option ℝ) (useGalilean usePml useTrueRho : Bool)
    (dts : List ℝ) (g : SpecGrid) : SpecGrid :=
  dts.foldl (fun g dt => g.push k dt V useGalilean usePml useTrueRho) g

private theorem pushes_vacuum (k : Consts) (hk : k.Ok) (V : Option ℝ)
    (useGalilean usePml useTrueRho : Bool) (dts : List ℝ) :
    ∀ (g : SpecGrid), g.All SpecCell.Vacuum → ∀ iz ir, iz < g.Nz → ir < g.Nr →
    energy k.c ((pushes k V useGalilean usePml useTrueRho dts g).cell iz ir).em
      = energy k.c (g.cell iz ir).em := by
  induction dts with
  | nil => intro g _ iz ir _ _; rfl
  | cons dt dts ih =>
    intro g h iz ir hz hr
    have h1 := ih (g.push k dt V useGalilean usePml useTrueRho)
      (C33_vacuum k g h dt V useGalilean usePml useTrueRho) iz ir hz hr
    rw [show pushes k V useGalilean usePml useTrueRho (dt :: dts) g
      = pushes k V useGalilean usePml useTrueRho dts (g.push k dt V useGalilean usePml useTrueRho)
      from rfl, h1, vacuum_push h _ _ _ _ _ hz hr]
    obtain ⟨-, -, -, h4, h5⟩ := h iz ir hz hr
    exact energy_freeStep hk _ _ _ _ (normSq_Teb _ _ _ _) _ h4 h5

/-- **C33** (energy and stability): for any number of steps of any sizes (no Courant condition) the
electromagnetic energy at each wavenumber is exactly conserved, so no field component can exceed
the bound given by the initial energy. -/
theorem C33_energy (k : Consts) (hk : k.Ok) (g : SpecGrid) (h : g.All SpecCell.Vacuum)
    (V : Option ℝ) (useGalilean usePml useTrueRho : Bool) (dts : List ℝ) (iz ir : ℕ)
    (hz : iz < g.Nz) (hr : ir < g.Nr) :
    let f := ((pushes k V useGalilean usePml useTrueRho dts g).cell iz ir).em
    energy k.c f = energy k.c (g.cell iz ir).em ∧
    (2 * Complex.normSq f.E.p ≤ energy k.c (g.cell iz ir).em ∧
      2 * Complex.normSq f.E.m ≤ energy k.c (g.cell iz ir).em ∧
      Complex.normSq f.E.z ≤ energy k.c (g.cell iz ir).em ∧
      2 * k.c ^ 2 * Complex.normSq f.B.p ≤ energy k.c (g.cell iz ir).em ∧
      2 * k.c ^ 2 * Complex.normSq f.B.m ≤ energy k.c (g.cell iz ir).em ∧
      k.c ^ 2 * Complex.normSq f.B.z ≤ energy k.c (g.cell iz ir).em) := by
  intro f
  have he := pushes_vacuum k hk V useGalilean usePml useTrueRho dts g h iz ir hz hr
  refine ⟨he, ?_⟩
  rw [← he]
  show _ ≤ energy k.c f ∧ _
  unfold energy Spec.normSq
  have hc : 0 ≤ k.c ^ 2 := sq_nonneg _
  have e1 := Complex.normSq_nonneg f.E.p
  have e2 := Complex.normSq_nonneg f.E.m
  have e3 := Complex.normSq_nonneg f.E.z
  have b1 := mul_nonneg hc (Complex.normSq_nonneg f.B.p)
  have b2 := mul_nonneg hc (Complex.normSq_nonneg f.B.m)
  have b3 := mul_nonneg hc (Complex.normSq_nonneg f.B.z)
  refine ⟨?_, ?_, ?_, ?_, ?_, ?_⟩ <;> nlinarith

/-- A vacuum state with non-zero fields (a laser of wavenumber `kz = kr = 1`). -/
example : ∃ s : SpecCell, s.Vacuum 1 1 ∧ s.Ez = 1 ∧ s.Bz = 2 :=
  ⟨⟨0, I, 1, 0, 2 * I, 2, 0, 0, 0, 0, 0, 0, 0, 0, 0, 0, 0⟩, by
    refine ⟨rfl, rfl, rfl, ?_, ?_⟩ <;> simp [SpecCell.em, div] <;> ring, rfl, rfl⟩

/-! ### C35 -/

/-- **C35** (`V = 0`): with zero velocity the comoving and the Galilean solver are the standard
solver: same current correction and same push, for all grids and options. -/
theorem C35_zero_velocity (k : Consts) (g : SpecGrid) (dt : ℝ) (m : CurrentCorrection)
    (useGalilean useGalilean' usePml useTrueRho : Bool) :
    g.correctCurrents k m dt (some 0) useGalilean = g.correctCurrents k m dt none useGalilean' ∧
    g.push k dt (some 0) useGalilean usePml useTrueRho
      = g.push k dt none useGalilean' usePml useTrueRho := by
  have hT : ∀ kz : ℝ, coefTeb kz dt 0 useGalilean = 1 := by intro kz; simp [coefTeb, coefT2]
  have hc : ∀ kz : ℝ, coefTcc kz dt 0 useGalilean = 1 := by intro kz; simp [coefTcc]
  have hr : ∀ kz : ℝ, coefTrho kz dt 0 useGalilean = -dt := by intro kz; simp [coefTrho]
  have hj : ∀ kz : ℝ, coefJcorr kz dt 0 = 1 / dt := by intro kz; simp [coefJcorr]
  have h1 : ∀ kz kr : ℝ, coefJ k kz kr dt (some 0) useGalilean = coefJ k kz kr dt none useGalilean' := by
    intro kz kr; simp [coefJ, noDrift]
  have h2 : ∀ kz kr : ℝ, coefRhoPrev k kz kr dt (some 0) useGalilean
      = coefRhoPrev k kz kr dt none useGalilean' := by
    intro kz kr; simp [coefRhoPrev, noDrift]
  have h3 : ∀ kz kr : ℝ, coefRhoNext k kz kr dt (some 0) = coefRhoNext k kz kr dt none := by
    intro kz kr; simp [coefRhoNext, noDrift]
  constructor
  · unfold SpecGrid.correctCurrents
    congr 1
    funext kz kr s
    cases m
    · simp only [correctCurrents, psatdCoefs, Option.map_none, Option.map_some, curlFreeStandard,
        curlFreeComoving, hT, hc, hj]
      congr 1 <;> push_cast <;> ring
    · simp only [correctCurrents, psatdCoefs, Option.map_none, Option.map_some, crossDepStandard,
        crossDepComoving, hT, hc, hj]
      congr 1 <;> push_cast <;> ring
  · unfold SpecGrid.push
    congr 2
    funext kz kr s
    cases usePml <;> cases useTrueRho <;>
    · simp only [pushEBWith, psatdCoefs, Option.map_none, Option.map_some, pushEBStandard,
        pushEBComoving, pushPmlStandard, pushPmlComoving, hT, hc, hr, h1, h2, h3,
        Bool.false_eq_true, if_false, if_true]
      congr 1 <;> push_cast <;> ring

/-- **C35** (vacuum): without sources the Galilean solver gives the standard result times the phase
`exp(i kz V dt)` of the grid motion, and the comoving solver gives exactly the standard result, for
every velocity. -/
theorem C35_vacuum (k : Consts) (g : SpecGrid) (h : g.All SpecCell.Vacuum) (dt v : ℝ)
    (usePml useTrueRho b : Bool) (iz ir : ℕ) (hz : iz < g.Nz) (hr : ir < g.Nr) :
    let std := ((g.push k dt none b usePml useTrueRho).cell iz ir).em
    ((g.push k dt (some v) true usePml useTrueRho).cell iz ir).em
      = std.smul (exp (I * g.kz iz * v * dt)) ∧
    ((g.push k dt (some v) false usePml useTrueRho).cell iz ir).em = std := by
  intro std
  simp only [std]
  rw [vacuum_push h _ _ _ _ _ hz hr, vacuum_push h _ _ _ _ _ hz hr, vacuum_push h _ _ _ _ _ hz hr]
  simp [TebOf, coefTeb, coefT2, EM.smul]

end Fbpic
