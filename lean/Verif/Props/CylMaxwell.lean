import Verif.Props.Cylinder
import Verif.Props.Maxwell
import Verif.Spec.CylMaxwell
import Mathlib.MeasureTheory.Integral.IntervalIntegral.FundThmCalculus

/-!
# C80: Maxwell's equations and charge conservation in the cylinder

C31 to C33 speak of one wavenumber at a time. Here the same is said of the fields in the cylinder that
the arrays stand for: one field push is an exact solution of Maxwell's equations at every point, and
the corrected current satisfies the continuity equation at every point.
-/

namespace Fbpic

open Complex Spec

variable {g : Cyl}

/-- The grid of the solver holds the wavenumbers of the cylinder, with the derivative `D` along z. -/
structure Spec.GridOf (g : Cyl) (D : ZDeriv) (G : SpecGrid) : Prop where
  nz : G.Nz = g.Nz
  nr : G.Nr = g.Nr
  kr : ∀ i, i < g.Nr → G.kr i = g.kr i
  kz : g.Symbol D G.kz

private theorem wave_congr (p : ℤ) {F F' : ℕ → ℕ → ℂ} (h : ∀ iz ir, iz < g.Nz → ir < g.Nr → F iz ir = F' iz ir) :
    g.wave p F = g.wave p F' := by
  funext z r θ
  exact waveOf_congr fun iz ir hz hr => by rw [h iz ir hz hr]

private theorem vec_congr {F F' : ℕ → ℕ → V3} (h : ∀ iz ir, iz < g.Nz → ir < g.Nr → F iz ir = F' iz ir) :
    g.vec F = g.vec F' := by
  have e : ∀ (p : ℤ) (c : V3 → ℂ), g.wave p (fun iz ir => c (F iz ir)) = g.wave p (fun iz ir => c (F' iz ir)) :=
    fun p c => wave_congr p fun iz ir hz hr => by rw [h iz ir hz hr]
  unfold Cyl.vec
  rw [e _ V3.p, e _ V3.m, e _ V3.z]

private theorem wave_dt (p : ℤ) {F : ℕ → ℕ → ℝ → ℂ} {F' : ℕ → ℕ → ℂ} {t : ℝ}
    (h : ∀ iz ir, iz < g.Nz → ir < g.Nr → HasDerivAt (F iz ir) (F' iz ir) t) (z r θ : ℝ) :
    HasDerivAt (fun t => g.wave p (fun iz ir => F iz ir t) z r θ) (g.wave p F' z r θ) t := by
  unfold Cyl.wave
  refine HasDerivAt.const_mul _ (HasDerivAt.fun_sum fun iz hz => HasDerivAt.fun_sum fun ir hr => ?_)
  exact (((h iz ir (Finset.mem_range.1 hz) (Finset.mem_range.1 hr)).mul_const _).mul_const _).mul_const _

/-- Derivative in time of the vector field. -/
private theorem vec_dt {F : ℕ → ℕ → ℝ → V3} {F' : ℕ → ℕ → V3} {t : ℝ}
    (h : ∀ iz ir, iz < g.Nz → ir < g.Nr → HasDerivAt (fun t => (F iz ir t).p) (F' iz ir).p t ∧
      HasDerivAt (fun t => (F iz ir t).m) (F' iz ir).m t ∧ HasDerivAt (fun t => (F iz ir t).z) (F' iz ir).z t)
    {comp : VecField → ScalField} (hc : IsComp comp) (z r θ : ℝ) :
    HasDerivAt (fun t => comp (g.vec fun iz ir => F iz ir t) z r θ) (comp (g.vec F') z r θ) t := by
  have hp := wave_dt (g := g) (g.m + 1) (fun iz ir hz hr => (h iz ir hz hr).1) z r θ
  have hm := wave_dt (g := g) (g.m - 1) (fun iz ir hz hr => (h iz ir hz hr).2.1) z r θ
  have hz := wave_dt (g := g) g.m (fun iz ir hz hr => (h iz ir hz hr).2.2) z r θ
  rcases hc with rfl | rfl | rfl
  · exact hp.fun_add hm
  · exact (hp.fun_sub hm).const_mul I
  · exact hz

/-- Linearity. -/
private theorem vec_lin (a b c : ℂ) (X Y Z : ℕ → ℕ → V3) {comp : VecField → ScalField} (hc : IsComp comp) (z r θ : ℝ) :
    comp (g.vec fun iz ir => ⟨a * (X iz ir).p + (b * (Y iz ir).p + c * (Z iz ir).p),
      a * (X iz ir).m + (b * (Y iz ir).m + c * (Z iz ir).m), a * (X iz ir).z + (b * (Y iz ir).z + c * (Z iz ir).z)⟩) z r θ
      = a * comp (g.vec X) z r θ + (b * comp (g.vec Y) z r θ + c * comp (g.vec Z) z r θ) := by
  have e : ∀ (p : ℤ) (x : V3 → ℂ), g.wave p (fun iz ir => a * x (X iz ir) + (b * x (Y iz ir) + c * x (Z iz ir))) z r θ
      = a * g.wave p (fun iz ir => x (X iz ir)) z r θ + (b * g.wave p (fun iz ir => x (Y iz ir)) z r θ
        + c * g.wave p (fun iz ir => x (Z iz ir)) z r θ) := fun p x => by
    rw [← wave_mul, ← wave_mul, ← wave_mul, ← wave_add, ← wave_add]
  rcases hc with rfl | rfl | rfl
  · simp only [Cyl.vec]
    rw [e _ V3.p, e _ V3.m]; ring
  · simp only [Cyl.vec]
    rw [e _ V3.p, e _ V3.m]; ring
  · simp only [Cyl.vec]
    rw [e _ V3.z]

/-- Derivative along z of the vector field. -/
private theorem vec_dz {D : ZDeriv} {K : ℕ → ℝ} (h : g.Symbol D K) (F : ℕ → ℕ → V3) {comp : VecField → ScalField}
    (hc : IsComp comp) (z r θ : ℝ) :
    D.apply (fun z => comp (g.vec F) z r θ) z = comp (g.vec fun iz ir => ⟨I * K iz * (F iz ir).p, I * K iz * (F iz ir).m,
      I * K iz * (F iz ir).z⟩) z r θ := by
  have e : ∀ (p : ℤ) (x : V3 → ℂ), g.wave p (fun iz ir => I * K iz * x (F iz ir)) z r θ
      = I * g.wave p (fun iz ir => K iz * x (F iz ir)) z r θ := fun p x => by
    rw [← wave_mul]
    exact waveOf_congr fun iz ir _ _ => by ring
  rcases hc with rfl | rfl | rfl
  · rw [vec_dz_r h]
    simp only [Cyl.vec]
    rw [e _ V3.p, e _ V3.m]
  · rw [vec_dz_t h]
    simp only [Cyl.vec]
    rw [e _ V3.p, e _ V3.m]
    linear_combination (-g.wave (g.m + 1) (fun iz ir => K iz * (F iz ir).p) z r θ
      + g.wave (g.m - 1) (fun iz ir => K iz * (F iz ir).m) z r θ) * I_mul_I
  · simp only [Cyl.vec]
    rw [wave_dz h, e _ V3.z]

private theorem sameVec_comp {F G : VecField} (h : SameVec F G) {comp : VecField → ScalField} (hc : IsComp comp)
    {z r θ : ℝ} (hr : 0 < r) : comp F z r θ = comp G z r θ := by
  rcases hc with rfl | rfl | rfl
  · exact h.1 z r θ hr
  · exact h.2.1 z r θ hr
  · exact h.2.2 z r θ hr

/-- Solutions of Maxwell's equations at every wavenumber make a solution in the cylinder. -/
private theorem cylMaxwell_of (hg : g.Ok) {D : ZDeriv} {K : ℕ → ℝ} (hD : g.Symbol D K) {c mu0 Vg : ℝ}
    {J : ℕ → ℕ → ℝ → V3} {f : ℕ → ℕ → ℝ → EM}
    (hf : ∀ iz ir, iz < g.Nz → ir < g.Nr → IsMaxwell c mu0 (K iz) (g.kr ir) Vg (J iz ir) (f iz ir)) :
    CylMaxwell c mu0 Vg D (fun t => g.vec fun iz ir => J iz ir t) (fun t => g.vec fun iz ir => (f iz ir t).E)
      (fun t => g.vec fun iz ir => (f iz ir t).B) where
  ampere := by
    intro comp hc t z r θ hr
    refine (vec_dt (F' := fun iz ir => ⟨_, _, _⟩)
      (fun iz ir hz hr => ⟨(hf iz ir hz hr).Ep t, (hf iz ir hz hr).Em t, (hf iz ir hz hr).Ez t⟩) hc z r θ).congr_deriv ?_
    rw [sameVec_comp (C79_curl hg hD _) hc hr, vec_dz hD _ hc,
      show ∀ a b x y w : ℂ, a * x + b * (y - mu0 * w) = a * x + (b * y + (-(b * mu0)) * w) from fun a b x y w => by ring,
      ← vec_lin _ _ _ _ _ _ hc]
    congr 3
    funext iz ir
    ext <;> simp only [] <;> ring
  faraday := by
    intro comp hc t z r θ hr
    refine (vec_dt (F' := fun iz ir => ⟨_, _, _⟩)
      (fun iz ir hz hr => ⟨(hf iz ir hz hr).Bp t, (hf iz ir hz hr).Bm t, (hf iz ir hz hr).Bz t⟩) hc z r θ).congr_deriv ?_
    rw [sameVec_comp (C79_curl hg hD _) hc hr, vec_dz hD _ hc,
      show ∀ a x y : ℂ, a * x - y = a * x + ((-1) * y + 0 * y) from fun a x y => by ring,
      ← vec_lin _ _ _ _ _ _ hc]
    congr 3
    funext iz ir
    ext <;> simp only [] <;> ring

/-- The current of the scheme at time `t`. -/
private theorem current_eq (kz dt : ℝ) (V : Option ℝ) (useGalilean : Bool) (s : SpecCell) (t : ℝ) :
    (schemeOf V useGalilean).current kz dt s.J t =
      ⟨exp (I * kz * (schemeOf V useGalilean).gridVelocity * t) * (exp (-(I * ((kz * V.getD 0 : ℝ) : ℂ) * t)) *
          (TccOf kz dt V useGalilean * s.Jp)),
        exp (I * kz * (schemeOf V useGalilean).gridVelocity * t) * (exp (-(I * ((kz * V.getD 0 : ℝ) : ℂ) * t)) *
          (TccOf kz dt V useGalilean * s.Jm)),
        exp (I * kz * (schemeOf V useGalilean).gridVelocity * t) * (exp (-(I * ((kz * V.getD 0 : ℝ) : ℂ) * t)) *
          (TccOf kz dt V useGalilean * s.Jz))⟩ := by
  match V, useGalilean with
  | none, _ => simp [TccOf, schemeOf, Scheme.gridVelocity, Scheme.current, SpecCell.J]
  | some v, true =>
    have : exp (I * kz * v * t) * exp (-(I * kz * v * t)) = 1 := by
      rw [← exp_add]; simp
    simp [TccOf, schemeOf, Scheme.gridVelocity, Scheme.current, coefTcc, SpecCell.J, ← mul_assoc,
      this]
  | some v, false =>
    have : exp (-(I * kz * v * (t - dt / 2))) = exp (-(I * ((kz * v : ℝ) : ℂ) * t))
        * exp (I * 0.5 * kz * v * dt) := by
      rw [← exp_add]; congr 1; push_cast; ring
    simp only [TccOf, schemeOf, Scheme.gridVelocity, Scheme.current, coefTcc, SpecCell.J, this,
      Option.getD_some, Bool.false_eq_true, if_false, ofReal_zero, mul_zero, zero_mul, exp_zero,
      one_mul]
    simp only [mul_assoc]

/-- Maxwell's equations at one wavenumber have a solution with the current of the scheme. -/
private theorem exists_isMaxwell {k : Consts} (hk : k.Ok) {kz kr dt : ℝ} {V : Option ℝ} (useGalilean : Bool)
    (hreg : Regular k kz dt V) (s : SpecCell) (hB : div kz kr s.em.B = 0) :
    ∃ f : ℝ → EM, IsMaxwell k.c k.mu0 kz kr (schemeOf V useGalilean).gridVelocity
      ((schemeOf V useGalilean).current kz dt s.J) f ∧ f 0 = s.em := by
  obtain ⟨C, S, j, b', r1, r2, h⟩ := exists_closed hk (kr := kr) useGalilean hreg
  have h1 := (isMaxwell_closed h.ode s.em.E s.em.B ⟨TccOf kz dt V useGalilean * s.Jp, TccOf kz dt V useGalilean * s.Jm,
      TccOf kz dt V useGalilean * s.Jz⟩ hB).toMoving (V := (schemeOf V useGalilean).gridVelocity)
  rw [← (funext (current_eq kz dt V useGalilean s) : _ = fun t => _)] at h1
  refine ⟨_, h1, ?_⟩
  obtain ⟨a1, a2, a3, a4, a5, a6⟩ := h.init
  simp [closed, EM.smul, grad, a1, a2, a3, a4, a5, a6]

/-- **C80** (field push): the fields after one push are the values at time `dt` of an exact solution of Maxwell's
equations in the cylinder that starts from the fields before, with the current that the scheme assumes, and that
consists at all times of waves of the cylinder (so it has its boundary condition at the wall). -/
theorem C80_exact (hg : g.Ok) {D : ZDeriv} (k : Consts) (hk : k.Ok) (G : SpecGrid) (hG : GridOf g D G) (dt : ℝ)
    (V : Option ℝ) (useGalilean usePml : Bool) (hreg : ∀ iz, iz < G.Nz → Regular k (G.kz iz) dt V)
    (hB : G.All fun kz kr s => div kz kr s.em.B = 0) :
    ∃ e b : ℝ → ℕ → ℕ → V3,
      CylMaxwell k.c k.mu0 (schemeOf V useGalilean).gridVelocity D
        (fun t => g.vec fun iz ir => (schemeOf V useGalilean).current (G.kz iz) dt (G.cell iz ir).J t)
        (fun t => g.vec (e t)) (fun t => g.vec (b t)) ∧
      g.vec (e 0) = g.vec (fun iz ir => (G.cell iz ir).em.E) ∧
      g.vec (b 0) = g.vec (fun iz ir => (G.cell iz ir).em.B) ∧
      g.vec (e dt) = g.vec (fun iz ir => ((G.push k dt V useGalilean usePml false).cell iz ir).em.E) ∧
      g.vec (b dt) = g.vec (fun iz ir => ((G.push k dt V useGalilean usePml false).cell iz ir).em.B) := by
  have hex : ∀ iz ir, ∃ f : ℝ → EM, iz < g.Nz → ir < g.Nr →
      IsMaxwell k.c k.mu0 (G.kz iz) (g.kr ir) (schemeOf V useGalilean).gridVelocity
        ((schemeOf V useGalilean).current (G.kz iz) dt (G.cell iz ir).J) f ∧ f 0 = (G.cell iz ir).em := by
    intro iz ir
    by_cases h : iz < g.Nz ∧ ir < g.Nr
    · have h1 : iz < G.Nz := by rw [hG.nz]; exact h.1
      have h2 : ir < G.Nr := by rw [hG.nr]; exact h.2
      obtain ⟨f, hf⟩ := exists_isMaxwell hk (kr := g.kr ir) useGalilean (hreg iz h1) (G.cell iz ir)
        (by rw [← hG.kr ir h.2]; exact hB iz ir h1 h2)
      exact ⟨f, fun _ _ => hf⟩
    · exact ⟨fun _ => (G.cell iz ir).em, fun a b => absurd ⟨a, b⟩ h⟩
  choose f hf using hex
  have hend : ∀ iz ir, iz < g.Nz → ir < g.Nr →
      f iz ir dt = ((G.push k dt V useGalilean usePml false).cell iz ir).em := by
    intro iz ir hz hr
    have h1 : iz < G.Nz := by rw [hG.nz]; exact hz
    have h2 : ir < G.Nr := by rw [hG.nr]; exact hr
    obtain ⟨a, b⟩ := hf iz ir hz hr
    exact (C33_exact k hk G dt V useGalilean usePml iz ir h1 h2 (hreg iz h1) (hB iz ir h1 h2) (f iz ir)
      (by rw [hG.kr ir hr]; exact a) b).symm
  refine ⟨fun t iz ir => (f iz ir t).E, fun t iz ir => (f iz ir t).B,
    cylMaxwell_of hg hG.kz fun iz ir hz hr => (hf iz ir hz hr).1, ?_, ?_, ?_, ?_⟩
  · exact vec_congr fun iz ir hz hr => by show (f iz ir 0).E = _; rw [(hf iz ir hz hr).2]
  · exact vec_congr fun iz ir hz hr => by show (f iz ir 0).B = _; rw [(hf iz ir hz hr).2]
  · exact vec_congr fun iz ir hz hr => by show (f iz ir dt).E = _; rw [hend iz ir hz hr]
  · exact vec_congr fun iz ir hz hr => by show (f iz ir dt).B = _; rw [hend iz ir hz hr]

/-! ### Charge conservation -/

/-- Amplitudes of scalars matter only where the radial function is not zero. -/
private theorem scal_congr {F F' : ℕ → ℕ → ℂ}
    (h : ∀ iz ir, iz < g.Nz → ir < g.Nr → ¬ g.Low ir → F iz ir = F' iz ir) : g.scal F = g.scal F' := by
  funext z r θ
  refine waveOf_congr fun iz ir hz hr => ?_
  by_cases hl : g.Low ir
  · have : ¬ ((g.m : ℤ) = g.m - 1) := by omega
    simp only [Cyl.radial, if_pos hl, if_neg this, ofReal_zero, mul_zero, zero_mul]
  · rw [h iz ir hz hr hl]

private theorem div_mul (kz kr : ℝ) (c : ℂ) (J : V3) : div kz kr ⟨c * J.p, c * J.m, c * J.z⟩ = c * div kz kr J := by
  unfold div; ring

private theorem Teb_eq (kz dt : ℝ) (V : Option ℝ) (b : Bool) :
    TebOf kz dt V b = exp (I * kz * (schemeOf V b).gridVelocity * dt) := by
  match V, b with
  | none, _ => simp [TebOf, schemeOf, Scheme.gridVelocity]
  | some v, true => simp [TebOf, coefTeb, coefT2, schemeOf, Scheme.gridVelocity]
  | some v, false => simp [TebOf, coefTeb, schemeOf, Scheme.gridVelocity]

/-- The charge density at one wavenumber during the step. -/
private noncomputable def rhoAt (kz kr dt : ℝ) (V : Option ℝ) (b : Bool) (s : SpecCell) (t : ℝ) : ℂ :=
  exp (I * kz * (schemeOf V b).gridVelocity * t) *
    (s.rhoPrev - TccOf kz dt V b * div kz kr s.J * phaseInt (kz * V.getD 0) t)

private theorem rhoAt_zero (kz kr dt : ℝ) (V : Option ℝ) (b : Bool) (s : SpecCell) : rhoAt kz kr dt V b s 0 = s.rhoPrev := by
  simp [rhoAt, phaseInt]

private theorem rhoAt_dt {k : Consts} {kz kr dt : ℝ} {V : Option ℝ} {b : Bool} {s : SpecCell} (hreg : Regular k kz dt V)
    (hc : s.Conserving kz kr dt V b) : rhoAt kz kr dt V b s dt = s.rhoNext := by
  have := (continuity_iff kz kr dt hreg.1 V b _ _ _).1 hc
  rw [Trho_eq, Teb_eq] at this
  unfold rhoAt
  linear_combination -this

private theorem rhoAt_deriv (kz kr dt : ℝ) (V : Option ℝ) (b : Bool) (s : SpecCell) (t : ℝ) :
    HasDerivAt (rhoAt kz kr dt V b s) ((schemeOf V b).gridVelocity * (I * kz * rhoAt kz kr dt V b s t)
      - div kz kr ((schemeOf V b).current kz dt s.J t)) t := by
  have h1 := hasDerivAt_phase (I * kz * (schemeOf V b).gridVelocity) t
  have h2 := ((hasDerivAt_phaseInt (kz * V.getD 0) t).const_mul (TccOf kz dt V b * div kz kr s.J)).const_sub s.rhoPrev
  refine (h1.fun_mul h2).congr_deriv ?_
  rw [current_eq]
  have e : ∀ a c T : ℂ, div kz kr ⟨a * (c * (T * s.Jp)), a * (c * (T * s.Jm)), a * (c * (T * s.Jz))⟩
      = a * (c * (T * div kz kr s.J)) := fun a c T => by unfold div SpecCell.J; ring
  rw [e]
  unfold rhoAt
  ring

/-- **C80** (charge conservation): if the sources satisfy the continuity equation over the step at each wavenumber (as
after the corrections of C30), there is a charge density that begins as the one before the step, ends as the one after
it and satisfies the continuity equation in the cylinder, at every point and time, with the current that the field
push uses. -/
theorem C80_continuity (hg : g.Ok) {D : ZDeriv} (k : Consts) (G : SpecGrid) (hG : GridOf g D G) (dt : ℝ)
    (V : Option ℝ) (useGalilean : Bool) (hreg : ∀ iz, iz < G.Nz → Regular k (G.kz iz) dt V)
    (hc : ∀ iz ir, iz < g.Nz → ir < g.Nr → ¬ g.Low ir →
      (G.cell iz ir).Conserving (G.kz iz) (G.kr ir) dt V useGalilean) :
    ∃ ρ : ℝ → ℕ → ℕ → ℂ,
      CylContinuity (schemeOf V useGalilean).gridVelocity D
        (fun t => g.vec fun iz ir => (schemeOf V useGalilean).current (G.kz iz) dt (G.cell iz ir).J t)
        (fun t => g.scal (ρ t)) ∧
      g.scal (ρ 0) = g.scal (fun iz ir => (G.cell iz ir).rhoPrev) ∧
      g.scal (ρ dt) = g.scal (fun iz ir => (G.cell iz ir).rhoNext) := by
  refine ⟨fun t iz ir => rhoAt (G.kz iz) (g.kr ir) dt V useGalilean (G.cell iz ir) t, ?_, ?_, ?_⟩
  · intro t z r θ hr
    refine (wave_dt g.m (fun iz ir hz hr => rhoAt_deriv (G.kz iz) (g.kr ir) dt V useGalilean (G.cell iz ir) t)
      z r θ).congr_deriv ?_
    rw [C79_div hg hG.kz _ z r θ hr]
    unfold Cyl.scal
    rw [wave_dz hG.kz, ← wave_mul, ← wave_mul,
      show ∀ x y : ℂ, x - y = x + (-1) * y from fun x y => by ring, ← wave_mul, ← wave_add]
    exact waveOf_congr fun iz ir _ _ => by ring
  · exact scal_congr fun iz ir _ _ _ => rhoAt_zero _ _ _ _ _ _
  · refine scal_congr fun iz ir hz hr hl => rhoAt_dt (k := k) (hreg iz (by rw [hG.nz]; exact hz)) ?_
    rw [← hG.kr ir hr]
    exact hc iz ir hz hr hl

private theorem gridOf_correct {D : ZDeriv} {G : SpecGrid} (hG : GridOf g D G) (k : Consts) (m : CurrentCorrection)
    (dt : ℝ) (V : Option ℝ) (b : Bool) : GridOf g D (G.correctCurrents k m dt V b) :=
  ⟨hG.nz, hG.nr, hG.kr, hG.kz⟩

private theorem gridOf_push {D : ZDeriv} {G : SpecGrid} (hG : GridOf g D G) (k : Consts)
    (dt : ℝ) (V : Option ℝ) (b usePml useTrueRho : Bool) : GridOf g D (G.push k dt V b usePml useTrueRho) :=
  ⟨hG.nz, hG.nr, hG.kr, hG.kz⟩

private theorem correct_conserving (hg : g.Ok) {D : ZDeriv} (k : Consts) (G : SpecGrid) (hG : GridOf g D G) (dt : ℝ)
    (V : Option ℝ) (useGalilean : Bool) (hreg : ∀ iz, iz < G.Nz → Regular k (G.kz iz) dt V)
    {iz ir : ℕ} (hz : iz < g.Nz) (hr : ir < g.Nr) (hl : ¬ g.Low ir) :
    let s := (G.correctCurrents k .curlFree dt V useGalilean).cell iz ir
    s.Conserving (G.kz iz) (G.kr ir) dt V useGalilean ∧ s.rhoPrev = (G.cell iz ir).rhoPrev ∧
      s.rhoNext = (G.cell iz ir).rhoNext ∧ s.em = (G.cell iz ir).em :=
  C30_curl_free k G dt V useGalilean iz ir (by rw [hG.nz]; exact hz) (by rw [hG.nr]; exact hr)
    (hreg iz (by rw [hG.nz]; exact hz)) (Or.inr (by rw [hG.kr ir hr]; exact fun h => hl ((kr_eq_zero hg hr).1 h)))

/-- **C80** (after the curl-free current correction): whatever was deposited, the corrected current and the deposited
charge densities satisfy the continuity equation in the cylinder. -/
theorem C80_continuity_curl_free (hg : g.Ok) {D : ZDeriv} (k : Consts) (G : SpecGrid) (hG : GridOf g D G) (dt : ℝ)
    (V : Option ℝ) (useGalilean : Bool) (hreg : ∀ iz, iz < G.Nz → Regular k (G.kz iz) dt V) :
    ∃ ρ : ℝ → ℕ → ℕ → ℂ,
      CylContinuity (schemeOf V useGalilean).gridVelocity D
        (fun t => g.vec fun iz ir => (schemeOf V useGalilean).current (G.kz iz) dt
          ((G.correctCurrents k .curlFree dt V useGalilean).cell iz ir).J t)
        (fun t => g.scal (ρ t)) ∧
      g.scal (ρ 0) = g.scal (fun iz ir => (G.cell iz ir).rhoPrev) ∧
      g.scal (ρ dt) = g.scal (fun iz ir => (G.cell iz ir).rhoNext) := by
  obtain ⟨ρ, h1, h2, h3⟩ := C80_continuity hg k (G.correctCurrents k .curlFree dt V useGalilean)
    (gridOf_correct hG k .curlFree dt V useGalilean) dt V useGalilean hreg
    (fun iz ir hz hr hl => (correct_conserving hg k G hG dt V useGalilean hreg hz hr hl).1)
  refine ⟨ρ, h1, h2.trans ?_, h3.trans ?_⟩
  · exact scal_congr fun iz ir hz hr hl => (correct_conserving hg k G hG dt V useGalilean hreg hz hr hl).2.1
  · exact scal_congr fun iz ir hz hr hl => (correct_conserving hg k G hG dt V useGalilean hreg hz hr hl).2.2.1

/-- **C80** (after the cross-deposition): the same, if the charge densities deposited at the intermediate positions
agree at `kz = 0` as they do by `C30_kz0`. -/
theorem C80_continuity_cross (hg : g.Ok) {D : ZDeriv} (k : Consts) (G : SpecGrid) (hG : GridOf g D G) (dt : ℝ)
    (V : Option ℝ) (useGalilean : Bool) (hreg : ∀ iz, iz < G.Nz → Regular k (G.kz iz) dt V)
    (hkz : ∀ iz ir, iz < g.Nz → ir < g.Nr → G.kz iz = 0 → (G.cell iz ir).rhoNextXY = (G.cell iz ir).rhoNext ∧
      (G.cell iz ir).rhoNextZ = (G.cell iz ir).rhoPrev) :
    ∃ ρ : ℝ → ℕ → ℕ → ℂ,
      CylContinuity (schemeOf V useGalilean).gridVelocity D
        (fun t => g.vec fun iz ir => (schemeOf V useGalilean).current (G.kz iz) dt
          ((G.correctCurrents k .crossDeposition dt V useGalilean).cell iz ir).J t)
        (fun t => g.scal (ρ t)) ∧
      g.scal (ρ 0) = g.scal (fun iz ir => ((G.correctCurrents k .crossDeposition dt V useGalilean).cell iz ir).rhoPrev) ∧
      g.scal (ρ dt) = g.scal (fun iz ir => ((G.correctCurrents k .crossDeposition dt V useGalilean).cell iz ir).rhoNext) :=
  C80_continuity hg k (G.correctCurrents k .crossDeposition dt V useGalilean)
    (gridOf_correct hG k .crossDeposition dt V useGalilean) dt V useGalilean hreg
    (fun iz ir hz hr hl => C30_cross_all k G dt V useGalilean iz ir (by rw [hG.nz]; exact hz) (by rw [hG.nr]; exact hr)
      (hreg iz (by rw [hG.nz]; exact hz)) (hkz iz ir hz hr)
      (fun h => absurd ((kr_eq_zero hg hr).1 (by rw [← hG.kr ir hr]; exact h)) hl))

/-! ### Gauss' law and the divergence of B -/

/-- Gauss' law in the cylinder for the fields in the arrays. -/
def Spec.CylGauss (g : Cyl) (D : ZDeriv) (eps0 : ℝ) (G : SpecGrid) : Prop :=
  SameScal (cylDiv D (g.vec fun iz ir => (G.cell iz ir).em.E))
    (fun z r θ => g.scal (fun iz ir => (G.cell iz ir).rhoPrev) z r θ / eps0)

private theorem cylGauss_iff (hg : g.Ok) (hd : g.Distinct) {D : ZDeriv} {k : Consts} {G : SpecGrid}
    (hG : GridOf g D G) : CylGauss g D k.eps0 G ↔
      ∀ iz ir, iz < g.Nz → ir < g.Nr → ¬ g.Low ir → (G.cell iz ir).Gauss k (G.kz iz) (G.kr ir) := by
  have e : (fun z r θ => g.scal (fun iz ir => (G.cell iz ir).rhoPrev) z r θ / k.eps0)
      = g.scal (fun iz ir => (G.cell iz ir).rhoPrev / k.eps0) := by
    funext z r θ
    unfold Cyl.scal
    rw [div_eq_mul_inv, mul_comm, ← wave_mul]
    exact waveOf_congr fun iz ir _ _ => by ring
  unfold CylGauss
  rw [e]
  constructor
  · intro h iz ir hz hr hl
    have := C79_scal_faithful hg hd (fun iz ir => Spec.div (G.kz iz) (g.kr ir) (G.cell iz ir).em.E)
      (fun iz ir => (G.cell iz ir).rhoPrev / k.eps0)
      (fun z r θ hr => (C79_div hg hG.kz _ z r θ hr).symm.trans (h z r θ hr)) iz ir hz hr hl
    unfold SpecCell.Gauss
    rw [hG.kr ir hr]
    exact this
  · intro h z r θ hr
    rw [C79_div hg hG.kz _ z r θ hr]
    refine congrFun (congrFun (congrFun (scal_congr fun iz ir hz hr hl => ?_) z) r) θ
    have := h iz ir hz hr hl
    unfold SpecCell.Gauss at this
    rw [hG.kr ir hr] at this
    exact this

/-- **C80** (Gauss' law): if `div E = rho / eps0` at every point of the cylinder before the step, the same holds after
the current correction and the field push, with the new charge density. -/
theorem C80_gauss (hg : g.Ok) (hd : g.Distinct) {D : ZDeriv} (k : Consts) (hk : k.Ok) (G : SpecGrid) (hG : GridOf g D G)
    (dt : ℝ) (V : Option ℝ) (useGalilean usePml useTrueRho : Bool)
    (hreg : ∀ iz, iz < G.Nz → Regular k (G.kz iz) dt V) (h : CylGauss g D k.eps0 G) :
    CylGauss g D k.eps0 ((G.correctCurrents k .curlFree dt V useGalilean).push k dt V useGalilean usePml useTrueRho) ∧
    g.scal (fun iz ir => (((G.correctCurrents k .curlFree dt V useGalilean).push k dt V useGalilean usePml
      useTrueRho).cell iz ir).rhoPrev) = g.scal (fun iz ir => (G.cell iz ir).rhoNext) := by
  have hG' := gridOf_correct hG k .curlFree dt V useGalilean
  have key : ∀ iz ir, iz < g.Nz → ir < g.Nr → ¬ g.Low ir →
      (((G.correctCurrents k .curlFree dt V useGalilean).push k dt V useGalilean usePml useTrueRho).cell iz ir).Gauss k
        (G.kz iz) (G.kr ir) ∧
      (((G.correctCurrents k .curlFree dt V useGalilean).push k dt V useGalilean usePml
        useTrueRho).cell iz ir).rhoPrev = (G.cell iz ir).rhoNext := by
    intro iz ir hz hr hl
    obtain ⟨c1, c2, c3, c4⟩ := correct_conserving hg k G hG dt V useGalilean hreg hz hr hl
    have hga := (cylGauss_iff hg hd hG).1 h iz ir hz hr hl
    have hz' : iz < G.Nz := by rw [hG.nz]; exact hz
    have hr' : ir < G.Nr := by rw [hG.nr]; exact hr
    have := C31_gauss k hk (G.correctCurrents k .curlFree dt V useGalilean) dt V useGalilean usePml useTrueRho iz ir
      hz' hr' (hreg iz hz') c1 (by unfold SpecCell.Gauss at hga ⊢; rw [c4, c2]; exact hga)
    exact ⟨this.1, this.2.trans c3⟩
  refine ⟨(cylGauss_iff hg hd (gridOf_push hG' k dt V useGalilean usePml useTrueRho)).2 fun iz ir hz hr hl =>
    (key iz ir hz hr hl).1, scal_congr fun iz ir hz hr hl => (key iz ir hz hr hl).2⟩

/-- **C80** (div B): if `div B = 0` at every point of the cylinder before the field push, the same holds after it, with
any sources. -/
theorem C80_divB (hg : g.Ok) (hd : g.Distinct) {D : ZDeriv} (k : Consts) (G : SpecGrid) (hG : GridOf g D G)
    (dt : ℝ) (V : Option ℝ) (useGalilean usePml useTrueRho : Bool)
    (h : SameScal (cylDiv D (g.vec fun iz ir => (G.cell iz ir).em.B)) (fun _ _ _ => 0)) :
    SameScal (cylDiv D (g.vec fun iz ir => ((G.push k dt V useGalilean usePml useTrueRho).cell iz ir).em.B))
      (fun _ _ _ => 0) := by
  have z0 : g.scal (fun _ _ => 0) = fun _ _ _ => 0 := by
    funext z r θ; simp [Cyl.scal, Cyl.wave]
  have h0 : ∀ iz ir, iz < g.Nz → ir < g.Nr → ¬ g.Low ir → div (G.kz iz) (g.kr ir) (G.cell iz ir).em.B = 0 :=
    C79_scal_faithful hg hd (fun iz ir => Spec.div (G.kz iz) (g.kr ir) (G.cell iz ir).em.B) (fun _ _ => 0)
      (fun z r θ hr => (C79_div hg hG.kz _ z r θ hr).symm.trans ((h z r θ hr).trans (by rw [z0])))
  intro z r θ hr
  rw [C79_div hg hG.kz _ z r θ hr, scal_congr (F' := fun _ _ => 0) fun iz ir hz hr hl => ?_, z0]
  have hz' : iz < G.Nz := by rw [hG.nz]; exact hz
  have hr' : ir < G.Nr := by rw [hG.nr]; exact hr
  rw [push_cell _ _ _ _ _ _ _ hz' hr', pushRho_em, ← hG.kr ir hr, divB_push, hG.kr ir hr, h0 iz ir hz hr hl, mul_zero]

/-- The hypotheses are met: a cylinder with a true zero of `J_0`, 4 longitudinal wavenumbers, the Galilean scheme, a
charge density that changes during the step, and fields that satisfy Gauss' law and `div B = 0`. -/
example : ∃ (g : Cyl) (G : SpecGrid), g.Ok ∧ g.Distinct ∧ g.Nz = 4 ∧ GridOf g .exact G ∧ (⟨1, 1, 1⟩ : Consts).Ok ∧
    (∀ iz, iz < G.Nz → Regular ⟨1, 1, 1⟩ (G.kz iz) (1 / 8) (some (1 / 2))) ∧ CylGauss g .exact 1 G ∧
    (G.All fun kz kr s => div kz kr s.em.B = 0) ∧ (G.cell 1 0).em.E.p ≠ 0 ∧ (G.cell 1 0).em.B.p ≠ 0 ∧
    (G.cell 1 0).rhoPrev = 1 ∧ (G.cell 1 0).rhoNext = 2 := by
  obtain ⟨α, hα, h0, -, -, -⟩ := exists_zero_J0
  have hz : IsZeros 0 1 (fun _ => α) := ⟨fun i _ => ⟨hα, by simpa using h0⟩, fun i j h1 h2 => by omega⟩
  have hg : (cylOf 0 4 1 (1 / 2) 0 1 fun _ => α).Ok :=
    cylOf_ok (by norm_num) (by norm_num) one_pos (by simpa using hz)
  have hd : (cylOf 0 4 1 (1 / 2) 0 1 fun _ => α).Distinct := cylOf_distinct (by simpa using hz)
  have hkr : ∀ i, (cylOf 0 4 1 (1 / 2) 0 1 fun _ => α).kr i = α := fun i => by simp [Cyl.kr, cylOf, Hankel.alphas]
  have hkc : (α : ℂ) ≠ 0 := by exact_mod_cast hα.ne'
  let G : SpecGrid := ⟨4, 1, (cylOf 0 4 1 (1 / 2) 0 1 fun _ => α).kz, fun _ => α,
    fun _ _ => ⟨1 / α, 0, 0, 1, 1, 0, 1, 0, 0, 1, 2, 0, 0, 0, 0, 0, 0⟩⟩
  have hG : GridOf (cylOf 0 4 1 (1 / 2) 0 1 fun _ => α) .exact G := by
    refine ⟨rfl, rfl, fun i _ => (hkr i).symm, fun iz _ z => ?_⟩
    have h2 := exp_hasDerivAt ((cylOf 0 4 1 (1 / 2) 0 1 fun _ => α).kz iz) 0 z
    simp only [sub_zero] at h2
    exact h2.deriv
  refine ⟨_, G, hg, hd, rfl, hG, ⟨one_pos, one_pos, one_pos, by norm_num⟩, fun iz hi => ?_, ?_, ?_, ?_, ?_, rfl, rfl⟩
  · refine C31_regular ⟨1, 1, 1⟩ _ (1 / 2) (1 / 8) (1 / 2) (by norm_num) ?_ ?_ (by norm_num) (by norm_num)
    · show |(cylOf 0 4 1 (1 / 2) 0 1 fun _ => α).kz iz| ≤ _
      have hpi := Real.pi_pos
      have hi : iz < 4 := hi
      have : ((cylOf 0 4 1 (1 / 2) 0 1 fun _ => α).kz iz) =
          Real.pi * (if iz ≤ 1 then (iz : ℝ) else (iz : ℝ) - 4) := by
        simp only [Cyl.kz, cylOf]; norm_num; split_ifs <;> ring
      rw [this, abs_mul, abs_of_pos hpi, div_eq_mul_inv]
      refine mul_le_mul_of_nonneg_left ?_ hpi.le
      interval_cases iz <;> norm_num
    · rw [abs_of_pos] <;> norm_num
  · refine (cylGauss_iff (k := ⟨1, 1, 1⟩) hg hd hG).2 fun iz ir _ _ _ => ?_
    simp [SpecCell.Gauss, SpecCell.em, div, G, hkc]
  · intro iz ir _ _
    simp [SpecCell.em, div, G]
  · simp [SpecCell.em, G, hkc]
  · simp [SpecCell.em, G]

end Fbpic
