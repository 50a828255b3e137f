import Verif.Lemmas.SpectralStep

/-! # The solver without sources -/

namespace Fbpic

open Complex Spec

theorem mapCells_cell (g : SpecGrid) (f : ℝ → ℝ → SpecCell → SpecCell) {iz ir : ℕ}
    (hz : iz < g.Nz) (hr : ir < g.Nr) :
    (g.mapCells f).cell iz ir = f (g.kz iz) (g.kr ir) (g.cell iz ir) := by
  simp [SpecGrid.mapCells, hz, hr]

theorem push_cell (k : Consts) (dt : ℝ) (V : Option ℝ) (b usePml useTrueRho : Bool) (g : SpecGrid)
    {iz ir : ℕ} (hz : iz < g.Nz) (hr : ir < g.Nr) :
    (g.push k dt V b usePml useTrueRho).cell iz ir
      = pushRho (pushEBWith k (g.kz iz) (g.kr ir) (psatdCoefs k (g.kz iz) (g.kr ir) dt V b) usePml
          useTrueRho (g.cell iz ir)) := by
  unfold SpecGrid.push
  rw [mapCells_cell _ _ (by exact hz) (by exact hr), mapCells_cell _ _ hz hr]

theorem pushRho_em (s : SpecCell) : (pushRho s).em = s.em := rfl

theorem pushEBWith_sources (k : Consts) (kz kr : ℝ) (ps : PsatdCoefs) (usePml useTrueRho : Bool)
    (s : SpecCell) :
    (pushEBWith k kz kr ps usePml useTrueRho s).J = s.J ∧
    (pushEBWith k kz kr ps usePml useTrueRho s).rhoPrev = s.rhoPrev ∧
    (pushEBWith k kz kr ps usePml useTrueRho s).rhoNext = s.rhoNext := by
  unfold pushEBWith
  cases ps.comov <;> cases usePml <;>
    simp [pushEBStandard, pushEBComoving, SpecCell.J, pushPmlStandard, pushPmlComoving]

/-- Free propagation with coefficients `C`, `S`. -/
noncomputable def freeStep (c kz kr : ℝ) (C S : ℂ) (f : EM) : EM where
  E := ⟨C * f.E.p + c ^ 2 * S * (curl kz kr f.B).p, C * f.E.m + c ^ 2 * S * (curl kz kr f.B).m,
    C * f.E.z + c ^ 2 * S * (curl kz kr f.B).z⟩
  B := ⟨C * f.B.p - S * (curl kz kr f.E).p, C * f.B.m - S * (curl kz kr f.E).m,
    C * f.B.z - S * (curl kz kr f.E).z⟩

theorem pushEBWith_vacuum {k : Consts} {kz kr dt : ℝ} (V : Option ℝ) (b usePml useTrueRho : Bool)
    (s : SpecCell) (hJ : s.J = ⟨0, 0, 0⟩) (hp : s.rhoPrev = 0) (hn : s.rhoNext = 0)
    (hE : div kz kr s.em.E = 0) :
    (pushEBWith k kz kr (psatdCoefs k kz kr dt V b) usePml useTrueRho s).em
      = (freeStep k.c kz kr (coefC k kz kr dt) (coefSw k kz kr dt) s.em).smul
        (TebOf kz dt V b) := by
  simp only [SpecCell.J, V3.mk.injEq] at hJ
  obtain ⟨j1, j2, j3⟩ := hJ
  have hE' : (kr : ℂ) * (s.Ep - s.Em) + I * kz * s.Ez = 0 := hE
  match V with
  | none =>
    cases usePml <;> cases useTrueRho <;>
    · simp only [pushEBWith, psatdCoefs, Option.map_none, pushEBStandard, pushPmlStandard,
        Bool.false_eq_true, if_false, if_true, hp, hn, j1, j2, j3, hE', SpecCell.em, freeStep,
        EM.smul, TebOf, curl, EM.mk.injEq, V3.mk.injEq]
      refine ⟨⟨?_, ?_, ?_⟩, ?_, ?_, ?_⟩ <;> ring
  | some v =>
    cases usePml <;> cases useTrueRho <;>
    · simp only [pushEBWith, psatdCoefs, Option.map_some, pushEBComoving, pushPmlComoving,
        Bool.false_eq_true, if_false, if_true, hp, hn, j1, j2, j3, hE', SpecCell.em, freeStep,
        EM.smul, TebOf, curl, EM.mk.injEq, V3.mk.injEq]
      refine ⟨⟨?_, ?_, ?_⟩, ?_, ?_, ?_⟩ <;> ring

theorem div_freeStep (c kz kr : ℝ) (C S T : ℂ) (f : EM) :
    div kz kr ((freeStep c kz kr C S f).smul T).E = T * C * div kz kr f.E ∧
    div kz kr ((freeStep c kz kr C S f).smul T).B = T * C * div kz kr f.B := by
  simp only [freeStep, EM.smul, div, curl]
  constructor
  · linear_combination (T * c ^ 2 * S * kr * kz * (f.B.p + f.B.m)) * I_sq
  · linear_combination (-T * S * kr * kz * (f.E.p + f.E.m)) * I_sq

theorem curl_curl (kz kr : ℝ) (F : V3) (h : div kz kr F = 0) :
    curl kz kr (curl kz kr F) = ⟨(kz ^ 2 + kr ^ 2) * F.p, (kz ^ 2 + kr ^ 2) * F.m,
      (kz ^ 2 + kr ^ 2) * F.z⟩ := by
  simp only [div] at h
  simp only [curl, V3.mk.injEq]
  refine ⟨?_, ?_, ?_⟩
  · linear_combination (-(kr : ℂ) ^ 2 / 2 * (F.p + F.m)) * I_sq - (kr : ℂ) / 2 * h
  · linear_combination (-(kr : ℂ) ^ 2 / 2 * (F.p + F.m)) * I_sq + (kr : ℂ) / 2 * h
  · linear_combination (I * kz) * h - ((kr : ℂ) ^ 2 * F.z + kz ^ 2 * F.z) * I_sq

theorem curl_smul_add (kz kr : ℝ) (a b : ℂ) (F G : V3) :
    curl kz kr ⟨a * F.p + b * G.p, a * F.m + b * G.m, a * F.z + b * G.z⟩
      = ⟨a * (curl kz kr F).p + b * (curl kz kr G).p, a * (curl kz kr F).m + b * (curl kz kr G).m,
        a * (curl kz kr F).z + b * (curl kz kr G).z⟩ := by
  simp only [curl, V3.mk.injEq]
  refine ⟨?_, ?_, ?_⟩ <;> ring

theorem freeStep_comp (c kz kr : ℝ) (C S C' S' T T' : ℂ) (f : EM)
    (hE : div kz kr f.E = 0) (hB : div kz kr f.B = 0) :
    (freeStep c kz kr C' S' ((freeStep c kz kr C S f).smul T)).smul T'
      = (freeStep c kz kr (C * C' - c ^ 2 * (kz ^ 2 + kr ^ 2) * S * S') (S * C' + C * S') f).smul
        (T * T') := by
  have h1 := curl_curl kz kr f.E hE
  have h2 := curl_curl kz kr f.B hB
  simp only [V3.ext_iff] at h1 h2
  have e1 : curl kz kr ((freeStep c kz kr C S f).smul T).E
      = ⟨T * C * (curl kz kr f.E).p + T * c ^ 2 * S * (curl kz kr (curl kz kr f.B)).p,
        T * C * (curl kz kr f.E).m + T * c ^ 2 * S * (curl kz kr (curl kz kr f.B)).m,
        T * C * (curl kz kr f.E).z + T * c ^ 2 * S * (curl kz kr (curl kz kr f.B)).z⟩ := by
    rw [← curl_smul_add]
    simp only [freeStep, EM.smul]
    congr 2 <;> ring
  have e2 : curl kz kr ((freeStep c kz kr C S f).smul T).B
      = ⟨T * C * (curl kz kr f.B).p + -(T * S) * (curl kz kr (curl kz kr f.E)).p,
        T * C * (curl kz kr f.B).m + -(T * S) * (curl kz kr (curl kz kr f.E)).m,
        T * C * (curl kz kr f.B).z + -(T * S) * (curl kz kr (curl kz kr f.E)).z⟩ := by
    rw [← curl_smul_add]
    simp only [freeStep, EM.smul]
    congr 2 <;> ring
  simp only [EM.ext_iff, V3.ext_iff]
  rw [freeStep, e1, e2]
  simp only [h1, h2, freeStep, EM.smul]
  refine ⟨⟨?_, ?_, ?_⟩, ?_, ?_, ?_⟩ <;> ring

theorem coefC_add (k : Consts) (hk : k.Ok) (kz kr s t : ℝ) :
    coefC k kz kr (s + t) = coefC k kz kr s * coefC k kz kr t
      - k.c ^ 2 * (kz ^ 2 + kr ^ 2) * coefSw k kz kr s * coefSw k kz kr t ∧
    coefSw k kz kr (s + t) = coefSw k kz kr s * coefC k kz kr t
      + coefC k kz kr s * coefSw k kz kr t := by
  by_cases hw : omega k kz kr = 0
  · obtain ⟨rfl, rfl⟩ := omega_eq_zero hk hw
    simp [coefC, coefSw, hw]
  · have h2 : k.c ^ 2 * (kz ^ 2 + kr ^ 2) = omega k kz kr ^ 2 := by
      rw [omega, mul_pow, Real.sq_sqrt (by positivity)]
    rw [h2]
    simp only [coefC, coefSw, hw, if_false, invOmega, mul_add, Real.cos_add, Real.sin_add]
    constructor <;> field_simp

theorem TebOf_add (kz s t : ℝ) (V : Option ℝ) (b : Bool) :
    TebOf kz (s + t) V b = TebOf kz s V b * TebOf kz t V b := by
  cases V <;> cases b <;> simp [TebOf, coefTeb, coefT2, mul_add, exp_add]

theorem normSq_Teb (kz t : ℝ) (V : Option ℝ) (b : Bool) :
    Complex.normSq (TebOf kz t V b) = 1 := by
  cases V with
  | none => simp [TebOf]
  | some v =>
    cases b
    · simp [TebOf, coefTeb]
    · simp only [TebOf, coefTeb, if_true, coefT2]
      rw [Complex.normSq_eq_norm_sq, show I * kz * v * t = ((kz * v * t : ℝ) : ℂ) * I by
        push_cast; ring, norm_exp_ofReal_mul_I]
      norm_num

theorem energy_freeStep {k : Consts} (hk : k.Ok) (kz kr dt : ℝ) (T : ℂ) (hT : Complex.normSq T = 1)
    (f : EM) (hE : div kz kr f.E = 0) (hB : div kz kr f.B = 0) :
    energy k.c ((freeStep k.c kz kr (coefC k kz kr dt) (coefSw k kz kr dt) f).smul T)
      = energy k.c f := by
  have hsm : ∀ F : EM, energy k.c (F.smul T) = energy k.c F := by
    intro F
    simp only [energy, Spec.normSq, EM.smul, Complex.normSq_mul, hT, one_mul]
  rw [hsm]
  by_cases hdt : dt = 0
  · subst hdt
    congr 1
    simp only [freeStep, coefC, coefSw, mul_zero, Real.cos_zero, Real.sin_zero, zero_mul, ite_self]
    simp
  · obtain ⟨C, S, j, b, r1, r2, h⟩ := exists_closed hk (kz := kz) (kr := kr) (dt := dt) (V := none)
      false ⟨hdt, by simp⟩
    have hm := isMaxwell_closed h.ode f.E f.B ⟨0, 0, 0⟩ hB
    simp only [mul_zero] at hm
    have h1 := hm.energy_const dt 0
    have hd0 : div kz kr ⟨0, 0, 0⟩ = 0 := by simp [div]
    obtain ⟨a1, a2, a3, a4, a5, a6⟩ := h.init
    have hC : C dt = coefC k kz kr dt := h.hC.symm
    have hS : S dt = coefSw k kz kr dt := h.hS.symm
    have e0 : closed k.c kz kr (C 0) (S 0) (j 0) (b 0) (r1 0) (r2 0) f.E f.B ⟨0, 0, 0⟩ = f := by
      simp [closed, a1, a2, a3, a4, a5, a6, grad]
    have e1 : closed k.c kz kr (C dt) (S dt) (j dt) (b dt) (r1 dt) (r2 dt) f.E f.B ⟨0, 0, 0⟩
        = freeStep k.c kz kr (coefC k kz kr dt) (coefSw k kz kr dt) f := by
      simp [closed, freeStep, grad, hE, hd0, hC, hS, curl]
    rw [e0, e1] at h1
    exact h1

end Fbpic
