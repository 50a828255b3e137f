import Verif.Lemmas.PicLaser
import Verif.Props.PicVacuum

/-!
# C107: a laser pulse on the grid of a whole simulation
-/

namespace Fbpic.Pic

open Transform ExternalField Step DirectLaser BoostConv
open Spec (VacuumOk NoSources emAt TransOk V3 EM div EM.plus EM.times laserFilter withErEt Travels energy)

section
variable (c : Cfg) [NeZero c.Nz] (profile : ℝ → ℝ → ℝ → ℝ → ℝ × ℝ) (boost : Option Conv) (dir : ℝ)

private theorem laserIn_src (s : Sim) (m iz ir : ℕ) : (c.laserIn profile boost s m iz ir).J = ⟨0, 0, 0⟩ ∧
    (c.laserIn profile boost s m iz ir).rhoPrev = 0 ∧ (c.laserIn profile boost s m iz ir).rhoNext = 0 :=
  ⟨rfl, rfl, rfl⟩

private theorem laser_div (s : Sim) (hs : VacuumOk c s) (hdir : dir = 1 ∨ dir = -1) {m iz ir : ℕ}
    (hk : (s.spect m).kz iz ≠ 0) :
    div ((s.spect m).kz iz) ((s.spect m).kr ir) (c.laserEM profile boost dir s m iz ir).E = 0 ∧
    div ((s.spect m).kz iz) ((s.spect m).kr ir) (c.laserEM profile boost dir s m iz ir).B = 0 :=
  C65_div _ _ _ _ _ _ hs.consts.c_pos hdir hk _

/-- **C107** (what is added): `add_laser_pulse` with the method `direct` leaves the particles, the charge and the current alone, and
adds to the fields on the grid, at each wavenumber of each mode, a field that is free of divergence (where `kz ≠ 0`) and whose
transverse components are those of the profile (evaluated at the points of the grid and decomposed in azimuthal modes)
multiplied by the smoother. -/
theorem C107_added (s : Sim) (hs : VacuumOk c s) (hdir : dir = 1 ∨ dir = -1) :
    let s' := c.addLaser profile boost dir s
    let p := withErEt (fun m =>
      (fun iz ir => (laserErEt c.k.c profile boost c.Nm s.time (s.zmin + (iz + 0.5) * (1 / c.invdz)) ((ir + 0.5) * (1 / c.invdr)) m).1,
       fun iz ir => (laserErEt c.k.c profile boost c.Nm s.time (s.zmin + (iz + 0.5) * (1 / c.invdz)) ((ir + 0.5) * (1 / c.invdr)) m).2)) s
    s'.species = s.species ∧ s'.spect = s.spect ∧ s'.zmin = s.zmin ∧ s'.time = s.time ∧
    (∀ m, (s'.interp m).J = (s.interp m).J ∧ (s'.interp m).rho = (s.interp m).rho) ∧
    ∀ m < c.Nm, ∀ iz < c.Nz, ∀ ir < c.Nr, ∃ l : EM, emAt c s' m iz ir = EM.plus (emAt c s m iz ir) l ∧
      l.E.p = laserFilter (1 / c.invdz) (kzTrue c.Nz (1 / c.invdz) iz) * (emAt c p m iz ir).E.p ∧
      l.E.m = laserFilter (1 / c.invdz) (kzTrue c.Nz (1 / c.invdz) iz) * (emAt c p m iz ir).E.m ∧
      ((s.spect m).kz iz ≠ 0 → div ((s.spect m).kz iz) ((s.spect m).kr ir) l.E = 0 ∧
        div ((s.spect m).kz iz) ((s.spect m).kr ir) l.B = 0) := by
  intro s' p
  refine ⟨rfl, rfl, rfl, rfl, fun m => ?_, fun m hm iz hz ir hr => ⟨c.laserEM profile boost dir s m iz ir,
    emAt_addLaser c profile boost dir s hs hm hz hr, (laserEM_E c profile boost dir s hm hz hr).1,
    (laserEM_E c profile boost dir s hm hz hr).2, laser_div c profile boost dir s hs hdir⟩⟩
  show (onModes c.Nm _ s.interp m).J = _ ∧ (onModes c.Nm _ s.interp m).rho = _
  unfold onModes
  split_ifs <;> exact ⟨rfl, rfl⟩

/-- **C107** (propagation): put on the grid of a simulation without charged particles, the pulse propagates as in vacuum, whatever the calls
to `step` and the fields that were there: at each wavenumber with `kz ≠ 0` where the fields already on the grid have no divergence,
after `N` iterations the fields are those of the simulation without the pulse plus the added field multiplied by `exp(-i ω N dt)`
(by `exp(-i (ω - kz V) N dt)` on a grid that moves at `V`), with `ω² = c² (kz² + kr²)` and a phase velocity of the sign of
`propag_direction`. -/
theorem C107_propagates (hn : 0 < c.nthreads) (s : Sim) (hs : VacuumOk c s) (hsrc : NoSources c s) (hdir : dir = 1 ∨ dir = -1)
    (m iz ir : ℕ) (hm : m < c.Nm) (hz : iz < c.Nz) (hr : ir < c.Nr) (hk : (s.spect m).kz iz ≠ 0)
    (hE : div ((s.spect m).kz iz) ((s.spect m).kr ir) (emAt c s m iz ir).E = 0)
    (hB : div ((s.spect m).kz iz) ((s.spect m).kr ir) (emAt c s m iz ir).B = 0) :
    ∃ (l : EM) (ω : ℝ), emAt c (c.addLaser profile boost dir s) m iz ir = EM.plus (emAt c s m iz ir) l ∧
      Travels c.k.c dir ((s.spect m).kz iz) ((s.spect m).kr ir) ω ∧
      ∀ (L : List (ℕ × Opts)) (t t' : Sim), c.calls L s = .ok t → c.calls L (c.addLaser profile boost dir s) = .ok t' →
        emAt c t' m iz ir = EM.plus (emAt c t m iz ir)
          (EM.times (Complex.exp (-(Complex.I * (ω - (s.spect m).kz iz * (schemeOf c.V c.galilean).gridVelocity)) *
            (((L.map Prod.fst).sum * c.dt : ℝ) : ℂ))) l) := by
  obtain ⟨i1, i2, i3⟩ := laserIn_src c profile boost s m iz ir
  obtain ⟨ω, hω, hl⟩ := freeAt_laser c.k hs.consts dir (1 / c.invdz) (kzTrue c.Nz (1 / c.invdz) iz) ((s.spect m).kz iz)
    ((s.spect m).kr ir) hdir hk (c.laserIn profile boost s m iz ir) i1 i2 i3 c.V c.galilean
  have ha := emAt_addLaser c profile boost dir s hs hm hz hr
  refine ⟨c.laserEM profile boost dir s m iz ir, ω, ha, hω, fun L t t' h h' => ?_⟩
  have hs' : VacuumOk c (c.addLaser profile boost dir s) := ⟨hs.consts, hs.Nz, hs.Nr, hs.trans, hs.kr⟩
  have hsrc' : NoSources c (c.addLaser profile boost dir s) := ⟨hsrc.species, hsrc.spect⟩
  obtain ⟨d1, d2⟩ := laser_div c profile boost dir s hs hdir (m := m) (iz := iz) (ir := ir) hk
  have hd := div_plus ((s.spect m).kz iz) ((s.spect m).kr ir) (emAt c s m iz ir) (c.laserEM profile boost dir s m iz ir)
  rw [hE, hB, d1, d2, add_zero] at hd
  rw [free_calls c hn L s t hs hsrc h hm hz hr ⟨hE, hB⟩, free_calls c hn L _ t' hs' hsrc' h' hm hz hr (by rw [ha]; exact hd),
    ha, freeAt_plus]
  exact congrArg _ (hl _)

/-- **C107** (empty grid): in a simulation without particles and without fields, the energy of the pulse at each wavenumber with `kz ≠ 0`
is the same after any calls to `step`, and the fields at any time are those of the start multiplied by the phase of the wave. -/
theorem C107_alone (hn : 0 < c.nthreads) (s : Sim) (hs : VacuumOk c s) (hsrc : NoSources c s) (hdir : dir = 1 ∨ dir = -1)
    (m iz ir : ℕ) (hm : m < c.Nm) (hz : iz < c.Nz) (hr : ir < c.Nr) (hk : (s.spect m).kz iz ≠ 0)
    (h0 : emAt c s m iz ir = ⟨⟨0, 0, 0⟩, ⟨0, 0, 0⟩⟩) :
    ∃ ω, Travels c.k.c dir ((s.spect m).kz iz) ((s.spect m).kr ir) ω ∧
      ∀ (L : List (ℕ × Opts)) (t : Sim), c.calls L (c.addLaser profile boost dir s) = .ok t →
        emAt c t m iz ir = EM.times (Complex.exp (-(Complex.I * (ω - (s.spect m).kz iz * (schemeOf c.V c.galilean).gridVelocity)) *
          (((L.map Prod.fst).sum * c.dt : ℝ) : ℂ))) (emAt c (c.addLaser profile boost dir s) m iz ir) ∧
        energy c.k.c (emAt c t m iz ir) = energy c.k.c (emAt c (c.addLaser profile boost dir s) m iz ir) := by
  obtain ⟨i1, i2, i3⟩ := laserIn_src c profile boost s m iz ir
  obtain ⟨ω, hω, hl⟩ := freeAt_laser c.k hs.consts dir (1 / c.invdz) (kzTrue c.Nz (1 / c.invdz) iz) ((s.spect m).kz iz)
    ((s.spect m).kr ir) hdir hk (c.laserIn profile boost s m iz ir) i1 i2 i3 c.V c.galilean
  have ha : emAt c (c.addLaser profile boost dir s) m iz ir = c.laserEM profile boost dir s m iz ir := by
    rw [emAt_addLaser c profile boost dir s hs hm hz hr, h0]
    simp [EM.plus]
  refine ⟨ω, hω, fun L t h => ?_⟩
  have hs' : VacuumOk c (c.addLaser profile boost dir s) := ⟨hs.consts, hs.Nz, hs.Nr, hs.trans, hs.kr⟩
  have hsrc' : NoSources c (c.addLaser profile boost dir s) := ⟨hsrc.species, hsrc.spect⟩
  have hd := laser_div c profile boost dir s hs hdir (m := m) (iz := iz) (ir := ir) hk
  rw [← ha] at hd
  have hf := free_calls c hn L _ t hs' hsrc' h hm hz hr hd
  refine ⟨?_, ?_⟩
  · rw [hf, ha]
    exact hl _
  · rw [hf]
    exact energy_freeStep hs.consts _ _ _ _ (normSq_Teb _ _ _ _) _ hd.1 hd.2

end

/-! ### Examples -/

/-- Four cells along z. -/
noncomputable def meshPulseCfg : Cfg := { waveCfg with Nz := 4 }

instance : NeZero meshPulseCfg.Nz := ⟨by show (4 : ℕ) ≠ 0; norm_num⟩

/-- Neither particles nor fields. -/
noncomputable def meshPulseSim : Sim :=
  { waveSim with
    zmax := 4
    interp := fun _ => ⟨⟨0, 0, 0⟩, ⟨0, 0, 0⟩, ⟨0, 0, 0⟩, 0⟩
    spect := fun _ => ⟨4, 2, kzTrue 4 1, fun _ => 1, fun _ _ => ⟨0, 0, 0, 0, 0, 0, 0, 0, 0, 0, 0, 0, 0, 0, 0, 0, 0⟩⟩ }

/-- A radially polarized field in the first cell. -/
noncomputable def radialPulse (x y z _t : ℝ) : ℝ × ℝ := if z < 1 then (x, y) else (0, 0)

private theorem meshPulse_ok : VacuumOk meshPulseCfg meshPulseSim where
  consts := ⟨one_pos, one_pos, one_pos, by norm_num [meshPulseCfg, waveCfg, cubicCfg]⟩
  Nz := fun _ _ => rfl
  Nr := fun _ _ => rfl
  trans := fun m hm => wave_trans m hm meshPulseCfg rfl rfl
  kr := fun m hm h => absurd (show m = 0 from by have : m < 1 := hm; omega) h

private theorem meshPulse_src : NoSources meshPulseCfg meshPulseSim where
  species := fun sp h => absurd h List.not_mem_nil
  spect := fun m _ iz _ ir _ => ⟨rfl, fun n => by cases n <;> rfl⟩

private theorem meshPulse_zero {iz ir : ℕ} (hz : iz < 4) (hr : ir < 2) :
    emAt meshPulseCfg meshPulseSim 0 iz ir = ⟨⟨0, 0, 0⟩, ⟨0, 0, 0⟩⟩ := by
  have h0 : 0 < meshPulseCfg.Nm := Nat.one_pos
  unfold emAt
  rw [start_cell _ _ h0]
  have v := fun o o' => toSpectVect_nil meshPulseCfg (m := 0) o o' (iz := iz) (ir := ir) hz hr
  have w := fun o => toSpectScal_nil meshPulseCfg (m := 0) o (iz := iz) (ir := ir) hz hr
  exact EM.ext (V3.ext (v _ _).1 (v _ _).2 (w _)) (V3.ext (v _ _).1 (v _ _).2 (w _))

private theorem meshPulse_arrays (iz ir : ℕ) : (meshPulseCfg.laserArrays radialPulse none meshPulseSim 0).1 iz ir =
      (if iz = 0 then ((ir : ℂ) + 0.5) else 0) ∧ (meshPulseCfg.laserArrays radialPulse none meshPulseSim 0).2 iz ir = 0 := by
  have hz : ((0 : ℝ) + ((iz : ℝ) + 0.5) * (1 / 1) < 1) ↔ iz = 0 := by
    constructor
    · intro h
      by_contra hi
      have : (1 : ℝ) ≤ iz := by exact_mod_cast Nat.one_le_iff_ne_zero.2 hi
      norm_num at h
      linarith
    · rintro rfl; norm_num
  have ring' : ∀ θ : ℝ, ringErEt 1 radialPulse none 0 (0 + ((iz : ℝ) + 0.5) * (1 / 1)) (((ir : ℝ) + 0.5) * (1 / 1)) θ =
      (if iz = 0 then (ir : ℝ) + 0.5 else 0, 0) := by
    intro θ
    have hsc := Real.sin_sq_add_cos_sq θ
    unfold ringErEt radialPulse
    simp only [hz]
    split_ifs
    · refine Prod.ext ?_ ?_
      · show Real.cos θ * ((ir + 0.5) * (1 / 1) * Real.cos θ) + Real.sin θ * ((ir + 0.5) * (1 / 1) * Real.sin θ) = _
        linear_combination ((ir : ℝ) + 0.5) * hsc
      · show -Real.sin θ * ((ir + 0.5) * (1 / 1) * Real.cos θ) + Real.cos θ * ((ir + 0.5) * (1 / 1) * Real.sin θ) = 0
        ring
    · simp
  have key : laserErEt 1 radialPulse none 1 0 (0 + ((iz : ℝ) + 0.5) * (1 / 1)) (((ir : ℝ) + 0.5) * (1 / 1)) 0 =
      (if iz = 0 then ((ir : ℂ) + 0.5) else 0, 0) := by
    unfold laserErEt ifft
    simp only [ring']
    split_ifs
    · simp [Finset.sum_range_succ]
      ring
    · simp
  exact ⟨congrArg Prod.fst key, congrArg Prod.snd key⟩

private theorem meshPulse_E : (emAt meshPulseCfg (meshPulseCfg.addLaser radialPulse none 1 meshPulseSim) 0 1 0).E.p = 3 / 16 := by
  have h0 : 0 < meshPulseCfg.Nm := Nat.one_pos
  have h1 : (1 : ℕ) < meshPulseCfg.Nz := by show 1 < 4; norm_num
  have h2 : (0 : ℕ) < meshPulseCfg.Nr := by show 0 < 2; norm_num
  rw [emAt_addLaser meshPulseCfg radialPulse none 1 meshPulseSim meshPulse_ok h0 h1 h2, meshPulse_zero (by norm_num) (by norm_num)]
  show 0 + (meshPulseCfg.laserEM radialPulse none 1 meshPulseSim 0 1 0).E.p = _
  rw [zero_add, (laserEM_E meshPulseCfg radialPulse none 1 meshPulseSim h0 h1 h2).1]
  have hf : laserFilter (1 / meshPulseCfg.invdz) (kzTrue meshPulseCfg.Nz (1 / meshPulseCfg.invdz) 1) = 3 / 4 := by
    have hk : kzTrue 4 (1 / 1) 1 * (1 / 1) / 2 = Real.pi / 4 := by
      norm_num [kzTrue, fftfreq]
      ring
    show Real.cos (kzTrue 4 (1 / 1) 1 * (1 / 1) / 2) ^ 2 * (2 - Real.cos (kzTrue 4 (1 / 1) 1 * (1 / 1) / 2) ^ 2) = 3 / 4
    rw [hk, Real.cos_pi_div_four]
    have : (Real.sqrt 2 / 2) ^ 2 = 1 / 2 := by rw [div_pow, Real.sq_sqrt (by norm_num)]; norm_num
    rw [this]
    norm_num
  have hE : (emAt meshPulseCfg (withErEt (meshPulseCfg.laserArrays radialPulse none meshPulseSim) meshPulseSim) 0 1 0).E.p = 1 / 4 := by
    unfold emAt
    rw [start_cell _ _ h0]
    show (meshPulseCfg.toSpectVect 0 (meshPulseCfg.laserArrays radialPulse none meshPulseSim 0).1
      (meshPulseCfg.laserArrays radialPulse none meshPulseSim 0).2 _ _).1 1 0 = _
    rw [toSpectVect_eq]
    unfold fwd
    dsimp only
    rw [if_pos ⟨h1, h2⟩]
    simp only [meshPulse_arrays]
    show ∑ l ∈ Finset.range 2, fftAxis0 4 false _ 1 l * (((if l = 0 then (1 : ℝ) else 0) : ℝ) : ℂ) = _
    simp only [Finset.sum_range_succ, Finset.sum_range_zero]
    unfold fftAxis0 fftZ
    have h4 : ∀ f : ZMod 4 → ℂ, ∑ j : ZMod 4, f j = f 0 + f 1 + f 2 + f 3 := fun f => Fin.sum_univ_four f
    have v0 : (0 : ZMod 4).val = 0 := rfl
    have v1 : (1 : ZMod 4).val = 1 := rfl
    have v2 : (2 : ZMod 4).val = 2 := rfl
    have v3 : (3 : ZMod 4).val = 3 := rfl
    simp only [h4, v0, v1, v2, v3]
    norm_num
  rw [hf, hE]
  norm_num

/-- The hypotheses of the theorems can be met with a pulse that does not vanish: it is transmitted by any number of iterations. -/
example (L : List (ℕ × Opts)) : ∃ t ω, meshPulseCfg.calls L (meshPulseCfg.addLaser radialPulse none 1 meshPulseSim) = .ok t ∧
    Travels 1 1 (Real.pi / 2) 1 ω ∧
    (emAt meshPulseCfg t 0 1 0).E.p = Complex.exp (-(Complex.I * ω) * (((L.map Prod.fst).sum * meshPulseCfg.dt : ℝ) : ℂ)) * (3 / 16) := by
  have hs : (0 : ℝ) < Real.sqrt (Real.pi ^ 2 + 1) := Real.sqrt_pos.2 (by positivity)
  have hk : kzTrue 4 1 1 = Real.pi / 2 := by
    norm_num [kzTrue, fftfreq]
    ring
  obtain ⟨t, h, -⟩ := C87_total_partial meshPulseCfg L (meshPulseCfg.addLaser radialPulse none 1 meshPulseSim) (by
    refine ⟨one_pos, ?_, one_pos, one_pos, ?_, le_refl _, Nat.one_pos, rfl, ?_, fun _ _ => rfl, fun _ _ _ => rfl, ?_,
      fun _ h => absurd h List.not_mem_nil, fun _ h => absurd h List.not_mem_nil, fun _ h => absurd h List.not_mem_nil,
      fun _ h => absurd h List.not_mem_nil⟩
    · show 0 < 1 / Real.sqrt (Real.pi ^ 2 + 1)
      positivity
    · show 2 ≤ 4; norm_num
    · show 2 ≤ 10; norm_num
    · show ((4 : ℝ) - 0) * 1 = (4 : ℕ); norm_num)
  obtain ⟨ω, hω, hw⟩ := C107_alone meshPulseCfg radialPulse none 1 Nat.one_pos meshPulseSim meshPulse_ok meshPulse_src (Or.inl rfl) 0 1 0
    Nat.one_pos (by show 1 < 4; norm_num) (by show 0 < 2; norm_num)
    (by show kzTrue 4 1 1 ≠ 0; rw [hk]; exact (by positivity : (0 : ℝ) < Real.pi / 2).ne') (meshPulse_zero (by norm_num) (by norm_num))
  refine ⟨t, ω, h, ?_, ?_⟩
  · have : Travels 1 1 (kzTrue 4 1 1) 1 ω := hω
    rwa [hk] at this
  · have := congrArg (fun f : EM => f.E.p) (hw L t h).1
    dsimp only [EM.times] at this
    rw [meshPulse_E, show (schemeOf meshPulseCfg.V meshPulseCfg.galilean).gridVelocity = 0 from rfl] at this
    simpa using this

end Fbpic.Pic
