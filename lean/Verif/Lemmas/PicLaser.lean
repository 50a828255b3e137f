import Verif.Model.PicLaser
import Verif.Spec.PicLaser
import Verif.Lemmas.PicVacuum
import Verif.Props.DirectLaser

/-!
# Lemmas: a laser pulse on the grid
-/

namespace Fbpic.Pic

open Transform ExternalField Step DirectLaser BoostConv
open Spec (VacuumOk emAt TransOk V3 EM div hankel EM.plus EM.times laserFilter withErEt Travels)

variable (c : Cfg) [NeZero c.Nz]

theorem fft_add (N : ℕ) [NeZero N] (a b : Buf) (i j : ℕ) :
    fftAxis0 N false (a + b) i j = fftAxis0 N false a i j + fftAxis0 N false b i j := by
  simp only [fftAxis0, Bool.false_eq_true, if_false, fftZ, Pi.add_apply, ← Finset.sum_add_distrib]
  exact Finset.sum_congr rfl fun l _ => by ring

theorem fwd_add (Nz Nr : ℕ) [NeZero Nz] (M : ℕ → ℕ → ℝ) (a b o o' o'' : Buf) {iz ir : ℕ} (hz : iz < Nz) (hr : ir < Nr) :
    fwd Nz Nr M (a + b) o iz ir = fwd Nz Nr M a o' iz ir + fwd Nz Nr M b o'' iz ir := by
  unfold fwd
  rw [if_pos ⟨hz, hr⟩, if_pos ⟨hz, hr⟩, if_pos ⟨hz, hr⟩]
  unfold hankel
  rw [← Finset.sum_add_distrib]
  exact Finset.sum_congr rfl fun l _ => by rw [fft_add, add_mul]

/-- The fields of a sum are the sums of the fields. -/
theorem emAt_add {s s' s'' : Sim} {m iz ir : ℕ} (hm : m < c.Nm) (hz : iz < c.Nz) (hr : ir < c.Nr)
    (hE : (s''.interp m).E = ⟨(s.interp m).E.r + (s'.interp m).E.r, (s.interp m).E.t + (s'.interp m).E.t,
      (s.interp m).E.z + (s'.interp m).E.z⟩)
    (hB : (s''.interp m).B = ⟨(s.interp m).B.r + (s'.interp m).B.r, (s.interp m).B.t + (s'.interp m).B.t,
      (s.interp m).B.z + (s'.interp m).B.z⟩) :
    emAt c s'' m iz ir = EM.plus (emAt c s m iz ir) (emAt c s' m iz ir) := by
  have e1 : ∀ a b o o' o'', c.toSpectScal m (a + b) o iz ir = c.toSpectScal m a o' iz ir + c.toSpectScal m b o'' iz ir := by
    intro a b o o' o''
    rw [toSpectScal_eq, toSpectScal_eq, toSpectScal_eq]
    exact fwd_add _ _ _ _ _ _ _ _ hz hr
  have e2 : ∀ r t r' t' o o' p p' q q', (c.toSpectVect m (r + r') (t + t') o o').1 iz ir
        = (c.toSpectVect m r t p p').1 iz ir + (c.toSpectVect m r' t' q q').1 iz ir ∧
      (c.toSpectVect m (r + r') (t + t') o o').2 iz ir
        = (c.toSpectVect m r t p p').2 iz ir + (c.toSpectVect m r' t' q q').2 iz ir := by
    intro r t r' t' o o' p p' q q'
    rw [toSpectVect_eq, toSpectVect_eq, toSpectVect_eq]
    dsimp only
    constructor
    · rw [← fwd_add _ _ _ _ _ o _ _ hz hr]
      refine congrArg (fun a => fwd c.Nz c.Nr _ a _ iz ir) ?_
      funext i j
      simp only [Pi.add_apply]
      ring
    · rw [← fwd_add _ _ _ _ _ o' _ _ hz hr]
      refine congrArg (fun a => fwd c.Nz c.Nr _ a _ iz ir) ?_
      funext i j
      simp only [Pi.add_apply]
      ring
  unfold emAt
  rw [start_cell c s'' hm, start_cell c s hm, start_cell c s' hm, hE, hB]
  exact EM.ext (V3.ext (e2 _ _ _ _ _ _ _ _ _ _).1 (e2 _ _ _ _ _ _ _ _ _ _).2 (e1 _ _ _ _ _))
    (V3.ext (e2 _ _ _ _ _ _ _ _ _ _).1 (e2 _ _ _ _ _ _ _ _ _ _).2 (e1 _ _ _ _ _))

variable (profile : ℝ → ℝ → ℝ → ℝ → ℝ × ℝ) (boost : Option Conv) (dir : ℝ)

/-- The arrays that `get_laser_Er_Et` returns. -/
noncomputable def Cfg.laserArrays (s : Sim) (m : ℕ) : Buf × Buf :=
  ((c.laserInterp profile boost s m).E.r, (c.laserInterp profile boost s m).E.t)

theorem laserSpect_shape (s : Sim) (m : ℕ) : (s.spect m).SameShape (c.laserSpect profile boost dir s m) :=
  ⟨rfl, rfl, rfl, rfl⟩

/-- The spectral cell before `calculate_laser_fields`. -/
noncomputable def Cfg.laserIn (s : Sim) (m iz ir : ℕ) : SpecCell :=
  (c.spectE m (c.laserInterp profile boost s m) { s.spect m with cell := fun _ _ => blankCell }).cell iz ir

theorem laserSpect_cell (s : Sim) (m iz ir : ℕ) : (c.laserSpect profile boost dir s m).cell iz ir =
    laserCell c.k.c dir (1 / c.invdz) (kzTrue c.Nz (1 / c.invdz) iz) ((s.spect m).kz iz) ((s.spect m).kr ir)
      (c.laserIn profile boost s m iz ir) := rfl

theorem laserIn_E (s : Sim) {m iz ir : ℕ} (hm : m < c.Nm) (hz : iz < c.Nz) (hr : ir < c.Nr) :
    (c.laserIn profile boost s m iz ir).Ep = (emAt c (withErEt (c.laserArrays profile boost s) s) m iz ir).E.p ∧
    (c.laserIn profile boost s m iz ir).Em = (emAt c (withErEt (c.laserArrays profile boost s) s) m iz ir).E.m := by
  have h := start_em c (s := withErEt (c.laserArrays profile boost s) s)
    (s' := { s with interp := c.laserInterp profile boost s, spect := fun m => { s.spect m with cell := fun _ _ => blankCell } })
    hm hz hr rfl rfl
  have h1 := congrArg (fun f : EM => f.E.p) h
  have h2 := congrArg (fun f : EM => f.E.m) h
  dsimp only at h1 h2
  rw [start_cell c _ hm] at h1 h2
  exact ⟨h1, h2⟩

theorem laser_filter (dz k : ℝ) : (1 - Real.sin (0.5 * k * dz) ^ 2) * (1 + Real.sin (0.5 * k * dz) ^ 2) = laserFilter dz k := by
  have h := Real.sin_sq_add_cos_sq (k * dz / 2)
  have e : 0.5 * k * dz = k * dz / 2 := by ring
  have h' : Real.sin (k * dz / 2) ^ 2 = 1 - Real.cos (k * dz / 2) ^ 2 := by linarith
  unfold laserFilter
  rw [e, h']
  ring

/-- What is added to the fields at one wavenumber. -/
noncomputable def Cfg.laserEM (s : Sim) (m iz ir : ℕ) : EM := ((c.laserSpect profile boost dir s m).cell iz ir).em

theorem laserEM_E (s : Sim) {m iz ir : ℕ} (hm : m < c.Nm) (hz : iz < c.Nz) (hr : ir < c.Nr) :
    (c.laserEM profile boost dir s m iz ir).E.p = laserFilter (1 / c.invdz) (kzTrue c.Nz (1 / c.invdz) iz) *
      (emAt c (withErEt (c.laserArrays profile boost s) s) m iz ir).E.p ∧
    (c.laserEM profile boost dir s m iz ir).E.m = laserFilter (1 / c.invdz) (kzTrue c.Nz (1 / c.invdz) iz) *
      (emAt c (withErEt (c.laserArrays profile boost s) s) m iz ir).E.m := by
  obtain ⟨h1, h2⟩ := laserIn_E c profile boost s hm hz hr
  unfold Cfg.laserEM
  rw [laserSpect_cell, ← h1, ← h2, ← laser_filter]
  exact ⟨mul_comm _ _, mul_comm _ _⟩

/-- The fields on the grid after `add_laser_direct`. -/
theorem emAt_addLaser (s : Sim) (hs : VacuumOk c s) {m iz ir : ℕ} (hm : m < c.Nm) (hz : iz < c.Nz) (hr : ir < c.Nr) :
    emAt c (c.addLaser profile boost dir s) m iz ir =
      EM.plus (emAt c s m iz ir) (c.laserEM profile boost dir s m iz ir) := by
  set u : Sim := { s with
    interp := fun m => c.interpEB m (c.laserSpect profile boost dir s m) (c.laserInterp profile boost s m)
    spect := c.laserSpect profile boost dir s } with hu
  have hi : (c.addLaser profile boost dir s).interp m = { s.interp m with
      E := ⟨(s.interp m).E.r + (u.interp m).E.r, (s.interp m).E.t + (u.interp m).E.t, (s.interp m).E.z + (u.interp m).E.z⟩
      B := ⟨(s.interp m).B.r + (u.interp m).B.r, (s.interp m).B.t + (u.interp m).B.t, (s.interp m).B.z + (u.interp m).B.z⟩ } :=
    if_pos hm
  rw [emAt_add c (s := s) (s' := u) hm hz hr (by rw [hi]) (by rw [hi])]
  congr 1
  have hsync : c.Synced u := fun m _ => ⟨c.laserInterp profile boost s m, rfl, rfl⟩
  have hT := hs.trans m hm
  by_cases hl : m ≠ 0 ∧ ir = 0
  · obtain ⟨hm0, rfl⟩ := hl
    obtain ⟨a1, a2, a3, a4⟩ := emAt_low u hm hT hm0 hz hr
    obtain ⟨b1, b2⟩ := emAt_minus hsync hm hT hz hr
    have hE := (laserEM_E c profile boost dir s hm hz hr).1
    rw [(emAt_low (withErEt (c.laserArrays profile boost s) s) hm hT hm0 hz hr).1, mul_zero] at hE
    have hk : (s.spect m).kr 0 = 0 := hs.kr m hm hm0
    have hEp : (c.laserIn profile boost s m iz 0).Ep = 0 := by
      rw [(laserIn_E c profile boost s hm hz hr).1]
      exact (emAt_low (withErEt (c.laserArrays profile boost s) s) hm hT hm0 hz hr).1
    refine EM.ext (V3.ext ?_ b1 ?_) (V3.ext ?_ b2 ?_)
    · rw [a1, hE]
    · rw [a2]
      unfold Cfg.laserEM
      rw [laserSpect_cell, hk]
      simp [laserCell, SpecCell.em]
    · rw [a3]
      unfold Cfg.laserEM
      rw [laserSpect_cell, hk]
      simp [laserCell, SpecCell.em, hEp]
    · rw [a4]
      unfold Cfg.laserEM
      rw [laserSpect_cell, hk]
      simp [laserCell, SpecCell.em]
  · exact (hsync.back c hm hT hz hr).1 hl

/-! ### Propagation -/

theorem freeAt_plus (k : Consts) (kz kr : ℝ) (V : Option ℝ) (b : Bool) (t : ℝ) (f g : EM) :
    freeAt k kz kr V b t (EM.plus f g) = EM.plus (freeAt k kz kr V b t f) (freeAt k kz kr V b t g) := by
  refine EM.ext (V3.ext ?_ ?_ ?_) (V3.ext ?_ ?_ ?_) <;>
    simp only [freeAt, freeStep, Spec.EM.smul, EM.plus, Spec.curl] <;> ring

theorem div_plus (kz kr : ℝ) (f g : EM) : div kz kr (EM.plus f g).E = div kz kr f.E + div kz kr g.E ∧
    div kz kr (EM.plus f g).B = div kz kr f.B + div kz kr g.B := by
  constructor <;> simp only [div, EM.plus] <;> ring

theorem freeAt_laser (k : Consts) (hk : k.Ok) (dir dz kzT kz kr : ℝ) (hdir : dir = 1 ∨ dir = -1) (hkz : kz ≠ 0) (a : SpecCell)
    (hJ : a.J = ⟨0, 0, 0⟩) (hp : a.rhoPrev = 0) (hn : a.rhoNext = 0) (V : Option ℝ) (b : Bool) :
    ∃ ω, Travels k.c dir kz kr ω ∧ ∀ T : ℝ, freeAt k kz kr V b T (laserCell k.c dir dz kzT kz kr a).em =
      EM.times (Complex.exp (-(Complex.I * (ω - kz * (schemeOf V b).gridVelocity)) * T)) (laserCell k.c dir dz kzT kz kr a).em := by
  obtain ⟨ω, hω, h⟩ := C65_push k hk dir dz kzT hdir ⟨1, 1, fun _ => kz, fun _ => kr, fun _ _ => laserCell k.c dir dz kzT kz kr a⟩
    0 0 Nat.one_pos Nat.one_pos hkz a rfl hJ hp hn V b false false
  refine ⟨ω, hω, fun T => ?_⟩
  have hT := h [T]
  rw [List.sum_singleton] at hT
  rw [← hT]
  have hd := (C65_div k.c dir dz kzT kz kr hk.c_pos hdir hkz a).1
  unfold pushes
  simp only [List.foldl_cons, List.foldl_nil]
  rw [push_cell _ _ _ _ _ _ _ Nat.one_pos Nat.one_pos, pushRho_em]
  exact (pushEBWith_vacuum (k := k) (dt := T) V b false false (laserCell k.c dir dz kzT kz kr a) hJ hp hn hd).symm

end Fbpic.Pic
