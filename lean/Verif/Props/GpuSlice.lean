import Verif.Lemmas.GpuSlice
import Verif.Lemmas.BackTransform
import Verif.Props.GpuExchange
import Verif.Props.BackTransform

/-!
# C68: particles of back-transformed snapshots, CPU and GPU

On the GPU the particles that crossed the output plane are looked for only in the cells near the
plane.
-/

namespace Fbpic
open GpuExchange GpuSlice _root_.Spec
open BackTransform (Boost Snap)

variable {K : Type} [Field K] [LinearOrder K] [IsStrictOrderedRing K] [FloorRing K]

/-- The selection on the CPU is the one of C47. -/
theorem crossed_iff_caught (b : Boost K) (dt cur prev : K) (p : Ptcl K) :
    Crossed b.c dt cur prev p ↔
      BackTransform.caught b dt cur prev ⟨p.x, p.y, p.z, p.ux, p.uy, p.uz, p.invGamma⟩ := by
  unfold Crossed BackTransform.caught
  simp only [ge_iff_le]
  tauto

/-- Position in cells: a particle between the two planes is in one of the cells that are copied. -/
private theorem crossed_in_cells {b : Boost K} (hb : Fbpic.Spec.IsBoost b) {dt : K} (hdt : 0 < dt)
    (s : Snap K) (tm : K) {g : InterpGrid K} (hdz : 0 < g.dz) (p : Ptcl K)
    (hslow : |p.uz * p.invGamma| ≤ 1)
    (hc : Crossed b.c dt (s.zBoost b tm) (s.zBoost b (tm - dt)) p) :
    zIdx g.zmin g.dz (s.zBoost b tm) ≤ zIndex g.zmin g.dz p ∧
      zIndex g.zmin g.dz p ≤ zIdx g.zmin g.dz (s.zBoost b (tm - dt) + dt * b.c) := by
  have h1 := hb.c; have h3 := hb.beta; have h4 := hb.beta_lt
  have hplane : s.zBoost b (tm - dt) = s.zBoost b tm + b.c * dt / b.beta := by
    unfold Snap.zBoost Boost.invBeta; field_simp; ring
  have hcd : 0 < b.c * dt := by positivity
  have hfast : b.c * dt < b.c * dt / b.beta := by
    rw [lt_div_iff₀ h3]; nlinarith
  have hv := abs_le.1 hslow
  have hmul : p.uz * p.invGamma * b.c * dt = (p.uz * p.invGamma) * (b.c * dt) := by ring
  have hz : s.zBoost b tm ≤ p.z ∧ p.z ≤ s.zBoost b (tm - dt) + dt * b.c := by
    unfold Crossed at hc
    simp only [hmul] at hc
    have u1 : (p.uz * p.invGamma) * (b.c * dt) ≤ 1 * (b.c * dt) :=
      mul_le_mul_of_nonneg_right hv.2 hcd.le
    have u2 : -1 * (b.c * dt) ≤ (p.uz * p.invGamma) * (b.c * dt) :=
      mul_le_mul_of_nonneg_right hv.1 hcd.le
    rcases hc with ⟨c1, c2⟩ | ⟨c1, c2⟩
    · exact ⟨c2, by linarith⟩
    · exfalso; linarith
  have mono : ∀ x y : K, x ≤ y → ⌈(x - g.zmin) / g.dz - 1 / 2⌉ ≤ ⌈(y - g.zmin) / g.dz - 1 / 2⌉ := by
    intro x y hxy
    apply Int.ceil_le_ceil
    have : (x - g.zmin) / g.dz ≤ (y - g.zmin) / g.dz :=
      div_le_div_of_nonneg_right (by linarith) hdz.le
    linarith
  exact ⟨mono _ _ hz.1, mono _ _ hz.2⟩

/-- **C68** (partial: see `C68_violated_weight`). For every snapshot and time, and every state of a
species on the GPU (sorted or not, with any number of window moves since the last sort, any thread
schedule), the slice extracted on the GPU contains exactly the particles that crossed the plane during the last
time step, as on the CPU, each once and with the same attributes, except that the weight is replaced by
the weight times the level for an ionizable species. The species keeps its particles. -/
theorem C68_gpu_partial (b : Boost K) (hb : Fbpic.Spec.IsBoost b) (dt : K) (hdt : 0 < dt)
    (s : Snap K) (tm : K) {rad : Radial K} {t i : Bool} {g : InterpGrid K} {ps : List (Ptcl K)}
    {st : GpuSpecies K} (h : Holds rad t i g ps st) (hr : 0 < rad.invdr) (d : Device K)
    (hd : IsArgSort d.argsort) (hth : d.Covers (ps.length + g.Nz * (rad.Nr + 1)))
    (hrad : ∀ p ∈ ps, rad.rmin ≤ rad.radius p.x p.y) (hin : ∀ p ∈ ps, InGrid g st p)
    (hdz : 0 < g.dz) (hslow : ∀ p ∈ ps, |p.uz * p.invGamma| ≤ 1) :
    ∃ pd st' ps' qs, getParticleDataGpu d rad g b dt (s.zBoost b tm) (s.zBoost b (tm - dt)) st
        = .ok (pd, st') ∧ st'.arr = Species.ofList t i ps' ∧ ps'.Perm ps ∧
      getParticleSlice b dt (s.zBoost b tm) (s.zBoost b (tm - dt)) pd
        = PData.ofList t i (if i then Ptcl.wl else Ptcl.w) qs ∧
      qs.Perm (ps.filter fun p => Crossed b.c dt (s.zBoost b tm) (s.zBoost b (tm - dt)) p) ∧
      getParticleSlice b dt (s.zBoost b tm) (s.zBoost b (tm - dt))
          (getParticleDataCpu (Species.ofList t i ps))
        = PData.ofList t i Ptcl.w
          (ps.filter fun p => Crossed b.c dt (s.zBoost b tm) (s.zBoost b (tm - dt)) p) := by
  have hcp : s.zBoost b tm ≤ s.zBoost b (tm - dt) + dt * b.c := by
    have h1 := hb.c; have h3 := hb.beta
    have hplane : s.zBoost b (tm - dt) = s.zBoost b tm + b.c * dt / b.beta := by
      unfold Snap.zBoost Boost.invBeta; field_simp; ring
    have : 0 < b.c * dt / b.beta := by positivity
    have : 0 < dt * b.c := by positivity
    linarith
  obtain ⟨ps', st', hperm, hrun, harr⟩ := getParticleDataGpu_eq h hr d hd hth hrad hin hdz b dt
    (s.zBoost b tm) (s.zBoost b (tm - dt)) hcp
  refine ⟨_, st', ps', _, hrun, harr, hperm, getParticleSlice_ofList _ _ _ _ _ _ _ _, ?_, ?_⟩
  · rw [List.filter_filter]
    have : ps'.filter (fun p => decide (Crossed b.c dt (s.zBoost b tm) (s.zBoost b (tm - dt)) p) &&
        decide (zIdx g.zmin g.dz (s.zBoost b tm) ≤ zIndex g.zmin g.dz p ∧
          zIndex g.zmin g.dz p ≤ zIdx g.zmin g.dz (s.zBoost b (tm - dt) + dt * b.c)))
        = ps'.filter fun p => decide (Crossed b.c dt (s.zBoost b tm) (s.zBoost b (tm - dt)) p) := by
      apply List.filter_congr
      intro p hp
      rw [← Bool.decide_and]
      apply decide_eq_decide.2
      exact ⟨fun h => h.1, fun h => ⟨h, crossed_in_cells hb hdt s tm hdz p
        (hslow p (hperm.mem_iff.1 hp)) h⟩⟩
    rw [this]
    exact hperm.filter _
  · have : getParticleDataCpu (Species.ofList t i ps) = PData.ofList t i Ptcl.w ps := by
      cases t <;> cases i <;> rfl
    rw [this, getParticleSlice_ofList]

/-- **C68**, non-ionizable species: CPU and GPU record the same particles with the same attributes. -/
theorem C68_same (b : Boost K) (hb : Fbpic.Spec.IsBoost b) (dt : K) (hdt : 0 < dt)
    (s : Snap K) (tm : K) {rad : Radial K} {t : Bool} {g : InterpGrid K} {ps : List (Ptcl K)}
    {st : GpuSpecies K} (h : Holds rad t false g ps st) (hr : 0 < rad.invdr) (d : Device K)
    (hd : IsArgSort d.argsort) (hth : d.Covers (ps.length + g.Nz * (rad.Nr + 1)))
    (hrad : ∀ p ∈ ps, rad.rmin ≤ rad.radius p.x p.y) (hin : ∀ p ∈ ps, InGrid g st p)
    (hdz : 0 < g.dz) (hslow : ∀ p ∈ ps, |p.uz * p.invGamma| ≤ 1) :
    ∃ pd st' l l', getParticleDataGpu d rad g b dt (s.zBoost b tm) (s.zBoost b (tm - dt)) st
        = .ok (pd, st') ∧
      getParticleSlice b dt (s.zBoost b tm) (s.zBoost b (tm - dt)) pd = PData.ofList t false Ptcl.w l ∧
      getParticleSlice b dt (s.zBoost b tm) (s.zBoost b (tm - dt))
          (getParticleDataCpu (Species.ofList t false ps)) = PData.ofList t false Ptcl.w l' ∧
      l.Perm l' := by
  obtain ⟨pd, st', ps', qs, h1, -, -, h2, h3, h4⟩ := C68_gpu_partial b hb dt hdt s tm h hr d hd hth
    hrad hin hdz hslow
  exact ⟨pd, st', qs, _, h1, h2, h4, h3⟩

/-- **C68** is violated for ionizable species: the GPU writes the weight times the level instead of
the weight. Here for every state whose stored `w_times_level` is consistent and whose crossing particles have
positive weights, with at least one ion at level 2 or more and none at level 0: the sum of the
recorded weights (the number of ions) is larger than on the CPU. -/
theorem C68_violated_weight (b : Boost K) (hb : Fbpic.Spec.IsBoost b) (dt : K) (hdt : 0 < dt)
    (s : Snap K) (tm : K) {rad : Radial K} {t : Bool} {g : InterpGrid K} {ps : List (Ptcl K)}
    {st : GpuSpecies K} (h : Holds rad t true g ps st) (hr : 0 < rad.invdr) (d : Device K)
    (hd : IsArgSort d.argsort) (hth : d.Covers (ps.length + g.Nz * (rad.Nr + 1)))
    (hrad : ∀ p ∈ ps, rad.rmin ≤ rad.radius p.x p.y) (hin : ∀ p ∈ ps, InGrid g st p)
    (hdz : 0 < g.dz) (hslow : ∀ p ∈ ps, |p.uz * p.invGamma| ≤ 1)
    (hwl : ∀ p ∈ ps, 0 < p.w ∧ 1 ≤ p.level ∧ p.wl = p.w * (p.level : K))
    (hp : ∃ p ∈ ps, Crossed b.c dt (s.zBoost b tm) (s.zBoost b (tm - dt)) p ∧ 2 ≤ p.level) :
    ∃ pd st', getParticleDataGpu d rad g b dt (s.zBoost b tm) (s.zBoost b (tm - dt)) st
        = .ok (pd, st') ∧
      (getParticleSlice b dt (s.zBoost b tm) (s.zBoost b (tm - dt))
          (getParticleDataCpu (Species.ofList t true ps))).w.sum
        < (getParticleSlice b dt (s.zBoost b tm) (s.zBoost b (tm - dt)) pd).w.sum := by
  obtain ⟨pd, st', ps', qs, h1, -, -, h2, h3, h4⟩ := C68_gpu_partial b hb dt hdt s tm h hr d hd hth
    hrad hin hdz hslow
  refine ⟨pd, st', h1, ?_⟩
  rw [h2, h4]
  simp only [PData.ofList, if_true]
  rw [(h3.map Ptcl.wl).sum_eq]
  apply List.sum_lt_sum
  · intro p hp
    obtain ⟨w0, l1, e⟩ := hwl p (List.mem_filter.1 hp).1
    rw [e]
    have : (1 : K) ≤ (p.level : K) := by exact_mod_cast l1
    nlinarith
  · obtain ⟨p, hp, hc, hl⟩ := hp
    refine ⟨p, List.mem_filter.2 ⟨hp, by simpa using hc⟩, ?_⟩
    obtain ⟨w0, -, e⟩ := hwl p hp
    rw [e]
    have : (2 : K) ≤ (p.level : K) := by exact_mod_cast hl
    nlinarith

/-! ### Non-vacuity, and what happens in the last half cell -/

/-- A particle at `z` with id `n` and velocity `3/5`, at level 2. -/
def exSlicePtcl (z : ℚ) (n : ℕ) : Ptcl ℚ := ⟨1, 2, z, 0, 0, 3 / 4, 4 / 5, 7, n, 2, 14⟩

/-- A grid of 20 cells, sorted two window moves ago. -/
def exSliceState : GpuSpecies ℚ :=
  moveWindow 2 { sortParticles exRadial ⟨20, -2, 18, 1⟩ exDevice.argsort exDevice.threads
    (exGpu [exSlicePtcl 14 1, exSlicePtcl 12 2, exSlicePtcl 5 3]) with sorted := true }

example : Holds exRadial true true (movedGrid 2 ⟨20, -2, 18, 1⟩)
    [exSlicePtcl 5 3, exSlicePtcl 12 2, exSlicePtcl 14 1] exSliceState := by
  refine Holds.move _ _ _ 2 (Holds.sort _ [exSlicePtcl 14 1, exSlicePtcl 12 2, exSlicePtcl 5 3] _ _
    exDevice (Holds.unsorted _ _ _ rfl rfl) exArgsort_isArgSort ?_ (by decide +kernel))
  intro i hi
  simp [exDevice, exRadial] at hi ⊢
  omega

/-- The plane went from 38/3 to 11 during the last step: the particle that is now at 12 crossed it. The
GPU finds it, with weight 14 instead of 7. -/
example : ((getParticleDataGpu exDevice exRadial (movedGrid 2 ⟨20, -2, 18, 1⟩) exBoost 1
      ((⟨12, -20, 100⟩ : Snap ℚ).zBoost exBoost 3)
      ((⟨12, -20, 100⟩ : Snap ℚ).zBoost exBoost (3 - 1)) exSliceState).toOption.map fun q =>
        getParticleSlice exBoost 1 ((⟨12, -20, 100⟩ : Snap ℚ).zBoost exBoost 3)
          ((⟨12, -20, 100⟩ : Snap ℚ).zBoost exBoost (3 - 1)) q.1)
      = some (PData.ofList true true Ptcl.wl [exSlicePtcl 12 2]) ∧
    getParticleSlice exBoost 1 ((⟨12, -20, 100⟩ : Snap ℚ).zBoost exBoost 3)
      ((⟨12, -20, 100⟩ : Snap ℚ).zBoost exBoost (3 - 1))
      (getParticleDataCpu (Species.ofList true true
        [exSlicePtcl 14 1, exSlicePtcl 12 2, exSlicePtcl 5 3]))
      = PData.ofList true true Ptcl.w [exSlicePtcl 12 2] := by
  constructor <;> decide +kernel

/-- In a box without guard cells (one process, periodic) a particle in the last half cell, at 118/10 in
`[0, 12)`, is sorted into the first cell: the GPU does not find it although it crossed the plane. -/
theorem C68_violated_last_half_cell :
    ((getParticleDataGpu exDevice exRadial ⟨12, 0, 12, 1⟩ exBoost 1
      ((⟨12, -20, 100⟩ : Snap ℚ).zBoost exBoost 3)
      ((⟨12, -20, 100⟩ : Snap ℚ).zBoost exBoost (3 - 1))
      (exGpu [exSlicePtcl (59 / 5) 1])).toOption.map fun q =>
        getParticleSlice exBoost 1 ((⟨12, -20, 100⟩ : Snap ℚ).zBoost exBoost 3)
          ((⟨12, -20, 100⟩ : Snap ℚ).zBoost exBoost (3 - 1)) q.1)
      = some (PData.ofList true true Ptcl.wl []) ∧
    getParticleSlice exBoost 1 ((⟨12, -20, 100⟩ : Snap ℚ).zBoost exBoost 3)
      ((⟨12, -20, 100⟩ : Snap ℚ).zBoost exBoost (3 - 1))
      (getParticleDataCpu (Species.ofList true true [exSlicePtcl (59 / 5) 1]))
      = PData.ofList true true Ptcl.w [exSlicePtcl (59 / 5) 1] := by
  constructor <;> decide +kernel

end Fbpic
