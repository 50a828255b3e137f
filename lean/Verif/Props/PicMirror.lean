import Verif.Lemmas.PicMirrorRun
import Verif.Props.PicCloud
import Verif.Props.PicReal
import Verif.Props.PicVacuum

/-!
# C108: reflecting a simulation in a plane through the axis reflects its result
-/

namespace Fbpic.Pic

open Transform ExternalField Step
open Spec (negIdx Absent AbsentVec VacuumOk NoSources emAt SameRun SameCloud physical atAngle GridArray Transverse V3 EM div curl EM.smul TransOk)
open Spec.Reflect (arr Cells ExtReflected Reflected OddAt Removed EvenSolver MirrorSymmetric sign)
open scoped ComplexConjugate

section
variable (c : Cfg) [NeZero c.Nz]

/-- **C108** (part: the stencil has a finite order, or the number of cells along z is odd, or nothing is at the Nyquist
wavenumber, see `C108_solver`). The particles, the fields and the external fields of a simulation are replaced by
their reflections in the plane `y = 0`. Then any sequence of calls to `step` that succeeds in the original succeeds in the
reflected simulation, and its result is the reflection of the original result, particles on the axis included. -/
theorem C108_reflection_partial (ext : List Ext) (hext : ExtReflected c ext) (hn : 0 < c.nthreads) (L : List (ℕ × Opts))
    (s s' t : Sim) (hs : EvenSolver c s) (h : Reflected c s s') (ht : c.calls L s = .ok t) :
    ∃ t', (c.withExt ext).calls L s' = .ok t' ∧ Reflected c t t' := by
  obtain ⟨t', h1, h2⟩ := (reflSim c ext hext hn hs.smooth).calls L s s' (reflInv_of c hs h) t ht fun _ _ => trivial
  exact ⟨t', h1, reflected_of c h2⟩

/-- **C108** (fields). The fields of a reflected state are the reflected fields: at the opposite angle each component is the
same or, for the azimuthal component of a polar vector and for the others of an axial vector, opposite. -/
theorem C108_fields (s s' : Sim) (h : Reflected c s s') (Nm : ℕ) (f : GridArray) (iz ir : ℕ) (θ : ℝ) :
    physical Nm s' f iz ir (-θ) = sign f * physical Nm s f iz ir θ := by
  have hf : ∀ m, f.get (s'.interp m) = arr (sign f) (f.get (s.interp m)) := by
    intro m
    cases f
    · exact h.Er m
    · exact h.Et m
    · exact h.Ez m
    · exact h.Br m
    · exact h.Bt m
    · exact h.Bz m
    · exact h.Jr m
    · exact h.Jt m
    · exact h.Jz m
    · exact h.rho m
  unfold physical atAngle
  rw [Finset.mul_sum]
  refine Finset.sum_congr rfl fun m _ => ?_
  show _ * (f.get (s'.interp m) iz ir * _).re = _ * (_ * (f.get (s.interp m) iz ir * _).re)
  rw [hf m]
  have : arr (sign f) (f.get (s.interp m)) iz ir * Complex.exp (-Complex.I * m * ((-θ : ℝ) : ℂ))
      = (sign f : ℝ) * conj (f.get (s.interp m) iz ir * Complex.exp (-Complex.I * m * (θ : ℂ))) := by
    unfold arr
    rw [map_mul, ← Complex.exp_conj]
    simp only [map_mul, map_neg, Complex.conj_I, Complex.conj_ofReal, map_natCast, Complex.ofReal_neg]
    rw [show -Complex.I * (m : ℂ) * -(θ : ℂ) = - -Complex.I * m * θ by ring, mul_assoc]
  rw [this, Complex.re_ofReal_mul, Complex.conj_re]
  ring

/-- **C108** (symmetric states). A simulation that is its own reflection, whatever the order and the splitting of the
macroparticles, stays so; each component of the fields is then even or odd in the angle. -/
theorem C108_symmetry_partial (hext : ExtReflected c c.ext) (hn : 0 < c.nthreads) (L : List (ℕ × Opts)) (s t : Sim)
    (hs : EvenSolver c s) (h : MirrorSymmetric c s) (ht : c.calls L s = .ok t) :
    MirrorSymmetric c t ∧
      ∀ (f : GridArray) (iz ir : ℕ) (θ : ℝ), physical c.Nm t f iz ir (-θ) = sign f * physical c.Nm t f iz ir θ := by
  obtain ⟨s', h1, h2⟩ := h
  obtain ⟨t', h3, h4⟩ := C108_reflection_partial c c.ext hext hn L s s' t hs h1 ht
  have h5 : c.calls L s' = .ok t' := h3
  obtain ⟨t'', h6, h7⟩ := C88_representation c c.nthreads hn hn L s' s t' h2 h5
  have h8 : t'' = t := by
    have : c.calls L s = .ok t'' := h6
    rw [ht] at this
    exact (Except.ok.inj this).symm
  subst h8
  refine ⟨⟨t', h4, h7⟩, fun f iz ir θ => ?_⟩
  have h9 := C108_fields c t'' t' h4 c.Nm f iz ir θ
  rw [← h9]
  unfold physical
  rw [h7.interp]

/-- **C108** (motion in a plane). If all the particles are in the plane and move in it, and the fields are symmetric, the
particles never leave the plane. -/
theorem C108_plane_partial (hext : ExtReflected c c.ext) (hn : 0 < c.nthreads) (L : List (ℕ × Opts)) (s t : Sim)
    (hs : EvenSolver c s) (h : Reflected c s s) (ht : c.calls L s = .ok t) :
    ∀ sp ∈ t.species, ∀ p ∈ sp.ptcl, p.push.y = 0 ∧ p.push.mom.uy = 0 := by
  obtain ⟨t', h3, h4⟩ := C108_reflection_partial c c.ext hext hn L s s t hs h ht
  have h5 : c.calls L s = .ok t' := h3
  rw [ht] at h5
  have h6 : t' = t := (Except.ok.inj h5).symm
  subst h6
  have h7 := h4.species
  intro sp hsp p hp
  obtain ⟨i, hi, rfl⟩ := List.getElem_of_mem hsp
  obtain ⟨j, hj, rfl⟩ := List.getElem_of_mem hp
  have e1 : t'.species[i] = Spec.Reflect.species t'.species[i] := by
    have : t'.species[i]? = (t'.species.map Spec.Reflect.species)[i]? := by rw [← h7]
    rw [List.getElem?_map, List.getElem?_eq_getElem hi] at this
    exact Option.some.inj this
  have e2 : t'.species[i].ptcl[j] = Spec.Reflect.ptcl t'.species[i].ptcl[j] := by
    have : t'.species[i].ptcl[j]? = (t'.species[i].ptcl.map Spec.Reflect.ptcl)[j]? := by
      conv_lhs => rw [e1]
      rfl
    rw [List.getElem?_map, List.getElem?_eq_getElem hj] at this
    exact Option.some.inj this
  have e3 : (t'.species[i].ptcl[j]).push.y = -(t'.species[i].ptcl[j]).push.y := congrArg (fun q => q.push.y) e2
  have e4 : (t'.species[i].ptcl[j]).push.mom.uy = -(t'.species[i].ptcl[j]).push.mom.uy :=
    congrArg (fun q => q.push.mom.uy) e2
  constructor <;> linarith

/-- **C108** (the code): with the wavenumbers and the smoother of the code the hypothesis on the solver holds if the number of
cells along z is odd, or the stencil has a finite order, or the smoother makes one or more passes along z and in a new
simulation the fields have no component at the Nyquist wavenumber. -/
theorem C108_solver (s : Sim) (dz : ℝ) (hdz : 0 < dz) (nOrder : ℤ) (nPass : ℕ) (comp : Bool)
    (hNz : ∀ m < c.Nm, (s.spect m).Nz = c.Nz) (hNr : ∀ m < c.Nm, (s.spect m).Nr = c.Nr)
    (hK : ∀ m < c.Nm, ∀ iz < c.Nz, modifiedK (kzTrue c.Nz dz iz) nOrder dz = .ok ((s.spect m).kz iz))
    (hf : ∀ fz fr, c.filter = some (fz, fr) → ∀ iz, fz iz = filterFactor nPass comp (kzTrue c.Nz dz iz) dz)
    (h : c.Nz % 2 = 1 ∨ nOrder ≠ -1 ∨ (c.filter ≠ none ∧ 1 ≤ nPass ∧ ∀ m < c.Nm, ∀ iz, 2 * iz = c.Nz →
      AbsentVec c iz (s.interp m).E ∧ AbsentVec c iz (s.interp m).B ∧
      ∀ ir < c.Nr, (s.spect m).cell iz ir = ⟨0, 0, 0, 0, 0, 0, 0, 0, 0, 0, 0, 0, 0, 0, 0, 0, 0⟩)) : EvenSolver c s := by
  have hN : 0 < c.Nz := Nat.pos_of_ne_zero (NeZero.ne _)
  refine ⟨hNz, hNr, ?_, ?_⟩
  · intro fz fr hc iz hz
    rw [hf fz fr hc, hf fz fr hc]
    obtain ⟨K, hK⟩ : ∃ K : ℕ → ℝ, ∀ i < c.Nz, modifiedK (kzTrue c.Nz dz i) (-1) dz = .ok (K i) :=
      ⟨fun i => kzTrue c.Nz dz i, fun i _ => by unfold modifiedK; rw [if_pos rfl]⟩
    exact (C97_wavenumbers c.Nz hN dz hdz (-1) K hK iz hz).2.2.1 nPass comp
  · intro m hm iz hz
    obtain ⟨w1, -, -, w4⟩ := C97_wavenumbers c.Nz hN dz hdz nOrder _ (hK m hm) iz hz
    rcases h with h | h | ⟨h, h', h''⟩
    · exact Or.inl (w1 (Or.inl (by omega)))
    · exact Or.inl (w1 (Or.inr h))
    · by_cases hny : 2 * iz = c.Nz
      · right
        obtain ⟨⟨fz, fr⟩, hc⟩ := Option.ne_none_iff_exists'.1 h
        exact ⟨⟨fz, fr, hc, by rw [hf fz fr hc]; exact w4 nPass comp hny h'⟩, h'' m hm iz hny⟩
      · exact Or.inl (w1 (Or.inl hny))

/-- **C108, not true in general** (mechanism): at a wavenumber that is its own opposite (the Nyquist wavenumber of an even
number of cells) and where the modified wavenumber does not vanish (infinite order), a symmetric transverse electric field
gets a magnetic field that is not symmetric in one iteration. -/
theorem C108_nyquist (hn : 0 < c.nthreads) (o : Opts) (s t : Sim) (hs : VacuumOk c s) (hsrc : NoSources c s)
    (hV : c.V = none) (m iz : ℕ) (hm : m < c.Nm) (hz : iz < c.Nz) (hr0 : 0 < c.Nr) (hk0 : (s.spect m).kr 0 = 0)
    (hEr : (s.interp m).E.r = arr 1 (s.interp m).E.r) (hEt : (s.interp m).E.t = arr (-1) (s.interp m).E.t)
    (hB : (s.interp m).B = ⟨0, 0, 0⟩) (hEz : (s.interp m).E.z = 0)
    (hny : negIdx c.Nz iz = iz) (hk : (s.spect m).kz iz ≠ 0)
    (hS : coefSw c.k ((s.spect m).kz iz) ((s.spect m).kr 0) c.dt ≠ 0) (hE : (emAt c s m iz 0).E.m ≠ 0)
    (h : c.calls [(1, o)] s = .ok t) :
    ∃ iz' < c.Nz, ∃ ir' < c.Nr, ((t.interp m).B.r iz' ir').re ≠ 0 ∨ ((t.interp m).B.t iz' ir').im ≠ 0 := by
  by_contra hsym
  push Not at hsym
  have hB0 : (emAt c s m iz 0).B = ⟨0, 0, 0⟩ := by
    unfold emAt
    rw [start_cell c s hm, hB]
    exact V3.ext (toSpectVect_nil c _ _ hz hr0).1 (toSpectVect_nil c _ _ hz hr0).2 (toSpectScal_nil c _ hz hr0)
  have hEz0 : (emAt c s m iz 0).E.z = 0 := by
    unfold emAt
    rw [start_cell c s hm, hEz]
    exact toSpectScal_nil c _ hz hr0
  have he := free_calls c hn _ s t hs hsrc h hm hz hr0 (by
    unfold div
    rw [hB0, hEz0, hk0]
    simp)
  have hE0 : (emAt c s m iz 0).E.m = conj (emAt c s m iz 0).E.m := by
    have w := (spectVect_refl' c m 1 (s.interp m).E.r (s.interp m).E.t (s.interp m).E.r (s.interp m).E.t
      (fun iz ir => ((s.spect m).cell iz ir).Ep) (fun iz ir => ((s.spect m).cell iz ir).Em)
      (fun iz ir => ((s.spect m).cell iz ir).Ep) (fun iz ir => ((s.spect m).cell iz ir).Em)
      (fun i _ j _ => congrFun (congrFun hEr i) j) (fun i _ j _ => congrFun (congrFun hEt i) j) hz hr0).2
    rw [hny, Complex.ofReal_one, one_mul] at w
    unfold emAt
    rw [start_cell c s hm]
    exact w
  have hB1 : (emAt c t m iz 0).B.m = -conj (emAt c t m iz 0).B.m := by
    have w := (spectVect_refl' c m (-1) (t.interp m).B.r (t.interp m).B.t (t.interp m).B.r (t.interp m).B.t
      (fun iz ir => ((t.spect m).cell iz ir).Bp) (fun iz ir => ((t.spect m).cell iz ir).Bm)
      (fun iz ir => ((t.spect m).cell iz ir).Bp) (fun iz ir => ((t.spect m).cell iz ir).Bm)
      (fun i hi j hj => by
        have := (hsym i hi j hj).1
        unfold arr
        apply Complex.ext <;> simp [this]) (fun i hi j hj => by
        have := (hsym i hi j hj).2
        unfold arr
        apply Complex.ext <;> simp [this]) hz hr0).2
    rw [hny, Complex.ofReal_neg, Complex.ofReal_one, neg_one_mul] at w
    unfold emAt
    rw [start_cell c t hm]
    exact w
  rw [he] at hB1
  simp only [freeAt, freeStep, EM.smul, hV, TebOf, curl, hB0, hEz0, List.map_cons, List.map_nil, List.sum_cons, List.sum_nil,
    Nat.add_zero, Nat.cast_one, one_mul, mul_zero, zero_add, zero_sub, sub_zero, map_neg, map_mul, Complex.conj_ofReal,
    neg_neg] at hB1
  rw [← hE0] at hB1
  have : (2 : ℂ) * (coefSw c.k ((s.spect m).kz iz) ((s.spect m).kr 0) c.dt : ℝ) * ((s.spect m).kz iz : ℝ) *
      (emAt c s m iz 0).E.m = 0 := by linear_combination hB1
  have hk' : (((s.spect m).kz iz : ℝ) : ℂ) ≠ 0 := by exact_mod_cast hk
  have hS' : ((coefSw c.k ((s.spect m).kz iz) ((s.spect m).kr 0) c.dt : ℝ) : ℂ) ≠ 0 := by exact_mod_cast hS
  exact mul_ne_zero (mul_ne_zero (mul_ne_zero two_ne_zero hS') hk') hE this

end

/-! ### Examples -/

/-- Two modes, two cells along z, infinite order and the default smoother. -/
noncomputable def plateCfg : Cfg :=
  { cubicCfg with
    Nm := 2, Nz := 2, Nr := 2, beta := fun _ _ => List.replicate 3 0, mats := gaussMats
    dt := 1 / 2
    filter := some (fun iz => filterFactor 1 false (kzTrue 2 1 iz) 1, fun _ _ => 1) }

instance : NeZero plateCfg.Nz := ⟨by show (2 : ℕ) ≠ 0; norm_num⟩

/-- An electric field along x, the same in each transverse plane, that changes sign from cell to cell along z. -/
noncomputable def plateSim : Sim :=
  { cubicSim ⟨1, 0, 7.9, ⟨0, 0, 4 / 3, 3 / 5⟩, 0⟩ .linear with
    zmax := 2
    species := []
    interp := fun m => ⟨if m = 1 then ⟨fun iz _ => (if iz = 0 then 1 else -1) / 2,
      fun iz _ => -Complex.I * (if iz = 0 then 1 else -1) / 2, 0⟩ else ⟨0, 0, 0⟩, ⟨0, 0, 0⟩, ⟨0, 0, 0⟩, 0⟩
    spect := fun m => ⟨2, 2, kzTrue 2 1, fun ir => if m ≠ 0 ∧ ir = 0 then 0 else 1,
      fun _ _ => ⟨0, 0, 0, 0, 0, 0, 0, 0, 0, 0, 0, 0, 0, 0, 0, 0, 0⟩⟩ }

theorem plate_ok : VacuumOk plateCfg plateSim where
  consts := ⟨one_pos, one_pos, one_pos, by norm_num [plateCfg, cubicCfg]⟩
  Nz := fun _ _ => rfl
  Nr := fun _ _ => rfl
  trans := by
    intro m hm
    have hm : m < 2 := hm
    have hc : Spec.Covers 2 2 (loop2d 2 2) := covers_loop2d 2 2
    obtain ⟨-, a1, a2, a3⟩ := (gauss_solver .curlFree).trans m hm
    exact ⟨hc, a1, a2, a3⟩
  kr := by
    intro m _ h
    show (if m ≠ 0 ∧ 0 = 0 then (0 : ℝ) else 1) = 0
    rw [if_pos ⟨h, rfl⟩]

theorem plate_src : NoSources plateCfg plateSim where
  species := fun sp h => absurd h List.not_mem_nil
  spect := fun m _ iz _ ir _ => ⟨rfl, fun n => by cases n <;> rfl⟩

theorem plate_runs (L : List (ℕ × Opts)) : Spec.Reasonable plateCfg L plateSim := by
  refine ⟨one_pos, ?_, one_pos, one_pos, le_refl _, le_refl _, Nat.one_pos, rfl, ?_, fun _ _ => rfl, fun _ _ _ => rfl, ?_,
    fun _ h => absurd h List.not_mem_nil, fun _ h => absurd h List.not_mem_nil, fun _ h => absurd h List.not_mem_nil,
    fun _ h => absurd h List.not_mem_nil⟩
  · show (0 : ℝ) < 1 / 2
    norm_num
  · show 2 ≤ 10; norm_num
  · show ((2 : ℝ) - 0) * 1 = (2 : ℕ); norm_num

private theorem arr_nil (e : ℝ) : (0 : Buf) = arr e 0 := by
  funext i j
  simp [arr]

private theorem cells_nil : Cells ⟨0, 0, 0, 0, 0, 0, 0, 0, 0, 0, 0, 0, 0, 0, 0, 0, 0⟩ ⟨0, 0, 0, 0, 0, 0, 0, 0, 0, 0, 0, 0, 0, 0, 0, 0, 0⟩ :=
  cells_of_zero zeroCell zeroCell

theorem plate_Er (m : ℕ) : (plateSim.interp m).E.r = arr 1 (plateSim.interp m).E.r := by
  show (if m = 1 then (⟨fun iz _ => (if iz = 0 then 1 else -1) / 2,
      fun iz _ => -Complex.I * (if iz = 0 then 1 else -1) / 2, 0⟩ : GridVec) else ⟨0, 0, 0⟩).r = _
  show _ = arr 1 (if m = 1 then (⟨fun iz _ => (if iz = 0 then 1 else -1) / 2,
      fun iz _ => -Complex.I * (if iz = 0 then 1 else -1) / 2, 0⟩ : GridVec) else ⟨0, 0, 0⟩).r
  split_ifs
  · funext i j
    unfold arr
    by_cases h : i = 0 <;> simp [h, map_ofNat, neg_div]
  · exact arr_nil 1

theorem plate_Et (m : ℕ) : (plateSim.interp m).E.t = arr (-1) (plateSim.interp m).E.t := by
  show (if m = 1 then (⟨fun iz _ => (if iz = 0 then 1 else -1) / 2,
      fun iz _ => -Complex.I * (if iz = 0 then 1 else -1) / 2, 0⟩ : GridVec) else ⟨0, 0, 0⟩).t = _
  show _ = arr (-1) (if m = 1 then (⟨fun iz _ => (if iz = 0 then 1 else -1) / 2,
      fun iz _ => -Complex.I * (if iz = 0 then 1 else -1) / 2, 0⟩ : GridVec) else ⟨0, 0, 0⟩).t
  split_ifs
  · funext i j
    unfold arr
    by_cases h : i = 0 <;> simp [h, map_ofNat, neg_div]
  · exact arr_nil (-1)

theorem plate_Ez (m : ℕ) : (plateSim.interp m).E.z = 0 := by
  show (if m = 1 then (⟨fun iz _ => (if iz = 0 then 1 else -1) / 2,
      fun iz _ => -Complex.I * (if iz = 0 then 1 else -1) / 2, 0⟩ : GridVec) else ⟨0, 0, 0⟩).z = _
  split_ifs <;> rfl

theorem plate_symmetric : Reflected plateCfg plateSim plateSim where
  zmin := rfl
  zmax := rfl
  time := rfl
  iteration := rfl
  species := rfl
  Er := plate_Er
  Et := plate_Et
  Ez := fun m => by rw [plate_Ez]; exact arr_nil 1
  Br := fun _ => arr_nil _
  Bt := fun _ => arr_nil _
  Bz := fun _ => arr_nil _
  Jr := fun _ => arr_nil _
  Jt := fun _ => arr_nil _
  Jz := fun _ => arr_nil _
  rho := fun _ => arr_nil _
  shape := fun _ _ => ⟨rfl, rfl, rfl, rfl⟩
  spect := fun _ _ _ _ _ _ => cells_nil

private theorem plate_vec (iz ir : ℕ) (hz : iz < 2) (hr : ir < 2) (o o' : Buf) :
    let v := plateCfg.toSpectVect 1 (plateSim.interp 1).E.r (plateSim.interp 1).E.t o o'
    v.1 iz ir = 0 ∧ v.2 iz ir = if ir = 0 then (if iz = 1 then (Real.pi : ℂ) else 0) else 0 := by
  intro v
  have hf : ∀ (z : ℂ) (j : ℕ), fftAxis0 2 false (fun i _ => z * (if i = 0 then 1 else -1)) iz j = z * (if iz = 1 then 2 else 0) := by
    intro z j
    have h2 : ∀ f : ZMod 2 → ℂ, ∑ j : ZMod 2, f j = f 0 + f 1 := fun f => Fin.sum_univ_two f
    have v0 : (0 : ZMod 2).val = 0 := rfl
    have v1 : (1 : ZMod 2).val = 1 := rfl
    unfold fftAxis0
    rw [if_neg (by simp)]
    unfold fftZ
    rw [h2, v0, v1]
    interval_cases iz
    · simp
    · have : ((1 : ℕ) : ZMod 2).val = 1 := rfl
      rw [this]
      have e : Complex.exp (-2 * Real.pi * Complex.I * ((1 * 1 : ℕ) : ℂ) / (2 : ℕ)) = -1 := by
        rw [← Complex.exp_neg_pi_mul_I]
        congr 1
        push_cast
        ring
      rw [e]
      norm_num
      ring
  have hr1 : ∀ i j, (plateSim.interp 1).E.r i j = (if i = 0 then 1 else -1) / 2 := fun _ _ => rfl
  have ht : ∀ i j, (plateSim.interp 1).E.t i j = -Complex.I * (if i = 0 then 1 else -1) / 2 := fun _ _ => rfl
  have hp : (fun i j => (1 : ℂ) / 2 * ((plateSim.interp 1).E.r i j - Complex.I * (plateSim.interp 1).E.t i j))
      = fun i _ => (0 : ℂ) * (if i = 0 then 1 else -1) := by
    funext i j
    rw [hr1, ht]
    linear_combination (1 / 4) * (if i = 0 then 1 else -1) * Complex.I_mul_I
  have hm : (fun i j => (1 : ℂ) / 2 * ((plateSim.interp 1).E.r i j + Complex.I * (plateSim.interp 1).E.t i j))
      = fun i _ => (1 / 2 : ℂ) * (if i = 0 then 1 else -1) := by
    funext i j
    rw [hr1, ht]
    linear_combination -(1 / 4) * (if i = 0 then 1 else -1) * Complex.I_mul_I
  have key : v = (_, _) := toSpectVect_eq plateCfg 1 _ _ o o'
  constructor
  · rw [key]
    unfold fwd
    dsimp only
    rw [if_pos (show iz < plateCfg.Nz ∧ ir < plateCfg.Nr from ⟨hz, hr⟩), hp]
    have := hf 0
    show ∑ l ∈ Finset.range 2, fftAxis0 2 false _ iz l * _ = _
    refine Finset.sum_eq_zero fun l _ => ?_
    rw [this]; simp
  · rw [key]
    unfold fwd
    dsimp only
    rw [if_pos (show iz < plateCfg.Nz ∧ ir < plateCfg.Nr from ⟨hz, hr⟩), hm]
    have := hf (1 / 2)
    show ∑ l ∈ Finset.range 2, fftAxis0 2 false _ iz l * ((gaussMats 1).Mm l ir : ℂ) = _
    simp only [this]
    have hM : ∀ i j, (gaussMats 1).Mm i j = if i = 0 then (if j = 0 then Real.pi else -1) else if j = 0 then 0 else 1 := by
      intro i j
      simp [gaussMats, hankelM]
    simp only [hM]
    interval_cases ir <;> interval_cases iz <;> simp [Finset.sum_range_succ]

private theorem plate_em : (emAt plateCfg plateSim 1 1 0).E.m ≠ 0 := by
  unfold emAt
  rw [start_cell _ _ (show 1 < plateCfg.Nm from Nat.one_lt_two)]
  have := (plate_vec 1 0 Nat.one_lt_two Nat.two_pos (fun _ _ => 0) (fun _ _ => 0)).2
  rw [if_pos rfl, if_pos rfl] at this
  show (plateCfg.toSpectVect 1 (plateSim.interp 1).E.r (plateSim.interp 1).E.t (fun _ _ => 0) (fun _ _ => 0)).2 1 0 ≠ 0
  rw [this]
  exact_mod_cast Real.pi_ne_zero

theorem plate_transverse : Transverse plateCfg plateSim := by
  intro m hm iz ir hz hr
  have hm' : m < 2 := hm
  have hsh := start_shape plateCfg plateSim hm
  have hz' : iz < 2 := by rw [hsh.1] at hz; exact hz
  have hr' : ir < 2 := by rw [hsh.2.1] at hr; exact hr
  rw [hsh.2.2.1, hsh.2.2.2, start_cell _ _ hm]
  have b := toSpectVect_nil plateCfg (m := m) (fun _ _ => 0) (fun _ _ => 0) hz' hr'
  have bz := toSpectScal_nil plateCfg (m := m) (fun _ _ => 0) hz' hr'
  have ez : plateCfg.toSpectScal m (plateSim.interp m).E.z (fun _ _ => 0) iz ir = 0 := by rw [plate_Ez]; exact bz
  have hB : div ((plateSim.spect m).kz iz) ((plateSim.spect m).kr ir)
      ⟨(plateCfg.toSpectVect m 0 0 (fun _ _ => 0) (fun _ _ => 0)).1 iz ir,
        (plateCfg.toSpectVect m 0 0 (fun _ _ => 0) (fun _ _ => 0)).2 iz ir, plateCfg.toSpectScal m 0 (fun _ _ => 0) iz ir⟩ = 0 := by
    rw [b.1, b.2, bz]; simp [div]
  refine ⟨?_, hB⟩
  show div ((plateSim.spect m).kz iz) ((plateSim.spect m).kr ir)
      ⟨(plateCfg.toSpectVect m (plateSim.interp m).E.r (plateSim.interp m).E.t (fun _ _ => 0) (fun _ _ => 0)).1 iz ir,
        (plateCfg.toSpectVect m (plateSim.interp m).E.r (plateSim.interp m).E.t (fun _ _ => 0) (fun _ _ => 0)).2 iz ir,
        plateCfg.toSpectScal m (plateSim.interp m).E.z (fun _ _ => 0) iz ir⟩ = 0
  rw [ez]
  interval_cases m
  · have e1 : (plateSim.interp 0).E.r = 0 := rfl
    have e2 : (plateSim.interp 0).E.t = 0 := rfl
    rw [e1, e2, b.1, b.2]; simp [div]
  · have w := plate_vec iz ir hz' hr' (fun _ _ => 0) (fun _ _ => 0)
    rw [w.1, w.2]
    by_cases h0 : ir = 0
    · have : (plateSim.spect 1).kr ir = 0 := by
        show (if (1 : ℕ) ≠ 0 ∧ ir = 0 then (0 : ℝ) else 1) = 0
        rw [if_pos ⟨one_ne_zero, h0⟩]
      rw [this]; simp [div]
    · rw [if_neg h0]; simp [div]

/-- Even and odd functions of the angle, with two modes. -/
private theorem odd_of (a : ℕ → ℂ) (h : ∀ θ, atAngle 2 a (-θ) = -1 * atAngle 2 a θ) : (a 1).re = 0 := by
  have h0 := h 0
  have h1 := h Real.pi
  unfold atAngle at h0 h1
  simp only [Finset.sum_range_succ, Finset.sum_range_zero, Nat.cast_zero, Nat.cast_one, mul_zero, zero_mul, Complex.exp_zero,
    mul_one, if_true, one_ne_zero, if_false, neg_zero, Complex.ofReal_zero, zero_add, one_mul] at h0 h1
  have e1 : Complex.exp (-Complex.I * ((-Real.pi : ℝ) : ℂ)) = -1 := by
    rw [← Complex.exp_pi_mul_I]; congr 1; push_cast; ring
  have e2 : Complex.exp (-Complex.I * (Real.pi : ℂ)) = -1 := by
    rw [← Complex.exp_neg_pi_mul_I]; congr 1; ring
  rw [e1, e2] at h1
  simp only [mul_neg, mul_one, Complex.neg_re] at h0 h1
  linarith

private theorem even_of (a : ℕ → ℂ) (h : ∀ θ, atAngle 2 a (-θ) = 1 * atAngle 2 a θ) : (a 1).im = 0 := by
  have h1 := h (Real.pi / 2)
  unfold atAngle at h1
  simp only [Finset.sum_range_succ, Finset.sum_range_zero, Nat.cast_zero, Nat.cast_one, mul_zero, zero_mul, Complex.exp_zero,
    mul_one, if_true, one_ne_zero, if_false, zero_add, one_mul] at h1
  have e1 : Complex.exp (-Complex.I * ((-(Real.pi / 2) : ℝ) : ℂ)) = Complex.I := by
    rw [show -Complex.I * ((-(Real.pi / 2) : ℝ) : ℂ) = (Real.pi / 2 : ℂ) * Complex.I by push_cast; ring]
    exact Complex.exp_pi_div_two_mul_I
  have e2 : Complex.exp (-Complex.I * ((Real.pi / 2 : ℝ) : ℂ)) = -Complex.I := by
    rw [show -Complex.I * ((Real.pi / 2 : ℝ) : ℂ) = -((Real.pi / 2 : ℂ) * Complex.I) by push_cast; ring, Complex.exp_neg,
      Complex.exp_pi_div_two_mul_I, Complex.inv_I]
  rw [e1, e2] at h1
  simp only [mul_neg, Complex.neg_re, Complex.mul_I_re] at h1
  linarith

/-- **C108, not true in general.** With `n_order = -1`, an even number of cells along z and the default smoother, a new
simulation without particles, which is its own reflection, and whose electric field has no divergence, has after one
iteration a magnetic field that is not the one of its reflection. -/
theorem C108_violated : ∃ (c : Cfg) (_ : NeZero c.Nz) (s t : Sim), Spec.Reasonable c [(1, {})] s ∧ VacuumOk c s ∧ Transverse c s ∧
    s.species = [] ∧ c.ext = [] ∧ Reflected c s s ∧
    (∀ m < c.Nm, ∀ iz < c.Nz, modifiedK (kzTrue c.Nz (1 / c.invdz) iz) (-1) (1 / c.invdz) = .ok ((s.spect m).kz iz)) ∧
    (∃ fz fr, c.filter = some (fz, fr) ∧ ∀ iz, fz iz = filterFactor 1 false (kzTrue c.Nz (1 / c.invdz) iz) (1 / c.invdz)) ∧
    c.calls [(1, {})] s = .ok t ∧ ¬ MirrorSymmetric c t ∧ ∃ (f : GridArray) (iz ir : ℕ) (θ : ℝ), iz < c.Nz ∧ ir < c.Nr ∧
      physical c.Nm t f iz ir (-θ) ≠ sign f * physical c.Nm t f iz ir θ := by
  obtain ⟨t, h, -⟩ := C87_total_partial plateCfg [(1, {})] plateSim (plate_runs _)
  have hdz : (1 : ℝ) / plateCfg.invdz = 1 := by show (1 : ℝ) / 1 = 1; norm_num
  have hk : kzTrue 2 1 1 = -Real.pi := by
    have := (kzTrue_nyquist (Nz := 2) (by norm_num) 1 one_pos (iz := 1) rfl).1
    rw [this, div_one]
  have hny := C108_nyquist plateCfg Nat.one_pos {} plateSim t plate_ok plate_src rfl 1 1 Nat.one_lt_two Nat.one_lt_two Nat.two_pos rfl
    (plate_Er 1) (plate_Et 1) rfl (plate_Ez 1) rfl (by
      show kzTrue 2 1 1 ≠ 0
      rw [hk]; exact neg_ne_zero.2 Real.pi_ne_zero) (by
      show coefSw ⟨1, 1, 1⟩ (kzTrue 2 1 1) 0 (1 / 2) ≠ 0
      have hw : omega ⟨1, 1, 1⟩ (kzTrue 2 1 1) 0 = Real.pi := by
        rw [hk]
        simp [omega, Real.sqrt_sq Real.pi_pos.le]
      unfold coefSw invOmega
      simp only [hw, if_neg Real.pi_ne_zero]
      rw [show Real.pi * (1 / 2) = Real.pi / 2 by ring, Real.sin_pi_div_two]
      simp [Real.pi_ne_zero]) plate_em h
  have hphys : ∃ (f : GridArray) (iz ir : ℕ) (θ : ℝ), iz < plateCfg.Nz ∧ ir < plateCfg.Nr ∧
      physical plateCfg.Nm t f iz ir (-θ) ≠ sign f * physical plateCfg.Nm t f iz ir θ := by
    by_contra hc
    push Not at hc
    obtain ⟨iz, hz, ir, hr, h1 | h1⟩ := hny
    · exact h1 (odd_of (fun m => (t.interp m).B.r iz ir) fun θ => hc .Br iz ir θ hz hr)
    · exact h1 (even_of (fun m => (t.interp m).B.t iz ir) fun θ => hc .Bt iz ir θ hz hr)
  refine ⟨plateCfg, inferInstance, plateSim, t, plate_runs _, plate_ok, plate_transverse, rfl, rfl, plate_symmetric, ?_, ?_, h, ?_, hphys⟩
  · intro m _ iz _
    rw [hdz]
    unfold modifiedK
    rw [if_pos rfl]
    rfl
  · rw [hdz]
    exact ⟨_, _, rfl, fun _ => rfl⟩
  · rintro ⟨t', h1, h2⟩
    obtain ⟨f, iz, ir, θ, -, -, h3⟩ := hphys
    refine h3 ?_
    rw [← C108_fields plateCfg t t' h1]
    unfold physical
    rw [h2.interp]

/-- Two modes and the wavenumbers of a stencil of finite order; two electrons that are reflections of each other. -/
noncomputable def twinSim : Sim :=
  { gaussSim with
    species := [⟨-1, 1, .linear, false, false, none, [⟨⟨3 / 5, 4 / 5, 7.9, ⟨0, 0, 4 / 3, 3 / 5⟩, 0⟩, 1, fun _ => 0⟩,
      ⟨⟨3 / 5, -4 / 5, 7.9, ⟨0, 0, 4 / 3, 3 / 5⟩, 0⟩, 1, fun _ => 0⟩]⟩]
    spect := fun m => ⟨8, 2, fun iz => if iz < 4 then iz else if iz = 4 then 0 else iz - 8,
      fun ir => if m ≠ 0 ∧ ir = 0 then 0 else 1, fun _ _ => ⟨0, 0, 0, 0, 0, 0, 0, 0, 0, 0, 0, 0, 0, 0, 0, 0, 0⟩⟩ }

theorem twin_solver : EvenSolver (gaussCfg .curlFree) twinSim := by
  refine ⟨fun _ _ => rfl, fun _ _ => rfl, fun fz fr h => (by cases h), fun m _ iz hz => Or.inl ?_⟩
  have hz : iz < 8 := hz
  show (if negIdx 8 iz < 4 then ((negIdx 8 iz : ℕ) : ℝ) else if negIdx 8 iz = 4 then 0 else ((negIdx 8 iz : ℕ) : ℝ) - 8) =
    -(if iz < 4 then (iz : ℝ) else if iz = 4 then 0 else (iz : ℝ) - 8)
  unfold negIdx
  interval_cases iz <;> norm_num

theorem twin_runs (L : List (ℕ × Opts)) : Spec.Reasonable (gaussCfg .curlFree) L twinSim := by
  constructor <;> try (norm_num [gaussCfg, cubicCfg, twinSim, gaussSim, cubicSim, Spec.maxCells, Spec.frameVelocity]; done)
  · norm_num [gaussCfg, cubicCfg, twinSim, gaussSim, cubicSim, Spec.maxCells, Spec.frameVelocity]
    rw [show (9 : ℝ) = 3 ^ 2 by norm_num, show (25 : ℝ) = 5 ^ 2 by norm_num, Real.sqrt_sq (by norm_num),
      Real.sqrt_sq (by norm_num)]

theorem twin_symmetric : MirrorSymmetric (gaussCfg .curlFree) twinSim := by
  have hF : Spec.Reflect.fields (fun _ => 0) = fun _ => 0 := by
    funext k
    cases k <;> simp [Spec.Reflect.fields]
  refine ⟨{ twinSim with species := twinSim.species.map Spec.Reflect.species }, ⟨rfl, rfl, rfl, rfl, rfl, fun _ => arr_nil _,
    fun _ => arr_nil _, fun _ => arr_nil _, fun _ => arr_nil _, fun _ => arr_nil _, fun _ => arr_nil _, fun _ => arr_nil _,
    fun _ => arr_nil _, fun _ => arr_nil _, fun _ => arr_nil _, fun _ _ => ⟨rfl, rfl, rfl, rfl⟩, fun _ _ _ _ _ _ => cells_nil⟩,
    rfl, rfl, rfl, rfl, ?_, rfl, rfl⟩
  have hp : twinSim.species.map Spec.Reflect.species = [⟨-1, 1, .linear, false, false, none,
      [⟨⟨3 / 5, -4 / 5, 7.9, ⟨0, 0, 4 / 3, 3 / 5⟩, 0⟩, 1, fun _ => 0⟩,
      ⟨⟨3 / 5, 4 / 5, 7.9, ⟨0, 0, 4 / 3, 3 / 5⟩, 0⟩, 1, fun _ => 0⟩]⟩] := by
    simp only [twinSim, List.map_cons, List.map_nil, Spec.Reflect.species, Spec.Reflect.ptcl, hF, Spec.Reflect.push]
    norm_num
  show List.Forall₂ _ (twinSim.species.map Spec.Reflect.species) twinSim.species
  rw [hp]
  have hperm := C88_order _ _ (List.Perm.swap (⟨⟨3 / 5, 4 / 5, 7.9, ⟨0, 0, 4 / 3, 3 / 5⟩, 0⟩, 1, fun _ => 0⟩ : Ptcl)
    (⟨⟨3 / 5, -4 / 5, 7.9, ⟨0, 0, 4 / 3, 3 / 5⟩, 0⟩, 1, fun _ => 0⟩ : Ptcl) [])
  exact List.Forall₂.cons ⟨rfl, rfl, rfl, rfl, rfl, rfl, hperm.1, Or.inr (Or.inr hperm.2)⟩ List.Forall₂.nil

/-- The hypotheses of `C108_symmetry_partial` and of `C108_reflection_partial` can be met, with charged particles. -/
example (L : List (ℕ × Opts)) : ∃ t, (gaussCfg .curlFree).calls L twinSim = .ok t ∧ MirrorSymmetric (gaussCfg .curlFree) t ∧
    ∀ iz ir, physical 2 t .Et iz ir 0 = 0 := by
  obtain ⟨t, h, -⟩ := C87_total_partial (gaussCfg .curlFree) L twinSim (twin_runs L)
  obtain ⟨h1, h2⟩ := C108_symmetry_partial (gaussCfg .curlFree) (fun _ _ _ => rfl) Nat.one_pos L twinSim t twin_solver twin_symmetric h
  refine ⟨t, h, h1, fun iz ir => ?_⟩
  have := h2 .Et iz ir 0
  rw [neg_zero] at this
  have e : physical 2 t .Et iz ir 0 = -1 * physical 2 t .Et iz ir 0 := this
  linarith

/-- The hypothesis on the external fields can be met: a constant field along y changes sign. -/
example (E : ℝ) (c : Cfg) (hc : c.ext = [⟨fun F _ _ _ _ amp _ => F + amp, [(.Ey, E)], 1, none⟩]) :
    ExtReflected c [⟨fun F _ _ _ _ amp _ => F + amp, [(.Ey, -E)], 1, none⟩] := by
  intro t id p
  simp only [hc, List.foldl_cons, List.foldl_nil, applyExt, true_or, if_true, applyTerm, Spec.Reflect.ptcl]
  congr 1
  funext k
  cases k <;> simp [Spec.Reflect.fields, Function.update]
  ring

end Fbpic.Pic
