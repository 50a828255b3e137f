import Verif.Lemmas.PicOpenRun
import Verif.Props.SpectShift
import Verif.Props.Mirror
import Verif.Lemmas.Window

/-!
# Lemmas: the end of an iteration with open boundaries
-/

namespace Fbpic.Pic

open Transform ExternalField Step
open Spec (Paired charges earlier back ChargeOf CurrentOf Sources InMirror transmission rowAfter movedArr movedVec MovedHat
  MovedScal hankel vecBack scalBack OnGrid V3 Before Placed)

/-! ### Arrays -/

section
variable (N : ℕ) [NeZero N]

theorem rowAfter_lt (n : ℤ) (iz : ℕ) : rowAfter N n iz < N := by
  unfold rowAfter
  have hN : (0 : ℤ) < N := by exact_mod_cast Nat.pos_of_ne_zero (NeZero.ne N)
  have h1 := Int.emod_lt_of_pos ((iz : ℤ) + n) hN
  have h2 := Int.emod_nonneg ((iz : ℤ) + n) hN.ne'
  omega

theorem rowAfter_zero {iz : ℕ} (h : iz < N) : rowAfter N 0 iz = iz := by
  unfold rowAfter
  rw [add_zero, Int.emod_eq_of_lt (by omega) (by exact_mod_cast h)]
  simp

theorem rowAfter_cast (n : ℤ) (iz : ℕ) : ((rowAfter N n iz : ℕ) : ZMod N) = (iz : ZMod N) + (n : ZMod N) := by
  have hN : (0 : ℤ) < N := by exact_mod_cast Nat.pos_of_ne_zero (NeZero.ne N)
  have h2 := Int.emod_nonneg ((iz : ℤ) + n) hN.ne'
  have : (((rowAfter N n iz : ℕ) : ℤ) : ZMod N) = (((iz : ℤ) + n : ℤ) : ZMod N) := by
    unfold rowAfter
    rw [Int.toNat_of_nonneg h2]
    exact (ZMod.intCast_mod _ _)
  rw [← Int.cast_natCast, this]
  push_cast
  rfl

theorem ifft_hankel (Nr : ℕ) (M : ℕ → ℕ → ℝ) (a : Buf) (iz ir : ℕ) :
    fftAxis0 N true (hankel Nr M a) iz ir = hankel Nr M (fftAxis0 N true a) iz ir := by
  unfold fftAxis0 hankel ifftZ
  simp only [if_true, Finset.mul_sum, Finset.sum_mul]
  rw [Finset.sum_comm]
  refine Finset.sum_congr rfl fun l _ => Finset.sum_congr rfl fun k _ => ?_
  ring

theorem ifft_add (a b : Buf) (iz ir : ℕ) :
    fftAxis0 N true (fun i j => a i j + b i j) iz ir = fftAxis0 N true a iz ir + fftAxis0 N true b iz ir := by
  unfold fftAxis0 ifftZ
  simp only [if_true]
  rw [← mul_add, ← Finset.sum_add_distrib]
  refine congrArg _ (Finset.sum_congr rfl fun k _ => ?_)
  ring

theorem ifft_isub (a b : Buf) (iz ir : ℕ) :
    fftAxis0 N true (fun i j => Complex.I * (a i j - b i j)) iz ir = Complex.I * (fftAxis0 N true a iz ir - fftAxis0 N true b iz ir) := by
  unfold fftAxis0 ifftZ
  simp only [if_true]
  rw [← mul_sub, ← Finset.sum_sub_distrib, mul_left_comm, Finset.mul_sum (a := Complex.I)]
  refine congrArg _ (Finset.sum_congr rfl fun k _ => ?_)
  ring

end

variable (c : OCfg) [NeZero c.base.Nz]

theorem shiftArr_ifft (hdz : c.dz ≠ 0) (n : ℤ) (a : Buf) {iz ir : ℕ} (hr : ir < c.base.Nr) :
    fftAxis0 c.base.Nz true (c.shiftArr n a) iz ir = fftAxis0 c.base.Nz true a (rowAfter c.base.Nz n iz) ir := by
  have hcol : (fun j : ZMod c.base.Nz => c.shiftArr n a j.val ir) =
      shiftSpectArray c.base.Nz (fieldShift c.base.Nz c.dz) n (fun j => a j.val ir) := by
    funext j
    unfold OCfg.shiftArr
    rw [if_pos ⟨ZMod.val_lt j, hr⟩, ZMod.natCast_zmod_val]
  unfold fftAxis0
  simp only [if_true]
  rw [hcol]
  have hf : (fun j : ZMod c.base.Nz => a j.val ir) = fftZ c.base.Nz (ifftZ c.base.Nz fun j => a j.val ir) :=
    ((C12_fft_inverse _).2).symm
  conv_lhs => rw [hf]
  rw [C12_translation c.dz hdz, rowAfter_cast]

theorem shiftArr_zero (a : Buf) (iz ir : ℕ) (hz : iz < c.base.Nz) : c.shiftArr 0 a iz ir = a iz ir := by
  unfold OCfg.shiftArr
  split_ifs
  · unfold shiftSpectArray
    simp only [Int.natAbs_zero, powLoop, mul_one, lt_irrefl, if_false]
    rw [ZMod.val_natCast, Nat.mod_eq_of_lt hz]
  · rfl

/-! ### Fields -/

theorem pushFields_ok (o : Opts) {S T : OSim} (h : c.pushFields o S = .ok T) :
    (o.correctDivE = true → c.base.correction = .curlFree) ∧ (∀ m < c.base.Nm, T.sim.spect m = c.base.endGrid o (S.sim.spect m)) ∧
    T = { S with sim := { S.sim with spect := T.sim.spect } } := by
  unfold OCfg.pushFields at h
  obtain ⟨sp, h1, h⟩ := (except_bind_ok _ _ _).1 h
  have ht := Except.ok.inj h
  have : c.base.iterEnd o S.sim = .ok { S.sim with
      spect := sp
      interp := onModes c.base.Nm (fun m i => c.base.interpEB m (sp m) i) S.sim.interp
      time := S.sim.time + c.base.dt
      iteration := S.sim.iteration + 1 } := by
    unfold Cfg.iterEnd
    exact (except_bind_ok _ _ _).2 ⟨sp, h1, rfl⟩
  obtain ⟨a, -, -, -, b, -⟩ := iterEnd_ok c.base o this
  rw [← ht]
  exact ⟨a, b, rfl⟩

/-- The arrays of `v` are those of `u`, with the content moved by `n` cells. -/
structure OCfg.ShiftedGrid (n : ℤ) (u v : SpecGrid) : Prop where
  shape : u.SameShape v
  Ep : ∀ iz < c.base.Nz, ∀ ir < c.base.Nr, (v.cell iz ir).Ep = c.shiftArr n (fun i j => (u.cell i j).Ep) iz ir
  Em : ∀ iz < c.base.Nz, ∀ ir < c.base.Nr, (v.cell iz ir).Em = c.shiftArr n (fun i j => (u.cell i j).Em) iz ir
  Ez : ∀ iz < c.base.Nz, ∀ ir < c.base.Nr, (v.cell iz ir).Ez = c.shiftArr n (fun i j => (u.cell i j).Ez) iz ir
  Bp : ∀ iz < c.base.Nz, ∀ ir < c.base.Nr, (v.cell iz ir).Bp = c.shiftArr n (fun i j => (u.cell i j).Bp) iz ir
  Bm : ∀ iz < c.base.Nz, ∀ ir < c.base.Nr, (v.cell iz ir).Bm = c.shiftArr n (fun i j => (u.cell i j).Bm) iz ir
  Bz : ∀ iz < c.base.Nz, ∀ ir < c.base.Nr, (v.cell iz ir).Bz = c.shiftArr n (fun i j => (u.cell i j).Bz) iz ir
  rho : ∀ iz < c.base.Nz, ∀ ir < c.base.Nr, (v.cell iz ir).rhoPrev = c.shiftArr n (fun i j => (u.cell i j).rhoPrev) iz ir
  Jp : ∀ iz < c.base.Nz, ∀ ir < c.base.Nr, (v.cell iz ir).Jp = c.shiftArr n (fun i j => (u.cell i j).Jp) iz ir
  Jm : ∀ iz < c.base.Nz, ∀ ir < c.base.Nr, (v.cell iz ir).Jm = c.shiftArr n (fun i j => (u.cell i j).Jm) iz ir
  Jz : ∀ iz < c.base.Nz, ∀ ir < c.base.Nr, (v.cell iz ir).Jz = c.shiftArr n (fun i j => (u.cell i j).Jz) iz ir

theorem shifted_zero (u : SpecGrid) : c.ShiftedGrid 0 u u where
  shape := ⟨rfl, rfl, rfl, rfl⟩
  Ep iz hz ir _ := (shiftArr_zero c (fun i j => (u.cell i j).Ep) iz ir hz).symm
  Em iz hz ir _ := (shiftArr_zero c (fun i j => (u.cell i j).Em) iz ir hz).symm
  Ez iz hz ir _ := (shiftArr_zero c (fun i j => (u.cell i j).Ez) iz ir hz).symm
  Bp iz hz ir _ := (shiftArr_zero c (fun i j => (u.cell i j).Bp) iz ir hz).symm
  Bm iz hz ir _ := (shiftArr_zero c (fun i j => (u.cell i j).Bm) iz ir hz).symm
  Bz iz hz ir _ := (shiftArr_zero c (fun i j => (u.cell i j).Bz) iz ir hz).symm
  rho iz hz ir _ := (shiftArr_zero c (fun i j => (u.cell i j).rhoPrev) iz ir hz).symm
  Jp iz hz ir _ := (shiftArr_zero c (fun i j => (u.cell i j).Jp) iz ir hz).symm
  Jm iz hz ir _ := (shiftArr_zero c (fun i j => (u.cell i j).Jm) iz ir hz).symm
  Jz iz hz ir _ := (shiftArr_zero c (fun i j => (u.cell i j).Jz) iz ir hz).symm

/-- How many cells the window moves. -/
noncomputable def OCfg.windowCells (S : OSim) : ℤ :=
  match S.win with
  | none => 0
  | some w => pyInt ((w.zmin + w.v * (S.sim.time - w.tLast) - S.zminG) / c.dz)

/-- The window after the move. -/
noncomputable def windowAfter (S : OSim) : Option (MovWin ℝ) :=
  S.win.map fun w => { v := w.v, tLast := S.sim.time, zmin := w.zmin + w.v * (S.sim.time - w.tLast) }

/-- What the move of the window does. -/
structure OCfg.WindowMoved (S T : OSim) : Prop where
  species : T.sim.species = S.sim.species
  ants : T.ants = S.ants
  time : T.sim.time = S.sim.time
  iteration : T.sim.iteration = S.sim.iteration
  interp : T.sim.interp = S.sim.interp
  zmin : T.sim.zmin = S.sim.zmin + c.windowCells S * c.dz
  zmax : T.sim.zmax = S.sim.zmax + c.windowCells S * c.dz
  zminG : T.zminG = S.zminG + c.windowCells S * c.dz
  win : T.win = windowAfter S
  inj : (S.win = none → T.inj = S.inj) ∧ (∀ w, S.win = some w →
    List.Forall₂ (fun a b => advanceInj w.v (S.sim.time - w.tLast) a = .ok b) S.inj T.inj)
  spect : ∀ m < c.base.Nm, c.ShiftedGrid (c.windowCells S) (S.sim.spect m) (T.sim.spect m)

theorem moveWindow_ok {S T : OSim} (h : c.moveWindow S = .ok T) : c.WindowMoved S T := by
  unfold OCfg.moveWindow at h
  cases hw : S.win with
  | none =>
    rw [hw] at h
    have e := Except.ok.inj h
    subst e
    have hn : c.windowCells S = 0 := by unfold OCfg.windowCells; rw [hw]
    refine ⟨rfl, rfl, rfl, rfl, rfl, by rw [hn]; simp, by rw [hn]; simp, by rw [hn]; simp, by unfold windowAfter; rw [hw]; rfl,
      ⟨fun _ => rfl, fun w h => by rw [hw] at h; cases h⟩, fun m hm => by rw [hn]; exact shifted_zero c _⟩
  | some w =>
    rw [hw] at h
    dsimp only at h
    obtain ⟨n, hn, e⟩ := moveGrids_eq c.comm c.dz (c.world S) w hw S.sim.time
    have hn' : c.windowCells S = n := by
      unfold OCfg.windowCells
      rw [hw, hn]
      rfl
    rw [e] at h
    obtain ⟨x, hx, h⟩ := (except_bind_ok _ _ _).1 h
    have hx := Except.ok.inj hx
    subst hx
    obtain ⟨inj, hi, h⟩ := (except_bind_ok _ _ _).1 h
    have hT := Except.ok.inj h
    have hi := (mapM_ok _ _ _).1 hi
    rw [← hT]
    refine ⟨rfl, rfl, rfl, rfl, rfl, by rw [hn']; rfl, by rw [hn']; rfl, by rw [hn']; rfl, by unfold windowAfter; rw [hw]; rfl,
      ⟨fun h => absurd (hw.symm.trans h) (by simp), fun w' h => ?_⟩, fun m hm => ?_⟩
    · have : w = w' := Option.some.inj (hw.symm.trans h)
      subst this
      exact hi
    rw [hn']
    by_cases h0 : n = 0
    · subst h0
      simp only [ne_eq, not_true, if_false]
      exact shifted_zero c _
    · simp only [ne_eq, h0, not_false_eq_true, if_true, onModes, if_pos hm]
      exact ⟨⟨rfl, rfl, rfl, rfl⟩, fun _ _ _ _ => rfl, fun _ _ _ _ => rfl, fun _ _ _ _ => rfl, fun _ _ _ _ => rfl,
        fun _ _ _ _ => rfl, fun _ _ _ _ => rfl, fun _ _ _ _ => rfl, fun _ _ _ _ => rfl, fun _ _ _ _ => rfl, fun _ _ _ _ => rfl⟩

/-! ### Boundaries -/

theorem mirror_one (M : Mirror.Mir) (hdz : 0 < c.dz) {zminG zmin zmax : ℝ}
    (hp : c.comm.getZminZmax zminG c.dz true true true (some 0) = .ok (zmin, zmax)) (t : ℝ) (gs : List Mirror.Grid)
    (hu : ∀ g ∈ gs, g.usePml = false) :
    ∃ gs', Mirror.setFieldsToZero c.base.k.c M c.comm zminG c.dz 0 t gs = .ok gs' ∧ gs'.length = gs.length ∧
      (∀ g ∈ gs', g.usePml = false) ∧ ∀ (m : ℕ) (g g' : Mirror.Grid), gs[m]? = some g → gs'[m]? = some g' →
        ∀ a, Spec.isEB false a → ∀ iz ir, (InMirror c M zmin zmax t m iz → g'.arr a iz ir = 0) ∧
          (¬ InMirror c M zmin zmax t m iz → g'.arr a iz ir = g.arr a iz ir) := by
  obtain ⟨zS, zE, gb, modes⟩ := M
  have key : ∃ arg, Mirror.make zS zE gb arg = .ok ⟨zS, zE, gb, modes⟩ ∧
      ∀ m, Spec.wanted arg m ↔ ∀ l, modes = some l → m ∈ l := by
    cases modes with
    | none => exact ⟨.all, rfl, fun m => by simp [Spec.wanted]⟩
    | some l => exact ⟨.list l, rfl, fun m => by simp [Spec.wanted]⟩
  obtain ⟨arg, hM, hw⟩ := key
  obtain ⟨gs', e, hin, hout⟩ := C51_zeroed_partial c.base.k.c zS zE gb arg _ hM c.comm zminG c.dz hdz 0 t gs zmin zmax hp
  by_cases hi : zmin ≤ Mirror.position c.base.k.c gb t zS ∧ Mirror.position c.base.k.c gb t zS < zmax
  · obtain ⟨hl, hz⟩ := hin hi.1 hi.2
    refine ⟨gs', e, hl, ?_, ?_⟩
    · intro g hg
      obtain ⟨m, hm, rfl⟩ := List.getElem_of_mem hg
      have hm' : m < gs.length := by rw [← hl]; exact hm
      rw [(hz m _ _ (List.getElem?_eq_getElem hm') (List.getElem?_eq_getElem hm)).1]
      exact hu _ (List.getElem_mem hm')
    · intro m g g' h1 h2 a ha iz ir
      have hg : g.usePml = false := hu g (List.mem_of_getElem? h1)
      obtain ⟨-, h3⟩ := hz m g g' h1 h2
      rw [hg] at h3
      obtain ⟨h4, h5⟩ := h3 a iz ir
      refine ⟨fun h => h4 ⟨h.2.2.2, (hw m).2 h.1, ha⟩, fun h => h5 fun h' => h ⟨(hw m).1 h'.2.1, hi.1, hi.2, h'.1⟩⟩
  · have := hout hi
    subst this
    refine ⟨gs', e, rfl, hu, ?_⟩
    intro m g g' h1 h2 a ha iz ir
    have : g = g' := Option.some.inj (h1.symm.trans h2)
    subst this
    exact ⟨fun h => absurd ⟨h.2.1, h.2.2.1⟩ hi, fun _ => rfl⟩

theorem mirrors_all (hdz : 0 < c.dz) {zminG zmin zmax : ℝ}
    (hp : c.comm.getZminZmax zminG c.dz true true true (some 0) = .ok (zmin, zmax)) (t : ℝ) :
    ∀ (l : List Mirror.Mir) (gs : List Mirror.Grid), (∀ g ∈ gs, g.usePml = false) →
    ∃ gs', l.foldlM (fun gs M => Mirror.setFieldsToZero c.base.k.c M c.comm zminG c.dz 0 t gs) gs = .ok gs' ∧ gs'.length = gs.length ∧
      ∀ (m : ℕ) (g g' : Mirror.Grid), gs[m]? = some g → gs'[m]? = some g' →
        ∀ a, Spec.isEB false a → ∀ iz ir, ((∃ M ∈ l, InMirror c M zmin zmax t m iz) → g'.arr a iz ir = 0) ∧
          ((¬ ∃ M ∈ l, InMirror c M zmin zmax t m iz) → g'.arr a iz ir = g.arr a iz ir) := by
  intro l
  induction l with
  | nil =>
    intro gs _
    refine ⟨gs, rfl, rfl, fun m g g' h1 h2 a _ iz ir => ?_⟩
    have : g = g' := Option.some.inj (h1.symm.trans h2)
    subst this
    exact ⟨fun h => by simp at h, fun _ => rfl⟩
  | cons M l ih =>
    intro gs hu
    obtain ⟨gs1, e1, l1, u1, k1⟩ := mirror_one c M hdz hp t gs hu
    obtain ⟨gs2, e2, l2, k2⟩ := ih gs1 u1
    refine ⟨gs2, ?_, l2.trans l1, fun m g g' h1 h2 a ha iz ir => ?_⟩
    · rw [List.foldlM_cons, e1]
      exact e2
    · obtain ⟨hm, -⟩ := List.getElem?_eq_some_iff.1 h1
      have hm1 : m < gs1.length := by rw [l1]; exact hm
      have h3 := List.getElem?_eq_getElem hm1
      obtain ⟨a1, a2⟩ := k1 m g _ h1 h3 a ha iz ir
      obtain ⟨b1, b2⟩ := k2 m _ g' h3 h2 a ha iz ir
      refine ⟨?_, fun h => ?_⟩
      · rintro ⟨M', hM', hin⟩
        by_cases h' : ∃ M ∈ l, InMirror c M zmin zmax t m iz
        · exact b1 h'
        · rcases List.mem_cons.1 hM' with rfl | hM'
          · rw [b2 h', a1 hin]
          · exact absurd ⟨M', hM', hin⟩ h'
      · rw [b2 fun ⟨M', x, y⟩ => h ⟨M', List.mem_cons_of_mem _ x, y⟩, a2 fun y => h ⟨M, List.mem_cons_self, y⟩]

/-- What the boundaries do. -/
structure OCfg.Bounded (S T : OSim) : Prop where
  rest : T = { S with sim := { S.sim with spect := T.sim.spect, interp := T.sim.interp } }
  shape : ∀ m < c.base.Nm, (S.sim.spect m).SameShape (T.sim.spect m)
  rho : ∀ m iz ir, ((T.sim.spect m).cell iz ir).rhoPrev = ((S.sim.spect m).cell iz ir).rhoPrev
  J : ∀ m iz ir, ((T.sim.spect m).cell iz ir).J = ((S.sim.spect m).cell iz ir).J
  E : ∀ m < c.base.Nm, MovedHat c.base.Nz c.base.Nr 0 (transmission c S.sim.zmin S.sim.zmax S.sim.time m)
    (fun iz ir => ((S.sim.spect m).cell iz ir).em.E) (fun iz ir => ((T.sim.spect m).cell iz ir).em.E)
  B : ∀ m < c.base.Nm, MovedHat c.base.Nz c.base.Nr 0 (transmission c S.sim.zmin S.sim.zmax S.sim.time m)
    (fun iz ir => ((S.sim.spect m).cell iz ir).em.B) (fun iz ir => ((T.sim.spect m).cell iz ir).em.B)
  interp : ∀ m < c.base.Nm, ∃ i, T.sim.interp m = c.base.interpEB m (T.sim.spect m) i

theorem boundaries_ok (hsz : c.comm.size = 1) {iz0 : ℤ} (hN : c.comm.getNzIz true true true (some 0) = .ok (c.base.Nz, iz0))
    (hdz : 0 < c.dz) {S T : OSim} (hp : Placed c S) (h : c.boundaries S = .ok T) : c.Bounded S T := by
  unfold OCfg.boundaries at h
  obtain ⟨gs, hgs, h⟩ := (except_bind_ok _ _ _).1 h
  obtain ⟨gs', hgs', h⟩ := (except_bind_ok _ _ _).1 h
  have hT := Except.ok.inj h
  have hgs := (mapM_ok _ _ _).1 hgs
  have hlen : gs.length = c.base.Nm := by rw [← hgs.length_eq]; simp
  have damped : ∀ m < c.base.Nm, ∃ g : EBGrid, gs[m]? = some (ebMirror g) ∧
      (c.partialInterp (S.sim.spect m)).scaled c.base.Nz (openDamping c.comm 0 c.base.Nz) false g := by
    intro m hm
    have hm' : m < gs.length := by rw [hlen]; exact hm
    have h1 := (List.forall₂_iff_get.1 hgs).2 m (by simpa using hm) hm'
    simp only [List.get_eq_getElem, List.getElem_range] at h1
    obtain ⟨g, h2, h3⟩ := (except_bind_ok _ _ _).1 h1
    obtain ⟨g', h4, h5⟩ := C37_applied c.comm 0 (by omega) false (c.partialInterp (S.sim.spect m)) c.base.Nz iz0 hN
    have : g' = g := Except.ok.inj (h4.symm.trans h2)
    subst this
    refine ⟨g', ?_, h5⟩
    rw [List.getElem?_eq_getElem hm', ← Except.ok.inj h3]
  obtain ⟨gs2, e2, l2, k2⟩ := mirrors_all c hdz hp S.sim.time c.mirrors gs (by
    intro g hg
    obtain ⟨m, hm, rfl⟩ := List.getElem_of_mem hg
    obtain ⟨g', h1, -⟩ := damped m (by rw [← hlen]; exact hm)
    rw [List.getElem?_eq_getElem hm] at h1
    rw [Option.some.inj h1]
    rfl)
  have : gs2 = gs' := Except.ok.inj (e2.symm.trans hgs')
  subst this
  have spect : ∀ m < c.base.Nm, T.sim.spect m = c.partialSpect (mirrorEB (gs2.getD m ⟨false, fun _ => 0⟩)) (S.sim.spect m) := by
    intro m hm
    rw [← hT]
    dsimp only [onModes]
    rw [if_pos hm]
  -- the arrays of one mode after damping and mirrors
  have arrays : ∀ m < c.base.Nm, ∀ iz < c.base.Nz, ∀ ir,
      let g := gs2.getD m ⟨false, fun _ => 0⟩
      let p := c.partialInterp (S.sim.spect m)
      let f : ℂ := (transmission c S.sim.zmin S.sim.zmax S.sim.time m iz : ℂ)
      g.arr .Er iz ir = f * p.Er iz ir ∧ g.arr .Et iz ir = f * p.Et iz ir ∧ g.arr .Ez iz ir = f * p.Ez iz ir ∧
      g.arr .Br iz ir = f * p.Br iz ir ∧ g.arr .Bt iz ir = f * p.Bt iz ir ∧ g.arr .Bz iz ir = f * p.Bz iz ir := by
    intro m hm iz hz ir
    dsimp only
    obtain ⟨g, h1, h3⟩ := damped m hm
    obtain ⟨d1, d2, d3, d4, d5, d6, -⟩ := h3 iz ir hz
    have hm2 : m < gs2.length := by rw [l2, hlen]; exact hm
    have h2 : gs2[m]? = some (gs2.getD m ⟨false, fun _ => 0⟩) := by
      rw [List.getD_eq_getElem?_getD, List.getElem?_eq_getElem hm2]; rfl
    generalize gs2.getD m ⟨false, fun _ => 0⟩ = g' at h2 ⊢
    have k := fun a ha => k2 m _ g' h1 h2 a ha iz ir
    unfold transmission
    by_cases hin : ∃ M ∈ c.mirrors, InMirror c M S.sim.zmin S.sim.zmax S.sim.time m iz
    · rw [if_pos hin]
      simp only [Complex.ofReal_zero, zero_mul]
      exact ⟨(k .Er trivial).1 hin, (k .Et trivial).1 hin, (k .Ez trivial).1 hin, (k .Br trivial).1 hin, (k .Bt trivial).1 hin,
        (k .Bz trivial).1 hin⟩
    · rw [if_neg hin]
      refine ⟨((k .Er trivial).2 hin).trans ?_, ((k .Et trivial).2 hin).trans ?_, ((k .Ez trivial).2 hin).trans ?_,
        ((k .Br trivial).2 hin).trans ?_, ((k .Bt trivial).2 hin).trans ?_, ((k .Bz trivial).2 hin).trans ?_⟩
      · exact d1.trans (mul_comm _ _)
      · exact d2.trans (mul_comm _ _)
      · exact d3.trans (mul_comm _ _)
      · exact d4.trans (mul_comm _ _)
      · exact d5.trans (mul_comm _ _)
      · exact d6.trans (mul_comm _ _)
  have back : ∀ (a : Buf) iz ir, iz < c.base.Nz → fftAxis0 c.base.Nz true (fun i j => fftAxis0 c.base.Nz false a i j) iz ir = a iz ir :=
    fun a iz ir hz => (fftAxis0_inv c.base.Nz a iz ir hz).1
  refine ⟨?_, fun m hm => ?_, fun m iz ir => ?_, fun m iz ir => ?_, fun m hm => ⟨?_, ?_, ?_⟩, fun m hm => ⟨?_, ?_, ?_⟩, fun m hm => ?_⟩
  · rw [← hT]
  · rw [spect m hm]; exact ⟨rfl, rfl, rfl, rfl⟩
  · rw [← hT]
    dsimp only [onModes]
    split_ifs <;> rfl
  · rw [← hT]
    dsimp only [onModes]
    split_ifs <;> rfl
  · intro iz hz ir hr
    rw [spect m hm, rowAfter_zero _ hz]
    exact (back _ iz ir hz).trans (arrays m hm iz hz ir).1
  · intro iz hz ir hr
    rw [spect m hm, rowAfter_zero _ hz]
    exact (back _ iz ir hz).trans (arrays m hm iz hz ir).2.1
  · intro iz hz ir hr
    rw [spect m hm, rowAfter_zero _ hz]
    exact (back _ iz ir hz).trans (arrays m hm iz hz ir).2.2.1
  · intro iz hz ir hr
    rw [spect m hm, rowAfter_zero _ hz]
    exact (back _ iz ir hz).trans (arrays m hm iz hz ir).2.2.2.1
  · intro iz hz ir hr
    rw [spect m hm, rowAfter_zero _ hz]
    exact (back _ iz ir hz).trans (arrays m hm iz hz ir).2.2.2.2.1
  · intro iz hz ir hr
    rw [spect m hm, rowAfter_zero _ hz]
    exact (back _ iz ir hz).trans (arrays m hm iz hz ir).2.2.2.2.2
  · refine ⟨S.sim.interp m, ?_⟩
    rw [← hT]
    dsimp only [onModes]
    rw [if_pos hm, if_pos hm]

/-! ### Together -/

theorem moved_scal (hdz : c.dz ≠ 0) {n : ℤ} {g : ℕ → ℝ} {a b d : Buf}
    (h1 : ∀ iz < c.base.Nz, ∀ ir < c.base.Nr, b iz ir = c.shiftArr n a iz ir) (h2 : MovedScal c.base.Nz c.base.Nr 0 g b d) :
    MovedScal c.base.Nz c.base.Nr n g a d := by
  intro iz hz ir hr
  rw [h2 iz hz ir hr, rowAfter_zero _ hz]
  refine congrArg _ ?_
  rw [← shiftArr_ifft c hdz n a hr]
  exact fftAxis0_congr c.base.Nz c.base.Nr true (fun i j hi hj => h1 i hi j hj) iz ir hz hr

theorem moved_one {a b : Buf} (h : ∀ iz < c.base.Nz, ∀ ir < c.base.Nr, b iz ir = a iz ir) :
    MovedScal c.base.Nz c.base.Nr 0 (fun _ => 1) a b := by
  intro iz hz ir hr
  rw [rowAfter_zero _ hz, Complex.ofReal_one, one_mul]
  exact fftAxis0_congr c.base.Nz c.base.Nr true (fun i j hi hj => h i hi j hj) iz ir hz hr

theorem hankel_moved (M : ℕ → ℕ → ℝ) {n : ℤ} {g : ℕ → ℝ} {a b : Buf} (h : MovedScal c.base.Nz c.base.Nr n g a b) {iz ir : ℕ}
    (hz : iz < c.base.Nz) :
    fftAxis0 c.base.Nz true (hankel c.base.Nr M b) iz ir =
      (g iz : ℂ) * fftAxis0 c.base.Nz true (hankel c.base.Nr M a) (rowAfter c.base.Nz n iz) ir := by
  rw [ifft_hankel, ifft_hankel]
  unfold hankel
  rw [Finset.mul_sum]
  refine Finset.sum_congr rfl fun l hl => ?_
  rw [h iz hz l (Finset.mem_range.1 hl)]
  ring

/-- The fields on the grid are moved in the same way. -/
theorem moved_vecBack (m : ℕ) {n : ℤ} {g : ℕ → ℝ} {F G : ℕ → ℕ → V3} (h : MovedHat c.base.Nz c.base.Nr n g F G) :
    OnGrid c.base (vecBack c.base m G) (movedVec c.base.Nz n g (vecBack c.base m F)) := by
  obtain ⟨hp, hm, hz⟩ := h
  unfold vecBack movedVec movedArr
  refine ⟨fun iz hiz ir hir => ?_, fun iz hiz ir hir => ?_, fun iz hiz ir hir => ?_⟩
  · dsimp only
    rw [ifft_add, ifft_add, hankel_moved c _ hp hiz, hankel_moved c _ hm hiz]
    ring
  · dsimp only
    rw [ifft_isub, ifft_isub, hankel_moved c _ hp hiz, hankel_moved c _ hm hiz]
    ring
  · exact hankel_moved c _ hz hiz

/-- The last part of an iteration. -/
structure OCfg.Ended (o : Opts) (D T : OSim) : Prop where
  species : T.sim.species = D.sim.species
  ants : T.ants = D.ants
  time : T.sim.time = D.sim.time + c.base.dt
  iteration : T.sim.iteration = D.sim.iteration + 1
  zmin : T.sim.zmin = D.sim.zmin + c.windowCells D * c.dz
  zmax : T.sim.zmax = D.sim.zmax + c.windowCells D * c.dz
  zminG : T.zminG = D.zminG + c.windowCells D * c.dz
  win : T.win = windowAfter D
  inj : (D.win = none → T.inj = D.inj) ∧ (∀ w, D.win = some w →
    List.Forall₂ (fun a b => advanceInj w.v (D.sim.time - w.tLast) a = .ok b) D.inj T.inj)
  divE : o.correctDivE = true → c.base.correction = .curlFree
  shape : ∀ m < c.base.Nm, (D.sim.spect m).SameShape (T.sim.spect m)
  E : ∀ m < c.base.Nm, MovedHat c.base.Nz c.base.Nr (c.windowCells D) (transmission c T.sim.zmin T.sim.zmax D.sim.time m)
    (fun iz ir => ((c.base.endGrid o (D.sim.spect m)).cell iz ir).em.E) (fun iz ir => ((T.sim.spect m).cell iz ir).em.E)
  B : ∀ m < c.base.Nm, MovedHat c.base.Nz c.base.Nr (c.windowCells D) (transmission c T.sim.zmin T.sim.zmax D.sim.time m)
    (fun iz ir => ((c.base.endGrid o (D.sim.spect m)).cell iz ir).em.B) (fun iz ir => ((T.sim.spect m).cell iz ir).em.B)
  J : ∀ m < c.base.Nm, MovedHat c.base.Nz c.base.Nr (c.windowCells D) (fun _ => 1)
    (fun iz ir => ((c.base.endGrid o (D.sim.spect m)).cell iz ir).J) (fun iz ir => ((T.sim.spect m).cell iz ir).J)
  rho : ∀ m < c.base.Nm, MovedScal c.base.Nz c.base.Nr (c.windowCells D) (fun _ => 1)
    (fun iz ir => ((c.base.endGrid o (D.sim.spect m)).cell iz ir).rhoPrev) (fun iz ir => ((T.sim.spect m).cell iz ir).rhoPrev)
  interp : ∀ m < c.base.Nm, ∃ i, T.sim.interp m = c.base.interpEB m (T.sim.spect m) i

theorem placed_shift {iz0 : ℤ} {N : ℕ} (hN : c.comm.getNzIz true true true (some 0) = .ok (N, iz0)) {S T : OSim} (hp : Placed c S)
    (x : ℝ) (h1 : T.zminG = S.zminG + x) (h2 : T.sim.zmin = S.sim.zmin + x) (h3 : T.sim.zmax = S.sim.zmax + x) : Placed c T := by
  unfold Placed at hp ⊢
  rw [Comm.getZminZmax_of hN] at hp ⊢
  have := Except.ok.inj hp
  rw [Prod.mk.injEq] at this
  rw [h1, h2, h3, ← this.1, ← this.2]
  refine congrArg _ (Prod.ext ?_ ?_) <;> ring

theorem oend (o : Opts) (hsz : c.comm.size = 1) {iz0 : ℤ}
    (hN : c.comm.getNzIz true true true (some 0) = .ok (c.base.Nz, iz0)) (hdz : 0 < c.dz) {D T : OSim} (hp : Placed c D)
    (h : c.iterEnd o D = .ok T) : c.Ended o D T := by
  unfold OCfg.iterEnd at h
  obtain ⟨P, hP, h⟩ := (except_bind_ok _ _ _).1 h
  obtain ⟨W, hW, h⟩ := (except_bind_ok _ _ _).1 h
  obtain ⟨X, hX, h⟩ := (except_bind_ok _ _ _).1 h
  have hT := Except.ok.inj h
  obtain ⟨p1, p2, p3⟩ := pushFields_ok c o hP
  have hcells : c.windowCells P = c.windowCells D := by rw [p3]; rfl
  have w := moveWindow_ok c hW
  have e1 : P.sim.zmin = D.sim.zmin := by rw [p3]
  have e2 : P.sim.zmax = D.sim.zmax := by rw [p3]
  have e3 : P.zminG = D.zminG := by rw [p3]
  have e4 : P.sim.time = D.sim.time := by rw [p3]
  have e5 : P.win = D.win := by rw [p3]
  have e6 : P.inj = D.inj := by rw [p3]
  have hpW : Placed c W := placed_shift c hN hp (c.windowCells D * c.dz) (by rw [w.zminG, hcells, e3]) (by rw [w.zmin, hcells, e1])
    (by rw [w.zmax, hcells, e2])
  have b := boundaries_ok c hsz hN hdz hpW hX
  have f1 : X.sim.zmin = W.sim.zmin := by rw [b.rest]
  have f2 : X.sim.zmax = W.sim.zmax := by rw [b.rest]
  have tz : T.sim.zmin = W.sim.zmin := by rw [← hT]; exact f1
  have tz' : T.sim.zmax = W.sim.zmax := by rw [← hT]; exact f2
  have ts : T.sim.spect = X.sim.spect := by rw [← hT]
  have wt : W.sim.time = D.sim.time := w.time.trans e4
  have sg : ∀ m < c.base.Nm, c.ShiftedGrid (c.windowCells D) (c.base.endGrid o (D.sim.spect m)) (W.sim.spect m) := by
    intro m hm
    have := w.spect m hm
    rw [p2 m hm, hcells] at this
    exact this
  refine ⟨?_, ?_, ?_, ?_, ?_, ?_, ?_, ?_, ?_, p1, fun m hm => ?_, fun m hm => ?_, fun m hm => ?_, fun m hm => ?_, fun m hm => ?_, fun m hm => ?_⟩
  · rw [← hT]; show X.sim.species = _; rw [b.rest]; exact w.species.trans (by rw [p3])
  · rw [← hT]; show X.ants = _; rw [b.rest]; exact w.ants.trans (by rw [p3])
  · rw [← hT]; show X.sim.time + _ = _; rw [b.rest]; show W.sim.time + _ = _; rw [wt]
  · rw [← hT]; show X.sim.iteration + _ = _; rw [b.rest]; show W.sim.iteration + _ = _; rw [w.iteration, p3]
  · rw [tz, w.zmin, hcells, e1]
  · rw [tz', w.zmax, hcells, e2]
  · rw [← hT]; show X.zminG = _; rw [b.rest]; show W.zminG = _; rw [w.zminG, hcells, e3]
  · rw [← hT]; show X.win = _; rw [b.rest]; show W.win = _; rw [w.win]; unfold windowAfter; rw [e4, e5]
  · have : T.inj = W.inj := by rw [← hT]; show X.inj = _; rw [b.rest]
    rw [this]
    have := w.inj
    rw [e4, e5, e6] at this
    exact this
  · obtain ⟨a1, a2, a3, a4⟩ := endGrid_shape c.base o (D.sim.spect m)
    obtain ⟨b1, b2, b3, b4⟩ := (sg m hm).shape
    obtain ⟨d1, d2, d3, d4⟩ := b.shape m hm
    rw [ts]
    exact ⟨d1.trans (b1.trans a1), d2.trans (b2.trans a2), d3.trans (b3.trans a3), d4.trans (b4.trans a4)⟩
  · have := b.E m hm
    rw [wt, ← tz, ← tz'] at this
    rw [ts]
    exact ⟨moved_scal c hdz.ne' (sg m hm).Ep this.1, moved_scal c hdz.ne' (sg m hm).Em this.2.1, moved_scal c hdz.ne' (sg m hm).Ez this.2.2⟩
  · have := b.B m hm
    rw [wt, ← tz, ← tz'] at this
    rw [ts]
    exact ⟨moved_scal c hdz.ne' (sg m hm).Bp this.1, moved_scal c hdz.ne' (sg m hm).Bm this.2.1, moved_scal c hdz.ne' (sg m hm).Bz this.2.2⟩
  · rw [ts]
    refine ⟨moved_scal c hdz.ne' (sg m hm).Jp ?_, moved_scal c hdz.ne' (sg m hm).Jm ?_, moved_scal c hdz.ne' (sg m hm).Jz ?_⟩
    · exact moved_one c fun iz _ ir _ => congrArg V3.p (b.J m iz ir)
    · exact moved_one c fun iz _ ir _ => congrArg V3.m (b.J m iz ir)
    · exact moved_one c fun iz _ ir _ => congrArg V3.z (b.J m iz ir)
  · rw [ts]
    exact moved_scal c hdz.ne' (sg m hm).rho (moved_one c fun iz _ ir _ => b.rho m iz ir)
  · obtain ⟨i, hi⟩ := b.interp m hm
    refine ⟨i, ?_⟩
    rw [ts, ← hi, ← hT]

end Fbpic.Pic
