import Verif.Lemmas.PicOpenStep
import Verif.Props.PicCycle

/-!
# C94: the PIC cycle with open boundaries, moving window, lasers and mirrors
-/

namespace Fbpic.Pic

open Transform ExternalField Step
open Spec (Paired LeapFrom Sources ChargeOf charges earlier Entered Swings Swung Started OneProcess Healthy Placed transmission MovedHat MovedScal
  movedVec vecHat vecBack scalBack OnGrid PlusGradient V3 EM IsMaxwell div)

private theorem _root_.Fbpic.Spec.OnGrid.trans' {b : Cfg} {F G H : GridVec} (h : OnGrid b F G) (h' : OnGrid b G H) : OnGrid b F H :=
  ⟨fun iz hz ir hr => (h.r iz hz ir hr).trans (h'.r iz hz ir hr), fun iz hz ir hr => (h.t iz hz ir hr).trans (h'.t iz hz ir hr),
    fun iz hz ir hr => (h.z iz hz ir hr).trans (h'.z iz hz ir hr)⟩

variable {c : OCfg} [NeZero c.base.Nz]

/-- **C94** (particles): the particles that take part in an iteration are those of the beginning, without the ones
that have left the box, and with the plasma that is injected at the front of the moving window; see `Entered`. Each of
them makes one leap-frog step, with the fields of the beginning and the external fields. -/
theorem C94_particles (hc : OneProcess c) (o : Opts) (i : ℕ) (S T : OSim) (hS : Healthy c S) (h : c.iter o i S = .ok T) :
    ∃ u, Entered c i S u ∧
      Paired (fun id sp p p' => p.push.mom.ok → LeapFrom c.base o S.sim id sp p.push.z p p') u T.sim := by
  obtain ⟨U, A, B, D, w⟩ := iter_way c hc.threads o i h
  exact ⟨U.sim, entered_of c w.exch w.noexch, (w.ptcl hc.size (nziz hc) hc.dz (hS.placed hc)).1⟩

/-- **C94** (lasers): in every iteration the virtual particles of the antennas swing in the field of the laser, and the
antenna emits if it was in the box when the particles were exchanged. -/
theorem C94_antennas (hc : OneProcess c) (o : Opts) (i : ℕ) (S T : OSim) (hS : Healthy c S) (h : c.iter o i S = .ok T) :
    List.Forall₂ (Swung c i S) S.ants T.ants := by
  obtain ⟨U, A, B, D, w⟩ := iter_way c hc.threads o i h
  have hp := hS.placed hc
  have m := deposit_moved c o w.dep
  have e := oend c o hc.size (nziz hc) hc.dz (w.placed (nziz hc) hp) w.endT
  have hT : T.ants = U.ants.map (fun a => slide c.base.dt c.base.dt
      (Antenna.updateV c.ak a (S.sim.time + 0.5 * c.base.dt) c.base.dt)) := by
    rw [e.ants, m.ants, w.antsB, List.map_map]
    refine List.map_congr_left fun a _ => ?_
    rw [Function.comp_apply, slide_add, show 0.5 * c.base.dt + 0.5 * c.base.dt = c.base.dt by ring]
  rw [hT, List.forall₂_map_right_iff]
  by_cases hx : c.exchanges i S
  · obtain ⟨-, -, -, -, -, -, ha⟩ := exchange_ok c (w.exch hx)
    refine ha.imp fun a b hab => ?_
    unfold Antenna.updateCurrentRank at hab
    obtain ⟨⟨zl, zh⟩, hz, hab⟩ := (except_bind_ok _ _ _).1 hab
    rw [Comm.getZminZmax_of (Comm.getNzIz_local c.comm true false 0)] at hz
    have hz := Except.ok.inj hz
    rw [Prod.mk.injEq] at hz
    obtain ⟨hl, hh⟩ := hz
    have e1 : zl = S.sim.zmin + c.comm.nGuard * c.dz := by
      rw [← hl, hS.zmin]
      unfold Comm.izLoc
      simp
      ring
    have e2 : zh = S.sim.zmax - c.comm.nGuard * c.dz := by
      rw [← hh, hl, e1, hS.zmax, hc.cells]
      unfold Comm.nzLoc
      rw [hc.size]
      simp [Nat.mod_one]
      ring
    cases hpt : a.parts with
    | nil => rw [hpt] at hab; cases hab
    | cons p l =>
      rw [hpt] at hab
      have hb := Except.ok.inj hab
      have sw := swings_of c b S.sim.time
      have hsw : List.Forall₂ (Swings c a S.sim.time) a.parts
          (slide c.base.dt c.base.dt (Antenna.updateV c.ak b (S.sim.time + 0.5 * c.base.dt) c.base.dt)).parts := by
        rw [hpt]
        rw [← hb] at sw ⊢
        exact sw
      rw [← hb] at hsw ⊢
      refine ⟨rfl, rfl, rfl, hsw, fun _ => ⟨p, by rw [hpt]; rfl, ?_⟩, fun hn => absurd hx hn⟩
      rw [← e1, ← e2]
      show decide (p.z ≥ zl ∧ p.z < zh) = true ↔ _
      rw [decide_eq_true_iff]
  · rw [w.noexch hx]
    exact List.forall₂_same.2 fun a _ => ⟨rfl, rfl, rfl, swings_of c a S.sim.time, fun h => absurd h hx, fun _ => rfl⟩

/-- **C94** (counters and window): the time advances by `dt`, the iteration number by one. The grid moves with the
Galilean frame, and by a number of cells, which is zero without a moving window. The window moves with its velocity,
up to the time of the beginning of the iteration, and the grid follows it within one cell. -/
theorem C94_window (hc : OneProcess c) (o : Opts) (i : ℕ) (S T : OSim) (hS : Healthy c S) (h : c.iter o i S = .ok T) :
    T.sim.time = S.sim.time + c.base.dt ∧ T.sim.iteration = S.sim.iteration + 1 ∧ ∃ n : ℤ,
      T.zminG = S.zminG + (if c.base.galilean then c.base.V.getD 0 * c.base.dt else 0) + n * c.dz ∧
      (S.win = none → n = 0 ∧ T.win = none) ∧
      ∀ w, S.win = some w → ∃ w', T.win = some w' ∧ w'.v = w.v ∧ w'.tLast = S.sim.time ∧
        w'.zmin = w.zmin + w.v * (S.sim.time - w.tLast) ∧ |w'.zmin - T.zminG| < c.dz := by
  obtain ⟨U, A, B, D, w⟩ := iter_way c hc.threads o i h
  have m := deposit_moved c o w.dep
  have e := oend c o hc.size (nziz hc) hc.dz (w.placed (nziz hc) (hS.placed hc)) w.endT
  have hD : D.zminG = S.zminG + (if c.base.galilean then c.base.V.getD 0 * c.base.dt else 0) := by
    rw [m.zminG, w.zminGB, add_assoc, drift_add]
    unfold Cfg.drift
    rw [show 0.5 * c.base.dt + 0.5 * c.base.dt = c.base.dt by ring]
  have hw : D.win = S.win := by rw [m.win, w.winB]
  have ht : D.sim.time = S.sim.time := by rw [m.time, w.timeB]
  refine ⟨by rw [e.time, ht], by rw [e.iteration, m.iteration, w.iterationB], c.windowCells D, by rw [e.zminG, hD], ?_, ?_⟩
  · intro h0
    refine ⟨by unfold OCfg.windowCells; rw [hw, h0], by rw [e.win]; unfold windowAfter; rw [hw, h0]; rfl⟩
  · intro W hW
    refine ⟨⟨W.v, D.sim.time, W.zmin + W.v * (D.sim.time - W.tLast)⟩, by rw [e.win]; unfold windowAfter; rw [hw, hW]; rfl, rfl, ht,
      by rw [ht], ?_⟩
    have hn : c.windowCells D = pyInt ((W.zmin + W.v * (D.sim.time - W.tLast) - D.zminG) / c.dz) := by
      unfold OCfg.windowCells; rw [hw, hW]
    rw [e.zminG, hn]
    set x := (W.zmin + W.v * (D.sim.time - W.tLast) - D.zminG) / c.dz with hx
    have h1 := abs_sub_pyInt_lt x
    have h2 : W.zmin + W.v * (D.sim.time - W.tLast) - (D.zminG + pyInt x * c.dz) = (x - pyInt x) * c.dz := by
      rw [hx, sub_mul, div_mul_cancel₀ _ hc.dz.ne']; ring
    show |W.zmin + W.v * (D.sim.time - W.tLast) - (D.zminG + pyInt x * c.dz)| < _
    rw [h2, abs_mul, abs_of_pos hc.dz]
    nlinarith [hc.dz]

/-- **C94** (what is assumed stays true): so the other statements hold for every iteration of every call. -/
theorem C94_healthy (hc : OneProcess c) (o : Opts) (i : ℕ) (S T : OSim) (hS : Healthy c S) (h : c.iter o i S = .ok T) :
    Healthy c T := by
  obtain ⟨U, A, B, D, w⟩ := iter_way c hc.threads o i h
  have hp := hS.placed hc
  have m := deposit_moved c o w.dep
  have hD := w.placed (nziz hc) hp
  have e := oend c o hc.size (nziz hc) hc.dz hD w.endT
  have hT := (placed_iff hc T).1 (placed_shift c (nziz hc) hD _ e.zminG e.zmin e.zmax)
  have sh : ∀ m < c.base.Nm, (S.sim.spect m).SameShape (T.sim.spect m) := by
    intro m hm
    have kA := (w.spectA hS.sized).1
    have kB := (Cfg.Keeps.of_eq c.base (fun _ => False) w.spectB)
    have kD := deposit_keeps c hc.threads o ((kA.trans c.base kB).sized c.base hS.sized) w.dep
    obtain ⟨a1, a2, a3, a4⟩ := (((kA.trans c.base kB).trans c.base kD) m hm).1
    obtain ⟨b1, b2, b3, b4⟩ := e.shape m hm
    exact ⟨b1.trans a1, b2.trans a2, b3.trans a3, b4.trans a4⟩
  refine ⟨fun m hm => ?_, fun m hm iz hz => ?_, hT.1, hT.2, (w.ptcl hc.size (nziz hc) hc.dz hp).2 (w.soundU hc.fill hS.mom)⟩
  · obtain ⟨a1, a2, -, -⟩ := sh m hm
    obtain ⟨b1, b2⟩ := hS.sized m hm
    exact ⟨a1.trans b1, a2.trans b2⟩
  · rw [(sh m hm).2.2.1]
    exact hS.regular m hm iz hz

/-- **C94** (sources and fields): the sources are those of the particles and the antennas. The fields are the exact
solution of Maxwell's equations from those of the beginning, with these sources; then they are moved with the window,
by `n` cells, damped at the ends of the grid, and set to zero in the mirrors. With the option `correct_divE` a gradient
is added to E, so that Gauss' law holds. The charge density before the step is the one of the particles and antennas
if particles are exchanged in this iteration, else the one of the end of the iteration before. With the option
`use_true_rho` this is only claimed where Gauss' law holds at the beginning and the charge is conserved. With the
option `move_positions=False` it is only claimed without antennas. -/
theorem C94_fields (hc : OneProcess c) (o : Opts) (i : ℕ) (S T : OSim) (hS : Healthy c S) (h : c.iter o i S = .ok T)
    (hmove : o.movePositions = true ∨ S.ants = []) :
    ∃ (n : ℤ) (rho₀ rho : ℕ → ℕ → ℕ → ℂ) (J E B : ℕ → ℕ → ℕ → V3),
      T.zminG = S.zminG + (if c.base.galilean then c.base.V.getD 0 * c.base.dt else 0) + n * c.dz ∧
      ((S.sim.iteration : ℤ) % c.comm.exchangePeriod = 0 ∨ i = 0 →
        ChargeOf c.base (charges c (earlier c o n c.base.dt c.base.dt T)) rho₀) ∧
      (¬ ((S.sim.iteration : ℤ) % c.comm.exchangePeriod = 0 ∨ i = 0) → ∀ m < c.base.Nm, ∀ iz < c.base.Nz, ∀ ir < c.base.Nr,
        rho₀ m iz ir = ((S.sim.spect m).cell iz ir).rhoPrev) ∧
      Sources c.base o (fun m => (S.sim.spect m).kz) (fun m => (S.sim.spect m).kr)
        (fun a b => charges c (earlier c o n a b T)) rho₀ rho J ∧
      (∀ m < c.base.Nm, ∀ iz < c.base.Nz, ∀ ir < c.base.Nr, ∀ f : ℝ → EM,
        IsMaxwell c.base.k.c c.base.k.mu0 ((S.sim.spect m).kz iz) ((S.sim.spect m).kr ir)
          (schemeOf c.base.V c.base.galilean).gridVelocity
          ((schemeOf c.base.V c.base.galilean).current ((S.sim.spect m).kz iz) c.base.dt (J m iz ir)) f →
        f 0 = ((S.sim.spect m).cell iz ir).em → div ((S.sim.spect m).kz iz) ((S.sim.spect m).kr ir) (f 0).B = 0 →
        (o.useTrueRho = true → div ((S.sim.spect m).kz iz) ((S.sim.spect m).kr ir) (f 0).E = rho₀ m iz ir / c.base.k.eps0 ∧
          (schemeOf c.base.V c.base.galilean).Continuity ((S.sim.spect m).kz iz) ((S.sim.spect m).kr ir) c.base.dt (rho₀ m iz ir)
            (rho m iz ir) (J m iz ir)) →
        B m iz ir = (f c.base.dt).B ∧ (o.correctDivE = false → E m iz ir = (f c.base.dt).E) ∧
        (o.correctDivE = true → PlusGradient ((S.sim.spect m).kz iz) ((S.sim.spect m).kr ir) (f c.base.dt).E (E m iz ir) ∧
          ((S.sim.spect m).kz iz ≠ 0 ∨ (S.sim.spect m).kr ir ≠ 0 →
            div ((S.sim.spect m).kz iz) ((S.sim.spect m).kr ir) (E m iz ir) = rho m iz ir / c.base.k.eps0))) ∧
      ∀ m < c.base.Nm,
        let g := transmission c T.sim.zmin T.sim.zmax S.sim.time m
        let one : ℕ → ℝ := fun _ => 1
        MovedHat c.base.Nz c.base.Nr n g (E m) (fun iz ir => ((T.sim.spect m).cell iz ir).em.E) ∧
        MovedHat c.base.Nz c.base.Nr n g (B m) (fun iz ir => ((T.sim.spect m).cell iz ir).em.B) ∧
        MovedHat c.base.Nz c.base.Nr n one (J m) (fun iz ir => ((T.sim.spect m).cell iz ir).J) ∧
        MovedScal c.base.Nz c.base.Nr n one (rho m) (fun iz ir => ((T.sim.spect m).cell iz ir).rhoPrev) ∧
        OnGrid c.base (T.sim.interp m).E (movedVec c.base.Nz n g (vecBack c.base m (E m))) ∧
        OnGrid c.base (T.sim.interp m).B (movedVec c.base.Nz n g (vecBack c.base m (B m))) := by
  obtain ⟨U, A, Bd, D, w⟩ := iter_way c hc.threads o i h
  have hp := hS.placed hc
  have mv := deposit_moved c o w.dep
  have e := oend c o hc.size (nziz hc) hc.dz (w.placed (nziz hc) hp) w.endT
  obtain ⟨-, rho₀, hx, hnx, hsrc, hcell⟩ := w.sources hc.threads hc.consts.c_pos.ne' hc.size (nziz hc) hc.dz hp hS.sized hc.fill hS.mom
    hmove hS.regular
  have ht : D.sim.time = S.sim.time := by rw [mv.time, w.timeB]
  refine ⟨c.windowCells D, rho₀, _, _, fun m iz ir => ((c.base.endGrid o (D.sim.spect m)).cell iz ir).em.E,
    fun m iz ir => ((c.base.endGrid o (D.sim.spect m)).cell iz ir).em.B, ?_, hx, hnx, hsrc, ?_, ?_⟩
  · rw [e.zminG, mv.zminG, w.zminGB, add_assoc S.zminG, drift_add]
    unfold Cfg.drift
    rw [show 0.5 * c.base.dt + 0.5 * c.base.dt = c.base.dt by ring]
  · intro m hm iz hz ir hr f hf h0 hB htr
    obtain ⟨u, hu1, hu2, hu⟩ := hcell m hm iz hz ir hr
    dsimp only at hf htr ⊢
    obtain ⟨b1, b2, b3⟩ := beforePush_rest c.base o ((S.sim.spect m).kz iz) ((S.sim.spect m).kr ir) u
    rw [hu.J] at hf
    have key := push_exact hc.consts c.base.galilean o.useTrueRho (hS.regular m hm iz hz) _ f hf (by rw [b3, hu1, h0])
      (by rw [b3, hu1, ← h0]; exact hB) (fun htt => by
        obtain ⟨t1, t2⟩ := htr htt
        refine ⟨?_, ?_⟩
        · unfold SpecCell.Gauss
          rw [b3, hu1, b1, hu2, ← h0]
          exact t1
        · unfold SpecCell.Conserving
          rw [b1, hu2, b2, ← hu.rho, ← hu.J]
          exact t2)
    rw [← key]
    exact ⟨hu.B, hu.E, hu.divE⟩
  · intro m hm
    have eE := e.E m hm
    have eB := e.B m hm
    rw [ht] at eE eB
    obtain ⟨i', hi⟩ := e.interp m hm
    obtain ⟨a1, a2, -, -⟩ := interp_back c.base m (T.sim.spect m) i'
    refine ⟨eE, eB, e.J m hm, e.rho m hm, ?_, ?_⟩
    · rw [hi]
      exact a1.trans' (moved_vecBack c m eE)
    · rw [hi]
      exact a2.trans' (moved_vecBack c m eB)

theorem startFields_ok (hc : OneProcess c) {S S' : OSim} (h : c.startFields S = .ok S') : Started c S S' ∧
    S'.inj = S.inj := by
  unfold OCfg.startFields at h
  obtain ⟨gs, hgs, h⟩ := (except_bind_ok _ _ _).1 h
  have hT := Except.ok.inj h
  have hgs := (mapM_ok _ _ _).1 hgs
  have hlen : gs.length = c.base.Nm := by rw [← hgs.length_eq]; simp
  have hint : ∀ m < c.base.Nm, S'.sim.interp m = (S.sim.interp m).setEB (gs.getD m (S.sim.interp m).eb) := by
    intro m hm
    rw [← hT]
    show onModes c.base.Nm (fun m i => i.setEB (gs.getD m i.eb)) S.sim.interp m = _
    dsimp only [onModes]
    rw [if_pos hm]
  have damped : ∀ m < c.base.Nm, (S.sim.interp m).eb.scaled c.base.Nz (openDamping c.comm 0 c.base.Nz) false
      (gs.getD m (S.sim.interp m).eb) := by
    intro m hm
    have hm' : m < gs.length := by rw [hlen]; exact hm
    have h1 := (List.forall₂_iff_get.1 hgs).2 m (by simpa using hm) hm'
    simp only [List.get_eq_getElem, List.getElem_range] at h1
    obtain ⟨g', h4, h5⟩ := C37_applied c.comm 0 (by rw [hc.size]; omega) false (S.sim.interp m).eb c.base.Nz _ (nziz hc)
    have : g' = gs[m] := Except.ok.inj (h4.symm.trans h1)
    rw [List.getD_eq_getElem?_getD, List.getElem?_eq_getElem hm', Option.getD_some, ← this]
    exact h5
  have row : ∀ iz < c.base.Nz, Spec.rowAfter c.base.Nz 0 iz = iz := by
    intro iz hz
    unfold Spec.rowAfter
    rw [add_zero, Int.emod_eq_of_lt (by omega) (by exact_mod_cast hz), Int.toNat_natCast]
  refine ⟨⟨?_, ?_, ?_, ?_, ?_, ?_, ?_, ?_, fun m hm => ⟨?_, ?_, ?_⟩, fun m hm => ⟨?_, ?_, ?_⟩, fun m hm => ?_, fun m hm iz hz ir hr => ?_⟩, ?_⟩
  all_goals first | (rw [← hT]; done) | (rw [← hT]; rfl) | skip
  · intro iz hz ir hr; rw [hint m hm]; simp only [movedVec, Spec.movedArr]; rw [row iz hz, mul_comm]; exact (damped m hm iz ir hz).1
  · intro iz hz ir hr; rw [hint m hm]; simp only [movedVec, Spec.movedArr]; rw [row iz hz, mul_comm]; exact (damped m hm iz ir hz).2.1
  · intro iz hz ir hr; rw [hint m hm]; simp only [movedVec, Spec.movedArr]; rw [row iz hz, mul_comm]; exact (damped m hm iz ir hz).2.2.1
  · intro iz hz ir hr; rw [hint m hm]; simp only [movedVec, Spec.movedArr]; rw [row iz hz, mul_comm]; exact (damped m hm iz ir hz).2.2.2.1
  · intro iz hz ir hr; rw [hint m hm]; simp only [movedVec, Spec.movedArr]; rw [row iz hz, mul_comm]; exact (damped m hm iz ir hz).2.2.2.2.1
  · intro iz hz ir hr; rw [hint m hm]; simp only [movedVec, Spec.movedArr]; rw [row iz hz, mul_comm]; exact (damped m hm iz ir hz).2.2.2.2.2.1
  · rw [← hT]
    show { onModes c.base.Nm _ S.sim.spect m with cell := (S.sim.spect m).cell } = _
    dsimp only [onModes]
    rw [if_pos hm]
    rfl
  · have := start_hat c.base { S.sim with interp := S'.sim.interp } hm hz hr
    rw [← hT] at this ⊢
    exact this

/-- **C94** (calls): a call of `step` consists of iterations. Before the first one the fields are damped at the ends of
the grid, and brought to spectral space; after the last one the sources are brought to the grid. The assumptions hold
in all of them, and at the end. -/
theorem C94_run (hc : OneProcess c) (o : Opts) (N : ℕ) (S T : OSim) (hS : Healthy c S) (h : c.step N o S = .ok T) :
    ∃ σ : ℕ → OSim, Started c S (σ 0) ∧ (∀ j < N, Healthy c (σ j) ∧ c.iter o j (σ j) = .ok (σ (j + 1))) ∧ Healthy c T ∧
      T = { σ N with sim := { (σ N).sim with interp := T.sim.interp } } ∧
      ∀ m < c.base.Nm, (T.sim.interp m).E = ((σ N).sim.interp m).E ∧ (T.sim.interp m).B = ((σ N).sim.interp m).B ∧
        OnGrid c.base (T.sim.interp m).J (vecBack c.base m fun iz ir => ((T.sim.spect m).cell iz ir).J) ∧
        ∀ iz < c.base.Nz, ∀ ir < c.base.Nr,
          (T.sim.interp m).rho iz ir = scalBack c.base m (fun iz ir => ((T.sim.spect m).cell iz ir).rhoPrev) iz ir := by
  unfold OCfg.step at h
  obtain ⟨S1, h1, h⟩ := (except_bind_ok _ _ _).1 h
  obtain ⟨S2, h2, h⟩ := (except_bind_ok _ _ _).1 h
  obtain ⟨S3, h3, h⟩ := (except_bind_ok _ _ _).1 h
  have hT := Except.ok.inj h
  have e1 : { S1 with inj := S.inj } = S := by
    unfold OCfg.startInj at h1
    split at h1
    · rw [← Except.ok.inj h1]
    · obtain ⟨l, -, h1⟩ := (except_bind_ok _ _ _).1 h1
      rw [← Except.ok.inj h1]
  have st := (startFields_ok hc h2).1
  have st' : Started c S S2 := by
    rw [← e1]
    exact ⟨st.species, st.zmin, st.zmax, st.time, st.iteration, st.zminG, st.win, st.ants, st.E, st.B, st.grid, st.em⟩
  have h0 : Healthy c S2 := by
    refine ⟨fun m hm => ?_, fun m hm iz hz => ?_, ?_, ?_, ?_⟩
    · have := st'.grid m hm
      rw [← (hS.sized m hm).1, ← (hS.sized m hm).2, ← this]
      exact ⟨rfl, rfl⟩
    · have := hS.regular m hm iz hz
      rw [← st'.grid m hm] at this
      exact this
    · rw [st'.zmin, st'.zminG, hS.zmin]
    · rw [st'.zmin, st'.zmax, hS.zmax]
    · rw [st'.species]; exact hS.mom
  have chain : ∀ (n i : ℕ) (A B : OSim), Healthy c A → c.loop o i n A = .ok B → Healthy c B ∧ ∃ σ : ℕ → OSim, σ 0 = A ∧ σ n = B ∧
      ∀ j < n, Healthy c (σ j) ∧ c.iter o (i + j) (σ j) = .ok (σ (j + 1)) := by
    intro n
    induction n with
    | zero =>
      intro i A B hA hl
      have := Except.ok.inj hl
      subst this
      exact ⟨hA, fun _ => A, rfl, rfl, fun j hj => absurd hj (by omega)⟩
    | succ n ih =>
      intro i A B hA hl
      obtain ⟨A', ha, hl⟩ := (except_bind_ok _ _ _).1 hl
      obtain ⟨k1, σ, k2, k3, k4⟩ := ih (i + 1) A' B (C94_healthy hc o i A A' hA ha) hl
      refine ⟨k1, fun j => if j = 0 then A else σ (j - 1), rfl, by simpa using k3, fun j hj => ?_⟩
      rcases Nat.eq_zero_or_pos j with rfl | hj0
      · simp only [if_true, add_zero, zero_add, Nat.one_ne_zero, if_false, Nat.sub_self, k2]
        exact ⟨hA, ha⟩
      · obtain ⟨j, rfl⟩ := Nat.exists_eq_add_of_le' hj0
        have := k4 j (by omega)
        simp only [Nat.add_one_ne_zero, if_false, Nat.add_sub_cancel]
        rw [show i + (j + 1) = i + 1 + j by ring]
        exact this
  obtain ⟨k1, σ, k2, k3, k4⟩ := chain N 0 S2 S3 h0 h3
  refine ⟨σ, by rw [k2]; exact st', fun j hj => by have := k4 j hj; rwa [zero_add] at this, ?_, ?_, fun m hm => ?_⟩
  · rw [← hT]
    exact ⟨k1.sized, k1.regular, k1.zmin, k1.zmax, k1.mom⟩
  · rw [k3, ← hT]; rfl
  · have hi : T.sim.interp m = c.base.interpSources m (T.sim.spect m) (S3.sim.interp m) := by
      rw [← hT]
      show onModes c.base.Nm (fun m i => c.base.interpSources m (S3.sim.spect m) i) S3.sim.interp m = _
      dsimp only [onModes]
      rw [if_pos hm]
      rfl
    obtain ⟨-, -, a3, a4⟩ := interp_back c.base m (T.sim.spect m) (S3.sim.interp m)
    rw [hi, k3]
    exact ⟨rfl, rfl, a3, a4⟩

/-- **C94** (window over a whole run): after any calls of `step`, of at least one iteration in total, the window has
moved with its velocity up to the time of the beginning of the last iteration, and the grid is at most one cell away
from it, however long the run is. -/
theorem C94_follows (hc : OneProcess c) (L : List (ℕ × Opts)) (S T : OSim) (hS : Healthy c S) (h : c.calls L S = .ok T) :
    let N := (L.map Prod.fst).sum
    T.sim.iteration = S.sim.iteration + N ∧ T.sim.time = S.sim.time + N * c.base.dt ∧
      (S.win = none → T.win = none ∧ T.zminG = S.zminG + (if c.base.galilean then c.base.V.getD 0 * (N * c.base.dt) else 0)) ∧
      ∀ w, S.win = some w → 0 < N → ∃ w', T.win = some w' ∧ w'.v = w.v ∧ w'.tLast = T.sim.time - c.base.dt ∧
        w'.zmin = w.zmin + w.v * (T.sim.time - c.base.dt - w.tLast) ∧ |w'.zmin - T.zminG| < c.dz := by
  -- one call
  have one : ∀ (N : ℕ) (o : Opts) (S T : OSim), Healthy c S → c.step N o S = .ok T → Healthy c T ∧
      T.sim.iteration = S.sim.iteration + N ∧ T.sim.time = S.sim.time + N * c.base.dt ∧
      (S.win = none → T.win = none ∧ T.zminG = S.zminG + (if c.base.galilean then c.base.V.getD 0 * (N * c.base.dt) else 0)) ∧
      ∀ w, S.win = some w → ∃ w', T.win = some w' ∧ w'.v = w.v ∧ (N = 0 → w' = w ∧ T.zminG = S.zminG) ∧
        (0 < N → w'.tLast = T.sim.time - c.base.dt ∧
          w'.zmin = w.zmin + w.v * (T.sim.time - c.base.dt - w.tLast) ∧ |w'.zmin - T.zminG| < c.dz) := by
    intro N o S T hS h
    obtain ⟨σ, st, hσ, hT, eT, -⟩ := C94_run hc o N S T hS h
    have key : ∀ j ≤ N, (σ j).sim.iteration = S.sim.iteration + j ∧ (σ j).sim.time = S.sim.time + j * c.base.dt ∧
        (S.win = none → (σ j).win = none ∧
          (σ j).zminG = S.zminG + (if c.base.galilean then c.base.V.getD 0 * (j * c.base.dt) else 0)) ∧
        ∀ w, S.win = some w → ∃ w', (σ j).win = some w' ∧ w'.v = w.v ∧ (j = 0 → w' = w ∧ (σ j).zminG = S.zminG) ∧
          (0 < j → w'.tLast = (σ j).sim.time - c.base.dt ∧
            w'.zmin = w.zmin + w.v * ((σ j).sim.time - c.base.dt - w.tLast) ∧ |w'.zmin - (σ j).zminG| < c.dz) := by
      intro j
      induction j with
      | zero =>
        intro _
        refine ⟨by rw [st.iteration]; simp, by rw [st.time]; simp, fun h0 => ⟨by rw [st.win, h0], by rw [st.zminG]; simp⟩,
          fun w hw => ⟨w, by rw [st.win, hw], rfl, fun _ => ⟨rfl, st.zminG⟩, fun h => absurd h (by omega)⟩⟩
      | succ j ih =>
        intro hj
        obtain ⟨a1, a2, a3, a4⟩ := ih (by omega)
        obtain ⟨hh, hi⟩ := hσ j (by omega)
        obtain ⟨b1, b2, n, b3, b4, b5⟩ := C94_window hc o j _ _ hh hi
        refine ⟨by rw [b2, a1]; ring, by rw [b1, a2]; push_cast; ring, fun h0 => ?_, fun w hw => ?_⟩
        · obtain ⟨c1, c2⟩ := a3 h0
          obtain ⟨d1, d2⟩ := b4 c1
          refine ⟨d2, ?_⟩
          rw [b3, c2, d1]
          split_ifs <;> push_cast <;> ring
        · obtain ⟨w1, e1, e2, e3, e4⟩ := a4 w hw
          obtain ⟨w2, f1, f2, f3, f4, f5⟩ := b5 w1 e1
          refine ⟨w2, f1, f2.trans e2, fun h => absurd h (by omega), fun _ => ⟨by rw [f3, b1]; ring, ?_, f5⟩⟩
          rw [f4, b1, e2]
          rcases Nat.eq_zero_or_pos j with rfl | hp
          · rw [(e3 rfl).1]; ring
          · obtain ⟨g1, g2, -⟩ := e4 hp
            rw [g2, g1]; ring
    obtain ⟨a1, a2, a3, a4⟩ := key N le_rfl
    rw [eT]
    exact ⟨eT ▸ hT, a1, a2, a3, a4⟩
  -- all calls
  have all : ∀ (L : List (ℕ × Opts)) (S T : OSim), Healthy c S → c.calls L S = .ok T →
      T.sim.iteration = S.sim.iteration + (L.map Prod.fst).sum ∧ T.sim.time = S.sim.time + (L.map Prod.fst).sum * c.base.dt ∧
      (S.win = none → T.win = none ∧
        T.zminG = S.zminG + (if c.base.galilean then c.base.V.getD 0 * ((L.map Prod.fst).sum * c.base.dt) else 0)) ∧
      ∀ w, S.win = some w → ∃ w', T.win = some w' ∧ w'.v = w.v ∧ ((L.map Prod.fst).sum = 0 → w' = w ∧ T.zminG = S.zminG) ∧
        (0 < (L.map Prod.fst).sum → w'.tLast = T.sim.time - c.base.dt ∧
          w'.zmin = w.zmin + w.v * (T.sim.time - c.base.dt - w.tLast) ∧ |w'.zmin - T.zminG| < c.dz) := by
    intro L
    induction L with
    | nil =>
      intro S T _ h
      have := Except.ok.inj h
      subst this
      exact ⟨by simp, by simp, fun h => ⟨h, by simp⟩, fun w hw => ⟨w, hw, rfl, fun _ => ⟨rfl, rfl⟩, fun h => absurd h (by simp)⟩⟩
    | cons x L ih =>
      obtain ⟨n, o⟩ := x
      intro S T hS h
      obtain ⟨A, hA, h⟩ := (except_bind_ok _ _ _).1 h
      obtain ⟨hH, a1, a2, a3, a4⟩ := one n o S A hS hA
      obtain ⟨b1, b2, b3, b4⟩ := ih A T hH h
      simp only [List.map_cons, List.sum_cons]
      refine ⟨by rw [b1, a1]; ring, by rw [b2, a2]; push_cast; ring, fun h0 => ?_, fun w hw => ?_⟩
      · obtain ⟨c1, c2⟩ := a3 h0
        obtain ⟨d1, d2⟩ := b3 c1
        refine ⟨d1, ?_⟩
        rw [d2, c2]
        split_ifs <;> push_cast <;> ring
      · obtain ⟨w1, e1, e2, e3, e4⟩ := a4 w hw
        obtain ⟨w2, f1, f2, f3, f4⟩ := b4 w1 e1
        refine ⟨w2, f1, f2.trans e2, fun h => ?_, fun hp => ?_⟩
        · obtain ⟨g1, g2⟩ := f3 (by omega)
          obtain ⟨g3, g4⟩ := e3 (by omega)
          exact ⟨g1.trans g3, g2.trans g4⟩
        · rcases Nat.eq_zero_or_pos (L.map Prod.fst).sum with hz | hz
          · obtain ⟨g1, g2⟩ := f3 hz
            obtain ⟨g3, g4, g5⟩ := e4 (by omega)
            have ht : T.sim.time = A.sim.time := by rw [b2, hz]; simp
            rw [g1, ht, g2]
            exact ⟨g3, g4, g5⟩
          · obtain ⟨g1, g2, g3⟩ := f4 hz
            refine ⟨g1, ?_, g3⟩
            rw [g2, e2]
            rcases Nat.eq_zero_or_pos n with hn | hn
            · rw [(e3 hn).1]
            · obtain ⟨k1, k2, -⟩ := e4 hn
              rw [k2, k1]; ring
  obtain ⟨a1, a2, a3, a4⟩ := all L S T hS h
  refine ⟨a1, a2, a3, fun w hw hp => ?_⟩
  obtain ⟨w', b1, b2, -, b4⟩ := a4 w hw
  exact ⟨w', b1, b2, b4 hp⟩

end Fbpic.Pic
