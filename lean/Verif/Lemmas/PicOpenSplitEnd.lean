import Verif.Lemmas.PicOpenSplit

/-!
# Lemmas: the end of an iteration with open boundaries, for two runs
-/

namespace Fbpic.Pic

open Transform ExternalField Step
open Spec (SamePtcl SameSpecies' SameStored SameSeen TransOk charges pairSpecies Placed OneProcess transmission MovedHat MovedScal)

variable {c : OCfg} [NeZero c.base.Nz] {D : ℕ → ℕ → Prop} {f f' : Prop} {A A' : RhoName → Prop} {j j' r r' : Prop}
  {S S' T T' : OSim}

theorem fft_col {N : ℕ} [NeZero N] (inv : Bool) {a b : Buf} {ir : ℕ} (h : ∀ iz < N, b iz ir = a iz ir) (iz : ℕ) :
    fftAxis0 N inv b iz ir = fftAxis0 N inv a iz ir := by
  have e : (fun j : ZMod N => b j.val ir) = fun j : ZMod N => a j.val ir := funext fun j => h _ (ZMod.val_lt j)
  unfold fftAxis0
  rw [e]

/-- What is transmitted and moved depends on the column only. -/
theorem moved_unique {N Nr : ℕ} [NeZero N] {n : ℤ} {g : ℕ → ℝ} {a a' b b' : Buf} (h : MovedScal N Nr n g a b)
    (h' : MovedScal N Nr n g a' b') {ir : ℕ} (hr : ir < Nr) (e : ∀ iz < N, a' iz ir = a iz ir) :
    ∀ iz < N, b' iz ir = b iz ir := by
  have key : ∀ iz < N, fftAxis0 N true b' iz ir = fftAxis0 N true b iz ir := by
    intro iz hz
    rw [h iz hz ir hr, h' iz hz ir hr, fft_col true e]
  intro iz hz
  rw [← (fftAxis0_inv N b' iz ir hz).2, ← (fftAxis0_inv N b iz ir hz).2]
  exact fft_col false key iz

theorem end_rest (o : Opts) (h : c.iterEnd o S = .ok T) :
    ∀ m < c.base.Nm, T.sim.interp m = c.base.interpEB m (T.sim.spect m) (S.sim.interp m) := by
  unfold OCfg.iterEnd at h
  obtain ⟨P, hP, h⟩ := (except_bind_ok _ _ _).1 h
  obtain ⟨W, hW, h⟩ := (except_bind_ok _ _ _).1 h
  obtain ⟨X, hX, h⟩ := (except_bind_ok _ _ _).1 h
  obtain ⟨-, -, p3⟩ := pushFields_ok c o hP
  have w := (moveWindow_ok c hW).interp
  have e : P.sim.interp = S.sim.interp := by rw [p3]
  unfold OCfg.boundaries at hX
  obtain ⟨gs, -, hX⟩ := (except_bind_ok _ _ _).1 hX
  obtain ⟨gs', -, hX⟩ := (except_bind_ok _ _ _).1 hX
  intro m hm
  rw [← Except.ok.inj h, ← Except.ok.inj hX, ← e, ← w]
  dsimp only [onModes]
  rw [if_pos hm, if_pos hm]

theorem OTwin.windowCells (h : OTwin c D f A j r S S') : c.windowCells S' = c.windowCells S := by
  unfold OCfg.windowCells
  rw [h.win, h.zminG, h.twin.time]

theorem OTwin.placed (h : OTwin c D f A j r S S') (hp : Placed c S) : Placed c S' := by
  unfold Placed at hp ⊢
  rw [h.zminG, h.twin.zmin, h.twin.zmax]
  exact hp

theorem OTwin.iterEnd (hc : OneProcess c) (hB : c.base.Blind D) (o : Opts) (h : OTwin c D True (c.base.Needed o) True True S S')
    (hp : Placed c S) (hk : ∀ m < c.base.Nm, ∀ ir < c.base.Nr, D m ir → (S.sim.spect m).kr ir = 0) (ht : c.iterEnd o S = .ok T) :
    ∃ T', c.iterEnd o S' = .ok T' ∧ OTwin c D True (fun n => n = .prev) True True T T' := by
  have e := oend c o hc.size (nziz hc) hc.dz hp ht
  have i := end_rest o ht
  obtain ⟨T', ht'⟩ := end_total hc o e.divE (h.placed hp) (by
    intro w hw x hx
    rw [h.win] at hw
    rw [h.inj] at hx
    have h2 := e.inj.2 w hw
    obtain ⟨k, hk, hk'⟩ := List.getElem_of_mem hx
    have h3 := (List.forall₂_iff_get.1 h2).2 k hk (by rw [← h2.length_eq]; exact hk)
    simp only [List.get_eq_getElem, hk'] at h3
    obtain ⟨d, v, p⟩ := x
    cases d <;> cases p <;> first | cases h3 | exact ⟨_, _, _, rfl⟩)
  have e' := oend c o hc.size (nziz hc) hc.dz (h.placed hp) ht'
  have i' := end_rest o ht'
  have hn := h.windowCells
  have tz : T'.sim.zmin = T.sim.zmin := by rw [e.zmin, e'.zmin, hn, h.twin.zmin]
  have tz' : T'.sim.zmax = T.sim.zmax := by rw [e.zmax, e'.zmax, hn, h.twin.zmax]
  have cells := fun m (hm : m < c.base.Nm) iz (hz : iz < c.base.Nz) ir (hr : ir < c.base.Nr) =>
    endGrid_twin o (P := D m) (h.twin.sized m hm).1 (h.twin.sized m hm).2 (h.twin.sized' m hm).1 (h.twin.sized' m hm).2
      (h.twin.kz m hm) (h.twin.kr m hm) hz hr (hk m hm ir hr) (h.twin.em m hm iz hz ir hr) ((h.twin.J trivial).1 m hm iz hz ir hr)
      (fun n hn => h.twin.rho n hn m hm iz hz ir hr)
  have mE := e'.E
  have mB := e'.B
  have mJ := e'.J
  have mR := e'.rho
  rw [hn, tz, tz', h.twin.time] at mE mB
  rw [hn] at mJ mR
  have em : ∀ m < c.base.Nm, ∀ iz < c.base.Nz, ∀ ir < c.base.Nr,
      CellEq (D m ir) ((T.sim.spect m).cell iz ir) ((T'.sim.spect m).cell iz ir) := by
    intro m hm iz hz ir hr
    obtain ⟨E1, E2, E3⟩ := e.E m hm
    obtain ⟨E1', E2', E3'⟩ := mE m hm
    obtain ⟨B1, B2, B3⟩ := e.B m hm
    obtain ⟨B1', B2', B3'⟩ := mB m hm
    exact ⟨moved_unique E2 E2' hr (fun iz hz => (cells m hm iz hz ir hr).1.Em) iz hz,
      moved_unique B2 B2' hr (fun iz hz => (cells m hm iz hz ir hr).1.Bm) iz hz,
      fun hD => moved_unique E1 E1' hr (fun iz hz => (cells m hm iz hz ir hr).1.Ep hD) iz hz,
      fun hD => moved_unique E3 E3' hr (fun iz hz => (cells m hm iz hz ir hr).1.Ez hD) iz hz,
      fun hD => moved_unique B1 B1' hr (fun iz hz => (cells m hm iz hz ir hr).1.Bp hD) iz hz,
      fun hD => moved_unique B3 B3' hr (fun iz hz => (cells m hm iz hz ir hr).1.Bz hD) iz hz⟩
  refine ⟨T', ht', ⟨?_, ?_, ?_, ?_, ?_⟩⟩
  · exact
    { zmin := tz
      zmax := tz'
      time := by rw [e.time, e'.time, h.twin.time]
      iteration := by rw [e.iteration, e'.iteration, h.twin.iteration]
      species := by rw [e.species, e'.species]; exact h.twin.species
      E := fun m hm => by
        rw [i m hm, i' m hm]
        exact (interpEB_same hB hm (em m hm) (h.twin.E m hm) (h.twin.B m hm)).1
      B := fun m hm => by
        rw [i m hm, i' m hm]
        exact (interpEB_same hB hm (em m hm) (h.twin.E m hm) (h.twin.B m hm)).2
      sized := fun m hm => by
        rw [(e.shape m hm).1, (e.shape m hm).2.1]
        exact h.twin.sized m hm
      sized' := fun m hm => by
        rw [(e'.shape m hm).1, (e'.shape m hm).2.1]
        exact h.twin.sized' m hm
      kz := fun m hm => by rw [(e.shape m hm).2.2.1, (e'.shape m hm).2.2.1, h.twin.kz m hm]
      kr := fun m hm => by rw [(e.shape m hm).2.2.2, (e'.shape m hm).2.2.2, h.twin.kr m hm]
      em := em
      rho := fun n hn m hm iz hz ir hr => by
        subst hn
        exact moved_unique (e.rho m hm) (mR m hm) hr (fun iz hz => (cells m hm iz hz ir hr).2.2) iz hz
      J := fun _ => ⟨fun m hm iz hz ir hr => by
        obtain ⟨J1, J2, J3⟩ := e.J m hm
        obtain ⟨J1', J2', J3'⟩ := mJ m hm
        exact ⟨moved_unique J1 J1' hr (fun iz hz => (cells m hm iz hz ir hr).2.1.p) iz hz,
          moved_unique J2 J2' hr (fun iz hz => (cells m hm iz hz ir hr).2.1.m) iz hz,
          moved_unique J3 J3' hr (fun iz hz => (cells m hm iz hz ir hr).2.1.z) iz hz⟩, fun m hm => by
        rw [i m hm, i' m hm]
        exact (h.twin.J trivial).2 m hm⟩
      irho := fun _ m hm => by
        rw [i m hm, i' m hm]
        exact h.twin.irho trivial m hm }
  · rw [e.zminG, e'.zminG, hn, h.zminG]
  · rw [e.win, e'.win]
    unfold windowAfter
    rw [h.win, h.twin.time]
  · have q := e.inj
    have q' := e'.inj
    rw [h.win, h.inj, h.twin.time] at q'
    cases hw : S.win with
    | none => rw [q.1 hw, q'.1 hw]
    | some w =>
      have a := q.2 w hw
      have b := q'.2 w hw
      refine List.ext_get (b.length_eq.symm.trans a.length_eq) fun k h1 h2 => ?_
      have hk : k < S.inj.length := by rw [a.length_eq]; exact h2
      have ea := (List.forall₂_iff_get.1 a).2 k hk h2
      have eb := (List.forall₂_iff_get.1 b).2 k hk h1
      exact Except.ok.inj (eb.symm.trans ea)
  · rw [e.ants, e'.ants, h.ants]

/-- One iteration in both runs. -/
theorem OTwin.iter (hc : OneProcess c) (hB : c.base.Blind D) (o : Opts) (i i' : ℕ) (h : OTwin c D False A j r S S')
    (hx : c.exchanges i S ↔ c.exchanges i' S') (hA : ¬ c.exchanges i S → A .prev)
    (hp : Placed c S) (hk : ∀ m < c.base.Nm, ∀ ir < c.base.Nr, D m ir → (S.sim.spect m).kr ir = 0) (ht : c.iter o i S = .ok T) :
    ∃ T', c.iter o i' S' = .ok T' ∧ OTwin c D True (fun n => n = .prev) True True T T' ∧ Placed c T ∧
      (∀ m < c.base.Nm, (T.sim.spect m).kr = (S.sim.spect m).kr) ∧ c.base.Synced T.sim := by
  obtain ⟨U, A1, B1, D1, w⟩ := iter_way c hc.threads o i ht
  have ht0 := ht
  unfold OCfg.iter at ht
  rw [if_neg w.period] at ht
  obtain ⟨a, ha, ht⟩ := (except_bind_ok _ _ _).1 ht
  obtain ⟨b, hb, ht⟩ := (except_bind_ok _ _ _).1 ht
  obtain ⟨d, hd, ht⟩ := (except_bind_ok _ _ _).1 ht
  obtain ⟨a', ha', Ta⟩ := h.iterStart hc.threads i i' hx hA ha
  obtain ⟨b', hb', Tb⟩ := Ta.iterHalf o hb
  obtain ⟨d', hd', Td⟩ := Tb.iterDeposit hc.threads o hd
  obtain ⟨U, u1, u2, u3, u4, u5, u6, u7, u8, u9, u10⟩ := ostart c hc.threads i ha
  have hkd : ∀ m < c.base.Nm, (d.sim.spect m).kr = (S.sim.spect m).kr := by
    have k1 := (u10 h.twin.sized).1
    have k2 := half_spect c.base o (half_sim c o hb)
    have k3 := deposit_keeps c hc.threads o Tb.twin.sized hd
    intro m hm
    rw [(k3 m hm).1.2.2.2, k2, (k1 m hm).1.2.2.2]
  have hpd : Placed c d := by
    have m := deposit_moved c o hd
    have f := u3.trans c u4
    have hs := half_sim c o hb
    obtain ⟨r1, r2, r3, r4⟩ := half_rest c o hb
    obtain ⟨pb, kb, -⟩ := half_ptcl c.base Eq o u5 (.of_eq c.base f.zmin f.zmax f.time f.iteration) hs
    have e : ∀ z : ℝ, z + c.base.drift (0.5 * c.base.dt) + c.base.drift (0.5 * c.base.dt) = z + c.base.drift c.base.dt := by
      intro z
      rw [add_assoc, drift_add]
      congr 2
      ring
    refine placed_shift c (nziz hc) hp (c.base.drift c.base.dt) ?_ ?_ ?_
    · rw [m.zminG, r2, f.zminG, e]
    · rw [m.zmin, kb.zmin, f.zmin, e]
    · rw [m.zmax, kb.zmax, f.zmax, e]
  obtain ⟨T', ht', TT⟩ := Td.iterEnd hc hB o hpd (fun m hm ir hr hD => by rw [hkd m hm]; exact hk m hm ir hr hD) ht
  have e := oend c o hc.size (nziz hc) hc.dz hpd ht
  refine ⟨T', ?_, TT, ?_, fun m hm => ?_, fun m hm => ⟨d.sim.interp m, ?_, ?_⟩⟩
  · unfold OCfg.iter
    rw [if_neg w.period]
    exact (except_bind_ok _ _ _).2 ⟨a', ha', (except_bind_ok _ _ _).2 ⟨b', hb', (except_bind_ok _ _ _).2 ⟨d', hd', ht'⟩⟩⟩
  · exact placed_shift c (nziz hc) hpd _ e.zminG e.zmin e.zmax
  · rw [(e.shape m hm).2.2.2, hkd m hm]
  · rw [end_rest o ht m hm]
  · rw [end_rest o ht m hm]

end Fbpic.Pic
