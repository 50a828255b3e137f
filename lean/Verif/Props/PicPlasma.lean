import Verif.Lemmas.PicPlasma
import Verif.Props.PicOpenTotal

/-!
# C96: the plasma that a moving window meets in a whole run
-/

namespace Fbpic.Pic

open Transform ExternalField Step
open Spec (OneProcess Healthy Rounds Runs Exchanges arrivals injected PlasmaEnd Continues Filled Sensible)

variable {c : OCfg} [NeZero c.base.Nz]

/-- The iterations `Runs` of a run are the ones of the model. -/
theorem runs_iff (L : List (ℕ × Opts)) (S T : OSim) : c.calls L S = .ok T ↔ ∃ l, Runs c L S l T :=
  ⟨fun h => (runs_of_calls L h).imp fun _ h => h.1, fun ⟨_, h⟩ => calls_of_runs h⟩

/-- What the injector of a species does in a run. `first` says that in the first period nothing is created. -/
private theorem history (hc : OneProcess c) (hG : c.comm.nGuard ≠ 0) (hdt : 0 < c.base.dt) (hP : 1 ≤ c.comm.exchangePeriod)
    (L : List (ℕ × Opts)) (S T : OSim) (hS : Healthy c S) (w : MovWin ℝ) (hw : S.win = some w) (htl : w.tLast = S.sim.time - c.base.dt)
    (hzw : |w.zmin - S.zminG| < c.dz) (id : ℕ) (sp : Species) (hsp : S.sim.species[id]? = some sp) (d v : ℝ)
    (hi : S.inj.getD id none = some ⟨some d, v, none⟩) (hd : 0 < d) (hv : v ≤ w.v)
    (hend : ∀ p ∈ sp.ptcl, p.push.z + d / 2 ≤ S.zminG + c.comm.NzGlobal * c.dz) (l : List (ℕ × OSim)) (hr : Runs c L S l T) :
    ∃ (z0 : ℝ) (N : ℕ → ℕ), PlasmaEnd c S sp d z0 ∧ Continues c S w id d v l z0 N ∧
      (∀ j k y, 0 < j → j ≤ k → l[j]? = some y → Exchanges c y → ∀ x, l[k]? = some x →
        x.2.zminG + (c.comm.NzGlobal + c.comm.nzDamp + 1) * c.dz - d + c.base.dt * (w.v - v) <
          z0 + v * (x.2.sim.time - S.sim.time) + N (k + 1) * d) ∧
      (∀ k, (∀ j y, 0 < j → j < k → l[j]? = some y → ¬ Exchanges c y) → N k = 0) := by
  have hid : id < S.sim.species.length := (List.getElem?_eq_some_iff.1 hsp).1
  -- the injector at the beginning
  obtain ⟨p, hp, hp0, hpe, hpz⟩ : ∃ p : InjPos ℝ, (Injector.initialize ⟨some d, v, none⟩ c.comm S.zminG c.dz 0 w.v
      (sp.ptcl.map fun p => p.push.z) c.base.dt) = .ok ⟨some d, v, some p⟩ ∧ p.nzInject = 0 ∧ PlasmaEnd c S sp d p.zEnd ∧
      p.zInject = S.zminG + (c.comm.NzGlobal + c.comm.nzDamp + 3) * c.dz + c.comm.exchangePeriod * (c.base.dt * (w.v - v)) := by
    unfold Injector.initialize
    rw [if_neg (by rw [hc.size]; simp), if_neg (by simp)]
    simp only [Comm.getZminZmax, Comm.getNzIz_global, bind, Except.bind, pure, Except.pure]
    cases hm : (sp.ptcl.map fun p => p.push.z).max? with
    | none =>
      have hn : sp.ptcl = [] := by simpa using List.max?_eq_none_iff.1 hm
      refine ⟨_, rfl, rfl, ⟨fun _ => ?_, fun h => absurd hn h⟩, ?_⟩
      · simp
      · simp; ring
    | some zm =>
      obtain ⟨m1, m2⟩ := List.max?_eq_some_iff.1 hm
      obtain ⟨q, hq, rfl⟩ := List.mem_map.1 m1
      refine ⟨_, rfl, rfl, ⟨fun h => ?_, fun _ => ⟨⟨q, hq, ?_⟩, fun p hp => ?_⟩⟩, ?_⟩
      · rw [h] at hq; cases hq
      · show q.push.z + 1 / 2 * d = _
        ring
      · show _ ≤ q.push.z + 1 / 2 * d
        have := m2 _ (List.mem_map.2 ⟨p, hp, rfl⟩)
        linarith
      · simp; ring
  have hzE : p.zEnd ≤ S.zminG + c.comm.NzGlobal * c.dz := by
    by_cases h : sp.ptcl = []
    · rw [hpe.none h]
    · obtain ⟨⟨q, hq, e⟩, -⟩ := hpe.last h
      rw [e]
      exact hend q hq
  have hs : 0 ≤ c.comm.exchangePeriod * (c.base.dt * (w.v - v)) := by
    have : (0 : ℝ) ≤ c.comm.exchangePeriod := by exact_mod_cast (by omega : 0 ≤ c.comm.exchangePeriod)
    have : 0 ≤ w.v - v := by linarith
    positivity
  have hdz := hc.dz
  have hx : p.zEnd ≤ p.zInject := by
    rw [hpz]
    have : (0 : ℝ) ≤ (c.comm.nzDamp + 3) * c.dz := by positivity
    nlinarith
  -- the iterations
  have hf : Feeding c id d v w.v p S.sim.time S.sim.iteration w.zmin l := by
    cases hr with
    | done => trivial
    | @call n o L _ S1 S2 S3 _ l l' h1 h2 h3 h4 =>
      have fed : Fed c id d v w.v p S.sim.time S.sim.iteration w.zmin S1 := by
        unfold OCfg.startInj at h1
        rw [hw] at h1
        obtain ⟨r, hl, h1⟩ := (except_bind_ok _ _ _).1 h1
        have h1 := Except.ok.inj h1
        have f := (mapM_ok _ _ _).1 hl
        have hlen : r.length = S.sim.species.length := by rw [← f.length_eq]; simp
        have hr' : id < r.length := by rw [hlen]; exact hid
        have f := (List.forall₂_iff_get.1 f).2 id (by simpa using hid) hr'
        have hsp' : S.sim.species[id] = sp := (List.getElem?_eq_some_iff.1 hsp).2
        simp only [List.get_eq_getElem, List.getElem_zipIdx, zero_add, hi, hsp'] at f
        obtain ⟨i', e, f⟩ := (except_bind_ok _ _ _).1 f
        have f := Except.ok.inj f
        have e := Except.ok.inj (e.symm.trans hp)
        rw [← h1]
        refine ⟨⟨hS.sized, hS.regular, hS.zmin, hS.zmax, hS.mom⟩, rfl, rfl, hzw, ?_, ?_, hid⟩
        · show some w = _
          rw [← htl]
        · show r.getD id none = _
          rw [List.getD_eq_getElem?_getD, List.getElem?_eq_getElem hr', Option.getD_some, ← f, e]
      exact fed.call hc hG h2 h3 (Fed.runs hc hG h4)
  obtain ⟨M, m0, m1, m2, m3, m4⟩ := feeding_layers hd hv hdt.le hP (p.zEnd - v * S.sim.time) (p.zInject - w.zmin) l p _ _ _ 0 0 False none hf
    hp0 (by linarith) (by push_cast; ring) (by ring) False.elim (fun m h => by cases h)
  obtain ⟨w1, w2⟩ := abs_lt.1 hzw
  refine ⟨p.zEnd, M, hpe, ⟨m0, fun k => ?_, fun k x hk => ?_⟩, fun j k y hj hjk hy he x hk => ?_, fun k hno => ?_⟩
  · rw [m1]
    simp [Spec.plasma, Spec.plasmaMesh]
  · have := m2 k x hk
    rw [hpz] at this
    linarith
  · have := m3 k x hk (Or.inr ⟨j, y, hjk, hy, he, Or.inr hj⟩)
    rw [hpz] at this
    linarith
  · exact m4 k fun j y hj hy he => by
      rcases Nat.eq_zero_or_pos j with h | h
      · exact ⟨h, rfl⟩
      · exact absurd he (hno j y h hj hy)

/-- **C96** (tiling): in a whole run with a moving window, whatever the calls, the plasma that a species receives
continues the plasma of the beginning: seen in the frame of the plasma, the layers have a constant spacing, without gaps
and overlaps, across all exchanges and calls. -/
theorem C96_tiling (hc : OneProcess c) (hG : c.comm.nGuard ≠ 0) (hdt : 0 < c.base.dt) (hP : 1 ≤ c.comm.exchangePeriod)
    (L : List (ℕ × Opts)) (S T : OSim) (hS : Healthy c S) (w : MovWin ℝ) (hw : S.win = some w) (htl : w.tLast = S.sim.time - c.base.dt)
    (hzw : |w.zmin - S.zminG| < c.dz) (id : ℕ) (sp : Species) (hsp : S.sim.species[id]? = some sp) (d v : ℝ)
    (hi : S.inj.getD id none = some ⟨some d, v, none⟩) (hd : 0 < d) (hv : v ≤ w.v)
    (hend : ∀ p ∈ sp.ptcl, p.push.z + d / 2 ≤ S.zminG + c.comm.NzGlobal * c.dz) (h : c.calls L S = .ok T) :
    ∃ l, Runs c L S l T ∧ l.length = (L.map Prod.fst).sum ∧
      ∃ (z0 : ℝ) (N : ℕ → ℕ), PlasmaEnd c S sp d z0 ∧ Continues c S w id d v l z0 N := by
  obtain ⟨l, hl, hn⟩ := runs_of_calls L h
  obtain ⟨z0, N, h1, h2, -⟩ := history hc hG hdt hP L S T hS w hw htl hzw id sp hsp d v hi hd hv hend l hl
  exact ⟨l, hl, hn, z0, N, h1, h2⟩

/-- **C96** (front): the physical domain and the damping region are filled with plasma in every iteration that is not
before the second exchange. Missing: the iterations before the second exchange, for which it is false, see
`C96_front_violated`. -/
theorem C96_front_partial (hc : OneProcess c) (hG : c.comm.nGuard ≠ 0) (hdt : 0 < c.base.dt) (hP : 1 ≤ c.comm.exchangePeriod)
    (L : List (ℕ × Opts)) (S T : OSim) (hS : Healthy c S) (w : MovWin ℝ) (hw : S.win = some w) (htl : w.tLast = S.sim.time - c.base.dt)
    (hzw : |w.zmin - S.zminG| < c.dz) (id : ℕ) (sp : Species) (hsp : S.sim.species[id]? = some sp) (d v : ℝ)
    (hi : S.inj.getD id none = some ⟨some d, v, none⟩) (hd : 0 < d) (hv : v ≤ w.v)
    (hend : ∀ p ∈ sp.ptcl, p.push.z + d / 2 ≤ S.zminG + c.comm.NzGlobal * c.dz) (l : List (ℕ × OSim)) (h : Runs c L S l T) :
    ∃ (z0 : ℝ) (N : ℕ → ℕ), PlasmaEnd c S sp d z0 ∧ Continues c S w id d v l z0 N ∧
      ∀ j k y, 0 < j → j ≤ k → l[j]? = some y → Exchanges c y → Filled c S d v l z0 N k := by
  obtain ⟨z0, N, h1, h2, h3, -⟩ := history hc hG hdt hP L S T hS w hw htl hzw id sp hsp d v hi hd hv hend l h
  refine ⟨z0, N, h1, h2, fun j k y hj hjk hy he x hx => ?_⟩
  have := h3 j k y hj hjk hy he x hx
  have : 0 ≤ c.base.dt * (w.v - v) := mul_nonneg hdt.le (by linarith)
  have := hc.dz
  linarith

/-- **C96** (first period): before the second exchange no plasma is created at all. -/
theorem C96_first_period (hc : OneProcess c) (hG : c.comm.nGuard ≠ 0) (hdt : 0 < c.base.dt) (hP : 1 ≤ c.comm.exchangePeriod)
    (L : List (ℕ × Opts)) (S T : OSim) (hS : Healthy c S) (w : MovWin ℝ) (hw : S.win = some w) (htl : w.tLast = S.sim.time - c.base.dt)
    (hzw : |w.zmin - S.zminG| < c.dz) (id : ℕ) (sp : Species) (hsp : S.sim.species[id]? = some sp) (d v : ℝ)
    (hi : S.inj.getD id none = some ⟨some d, v, none⟩) (hd : 0 < d) (hv : v ≤ w.v)
    (hend : ∀ p ∈ sp.ptcl, p.push.z + d / 2 ≤ S.zminG + c.comm.NzGlobal * c.dz) (l : List (ℕ × OSim)) (h : Runs c L S l T)
    (k : ℕ) (hk : ∀ j y, 0 < j → j < k → l[j]? = some y → ¬ Exchanges c y) : arrivals c id v (l.take k) = [] := by
  obtain ⟨z0, N, -, h2, -, h4⟩ := history hc hG hdt hP L S T hS w hw htl hzw id sp hsp d v hi hd hv hend l h
  rw [h2.tiles, h4 k hk]
  simp [Spec.plasma, Spec.plasmaMesh]

/-! ### An example -/

/-- An electron at rest in the last layer of the physical domain. -/
noncomputable def frontSim : OSim :=
  { openSim with
    sim := { cubicSim ⟨1, 0, 7.75, ⟨0, 0, 0, 1⟩, 0⟩ .cubic with
      zmin := -28
      zmax := 36
      spect := fun _ => ⟨64, 4, fun _ => 0, fun _ => 0, fun _ _ => ⟨0, 0, 0, 0, 0, 0, 0, 0, 0, 0, 0, 0, 0, 0, 0, 0, 0⟩⟩ } }

theorem front_healthy : Healthy openCfg frontSim where
  sized := fun _ _ => ⟨rfl, rfl⟩
  regular := fun _ _ _ _ => ⟨one_ne_zero, fun v hv => by simp [openCfg, cubicCfg] at hv⟩
  zmin := by norm_num [openCfg, frontSim, openSim]
  zmax := by norm_num [openCfg, frontSim]
  mom := by
    intro sp hsp p hp
    rw [List.mem_singleton.1 hsp] at hp
    rw [List.mem_singleton.1 hp]
    norm_num [ElecMom.ok, ElecMom.gamma]

theorem front_sensible (L : List (ℕ × Opts)) : Sensible openCfg L frontSim where
  one := open_one
  healthy := front_healthy
  dt := one_pos
  invdz := (open_sensible L).invdz
  invdr := one_pos
  Nr := (open_sensible L).Nr
  beta := fun _ _ => rfl
  period := (open_sensible L).period
  guard := (open_sensible L).guard
  opts := fun _ _ _ => rfl
  frame := (open_sensible L).frame
  plane := by
    intro sp hsp
    rw [List.mem_singleton.1 hsp]
    exact fun h => absurd rfl h
  ants := (open_sensible L).ants
  window := by
    intro w hw
    rw [← Option.some.inj hw]
    norm_num [openCfg, cubicCfg, openSim, cubicSim, frontSim]
  inj := by
    intro w hw id sp i h1 h2
    have hid : id < 1 := (List.getElem?_eq_some_iff.1 h1).1
    interval_cases id
    rw [← Option.some.inj hw]
    have h1 := Option.some.inj h1
    have h2 := Option.some.inj h2
    refine ⟨by rw [← h2], ⟨1 / 2, by rw [← h2], by norm_num, by norm_num [openCfg]⟩, by rw [← h2]; norm_num [openCfg, cubicCfg],
      by rw [← h2]; norm_num, Or.inr ⟨_, by rw [← h1]; exact List.mem_singleton.2 rfl, by norm_num [openCfg, openSim, frontSim]⟩⟩

/-- The species of the example. -/
noncomputable def frontSpecies : Species := frontSim.sim.species.head (by simp [frontSim, cubicSim])

private theorem front_end : PlasmaEnd openCfg frontSim frontSpecies (1 / 2) 8 where
  none := fun h => by cases h
  last := fun _ => ⟨⟨_, List.mem_singleton.2 rfl, by norm_num⟩, fun p hp => by
    rw [List.mem_singleton.1 hp]
    norm_num⟩

private theorem front_hyp : |(0 : ℝ) - frontSim.zminG| < openCfg.dz := by norm_num [frontSim, openSim, openCfg]

/-- The hypotheses of the theorems are met by this simulation, for any calls. -/
example (L : List (ℕ × Opts)) : ∃ T l, Runs openCfg L frontSim l T ∧ ∃ N, Continues openCfg frontSim ⟨1, -1, 0⟩ 0 (1 / 2) 0 l 8 N ∧
    ∀ j k y, 0 < j → j ≤ k → l[j]? = some y → Exchanges openCfg y → Filled openCfg frontSim (1 / 2) 0 l 8 N k := by
  obtain ⟨T, e, -⟩ := C95_total _ _ (front_sensible L)
  obtain ⟨l, hl, -⟩ := runs_of_calls L e
  obtain ⟨z0, N, h1, h2, h3⟩ := C96_front_partial open_one (by norm_num [openCfg]) one_pos (by norm_num [openCfg]) L frontSim T front_healthy
    ⟨1, -1, 0⟩ rfl (by norm_num [frontSim, cubicSim, openCfg, cubicCfg]) front_hyp 0 frontSpecies rfl (1 / 2) 0 rfl (by norm_num) (by norm_num)
    (fun p hp => by rw [List.mem_singleton.1 hp]; norm_num [frontSim, openSim, openCfg]) l hl
  have : z0 = 8 := by
    obtain ⟨⟨p, hp, e⟩, -⟩ := h1.last (by intro h; cases h)
    rw [e, List.mem_singleton.1 hp]
    norm_num
  rw [this] at h2 h3
  exact ⟨T, l, hl, N, h2, h3⟩

/-- **C96** (violation): the plasma of density one everywhere ends at `z = 8`, the end of the physical domain. In the
second iteration the physical domain has moved by one cell, up to `z = 9`, but no plasma has been created: two layers are
missing at its front. -/
theorem C96_front_violated : Sensible openCfg [(2, {})] frontSim ∧ (∀ z r i, (openCfg.plasma 0).dens z r i = 1) ∧
    PlasmaEnd openCfg frontSim frontSpecies (1 / 2) 8 ∧
    ∃ T l x, Runs openCfg [(2, {})] frontSim l T ∧ l[1]? = some x ∧ arrivals openCfg 0 0 (l.take 2) = [] ∧
      x.2.zminG + openCfg.comm.NzGlobal * openCfg.dz = 9 := by
  refine ⟨front_sensible _, fun _ _ _ => rfl, front_end, ?_⟩
  obtain ⟨T, e, -⟩ := C95_total _ _ (front_sensible [(2, {})])
  obtain ⟨l, hl, -⟩ := runs_of_calls _ e
  obtain ⟨S1, S2, S3, l1, h1, h2, h3, rfl⟩ : ∃ S1 S2 S3 l1, openCfg.startInj frontSim = .ok S1 ∧ openCfg.startFields S1 = .ok S2 ∧
      Rounds openCfg {} 0 2 S2 l1 S3 ∧ l = l1 := by
    cases hl with
    | call h1 h2 h3 h4 =>
      cases h4 with
      | done => exact ⟨_, _, _, _, h1, h2, h3, by simp⟩
  have e1 : { S1 with inj := frontSim.inj } = frontSim := by
    unfold OCfg.startInj at h1
    split at h1
    · rw [← Except.ok.inj h1]
    · obtain ⟨l, -, h1⟩ := (except_bind_ok _ _ _).1 h1
      rw [← Except.ok.inj h1]
  have hS1 : Healthy openCfg S1 := by
    have h := front_healthy
    rw [← e1] at h
    exact ⟨h.sized, h.regular, h.zmin, h.zmax, h.mom⟩
  have st := (startFields_ok open_one h2).1
  have hS2 := startFields_healthy open_one hS1 h2
  have t2 : S2.sim.time = 0 := by rw [st.time]; exact congrArg (fun s : OSim => s.sim.time) e1
  have i2 : S2.sim.iteration = 0 := by rw [st.iteration]; exact congrArg (fun s : OSim => s.sim.iteration) e1
  have g2 : S2.zminG = 0 := by rw [st.zminG]; exact congrArg OSim.zminG e1
  have w2 : S2.win = some ⟨1, -1, 0⟩ := by rw [st.win]; exact congrArg OSim.win e1
  have hfirst := C96_first_period open_one (by norm_num [openCfg]) one_pos (by norm_num [openCfg]) [(2, {})] frontSim T front_healthy
    ⟨1, -1, 0⟩ rfl (by norm_num [frontSim, cubicSim, openCfg, cubicCfg]) front_hyp 0 frontSpecies rfl (1 / 2) 0 rfl (by norm_num) (by norm_num)
    (fun p hp => by rw [List.mem_singleton.1 hp]; norm_num [frontSim, openSim, openCfg]) l hl 2
  cases h3 with
  | @round _ _ _ S' _ l' hi hl' =>
    obtain ⟨a1, a2, n, a3, -, a5⟩ := C94_window open_one {} 0 S2 S' hS2 hi
    obtain ⟨w', -, -, -, b4, b5⟩ := a5 _ w2
    obtain ⟨l'', rfl⟩ : ∃ l'', l' = (1, S') :: l'' := by
      cases hl' with
      | round _ _ => exact ⟨_, rfl⟩
    refine ⟨T, _, (1, S'), hl, rfl, hfirst fun j y h0 h1 hy he => ?_, ?_⟩
    · obtain rfl : j = 1 := by omega
      obtain rfl : (1, S') = y := by simpa using hy
      rcases he with he | he
      · rw [show (1, S').2.sim.iteration = S'.sim.iteration from rfl, a2, i2] at he
        norm_num [openCfg] at he
      · cases he
    · have hG : S'.zminG = n := by
        rw [a3, g2, show openCfg.base.galilean = false from rfl]
        norm_num [openCfg]
      rw [b4, hG, t2, show openCfg.dz = 1 from rfl] at b5
      norm_num at b5
      have hn : n = 1 := by
        obtain ⟨x1, x2⟩ := abs_lt.1 b5
        have h1 : (0 : ℝ) < n := by linarith
        have h2 : (n : ℝ) < 2 := by linarith
        have h1 : (0 : ℤ) < n := by exact_mod_cast h1
        have h2 : (n : ℤ) < 2 := by exact_mod_cast h2
        omega
      rw [show (1, S').2.zminG = S'.zminG from rfl, hG, hn]
      norm_num [openCfg]

end Fbpic.Pic
