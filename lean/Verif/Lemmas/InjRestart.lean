import Verif.Spec.InjRestart
import Verif.Lemmas.Injection
import Verif.Lemmas.Comm

/-!
# Lemmas for C71
-/

namespace Fbpic

variable {K : Type} [Field K] [LinearOrder K] [IsStrictOrderedRing K] [FloorRing K]

namespace InjRestart

/-- The injection plane of a window that has just been set. -/
def plane0 (c : Comm) (dz dt vW vE : K) : K :=
  ((c.NzGlobal : K) + (c.nzDamp : K) + 3) * dz + (c.exchangePeriod : K) * dt * (vW - vE)

/-- Invariant of the states between two iterations. -/
structure Inv (c : Comm) (dz dt vGal vW vE : K) (pl : InjPlasma K) (a d : K) (s : InjSim K) (N P : ℕ) (p : InjPos K)
    (win : MovWin K) : Prop where
  same : ∀ r, s.w.zminG r = s.w.zminG 0
  dzp : s.inj.dzp = some d
  vEnd : s.inj.vEnd = vE
  pos : s.inj.pos = some p
  hasWin : s.w.win = some win
  v : win.v = vW
  tLast : win.tLast = s.time - dt
  nz : p.nzInject = P
  tiles : Spec.comovingAt vE s.created = Spec.plasma pl d N a
  zEnd : a + ((N : K) + (P : K)) * d = p.zEnd - vE * s.time
  gap : -d < p.zInject - p.zEnd + (vW - vE) * dt
  cell0 : 0 ≤ win.zmin - s.w.zminG 0
  cell1 : win.zmin - s.w.zminG 0 < dz
  plane : p.zInject = win.zmin + plane0 c dz dt vW vE
  front : a + (N : K) * d + vE * s.time < s.w.zminG 0 + plane0 c dz dt vW vE + dz
  ahead : 0 < P → p.zEnd ≤ p.zInject

theorem plasma_add (pl : InjPlasma K) (d : K) (N M : ℕ) (a : K) :
    Spec.plasma pl d (N + M) a = Spec.plasma pl d N a ++ Spec.plasma pl d M (a + (N : K) * d) := by
  unfold Spec.plasma
  rw [plasmaMesh_add, List.filter_append]

theorem plasma_z_le (pl : InjPlasma K) (d : K) (hd : 0 < d) (N : ℕ) (a : K) (p : NewPtcl K)
    (h : p ∈ Spec.plasma pl d N a) : p.z ≤ Spec.layerZ a d (N - 1) := by
  unfold Spec.plasma Spec.plasmaMesh at h
  obtain ⟨h, -⟩ := List.mem_filter.mp h
  obtain ⟨j, hj, h⟩ := List.mem_flatMap.mp h
  obtain ⟨i, -, h⟩ := List.mem_flatMap.mp h
  obtain ⟨it, -, rfl⟩ := List.mem_map.mp h
  have hj := List.mem_range.mp hj
  have : (j : K) ≤ ((N - 1 : ℕ) : K) := by exact_mod_cast (by omega : j ≤ N - 1)
  simp only [Spec.layerZ]
  nlinarith

theorem plasma_one_z (pl : InjPlasma K) (d : K) (a : K) (p : NewPtcl K) (h : p ∈ Spec.plasma pl d 1 a) :
    p.z = a + d / 2 := by
  unfold Spec.plasma Spec.plasmaMesh at h
  obtain ⟨h, -⟩ := List.mem_filter.mp h
  obtain ⟨j, hj, h⟩ := List.mem_flatMap.mp h
  obtain ⟨i, -, h⟩ := List.mem_flatMap.mp h
  obtain ⟨it, -, rfl⟩ := List.mem_map.mp h
  have hj := List.mem_range.mp hj
  obtain rfl : j = 0 := by omega
  simp [Spec.layerZ]; ring

theorem plasma_zero (pl : InjPlasma K) (d : K) (a : K) : Spec.plasma pl d 0 a = [] := by
  simp [Spec.plasma, Spec.plasmaMesh]

/-- The plasma ends after its last layer that is not empty. -/
theorem plasmaEnd_eq (pl : InjPlasma K) (d : K) (hd : 0 < d) (a : K) (N : ℕ) :
    ∃ M ≤ N, Spec.plasma pl d N a = Spec.plasma pl d M a ∧
      Spec.plasmaEnd a d (Spec.plasma pl d N a) = a + (M : K) * d := by
  induction N with
  | zero => exact ⟨0, le_refl _, rfl, by simp [plasma_zero, Spec.plasmaEnd]⟩
  | succ N ih =>
    obtain ⟨M, hM, h1, h2⟩ := ih
    by_cases he : Spec.plasma pl d 1 (a + (N : K) * d) = []
    · refine ⟨M, by omega, ?_, ?_⟩
      · rw [plasma_add, he, List.append_nil, h1]
      · rw [plasma_add, he, List.append_nil, h2]
    · refine ⟨N + 1, le_refl _, rfl, ?_⟩
      obtain ⟨q, hq⟩ := List.exists_mem_of_ne_nil _ he
      have hz := plasma_one_z pl d _ q hq
      have hmax : ((Spec.plasma pl d (N + 1) a).map fun p => p.z).max? = some q.z := by
        rw [List.max?_eq_some_iff]
        constructor
        · rw [plasma_add]
          exact List.mem_map.mpr ⟨q, List.mem_append_right _ hq, rfl⟩
        · intro b hb
          obtain ⟨r, hr, rfl⟩ := List.mem_map.mp hb
          have := plasma_z_le pl d hd _ a r hr
          rw [hz]
          simp only [Spec.layerZ, Nat.add_sub_cancel] at this
          linarith
      rw [Spec.plasmaEnd, hmax]
      simp only
      rw [hz]; push_cast; ring

theorem zminmax0 (c : Comm) (z dz : K) : c.getZminZmax z dz false false false none
    = .ok (z, z + (c.NzGlobal : K) * dz) := by
  simp [Comm.getZminZmax, Comm.getNzIz_global, bind, Except.bind, pure, Except.pure]

theorem zminmax_damp (c : Comm) (z dz : K) : c.getZminZmax z dz false true false none
    = .ok (z + (-((c.nzDamp + c.nInject : ℕ) : K)) * dz,
        z + (-((c.nzDamp + c.nInject : ℕ) : K)) * dz
          + ((c.NzGlobal + 2 * (c.nzDamp + c.nInject) : ℕ) : K) * dz) := by
  simp [Comm.getZminZmax, Comm.getNzIz_global, bind, Except.bind, pure, Except.pure]

/-- Result of `set_moving_window`. -/
theorem setWindow_eq {c : Comm} {dz dt v : K} {s s' : InjSim K} (h : s.setWindow c dz dt v = .ok s') :
    s' = { s with w := { s.w with win := some ⟨v, s.time - dt, s.w.zminG 0⟩ } } := by
  unfold InjSim.setWindow mkMovWin at h
  simp only [zminmax0, bind, Except.bind, pure, Except.pure] at h
  by_cases hb : ((List.range c.size).any (movWinRaises c)) = true
  · rw [if_pos hb] at h
    exact absurd h (by simp [throw, throwThe, MonadExceptOf.throw])
  · rw [if_neg hb] at h
    simp only [Except.ok.injEq] at h
    exact h.symm

theorem setWindow_ok (c : Comm) (ho : c.bz = .opened) (dz dt v : K) (s : InjSim K) :
    ∃ s', s.setWindow c dz dt v = .ok s' := by
  unfold InjSim.setWindow mkMovWin
  simp only [zminmax0, bind, Except.bind, pure, Except.pure]
  have hb : ¬ ((List.range c.size).any (movWinRaises c)) = true := by
    simp only [List.any_eq_true, not_exists, not_and]
    intro r hr
    simp only [movWinRaises, Comm.rightProc, Comm.leftProc, ho, decide_eq_true_eq]
    rintro (⟨h1, h2⟩ | ⟨h1, h2⟩)
    · simp [h1] at h2
    · simp [h1] at h2
  rw [if_neg hb]
  exact ⟨_, rfl⟩

theorem initialize_new (c : Comm) (hsize : 1 ≤ c.size) (z dz v dt d : K) (inj : Injector K) (hp : inj.pos = none)
    (hd : inj.dzp = some d) (zs : List K) :
    inj.initialize c z dz (c.size - 1) v zs dt = .ok { inj with pos := some (InjPos.mk 0 (z + plane0 c dz dt v inj.vEnd) (Spec.loadedEnd d (z + (c.NzGlobal : K) * dz) zs)) } := by
  unfold Spec.loadedEnd
  unfold Injector.initialize
  have h1 : ¬ ((c.size - 1 : ℕ) : ℤ) ≠ (c.size : ℤ) - 1 := by omega
  rw [if_neg h1, hp]
  simp only [Option.isSome_none, Bool.false_eq_true, if_false, zminmax_damp, zminmax0, bind, Except.bind, hd]
  have e : z + (-((c.nzDamp + c.nInject : ℕ) : K)) * dz
          + ((c.NzGlobal + 2 * (c.nzDamp + c.nInject) : ℕ) : K) * dz + (3 - (c.nInject : K)) * dz
          + (c.exchangePeriod : K) * dt * (v - inj.vEnd) = z + plane0 c dz dt v inj.vEnd := by
    unfold plane0; push_cast; ring
  rw [e]
  cases zs.max? with
  | none => rfl
  | some zm =>
    simp only
    have : zm + 1 / 2 * d = zm + d / 2 := by ring
    rw [this]

theorem initialize_set (c : Comm) (z dz v dt : K) (inj : Injector K) (p : InjPos K) (hp : inj.pos = some p)
    (r : ℕ) (zs : List K) : inj.initialize c z dz r v zs dt = .ok inj := by
  unfold Injector.initialize
  simp [hp]

section
variable {c : Comm} {dz dt vGal vW vE a d : K} {pl : InjPlasma K} {s : InjSim K} {N P : ℕ} {p : InjPos K}
  {win : MovWin K}

theorem inv_exchange (h : Inv c dz dt vGal vW vE pl a d s N P p win) :
    ∃ s', s.exchange pl = .ok s' ∧ s'.w = s.w ∧ s'.time = s.time ∧ s'.iteration = s.iteration ∧
      Inv c dz dt vGal vW vE pl a d s' (N + P) 0 { p with nzInject := 0 } win := by
  have hg := generateParticles_eq d vE pl s.time p P h.nz
  have e : p.zEnd - (P : K) * d - vE * s.time = a + (N : K) * d := by linarith [h.zEnd]
  rw [e] at hg
  unfold InjSim.exchange
  simp only [h.hasWin, Option.isNone_some, Bool.false_eq_true, if_false, h.pos, h.dzp, h.vEnd]
  refine ⟨_, rfl, rfl, rfl, rfl, ?_⟩
  refine ⟨h.same, by simp [h.dzp], by simp [h.vEnd], ?_, h.hasWin, h.v, h.tLast, rfl, ?_, ?_, h.gap, h.cell0, h.cell1, h.plane, ?_, by omega⟩
  · simp [generateParticles]
  · have ht := h.tiles
    simp only [Spec.comovingAt, List.flatMap_append, List.flatMap_cons, List.flatMap_nil, List.append_nil] at ht ⊢
    rw [ht, plasma_add]
    congr 1
  · have := h.zEnd
    push_cast; linarith
  · have h1 := h.front; have h2 := h.zEnd
    by_cases hP : 0 < P
    · have := h.ahead hP
      have := h.plane; have := h.cell1
      push_cast
      linarith
    · obtain rfl : P = 0 := by omega
      simpa using h1

theorem galilean_twice (w : World K) (v dt : K) :
    shiftGalilean (shiftGalilean w v (1 / 2 * dt)) v (1 / 2 * dt) = shiftGalilean w v dt := by
  unfold shiftGalilean Comm.shiftGlobalDomainPositions
  simp only [World.mk.injEq, and_true]
  refine ⟨?_, ?_⟩
  · funext r; ring
  · funext r m
    simp only [InterpGrid.mk.injEq, and_true, true_and]
    constructor <;> ring

theorem inv_advance (hdz : 0 < dz) (hd : 0 < d) (hdt : 0 ≤ dt) (h1 : vE ≤ vGal) (h2 : vGal ≤ vW)
    (h : Inv c dz dt vGal vW vE pl a d s N P p win) :
    ∃ s' P' p' win', s.advance c dz dt vGal = .ok s' ∧ s'.iteration = s.iteration + 1 ∧ s'.time = s.time + dt ∧
      Inv c dz dt vGal vW vE pl a d s' N P' p' win' ∧ p'.zInject - p'.zEnd < d := by
  unfold InjSim.advance
  rw [galilean_twice]
  have hw : (shiftGalilean s.w vGal dt).win = some win := h.hasWin
  have hz0 : (shiftGalilean s.w vGal dt).zminG 0 = s.w.zminG 0 + vGal * dt := rfl
  have hdur : s.time - win.tLast = dt := by rw [h.tLast]; ring
  have hm : ∃ n : ℤ, 0 ≤ n ∧ ∃ w', moveGrids c dz (shiftGalilean s.w vGal dt) s.time = .ok (w', n) ∧
      (∀ r, w'.zminG r = s.w.zminG r + vGal * dt + n * dz) ∧
      w'.win = some ⟨vW, s.time, win.zmin + vW * dt⟩ ∧
      0 ≤ win.zmin + vW * dt - (s.w.zminG 0 + vGal * dt) - n * dz ∧
      win.zmin + vW * dt - (s.w.zminG 0 + vGal * dt) - n * dz < dz := by
    set u := (win.zmin + vW * dt - (s.w.zminG 0 + vGal * dt)) / dz with hu
    have hx : win.zmin + vW * dt - (s.w.zminG 0 + vGal * dt) = u * dz := by rw [hu]; field_simp
    have hu0 : 0 ≤ u := by
      refine div_nonneg ?_ hdz.le
      have := h.cell0
      have := mul_le_mul_of_nonneg_right h2 hdt
      linarith
    have hp : pyInt u = ⌊u⌋ := pyInt_of_nonneg hu0
    refine ⟨⌊u⌋, Int.floor_nonneg.mpr hu0, ?_⟩
    have hf1 := Int.floor_le u
    have hf2 := Int.lt_floor_add_one u
    have hb1 : 0 ≤ win.zmin + vW * dt - (s.w.zminG 0 + vGal * dt) - ((⌊u⌋ : ℤ) : K) * dz := by
      rw [hx]; nlinarith
    have hb2 : win.zmin + vW * dt - (s.w.zminG 0 + vGal * dt) - ((⌊u⌋ : ℤ) : K) * dz < dz := by
      rw [hx]; nlinarith
    unfold moveGrids
    rw [hw]
    simp only [decideMove, zminmax0, bind, Except.bind, pure, Except.pure, h.v, hdur, hz0, ← hu, hp]
    by_cases hn : (⌊u⌋ : ℤ) ≠ 0
    · rw [if_pos hn]
      refine ⟨_, rfl, fun r => ?_, rfl, hb1, hb2⟩
      simp [shiftGalilean, Comm.shiftGlobalDomainPositions]
    · rw [if_neg hn]
      refine ⟨_, rfl, fun r => ?_, rfl, hb1, hb2⟩
      have : (⌊u⌋ : ℤ) = 0 := not_not.mp hn
      simp [shiftGalilean, Comm.shiftGlobalDomainPositions, this]
  obtain ⟨n, hn, w', hmv, hzm, hwin, hc0, hc1⟩ := hm
  simp only [hw, hmv, bind, Except.bind, h.pos, h.dzp, h.vEnd, h.v, hdur]
  -- the increment of the positions
  set q := (p.zInject + vW * dt - (p.zEnd + vE * dt)) / d with hq
  have hqe : p.zInject + vW * dt - (p.zEnd + vE * dt) = q * d := by rw [hq]; field_simp
  have hq1 : -1 < q := by
    rw [hq, lt_div_iff₀ hd]
    have := h.gap
    linarith
  have hint : 0 ≤ pyInt q ∧ (pyInt q : K) * d - d < q * d ∧ q * d < (pyInt q : K) * d + d ∧
      (0 < pyInt q → (pyInt q : K) ≤ q) := by
    by_cases h0 : 0 ≤ q
    · rw [pyInt_of_nonneg h0]
      have hf1 := Int.floor_le q
      have hf2 := Int.lt_floor_add_one q
      refine ⟨Int.floor_nonneg.mpr h0, by nlinarith, by nlinarith, fun _ => hf1⟩
    · have h0' := not_le.mp h0
      have : pyInt q = 0 := by
        rw [pyInt_of_neg h0', Int.ceil_eq_iff]
        push_cast
        exact ⟨by linarith, by linarith⟩
      rw [this]
      refine ⟨le_refl _, by push_cast; nlinarith, by push_cast; nlinarith, fun h => absurd h (lt_irrefl _)⟩
  obtain ⟨hi0, hi1, hi2, hi3⟩ := hint
  obtain ⟨k, hk⟩ := Int.eq_ofNat_of_zero_le hi0
  rw [hk] at hi1 hi2 hi3
  simp only [Int.ofNat_eq_natCast, Int.cast_natCast] at hi1 hi2 hi3
  have hkk : ((Int.ofNat k : ℤ) : K) = k := by simp
  have hinc : incrementPos d vE vW dt p
      = ⟨((P + k : ℕ) : ℤ), p.zInject + vW * dt, p.zEnd + vE * dt + (k : K) * d⟩ := by
    simp only [incrementPos]
    rw [← hq, hk, h.nz]
    simp
  rw [hinc]
  refine ⟨_, P + k, _, _, rfl, rfl, rfl, ⟨?_, by simp [h.dzp], by simp [h.vEnd], rfl, hwin, rfl, ?_, rfl, h.tiles, ?_, ?_, ?_, ?_, ?_, ?_, ?_⟩, ?_⟩
  · intro r
    simp only [hzm, h.same r]
  · simp
  · have := h.zEnd
    push_cast; linarith
  · simp only
    have : 0 ≤ (vW - vE) * dt := mul_nonneg (by linarith) hdt
    nlinarith
  · simp only [hzm]; linarith
  · simp only [hzm]; linarith
  · have := h.plane
    simp only; linarith
  · have h3 := h.front
    simp only [hzm]
    have h4 : (0 : K) ≤ (n : K) * dz := mul_nonneg (by exact_mod_cast hn) hdz.le
    have h5 := mul_le_mul_of_nonneg_right h1 hdt
    linarith
  · intro hPk
    simp only
    by_cases hk0 : 0 < k
    · have := hi3 (by exact_mod_cast hk0)
      nlinarith
    · obtain rfl : k = 0 := by omega
      have := h.ahead (by omega)
      have h5 : vE * dt ≤ vW * dt := mul_le_mul_of_nonneg_right (by linarith) hdt
      push_cast
      linarith
  · simp only
    linarith

theorem inv_iter (hdz : 0 < dz) (hd : 0 < d) (hdt : 0 ≤ dt) (h1 : vE ≤ vGal) (h2 : vGal ≤ vW) (first : Bool)
    (h : Inv c dz dt vGal vW vE pl a d s N P p win) :
    ∃ s' N' P' p' win', s.iter c dz dt vGal pl first = .ok s' ∧ Inv c dz dt vGal vW vE pl a d s' N' P' p' win' ∧
      p'.zInject - p'.zEnd < d := by
  unfold InjSim.iter
  by_cases hx : (s.iteration : ℤ) % c.exchangePeriod = 0 ∨ first = true
  · rw [if_pos hx]
    obtain ⟨s1, e1, -, -, -, i1⟩ := inv_exchange h
    obtain ⟨s2, P2, p2, w2, e2, -, -, i2, g2⟩ := inv_advance hdz hd hdt h1 h2 i1
    exact ⟨s2, _, P2, p2, w2, by simp [e1, e2, bind, Except.bind], i2, g2⟩
  · rw [if_neg hx]
    obtain ⟨s2, P2, p2, w2, e2, -, -, i2, g2⟩ := inv_advance hdz hd hdt h1 h2 h
    exact ⟨s2, _, P2, p2, w2, by simp [e2, bind, Except.bind], i2, g2⟩

end

theorem inv_loop {c : Comm} {dz dt vGal vW vE a d : K} {pl : InjPlasma K}
    (hdz : 0 < dz) (hd : 0 < d) (hdt : 0 ≤ dt) (h1 : vE ≤ vGal) (h2 : vGal ≤ vW) (n : ℕ) :
    ∀ {s : InjSim K} {N P : ℕ} {p : InjPos K} {win : MovWin K} (first : Bool)
    (_ : Inv c dz dt vGal vW vE pl a d s N P p win),
    ∃ s' N' P' p' win', InjSim.loop c dz dt vGal pl n first s = .ok s' ∧
      Inv c dz dt vGal vW vE pl a d s' N' P' p' win' ∧ (0 < n ∨ p.zInject - p.zEnd < d → p'.zInject - p'.zEnd < d) := by
  induction n with
  | zero => intro s N P p win first h; exact ⟨s, N, P, p, win, rfl, h, by simp⟩
  | succ n ih =>
    intro s N P p win first h
    obtain ⟨s1, N1, P1, p1, w1, e1, i1, g1⟩ := inv_iter hdz hd hdt h1 h2 first h
    obtain ⟨s2, N2, P2, p2, w2, e2, i2, g2⟩ := ih false i1
    exact ⟨s2, N2, P2, p2, w2, by simp [InjSim.loop, e1, e2, bind, Except.bind], i2, fun _ => g2 (Or.inr g1)⟩

end InjRestart

end Fbpic
