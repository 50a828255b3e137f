import Verif.Lemmas.InjRestart
import Mathlib.Data.Rat.Floor

/-!
# C71: continuous injection goes on after a restart
-/

namespace Fbpic

open InjRestart

variable {K : Type} [Field K] [LinearOrder K] [IsStrictOrderedRing K] [FloorRing K]

private theorem inv_begin {c : Comm} {dz dt vGal vW vE a d : K} {pl : InjPlasma K} (hsize : 1 ≤ c.size) (hdz : 0 < dz)
    (s : InjSim K) (M : ℕ) (zs : List K) (same : ∀ r, s.w.zminG r = s.w.zminG 0) (hd : s.inj.dzp = some d) (hE : s.inj.vEnd = vE)
    (hp : s.inj.pos = none) (hw : s.w.win = some ⟨vW, s.time - dt, s.w.zminG 0⟩)
    (ht : Spec.comovingAt vE s.created = Spec.plasma pl d M a)
    (he : Spec.loadedEnd d (s.w.zminG 0 + (c.NzGlobal : K) * dz) zs = a + (M : K) * d + vE * s.time)
    (h1 : a + (M : K) * d + vE * s.time < s.w.zminG 0 + plane0 c dz dt vW vE + dz)
    (h2 : -d < s.w.zminG 0 + plane0 c dz dt vW vE - (a + (M : K) * d + vE * s.time) + (vW - vE) * dt) :
    ∃ inj, s.inj.initialize c (s.w.zminG (c.size - 1)) dz (c.size - 1) vW zs dt = .ok inj ∧
      Inv c dz dt vGal vW vE pl a d { s with inj := inj } M 0
        ⟨0, s.w.zminG 0 + plane0 c dz dt vW vE, a + (M : K) * d + vE * s.time⟩ ⟨vW, s.time - dt, s.w.zminG 0⟩ := by
  rw [initialize_new c hsize _ dz vW dt d s.inj hp hd zs, same (c.size - 1), he, hE]
  refine ⟨_, rfl, same, hd, rfl, rfl, hw, rfl, rfl, rfl, ht, ?_, h2, by simp, by simpa using hdz, rfl, h1, by omega⟩
  push_cast; ring

/-- Every state of a history satisfies the invariant. -/
private theorem history_inv {c : Comm} {dz dt vGal vW vE a d : K} {pl : InjPlasma K} (hsize : 1 ≤ c.size) (hdz : 0 < dz)
    (hd : 0 < d) (hdt : 0 ≤ dt) (hT : 0 ≤ c.exchangePeriod) (h1 : vE ≤ vGal) (h2 : vGal ≤ vW)
    (hcell : dz ≤ d + (vW - vE) * dt) {s : InjSim K} (h : Spec.InjHistory c dz dt vGal vW vE pl a d s) :
    ∃ N P p win, Inv c dz dt vGal vW vE pl a d s N P p win := by
  have hv : 0 ≤ (vW - vE) * dt := mul_nonneg (by linarith) hdt
  induction h with
  | start s0 s s' zs n hc hp hdp hz hE ha hin hw hs =>
    obtain rfl := setWindow_eq hw
    have hpl : s0.w.zminG 0 + (c.NzGlobal : K) * dz ≤ s0.w.zminG 0 + plane0 c dz dt vW vE := by
      unfold plane0
      have e1 : (0 : K) ≤ (c.nzDamp : K) * dz := by positivity
      have e2 : (0 : K) ≤ (c.exchangePeriod : K) * ((vW - vE) * dt) := mul_nonneg (by exact_mod_cast hT) hv
      nlinarith
    obtain ⟨inj, e, i⟩ := inv_begin (c := c) (dz := dz) (dt := dt) (vGal := vGal) (vW := vW) (vE := vE) (a := a) (d := d)
      (pl := pl) hsize hdz { s0 with w := { s0.w with win := some ⟨vW, s0.time - dt, s0.w.zminG 0⟩ } } 0 zs hz hdp hE hp rfl
      (by simp [hc, Spec.comovingAt, plasma_zero]) (by rw [ha]; push_cast; ring)
      (by push_cast; linarith) (by push_cast; linarith)
    unfold InjSim.stepN at hs
    simp only [bind, Except.bind] at hs
    simp only at e
    rw [e] at hs
    obtain ⟨s2, N, P, p, win, e2, i2, -⟩ := inv_loop hdz hd hdt h1 h2 n true i
    try simp only at hs e2
    rw [e2] at hs
    obtain rfl := Except.ok.inj hs
    exact ⟨_, _, _, _, i2⟩
  | next s s' zs n _ hs ih =>
    obtain ⟨N, P, p, win, i⟩ := ih
    unfold InjSim.stepN at hs
    simp only [i.hasWin, initialize_set c _ dz _ dt s.inj p i.pos, bind, Except.bind] at hs
    obtain ⟨s2, N, P, p, win, e2, i2, -⟩ := inv_loop hdz hd hdt h1 h2 n true i
    try simp only at hs e2
    rw [e2] at hs
    obtain rfl := Except.ok.inj hs
    exact ⟨_, _, _, _, i2⟩
  | restart s s1 s' zs n z _ hm hz hw hs ih =>
    obtain ⟨N, P, p, win, i⟩ := ih
    obtain rfl := setWindow_eq hw
    obtain ⟨M, hM, g1, g2⟩ := plasmaEnd_eq pl d hd a N
    rw [i.tiles, g2] at hz
    have hMd : (M : K) * d ≤ (N : K) * d := mul_le_mul_of_nonneg_right (by exact_mod_cast hM) hd.le
    have hf := i.front
    obtain ⟨inj, e, j⟩ := inv_begin (c := c) (dz := dz) (dt := dt) (vGal := vGal) (vW := vW) (vE := vE) (a := a) (d := d)
      (pl := pl) hsize hdz { s.restarted with w := { s.restarted.w with win := some ⟨vW, s.restarted.time - dt, s.restarted.w.zminG 0⟩ } }
      M zs i.same i.dzp i.vEnd rfl rfl
      (by rw [← g1, ← i.tiles]; rfl) (by rw [Spec.loadedEnd, hm]; exact hz)
      (by simp only [InjSim.restarted]; linarith) (by simp only [InjSim.restarted]; linarith)
    unfold InjSim.stepN at hs
    simp only [bind, Except.bind] at hs
    simp only at e
    rw [e] at hs
    obtain ⟨s2, N, P, p, win, e2, i2, -⟩ := inv_loop hdz hd hdt h1 h2 n true j
    try simp only at hs e2
    rw [e2] at hs
    obtain rfl := Except.ok.inj hs
    exact ⟨_, _, _, _, i2⟩

/-- **C71** (partial: see `C71_violated`; the window and the plasma must separate by almost one cell in one time step, as for
the usual `dt = dz/c`). Over any number of runs, each restarted from a checkpoint of the one before, the injected particles,
seen in the frame of the plasma, are those of one uniform plasma that starts at the end of the one loaded initially: constant
spacing, no gap, no overlap, right density. `P` more layers are waiting to be created; the injection plane is less than one cell
ahead of its place relative to the grid, and layers are not created beyond it. -/
theorem C71_tiling_partial (c : Comm) (hsize : 1 ≤ c.size) (dz dt vGal vW vE a d : K) (pl : InjPlasma K) (hdz : 0 < dz)
    (hd : 0 < d) (hdt : 0 ≤ dt) (hT : 0 ≤ c.exchangePeriod) (h1 : vE ≤ vGal) (h2 : vGal ≤ vW)
    (hcell : dz ≤ d + (vW - vE) * dt) (s : InjSim K) (h : Spec.InjHistory c dz dt vGal vW vE pl a d s) :
    ∃ N P : ℕ, ∃ p, s.inj.pos = some p ∧ p.nzInject = P ∧
      Spec.comovingAt vE s.created = Spec.plasma pl d N a ∧
      a + ((N : K) + (P : K)) * d = p.zEnd - vE * s.time ∧
      0 ≤ p.zInject - (s.w.zminG 0 + ((c.NzGlobal : K) + c.nzDamp + 3) * dz + c.exchangePeriod * dt * (vW - vE)) ∧
      p.zInject - (s.w.zminG 0 + ((c.NzGlobal : K) + c.nzDamp + 3) * dz + c.exchangePeriod * dt * (vW - vE)) < dz ∧
      (0 < P → p.zEnd ≤ p.zInject) := by
  obtain ⟨N, P, p, win, i⟩ := history_inv hsize hdz hd hdt hT h1 h2 hcell h
  have hp := i.plane
  have h3 := i.cell0
  have h4 := i.cell1
  unfold plane0 at hp
  exact ⟨N, P, p, i.pos, i.nz, i.tiles, i.zEnd, by linarith, by linarith, i.ahead⟩

/-- **C71** (keeping up): after at least one iteration, the plasma created or waiting ends less than one particle spacing
before the injection plane. -/
theorem C71_keeps_up (c : Comm) (hsize : 1 ≤ c.size) (dz dt vGal vW vE a d : K) (pl : InjPlasma K) (hdz : 0 < dz)
    (hd : 0 < d) (hdt : 0 ≤ dt) (hT : 0 ≤ c.exchangePeriod) (h1 : vE ≤ vGal) (h2 : vGal ≤ vW)
    (hcell : dz ≤ d + (vW - vE) * dt) (s s' : InjSim K) (h : Spec.InjHistory c dz dt vGal vW vE pl a d s) (zs : List K) (n : ℕ)
    (hn : 0 < n) (hs : s.stepN c dz dt vGal pl zs n = .ok s') :
    ∃ p, s'.inj.pos = some p ∧ p.zInject - p.zEnd < d := by
  obtain ⟨N, P, p, win, i⟩ := history_inv hsize hdz hd hdt hT h1 h2 hcell h
  unfold InjSim.stepN at hs
  simp only [i.hasWin, initialize_set c _ dz _ dt s.inj p i.pos, bind, Except.bind] at hs
  obtain ⟨s2, N, P, p, win, e2, i2, g2⟩ := inv_loop hdz hd hdt h1 h2 n true i
  try simp only at hs e2
  rw [e2] at hs
  obtain rfl := Except.ok.inj hs
  exact ⟨p, i2.pos, g2 (Or.inl hn)⟩

/-- **C71**: no error is raised, for any number of iterations, before or after a restart. -/
theorem C71_total (c : Comm) (hsize : 1 ≤ c.size) (ho : c.bz = .opened) (dz dt vGal vW vE a d : K) (pl : InjPlasma K)
    (hdz : 0 < dz) (hd : 0 < d) (hdt : 0 ≤ dt) (hT : 0 ≤ c.exchangePeriod) (h1 : vE ≤ vGal) (h2 : vGal ≤ vW)
    (hcell : dz ≤ d + (vW - vE) * dt) (s : InjSim K) (h : Spec.InjHistory c dz dt vGal vW vE pl a d s) (zs : List K) (n : ℕ) :
    (∃ s', s.stepN c dz dt vGal pl zs n = .ok s') ∧
    (∀ z, zs.max? = some z → z + d / 2 = Spec.plasmaEnd a d (Spec.comovingAt vE s.created) + vE * s.time →
      ∃ s1 s', s.restarted.setWindow c dz dt vW = .ok s1 ∧ s1.stepN c dz dt vGal pl zs n = .ok s') := by
  obtain ⟨N, P, p, win, i⟩ := history_inv hsize hdz hd hdt hT h1 h2 hcell h
  constructor
  · unfold InjSim.stepN
    simp only [i.hasWin, initialize_set c _ dz _ dt s.inj p i.pos, bind, Except.bind]
    obtain ⟨s2, N, P, p, win, e2, -, -⟩ := inv_loop hdz hd hdt h1 h2 n true i
    exact ⟨_, e2⟩
  · intro z hm hz
    obtain ⟨s1, hw⟩ := setWindow_ok c ho dz dt vW s.restarted
    refine ⟨s1, ?_⟩
    rw [hw]
    obtain rfl := setWindow_eq hw
    obtain ⟨M, hM, g1, g2⟩ := plasmaEnd_eq pl d hd a N
    rw [i.tiles, g2] at hz
    have hMd : (M : K) * d ≤ (N : K) * d := mul_le_mul_of_nonneg_right (by exact_mod_cast hM) hd.le
    have hf := i.front
    obtain ⟨inj, e, j⟩ := inv_begin (c := c) (dz := dz) (dt := dt) (vGal := vGal) (vW := vW) (vE := vE) (a := a) (d := d)
      (pl := pl) hsize hdz { s.restarted with w := { s.restarted.w with win := some ⟨vW, s.restarted.time - dt, s.restarted.w.zminG 0⟩ } }
      M zs i.same i.dzp i.vEnd rfl rfl
      (by rw [← g1, ← i.tiles]; rfl) (by rw [Spec.loadedEnd, hm]; exact hz)
      (by simp only [InjSim.restarted]; linarith) (by simp only [InjSim.restarted]; linarith)
    unfold InjSim.stepN
    simp only [bind, Except.bind]
    simp only at e
    rw [e]
    obtain ⟨s2, N, P, p, win, e2, -, -⟩ := inv_loop hdz hd hdt h1 h2 n true j
    exact ⟨s2, trivial, e2⟩

/-! ### Concrete cases -/

/-- One process, 10 cells of size 1, particles exchanged at every iteration. -/
private def exC : Comm := ⟨10, 1, 4, 0, 2, .opened, .reflective, 1⟩

/-- A uniform plasma at rest. -/
private def exPl : InjPlasma ℚ := ⟨1, 0, 1, 1, 1, 6, fun _ _ _ => 1⟩

/-- Four layers per cell, no plasma loaded initially. -/
private def ex0 : InjSim ℚ := ⟨0, 0, ⟨fun _ => 0, fun _ _ => ⟨10, 0, 10, 1⟩, none⟩, ⟨some (1 / 4), 0, none⟩, []⟩

/-- The first run: `n` steps. -/
private def exRun1 (dt : ℚ) (n : ℕ) : Except PyErr (InjSim ℚ) := do
  let s ← ex0.setWindow exC 1 dt 1
  s.stepN exC 1 dt 0 exPl [] n

/-- The last particle created. -/
private def exLast (s : InjSim ℚ) : ℚ :=
  Spec.plasmaEnd 10 (1 / 4) (Spec.comovingAt 0 s.created) - 1 / 8

/-- The second run: `m` steps after a restart. -/
private def exRun2 (dt : ℚ) (n m : ℕ) : Except PyErr (InjSim ℚ) := do
  let s ← exRun1 dt n
  let s1 ← s.restarted.setWindow exC 1 dt 1
  s1.stepN exC 1 dt 0 exPl [exLast s] m

/-- The positions of the layers of a history. -/
private def exZ (x : Except PyErr (InjSim ℚ)) : List ℚ :=
  match x with
  | .ok s => (Spec.comovingAt 0 s.created).map fun p => p.z
  | .error _ => []

private theorem exRun2_history (dt : ℚ) (n m : ℕ) (s : InjSim ℚ) (h : exRun2 dt n m = .ok s) :
    Spec.InjHistory exC 1 dt 0 1 0 exPl 10 (1 / 4) s := by
  unfold exRun2 exRun1 at h
  cases h1 : ex0.setWindow exC 1 dt 1 with
  | error e => simp [h1, bind, Except.bind] at h
  | ok s1 =>
    simp only [h1, bind, Except.bind] at h
    cases h2 : s1.stepN exC 1 dt 0 exPl [] n with
    | error e => simp [h2] at h
    | ok s2 =>
      simp only [h2] at h
      cases h3 : s2.restarted.setWindow exC 1 dt 1 with
      | error e => simp [h3] at h
      | ok s3 =>
        simp only [h3] at h
        refine .restart s2 s3 s _ m (exLast s2) (.start ex0 s1 s2 [] n rfl rfl rfl (fun _ => rfl) rfl ?_ ?_ h1 h2) rfl ?_ h3 h
        · norm_num [ex0, exC, Spec.loadedEnd]
        · norm_num [ex0, exC]
        · simp only [exLast]; ring

/-- The hypotheses of the C71 theorems are met with `c dt = dz`: two runs of 5 and 4 steps, with a restart in between. -/
example : ∃ s, Spec.InjHistory exC 1 1 0 1 0 exPl 10 (1 / 4) s ∧ (Spec.comovingAt 0 s.created).length = 48 ∧
    (1 : ℚ) ≤ 1 / 4 + (1 - 0) * 1 := by
  have h : (exZ (exRun2 1 5 4)).length = 48 := by decide +kernel
  cases hr : exRun2 1 5 4 with
  | error e => rw [hr] at h; simp [exZ] at h
  | ok s => exact ⟨s, exRun2_history _ _ _ s hr, by rw [hr] at h; simpa [exZ] using h, by norm_num⟩

/-- **C71** is violated for shorter time steps. A plasma at rest with four layers per cell, a window at speed 1, steps of a tenth
of a cell: after 9 steps and a restart, the position of the injection plane is computed anew from the grid, which is up to a cell
behind; the number of new layers is then negative and the layers that exist at the end of the plasma are created a second time. -/
theorem C71_violated : ∃ (c : Comm) (pl : InjPlasma ℚ) (s : InjSim ℚ), c.bz = .opened ∧ c.size = 1 ∧ 1 ≤ c.exchangePeriod ∧
    Spec.InjHistory c 1 (1 / 10) 0 1 0 pl 10 (1 / 4) s ∧
    ¬ (Spec.comovingAt 0 s.created).Nodup ∧ ∀ N, Spec.comovingAt 0 s.created ≠ Spec.plasma pl (1 / 4) N 10 := by
  have h : exZ (exRun2 (1 / 10) 9 10) = [81 / 8, 83 / 8, 85 / 8, 87 / 8, 89 / 8, 91 / 8, 93 / 8, 95 / 8, 97 / 8, 99 / 8, 101 / 8,
      103 / 8, 105 / 8, 107 / 8, 109 / 8, 107 / 8, 109 / 8, 111 / 8] := by decide +kernel
  have hd : (match exRun2 (1 / 10) 9 10 with
    | .ok s => decide (Spec.comovingAt 0 s.created).Nodup
    | .error _ => true) = false := by decide +kernel
  cases hr : exRun2 (1 / 10) 9 10 with
  | error e => rw [hr] at h; simp [exZ] at h
  | ok s =>
    rw [hr] at h hd
    refine ⟨exC, exPl, s, rfl, rfl, by decide, exRun2_history _ _ _ s hr, of_decide_eq_false hd, ?_⟩
    intro N hN
    have hz : ∀ i (hi : i < (Spec.plasma exPl (1 / 4) N (10 : ℚ)).length),
        ((Spec.plasma exPl (1 / 4) N (10 : ℚ))[i]).z = 10 + 1 / 4 * ((i : ℚ) + 1 / 2) := by
      have e : Spec.plasma exPl (1 / 4) N (10 : ℚ) = (List.range N).map fun j =>
          (⟨Spec.layerZ 10 (1 / 4) j, Spec.ringR exPl 0, 0,
            Spec.weight exPl (1 / 4) (Spec.layerZ 10 (1 / 4) j) (Spec.ringR exPl 0) 0⟩ : NewPtcl ℚ) := by
        unfold Spec.plasma Spec.plasmaMesh
        rw [List.filter_eq_self.mpr]
        · exact List.flatMap_pure_eq_map _ _
        · intro p hp
          obtain ⟨j, hj, hp⟩ := List.mem_flatMap.mp hp
          obtain ⟨i, hi, hp⟩ := List.mem_flatMap.mp hp
          obtain ⟨it, -, rfl⟩ := List.mem_map.mp hp
          have hi := List.mem_range.mp hi
          obtain rfl : i = 0 := by simp [exPl] at hi; exact hi
          norm_num [Spec.weight, Spec.ringR, exPl]
      intro i hi
      simp only [e, List.getElem_map, List.getElem_range, Spec.layerZ]
    have h15 : 15 < (Spec.comovingAt 0 s.created).length := by
      have := congrArg List.length h
      simp only [exZ, List.length_map] at this
      rw [this]; decide
    have e1 : (Spec.comovingAt 0 s.created)[15].z = 107 / 8 := by
      have : ((Spec.comovingAt 0 s.created).map fun p => p.z)[15]? = some (107 / 8) := by
        simp only [exZ] at h
        rw [h]; rfl
      simpa [h15] using this
    have e2 := hz 15 (hN ▸ h15)
    simp only [← hN] at e2
    rw [e1] at e2
    norm_num at e2

end Fbpic
