import Verif.Lemmas.PicOpenTotal
import Verif.Props.PicOpen

/-!
# Lemmas: where the particles, the antennas and the injected plasma are during a run
-/

namespace Fbpic.Pic

open Transform ExternalField Step
open Spec (charges OneProcess Healthy Placed PlaneAntenna frameVelocity injected Exchanged NewOf FreshInjector)

variable {c : OCfg}

/-! ### Injected plasma -/

theorem layer_mem {Npz : ℤ} {zmin zmax : ℝ} {Npr : ℕ} {rmin rmax : ℝ} {Nt : ℕ} {n tp : ℝ} {dens : ℝ → ℝ → ℕ → ℝ} {x : NewPtcl ℝ}
    (h : x ∈ generateEvenlySpaced Npz zmin zmax Npr rmin rmax Nt n tp dens) (hz : 0 < Npz → zmin ≤ zmax) :
    0 < Npz ∧ zmin ≤ x.z ∧ x.z ≤ zmax := by
  unfold generateEvenlySpaced at h
  split_ifs at h with hp
  · have hN : 0 < Npz := by
      by_contra hn
      have h0 : Npz * (Npr : ℤ) * (Nt : ℤ) ≤ 0 :=
        mul_nonpos_of_nonpos_of_nonneg (mul_nonpos_of_nonpos_of_nonneg (not_lt.1 hn) (by positivity)) (by positivity)
      omega
    refine ⟨hN, ?_⟩
    have h := (List.mem_filter.1 h).1
    obtain ⟨iz, hiz, h⟩ := List.mem_flatMap.1 h
    obtain ⟨ir, hir, h⟩ := List.mem_flatMap.1 h
    obtain ⟨it, hit, rfl⟩ := List.mem_map.1 h
    have h1 : (iz : ℤ) < Npz := by have := List.mem_range.1 hiz; omega
    have h2 : (0 : ℝ) < Npz := by exact_mod_cast hN
    have h3 : (iz : ℝ) + 1 ≤ Npz := by exact_mod_cast h1
    have h4 : 0 ≤ (zmax - zmin) / (Npz : ℝ) := div_nonneg (by linarith [hz hN]) h2.le
    have h5 : (zmax - zmin) / (Npz : ℝ) * Npz = zmax - zmin := div_mul_cancel₀ _ h2.ne'
    have h6 : (0 : ℝ) ≤ iz := by positivity
    dsimp only
    constructor <;> nlinarith
  · cases h

/-- The positions of a continuous injection, `k` iterations after the last exchange. -/
structure OCfg.InjGood (c : OCfg) (w : MovWin ℝ) (k : ℕ) (d v : ℝ) (p : InjPos ℝ) : Prop where
  dpos : 0 < d
  dle : d ≤ c.comm.NzGlobal * c.dz
  speed : |v| ≤ c.base.k.c
  slower : v ≤ w.v
  low : w.zmin - (c.comm.nzDamp + c.comm.nInject + 1) * c.dz ≤ p.zEnd
  start : w.zmin - (c.comm.nzDamp + c.comm.nInject + 1) * c.dz - 2 * k * (c.base.k.c * c.base.dt) ≤ p.zEnd - p.nzInject * d
  wait : 0 < p.nzInject → p.zEnd ≤ p.zInject
  front : w.zmin + (c.comm.NzGlobal + c.comm.nzDamp + 2) * c.dz ≤ p.zInject
  back : p.zInject ≤ w.zmin + (c.comm.NzGlobal + c.comm.nzDamp + 4) * c.dz + c.comm.exchangePeriod * c.base.dt * (w.v - v)

theorem OCfg.InjGood.generate {w : MovWin ℝ} {k : ℕ} {d v : ℝ} {p : InjPos ℝ} (h : c.InjGood w k d v p) (pl : InjPlasma ℝ) (t : ℝ) :
    c.InjGood w 0 d v (generateParticles d v pl t p).2 :=
  ⟨h.dpos, h.dle, h.speed, h.slower, h.low, by simpa [generateParticles] using h.low, fun h0 => absurd h0 (by simp [generateParticles]),
    h.front, h.back⟩

theorem OCfg.InjGood.layers (hs : c.Fit) {w : MovWin ℝ} {k : ℕ} {d v : ℝ} {p : InjPos ℝ} (h : c.InjGood w k d v p)
    (hw : |w.v| ≤ c.base.k.c) (hk : (k : ℤ) ≤ c.comm.exchangePeriod) (pl : InjPlasma ℝ) (t : ℝ) :
    ∀ x ∈ (generateParticles d v pl t p).1,
      w.zmin - (c.comm.nzDamp + c.comm.nInject + (c.comm.nGuard / 2 - 2)) * c.dz ≤ x.z ∧
      x.z ≤ w.zmin + (c.comm.NzGlobal + c.comm.nzDamp + c.comm.nInject + (c.comm.nGuard / 2 + 1)) * c.dz := by
  intro x hx
  have hg := hs.guard
  have hcd : 0 < c.base.k.c * c.base.dt := mul_pos hs.cpos hs.dt
  have hdz := hs.one.dz
  unfold generateParticles at hx
  dsimp only at hx
  obtain ⟨h1, h2, h3⟩ := layer_mem hx fun hn => by
    have : (0 : ℝ) < p.nzInject := by exact_mod_cast hn
    nlinarith [h.dpos]
  have hk' : (k : ℝ) ≤ c.comm.exchangePeriod := by exact_mod_cast hk
  have hP : (1 : ℝ) ≤ c.comm.exchangePeriod := by exact_mod_cast hs.period
  constructor
  · have := h.start
    nlinarith
  · have h4 := h.wait h1
    have h5 := h.back
    have h6 : (c.comm.exchangePeriod : ℝ) * c.base.dt * (w.v - v) ≤ c.comm.exchangePeriod * (2 * (c.base.k.c * c.base.dt)) := by
      have : w.v - v ≤ 2 * c.base.k.c := by
        have := (abs_le.1 hw).2
        have := (abs_le.1 h.speed).1
        linarith
      have h7 : 0 ≤ (c.comm.exchangePeriod : ℝ) * c.base.dt := by have := hs.dt; positivity
      nlinarith
    have h8 : (0 : ℝ) ≤ c.comm.nInject * c.dz := by positivity
    nlinarith

theorem OCfg.InjGood.advance (hs : c.Fit) {w w' : MovWin ℝ} {k : ℕ} {d v : ℝ} {p : InjPos ℝ} (h : c.InjGood w k d v p)
    (hw : |w.v| ≤ c.base.k.c) (hv : w'.v = w.v) (hz : w'.zmin = w.zmin + w.v * c.base.dt) :
    c.InjGood w' (k + 1) d v (incrementPos d v w.v c.base.dt p) := by
  have hdz := hs.one.dz
  have hdt := hs.dt
  have hd := h.dpos
  set x := (p.zInject + w.v * c.base.dt - (p.zEnd + v * c.base.dt)) / d with hx
  have e : incrementPos d v w.v c.base.dt p = ⟨p.nzInject + pyInt x, p.zInject + w.v * c.base.dt,
      p.zEnd + v * c.base.dt + pyInt x * d⟩ := rfl
  have hxd : x * d = p.zInject + w.v * c.base.dt - (p.zEnd + v * c.base.dt) := by rw [hx, div_mul_cancel₀ _ hd.ne']
  have hab := abs_lt.1 (abs_sub_pyInt_lt x)
  have hf := h.front
  have hb := h.back
  have hst := h.start
  have hwl := (abs_le.1 hw).2
  have hvl := (abs_le.1 h.speed).1
  have m1 : w.v * c.base.dt ≤ c.base.k.c * c.base.dt := mul_le_mul_of_nonneg_right hwl hdt.le
  have m2 : -(c.base.k.c * c.base.dt) ≤ v * c.base.dt := by nlinarith
  have m3 : v * c.base.dt ≤ w.v * c.base.dt := mul_le_mul_of_nonneg_right h.slower hdt.le
  rw [e]
  refine ⟨h.dpos, h.dle, h.speed, by rw [hv]; exact h.slower, ?_, ?_, ?_, ?_, ?_⟩
  · dsimp only
    rw [hz]
    have h1 : pyInt x * d > x * d - d := by nlinarith [hab.2]
    have h2 := h.dle
    have h3 : (0 : ℝ) ≤ (c.comm.nzDamp : ℝ) * c.dz := by positivity
    have h4 : (0 : ℝ) ≤ (c.comm.nInject : ℝ) * c.dz := by positivity
    nlinarith
  · dsimp only
    rw [hz]
    push_cast
    nlinarith
  · dsimp only
    intro hn
    by_cases hx0 : 0 ≤ x
    · have : (pyInt x : ℝ) ≤ x := by rw [pyInt_of_nonneg hx0]; exact Int.floor_le x
      nlinarith
    · have h1 := pyInt_nonpos (not_le.1 hx0).le
      have h2 := h.wait (by omega)
      have h3 : x * d < 0 := mul_neg_of_neg_of_pos (not_le.1 hx0) hd
      linarith
  · dsimp only
    rw [hz]
    linarith
  · dsimp only
    rw [hz, hv]
    linarith

theorem initialize_good (hs : c.Fit) {S : OSim} {w : MovWin ℝ} {sp : Species} {i : Injector ℝ} (hz : |w.zmin - S.zminG| < c.dz)
    (h : FreshInjector c S w sp i) :
    ∃ i', i.initialize c.comm S.zminG c.dz 0 w.v (sp.ptcl.map fun p => p.push.z) c.base.dt = .ok i' ∧
      ∃ d v p, i' = ⟨some d, v, some p⟩ ∧ c.InjGood w 0 d v p := by
  obtain ⟨dzp, v, pos⟩ := i
  obtain ⟨h1, ⟨d, h2, h3, h4⟩, h5, h6, h7⟩ := h
  dsimp only at h1 h2 h5 h6
  subst h1 h2
  have hdz := hs.one.dz
  obtain ⟨a1, a2⟩ := abs_lt.1 hz
  have hP : (1 : ℝ) ≤ c.comm.exchangePeriod := by exact_mod_cast hs.period
  unfold Injector.initialize
  rw [if_neg (by rw [hs.one.size]; simp), if_neg (by simp)]
  rw [Comm.getZminZmax_of (Comm.getNzIz_global c.comm true false none), Comm.getZminZmax_of (Comm.getNzIz_global c.comm false false none)]
  have key : ∀ z, w.zmin - (c.comm.nzDamp + c.comm.nInject + 1) * c.dz ≤ z → ∀ y,
      y = S.zminG + (c.comm.NzGlobal + c.comm.nzDamp + 3) * c.dz + c.comm.exchangePeriod * c.base.dt * (w.v - v) →
      c.InjGood w 0 d v ⟨0, y, z⟩ := by
    intro z hz y hy
    have hp : 0 ≤ (c.comm.exchangePeriod : ℝ) * c.base.dt * (w.v - v) := by
      have := hs.dt
      have : 0 ≤ w.v - v := by linarith
      positivity
    refine ⟨h3, h4, h5, h6, hz, by simpa using hz, fun h => absurd h (by simp), ?_, ?_⟩ <;> dsimp only <;> rw [hy] <;> linarith
  have n1 : (0 : ℝ) ≤ c.comm.nzDamp * c.dz := by positivity
  have n2 : (0 : ℝ) ≤ c.comm.nInject * c.dz := by positivity
  have n3 : (0 : ℝ) ≤ c.comm.NzGlobal * c.dz := by positivity
  cases hm : (sp.ptcl.map fun p => p.push.z).max? with
  | none =>
    have he : sp.ptcl = [] := by simpa using hm
    refine ⟨_, rfl, d, v, _, rfl, key _ ?_ _ ?_⟩
    · simp
      linarith
    · simp
      ring
  | some zm =>
    have hmem := List.max?_eq_some_iff.1 hm
    refine ⟨_, rfl, d, v, _, rfl, key _ ?_ _ ?_⟩
    · rcases h7 with h7 | ⟨p, hp, h7⟩
      · rw [h7] at hm; simp at hm
      · have := hmem.2 _ (List.mem_map_of_mem (f := fun p : Ptcl => p.push.z) hp)
        linarith
    · simp
      ring

/-! ### Exchange -/

/-- The position that the particles are compared with: that of the window if there is one, else that of the physical
domain. -/
def refPos (S : OSim) : ℝ := match S.win with
  | some w => w.zmin
  | none => S.zminG

/-- The lowest position, `k` iterations after the last exchange. -/
noncomputable def OCfg.lo (c : OCfg) (k : ℕ) (S : OSim) : ℝ :=
  refPos S - (c.comm.nzDamp + c.comm.nInject + (c.comm.nGuard / 2 - 2)) * c.dz - 2 * k * (c.base.k.c * c.base.dt)

/-- The highest position. -/
noncomputable def OCfg.hi (c : OCfg) (k : ℕ) (S : OSim) : ℝ :=
  refPos S + (c.comm.NzGlobal + c.comm.nzDamp + c.comm.nInject + (c.comm.nGuard / 2 + 1)) * c.dz +
    2 * k * (c.base.k.c * c.base.dt)

/-- What holds between two iterations, `k` iterations after the last exchange. -/
structure OCfg.Inv (c : OCfg) (k : ℕ) (S : OSim) : Prop where
  healthy : Healthy c S
  plane : ∀ sp ∈ S.sim.species, sp.plane ≠ none → sp.ionizable = false
  ants : ∀ a ∈ S.ants, PlaneAntenna c.base.k.c a
  window : ∀ w, S.win = some w → |w.v| ≤ c.base.k.c ∧ w.tLast = S.sim.time - c.base.dt ∧ |w.zmin - S.zminG| < c.dz
  inj : ∀ w, S.win = some w → ∀ i, some i ∈ S.inj → ∃ d v p, i = ⟨some d, v, some p⟩ ∧ c.InjGood w k d v p
  count : (k : ℤ) ≤ S.sim.iteration % c.comm.exchangePeriod ∨
    ((S.sim.iteration : ℤ) % c.comm.exchangePeriod = 0 ∧ (k : ℤ) ≤ c.comm.exchangePeriod)

theorem OCfg.Inv.k_le (hs : c.Fit) {k : ℕ} {S : OSim} (h : c.Inv k S) : (k : ℤ) ≤ c.comm.exchangePeriod := by
  have := hs.period
  have := Int.emod_lt_of_pos (S.sim.iteration : ℤ) (by omega : 0 < c.comm.exchangePeriod)
  rcases h.count with h | h
  · omega
  · exact h.2

theorem OCfg.Inv.ref (hs : c.Fit) {k : ℕ} {S : OSim} (h : c.Inv k S) : |refPos S - S.zminG| ≤ c.dz := by
  unfold refPos
  cases hw : S.win with
  | none => simpa using hs.one.dz.le
  | some w => exact (h.window w hw).2.2.le

theorem mem_of_getD {α : Type} {l : List (Option α)} {n : ℕ} {i : α} (h : l.getD n none = some i) : some i ∈ l := by
  rw [List.getD_eq_getElem?_getD] at h
  cases hl : l[n]? with
  | none => rw [hl] at h; cases h
  | some x =>
    rw [hl] at h
    have : x = some i := h
    rw [← this]
    exact List.mem_of_getElem? hl

theorem rank_total (hs : c.Fit) {S : OSim} (hS : Healthy c S) {a : Antenna.Ant} (h : PlaneAntenna c.base.k.c a) :
    ∃ a', Antenna.updateCurrentRank a c.comm S.zminG c.dz 0 = .ok a' ∧ PlaneAntenna c.base.k.c a' ∧
      (a'.onRank = true → ∀ p ∈ a'.parts, S.sim.zmin + c.comm.nGuard * c.dz ≤ p.z ∧ p.z ≤ S.sim.zmax - c.comm.nGuard * c.dz) := by
  obtain ⟨h1, z, v, h2, h3⟩ := h
  unfold Antenna.updateCurrentRank
  rw [Comm.getZminZmax_of (Comm.getNzIz_local c.comm true false 0)]
  cases hp : a.parts with
  | nil => exact absurd hp h1
  | cons p l =>
    have ht : ∀ x y : ℝ, x = S.sim.zmin + c.comm.nGuard * c.dz → y = S.sim.zmax - c.comm.nGuard * c.dz →
        decide (p.z ≥ x ∧ p.z < y) = true → ∀ q ∈ p :: l, S.sim.zmin + c.comm.nGuard * c.dz ≤ q.z ∧ q.z ≤ S.sim.zmax - c.comm.nGuard * c.dz := by
      intro x y hx hy hd q hq
      rw [decide_eq_true_iff, hx, hy] at hd
      rw [(h3 q (by rw [hp]; exact hq)).1, ← (h3 p (by rw [hp]; simp)).1]
      exact ⟨hd.1, hd.2.le⟩
    refine ⟨_, rfl, ⟨by simp, z, v, h2, fun q hq => h3 q (by rw [hp]; exact hq)⟩, ?_⟩
    dsimp only
    refine ht _ _ ?_ ?_
    · rw [hS.zmin]
      unfold Comm.izLoc
      simp
      ring
    · rw [hS.zmax, hS.zmin, hs.one.cells]
      unfold Comm.nzLoc Comm.izLoc
      rw [hs.one.size]
      simp [Nat.mod_one]
      ring

theorem exchange_total [NeZero c.base.Nz] (hs : c.Fit) {k : ℕ} {S : OSim} (h : c.Inv k S) :
    ∃ U, c.exchange S = .ok U ∧ c.Within (c.lo 0 S) (c.hi 0 S) U ∧
      (∀ w, S.win = some w → ∀ i, some i ∈ U.inj → ∃ d v p, i = ⟨some d, v, some p⟩ ∧ c.InjGood w 0 d v p) := by
  have hS := h.healthy
  have hg : c.comm.nGuard ≠ 0 := by have := hs.nGuard; omega
  have hg7 : (7 : ℝ) ≤ c.comm.nGuard := by exact_mod_cast hs.nGuard
  have hdz := hs.one.dz
  obtain ⟨r1, r2⟩ := abs_le.1 (h.ref hs)
  have box : ∀ z, S.sim.zmin + c.comm.nGuard * c.dz ≤ z → z ≤ S.sim.zmax - c.comm.nGuard * c.dz → c.lo 0 S ≤ z ∧ z ≤ c.hi 0 S := by
    intro z h1 h2
    rw [hS.zmin] at h1
    rw [hS.zmax, hS.zmin, hs.one.cells] at h2
    push_cast at h2
    unfold OCfg.lo OCfg.hi
    constructor <;> push_cast <;> nlinarith
  have ex : ∀ x ∈ S.sim.species.zipIdx, ∃ r, c.exchangeSpecies S x.2 x.1 = .ok r := by
    intro x _
    unfold OCfg.exchangeSpecies
    simp only [if_neg hg]
    cases hw : S.win with
    | none => exact ⟨_, rfl⟩
    | some w =>
      cases hi : S.inj.getD x.2 none with
      | none => exact ⟨_, rfl⟩
      | some i =>
        obtain ⟨d, v, p, rfl, -⟩ := h.inj w hw i (mem_of_getD hi)
        exact ⟨_, rfl⟩
  obtain ⟨r, hr⟩ := mapM_total _ _ ex
  obtain ⟨as, has⟩ := mapM_total (fun a => Antenna.updateCurrentRank a c.comm S.zminG c.dz 0) S.ants fun a ha => by
    obtain ⟨a', e, -⟩ := rank_total hs hS (h.ants a ha)
    exact ⟨a', e⟩
  have : ∃ U, c.exchange S = .ok U := ⟨_, (except_bind_ok _ _ _).2 ⟨r, hr, (except_bind_ok _ _ _).2 ⟨as, has, rfl⟩⟩⟩
  obtain ⟨U, hU⟩ := this
  obtain ⟨e1, e2, e3, e4, e5, e6, e7⟩ := exchange_ok c hU
  have snd := exchange_sound c hs.one.fill hS.mom hU
  refine ⟨U, hU, ⟨?_, ?_, ?_⟩, ?_⟩
  · intro sp' hsp'
    obtain ⟨id, hid, rfl⟩ := List.mem_iff_getElem.1 hsp'
    have hid' : id < S.sim.species.length := by omega
    obtain ⟨q, -⟩ := e6 id _ _ (List.getElem?_eq_getElem hid') (List.getElem?_eq_getElem hid)
    have := h.plane _ (List.getElem_mem hid')
    rw [← q] at this
    exact this
  · intro sp' hsp' p hp
    refine ⟨snd sp' hsp' p hp, ?_⟩
    obtain ⟨id, hid, rfl⟩ := List.mem_iff_getElem.1 hsp'
    have hid' : id < S.sim.species.length := by omega
    obtain ⟨-, q⟩ := e6 id _ _ (List.getElem?_eq_getElem hid') (List.getElem?_eq_getElem hid)
    obtain ⟨new, q1, q2⟩ := q.opened hg
    rw [q1] at hp
    rcases List.mem_append.1 hp with hp | hp
    · have := (List.mem_filter.1 hp).2
      rw [decide_eq_true_iff] at this
      exact box _ this.1 this.2
    · have hx : ∃ x ∈ injected c S id, NewOf x p := by
        obtain ⟨j, hj, rfl⟩ := List.mem_iff_getElem.1 hp
        have hl := q2.length_eq
        have := (List.forall₂_iff_get.1 q2).2 j (by omega) hj
        exact ⟨_, List.getElem_mem (by omega), this⟩
      obtain ⟨x, hx, hn⟩ := hx
      rw [hn.z]
      unfold injected at hx
      cases hw : S.win with
      | none => rw [hw] at hx; cases hx
      | some w =>
        rw [hw] at hx
        cases hi : S.inj.getD id none with
        | none => rw [hi] at hx; cases hx
        | some i =>
          rw [hi] at hx
          obtain ⟨d, v, p0, rfl, g⟩ := h.inj w hw i (mem_of_getD hi)
          have := g.layers hs (h.window w hw).1 (h.k_le hs) (c.plasma id) S.sim.time x hx
          unfold OCfg.lo OCfg.hi refPos
          rw [hw]
          push_cast
          constructor <;> nlinarith
  · intro a' ha'
    obtain ⟨j, hj, rfl⟩ := List.mem_iff_getElem.1 ha'
    have hl := e7.length_eq
    have q := (List.forall₂_iff_get.1 e7).2 j (by omega) hj
    simp only [List.get_eq_getElem] at q
    obtain ⟨a', f1, f2, f3⟩ := rank_total hs hS (h.ants _ (List.getElem_mem (by omega : j < S.ants.length)))
    rw [Except.ok.inj (q.symm.trans f1)]
    exact ⟨f2, fun ho p hp => box _ (f3 ho p hp).1 (f3 ho p hp).2⟩
  · intro w hw i hi
    rw [e5] at hi
    obtain ⟨id, -, hi⟩ := List.mem_map.1 hi
    unfold OCfg.injAfter at hi
    rw [if_neg hg, hw] at hi
    cases hj : S.inj.getD id none with
    | none => rw [hj] at hi; cases hi
    | some j =>
      rw [hj] at hi
      obtain ⟨d, v, p0, rfl, g⟩ := h.inj w hw j (mem_of_getD hj)
      have := Option.some.inj hi
      rw [← this]
      exact ⟨d, v, _, rfl, g.generate _ _⟩

/-! ### One iteration -/

/-- The bounds are inside of the grid, with a margin. -/
theorem OCfg.Inv.margin (hs : c.Fit) {k : ℕ} {S : OSim} (h : c.Inv k S) {j : ℕ} (hj : (j : ℤ) + 1 ≤ c.comm.exchangePeriod) :
    S.sim.zmin + 2 * (c.base.k.c * c.base.dt) ≤ c.lo j S ∧ c.hi j S ≤ S.sim.zmax - 2 * (c.base.k.c * c.base.dt) := by
  have hS := h.healthy
  have hdz := hs.one.dz
  have hcd : 0 < c.base.k.c * c.base.dt := mul_pos hs.cpos hs.dt
  obtain ⟨r1, r2⟩ := abs_le.1 (h.ref hs)
  have hg := hs.guard
  have hj' : (j : ℝ) + 1 ≤ c.comm.exchangePeriod := by exact_mod_cast hj
  have h1 : ((j : ℝ) + 1) * (2 * (c.base.k.c * c.base.dt)) ≤ c.comm.exchangePeriod * (2 * (c.base.k.c * c.base.dt)) :=
    mul_le_mul_of_nonneg_right hj' (by linarith)
  unfold OCfg.lo OCfg.hi
  rw [hS.zmax, hS.zmin, hs.one.cells]
  push_cast
  constructor <;> nlinarith

theorem OCfg.Inv.box {k : ℕ} {S : OSim} (h : c.Inv k S) : c.Box S := h.healthy.zmax

/-- The iterations since the last exchange, at the next gathering. -/
def OCfg.since (c : OCfg) (i k : ℕ) (S : OSim) : ℕ := if c.exchanges i S then 0 else k

theorem OCfg.Inv.since_lt (hs : c.Fit) {k : ℕ} {S : OSim} (h : c.Inv k S) (i : ℕ) : (c.since i k S : ℤ) + 1 ≤ c.comm.exchangePeriod := by
  have hp := hs.period
  have := Int.emod_lt_of_pos (S.sim.iteration : ℤ) (by omega : 0 < c.comm.exchangePeriod)
  unfold OCfg.since
  split_ifs with hx
  · simpa using hp
  · unfold OCfg.exchanges at hx
    rcases h.count with h | h <;> omega

theorem OCfg.Inv.count_next (hs : c.Fit) {k : ℕ} {S : OSim} (h : c.Inv k S) (i : ℕ) :
    (((c.since i k S + 1 : ℕ) : ℤ) ≤ (((S.sim.iteration + 1 : ℕ) : ℤ)) % c.comm.exchangePeriod) ∨
    ((((S.sim.iteration + 1 : ℕ) : ℤ)) % c.comm.exchangePeriod = 0 ∧ ((c.since i k S + 1 : ℕ) : ℤ) ≤ c.comm.exchangePeriod) := by
  have hp := hs.period
  have h1 := h.since_lt hs i
  have h0 := Int.emod_lt_of_pos (S.sim.iteration : ℤ) (by omega : 0 < c.comm.exchangePeriod)
  have h0' := Int.emod_nonneg (S.sim.iteration : ℤ) (by omega : c.comm.exchangePeriod ≠ 0)
  have hle : (c.since i k S : ℤ) ≤ (S.sim.iteration : ℤ) % c.comm.exchangePeriod := by
    unfold OCfg.since
    split_ifs with hx
    · simpa using h0'
    · unfold OCfg.exchanges at hx
      rcases h.count with h | h <;> omega
  have e : (((S.sim.iteration + 1 : ℕ) : ℤ)) % c.comm.exchangePeriod =
      ((S.sim.iteration : ℤ) % c.comm.exchangePeriod + 1) % c.comm.exchangePeriod := by
    push_cast
    rw [Int.emod_add_emod]
  rcases lt_or_eq_of_le (by omega : (S.sim.iteration : ℤ) % c.comm.exchangePeriod + 1 ≤ c.comm.exchangePeriod) with h2 | h2
  · left
    rw [e, Int.emod_eq_of_lt (by omega) h2]
    push_cast
    omega
  · right
    rw [e, h2, Int.emod_self]
    push_cast
    exact ⟨trivial, h1⟩

variable [NeZero c.base.Nz]

theorem start_total (hs : c.Fit) (i : ℕ) {k : ℕ} {S : OSim} (h : c.Inv k S)
    (hx : ¬ c.exchanges i S → c.Within (c.lo k S) (c.hi k S) S) :
    ∃ A, c.iterStart i S = .ok A ∧ c.Within (c.lo (c.since i k S) S) (c.hi (c.since i k S) S) A ∧
      (A.sim.zmin = S.sim.zmin ∧ A.sim.zmax = S.sim.zmax ∧ A.sim.time = S.sim.time ∧ A.sim.iteration = S.sim.iteration) ∧
      (A.zminG = S.zminG ∧ A.win = S.win) ∧
      (∀ w, S.win = some w → ∀ i', some i' ∈ A.inj → ∃ d v p, i' = ⟨some d, v, some p⟩ ∧ c.InjGood w (c.since i k S) d v p) := by
  obtain ⟨g1, g2⟩ := h.margin hs (h.since_lt hs i)
  have hcd : 0 < c.base.k.c * c.base.dt := mul_pos hs.cpos hs.dt
  have b0 := h.box
  have first : ∃ S2, (if c.exchanges i S then c.exchange S >>= c.depositRho .prev else pure S) = .ok S2 ∧
      c.Within (c.lo (c.since i k S) S) (c.hi (c.since i k S) S) S2 ∧
      (S2.sim.zmin = S.sim.zmin ∧ S2.sim.zmax = S.sim.zmax ∧ S2.sim.time = S.sim.time ∧ S2.sim.iteration = S.sim.iteration) ∧
      (S2.zminG = S.zminG ∧ S2.win = S.win) ∧
      (∀ w, S.win = some w → ∀ i', some i' ∈ S2.inj → ∃ d v p, i' = ⟨some d, v, some p⟩ ∧ c.InjGood w (c.since i k S) d v p) := by
    unfold OCfg.since at g1 g2 ⊢
    by_cases hi : c.exchanges i S
    · rw [if_pos hi] at g1 g2 ⊢
      rw [if_pos hi]
      obtain ⟨U, eU, wU, jU⟩ := exchange_total hs h
      obtain ⟨x1, x2, x3, -⟩ := exchange_ok c eU
      have z1 : U.sim.zmin = S.sim.zmin := by rw [← x1]
      have z2 : U.sim.zmax = S.sim.zmax := by rw [← x1]
      have z3 : U.sim.time = S.sim.time := by rw [← x1]
      have z4 : U.sim.iteration = S.sim.iteration := by rw [← x1]
      have bU : c.Box U := by unfold OCfg.Box; rw [z1, z2]; exact b0
      obtain ⟨S2, e2, m2⟩ := (wU.mono (lo' := U.sim.zmin) (hi' := U.sim.zmax) (by rw [z1]; linarith) (by rw [z2]; linarith)).rho hs bU .prev
      refine ⟨S2, (except_bind_ok _ _ _).2 ⟨U, eU, e2⟩, wU.same m2, ⟨?_, ?_, ?_, ?_⟩, ⟨?_, ?_⟩, ?_⟩
      · rw [m2.zmin, drift_zero, add_zero, z1]
      · rw [m2.zmax, drift_zero, add_zero, z2]
      · rw [m2.time, z3]
      · rw [m2.iteration, z4]
      · rw [m2.zminG, drift_zero, add_zero, x2]
      · rw [m2.win, x3]
      · rw [m2.inj]; exact jU
    · rw [if_neg hi]
      rw [if_neg hi]
      exact ⟨S, rfl, hx hi, ⟨rfl, rfl, rfl, rfl⟩, ⟨rfl, rfl⟩, h.inj⟩
  obtain ⟨S2, e2, w2, ⟨z1, z2, z3, z4⟩, ⟨y1, y2⟩, j2⟩ := first
  have b2 : c.Box S2 := by unfold OCfg.Box; rw [z1, z2]; exact b0
  have second : ∃ S3, (if i = 0 then c.depositJ S2 else pure S2) = .ok S3 ∧ c.Moved 0 0 0 0 0 S2 S3 := by
    by_cases hi : i = 0
    · rw [if_pos hi]
      exact (w2.mono (lo' := S2.sim.zmin) (hi' := S2.sim.zmax) (by rw [z1]; linarith) (by rw [z2]; linarith)).J hs b2
    · rw [if_neg hi]
      exact ⟨S2, rfl, .of_eq c rfl rfl rfl rfl rfl rfl rfl rfl rfl⟩
  obtain ⟨S3, e3, m3⟩ := second
  have w3 := w2.same m3
  have b3 := b2.moved m3
  have q1 : S3.sim.zmin = S.sim.zmin := by rw [m3.zmin, drift_zero, add_zero, z1]
  have q2 : S3.sim.zmax = S.sim.zmax := by rw [m3.zmax, drift_zero, add_zero, z2]
  obtain ⟨t, e4, w4, p1, p2, p3, p4⟩ := w3.gather hs b3 (by rw [q1]; linarith) (by rw [q2]; linarith)
  refine ⟨_, ?_, w4, ⟨?_, ?_, ?_, ?_⟩, ⟨?_, ?_⟩, ?_⟩
  · rw [ostart_eq]
    exact (except_bind_ok _ _ _).2 ⟨S2, e2, (except_bind_ok _ _ _).2 ⟨S3, e3, (except_bind_ok _ _ _).2 ⟨t, e4, rfl⟩⟩⟩
  · rw [← q1]; exact p1
  · rw [← q2]; exact p2
  · rw [← z3, ← m3.time]; exact p3
  · rw [← z4, ← m3.iteration]; exact p4
  · show S3.zminG = _
    rw [m3.zminG, drift_zero, add_zero, y1]
  · show S3.win = _
    rw [m3.win, y2]
  · show ∀ w, S.win = some w → ∀ i', some i' ∈ S3.inj → _
    rw [m3.inj]
    exact j2

theorem iter_total (hs : c.Fit) (o : Opts) (ho : o.correctDivE = true → c.base.correction = .curlFree) (i : ℕ) {k : ℕ} {S : OSim}
    (h : c.Inv k S) (hx : ¬ c.exchanges i S → c.Within (c.lo k S) (c.hi k S) S) :
    ∃ T k', c.iter o i S = .ok T ∧ c.Inv k' T ∧ c.Within (c.lo k' T) (c.hi k' T) T := by
  have hcd : 0 < c.base.k.c * c.base.dt := mul_pos hs.cpos hs.dt
  obtain ⟨g1, g2⟩ := h.margin hs (h.since_lt hs i)
  have cn := h.count_next hs i
  obtain ⟨A, eA, wA, ⟨a1, a2, a3, a4⟩, ⟨a5, a6⟩, jA⟩ := start_total hs i h hx
  set κ := c.since i k S with hκ
  obtain ⟨B, eB, wB, b1, b2, b3, b4⟩ := half_total hs o wA
  obtain ⟨-, b5, b6, b7⟩ := half_rest c o eB
  have bx : c.Box B := by
    have := h.box
    unfold OCfg.Box at this ⊢
    rw [b1, b2, a1, a2, this]; ring
  have dr : |c.base.drift (0.5 * c.base.dt)| ≤ c.base.k.c * c.base.dt / 2 := by
    refine (hs.drift_le _).trans (le_of_eq ?_)
    rw [abs_of_pos (by linarith [hs.dt])]; ring
  obtain ⟨d1, d2⟩ := abs_le.1 dr
  obtain ⟨D, eD⟩ := deposit_total hs o bx wB (by rw [b1, a1]; linarith) (by rw [b2, a2]; linarith)
  have m := deposit_moved c o eD
  have ah : |(0.5 : ℝ) * c.base.dt| ≤ c.base.dt / 2 := by rw [abs_of_pos (by linarith [hs.dt])]; linarith
  have wD := wB.moved hs.cpos m (τ := c.base.dt / 2) (by
    split_ifs
    · exact ah
    · rw [abs_zero]; linarith [hs.dt]) ah
  have zG : D.zminG = S.zminG + c.base.drift (0.5 * c.base.dt) + c.base.drift (0.5 * c.base.dt) := by rw [m.zminG, b5, a5]
  have hpD : Placed c D := by
    have hp := h.healthy.placed hs.one
    refine placed_shift c (nziz hs.one) hp (c.base.drift (0.5 * c.base.dt) + c.base.drift (0.5 * c.base.dt)) ?_ ?_ ?_
    · rw [zG]; ring
    · rw [m.zmin, b1, a1]; ring
    · rw [m.zmax, b2, a2]; ring
  have hwD : D.win = S.win := by rw [m.win, b6, a6]
  have hjD : D.inj = A.inj := by rw [m.inj, b7]
  have htD : D.sim.time = S.sim.time := by rw [m.time, b3, a3]
  obtain ⟨T, eT⟩ := end_total hs.one o ho hpD (by
    rw [hwD, hjD]
    intro w hw j hj
    obtain ⟨d, v, p, e, -⟩ := jA w hw j hj
    exact ⟨d, v, p, e⟩)
  have e := oend c o hs.one.size (nziz hs.one) hs.one.dz hpD eT
  have run : c.iter o i S = .ok T := by
    unfold OCfg.iter
    rw [if_neg (by have := hs.period; omega)]
    exact (except_bind_ok _ _ _).2 ⟨A, eA, (except_bind_ok _ _ _).2 ⟨B, eB, (except_bind_ok _ _ _).2 ⟨D, eD, eT⟩⟩⟩
  have hT := C94_healthy hs.one o i S T h.healthy run
  obtain ⟨t1, t2, n, t3, t4, t5⟩ := C94_window hs.one o i S T h.healthy run
  have rest : refPos T ≤ refPos S + c.base.k.c * c.base.dt ∧ refPos S - c.base.k.c * c.base.dt ≤ refPos T := by
    unfold refPos
    cases hw : S.win with
    | none =>
      rw [(t4 hw).2]
      have : c.windowCells D = 0 := by unfold OCfg.windowCells; rw [hwD, hw]
      dsimp only
      rw [e.zminG, this, zG]
      push_cast
      constructor <;> linarith
    | some w =>
      obtain ⟨w', u1, u2, u3, u4, u5⟩ := t5 w hw
      obtain ⟨v1, v2, v3⟩ := h.window w hw
      rw [u1]
      dsimp only
      rw [u4, v2, sub_sub_cancel]
      obtain ⟨s1, s2⟩ := abs_le.1 v1
      have hdt := hs.dt
      constructor <;> nlinarith
  have wT : c.Within (c.lo (κ + 1) T) (c.hi (κ + 1) T) T := by
    refine (wD.of_eq e.species e.ants).mono ?_ ?_
    · unfold OCfg.lo
      push_cast
      linarith [rest.1]
    · unfold OCfg.hi
      push_cast
      linarith [rest.2]
  refine ⟨T, κ + 1, run, ⟨hT, wT.plane, fun a ha => (wT.ants a ha).1, ?_, ?_, ?_⟩, wT⟩
  · intro w' hw'
    cases hw : S.win with
    | none => rw [(t4 hw).2] at hw'; cases hw'
    | some w =>
      obtain ⟨w'', u1, u2, u3, u4, u5⟩ := t5 w hw
      obtain rfl : w'' = w' := Option.some.inj (u1.symm.trans hw')
      obtain ⟨v1, v2, v3⟩ := h.window w hw
      exact ⟨by rw [u2]; exact v1, by rw [u3, t1]; ring, u5⟩
  · intro w' hw' j hj
    cases hw : S.win with
    | none => rw [(t4 hw).2] at hw'; cases hw'
    | some w =>
      obtain ⟨w'', u1, u2, u3, u4, u5⟩ := t5 w hw
      obtain rfl : w'' = w' := Option.some.inj (u1.symm.trans hw')
      obtain ⟨v1, v2, v3⟩ := h.window w hw
      have f := e.inj.2 w (by rw [hwD, hw])
      obtain ⟨r, hr, hrj⟩ := List.mem_iff_getElem.1 hj
      have hl := f.length_eq
      have f := (List.forall₂_iff_get.1 f).2 r (by omega) hr
      simp only [List.get_eq_getElem] at f
      rw [hrj, htD, v2, sub_sub_cancel] at f
      have hmem : D.inj[r]'(by omega) ∈ A.inj := by rw [← hjD]; exact List.getElem_mem _
      cases hjr : D.inj[r]'(by omega) with
      | none => rw [hjr] at f; cases f
      | some j0 =>
        rw [hjr] at f hmem
        obtain ⟨d, v, p, rfl, g⟩ := jA w hw j0 hmem
        have := Option.some.inj (Except.ok.inj f)
        rw [← this]
        refine ⟨d, v, _, rfl, g.advance hs v1 u2 ?_⟩
        rw [u4, v2, sub_sub_cancel]
  · rw [t2]
    exact cn

theorem loop_total (hs : c.Fit) (o : Opts) (ho : o.correctDivE = true → c.base.correction = .curlFree) (n : ℕ) :
    ∀ (i k : ℕ) (S : OSim), c.Inv k S → (¬ c.exchanges i S → c.Within (c.lo k S) (c.hi k S) S) →
      ∃ T k', c.loop o i n S = .ok T ∧ c.Inv k' T ∧ (0 < n → c.Within (c.lo k' T) (c.hi k' T) T) ∧ (n = 0 → T = S ∧ k' = k) := by
  induction n with
  | zero => exact fun i k S h _ => ⟨S, k, rfl, h, fun h => absurd h (by omega), fun _ => ⟨rfl, rfl⟩⟩
  | succ n ih =>
    intro i k S h hx
    obtain ⟨T, k', e, h', w⟩ := iter_total hs o ho i h hx
    obtain ⟨T', k'', e', h'', w', z⟩ := ih (i + 1) k' T h' fun _ => w
    refine ⟨T', k'', (except_bind_ok _ _ _).2 ⟨T, e, e'⟩, h'', fun _ => ?_, fun h => absurd h (by omega)⟩
    rcases Nat.eq_zero_or_pos n with hn | hn
    · obtain ⟨rfl, rfl⟩ := z hn
      exact w
    · exact w' hn

end Fbpic.Pic
