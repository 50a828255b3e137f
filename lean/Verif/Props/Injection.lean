import Verif.Lemmas.Injection
import Verif.Lemmas.Comm
import Mathlib.Data.Rat.Floor

/-!
# C13: continuous injection fills space without gaps or overlaps
-/

namespace Fbpic

variable {K : Type} [Field K] [LinearOrder K] [IsStrictOrderedRing K] [FloorRing K]

private theorem run_cons (d vE vW : K) (pl : InjPlasma K) (s : InjRun K) (o : InjOp K)
    (os : List (InjOp K)) :
    InjRun.run d vE vW pl s (o :: os) = InjRun.run d vE vW pl (s.step d vE vW pl o) os := rfl

/-- The distance between the injection plane and the end of the plasma after an increment. -/
private theorem increment_gap {d vE vW dur : K} (hd : 0 < d) (p : InjPos K) :
    |(incrementPos d vE vW dur p).zInject - (incrementPos d vE vW dur p).zEnd| < d := by
  have h := abs_sub_pyInt_lt ((p.zInject + vW * dur - (p.zEnd + vE * dur)) / d)
  have e : (incrementPos d vE vW dur p).zInject - (incrementPos d vE vW dur p).zEnd
      = ((p.zInject + vW * dur - (p.zEnd + vE * dur)) / d
        - (pyInt ((p.zInject + vW * dur - (p.zEnd + vE * dur)) / d) : K)) * d := by
    simp only [incrementPos]; field_simp; ring
  rw [e, abs_mul, abs_of_pos hd]
  calc _ < 1 * d := mul_lt_mul_of_pos_right h hd
    _ = d := one_mul d

private theorem comoving_exchange (d vE vW δ : K) (pl : InjPlasma K) (s : InjRun K) (N P : ℕ)
    (a : K) (hP : s.pos.nzInject = P) (hc : Spec.comoving vE δ s = Spec.plasma pl d N a)
    (ha : a + ((N : K) + (P : K)) * d = s.pos.zEnd - vE * (s.tLast + δ)) :
    Spec.comoving vE δ (s.step d vE vW pl (.exchange (s.tLast + δ)))
      = Spec.plasma pl d (N + P) a := by
  have h := generateParticles_eq d vE pl (s.tLast + δ) s.pos P hP
  have e : s.pos.zEnd - (P : K) * d - vE * (s.tLast + δ) = a + (N : K) * d := by linarith
  rw [e] at h
  simp only [InjRun.step, Spec.comoving, List.flatMap_append, List.flatMap_cons, List.flatMap_nil,
    List.append_nil] at hc ⊢
  rw [hc, Spec.plasma, Spec.plasma, plasmaMesh_add, List.filter_append, ← h]
  rfl

private theorem tiling_inv (d vE vW δ : K) (hd : 0 < d) (hv : vE ≤ vW) (pl : InjPlasma K) (a : K) :
    ∀ (ops : List (InjOp K)) (s : InjRun K), Spec.Sched δ s.tLast ops →
    (∃ N P : ℕ, s.pos.nzInject = P ∧ Spec.comoving vE δ s = Spec.plasma pl d N a ∧
      a + ((N : K) + (P : K)) * d = s.pos.zEnd - vE * (s.tLast + δ) ∧
      -d < s.pos.zInject - s.pos.zEnd) →
    (∃ N P : ℕ, (InjRun.run d vE vW pl s ops).pos.nzInject = P ∧
      Spec.comoving vE δ (InjRun.run d vE vW pl s ops) = Spec.plasma pl d N a ∧
      a + ((N : K) + (P : K)) * d = (InjRun.run d vE vW pl s ops).pos.zEnd
        - vE * ((InjRun.run d vE vW pl s ops).tLast + δ) ∧
      -d < (InjRun.run d vE vW pl s ops).pos.zInject - (InjRun.run d vE vW pl s ops).pos.zEnd)
  | [], s, _, h => h
  | .move t :: os, s, hs, h => by
    rw [run_cons]
    obtain ⟨N, P, hP, hc, ha, hx⟩ := h
    obtain ⟨ht, hs⟩ := hs
    refine tiling_inv d vE vW δ hd hv pl a os _ hs ?_
    have hnn : 0 ≤ pyInt ((s.pos.zInject + vW * (t - s.tLast) - (s.pos.zEnd + vE * (t - s.tLast))) / d) := by
      have : -1 < (s.pos.zInject + vW * (t - s.tLast) - (s.pos.zEnd + vE * (t - s.tLast))) / d := by
        rw [lt_div_iff₀ hd]
        nlinarith [mul_nonneg (sub_nonneg.mpr hv) (sub_nonneg.mpr ht)]
      by_cases h0 : 0 ≤ (s.pos.zInject + vW * (t - s.tLast) - (s.pos.zEnd + vE * (t - s.tLast))) / d
      · exact pyInt_nonneg h0
      · rw [pyInt_of_neg (not_le.mp h0)]
        have := Int.lt_ceil (a := (s.pos.zInject + vW * (t - s.tLast) - (s.pos.zEnd + vE * (t - s.tLast))) / d) (z := -1)
        have := this.mpr (by push_cast; assumption)
        omega
    obtain ⟨k, hk⟩ := Int.eq_ofNat_of_zero_le hnn
    refine ⟨N, P + k, ?_, hc, ?_, ?_⟩
    · simp only [InjRun.step, incrementPos, hP, hk]; push_cast; rfl
    · simp only [InjRun.step, incrementPos, hk]; push_cast; linarith
    · exact (abs_lt.mp (increment_gap hd s.pos)).1
  | .exchange t :: os, s, hs, h => by
    rw [run_cons]
    obtain ⟨N, P, hP, hc, ha, hx⟩ := h
    obtain ⟨rfl, hs⟩ := hs
    refine tiling_inv d vE vW δ hd hv pl a os _ hs ⟨N + P, 0, rfl, ?_, ?_, hx⟩
    · exact comoving_exchange d vE vW δ pl s N P a hP hc ha
    · simp only [InjRun.step, generateParticles]; push_cast; linarith

/-- **C13.** A plasma that is not faster than the window. Whatever the history of window moves and
particle exchanges, the particles created by the injector, seen in the frame of the plasma, are
those of one uniform plasma of `N` layers that starts at the initial end of the plasma: constant
spacing, no gap, no overlap, right density. `P` more layers are waiting to be created, and the layers
created or waiting end within one particle spacing of the injection plane. -/
theorem C13_tiling (d vE vW δ : K) (hd : 0 < d) (hv : vE ≤ vW) (pl : InjPlasma K)
    (t0 : K) (p0 : InjPos K) (h0 : p0.nzInject = 0) (hx : -d < p0.zInject - p0.zEnd)
    (ops : List (InjOp K)) (hs : Spec.Sched δ t0 ops) (s : InjRun K)
    (hrun : InjRun.run d vE vW pl ⟨t0, p0, []⟩ ops = s) :
    ∃ N P : ℕ, s.pos.nzInject = P ∧
      Spec.comoving vE δ s = Spec.plasma pl d N (p0.zEnd - vE * (t0 + δ)) ∧
      p0.zEnd - vE * (t0 + δ) + ((N : K) + (P : K)) * d = s.pos.zEnd - vE * (s.tLast + δ) ∧
      -d < s.pos.zInject - s.pos.zEnd := by
  subst hrun
  refine tiling_inv d vE vW δ hd hv pl _ ops ⟨t0, p0, []⟩ hs ⟨0, 0, by simpa using h0, ?_, ?_, hx⟩
  · simp [Spec.comoving, Spec.plasma, Spec.plasmaMesh]
  · simp

private theorem slow_inv (d vE vW δ : K) (hd : 0 < d) (hv : vW ≤ vE) (pl : InjPlasma K) (a : K) :
    ∀ (ops : List (InjOp K)) (s : InjRun K), Spec.Sched δ s.tLast ops →
    ((Spec.comoving vE δ s = [] ∧
        a + (s.pos.nzInject : K) * d = s.pos.zEnd - vE * (s.tLast + δ) ∧
        (s.pos.nzInject = 0 ∨ s.pos.zInject - s.pos.zEnd < d)) ∨
      (∃ N : ℕ, Spec.comoving vE δ s = Spec.plasma pl d N a ∧ s.pos.nzInject ≤ 0 ∧
        s.pos.zInject - s.pos.zEnd < d)) →
    ∃ N : ℕ, Spec.comoving vE δ (InjRun.run d vE vW pl s ops) = Spec.plasma pl d N a
  | [], s, _, h => by
    rcases h with ⟨h, _⟩ | ⟨N, h, _⟩
    · exact ⟨0, by simpa [InjRun.run, Spec.plasma, Spec.plasmaMesh] using h⟩
    · exact ⟨N, h⟩
  | .move t :: os, s, hs, h => by
    rw [run_cons]
    obtain ⟨ht, hs⟩ := hs
    refine slow_inv d vE vW δ hd hv pl a os _ hs ?_
    have hg := (abs_lt.mp (increment_gap (vE := vE) (vW := vW) (dur := t - s.tLast) hd s.pos)).2
    rcases h with ⟨h1, h2, _⟩ | ⟨N, h1, h2, h3⟩
    · refine Or.inl ⟨h1, ?_, Or.inr hg⟩
      simp only [InjRun.step, incrementPos]; push_cast; linarith
    · refine Or.inr ⟨N, h1, ?_, hg⟩
      have : pyInt ((s.pos.zInject + vW * (t - s.tLast) - (s.pos.zEnd + vE * (t - s.tLast))) / d) ≤ 0 := by
        have hlt : (s.pos.zInject + vW * (t - s.tLast) - (s.pos.zEnd + vE * (t - s.tLast))) / d < 1 := by
          rw [div_lt_iff₀ hd]
          nlinarith [mul_nonneg (sub_nonneg.mpr hv) (sub_nonneg.mpr ht)]
        by_cases h0 : 0 ≤ (s.pos.zInject + vW * (t - s.tLast) - (s.pos.zEnd + vE * (t - s.tLast))) / d
        · rw [pyInt_of_nonneg h0]
          have := Int.floor_lt (a := (s.pos.zInject + vW * (t - s.tLast) - (s.pos.zEnd + vE * (t - s.tLast))) / d) (z := 1)
          have := this.mpr (by push_cast; assumption)
          omega
        · exact pyInt_nonpos (not_le.mp h0).le
      simp only [InjRun.step, incrementPos]; omega
  | .exchange t :: os, s, hs, h => by
    rw [run_cons]
    obtain ⟨rfl, hs⟩ := hs
    refine slow_inv d vE vW δ hd hv pl a os _ hs ?_
    have hneg : s.pos.nzInject ≤ 0 →
        Spec.comoving vE δ (s.step d vE vW pl (.exchange (s.tLast + δ))) = Spec.comoving vE δ s := by
      intro hn
      simp [InjRun.step, generateParticles, generate_nonpos pl _ hn, Spec.comoving]
    rcases h with ⟨h1, h2, h3⟩ | ⟨N, h1, h2, h3⟩
    · rcases h3 with h3 | h3
      · refine Or.inl ⟨by rw [hneg h3.le, h1], ?_, Or.inl rfl⟩
        rw [h3] at h2
        simpa [InjRun.step, generateParticles] using h2
      · by_cases hn : s.pos.nzInject ≤ 0
        · refine Or.inr ⟨0, ?_, le_refl _, h3⟩
          rw [hneg hn, h1]; simp [Spec.plasma, Spec.plasmaMesh]
        · obtain ⟨P, hP⟩ := Int.eq_ofNat_of_zero_le (le_of_lt (not_le.mp hn))
          refine Or.inr ⟨0 + P, comoving_exchange d vE vW δ pl s 0 P a hP ?_ ?_, le_refl _, h3⟩
          · rw [h1]; simp [Spec.plasma, Spec.plasmaMesh]
          · rw [hP] at h2; push_cast at h2 ⊢; linarith
    · exact Or.inr ⟨N, by rw [hneg h2, h1], le_refl _, h3⟩

/-- **C13** for a plasma that is at least as fast as the window (nothing, or only the initial
distance to the injection plane, has to be filled): again no gap and no overlap. -/
theorem C13_tiling_slow_window (d vE vW δ : K) (hd : 0 < d) (hv : vW ≤ vE) (pl : InjPlasma K)
    (t0 : K) (p0 : InjPos K) (h0 : p0.nzInject = 0)
    (ops : List (InjOp K)) (hs : Spec.Sched δ t0 ops) :
    ∃ N : ℕ, Spec.comoving vE δ (InjRun.run d vE vW pl ⟨t0, p0, []⟩ ops)
      = Spec.plasma pl d N (p0.zEnd - vE * (t0 + δ)) := by
  refine slow_inv d vE vW δ hd hv pl _ ops ⟨t0, p0, []⟩ hs (Or.inl ⟨rfl, ?_, Or.inl h0⟩)
  simp [h0]

/-- **C13** (keeping up): right after any window move, the end of the plasma (created or waiting) is
within less than one particle spacing of the injection plane, and the plane has followed the
window. -/
theorem C13_keeps_up (d vE vW : K) (hd : 0 < d) (pl : InjPlasma K) (s0 : InjRun K)
    (ops : List (InjOp K)) (t : K) (s : InjRun K)
    (hrun : InjRun.run d vE vW pl s0 (ops ++ [.move t]) = s) :
    |s.pos.zInject - s.pos.zEnd| < d ∧
      s.pos.zInject = s0.pos.zInject + vW * (t - s0.tLast) := by
  have plane : ∀ (ops : List (InjOp K)) (s0 : InjRun K),
      (InjRun.run d vE vW pl s0 ops).pos.zInject
        = s0.pos.zInject + vW * ((InjRun.run d vE vW pl s0 ops).tLast - s0.tLast) := by
    intro ops
    induction ops with
    | nil => intro s0; simp [InjRun.run]
    | cons o os ih =>
      intro s0
      rw [run_cons, ih]
      cases o with
      | move t => simp only [InjRun.step, incrementPos]; ring
      | exchange t => rfl
  subst hrun
  have e : InjRun.run d vE vW pl s0 (ops ++ [.move t])
      = (InjRun.run d vE vW pl s0 ops).step d vE vW pl (.move t) := by
    simp [InjRun.run, List.foldl_append]
  constructor
  · rw [e]; exact increment_gap hd _
  · rw [plane, e]; rfl

/-- **C13** (start): on the last rank, if the particles already loaded (spacing `d`) end inside the
global physical domain, `initialize_injection_positions` starts from the end of the plasma, with no layer
waiting, and the injection plane ahead of it; no other rank injects. -/
theorem C13_start (c : Comm) (zminG dz : K) (hdz : 0 < dz) (rank : ℕ) (vW dt : K) (zs : List K)
    (inj inj' : Injector K) (d : K) (hdp : inj.dzp = some d) (hpos : inj.pos = none)
    (hv : inj.vEnd ≤ vW) (hdt : 0 ≤ dt) (hT : 0 ≤ c.exchangePeriod)
    (hzs : ∀ z ∈ zs, z + d / 2 ≤ zminG + (c.NzGlobal : K) * dz)
    (hok : inj.initialize c zminG dz rank vW zs dt = .ok inj') :
    (rank + 1 ≠ c.size ∧ inj'.pos = none) ∨
    (rank + 1 = c.size ∧ ∃ p, inj'.pos = some p ∧ p.nzInject = 0 ∧ p.zEnd < p.zInject ∧
      (zs = [] → p.zEnd = zminG + (c.NzGlobal : K) * dz) ∧
      (zs ≠ [] → (∃ z ∈ zs, p.zEnd = z + d / 2) ∧ ∀ z ∈ zs, z + d / 2 ≤ p.zEnd)) := by
  have hdamp : c.getZminZmax zminG dz false true false none
      = .ok (zminG + (-((c.nzDamp + c.nInject : ℕ) : K)) * dz,
        zminG + (-((c.nzDamp + c.nInject : ℕ) : K)) * dz
          + ((c.NzGlobal + 2 * (c.nzDamp + c.nInject) : ℕ) : K) * dz) := by
    simp [Comm.getZminZmax, Comm.getNzIz_global, bind, Except.bind, pure, Except.pure]
  have hphys : c.getZminZmax zminG dz false false false none
      = .ok (zminG, zminG + (c.NzGlobal : K) * dz) := by
    simp [Comm.getZminZmax, Comm.getNzIz_global, bind, Except.bind, pure, Except.pure]
  by_cases hr : (rank : ℤ) ≠ (c.size : ℤ) - 1
  · left
    unfold Injector.initialize at hok
    rw [if_pos hr] at hok
    injection hok with hok
    exact ⟨by omega, by rw [← hok, hpos]⟩
  · right
    refine ⟨by omega, ?_⟩
    have h3 : zminG + (c.NzGlobal : K) * dz < zminG + (-((c.nzDamp + c.nInject : ℕ) : K)) * dz
          + ((c.NzGlobal + 2 * (c.nzDamp + c.nInject) : ℕ) : K) * dz + (3 - (c.nInject : K)) * dz
          + (c.exchangePeriod : K) * dt * (vW - inj.vEnd) := by
      have h1 : (0 : K) ≤ (c.exchangePeriod : K) * dt * (vW - inj.vEnd) := by
        have : (0 : K) ≤ (c.exchangePeriod : K) := by exact_mod_cast hT
        exact mul_nonneg (mul_nonneg this hdt) (sub_nonneg.mpr hv)
      have h2 : (0 : K) ≤ (c.nzDamp : K) * dz := by positivity
      push_cast
      nlinarith
    unfold Injector.initialize at hok
    rw [if_neg hr, hpos] at hok
    simp only [Option.isSome_none, Bool.false_eq_true, if_false, hdamp, hphys, hdp, bind,
      Except.bind] at hok
    cases hm : zs.max? with
    | none =>
      simp only [hm] at hok
      injection hok with hok
      refine ⟨_, by rw [← hok], rfl, h3, fun _ => rfl, fun h => absurd (List.max?_eq_none_iff.mp hm) h⟩
    | some zm =>
      simp only [hm] at hok
      injection hok with hok
      have hzm := List.max?_eq_some_iff.mp hm
      refine ⟨_, by rw [← hok], rfl, ?_, ?_, fun _ => ⟨⟨zm, hzm.1, ?_⟩, fun z hz => ?_⟩⟩
      · have := hzs zm hzm.1
        refine lt_of_le_of_lt ?_ h3
        show zm + 1 / 2 * d ≤ _
        linarith
      · intro h; simp [h] at hzm
      · show zm + 1 / 2 * d = _; ring
      · have := hzm.2 z hz
        show _ ≤ zm + 1 / 2 * d
        linarith

/-- A window of speed 1, plasma moving backwards at 1/2, spacing 1/4: three moves with exchanges in
between. The hypotheses of `C13_tiling` hold and particles are really created. -/
example :
    let pl : InjPlasma ℚ := ⟨1, 0, 1, 1, 1, 6, fun _ _ _ => 1⟩
    let p0 : InjPos ℚ := ⟨0, 1, 0⟩
    let ops : List (InjOp ℚ) := [.exchange 0, .move 0, .exchange 1, .move 1, .move 2, .exchange 3]
    Spec.Sched 1 (-1) ops ∧ (-(1 / 4) : ℚ) < p0.zInject - p0.zEnd ∧
      (Spec.comoving (-1 / 2) 1 (InjRun.run (1 / 4) (-1 / 2) 1 pl ⟨-1, p0, []⟩ ops)).length = 22 ∧
      (InjRun.run (1 / 4) (-1 / 2) 1 pl ⟨-1, p0, []⟩ ops).created.map (·.2.length) = [0, 10, 12] := by
  refine ⟨by simp [Spec.Sched]; norm_num, by norm_num, by decide +kernel, by decide +kernel⟩

end Fbpic
