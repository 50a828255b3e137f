import Verif.Spec.PicPlasma
import Verif.Lemmas.PicOpenInv
import Verif.Lemmas.Injection

/-!
# Lemmas for C96
-/

namespace Fbpic.Pic

open Transform ExternalField Step
open Spec (OneProcess Healthy Rounds Runs Exchanges arrivals injected PlasmaEnd)

variable {c : OCfg}

/-- The injector of a species in the iterations of a run, from the position `p`, the time `t`, the iteration `it` and
the position `z` of the window on. -/
def Feeding (c : OCfg) (id : ℕ) (d v vw : ℝ) : InjPos ℝ → ℝ → ℕ → ℝ → List (ℕ × OSim) → Prop
  | _, _, _, _, [] => True
  | p, t, it, z, x :: l => x.2.sim.time = t ∧ x.2.sim.iteration = it ∧ |z - x.2.zminG| < c.dz ∧
      x.2.win.isSome ∧ x.2.inj.getD id none = some ⟨some d, v, some p⟩ ∧
      Feeding c id d v vw (incrementPos d v vw c.base.dt (if Exchanges c x then { p with nzInject := 0 } else p))
        (t + c.base.dt) (it + 1) (z + vw * c.base.dt) l

/-- The state between two iterations. -/
structure Fed (c : OCfg) (id : ℕ) (d v vw : ℝ) (p : InjPos ℝ) (t : ℝ) (it : ℕ) (z : ℝ) (S : OSim) : Prop where
  healthy : Healthy c S
  time : S.sim.time = t
  iteration : S.sim.iteration = it
  near : |z - S.zminG| < c.dz
  win : S.win = some ⟨vw, t - c.base.dt, z⟩
  inj : S.inj.getD id none = some ⟨some d, v, some p⟩
  id : id < S.sim.species.length

variable [NeZero c.base.Nz] {id : ℕ} {d v vw : ℝ}

theorem Fed.iter (hc : OneProcess c) (hG : c.comm.nGuard ≠ 0) {p : InjPos ℝ} {t z : ℝ} {it : ℕ} {S T : OSim}
    (h : Fed c id d v vw p t it z S) {o : Opts} {i : ℕ} (hi : c.iter o i S = .ok T) :
    Fed c id d v vw (incrementPos d v vw c.base.dt (if Exchanges c (i, S) then { p with nzInject := 0 } else p))
      (t + c.base.dt) (it + 1) (z + vw * c.base.dt) T := by
  have hT := C94_healthy hc o i S T h.healthy hi
  obtain ⟨t1, t2, n, -, -, t5⟩ := C94_window hc o i S T h.healthy hi
  obtain ⟨w', u1, u2, u3, u4, u5⟩ := t5 _ h.win
  dsimp only at u2 u4
  obtain ⟨U, A, B, D, W⟩ := iter_way c hc.threads o i hi
  have m := deposit_moved c o W.dep
  have e := oend c o hc.size (nziz hc) hc.dz (W.placed (nziz hc) (h.healthy.placed hc)) W.endT
  have hwD : D.win = some ⟨vw, t - c.base.dt, z⟩ := by rw [m.win, W.winB, h.win]
  have htD : D.sim.time = t := by rw [m.time, W.timeB, h.time]
  have hz : w'.zmin = z + vw * c.base.dt := by rw [u4, h.time]; ring
  -- the injector after the exchange
  have hU : U.inj.getD id none = some ⟨some d, v, some (if Exchanges c (i, S) then { p with nzInject := 0 } else p)⟩ ∧
      U.sim.species.length = S.sim.species.length := by
    by_cases hx : c.exchanges i S
    · obtain ⟨-, -, -, e4, e5, -, -⟩ := exchange_ok c (W.exch hx)
      have hx' : Exchanges c (i, S) := hx
      rw [if_pos hx', e5]
      refine ⟨?_, e4⟩
      rw [List.getD_eq_getElem?_getD, List.getElem?_eq_getElem (by simpa using h.id), Option.getD_some, List.getElem_map,
        List.getElem_range]
      unfold OCfg.injAfter
      rw [if_neg hG, h.win, h.inj]
      rfl
    · have hx' : ¬ Exchanges c (i, S) := hx
      rw [if_neg hx', W.noexch hx]
      exact ⟨h.inj, rfl⟩
  set q := if Exchanges c (i, S) then { p with nzInject := 0 } else p with hq
  have hD : D.inj.getD id none = some ⟨some d, v, some q⟩ := by rw [m.inj, W.injB]; exact hU.1
  have hl : id < D.inj.length := by
    by_contra hn
    rw [List.getD_eq_getElem?_getD, List.getElem?_eq_none (by omega)] at hD
    cases hD
  have f := e.inj.2 _ hwD
  have hl' : id < T.inj.length := by rw [← f.length_eq]; exact hl
  have f := (List.forall₂_iff_get.1 f).2 id hl hl'
  rw [List.getD_eq_getElem?_getD, List.getElem?_eq_getElem hl, Option.getD_some] at hD
  simp only [List.get_eq_getElem] at f
  rw [hD, htD] at f
  have f := Except.ok.inj f
  refine ⟨hT, by rw [t1, h.time], by rw [t2, h.iteration], by rw [← hz]; exact u5, ?_, ?_, ?_⟩
  · rw [u1, ← hz, ← u2]
    congr 1
    cases w'
    dsimp only at u3 ⊢
    rw [u3, h.time]
    congr 1
    ring
  · rw [List.getD_eq_getElem?_getD, List.getElem?_eq_getElem hl', Option.getD_some, ← f, sub_sub_cancel]
  · have h1 : T.sim.species.length = D.sim.species.length := by rw [e.species]
    have h2 : D.sim.species.length = B.sim.species.length := by rw [m.species]; simp [Cfg.shiftAll]
    have h3 : B.sim.species.length = U.sim.species.length := W.ptclB.1
    have := h.id
    omega

theorem Fed.rounds (hc : OneProcess c) (hG : c.comm.nGuard ≠ 0) {o : Opts} {i n : ℕ} {S T : OSim} {l : List (ℕ × OSim)}
    (hr : Rounds c o i n S l T) (l' : List (ℕ × OSim)) : ∀ {p : InjPos ℝ} {t z : ℝ} {it : ℕ}, Fed c id d v vw p t it z S →
    (∀ p t it z, Fed c id d v vw p t it z T → Feeding c id d v vw p t it z l') → Feeding c id d v vw p t it z (l ++ l') := by
  induction hr with
  | stop i S => exact fun h hT => hT _ _ _ _ h
  | round hi hl ih =>
    intro p t z it h hT
    exact ⟨h.time, h.iteration, h.near, by rw [h.win]; rfl, h.inj, ih (h.iter hc hG hi) hT⟩

/-- `startInj` changes nothing for a species that is already set up. -/
theorem Fed.startInj (hc : OneProcess c) {p : InjPos ℝ} {t z : ℝ} {it : ℕ} {S S1 : OSim} (h : Fed c id d v vw p t it z S)
    (h1 : c.startInj S = .ok S1) : Fed c id d v vw p t it z S1 := by
  unfold OCfg.startInj at h1
  rw [h.win] at h1
  obtain ⟨l, hl, h1⟩ := (except_bind_ok _ _ _).1 h1
  have h1 := Except.ok.inj h1
  have f := (mapM_ok _ _ _).1 hl
  have hlen : l.length = S.sim.species.length := by rw [← f.length_eq]; simp
  have hid : id < l.length := by rw [hlen]; exact h.id
  have f := (List.forall₂_iff_get.1 f).2 id (by simpa using h.id) hid
  simp only [List.get_eq_getElem, List.getElem_zipIdx, zero_add, h.inj] at f
  obtain ⟨i', e, f⟩ := (except_bind_ok _ _ _).1 f
  unfold Injector.initialize at e
  rw [if_neg (by rw [hc.size]; simp), if_pos (by rfl)] at e
  have f := Except.ok.inj f
  rw [← h1]
  refine ⟨⟨h.healthy.sized, h.healthy.regular, h.healthy.zmin, h.healthy.zmax, h.healthy.mom⟩, h.time, h.iteration, h.near, ?_, ?_, h.id⟩
  · rw [← h.win]
  · show l.getD id none = _
    rw [List.getD_eq_getElem?_getD, List.getElem?_eq_getElem hid, Option.getD_some, ← f, ← Except.ok.inj e]

theorem startFields_healthy (hc : OneProcess c) {S S1 : OSim} (hS : Healthy c S) (h1 : c.startFields S = .ok S1) : Healthy c S1 := by
  obtain ⟨st, hj⟩ := startFields_ok hc h1
  refine ⟨fun m hm => ?_, fun m hm iz hz => ?_, ?_, ?_, ?_⟩
  · have := st.grid m hm
    rw [← (hS.sized m hm).1, ← (hS.sized m hm).2, ← this]
    exact ⟨rfl, rfl⟩
  · have := hS.regular m hm iz hz
    rw [← st.grid m hm] at this
    exact this
  · rw [st.zmin, st.zminG, hS.zmin]
  · rw [st.zmin, st.zmax, hS.zmax]
  · rw [st.species]; exact hS.mom

theorem Fed.startFields (hc : OneProcess c) {p : InjPos ℝ} {t z : ℝ} {it : ℕ} {S S1 : OSim} (h : Fed c id d v vw p t it z S)
    (h1 : c.startFields S = .ok S1) : Fed c id d v vw p t it z S1 := by
  obtain ⟨st, hj⟩ := startFields_ok hc h1
  exact ⟨startFields_healthy hc h.healthy h1, st.time.trans h.time, st.iteration.trans h.iteration, by rw [st.zminG]; exact h.near,
    st.win.trans h.win, by rw [hj]; exact h.inj, by rw [st.species]; exact h.id⟩

theorem Fed.endFields {p : InjPos ℝ} {t z : ℝ} {it : ℕ} {S : OSim} (h : Fed c id d v vw p t it z S) :
    Fed c id d v vw p t it z { S with sim := c.base.endFields S.sim } :=
  ⟨⟨h.healthy.sized, h.healthy.regular, h.healthy.zmin, h.healthy.zmax, h.healthy.mom⟩, h.time, h.iteration, h.near, h.win, h.inj, h.id⟩

theorem Fed.call (hc : OneProcess c) (hG : c.comm.nGuard ≠ 0) {o : Opts} {n : ℕ} {S1 S2 S3 : OSim} {l l' : List (ℕ × OSim)}
    {p : InjPos ℝ} {t z : ℝ} {it : ℕ} (h : Fed c id d v vw p t it z S1) (h2 : c.startFields S1 = .ok S2) (h3 : Rounds c o 0 n S2 l S3)
    (h4 : ∀ p t it z, Fed c id d v vw p t it z { S3 with sim := c.base.endFields S3.sim } → Feeding c id d v vw p t it z l') :
    Feeding c id d v vw p t it z (l ++ l') :=
  (h.startFields hc h2).rounds hc hG h3 l' fun p t it z h => h4 p t it z h.endFields

theorem Fed.runs (hc : OneProcess c) (hG : c.comm.nGuard ≠ 0) {L : List (ℕ × Opts)} {S T : OSim} {l : List (ℕ × OSim)}
    (hr : Runs c L S l T) : ∀ p t it z, Fed c id d v vw p t it z S → Feeding c id d v vw p t it z l := by
  induction hr with
  | done S => exact fun _ _ _ _ _ => trivial
  | call h1 h2 h3 h4 ih => exact fun p t it z h => (h.startInj hc h1).call hc hG h2 h3 ih

/-- Every run consists of iterations. -/
theorem runs_of_calls (L : List (ℕ × Opts)) : ∀ {S T : OSim}, c.calls L S = .ok T →
    ∃ l, Runs c L S l T ∧ l.length = (L.map Prod.fst).sum := by
  have rounds : ∀ (o : Opts) (n i : ℕ) (S T : OSim), c.loop o i n S = .ok T → ∃ l, Rounds c o i n S l T ∧ l.length = n := by
    intro o n
    induction n with
    | zero =>
      intro i S T h
      have := Except.ok.inj h
      subst this
      exact ⟨[], .stop i S, rfl⟩
    | succ n ih =>
      intro i S T h
      obtain ⟨A, h1, h2⟩ := (except_bind_ok _ _ _).1 h
      obtain ⟨l, h3, h4⟩ := ih _ _ _ h2
      exact ⟨_, .round h1 h3, by simp [h4]⟩
  induction L with
  | nil =>
    intro S T h
    have := Except.ok.inj h
    subst this
    exact ⟨[], .done S, rfl⟩
  | cons x L ih =>
    obtain ⟨n, o⟩ := x
    intro S T h
    obtain ⟨A, hA, h⟩ := (except_bind_ok _ _ _).1 h
    obtain ⟨S1, h1, hA⟩ := (except_bind_ok _ _ _).1 hA
    obtain ⟨S2, h2, hA⟩ := (except_bind_ok _ _ _).1 hA
    obtain ⟨S3, h3, hA⟩ := (except_bind_ok _ _ _).1 hA
    have hA := Except.ok.inj hA
    subst hA
    obtain ⟨l, r1, r2⟩ := rounds _ _ _ _ _ h3
    obtain ⟨l', r3, r4⟩ := ih h
    exact ⟨_, .call h1 h2 r1 r3, by simp [r2, r4]⟩

/-- And conversely. -/
theorem calls_of_runs {L : List (ℕ × Opts)} {S T : OSim} {l : List (ℕ × OSim)} (h : Runs c L S l T) : c.calls L S = .ok T := by
  have rounds : ∀ {o : Opts} {n i : ℕ} {S T : OSim} {l : List (ℕ × OSim)}, Rounds c o i n S l T → c.loop o i n S = .ok T := by
    intro o n i S T l h
    induction h with
    | stop i S => rfl
    | round hi hl ih => exact (except_bind_ok _ _ _).2 ⟨_, hi, ih⟩
  induction h with
  | done S => rfl
  | call h1 h2 h3 h4 ih =>
    exact (except_bind_ok _ _ _).2 ⟨_, (except_bind_ok _ _ _).2 ⟨_, h1, (except_bind_ok _ _ _).2 ⟨_, h2, (except_bind_ok _ _ _).2 ⟨_, rounds h3, rfl⟩⟩⟩, ih⟩

/-! ### The layers -/

omit [NeZero c.base.Nz] in
theorem increment_between {d vE vW dur : ℝ} (hd : 0 < d) (hv : vE ≤ vW) (hdur : 0 ≤ dur) (p : InjPos ℝ) (hx : -d < p.zInject - p.zEnd) :
    ∃ k : ℕ, (incrementPos d vE vW dur p).nzInject = p.nzInject + k ∧
      (incrementPos d vE vW dur p).zEnd = p.zEnd + vE * dur + k * d ∧
      (incrementPos d vE vW dur p).zInject = p.zInject + vW * dur ∧
      |(incrementPos d vE vW dur p).zInject - (incrementPos d vE vW dur p).zEnd| < d := by
  set x := (p.zInject + vW * dur - (p.zEnd + vE * dur)) / d with hxd
  have hnn : 0 ≤ pyInt x := by
    have h1 : -1 < x := by
      rw [hxd, lt_div_iff₀ hd]
      nlinarith [mul_nonneg (sub_nonneg.mpr hv) hdur]
    by_cases h0 : 0 ≤ x
    · exact pyInt_nonneg h0
    · rw [pyInt_of_neg (not_le.mp h0)]
      have := (Int.lt_ceil (a := x) (z := -1)).mpr (by push_cast; exact h1)
      omega
  obtain ⟨k, hk⟩ := Int.eq_ofNat_of_zero_le hnn
  refine ⟨k, ?_, ?_, rfl, ?_⟩
  · show p.nzInject + pyInt x = _
    rw [hk]
  · show p.zEnd + vE * dur + (pyInt x : ℝ) * d = _
    rw [hk]
    push_cast
    rfl
  · have h := abs_sub_pyInt_lt x
    have e : (incrementPos d vE vW dur p).zInject - (incrementPos d vE vW dur p).zEnd = (x - (pyInt x : ℝ)) * d := by
      simp only [incrementPos, ← hxd]
      rw [sub_mul, hxd]
      field_simp
      ring
    rw [e, abs_mul, abs_of_pos hd]
    calc _ < 1 * d := mul_lt_mul_of_pos_right h hd
      _ = d := one_mul d

/-- The layers of an exchange continue the plasma. -/
theorem layers_continue (pl : InjPlasma ℝ) {d v t a : ℝ} {p : InjPos ℝ} {N P : ℕ} (hP : p.nzInject = P)
    (ha : a + ((N : ℝ) + P) * d = p.zEnd - v * t) :
    Spec.plasma pl d (N + P) a = Spec.plasma pl d N a ++
      (generateParticles d v pl t p).1.map (fun q => { q with z := q.z - v * t }) := by
  have h := generateParticles_eq d v pl t p P hP
  have e : p.zEnd - (P : ℝ) * d - v * t = a + (N : ℝ) * d := by linarith
  rw [e] at h
  rw [Spec.plasma, Spec.plasma, plasmaMesh_add, List.filter_append, ← h]
  rfl

/-- The whole history: `M k` is the number of layers after `k` iterations. -/
theorem feeding_layers (hd : 0 < d) (hv : v ≤ vw) (hdt : 0 ≤ c.base.dt) (hP : 1 ≤ c.comm.exchangePeriod) (a Z : ℝ)
    (l : List (ℕ × OSim)) : ∀ (p : InjPos ℝ) (t : ℝ) (it : ℕ) (z : ℝ) (N P : ℕ) (moved : Prop) (age : Option ℕ),
    Feeding c id d v vw p t it z l → p.nzInject = P → -d < p.zInject - p.zEnd → a + ((N : ℝ) + P) * d = p.zEnd - v * t →
    p.zInject = z + Z → (moved → p.zInject - p.zEnd < d) →
    (∀ m, age = some m → moved ∧ ((m : ℤ) ≤ it % c.comm.exchangePeriod ∨ ((it : ℤ) % c.comm.exchangePeriod = 0 ∧ (m : ℤ) ≤ c.comm.exchangePeriod)) ∧
      p.zInject - d - m * (c.base.dt * (vw - v)) < a + N * d + v * t) →
    ∃ M : ℕ → ℕ, M 0 = N ∧
      (∀ k, Spec.plasma (c.plasma id) d (M k) a = Spec.plasma (c.plasma id) d N a ++ arrivals c id v (l.take k)) ∧
      (∀ k x, l[k]? = some x → a + M (k + 1) * d + v * x.2.sim.time < x.2.zminG + Z + c.dz + d) ∧
      (∀ k x, l[k]? = some x → (age.isSome ∨ ∃ j y, j ≤ k ∧ l[j]? = some y ∧ Exchanges c y ∧ (moved ∨ 0 < j)) →
        x.2.zminG + Z - c.dz - d - (c.comm.exchangePeriod - 1) * (c.base.dt * (vw - v)) < a + M (k + 1) * d + v * x.2.sim.time) ∧
      (∀ k, (∀ j y, j < k → l[j]? = some y → Exchanges c y → j = 0 ∧ P = 0) → M k = N) := by
  induction l with
  | nil =>
    intro p t it z N P moved age _ hP0 hx ha hz hmv hage
    exact ⟨fun _ => N, rfl, fun k => by simp [arrivals], fun k x h => by simp at h, fun k x h => by simp at h, fun _ _ => rfl⟩
  | cons x l ih =>
    intro p t it z N P moved age hf hP0 hx ha hz hmv hage
    obtain ⟨f1, f2, f3, f4, f5, f6⟩ := hf
    have hwin : ∃ w, x.2.win = some w := Option.isSome_iff_exists.1 f4
    obtain ⟨w, hw⟩ := hwin
    have hs : 0 ≤ c.base.dt * (vw - v) := mul_nonneg hdt (by linarith)
    obtain ⟨z1, z2⟩ := abs_lt.1 f3
    have hinj : injected c x.2 id = (generateParticles d v (c.plasma id) x.2.sim.time p).1 := by
      unfold injected
      rw [hw, f5]
    -- after the exchange
    obtain ⟨N1, P1, hq, ha1, hN1, hpl, hN2⟩ : ∃ N1 P1 : ℕ, (if Exchanges c x then { p with nzInject := 0 } else p).nzInject = P1 ∧
        a + ((N1 : ℝ) + P1) * d = p.zEnd - v * t ∧ N ≤ N1 ∧
        Spec.plasma (c.plasma id) d N1 a = Spec.plasma (c.plasma id) d N a ++ arrivals c id v [x] ∧
        (Exchanges c x → P1 = 0) ∧ (P = 0 → N1 = N) ∧ (¬ Exchanges c x → P1 = P ∧ N1 = N) := by
      by_cases he : Exchanges c x
      · refine ⟨N + P, 0, by rw [if_pos he]; rfl, by push_cast; linarith, by omega, ?_, fun _ => rfl, fun h => by omega, fun h => absurd he h⟩
        rw [layers_continue (c.plasma id) (v := v) (t := t) hP0 ha]
        simp only [arrivals, List.flatMap_cons, List.flatMap_nil, List.append_nil, if_pos he, hinj, f1]
      · refine ⟨N, P, by rw [if_neg he]; exact hP0, ha, le_rfl, ?_, fun h => absurd h he, fun _ => rfl, fun _ => ⟨rfl, rfl⟩⟩
        simp [arrivals, if_neg he]
    obtain ⟨hN2, hN3, hN4⟩ := hN2
    set q := if Exchanges c x then { p with nzInject := 0 } else p with hqd
    have q1 : q.zInject = p.zInject := by rw [hqd]; split_ifs <;> rfl
    have q2 : q.zEnd = p.zEnd := by rw [hqd]; split_ifs <;> rfl
    obtain ⟨k, k1, k2, k3, k4⟩ := increment_between hd hv hdt q (by rw [q1, q2]; exact hx)
    obtain ⟨k5, k6⟩ := abs_lt.1 k4
    -- the age in this iteration
    obtain ⟨age1, hage1, hage2⟩ : ∃ age1 : Option ℕ, (∀ m, age1 = some m → (m : ℤ) ≤ it % c.comm.exchangePeriod ∧
        p.zInject - d - m * (c.base.dt * (vw - v)) < a + N1 * d + v * t) ∧ (age.isSome ∨ (Exchanges c x ∧ moved) → age1.isSome) := by
      by_cases he : Exchanges c x
      · by_cases hm : moved
        · refine ⟨some 0, fun m hm' => ?_, fun _ => rfl⟩
          obtain rfl := Option.some.inj hm'
          refine ⟨by simpa using Int.emod_nonneg _ (by omega), ?_⟩
          have := hmv hm
          have h0 := hN2 he
          rw [h0] at ha1
          push_cast at ha1 ⊢
          linarith
        · refine ⟨none, fun m h => (by cases h), fun h => ?_⟩
          rcases h with h | h
          · obtain ⟨m, hm'⟩ := Option.isSome_iff_exists.1 h
            exact absurd (hage m hm').1 hm
          · exact absurd h.2 hm
      · refine ⟨age, fun m hm => ?_, fun h => h.resolve_right fun h => he h.1⟩
        obtain ⟨-, h2, h3⟩ := hage m hm
        have hne : ¬ (it : ℤ) % c.comm.exchangePeriod = 0 := fun h => he (Or.inl (by rw [f2]; exact h))
        refine ⟨h2.resolve_right fun h => hne h.1, ?_⟩
        rw [(hN4 he).2]
        exact h3
    have hmod := Int.emod_lt_of_pos (it : ℤ) (by omega : 0 < c.comm.exchangePeriod)
    have hmod0 := Int.emod_nonneg (it : ℤ) (by omega : c.comm.exchangePeriod ≠ 0)
    obtain ⟨M, m0, m1, m2, m3, m4⟩ := ih _ _ _ _ N1 (P1 + k) True (age1.map (· + 1)) f6 (by rw [k1, hq]; push_cast; rfl) (by linarith)
      (by rw [k2, q2]; push_cast; linarith) (by rw [k3, q1]; linarith) (fun _ => k6) (fun m hm => by
        obtain ⟨m', hm', rfl⟩ := Option.map_eq_some_iff.1 hm
        obtain ⟨g1, g2⟩ := hage1 m' hm'
        refine ⟨trivial, ?_, ?_⟩
        · by_cases h : (it : ℤ) % c.comm.exchangePeriod + 1 = c.comm.exchangePeriod
          · right
            have : ((it + 1 : ℕ) : ℤ) % c.comm.exchangePeriod = 0 := by
              push_cast
              rw [Int.add_emod, ← Int.emod_emod_of_dvd (it : ℤ) (dvd_refl c.comm.exchangePeriod)]
              rw [Int.emod_emod_of_dvd _ (dvd_refl _), ← Int.add_emod, Int.add_emod_eq_add_emod_right 1 (Int.emod_emod_of_dvd _ (dvd_refl _)).symm, h, Int.emod_self]
            refine ⟨this, ?_⟩
            push_cast
            omega
          · left
            have : ((it + 1 : ℕ) : ℤ) % c.comm.exchangePeriod = (it : ℤ) % c.comm.exchangePeriod + 1 := by
              push_cast
              rw [Int.add_emod_eq_add_emod_right 1 (Int.emod_emod_of_dvd _ (dvd_refl c.comm.exchangePeriod)).symm]
              exact Int.emod_eq_of_lt (by omega) (by omega)
            rw [this]
            push_cast
            omega
        · rw [k3, q1]
          push_cast
          linarith)
    refine ⟨fun k => if k = 0 then N else M (k - 1), rfl, fun k => ?_, fun k y hy => ?_, fun k y hy hh => ?_, fun k hno => ?_⟩
    · rcases k with _ | k
      · simp [arrivals]
      · simp only [Nat.add_one_ne_zero, if_false, Nat.add_sub_cancel, List.take_succ_cons]
        rw [m1, hpl, List.append_assoc]
        congr 1
        simp [arrivals]
    · rcases k with _ | k
      · obtain rfl : x = y := by simpa using hy
        simp only [zero_add, Nat.one_ne_zero, if_false, Nat.sub_self, m0, f1]
        have : (0 : ℝ) ≤ P1 * d := by positivity
        linarith
      · have := m2 k y (by simpa using hy)
        simpa using this
    · rcases k with _ | k
      · obtain rfl : x = y := by simpa using hy
        simp only [zero_add, Nat.one_ne_zero, if_false, Nat.sub_self, m0, f1]
        have hs1 : age1.isSome := by
          apply hage2
          rcases hh with hh | ⟨j, y, hj, hy, he, hm⟩
          · exact Or.inl hh
          · obtain rfl : j = 0 := by omega
            obtain rfl : x = y := by simpa using hy
            exact Or.inr ⟨he, hm.resolve_right (by omega)⟩
        obtain ⟨m, hm⟩ := Option.isSome_iff_exists.1 hs1
        obtain ⟨g1, g2⟩ := hage1 m hm
        have : (m : ℝ) ≤ c.comm.exchangePeriod - 1 := by
          have : (m : ℤ) ≤ c.comm.exchangePeriod - 1 := by omega
          exact_mod_cast this
        have := mul_le_mul_of_nonneg_right this hs
        linarith
      · have := m3 k y (by simpa using hy) ?_
        · simpa using this
        · rcases hh with hh | ⟨j, y, hj, hy, he, hm⟩
          · left
            have := hage2 (Or.inl hh)
            simpa using this
          · rcases j with _ | j
            · obtain rfl : x = y := by simpa using hy
              left
              have := hage2 (Or.inr ⟨he, hm.resolve_right (by omega)⟩)
              simpa using this
            · exact Or.inr ⟨j, y, by omega, by simpa using hy, he, Or.inl trivial⟩
    · rcases k with _ | k
      · rfl
      · simp only [Nat.add_one_ne_zero, if_false, Nat.add_sub_cancel]
        rw [m4 k fun j y hj hy he => absurd (hno (j + 1) y (by omega) (by simpa using hy) he).1 (by omega)]
        by_cases he : Exchanges c x
        · exact hN3 (hno 0 x (by omega) rfl he).2
        · exact (hN4 he).2

end Fbpic.Pic
