import Verif.Lemmas.PicRestStep
import Verif.Props.PicOpenTotal
import Verif.Lemmas.Ranks
import Verif.Props.PicPlasma

/-!
# Lemmas: the charge density that is kept when the window moves; runs of a plasma at rest
-/

namespace Fbpic.Pic

open Transform ExternalField Step
open Spec (noField NoFields Motionless AllAtRest Stands Paired LeapFrom ChargeOf CurrentOf Density
  scalHat vecHat vecBack scalBack charges earlier back velocity smoothing MovedScal MovedHat rowAfter movedVec movedArr OnGrid V3 EM
  Sources PlusGradient PlusGradients grad div IsMaxwell hankel Entered OneProcess Healthy Started Exchanged Rounds Runs Exchanges
  injected NewOf InTheBox Wrapped OldOrNew)

variable {c : OCfg} [NeZero c.base.Nz]

omit [NeZero c.base.Nz] in
/-- The same particles on a grid that has moved by `n` cells. -/
theorem deposit_rows (hs : c.Fit) (hN : 2 ≤ c.base.Nz) {zmin : ℝ} {n : ℤ} {f : DepField} {m : ℕ} {sps : List DepSpecies} {A A' : Buf}
    (h : depositAll f c.base.k.c (c.base.grid zmin) c.base.beta m c.base.nthreads sps = .ok A)
    (h' : depositAll f c.base.k.c (c.base.grid (zmin + n * c.dz)) c.base.beta m c.base.nthreads sps = .ok A')
    (hb : ∀ sp ∈ sps, ∀ p ∈ sp.ptcls, (zmin ≤ p.z ∧ p.z ≤ zmin + c.base.Nz * c.dz) ∧
      zmin + n * c.dz ≤ p.z ∧ p.z ≤ zmin + n * c.dz + c.base.Nz * c.dz) :
    ∀ iz < c.base.Nz, ∀ ir < c.base.Nr, A' iz ir = A (rowAfter c.base.Nz n iz) ir := by
  have hdz := hs.one.dz
  have einv : c.base.invdz = 1 / c.dz := by rw [eq_div_iff hdz.ne']; exact hs.invdz
  let S : Ranks.Setup := ⟨zmin, c.dz, c.base.invdr, c.base.Nr, c.base.Nm, c.base.k.c, c.base.nthreads, c.base.rmaxGather, c.base.beta, c.base.vol⟩
  have g0 : S.at 0 c.base.Nz = c.base.grid zmin := by
    unfold Ranks.Setup.at Cfg.grid
    rw [einv]
    simp [S]
  have g1 : S.at n c.base.Nz = c.base.grid (zmin + n * c.dz) := by
    unfold Ranks.Setup.at Cfg.grid
    rw [einv]
  rw [← g0] at h
  rw [← g1] at h'
  intro iz hz ir hr
  have hN0 : 0 < c.base.Nz := by omega
  have hrow : rowAfter c.base.Nz n iz < c.base.Nz := by
    unfold rowAfter
    have := Int.emod_lt_of_pos ((iz : ℤ) + n) (by exact_mod_cast hN0 : (0 : ℤ) < c.base.Nz)
    have := Int.emod_nonneg ((iz : ℤ) + n) (by exact_mod_cast hN0.ne' : (c.base.Nz : ℤ) ≠ 0)
    omega
  have hrowm : ((rowAfter c.base.Nz n iz : ℕ) : ℤ) ≡ iz + n [ZMOD c.base.Nz] := by
    unfold rowAfter
    have := Int.emod_nonneg ((iz : ℤ) + n) (by exact_mod_cast hN0.ne' : (c.base.Nz : ℤ) ≠ 0)
    rw [Int.toNat_of_nonneg this]
    exact Int.mod_modEq _ _
  rw [Ranks.deposit_value (S := S) hdz hs.one.threads hs.Nr hN h' hz hr, Ranks.deposit_value (S := S) hdz hs.one.threads hs.Nr hN h hrow hr]
  refine Ranks.allVal_congr fun sp hsp _ p hp k hk => ?_
  obtain ⟨b1, b2⟩ := Ranks.writes_bounds hk
  obtain ⟨⟨c1, c2⟩, c3, c4⟩ := hb sp hsp p hp
  have ez : S.g0.zCell p.z = (p.z - zmin) / c.dz - 1 / 2 := by
    unfold Ranks.Setup.g0 CylGrid.zCell
    simp only [S]
    field_simp
  have u1 : 0 ≤ (p.z - zmin) / c.dz := div_nonneg (by linarith) hdz.le
  have u2 : (p.z - zmin) / c.dz ≤ c.base.Nz := by rw [div_le_iff₀ hdz]; linarith
  have u3 : n ≤ (p.z - zmin) / c.dz := by rw [le_div_iff₀ hdz]; linarith
  have u4 : (p.z - zmin) / c.dz ≤ n + c.base.Nz := by rw [div_le_iff₀ hdz]; linarith
  have v1 : 0 ≤ ⌈S.g0.zCell p.z⌉ := by
    have : -1 < ⌈S.g0.zCell p.z⌉ := by rw [Int.lt_ceil, ez]; push_cast; linarith
    omega
  have v2 : ⌈S.g0.zCell p.z⌉ ≤ c.base.Nz := by rw [Int.ceil_le, ez]; push_cast; linarith
  have v3 : n ≤ ⌈S.g0.zCell p.z⌉ := by
    have : n - 1 < ⌈S.g0.zCell p.z⌉ := by rw [Int.lt_ceil, ez]; push_cast; linarith
    omega
  have v4 : ⌈S.g0.zCell p.z⌉ ≤ n + c.base.Nz := by rw [Int.ceil_le, ez]; push_cast; linarith
  have hh : sp.shape.half ≤ 2 := by cases sp.shape <;> simp [Shape.half]
  have e1 : foldRow c.base.Nz (wrapIdx (c.base.Nz + 4) (k + 2 - n)) = iz ↔
      foldRow c.base.Nz (wrapIdx (c.base.Nz + 4) (k + 2 - 0)) = rowAfter c.base.Nz n iz := by
    rw [show k + 2 - n = (k - n) + 2 by ring, show k + 2 - 0 = k + 2 by ring,
      Ranks.foldRow_same hN (by omega) (by omega) hz, Ranks.foldRow_same hN (by omega) (by omega) hrow]
    constructor
    · intro hm
      have := hm.add_right n
      rw [sub_add_cancel] at this
      exact this.trans hrowm.symm
    · intro hm
      have := (hm.trans hrowm).sub_right n
      rwa [add_sub_cancel_right] at this
  simp only [e1]

theorem shiftArr_phase (n : ℤ) : ∃ φ : ℕ → ℂ, ∀ (a : Buf), ∀ iz < c.base.Nz, ∀ ir < c.base.Nr, c.shiftArr n a iz ir = φ iz * a iz ir := by
  refine ⟨fun iz => shiftSpectArray c.base.Nz (fieldShift c.base.Nz c.dz) n (fun _ => 1) (iz : ZMod c.base.Nz), fun a iz hz ir hr => ?_⟩
  unfold OCfg.shiftArr
  rw [if_pos ⟨hz, hr⟩]
  unfold shiftSpectArray
  dsimp only
  rw [ZMod.val_natCast, Nat.mod_eq_of_lt hz]
  ring

/-- The charge density of the same particles on a grid that has moved. -/
theorem charge_moved (hs : c.Fit) (hN : 2 ≤ c.base.Nz) {s s' : Sim} {n : ℤ} (hd : s'.depositing = s.depositing)
    (hz : s'.zmin = s.zmin + n * c.dz)
    (hb : ∀ sp ∈ s.depositing, ∀ p ∈ sp.ptcls, (s.zmin ≤ p.z ∧ p.z ≤ s.zmin + c.base.Nz * c.dz) ∧
      s.zmin + n * c.dz ≤ p.z ∧ p.z ≤ s.zmin + n * c.dz + c.base.Nz * c.dz)
    {rho rho' : ℕ → ℕ → ℕ → ℂ} (h : ChargeOf c.base s rho) (h' : ChargeOf c.base s' rho') :
    ∀ m < c.base.Nm, MovedScal c.base.Nz c.base.Nr n (fun _ => 1) (rho m) (rho' m) := by
  intro m hm
  have hdz := hs.one.dz
  obtain ⟨a, ⟨A, hA, ha⟩, e⟩ := h m hm
  obtain ⟨a', ⟨A', hA', ha'⟩, e'⟩ := h' m hm
  rw [hd, hz] at hA'
  have rows := deposit_rows hs hN hA hA' hb
  obtain ⟨φ, hφ⟩ := shiftArr_phase (c := c) n
  have hf : ∀ iz < c.base.Nz, ∀ l < c.base.Nr, fftAxis0 c.base.Nz false a' iz l = φ iz * fftAxis0 c.base.Nz false a iz l := by
    intro iz hiz l hl
    rw [← hφ _ iz hiz l hl, ← (fftAxis0_inv c.base.Nz (c.shiftArr n (fftAxis0 c.base.Nz false a)) iz l hiz).2]
    refine fft_col false (fun i hi => ?_) iz
    rw [shiftArr_ifft c hdz.ne' n _ hl, (fftAxis0_inv c.base.Nz a _ l (rowAfter_lt _ n i)).1, ha, ha', rows i hi l hl]
  refine moved_scal c hdz.ne' (b := rho' m) (fun iz hiz ir hir => ?_) (moved_one c fun _ _ _ _ => rfl)
  rw [hφ _ iz hiz ir hir, e iz hiz ir hir, e' iz hiz ir hir]
  have : scalHat c.base m a' iz ir = φ iz * scalHat c.base m a iz ir := by
    unfold scalHat hankel
    rw [Finset.mul_sum]
    refine Finset.sum_congr rfl fun l hl => ?_
    rw [hf iz hiz l (Finset.mem_range.1 hl)]
    ring
  rw [this]
  ring

/-! ### Where the particles come from -/

theorem stands_trans {p q r : Ptcl} (h : Stands p q) (h' : Stands q r) : Stands p r :=
  ⟨h'.x.trans h.x, h'.y.trans h.y, h'.z.trans h.z, h'.w.trans h.w, h'.level.trans h.level, h'.mom⟩

theorem newOf_stands {x : NewPtcl ℝ} {p q : Ptcl} (h : NewOf x p) (h' : Stands p q) : NewOf x q :=
  ⟨h'.z.trans h.z, h'.w.trans h.w, by rw [h'.x, h'.y]; exact h.r⟩

omit [NeZero c.base.Nz] in
theorem oldOrNew_trans {l l' : List (ℕ × OSim)} {S T U : OSim} (h : OldOrNew c l S T) (h' : OldOrNew c l' T U) : OldOrNew c (l ++ l') S U := by
  intro id sp' hsp' p' hp'
  rcases h' id sp' hsp' p' hp' with ⟨sp, hsp, p, hp, st⟩ | ⟨y, hy, e, x, hx, hn⟩
  · rcases h id sp hsp p hp with ⟨sp0, hsp0, p0, hp0, st0⟩ | ⟨y, hy, e, x, hx, hn⟩
    · exact Or.inl ⟨sp0, hsp0, p0, hp0, stands_trans st0 st⟩
    · exact Or.inr ⟨y, List.mem_append_left _ hy, e, x, hx, newOf_stands hn st⟩
  · exact Or.inr ⟨y, List.mem_append_right _ hy, e, x, hx, hn⟩

omit [NeZero c.base.Nz] in
theorem born_of_eq {S T : OSim} (h : T.sim.species = S.sim.species) (hr : AllAtRest S.sim) : OldOrNew c [] S T := by
  intro id sp hsp p hp
  rw [h] at hsp
  exact Or.inl ⟨sp, hsp, p, hp, rfl, rfl, rfl, rfl, rfl, hr sp (List.mem_of_getElem? hsp) p hp⟩

omit [NeZero c.base.Nz] in
theorem born_iter (hg : c.comm.nGuard ≠ 0) {i : ℕ} {S T : OSim} {u : Sim} (h : Entered c i S u)
    (hp : Paired (fun _ _ p p' => Stands p p') u T.sim) : OldOrNew c [(i, S)] S T := by
  intro id sp' hsp' p' hp'
  have hid : id < T.sim.species.length := (List.getElem?_eq_some_iff.1 hsp').1
  have hid1 : id < u.species.length := by rw [← hp.count]; exact hid
  have hid2 : id < S.sim.species.length := by rw [← h.count]; exact hid1
  have g1 := List.getElem?_eq_getElem hid1
  have g2 := List.getElem?_eq_getElem hid2
  obtain ⟨j, hj, k2⟩ := List.getElem_of_mem hp'
  have hl := (hp.same id _ _ g1 hsp').2
  have hj' : j < u.species[id].ptcl.length := by rw [← hl]; exact hj
  have st := hp.ptcl id _ _ g1 hsp' j _ _ (List.getElem?_eq_getElem hj') (by rw [List.getElem?_eq_getElem hj, k2])
  have mem : u.species[id].ptcl[j] ∈ u.species[id].ptcl := List.getElem_mem hj'
  generalize u.species[id].ptcl[j] = q at st mem
  obtain ⟨-, e1, e2⟩ := h.species id _ _ g2 g1
  by_cases hx : Exchanges c (i, S)
  · obtain ⟨new, e, f⟩ := (e1 hx).opened hg
    rw [e] at mem
    rcases List.mem_append.1 mem with mem | mem
    · exact Or.inl ⟨_, g2, q, List.mem_of_mem_filter mem, st⟩
    · obtain ⟨a, ha, e3⟩ := List.getElem_of_mem mem
      have ha' : a < (injected c S id).length := by rw [f.length_eq]; exact ha
      have := (List.forall₂_iff_get.1 f).2 a ha' ha
      simp only [List.get_eq_getElem, e3] at this
      exact Or.inr ⟨(i, S), List.mem_singleton.2 rfl, hx, _, List.getElem_mem ha', newOf_stands this st⟩
  · rw [e2 hx] at mem
    exact Or.inl ⟨_, g2, q, mem, st⟩

/-! ### A run -/

omit [NeZero c.base.Nz] in
theorem OCfg.Inv.inside (hs : c.Fit) {k : ℕ} {S : OSim} (b : c.Inv k S) (w : c.Within (c.lo k S) (c.hi k S) S) :
    ∀ sp ∈ S.sim.species, ∀ p ∈ sp.ptcl, S.sim.zmin ≤ p.push.z ∧ p.push.z ≤ S.sim.zmax := by
  have hk' : (k : ℝ) ≤ c.comm.exchangePeriod := by exact_mod_cast b.k_le hs
  have hcd : 0 < c.base.k.c * c.base.dt := mul_pos hs.cpos hs.dt
  have hg := hs.guard
  have hdz := hs.one.dz
  have hg2 : (k : ℝ) * (2 * (c.base.k.c * c.base.dt)) ≤ ((c.comm.nGuard : ℝ) / 2 - 3) * c.dz :=
    (mul_le_mul_of_nonneg_right hk' (by linarith)).trans hg
  obtain ⟨r1, r2⟩ := abs_le.1 (b.ref hs)
  have lo : S.sim.zmin ≤ c.lo k S := by
    rw [b.healthy.zmin]
    unfold OCfg.lo
    nlinarith
  have hi : c.hi k S ≤ S.sim.zmax := by
    rw [b.healthy.zmax, b.healthy.zmin, hs.one.cells]
    unfold OCfg.hi
    push_cast
    nlinarith
  exact fun sp hsp p hp => ⟨lo.trans (w.ptcl sp hsp p hp).2.1, (w.ptcl sp hsp p hp).2.2.trans hi⟩

/-- What is assumed of the configuration. -/
structure OCfg.Calm (c : OCfg) : Prop where
  frame : c.base.V = none
  ext : c.base.ext = []
  fill : ∀ id t n x, Motionless (c.fill id t n x).2.1

theorem rest_step (hs : c.Fit) (hq : c.Calm) (o : Opts) (h1 : o.useTrueRho = false) (h2 : o.correctDivE = false)
    (i : ℕ) {k : ℕ} {S : OSim} (h : c.Inv k S) (hx : ¬ c.exchanges i S → c.Within (c.lo k S) (c.hi k S) S) (r : c.Resting S)
    (hk : ¬ c.exchanges i S → c.RhoKept S) :
    ∃ T k', c.iter o i S = .ok T ∧ c.Inv k' T ∧ c.Within (c.lo k' T) (c.hi k' T) T ∧ c.Resting T ∧ c.RhoKept T ∧ OldOrNew c [(i, S)] S T := by
  obtain ⟨T, k', e, hT, wT⟩ := iter_total hs o (fun h => by rw [h2] at h; cases h) i h hx
  obtain ⟨rT, ⟨u, en, pr⟩, n, rho, hz, -, hch, hmv⟩ := rest_iter hs.one hq.frame hq.ext hq.fill o h1 h2 i h.healthy e r hk
  have hg : c.comm.nGuard ≠ 0 := by have := hs.nGuard; omega
  have hN : 2 ≤ c.base.Nz := by have := hs.nGuard; have := hs.one.cells; omega
  refine ⟨T, k', e, hT, wT, rT, ?_, born_iter hg en pr⟩
  -- the particles are on the grid of the beginning
  have inT := hT.inside hs wT
  have hcd : 0 < c.base.k.c * c.base.dt := mul_pos hs.cpos hs.dt
  obtain ⟨g1, g2⟩ := h.margin hs (h.since_lt hs i)
  have inS : ∀ sp ∈ T.sim.species, ∀ p ∈ sp.ptcl, S.sim.zmin ≤ p.push.z ∧ p.push.z ≤ S.sim.zmax := by
    intro sp hsp p hp
    obtain ⟨U, A, B, D, w⟩ := iter_way c hs.one.threads o i e
    have wU : c.Within (c.lo (c.since i k S) S) (c.hi (c.since i k S) S) U := by
      unfold OCfg.since
      by_cases hxx : c.exchanges i S
      · rw [if_pos hxx]
        obtain ⟨U', eU, wU, -⟩ := exchange_total hs h
        rw [Except.ok.inj ((w.exch hxx).symm.trans eU)]
        exact wU
      · rw [if_neg hxx, w.noexch hxx]
        exact hx hxx
    have leap := (w.ptcl hs.one.size (nziz hs.one) hs.one.dz (h.healthy.placed hs.one)).1
    have sound := w.soundU hs.one.fill h.healthy.mom
    have restU : AllAtRest U.sim := by
      by_cases hxx : c.exchanges i S
      · exact exchange_rest hq.fill r.ptcl (w.exch hxx)
      · rw [w.noexch hxx]; exact r.ptcl
    obtain ⟨id, hid, e2⟩ := List.getElem_of_mem hsp
    obtain ⟨j, hj, k2⟩ := List.getElem_of_mem hp
    have hid' : id < U.sim.species.length := by rw [← leap.count]; exact hid
    have g1' := List.getElem?_eq_getElem hid'
    have g2' : T.sim.species[id]? = some sp := by rw [List.getElem?_eq_getElem hid, e2]
    have hl := (leap.same id _ _ g1' g2').2
    have hj' : j < U.sim.species[id].ptcl.length := by rw [← hl]; exact hj
    have m1 : U.sim.species[id] ∈ U.sim.species := List.getElem_mem hid'
    have m2 : U.sim.species[id].ptcl[j] ∈ U.sim.species[id].ptcl := List.getElem_mem hj'
    have st := leap_rest hq.ext (fun m hm => (r.fields m hm).1) (fun m hm => (r.fields m hm).2) (restU _ m1 _ m2)
      (leap.ptcl id _ _ g1' g2' j _ _ (List.getElem?_eq_getElem hj') (by rw [List.getElem?_eq_getElem hj, k2]) (sound _ m1 _ m2))
    rw [st.z]
    have b := wU.ptcl _ m1 _ m2
    exact ⟨by linarith [b.2.1], by linarith [b.2.2]⟩
  intro rho' h' m hm iz hiz ir hir
  have zm : T.sim.zmin = (T.sim.zmin - n * c.dz) + n * c.dz := by ring
  have zS : T.sim.zmin - n * c.dz = S.sim.zmin := by rw [hT.healthy.zmin, h.healthy.zmin, hz]; ring
  have := charge_moved hs hN (s := { T.sim with zmin := T.sim.zmin - n * c.dz }) (s' := T.sim) rfl zm (by
    intro d hd p hp
    have hd' : d ∈ T.sim.depositing := hd
    unfold Sim.depositing at hd'
    obtain ⟨sp, hsp, rfl⟩ := List.mem_map.1 hd'
    obtain ⟨q, hq, rfl⟩ := List.mem_map.1 hp
    have a := inS sp (List.mem_of_mem_filter hsp) q hq
    have b := inT sp (List.mem_of_mem_filter hsp) q hq
    show (T.sim.zmin - n * c.dz ≤ q.push.z ∧ q.push.z ≤ T.sim.zmin - n * c.dz + c.base.Nz * c.dz) ∧
      T.sim.zmin - n * c.dz + n * c.dz ≤ q.push.z ∧ q.push.z ≤ T.sim.zmin - n * c.dz + n * c.dz + c.base.Nz * c.dz
    rw [← zm, zS, ← hT.healthy.zmax, ← h.healthy.zmax]
    exact ⟨a, b⟩) hch h' m hm
  exact moved_unique this (hmv m hm) hir (fun _ _ => rfl) iz hiz

theorem rest_rounds (hs : c.Fit) (hq : c.Calm) (o : Opts) (h1 : o.useTrueRho = false) (h2 : o.correctDivE = false) :
    ∀ (n i : ℕ) (k : ℕ) (S : OSim), c.Inv k S → (¬ c.exchanges i S → c.Within (c.lo k S) (c.hi k S) S) → c.Resting S →
      (¬ c.exchanges i S → c.RhoKept S) →
      ∃ T k' l, Rounds c o i n S l T ∧ c.Inv k' T ∧ c.Resting T ∧ (∀ y ∈ l, c.Resting y.2) ∧ OldOrNew c l S T := by
  intro n
  induction n with
  | zero =>
    intro i k S h _ r _
    exact ⟨S, k, [], .stop i S, h, r, fun y hy => (List.not_mem_nil hy).elim, born_of_eq rfl r.ptcl⟩
  | succ n ih =>
    intro i k S h hx r hk
    obtain ⟨T, k', e, hT, wT, rT, kT, b⟩ := rest_step hs hq o h1 h2 i h hx r hk
    obtain ⟨U, k2, l, hl, hU, rU, al, bl⟩ := ih (i + 1) k' T hT (fun _ => wT) rT (fun _ => kT)
    refine ⟨U, k2, (i, S) :: l, .round e hl, hU, rU, fun y hy => ?_, oldOrNew_trans b bl⟩
    rcases List.mem_cons.1 hy with rfl | hy
    · exact r
    · exact al y hy

theorem vecHat_rest (m : ℕ) {F : GridVec} (h : OnGrid c.base F noField) {iz ir : ℕ} (hz : iz < c.base.Nz) :
    vecHat c.base m F iz ir = ⟨0, 0, 0⟩ := by
  have f : ∀ a : Buf, (∀ iz < c.base.Nz, ∀ ir < c.base.Nr, a iz ir = 0) → ∀ ir < c.base.Nr, fftAxis0 c.base.Nz false a iz ir = 0 := by
    intro a ha ir hr
    rw [fft_col false (a := fun _ _ => 0) (fun i hi => ha i hi ir hr), fft_rest]
  have hr : ∀ iz < c.base.Nz, ∀ ir < c.base.Nr, F.r iz ir = 0 := h.r
  have ht : ∀ iz < c.base.Nz, ∀ ir < c.base.Nr, F.t iz ir = 0 := h.t
  have hz' : ∀ iz < c.base.Nz, ∀ ir < c.base.Nr, F.z iz ir = 0 := h.z
  unfold vecHat scalHat
  rw [hankel_zero _ (f _ fun i hi j hj => by rw [hr i hi j hj, ht i hi j hj]; simp), hankel_zero _ (f _ fun i hi j hj => by rw [hr i hi j hj, ht i hi j hj]; simp),
    hankel_zero _ (f _ hz')]

theorem start_calm (hc : OneProcess c) {S S' : OSim} (h : c.startFields S = .ok S') (ha : S.ants = []) (hp : AllAtRest S.sim)
    (hf : NoFields c S) : c.Resting S' := by
  obtain ⟨st, -⟩ := startFields_ok hc h
  have nf : ∀ (g : ℕ → ℝ) (F G : GridVec), OnGrid c.base F noField → OnGrid c.base G (movedVec c.base.Nz 0 g F) → OnGrid c.base G noField := by
    intro g F G hF hG
    have row : ∀ iz, rowAfter c.base.Nz 0 iz < c.base.Nz := fun iz => rowAfter_lt _ 0 iz
    refine ⟨fun iz hz ir hr => ?_, fun iz hz ir hr => ?_, fun iz hz ir hr => ?_⟩
    · rw [hG.r iz hz ir hr]
      show (g iz : ℂ) * F.r _ _ = 0
      rw [hF.r _ (row iz) ir hr]; exact mul_zero _
    · rw [hG.t iz hz ir hr]
      show (g iz : ℂ) * F.t _ _ = 0
      rw [hF.t _ (row iz) ir hr]; exact mul_zero _
    · rw [hG.z iz hz ir hr]
      show (g iz : ℂ) * F.z _ _ = 0
      rw [hF.z _ (row iz) ir hr]; exact mul_zero _
  have fl : NoFields c S' := fun m hm => ⟨nf _ _ _ (hf m hm).1 (st.E m hm), nf _ _ _ (hf m hm).2 (st.B m hm)⟩
  refine ⟨st.ants.trans ha, by rw [AllAtRest, st.species]; exact hp, fun m hm iz hz ir hr => ?_, fl⟩
  rw [st.em m hm iz hz ir hr, vecHat_rest m (fl m hm).1 hz, vecHat_rest m (fl m hm).2 hz]

theorem ends_calm {S : OSim} (h : NoFields c S) : NoFields c { S with sim := c.base.endFields S.sim } := by
  intro m hm
  have : ((c.base.endFields S.sim).interp m) = c.base.interpSources m (S.sim.spect m) (S.sim.interp m) := by
    show onModes c.base.Nm (fun m i => c.base.interpSources m (S.sim.spect m) i) S.sim.interp m = _
    simp only [onModes, if_pos hm]
  show OnGrid c.base ((c.base.endFields S.sim).interp m).E _ ∧ OnGrid c.base ((c.base.endFields S.sim).interp m).B _
  rw [this]
  exact h m hm

theorem rest_runs (hs : c.Fit) (hq : c.Calm) :
    ∀ (L : List (ℕ × Opts)), (∀ x ∈ L, x.2.useTrueRho = false ∧ x.2.correctDivE = false) → ∀ (k : ℕ) (S : OSim), c.BetweenCalls k S →
      S.ants = [] → AllAtRest S.sim → NoFields c S →
      ∃ T l, Runs c L S l T ∧ T.ants = [] ∧ AllAtRest T.sim ∧ NoFields c T ∧ (∀ y ∈ l, c.Resting y.2) ∧ OldOrNew c l S T := by
  intro L
  induction L with
  | nil => exact fun _ k S _ ha hp hf => ⟨S, [], .done S, ha, hp, hf, fun y hy => (List.not_mem_nil hy).elim, born_of_eq rfl hp⟩
  | cons x L ih =>
    intro ho k S h ha hp hf
    obtain ⟨n, o⟩ := x
    obtain ⟨S1, S2, e1, i1, e2, hI, sp, it, e3⟩ := start_inv hs h
    have s1 : S1.sim = S.sim := by rw [← i1]
    have a1 : S1.ants = [] := by rw [← ha, ← i1]
    have r2 := start_calm hs.one e2 a1 (by rw [s1]; exact hp) (by unfold NoFields; rw [s1]; exact hf)
    have hx : c.exchanges 0 S2 := Or.inr rfl
    obtain ⟨S3, k', l, hl, hI3, r3, al, b⟩ := rest_rounds hs hq o (ho _ List.mem_cons_self).1 (ho _ List.mem_cons_self).2 n 0 k S2 hI
      (fun g => absurd hx g) r2 (fun g => absurd hx g)
    obtain ⟨T, l', hR, aT, pT, fT, alT, bT⟩ := ih (fun y hy => ho y (List.mem_cons_of_mem _ hy)) k' _ (end_between hI3) r3.ants r3.ptcl
      (ends_calm r3.fields)
    refine ⟨T, l ++ l', .call e1 e2 hl hR, aT, pT, fT, fun y hy => ?_, ?_⟩
    · rcases List.mem_append.1 hy with hy | hy
      · exact al y hy
      · exact alT y hy
    · have b0 : OldOrNew c [] S S2 := born_of_eq (by rw [e3, ← s1]) hp
      have b1 : OldOrNew c (l ++ []) S S3 := by
        have := oldOrNew_trans b0 b
        simpa using this
      have b2 : OldOrNew c [] S3 { S3 with sim := c.base.endFields S3.sim } := born_of_eq rfl r3.ptcl
      have := oldOrNew_trans (oldOrNew_trans b1 b2) bT
      simpa using this

/-! ### Without moving window -/

theorem stands_paired {s t u : Sim} (h : Paired (fun _ _ p p' => Stands p p') s t) (h' : Paired (fun _ _ p p' => Stands p p') t u) :
    Paired (fun _ _ p p' => Stands p p') s u := by
  refine ⟨h'.count.trans h.count, fun id sp sp' g1 g2 => ?_, fun id sp sp' g1 g2 j p p' k1 k2 => ?_⟩
  · have hid : id < t.species.length := by rw [h.count]; exact (List.getElem?_eq_some_iff.1 g1).1
    have g3 := List.getElem?_eq_getElem hid
    have a := h.same id _ _ g1 g3
    have b := h'.same id _ _ g3 g2
    refine ⟨?_, b.2.trans a.2⟩
    rw [← a.1, ← b.1]
  · have hid : id < t.species.length := by rw [h.count]; exact (List.getElem?_eq_some_iff.1 g1).1
    have g3 := List.getElem?_eq_getElem hid
    have hj : j < t.species[id].ptcl.length := by rw [(h.same id _ _ g1 g3).2]; exact (List.getElem?_eq_some_iff.1 k1).1
    have k3 := List.getElem?_eq_getElem hj
    exact stands_trans (h.ptcl id _ _ g1 g3 j _ _ k1 k3) (h'.ptcl id _ _ g3 g2 j _ _ k3 k2)

theorem stands_refl {s t : Sim} (h : t.species = s.species) (hr : AllAtRest s) : Paired (fun _ _ p p' => Stands p p') s t := by
  refine ⟨by rw [h], fun id sp sp' g1 g2 => ?_, fun id sp sp' g1 g2 j p p' k1 k2 => ?_⟩
  · rw [h, g1] at g2
    obtain rfl := Option.some.inj g2
    exact ⟨rfl, rfl⟩
  · rw [h, g1] at g2
    obtain rfl := Option.some.inj g2
    rw [k1] at k2
    obtain rfl := Option.some.inj k2
    exact ⟨rfl, rfl, rfl, rfl, rfl, hr _ (List.mem_of_getElem? g1) _ (List.mem_of_getElem? k1)⟩

theorem stands_box {s t : Sim} (h : Paired (fun _ _ p p' => Stands p p') s t) (z1 : t.zmin = s.zmin) (z2 : t.zmax = s.zmax)
    (hb : InTheBox c s) : InTheBox c t := by
  intro sp hsp p hp
  obtain ⟨id, hid, e2⟩ := List.getElem_of_mem hsp
  obtain ⟨j, hj, k2⟩ := List.getElem_of_mem hp
  have hid' : id < s.species.length := by rw [← h.count]; exact hid
  have g1' := List.getElem?_eq_getElem hid'
  have g2' : t.species[id]? = some sp := by rw [List.getElem?_eq_getElem hid, e2]
  have hj' : j < s.species[id].ptcl.length := by rw [← (h.same id _ _ g1' g2').2]; exact hj
  have st := h.ptcl id _ _ g1' g2' j _ _ (List.getElem?_eq_getElem hj') (by rw [List.getElem?_eq_getElem hj, k2])
  have := hb _ (List.getElem_mem hid') _ (List.getElem_mem hj')
  rw [st.z, z1, z2]
  exact this

omit [NeZero c.base.Nz] in
theorem entered_box {i : ℕ} {S : OSim} {u : Sim} (hw : S.win = none) (hb : InTheBox c S.sim) (h : Entered c i S u) : u.species = S.sim.species := by
  refine List.ext_getElem? fun id => ?_
  by_cases hid : id < S.sim.species.length
  · have hid1 : id < u.species.length := by rw [h.count]; exact hid
    have g1 := List.getElem?_eq_getElem hid1
    have g2 := List.getElem?_eq_getElem hid
    have bx := hb _ (List.getElem_mem hid)
    obtain ⟨e, e1, e2⟩ := h.species id _ _ g2 g1
    have : u.species[id].ptcl = S.sim.species[id].ptcl := by
      by_cases hx : ((S.sim.iteration : ℤ) % c.comm.exchangePeriod = 0 ∨ i = 0)
      · by_cases hg : c.comm.nGuard = 0
        · have f := (e1 hx).periodic hg
          generalize u.species[id].ptcl = l' at f
          generalize S.sim.species[id].ptcl = l at f bx
          induction f with
          | nil => rfl
          | cons r _ ih =>
            obtain ⟨z, wz, rfl⟩ := r
            rw [ih fun p hp => bx p (List.mem_cons_of_mem _ hp)]
            have b := (bx _ List.mem_cons_self).1 hg
            obtain ⟨n, hn⟩ := wz.periods
            have hl := wz.lower
            have hu := wz.upper
            have L : 0 < S.sim.zmax - S.sim.zmin := by linarith
            have n0 : n = 0 := by
              have a1 : (n : ℝ) < 1 := by
                by_contra hc
                push Not at hc
                nlinarith
              have a2 : (-1 : ℝ) < n := by
                by_contra hc
                push Not at hc
                nlinarith
              have a1 : n < 1 := by exact_mod_cast a1
              have a2 : -1 < n := by exact_mod_cast a2
              omega
            rw [n0] at hn
            simp at hn
            rw [hn]
        · obtain ⟨new, e, f⟩ := (e1 hx).opened hg
          have : injected c S id = [] := by unfold injected; rw [hw]
          rw [this, List.forall₂_nil_left_iff] at f
          rw [e, f, List.append_nil, List.filter_eq_self]
          intro p hp
          exact decide_eq_true ((bx p hp).2 hg)
      · exact e2 hx
    rw [g1, g2, ← e, ← this]
  · rw [List.getElem?_eq_none (l := u.species) (by rw [h.count]; omega), List.getElem?_eq_none (by omega)]

theorem still_iter (hc : OneProcess c) (hq : c.Calm) (o : Opts) (h1 : o.useTrueRho = false) (h2 : o.correctDivE = false)
    (i : ℕ) {S T : OSim} (hS : Healthy c S) (h : c.iter o i S = .ok T) (hw : S.win = none) (r : c.Resting S)
    (hk : ¬ c.exchanges i S → c.RhoKept S) :
    Healthy c T ∧ T.win = none ∧ T.sim.zmin = S.sim.zmin ∧ T.sim.zmax = S.sim.zmax ∧ c.Resting T ∧ c.RhoKept T ∧
      (InTheBox c S.sim → Paired (fun _ _ p p' => Stands p p') S.sim T.sim) := by
  obtain ⟨rT, ⟨u, en, pr⟩, n, rho, hz, hn, hch, hmv⟩ := rest_iter hc hq.frame hq.ext hq.fill o h1 h2 i hS h r hk
  have hT := C94_healthy hc o i S T hS h
  obtain ⟨-, -, n', -, hw', -⟩ := C94_window hc o i S T hS h
  have n0 := hn hw
  rw [n0] at hch hmv hz
  have zz : T.sim.zmin = S.sim.zmin := by rw [hT.zmin, hS.zmin, hz]; simp
  refine ⟨hT, (hw' hw).2, zz, by rw [hT.zmax, hS.zmax, zz], rT, kept_still hch hmv, fun hb => ?_⟩
  have e := entered_box hw hb en
  exact stands_paired (stands_refl e r.ptcl) pr

theorem still_rounds (hc : OneProcess c) (hq : c.Calm) {o : Opts} (h1 : o.useTrueRho = false) (h2 : o.correctDivE = false) {i n : ℕ}
    {S T : OSim} {l : List (ℕ × OSim)} (h : Rounds c o i n S l T) : Healthy c S → S.win = none → c.Resting S →
    (¬ c.exchanges i S → c.RhoKept S) →
    Healthy c T ∧ T.win = none ∧ T.sim.zmin = S.sim.zmin ∧ T.sim.zmax = S.sim.zmax ∧ c.Resting T ∧ (∀ y ∈ l, c.Resting y.2) ∧
      (InTheBox c S.sim → Paired (fun _ _ p p' => Stands p p') S.sim T.sim) := by
  induction h with
  | stop i S => exact fun hS hw r _ => ⟨hS, hw, rfl, rfl, r, fun y hy => (List.not_mem_nil hy).elim, fun _ => stands_refl rfl r.ptcl⟩
  | round h hl ih =>
    intro hS hw r hk
    obtain ⟨a1, a2, a3, a4, a5, a6, a7⟩ := still_iter hc hq o h1 h2 _ hS h hw r hk
    obtain ⟨b1, b2, b3, b4, b5, b6, b7⟩ := ih a1 a2 a5 (fun _ => a6)
    refine ⟨b1, b2, b3.trans a3, b4.trans a4, b5, fun y hy => ?_, fun hb => ?_⟩
    · rcases List.mem_cons.1 hy with rfl | hy
      · exact r
      · exact b6 y hy
    · exact stands_paired (a7 hb) (b7 (stands_box (a7 hb) a3 a4 hb))

theorem still_runs (hc : OneProcess c) (hq : c.Calm) {L : List (ℕ × Opts)} {S T : OSim} {l : List (ℕ × OSim)} (h : Runs c L S l T) :
    (∀ x ∈ L, x.2.useTrueRho = false ∧ x.2.correctDivE = false) → Healthy c S → S.win = none → S.ants = [] → AllAtRest S.sim → NoFields c S →
      T.sim.zmin = S.sim.zmin ∧ T.sim.zmax = S.sim.zmax ∧ AllAtRest T.sim ∧ NoFields c T ∧ (∀ y ∈ l, c.Resting y.2) ∧
        (InTheBox c S.sim → Paired (fun _ _ p p' => Stands p p') S.sim T.sim) := by
  induction h with
  | done S => exact fun _ _ _ _ hp hf => ⟨rfl, rfl, hp, hf, fun y hy => (List.not_mem_nil hy).elim, fun _ => stands_refl rfl hp⟩
  | @call n o L S S1 S2 S3 T l l' e1 e2 h3 h4 ih =>
    intro ho hS hw ha hp hf
    have e0 : S1 = S := by
      unfold OCfg.startInj at e1
      rw [hw] at e1
      exact (Except.ok.inj e1).symm
    subst e0
    have st := (startFields_ok hc e2).1
    obtain ⟨a1, a2, a3, a4, a5, a6, a7⟩ := still_rounds hc hq (ho _ List.mem_cons_self).1 (ho _ List.mem_cons_self).2 h3
      (startFields_healthy hc hS e2) (st.win.trans hw) (start_calm hc e2 ha hp hf) (fun g => absurd (Or.inr rfl) g)
    obtain ⟨b1, b2, b3, b4, b5, b6⟩ := ih (fun y hy => ho y (List.mem_cons_of_mem _ hy))
      ⟨a1.sized, a1.regular, a1.zmin, a1.zmax, a1.mom⟩ a2 a5.ants a5.ptcl (ends_calm a5.fields)
    refine ⟨b1.trans (a3.trans st.zmin), b2.trans (a4.trans st.zmax), b3, b4, fun y hy => ?_, fun hb => ?_⟩
    · rcases List.mem_append.1 hy with hy | hy
      · exact a6 y hy
      · exact b5 y hy
    · have p0 : Paired (fun _ _ p p' => Stands p p') S1.sim S2.sim := stands_refl st.species hp
      have p1 := stands_paired p0 (a7 (stands_box p0 st.zmin st.zmax hb))
      have p2 : Paired (fun _ _ p p' => Stands p p') S3.sim (c.base.endFields S3.sim) := stands_refl rfl a5.ptcl
      have p3 := stands_paired p1 p2
      exact stands_paired p3 (b6 (stands_box p3 (a3.trans st.zmin) (a4.trans st.zmax) hb))

end Fbpic.Pic
