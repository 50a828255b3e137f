import Verif.Lemmas.PicOpenSplitEnd
import Verif.Lemmas.PicOpenInv
import Verif.Spec.PicOpenSplit

/-!
# Lemmas: several iterations with open boundaries, and the beginning of a call
-/

namespace Fbpic.Pic

open Transform ExternalField Step
open Spec (SamePtcl SameSpecies' SameStored SameSeen TransOk charges pairSpecies Placed OneProcess transmission MovedHat MovedScal
  SameOpen SeenOpen OpenResult Undamped)

variable {c : OCfg} [NeZero c.base.Nz] {D : ℕ → ℕ → Prop} {f f' : Prop} {A A' : RhoName → Prop} {j j' r r' : Prop}
  {S S' T T' : OSim}

theorem OTwin.loop (hc : OneProcess c) (hB : c.base.Blind D) (o : Opts) (n : ℕ) : ∀ (i i' : ℕ) (A : RhoName → Prop) (f j r : Prop)
    (S S' T : OSim), OTwin c D f A j r S S' → (c.exchanges i S ↔ c.exchanges i' S') → (¬ c.exchanges i S → A .prev) →
    Placed c S → (∀ m < c.base.Nm, ∀ ir < c.base.Nr, D m ir → (S.sim.spect m).kr ir = 0) → c.loop o i (n + 1) S = .ok T →
    ∃ T', c.loop o i' (n + 1) S' = .ok T' ∧ OTwin c D True (fun n => n = .prev) True True T T' ∧ Placed c T ∧
      (∀ m < c.base.Nm, (T.sim.spect m).kr = (S.sim.spect m).kr) ∧ c.base.Synced T.sim := by
  induction n with
  | zero =>
    intro i i' A f j r S S' T h hx hA hp hk ht
    obtain ⟨X, hX, ht⟩ := (except_bind_ok _ _ _).1 ht
    have ht : X = T := Except.ok.inj ht
    subst ht
    obtain ⟨X', hX', a⟩ := (h.forget (f' := False) fun x => x.elim).iter hc hB o i i' hx hA hp hk hX
    exact ⟨X', (except_bind_ok _ _ _).2 ⟨X', hX', rfl⟩, a⟩
  | succ n ih =>
    intro i i' A f j r S S' T h hx hA hp hk ht
    obtain ⟨X, hX, ht⟩ := (except_bind_ok _ _ _).1 ht
    obtain ⟨X', hX', a1, a2, a3, -⟩ := (h.forget (f' := False) fun x => x.elim).iter hc hB o i i' hx hA hp hk hX
    have hx' : c.exchanges (i + 1) X ↔ c.exchanges (i' + 1) X' := by
      unfold OCfg.exchanges
      rw [a1.twin.iteration]
      simp
    obtain ⟨T', ht', b1, b2, b3, b4⟩ := ih (i + 1) (i' + 1) _ _ _ _ X X' T a1 hx' (fun _ => rfl) a2
      (fun m hm ir hr hD => by rw [a3 m hm]; exact hk m hm ir hr hD) ht
    exact ⟨T', (except_bind_ok _ _ _).2 ⟨X', hX', ht'⟩, b1, b2, fun m hm => (b3 m hm).trans (a3 m hm), b4⟩

theorem OTwin.both (hc : OneProcess c) (hB : c.base.Blind D) (o : Opts) (n i i' : ℕ) (h : OTwin c D f A j r S S')
    (hx : c.exchanges i S ↔ c.exchanges i' S') (hA : ¬ c.exchanges i S → A .prev) (hp : Placed c S)
    (hk : ∀ m < c.base.Nm, ∀ ir < c.base.Nr, D m ir → (S.sim.spect m).kr ir = 0) :
    Both (OTwin c D True (fun n => n = .prev) True True) (c.loop o i (n + 1) S) (c.loop o i' (n + 1) S') := by
  constructor
  · intro T ht
    obtain ⟨T', ht', a, -⟩ := OTwin.loop hc hB o n i i' _ _ _ _ S S' T h hx hA hp hk ht
    exact ⟨T', ht', a⟩
  · intro T' ht'
    obtain ⟨T, ht, a, -⟩ := OTwin.loop hc hB o n i' i _ _ _ _ S' S T' h.symm hx.symm (fun x => hA fun y => x (hx.1 y)) (h.placed hp)
      (fun m hm ir hr hD => by rw [h.twin.kr m hm]; exact hk m hm ir hr hD) ht'
    exact ⟨T, ht, a.symm⟩

theorem loop_split (o : Opts) (n k : ℕ) : ∀ (i : ℕ) (S : OSim), c.loop o i (n + k) S = c.loop o i n S >>= c.loop o (i + n) k := by
  induction n with
  | zero => intro i S; rw [Nat.zero_add]; rfl
  | succ n ih =>
    intro i S
    rw [show n + 1 + k = (n + k) + 1 by ring]
    show (c.iter o i S).bind (c.loop o (i + 1) (n + k)) = ((c.iter o i S).bind (c.loop o (i + 1) n)).bind _
    cases c.iter o i S with
    | error e => rfl
    | ok X =>
      show c.loop o (i + 1) (n + k) X = (c.loop o (i + 1) n X).bind _
      rw [ih (i + 1) X, show i + (n + 1) = i + 1 + n by ring]
      rfl

/-- Two equal states. -/
theorem OTwin.refl (hs : c.base.Sized S.sim) : OTwin c (fun _ _ => False) True (fun _ => True) True True S S where
  twin :=
    { zmin := rfl, zmax := rfl, time := rfl, iteration := rfl, species := species_refl _ _
      E := fun _ _ => rfl, B := fun _ _ => rfl, sized := hs, sized' := hs, kz := fun _ _ => rfl, kr := fun _ _ => rfl
      em := fun _ _ _ _ _ _ => ⟨rfl, rfl, fun _ => rfl, fun _ => rfl, fun _ => rfl, fun _ => rfl⟩
      rho := fun _ _ _ _ _ _ _ _ => rfl
      J := fun _ => ⟨fun _ _ _ _ _ _ => ⟨rfl, rfl, rfl⟩, fun _ _ => rfl⟩
      irho := fun _ _ _ => rfl }
  zminG := rfl
  win := rfl
  inj := rfl
  ants := rfl

/-! ### Injectors -/

/-- The injectors are initialised. -/
def OCfg.InjSet (S : OSim) : Prop := ∀ w, S.win = some w → S.inj.length = S.sim.species.length ∧ ∀ i, some i ∈ S.inj → i.pos.isSome

theorem injAfter_set (c : OCfg) (S : OSim) (h : ∀ i, some i ∈ S.inj → i.pos.isSome) (id : ℕ) {i : Injector ℝ} (hi : c.injAfter S id = some i) :
    i.pos.isSome := by
  unfold OCfg.injAfter at hi
  have old : ∀ i, S.inj.getD id none = some i → i.pos.isSome := by
    intro i hi
    exact h i (mem_of_getD hi)
  split at hi
  · exact old i hi
  · split at hi
    · rw [← Option.some.inj hi]; rfl
    · exact old i hi

theorem iter_inj (hc : OneProcess c) (o : Opts) (i : ℕ) (hp : Placed c S) (hI : OCfg.InjSet S) (h : c.iter o i S = .ok T) :
    OCfg.InjSet T ∧ Placed c T ∧ T.sim.iteration = S.sim.iteration + 1 := by
  obtain ⟨U, A, B, D, w⟩ := iter_way c hc.threads o i h
  have hD := w.placed (nziz hc) hp
  have e := oend c o hc.size (nziz hc) hc.dz hD w.endT
  have m := deposit_moved c o w.dep
  refine ⟨?_, placed_shift c (nziz hc) hD _ e.zminG e.zmin e.zmax, by rw [e.iteration, m.iteration, w.iterationB]⟩
  intro wT hwT
  have hl : T.sim.species.length = U.sim.species.length := by
    rw [e.species, m.species, ← w.ptclB.1]
    unfold Cfg.shiftAll
    rw [List.length_map]
  obtain ⟨wS, hwS⟩ : ∃ wS, S.win = some wS := by
    rw [e.win] at hwT
    unfold windowAfter at hwT
    rw [m.win, w.winB] at hwT
    cases hs : S.win with
    | none => rw [hs] at hwT; cases hwT
    | some x => exact ⟨x, rfl⟩
  have hU : U.inj.length = U.sim.species.length ∧ ∀ i, some i ∈ U.inj → i.pos.isSome := by
    by_cases hx : c.exchanges i S
    · obtain ⟨-, -, -, u1, u2, -⟩ := exchange_ok c (w.exch hx)
      refine ⟨by rw [u2, u1]; simp, fun i hi => ?_⟩
      rw [u2] at hi
      obtain ⟨id, -, hid⟩ := List.mem_map.1 hi
      exact injAfter_set c S (hI wS hwS).2 id hid
    · rw [w.noexch hx]; exact hI wS hwS
  have hDi : D.inj = U.inj := by rw [m.inj, w.injB]
  have hDw : D.win = some wS := by rw [m.win, w.winB, hwS]
  have q := e.inj.2 wS hDw
  rw [hDi] at q
  refine ⟨by rw [hl, ← hU.1, q.length_eq], fun i hi => ?_⟩
  obtain ⟨k, hk, hk'⟩ := List.getElem_of_mem hi
  have hk2 : k < U.inj.length := by rw [q.length_eq]; exact hk
  have h3 := (List.forall₂_iff_get.1 q).2 k hk2 hk
  simp only [List.get_eq_getElem, hk'] at h3
  unfold advanceInj at h3
  split at h3
  · cases h3
  · split at h3
    · rw [← Option.some.inj (Except.ok.inj h3)]; rfl
    · cases h3

theorem loop_inj (hc : OneProcess c) (o : Opts) (n : ℕ) : ∀ (i : ℕ) (S T : OSim), Placed c S → OCfg.InjSet S → c.loop o i n S = .ok T →
    OCfg.InjSet T ∧ Placed c T ∧ T.sim.iteration = S.sim.iteration + n := by
  induction n with
  | zero =>
    intro i S T hp hI h
    have h := Except.ok.inj h
    subst h
    exact ⟨hI, hp, rfl⟩
  | succ n ih =>
    intro i S T hp hI h
    obtain ⟨X, hX, h⟩ := (except_bind_ok _ _ _).1 h
    obtain ⟨a1, a2, a3⟩ := iter_inj hc o i hp hI hX
    obtain ⟨b1, b2, b3⟩ := ih (i + 1) X T a2 a1 h
    exact ⟨b1, b2, by rw [b3, a3]; ring⟩

theorem startInj_ok (h : c.startInj S = .ok T) : { T with inj := S.inj } = S := by
  unfold OCfg.startInj at h
  split at h
  · rw [← Except.ok.inj h]
  · obtain ⟨l, -, h⟩ := (except_bind_ok _ _ _).1 h
    rw [← Except.ok.inj h]

theorem initialize_set (hc : OneProcess c) {inj i : Injector ℝ} {z dz v dt : ℝ} {l : List ℝ}
    (h : inj.initialize c.comm z dz 0 v l dt = .ok i) : i.pos.isSome := by
  unfold Injector.initialize at h
  rw [if_neg (by rw [hc.size]; simp)] at h
  by_cases hp : inj.pos.isSome
  · rw [if_pos hp] at h
    rw [← Except.ok.inj h]; exact hp
  · rw [if_neg hp] at h
    obtain ⟨x, -, h⟩ := (except_bind_ok _ _ _).1 h
    obtain ⟨y, -, h⟩ := (except_bind_ok _ _ _).1 h
    cases hm : l.max? <;> rw [hm] at h <;> dsimp only at h <;> cases hd : inj.dzp <;> rw [hd] at h <;> dsimp only at h <;>
      first | (rw [← Except.ok.inj h]; rfl) | cases h

/-- The injectors are initialised at the beginning of a call. -/
theorem startInj_set (hc : OneProcess c) (h : c.startInj S = .ok T) : OCfg.InjSet T := by
  have e := startInj_ok h
  unfold OCfg.startInj at h
  intro w hw
  have hS : S.win = some w := by rw [← e]; exact hw
  rw [hS] at h
  dsimp only at h
  obtain ⟨l, hl, h⟩ := (except_bind_ok _ _ _).1 h
  have hl := (mapM_ok _ _ _).1 hl
  rw [← Except.ok.inj h]
  refine ⟨by rw [← hl.length_eq]; simp, fun i hi => ?_⟩
  obtain ⟨k, hk, hk'⟩ := List.getElem_of_mem hi
  have h3 := (List.forall₂_iff_get.1 hl).2 k (by rw [hl.length_eq]; exact hk) hk
  dsimp only at hk'
  simp only [List.get_eq_getElem, hk'] at h3
  split at h3
  · cases h3
  · obtain ⟨i', h4, h5⟩ := (except_bind_ok _ _ _).1 h3
    rw [← Option.some.inj (Except.ok.inj h5)]
    exact initialize_set hc h4

/-- Initialised injectors are left as they are. -/
theorem startInj_again (hI : OCfg.InjSet S) : c.startInj S = .ok S := by
  unfold OCfg.startInj
  cases hw : S.win with
  | none => rfl
  | some w =>
    obtain ⟨hl, hp⟩ := hI w hw
    dsimp only
    refine (except_bind_ok _ _ _).2 ⟨S.inj, (mapM_ok _ _ _).2 ?_, by rw [← hw]; rfl⟩
    refine List.forall₂_iff_get.2 ⟨by simp [hl], fun k h1 h2 => ?_⟩
    simp only [List.get_eq_getElem, List.getElem_zipIdx, zero_add]
    have hg : S.inj.getD k none = S.inj[k] := by
      rw [List.getD_eq_getElem?_getD, List.getElem?_eq_getElem h2]; rfl
    rw [hg]
    cases hx : S.inj[k] with
    | none => rfl
    | some i =>
      dsimp only
      refine (except_bind_ok _ _ _).2 ⟨i, ?_, rfl⟩
      unfold Injector.initialize
      split_ifs with h3 h4
      · rfl
      · rfl
      · exact absurd (hp i (hx ▸ List.getElem_mem h2)) h4

/-! ### Damping before the loop -/

theorem damp_outside (cm : Comm) (rank Nz : ℕ) {g g' : EBGrid} (h : dampOpenBoundary cm rank Nz false g = .ok g') {i : ℕ} (hi : Nz ≤ i)
    (j : ℕ) : g'.Er i j = g.Er i j ∧ g'.Et i j = g.Et i j ∧ g'.Ez i j = g.Ez i j ∧ g'.Br i j = g.Br i j ∧ g'.Bt i j = g.Bt i j ∧
      g'.Bz i j = g.Bz i j := by
  unfold dampOpenBoundary at h
  have rows : ∀ (lo up : ℕ) (d : ℕ → ℝ) (g : EBGrid), up ≤ Nz → (dampRows lo up d false g).Er i j = g.Er i j ∧
      (dampRows lo up d false g).Et i j = g.Et i j ∧ (dampRows lo up d false g).Ez i j = g.Ez i j ∧
      (dampRows lo up d false g).Br i j = g.Br i j ∧ (dampRows lo up d false g).Bt i j = g.Bt i j ∧
      (dampRows lo up d false g).Bz i j = g.Bz i j := by
    intro lo up d g hu
    have : ¬ (lo ≤ i ∧ i < up) := by omega
    simp [dampRows, scaleRows, this]
  by_cases h0 : cm.nzDamp = 0
  · rw [if_neg (not_not.2 h0)] at h
    rw [← Except.ok.inj h]; exact ⟨rfl, rfl, rfl, rfl, rfl, rfl⟩
  rw [if_pos h0] at h
  obtain ⟨g1, h1, h⟩ := (except_bind_ok _ _ _).1 h
  have a : g1.Er i j = g.Er i j ∧ g1.Et i j = g.Et i j ∧ g1.Ez i j = g.Ez i j ∧ g1.Br i j = g.Br i j ∧ g1.Bt i j = g.Bt i j ∧
      g1.Bz i j = g.Bz i j := by
    by_cases h2 : cm.leftProc rank = none
    · rw [if_pos h2] at h1
      by_cases h3 : Nz < cm.nGuard + cm.nzDamp + cm.nInject
      · rw [if_pos h3] at h1; cases h1
      · rw [if_neg h3] at h1
        rw [← Except.ok.inj h1]; exact rows _ _ _ _ (by omega)
    · rw [if_neg h2] at h1
      rw [← Except.ok.inj h1]; exact ⟨rfl, rfl, rfl, rfl, rfl, rfl⟩
  by_cases h2 : cm.rightProc rank = none
  · rw [if_pos h2] at h
    by_cases h3 : Nz < cm.nGuard + cm.nzDamp + cm.nInject
    · rw [if_pos h3] at h; cases h
    · rw [if_neg h3] at h
      rw [← Except.ok.inj h]
      obtain ⟨b1, b2, b3, b4, b5, b6⟩ := rows (Nz - (cm.nGuard + cm.nzDamp + cm.nInject)) Nz
        (fun i => dampArray cm.nGuard cm.nzDamp cm.nInject (cm.nGuard + cm.nzDamp + cm.nInject - 1 - i)) g1 le_rfl
      obtain ⟨a1, a2, a3, a4, a5, a6⟩ := a
      exact ⟨b1.trans a1, b2.trans a2, b3.trans a3, b4.trans a4, b5.trans a5, b6.trans a6⟩
  · rw [if_neg h2] at h
    rw [← Except.ok.inj h]; exact a

/-- Nothing to damp. -/
theorem startFields_again (hc : OneProcess c) (hU : Undamped c S) :
    c.startFields S = .ok { S with sim := c.base.startFields S.sim } := by
  obtain ⟨gs, hgs⟩ := mapM_total (fun m => dampOpenBoundary c.comm 0 c.base.Nz false (S.sim.interp m).eb) (List.range c.base.Nm)
    (damp_total hc fun m => (S.sim.interp m).eb)
  unfold OCfg.startFields
  refine (except_bind_ok _ _ _).2 ⟨gs, hgs, ?_⟩
  have hgs := (mapM_ok _ _ _).1 hgs
  have hlen : gs.length = c.base.Nm := by rw [← hgs.length_eq]; simp
  have same : onModes c.base.Nm (fun m i => i.setEB (gs.getD m i.eb)) S.sim.interp = S.sim.interp := by
    funext m
    unfold onModes
    split_ifs with hm
    · have hm' : m < gs.length := by rw [hlen]; exact hm
      have h1 := (List.forall₂_iff_get.1 hgs).2 m (by simpa using hm) hm'
      simp only [List.get_eq_getElem, List.getElem_range] at h1
      obtain ⟨g', h4, h5⟩ := C37_applied c.comm 0 (by rw [hc.size]; omega) false (S.sim.interp m).eb c.base.Nz _ (nziz hc)
      have e : g' = gs[m] := Except.ok.inj (h4.symm.trans h1)
      have hg : gs.getD m (S.sim.interp m).eb = g' := by
        rw [List.getD_eq_getElem?_getD, List.getElem?_eq_getElem hm', e]; rfl
      dsimp only
      rw [hg]
      have key : ∀ i j, g'.Er i j = (S.sim.interp m).E.r i j ∧ g'.Et i j = (S.sim.interp m).E.t i j ∧
          g'.Ez i j = (S.sim.interp m).E.z i j ∧ g'.Br i j = (S.sim.interp m).B.r i j ∧ g'.Bt i j = (S.sim.interp m).B.t i j ∧
          g'.Bz i j = (S.sim.interp m).B.z i j := by
        intro i j
        by_cases hi : i < c.base.Nz
        · obtain ⟨q1, q2, q3, q4, q5, q6, -⟩ := h5 i j hi
          simp only [Interp.eb] at q1 q2 q3 q4 q5 q6
          rw [q1, q2, q3, q4, q5, q6]
          rcases hU m hm i hi with h6 | h6
          · rw [h6]; simp
          · obtain ⟨z1, z2, z3, z4, z5, z6⟩ := h6 j
            rw [z1, z2, z3, z4, z5, z6]; simp
        · exact damp_outside c.comm 0 c.base.Nz h4 (by omega) j
      unfold Interp.setEB
      have e1 : g'.Er = (S.sim.interp m).E.r := funext fun i => funext fun j => (key i j).1
      have e2 : g'.Et = (S.sim.interp m).E.t := funext fun i => funext fun j => (key i j).2.1
      have e3 : g'.Ez = (S.sim.interp m).E.z := funext fun i => funext fun j => (key i j).2.2.1
      have e4 : g'.Br = (S.sim.interp m).B.r := funext fun i => funext fun j => (key i j).2.2.2.1
      have e5 : g'.Bt = (S.sim.interp m).B.t := funext fun i => funext fun j => (key i j).2.2.2.2.1
      have e6 : g'.Bz = (S.sim.interp m).B.z := funext fun i => funext fun j => (key i j).2.2.2.2.2
      rw [e1, e2, e3, e4, e5, e6]
    · rfl
  show Except.ok _ = Except.ok _
  rw [same]

/-! ### The beginning of a call, for two states -/

theorem startInj_same (h : SameOpen c S S') (ht : c.startInj S = .ok T) : ∃ T', c.startInj S' = .ok T' ∧ SameOpen c T T' := by
  have e := startInj_ok ht
  unfold OCfg.startInj at ht ⊢
  rw [h.win]
  cases hw : S.win with
  | none =>
    rw [hw] at ht
    have ht := Except.ok.inj ht
    subst ht
    exact ⟨S', rfl, h⟩
  | some w =>
    rw [hw] at ht
    dsimp only at ht ⊢
    obtain ⟨l, hl, ht⟩ := (except_bind_ok _ _ _).1 ht
    have ht := Except.ok.inj ht
    obtain ⟨l', e1, e2⟩ := forall₂_diamond (S' := fun (x : Species × ℕ) y => (match S'.inj.getD x.2 none with
        | none => pure none
        | some i => do
          let i ← i.initialize c.comm S'.zminG c.dz 0 w.v (x.1.ptcl.map fun p => p.push.z) c.base.dt
          pure (some i) : Except PyErr (Option (Injector ℝ))) = .ok y)
      (T := fun a b => b = a) (fun a b y hab hy => by
        refine ⟨y, ?_, rfl⟩
        have hz : (b.1.ptcl.map fun p => p.push.z) = a.1.ptcl.map fun p => p.push.z :=
          (map_forall₂ hab.1.ptcl fun _ _ _ h => by rw [h.push]).symm
        rw [hab.2, h.inj, h.zminG, hz]
        exact hy) (zipIdx_forall₂ h.stored.species 0) ((mapM_ok _ _ _).1 hl)
    refine ⟨{ S' with win := some w, inj := l' }, (except_bind_ok _ _ _).2 ⟨l', (mapM_ok _ _ _).2 e1, rfl⟩, ?_⟩
    rw [← ht]
    refine ⟨h.stored, h.zminG, rfl, ?_, h.ants⟩
    have : List.Forall₂ (fun a b => b = a) l l' := e2
    exact (List.forall₂_eq_eq_eq ▸ (this.imp fun _ _ h => h.symm) : l = l').symm

theorem startFields_same (h : SameOpen c S S') (ht : c.startFields S = .ok T) : ∃ T', c.startFields S' = .ok T' ∧
    OTwin c (fun _ _ => False) False (fun _ => False) False False T T' ∧ T.zminG = S.zminG ∧ T.sim.zmin = S.sim.zmin ∧
      T.sim.zmax = S.sim.zmax := by
  unfold OCfg.startFields at ht ⊢
  obtain ⟨gs, hgs, ht⟩ := (except_bind_ok _ _ _).1 ht
  have ht := Except.ok.inj ht
  have heb : ∀ m < c.base.Nm, (S'.sim.interp m).eb = (S.sim.interp m).eb := by
    intro m hm
    unfold Interp.eb
    rw [h.stored.E m hm, h.stored.B m hm]
  have hgs' : ((List.range c.base.Nm).mapM fun m => dampOpenBoundary c.comm 0 c.base.Nz false (S'.sim.interp m).eb) = .ok gs := by
    rw [← hgs]
    rw [mapM_ok] at hgs
    refine ((mapM_ok _ _ _).2 ?_).trans ((mapM_ok _ _ _).2 hgs).symm
    refine List.forall₂_iff_get.2 ⟨hgs.length_eq, fun k h1 h2 => ?_⟩
    have := (List.forall₂_iff_get.1 hgs).2 k h1 h2
    simp only [List.get_eq_getElem, List.getElem_range] at this ⊢
    rw [heb k (by simpa using h1)]
    exact this
  refine ⟨_, (except_bind_ok _ _ _).2 ⟨gs, hgs', rfl⟩, ?_, ?_, ?_, ?_⟩
  · rw [← ht]
    refine ⟨twin_start ?_, h.zminG, h.win, h.inj, h.ants⟩
    refine { h.stored with E := ?_, B := ?_ }
    · intro m hm
      dsimp only [onModes]
      rw [if_pos hm, if_pos hm, heb m hm]
      rfl
    · intro m hm
      dsimp only [onModes]
      rw [if_pos hm, if_pos hm, heb m hm]
      rfl
  · rw [← ht]
  · rw [← ht]; rfl
  · rw [← ht]; rfl

theorem OTwin.finish (h : OTwin c D True (fun n => n = .prev) True True S S') :
    SeenOpen c { S with sim := c.base.endFields S.sim } { S' with sim := c.base.endFields S'.sim } := by
  have s := h.twin.finish
  exact { stored := s.toSameStored, zminG := h.zminG, win := h.win, inj := h.inj, ants := h.ants, seen := s }

end Fbpic.Pic
