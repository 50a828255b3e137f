import Verif.Lemmas.PicSplitRun

/-!
# Lemmas: the division of a run into calls
-/

namespace Fbpic.Pic

open Transform ExternalField Step
open Spec (SamePtcl SameSpecies' SameStored SameSeen SameResult SolverOk TransOk EqOn hankel dropLow DhtOk)

variable {c : Cfg} [NeZero c.Nz] {D : ℕ → ℕ → Prop} {f : Prop} {A : RhoName → Prop} {j r : Prop} {s s' t t' : Sim}

/-- Iterations one after the other, each with its options and its number in the call. -/
noncomputable def Cfg.iters (c : Cfg) [NeZero c.Nz] : List (Opts × ℕ) → Sim → Except PyErr Sim
  | [], s => .ok s
  | (o, i) :: L, s => do
    let s ← c.iter o i s
    Cfg.iters c L s

theorem loop_iters (o : Opts) (n : ℕ) : ∀ (i : ℕ) (s : Sim), c.loop o i n s = c.iters ((List.range' i n).map fun i => (o, i)) s := by
  induction n with
  | zero => intro i s; rfl
  | succ n ih =>
    intro i s
    rw [List.range'_succ, List.map_cons]
    show (c.iter o i s).bind (c.loop o (i + 1) n) = (c.iter o i s).bind _
    congr 1
    funext x
    exact ih (i + 1) x

theorem iters_append (L L' : List (Opts × ℕ)) (s : Sim) : c.iters (L ++ L') s = (c.iters L s).bind (c.iters L') := by
  induction L generalizing s with
  | nil => rfl
  | cons a L ih =>
    show (c.iter a.1 a.2 s).bind (c.iters (L ++ L')) = ((c.iter a.1 a.2 s).bind (c.iters L)).bind _
    cases c.iter a.1 a.2 s with
    | error e => rfl
    | ok x => exact ih x

theorem Twin.iters (hn : 0 < c.nthreads) (hp : c.exchangePeriod = 1) (hB : c.Blind D) :
    ∀ (L L' : List (Opts × ℕ)) (f : Prop) (A : RhoName → Prop) (j r : Prop) (s s' t : Sim), L ≠ [] → L.map Prod.fst = L'.map Prod.fst →
      Twin c D f A j r s s' → (∀ m < c.Nm, ∀ ir < c.Nr, D m ir → (s.spect m).kr ir = 0) → c.iters L s = .ok t →
      ∃ t', c.iters L' s' = .ok t' ∧ Twin c D True (fun n => n = .prev) True True t t' ∧
        (∀ m < c.Nm, (t.spect m).kr = (s.spect m).kr) ∧ c.Synced t := by
  intro L
  induction L with
  | nil => intro L' f A j r s s' t h; exact absurd rfl h
  | cons a L ih =>
    intro L' f A j r s s' t _ hL h hk ht
    obtain ⟨⟨o', i'⟩, L', rfl⟩ : ∃ x l, L' = x :: l := by
      cases L' with
      | nil => cases hL
      | cons x l => exact ⟨_, _, rfl⟩
    simp only [List.map_cons, List.cons.injEq] at hL
    obtain ⟨ho, hL⟩ := hL
    subst ho
    obtain ⟨b, hb, ht⟩ := (except_bind_ok _ _ _).1 ht
    obtain ⟨b', hb', Tb, hkb, hsb⟩ := (h.forget (f' := False) fun x => x.elim).iter hn hp hB a.1 a.2 i' hk hb
    by_cases hne : L = []
    · subst hne
      obtain rfl : L' = [] := by simpa using hL.symm
      have ht : b = t := Except.ok.inj ht
      subst ht
      exact ⟨b', (except_bind_ok _ _ _).2 ⟨b', hb', rfl⟩, Tb, hkb, hsb⟩
    · obtain ⟨t', ht', T, hkt, hst⟩ := ih L' _ _ _ _ b b' t hne hL Tb
        (fun m hm ir hr hD => by rw [hkb m hm]; exact hk m hm ir hr hD) ht
      exact ⟨t', (except_bind_ok _ _ _).2 ⟨b', hb', ht'⟩, T, fun m hm => (hkt m hm).trans (hkb m hm), hst⟩

/-- The components that the transforms drop. -/
def Low (m ir : ℕ) : Prop := m ≠ 0 ∧ ir = 0

theorem dht_row {m p : ℤ} {Nr : ℕ} {M invM : ℕ → ℕ → ℝ} (h : DhtOk m p Nr M invM) (hm : m ≠ 0 ∧ p ≠ m - 1) (j : ℕ) :
    invM 0 j = 0 := by
  obtain ⟨rmax, r, bessel, inv, pinv, h1, -, -, -⟩ := h
  rw [h1]
  simp [hankelInvM, hm]

theorem blind_low (hT : ∀ m < c.Nm, TransOk m (c.trans m)) : c.Blind Low := by
  rintro m hm ir hr ⟨h0, rfl⟩ j hj
  exact ⟨dht_row (hT m hm).ok0 ⟨by exact_mod_cast h0, by omega⟩ j, dht_row (hT m hm).okp ⟨by exact_mod_cast h0, by omega⟩ j⟩

/-- To the interpolation grid and back. -/
theorem Cfg.Synced.cells (h : c.Synced s) {m : ℕ} (hm : m < c.Nm) (hT : TransOk m (c.trans m)) {iz ir : ℕ}
    (hz : iz < c.Nz) (hr : ir < c.Nr) :
    CellEq (Low m ir) ((s.spect m).cell iz ir) (((c.startFields s).spect m).cell iz ir) := by
  obtain ⟨i, hE, hB⟩ := h m hm
  have e1 : ∀ a o o', c.toSpectScal m (c.toInterpScal m a o) o' iz ir = dropLow m a iz ir := by
    intro a o o'
    rw [toSpectScal_eq, toInterpScal_eq]
    exact rt_scal c hT a o o' hz hr
  have e2 := fun p q a b x y => rt_vect c hT p q a b x y hz hr
  have hd : ¬ Low m ir → ∀ a : Buf, dropLow m a iz ir = a iz ir := by
    intro hd a
    unfold dropLow
    rw [if_neg]
    rintro ⟨h1, h2⟩
    exact hd ⟨by exact_mod_cast h1, h2⟩
  rw [start_cell c s hm, hE, hB]
  unfold Cfg.interpEB
  dsimp only
  rw [e1, e1, (e2 _ _ _ _ _ _).1, (e2 _ _ _ _ _ _).2, (e2 _ _ _ _ _ _).1, (e2 _ _ _ _ _ _).2]
  exact ⟨rfl, rfl, fun h => hd h fun iz ir => ((s.spect m).cell iz ir).Ep, fun h => hd h fun iz ir => ((s.spect m).cell iz ir).Ez,
    fun h => hd h fun iz ir => ((s.spect m).cell iz ir).Bp, fun h => hd h fun iz ir => ((s.spect m).cell iz ir).Bz⟩

theorem start_rest (s : Sim) {m : ℕ} (hm : m < c.Nm) (iz ir : ℕ) :
    CellJ ((s.spect m).cell iz ir) (((c.startFields s).spect m).cell iz ir) ∧
    ∀ n : RhoName, n.get (((c.startFields s).spect m).cell iz ir) = n.get ((s.spect m).cell iz ir) := by
  rw [start_cell c s hm]
  exact ⟨⟨rfl, rfl, rfl⟩, fun n => by cases n <;> rfl⟩

theorem species_refl (f : Prop) (L : List Species) : List.Forall₂ (SameSpecies' f) L L :=
  List.forall₂_same.2 fun _ _ => ⟨rfl, rfl, rfl, rfl, rfl, rfl, List.forall₂_same.2 fun _ _ => ⟨rfl, rfl, fun _ => rfl⟩⟩

theorem Twin.widen {D' : ℕ → ℕ → Prop} (hD : ∀ m ir, D m ir → D' m ir) (h : Twin c D f A j r s s') :
    Twin c D' f A j r s s' := by
  refine { h with em := ?_ }
  intro m hm iz hz ir hr
  obtain ⟨e1, e2, e3, e4, e5, e6⟩ := h.em m hm iz hz ir hr
  exact ⟨e1, e2, fun x => e3 fun y => x (hD _ _ y), fun x => e4 fun y => x (hD _ _ y), fun x => e5 fun y => x (hD _ _ y),
    fun x => e6 fun y => x (hD _ _ y)⟩

/-- A synchronized state and the state at the beginning of the next call. -/
theorem Cfg.Synced.twin (h : c.Synced s) (hs : c.Sized s) (hT : ∀ m < c.Nm, TransOk m (c.trans m)) :
    Twin c Low True (fun _ => True) True True s (c.startFields s) where
  zmin := rfl
  zmax := rfl
  time := rfl
  iteration := rfl
  species := species_refl _ _
  E := fun _ _ => rfl
  B := fun _ _ => rfl
  sized := hs
  sized' := fun m hm => ⟨(start_shape c s hm).1.trans (hs m hm).1, (start_shape c s hm).2.1.trans (hs m hm).2⟩
  kz := fun m hm => (start_shape c s hm).2.2.1
  kr := fun m hm => (start_shape c s hm).2.2.2
  em := fun m hm iz hz ir hr => h.cells hm (hT m hm) hz hr
  rho := fun n _ m hm iz _ ir _ => (start_rest s hm iz ir).2 n
  J := fun _ => ⟨fun m hm iz _ ir _ => (start_rest s hm iz ir).1, fun _ _ => rfl⟩
  irho := fun _ _ _ => rfl

/-- The current and the charge density on the grid are those of the spectral grid. -/
def Cfg.Settled (c : Cfg) [NeZero c.Nz] (t : Sim) : Prop := ∀ m < c.Nm,
  (c.interpSources m (t.spect m) (t.interp m)).J = (t.interp m).J ∧
  (c.interpSources m (t.spect m) (t.interp m)).rho = (t.interp m).rho

theorem end_interp (s : Sim) {m : ℕ} (hm : m < c.Nm) :
    (c.endFields s).interp m = c.interpSources m (s.spect m) (s.interp m) := by
  unfold Cfg.endFields
  dsimp only [onModes]
  rw [if_pos hm]

theorem bwd_idem (Nz Nr : ℕ) [NeZero Nz] (M : ℕ → ℕ → ℝ) (a out : Buf) :
    bwd Nz Nr M a (bwd Nz Nr M a out) = bwd Nz Nr M a out := by
  funext i j
  unfold bwd
  split_ifs <;> rfl

theorem interpVect_idem (m : ℕ) (a b o o' : Buf) :
    c.toInterpVect m a b (c.toInterpVect m a b o o').1 (c.toInterpVect m a b o o').2 = c.toInterpVect m a b o o' := by
  rw [toInterpVect_eq, toInterpVect_eq]
  refine Prod.ext ?_ ?_ <;>
  · funext i j
    dsimp only
    split_ifs <;> rfl

theorem settled_end (s : Sim) : c.Settled (c.endFields s) := by
  intro m hm
  rw [end_interp s hm]
  have e : (c.endFields s).spect = s.spect := rfl
  rw [e]
  unfold Cfg.interpSources
  dsimp only
  rw [interpVect_idem, toInterpScal_eq, toInterpScal_eq, toInterpScal_eq, toInterpScal_eq, bwd_idem, bwd_idem]
  exact ⟨rfl, rfl⟩

theorem Twin.synced (hB : c.Blind D) (h : Twin c D f A j r s s') (hs : c.Synced s) : c.Synced s' := by
  intro m hm
  obtain ⟨i, hE, hBi⟩ := hs m hm
  obtain ⟨e1, e2⟩ := interpEB_same hB hm (h.em m hm) (i := i) (i' := i) rfl rfl
  exact ⟨i, by rw [h.E m hm, hE, e1], by rw [h.B m hm, hBi, e2]⟩

theorem SameSeen.symm (h : SameSeen c s s') : SameSeen c s' s where
  zmin := h.zmin.symm
  zmax := h.zmax.symm
  time := h.time.symm
  iteration := h.iteration.symm
  species := h.species.flip.imp fun _ _ => SameSpecies'.symm
  E := fun m hm => (h.E m hm).symm
  B := fun m hm => (h.B m hm).symm
  Nz := fun m hm => (h.Nz m hm).symm
  Nr := fun m hm => (h.Nr m hm).symm
  kz := fun m hm => (h.kz m hm).symm
  kr := fun m hm => (h.kr m hm).symm
  ptcl := h.ptcl.flip.imp fun _ _ => SameSpecies'.symm
  J := fun m hm => (h.J m hm).symm
  rho := fun m hm => (h.rho m hm).symm

theorem SameSeen.trans {s'' : Sim} (h : SameSeen c s s') (h' : SameSeen c s' s'') : SameSeen c s s'' where
  zmin := h'.zmin.trans h.zmin
  zmax := h'.zmax.trans h.zmax
  time := h'.time.trans h.time
  iteration := h'.iteration.trans h.iteration
  species := forall₂_trans h.species h'.species fun _ _ _ => SameSpecies'.trans
  E := fun m hm => (h'.E m hm).trans (h.E m hm)
  B := fun m hm => (h'.B m hm).trans (h.B m hm)
  Nz := fun m hm => ⟨(h.Nz m hm).1, (h'.Nz m hm).2⟩
  Nr := fun m hm => ⟨(h.Nr m hm).1, (h'.Nr m hm).2⟩
  kz := fun m hm => (h'.kz m hm).trans (h.kz m hm)
  kr := fun m hm => (h'.kr m hm).trans (h.kr m hm)
  ptcl := forall₂_trans h.ptcl h'.ptcl fun _ _ _ => SameSpecies'.trans
  J := fun m hm => (h'.J m hm).trans (h.J m hm)
  rho := fun m hm => (h'.rho m hm).trans (h.rho m hm)

/-! ### Both succeed or none -/

/-- Both succeed, with related results, or none. -/
def Both {α β : Type} (P : α → β → Prop) (x : Except PyErr α) (y : Except PyErr β) : Prop :=
  (∀ a, x = .ok a → ∃ b, y = .ok b ∧ P a b) ∧ (∀ b, y = .ok b → ∃ a, x = .ok a ∧ P a b)

theorem Both.bind {α β γ δ : Type} {P : α → β → Prop} {Q : γ → δ → Prop} {x : Except PyErr α} {y : Except PyErr β}
    {u : α → Except PyErr γ} {v : β → Except PyErr δ} (h : Both P x y) (hu : ∀ a b, P a b → Both Q (u a) (v b)) :
    Both Q (x >>= u) (y >>= v) := by
  constructor
  · intro a ha
    obtain ⟨x1, h1, ha⟩ := (except_bind_ok _ _ _).1 ha
    obtain ⟨y1, h2, hP⟩ := h.1 x1 h1
    obtain ⟨b, hb, hQ⟩ := (hu _ _ hP).1 a ha
    exact ⟨b, (except_bind_ok _ _ _).2 ⟨y1, h2, hb⟩, hQ⟩
  · intro b hb
    obtain ⟨y1, h1, hb⟩ := (except_bind_ok _ _ _).1 hb
    obtain ⟨x1, h2, hP⟩ := h.2 y1 h1
    obtain ⟨a, ha, hQ⟩ := (hu _ _ hP).2 b hb
    exact ⟨a, (except_bind_ok _ _ _).2 ⟨x1, h2, ha⟩, hQ⟩

theorem Both.pure {α β : Type} {P : α → β → Prop} {a : α} {b : β} (h : P a b) :
    Both P (.ok a) (.ok b) :=
  ⟨fun _ e => ⟨b, rfl, Except.ok.inj e ▸ h⟩, fun _ e => ⟨a, rfl, Except.ok.inj e ▸ h⟩⟩

theorem Both.mono {α β : Type} {P Q : α → β → Prop} {x : Except PyErr α} {y : Except PyErr β} (h : Both P x y)
    (hPQ : ∀ a b, P a b → Q a b) : Both Q x y :=
  ⟨fun a ha => let ⟨b, hb, hP⟩ := h.1 a ha; ⟨b, hb, hPQ _ _ hP⟩, fun b hb => let ⟨a, ha, hP⟩ := h.2 b hb; ⟨a, ha, hPQ _ _ hP⟩⟩

theorem Twin.both (hn : 0 < c.nthreads) (hp : c.exchangePeriod = 1) (hB : c.Blind D) (L L' : List (Opts × ℕ)) (hne : L ≠ [])
    (hL : L.map Prod.fst = L'.map Prod.fst) (h : Twin c D f A j r s s')
    (hk : ∀ m < c.Nm, ∀ ir < c.Nr, D m ir → (s.spect m).kr ir = 0) :
    Both (fun t t' => Twin c D True (fun n => n = .prev) True True t t' ∧ (∀ m < c.Nm, (t'.spect m).kr = (s'.spect m).kr) ∧
      c.Synced t) (c.iters L s) (c.iters L' s') := by
  constructor
  · intro t ht
    obtain ⟨t', ht', T, hkt, hst⟩ := Twin.iters hn hp hB L L' _ _ _ _ s s' t hne hL h hk ht
    exact ⟨t', ht', T, fun m hm => by rw [T.kr m hm, hkt m hm, h.kr m hm], hst⟩
  · intro t' ht'
    have hne' : L' ≠ [] := by
      rintro rfl
      exact hne (by simpa using hL)
    obtain ⟨t, ht, T, hkt, hst⟩ := Twin.iters hn hp hB L' L _ _ _ _ s' s t' hne' hL.symm h.symm
      (fun m hm ir hr hD => by rw [h.kr m hm]; exact hk m hm ir hr hD) ht'
    exact ⟨t, ht, T.symm, hkt, T.synced hB hst⟩

/-! ### Calls -/

/-- A state between two calls, and the state of the iterations. -/
def Cfg.Before (c : Cfg) [NeZero c.Nz] (t b : Sim) : Prop :=
  Twin c Low False (fun _ => False) False False (c.startFields t) b ∧ ∀ m < c.Nm, ∀ ir < c.Nr, Low m ir → (b.spect m).kr ir = 0

/-- The same after at least one iteration. -/
structure Cfg.After (c : Cfg) [NeZero c.Nz] (t b : Sim) : Prop where
  synced : c.Synced t
  settled : c.Settled t
  twin : Twin c Low True (fun n => n = .prev) False False t b
  same : SameSeen c t (c.endFields b)

theorem Cfg.After.before (hT : ∀ m < c.Nm, TransOk m (c.trans m)) {t b : Sim} (h : c.After t b)
    (hk : ∀ m < c.Nm, ∀ ir < c.Nr, Low m ir → (b.spect m).kr ir = 0) : c.Before t b := by
  refine ⟨?_, hk⟩
  have h1 := (h.synced.twin h.twin.sized hT).symm.mono (A' := fun _ => False) (j' := False) (r' := False)
    (fun _ h => h.elim) (fun h => h.elim) (fun h => h.elim)
  have h2 := h.twin.mono (A' := fun _ => False) (j' := False) (r' := False) (fun _ h => h.elim) (fun h => h.elim) (fun h => h.elim)
  exact (h1.trans h2).forget fun h => h.elim

theorem end_EB (s : Sim) {m : ℕ} (hm : m < c.Nm) : ((c.endFields s).interp m).E = (s.interp m).E ∧
    ((c.endFields s).interp m).B = (s.interp m).B := by
  rw [end_interp s hm]
  exact ⟨rfl, rfl⟩

theorem Twin.endFields (h : Twin c D f A j r s s') : Twin c D f A False False (c.endFields s) s' :=
  { h with
    E := fun m hm => by rw [(end_EB s hm).1]; exact h.E m hm
    B := fun m hm => by rw [(end_EB s hm).2]; exact h.B m hm
    J := fun x => x.elim
    irho := fun x => x.elim }

theorem synced_end (h : c.Synced s) : c.Synced (c.endFields s) := by
  intro m hm
  rw [(end_EB s hm).1, (end_EB s hm).2]
  exact h m hm

/-- An empty call. -/
theorem empty_call (hT : ∀ m < c.Nm, TransOk m (c.trans m)) {t b : Sim} (h : c.Before t b) :
    c.Before (c.endFields (c.startFields t)) b ∧ (c.After t b → c.After (c.endFields (c.startFields t)) b) := by
  set u := c.endFields (c.startFields t) with hu
  have hE : ∀ m < c.Nm, (u.interp m).E = (t.interp m).E ∧ (u.interp m).B = (t.interp m).B := fun m hm => end_EB (c.startFields t) hm
  have hsp : ∀ m < c.Nm, (t.spect m).SameShape (u.spect m) := fun m hm => start_shape c t hm
  have hsz : c.Sized t := fun m hm => ⟨(start_shape c t hm).1.symm.trans (h.1.sized m hm).1,
    (start_shape c t hm).2.1.symm.trans (h.1.sized m hm).2⟩
  constructor
  · refine ⟨?_, h.2⟩
    have st : SameStored c u t :=
      { zmin := rfl, zmax := rfl, time := rfl, iteration := rfl, species := species_refl _ _
        E := fun m hm => (hE m hm).1.symm, B := fun m hm => (hE m hm).2.symm
        Nz := fun m hm => ⟨(hsp m hm).1.trans (hsz m hm).1, (hsz m hm).1⟩
        Nr := fun m hm => ⟨(hsp m hm).2.1.trans (hsz m hm).2, (hsz m hm).2⟩
        kz := fun m hm => (hsp m hm).2.2.1.symm
        kr := fun m hm => (hsp m hm).2.2.2.symm }
    have T := twin_start st
    have T' : Twin c Low False (fun _ => False) False False (c.startFields u) (c.startFields t) :=
      T.widen fun _ _ h => h.elim
    exact T'.trans h.1
  · intro hA
    have T := (hA.synced.twin hsz hT)
    have e : ∀ m < c.Nm, (u.interp m).J = (t.interp m).J ∧ (u.interp m).rho = (t.interp m).rho := by
      intro m hm
      have hT' := (T.mono (A' := fun n => n = .prev) (j' := True) (r' := True) (fun _ _ => trivial) id id)
      have key := hT'.finish
      have k1 := key.J m hm
      have k2 := key.rho m hm
      rw [end_interp t hm] at k1 k2
      exact ⟨k1.trans (hA.settled m hm).1, k2.trans (hA.settled m hm).2⟩
    have Tu : Twin c Low True (fun n => n = .prev) False False u t :=
      (T.symm.mono (A' := fun n => n = .prev) (fun _ _ => trivial) id id).endFields
    refine ⟨Tu.symm.synced (blind_low hT) hA.synced, settled_end _, Tu.trans hA.twin, SameSeen.trans ?_ hA.same⟩
    exact
    { zmin := rfl, zmax := rfl, time := rfl, iteration := rfl, species := species_refl _ _
      E := fun m hm => (hE m hm).1.symm, B := fun m hm => (hE m hm).2.symm
      Nz := fun m hm => ⟨(hsp m hm).1.trans (hsz m hm).1, (hsz m hm).1⟩
      Nr := fun m hm => ⟨(hsp m hm).2.1.trans (hsz m hm).2, (hsz m hm).2⟩
      kz := fun m hm => (hsp m hm).2.2.1.symm
      kr := fun m hm => (hsp m hm).2.2.2.symm
      ptcl := species_refl _ _
      J := fun m hm => (e m hm).1.symm
      rho := fun m hm => (e m hm).2.symm }

theorem step_both (hn : 0 < c.nthreads) (hp : c.exchangePeriod = 1) (hT : ∀ m < c.Nm, TransOk m (c.trans m)) (n : ℕ) (o : Opts)
    (L : List (Opts × ℕ)) (hL : L.map Prod.fst = List.replicate n o) {t b : Sim} (h : c.Before t b) :
    Both (fun t' b' => c.Before t' b' ∧ (n ≠ 0 ∨ c.After t b → c.After t' b')) (c.step n o t) (c.iters L b) := by
  by_cases h0 : n = 0
  · subst h0
    obtain rfl : L = [] := by simpa using hL
    obtain ⟨h1, h2⟩ := empty_call hT h
    exact Both.pure ⟨h1, fun hx => h2 (hx.resolve_left fun x => x rfl)⟩
  · have hne : ((List.range' 0 n).map fun i => (o, i)) ≠ [] := by
      obtain ⟨k, rfl⟩ := Nat.exists_eq_succ_of_ne_zero h0
      rw [List.range'_succ]
      simp
    have hb := h.1.both hn hp (blind_low hT) ((List.range' 0 n).map fun i => (o, i)) L hne
      (by rw [hL, List.map_map]; exact (List.eq_replicate_iff.2 ⟨by simp, by simp⟩))
      (fun m hm ir hr hD => by rw [← h.1.kr m hm]; exact h.2 m hm ir hr hD)
    have e : c.step n o t = (c.iters ((List.range' 0 n).map fun i => (o, i)) (c.startFields t)) >>= fun a => Except.ok (c.endFields a) := by
      unfold Cfg.step
      rw [loop_iters]
      rfl
    have e' : c.iters L b = c.iters L b >>= fun a => Except.ok a := by
      cases c.iters L b <;> rfl
    rw [e, e']
    refine hb.bind ?_
    rintro a b' ⟨T, hk, hs⟩
    have hA : c.After (c.endFields a) b' := ⟨synced_end hs, settled_end a, T.endFields, T.finish⟩
    exact Both.pure ⟨hA.before hT fun m hm ir hr hD => by rw [hk m hm]; exact h.2 m hm ir hr hD, fun _ => hA⟩

theorem calls_both (hn : 0 < c.nthreads) (hp : c.exchangePeriod = 1) (hT : ∀ m < c.Nm, TransOk m (c.trans m)) (L : List (ℕ × Opts)) :
    ∀ (L' : List (Opts × ℕ)) (t b : Sim), L'.map Prod.fst = Spec.perIteration L → c.Before t b →
    Both (fun t' b' => c.Before t' b' ∧ (Spec.perIteration L ≠ [] ∨ c.After t b → c.After t' b')) (c.calls L t) (c.iters L' b) := by
  induction L with
  | nil =>
    intro L' t b hL h
    obtain rfl : L' = [] := by simpa [Spec.perIteration] using hL
    exact Both.pure ⟨h, fun hx => hx.resolve_left fun x => x rfl⟩
  | cons x L ih =>
    obtain ⟨n, o⟩ := x
    intro L' t b hL h
    have he : Spec.perIteration ((n, o) :: L) = List.replicate n o ++ Spec.perIteration L := rfl
    obtain ⟨L1, L2, rfl, h1, h2⟩ := List.map_eq_append_iff.1 (hL.trans he)
    have e : c.iters (L1 ++ L2) b = c.iters L1 b >>= c.iters L2 := iters_append L1 L2 b
    rw [e]
    refine (step_both hn hp hT n o L1 h1 h).bind ?_
    rintro t' b' ⟨hb, ha⟩
    refine (ih L2 t' b' h2 hb).mono ?_
    rintro t2 b2 ⟨q1, q2⟩
    refine ⟨q1, fun hx => q2 ?_⟩
    rcases hx with hx | hx
    · rw [he] at hx
      by_cases hl : Spec.perIteration L = []
      · refine Or.inr (ha (Or.inl ?_))
        rintro rfl
        exact hx (by simp [hl])
      · exact Or.inl hl
    · exact Or.inr (ha (Or.inr hx))

end Fbpic.Pic
