import Verif.Lemmas.FieldExchange
import Verif.Props.Decomposition
import Mathlib.Algebra.BigOperators.Group.Finset.Sigma
import Mathlib.Algebra.BigOperators.Ring.Finset

/-!
# C04: guard-cell exchange ('replace'); C05: guard-cell reduction ('add')

`Comm.Describes` (Lemmas/FieldExchange.lean) says that the specification layout is the one the
communicator reports: `get_Nz_and_iz(local=True, with_damp=True, with_guard=True)`.
-/

namespace Fbpic

variable {K : Type} [Field K] [LinearOrder K] [IsStrictOrderedRing K] [FloorRing K]

/-- The setting of C04/C05: the communicator was accepted by its constructor and every rank was
accepted by `divide_into_domain`. -/
structure Accepted (a : CommArgs K) (c : Comm) (lay : Spec.Layout) : Prop where
  made : mkComm a = .ok c
  domains : ∀ r < c.size, ∃ (z0 dz : K) (res : K × K × ℕ), c.divideIntoDomain z0 dz r = .ok res
  layout : c.Describes lay

omit [IsStrictOrderedRing K] in
theorem Accepted.geo {a : CommArgs K} {c : Comm} {lay : Spec.Layout} (h : Accepted a c lay) :
    Geo c lay := by
  obtain ⟨_, _, h1, h2, _⟩ := mkComm_spec h.made
  refine ⟨h.layout, h1, h2, fun r hr => ?_⟩
  obtain ⟨z0, dz, res, hres⟩ := h.domains r hr
  have e := Comm.getNzIz_local c true false r
  have := C01_accepted_size c z0 dz r res hres _ _ e
  simpa using this

section
variable {A : Type} [Inhabited A]

omit [IsStrictOrderedRing K] in
/-- **C04.** After `exchange_fields(..., 'replace')` every stored cell that is the same global cell
as a cell owned by some rank `s` holds the value that `s` held; cells that nobody owns (guard cells
beyond an open end) are unchanged. -/
theorem C04_replace [Add A] {a : CommArgs K} {c : Comm} {lay : Spec.Layout}
    (hacc : Accepted a c lay) (nf Nm : ℕ) (F F' : RankFields A)
    (hx : exchangeFields c .replace nf Nm lay.N F = .ok F')
    (r m k j : ℕ) (hr : r < lay.n) (hm : m < Nm) (hk : k < nf) (hj : j < lay.N r) :
    (∀ s i, lay.Owned s i → lay.Same r j s i → F' r m k j = F s m k i) ∧
    ((∀ s i, lay.Owned s i → ¬ lay.Same r j s i) → F' r m k j = F r m k j) := by
  have g := hacc.geo
  rw [g.desc.1] at hr
  by_cases h1 : c.size = 1
  · -- nothing is exchanged
    have hF : F' = F := by
      unfold exchangeFields at hx; rw [if_pos h1] at hx; cases hx; rfl
    refine ⟨fun s i ho hsame => ?_, fun _ => by rw [hF]⟩
    obtain ⟨hs, hi1, hi2⟩ := ho
    rw [g.desc.1] at hs
    rw [g.desc.2.1] at hi1 hi2
    obtain ⟨rfl, rfl⟩ := g.same_single h1 hr hs hj (by omega) hsame
    rw [hF]
  · obtain ⟨eL, eR, eN⟩ := exchange_replace_eq hx h1 hr hm hk (g.N_ge hr) hj
    have hNr := g.N_ge hr
    constructor
    · intro s i ho hsame
      obtain ⟨hs, hi1, hi2⟩ := ho
      rw [g.desc.1] at hs
      rw [g.desc.2.1] at hi1 hi2
      rcases g.same_cases hr hs hj (by omega) hsame with ⟨h, h'⟩ | ⟨h, h2, h3⟩ | ⟨h, h2, h3⟩
      · subst h; subst h'; exact eN (Or.inr (by omega)) (Or.inr (by omega))
      · rw [eL s h (by omega), h3]
      · rw [eR s h (by omega)]; congr 1; omega
    · intro hno
      apply eN
      · cases hl : c.leftProc r with
        | none => exact Or.inl rfl
        | some l =>
          right
          by_contra hlt
          obtain ⟨l', rfl, hls, -⟩ := Comm.leftProc_nat hr hl
          have := g.same_left hr hl (j := j) (by omega)
          have hNl := g.N_ge hls
          exact hno l' _ ⟨by rw [g.desc.1]; exact hls, by rw [g.desc.2.1]; omega,
            by rw [g.desc.2.1]; omega⟩ this.1
      · cases hp : c.rightProc r with
        | none => exact Or.inl rfl
        | some p =>
          right
          by_contra hlt
          obtain ⟨p', rfl, hps, -⟩ := Comm.rightProc_nat hr hp
          have := g.same_right hr hp (j := j) (by omega) hj
          have hNp := g.N_ge hps
          exact hno p' _ ⟨by rw [g.desc.1]; exact hps, by rw [g.desc.2.1]; omega,
            by rw [g.desc.2.1]; omega⟩ this.1

omit [IsStrictOrderedRing K] in
/-- **C04** (owned cells): cells owned by the rank itself are unchanged. -/
theorem C04_owned_unchanged [Add A] {a : CommArgs K} {c : Comm} {lay : Spec.Layout}
    (hacc : Accepted a c lay) (nf Nm : ℕ) (F F' : RankFields A)
    (hx : exchangeFields c .replace nf Nm lay.N F = .ok F')
    (r m k j : ℕ) (hm : m < Nm) (hk : k < nf) (ho : lay.Owned r j) :
    F' r m k j = F r m k j := by
  refine (C04_replace hacc nf Nm F F' hx r m k j ho.1 hm hk ?_).1 r j ho ?_
  · have := ho.2.2; omega
  · unfold Spec.Layout.Same; cases lay.period <;> simp [Int.ModEq.refl]

omit [IsStrictOrderedRing K] in
/-- **C04** (idempotence): repeating the exchange changes nothing. -/
theorem C04_idempotent [Add A] {a : CommArgs K} {c : Comm} {lay : Spec.Layout}
    (hacc : Accepted a c lay) (nf Nm : ℕ) (F F' F'' : RankFields A)
    (hx : exchangeFields c .replace nf Nm lay.N F = .ok F')
    (hx' : exchangeFields c .replace nf Nm lay.N F' = .ok F'')
    (r m k j : ℕ) (hr : r < lay.n) (hm : m < Nm) (hk : k < nf) (hj : j < lay.N r) :
    F'' r m k j = F' r m k j := by
  have h1 := C04_replace hacc nf Nm F F' hx r m k j hr hm hk hj
  have h2 := C04_replace hacc nf Nm F' F'' hx' r m k j hr hm hk hj
  by_cases h : ∃ s i, lay.Owned s i ∧ lay.Same r j s i
  · obtain ⟨s, i, ho, hs⟩ := h
    rw [h2.1 s i ho hs, h1.1 s i ho hs, C04_owned_unchanged hacc nf Nm F F' hx s m k i hm hk ho]
  · push Not at h
    exact h2.2 h

/-- **C04/C05** (when does the exchange raise): only with several ranks and no guard cells. -/
theorem C04_ok_iff [Add A] (c : Comm) (meth : XMethod) (nf Nm : ℕ) (N : ℕ → ℕ) (F : RankFields A) :
    (∃ F', exchangeFields c meth nf Nm N F = .ok F') ↔ (c.size = 1 ∨ 0 < c.nGuard) := by
  unfold exchangeFields
  by_cases h1 : c.size = 1
  · simp [h1]
  · by_cases h2 : c.nGuard = 0
    · simp [h1, h2]
    · simp [h1, h2]; omega

omit [IsStrictOrderedRing K] in
/-- **C05.** After `exchange_fields(..., 'add')` every stored cell holds the sum of what all ranks
held for that global cell. -/
theorem C05_add [AddCommMonoid A] {a : CommArgs K} {c : Comm} {lay : Spec.Layout}
    (hacc : Accepted a c lay) (nf Nm : ℕ) (F F' : RankFields A)
    (hx : exchangeFields c .add nf Nm lay.N F = .ok F')
    (r m k j : ℕ) (hr : r < lay.n) (hm : m < Nm) (hk : k < nf) (hj : j < lay.N r) :
    F' r m k j = lay.total (fun s i => F s m k i) r j := by
  have g := hacc.geo
  rw [g.desc.1] at hr
  have hmem : ∀ s i, (⟨s, i⟩ : (_ : ℕ) × ℕ) ∈ lay.stored.filter (fun p => lay.Same r j p.1 p.2) ↔
      (s < c.size ∧ i < lay.N s) ∧ lay.Same r j s i := by
    intro s i; simp [Spec.Layout.stored, g.desc.1]
  have hself : lay.Same r j r j := by
    unfold Spec.Layout.Same; cases lay.period <;> simp [Int.ModEq.refl]
  have hNr := g.N_ge hr
  -- the set of stored copies
  have single : (∀ s i, s < c.size → i < lay.N s → lay.Same r j s i → s = r ∧ i = j) →
      lay.total (fun s i => F s m k i) r j = F r m k j := by
    intro huniq
    have : lay.stored.filter (fun p => lay.Same r j p.1 p.2) = {⟨r, j⟩} := by
      ext ⟨s, i⟩
      rw [hmem, Finset.mem_singleton]
      constructor
      · rintro ⟨⟨h1, h2⟩, h3⟩; obtain ⟨rfl, rfl⟩ := huniq s i h1 h2 h3; rfl
      · intro h; cases h; exact ⟨⟨hr, hj⟩, hself⟩
    rw [Spec.Layout.total, this, Finset.sum_singleton]
  have pair : ∀ s0 i0, s0 < c.size → i0 < lay.N s0 → lay.Same r j s0 i0 → s0 ≠ r →
      (∀ s i, s < c.size → i < lay.N s → lay.Same r j s i →
        (s = r ∧ i = j) ∨ (s = s0 ∧ i = i0)) →
      lay.total (fun s i => F s m k i) r j = F r m k j + F s0 m k i0 := by
    intro s0 i0 hs0 hi0 hsame hne huniq
    have : lay.stored.filter (fun p => lay.Same r j p.1 p.2) = {⟨r, j⟩, ⟨s0, i0⟩} := by
      ext ⟨s, i⟩
      rw [hmem, Finset.mem_insert, Finset.mem_singleton]
      constructor
      · rintro ⟨⟨h1, h2⟩, h3⟩
        rcases huniq s i h1 h2 h3 with ⟨rfl, rfl⟩ | ⟨rfl, rfl⟩
        · exact Or.inl rfl
        · exact Or.inr rfl
      · rintro (h | h)
        · cases h; exact ⟨⟨hr, hj⟩, hself⟩
        · cases h; exact ⟨⟨hs0, hi0⟩, hsame⟩
    rw [Spec.Layout.total, this, Finset.sum_pair]
    intro h; apply hne; cases h; rfl
  by_cases h1 : c.size = 1
  · have hF : F' = F := by
      unfold exchangeFields at hx; rw [if_pos h1] at hx; cases hx; rfl
    rw [hF]
    symm
    apply single
    intro s i hs hi hsame
    exact g.same_single h1 hr hs hj hi hsame
  · obtain ⟨eL, eR, eN⟩ := exchange_add_eq hx h1 hr hm hk hNr hj
    by_cases hL : (∃ l : ℕ, c.leftProc r = some (l : ℤ)) ∧ j < 2 * c.nGuard
    · obtain ⟨⟨l, hl⟩, hlt⟩ := hL
      rw [eL l hl hlt]
      obtain ⟨l', e, hls, hc⟩ := Comm.leftProc_nat hr hl
      have : l = l' := by exact_mod_cast e
      subst this
      have hs := g.same_left hr hl hlt
      symm
      apply pair l _ hls hs.2 hs.1 (by omega)
      intro s i hs' hi hsame
      rcases g.same_cases hr hs' hj hi hsame with h | ⟨h, h2, h3⟩ | ⟨h, h2, h3⟩
      · exact Or.inl h
      · right
        rw [hl] at h
        have : l = s := by simpa using h
        subst this; exact ⟨rfl, h3⟩
      · omega
    · by_cases hR : (∃ p : ℕ, c.rightProc r = some (p : ℤ)) ∧ lay.N r ≤ j + 2 * c.nGuard
      · obtain ⟨⟨p, hp⟩, hge⟩ := hR
        rw [eR p hp hge]
        obtain ⟨p', e, hps, hc⟩ := Comm.rightProc_nat hr hp
        have : p = p' := by exact_mod_cast e
        subst this
        have hs := g.same_right hr hp hge hj
        symm
        apply pair p _ hps hs.2 hs.1 (by omega)
        intro s i hs' hi hsame
        rcases g.same_cases hr hs' hj hi hsame with h | ⟨h, h2, h3⟩ | ⟨h, h2, h3⟩
        · exact Or.inl h
        · omega
        · right
          rw [hp] at h
          have : p = s := by simpa using h
          subst this; exact ⟨rfl, h3⟩
      · -- no other copy
        symm
        rw [eN]
        · apply single
          intro s i hs' hi hsame
          rcases g.same_cases hr hs' hj hi hsame with h | ⟨h, h2, h3⟩ | ⟨h, h2, h3⟩
          · exact h
          · exact absurd ⟨⟨s, h⟩, h2⟩ hL
          · exact absurd ⟨⟨s, h⟩, h2⟩ hR
        · cases hl : c.leftProc r with
          | none => exact Or.inl rfl
          | some l =>
            obtain ⟨l', rfl, -, -⟩ := Comm.leftProc_nat hr hl
            right; by_contra hlt; exact hL ⟨⟨l', hl⟩, by omega⟩
        · cases hp : c.rightProc r with
          | none => exact Or.inl rfl
          | some p =>
            obtain ⟨p', rfl, -, -⟩ := Comm.rightProc_nat hr hp
            right; by_contra hlt; exact hR ⟨⟨p', hp⟩, by omega⟩

omit [IsStrictOrderedRing K] in
/-- **C05** (agreement): two ranks that store the same global cell agree afterwards. -/
theorem C05_agree [AddCommMonoid A] {a : CommArgs K} {c : Comm} {lay : Spec.Layout}
    (hacc : Accepted a c lay) (nf Nm : ℕ) (F F' : RankFields A)
    (hx : exchangeFields c .add nf Nm lay.N F = .ok F')
    (r s m k j i : ℕ) (hr : r < lay.n) (hs : s < lay.n) (hm : m < Nm) (hk : k < nf)
    (hj : j < lay.N r) (hi : i < lay.N s) (hsame : lay.Same r j s i) :
    F' r m k j = F' s m k i := by
  rw [C05_add hacc nf Nm F F' hx r m k j hr hm hk hj, C05_add hacc nf Nm F F' hx s m k i hs hm hk hi]
  unfold Spec.Layout.total
  congr 1
  ext p
  simp only [Finset.mem_filter, and_congr_right_iff]
  intro _
  unfold Spec.Layout.Same at *
  cases hp : lay.period with
  | none => simp only [hp] at *; omega
  | some L => simp only [hp] at *; exact ⟨fun h => hsame.symm.trans h, fun h => hsame.trans h⟩

omit [IsStrictOrderedRing K] in
/-- **C05** (nothing lost, nothing counted twice): the total over the owned cells of all ranks after
the exchange is the total of what all ranks had deposited inside the global domain (with damping
cells) before it. `(N, lo)` is the global domain reported by the communicator. -/
theorem C05_conserves [AddCommMonoid A] {a : CommArgs K} {c : Comm} {lay : Spec.Layout}
    (hacc : Accepted a c lay) (h0 : 0 < c.size) (nf Nm : ℕ) (F F' : RankFields A)
    (hx : exchangeFields c .add nf Nm lay.N F = .ok F') (N : ℕ) (lo : ℤ)
    (hg : c.getNzIz false true false none = .ok (N, lo))
    (m k : ℕ) (hm : m < Nm) (hk : k < nf) :
    ∑ p ∈ lay.owned, F' p.1 m k p.2
      = ∑ p ∈ lay.stored.filter (fun p => lay.InDomain lo (lo + N) p.1 p.2), F p.1 m k p.2 := by
  have g := hacc.geo
  have mem_stored : ∀ p : (_ : ℕ) × ℕ, p ∈ lay.stored ↔ p.1 < c.size ∧ p.2 < lay.N p.1 := by
    intro p; simp [Spec.Layout.stored, g.desc.1]
  have mem_owned : ∀ p : (_ : ℕ) × ℕ, p ∈ lay.owned ↔ lay.Owned p.1 p.2 := by
    intro p
    simp only [Spec.Layout.owned, Finset.mem_filter, mem_stored]
    refine ⟨fun h => h.2, fun h => ⟨⟨by rw [← g.desc.1]; exact h.1, ?_⟩, h⟩⟩
    have := h.2.2; omega
  have step1 : ∑ p ∈ lay.owned, F' p.1 m k p.2
      = ∑ p ∈ lay.owned, ∑ q ∈ lay.stored.filter (fun q => lay.Same p.1 p.2 q.1 q.2),
          F q.1 m k q.2 := by
    apply Finset.sum_congr rfl
    intro p hp
    rw [mem_owned] at hp
    have := hp.2.2
    rw [C05_add hacc nf Nm F F' hx p.1 m k p.2 hp.1 hm hk (by omega)]
    rfl
  have step2 : ∑ p ∈ lay.owned, ∑ q ∈ lay.stored.filter (fun q => lay.Same p.1 p.2 q.1 q.2),
          F q.1 m k q.2
      = ∑ q ∈ lay.stored, ∑ p ∈ lay.owned.filter (fun p => lay.Same p.1 p.2 q.1 q.2),
          F q.1 m k q.2 := by
    apply Finset.sum_comm'
    intro x y
    simp only [Finset.mem_filter]
    tauto
  rw [step1, step2, Finset.sum_filter]
  apply Finset.sum_congr rfl
  intro q hq
  rw [mem_stored] at hq
  by_cases hd : lay.InDomain lo (lo + N) q.1 q.2
  · rw [if_pos hd]
    obtain ⟨r, j, ho, hsame⟩ := (g.inDomain_iff h0 hg hq.1 hq.2).mp hd
    have : lay.owned.filter (fun p => lay.Same p.1 p.2 q.1 q.2) = {⟨r, j⟩} := by
      ext p
      simp only [Finset.mem_filter, mem_owned, Finset.mem_singleton]
      constructor
      · rintro ⟨h1, h2⟩
        obtain ⟨e1, e2⟩ := g.owned_unique ho h1 (Geo.same_trans hsame (Geo.same_symm h2))
        cases p; simp only at e1 e2; subst e1; subst e2; rfl
      · rintro rfl; exact ⟨ho, hsame⟩
    rw [this, Finset.sum_singleton]
  · rw [if_neg hd]
    have : lay.owned.filter (fun p => lay.Same p.1 p.2 q.1 q.2) = ∅ := by
      rw [Finset.filter_eq_empty_iff]
      intro p hp hs
      rw [mem_owned] at hp
      exact hd ((g.inDomain_iff h0 hg hq.1 hq.2).mpr ⟨p.1, p.2, hp, hs⟩)
    rw [this, Finset.sum_empty]

/-- Arguments of a concrete run used in the examples below: 2 periodic ranks, 2 guard cells. -/
def exArgs : CommArgs ℚ :=
  { Nz := 8, size := 2, boundaries := .str "periodic", nOrder := 16, nGuard := some 2, nDampZ := 5
    nInject := none, exchangePeriod := some 1, stencil := 10, cdt := 1, dz := 1 }

/-- The communicator built from `exArgs`. -/
def exComm2 : Comm :=
  { NzGlobal := 8, size := 2, nGuard := 2, nzDamp := 0, nInject := 0, bz := .periodic
    br := .reflective, exchangePeriod := 1 }

/-- The layout reported by `exComm2`. -/
def exLayout : Spec.Layout :=
  { n := 2, first := fun r => 4 * r - 2, N := fun _ => 8, ng := 2, period := some 8 }

/-- Non-vacuity of `Accepted`. -/
theorem exAccepted : Accepted exArgs exComm2 exLayout := by
  refine ⟨by decide +kernel, ?_, by decide, by decide, by decide, ?_⟩
  · intro r hr
    have e := Comm.getNzIz_local exComm2 true true r
    have hr' : r < 2 := hr
    refine ⟨0, 1, ?_⟩
    exact ((C01_reject_iff exComm2 (0 : ℚ) 1 r _ _ e).2 (by
      interval_cases r <;> decide)).elim fun zmin h => h.elim fun zmax h => ⟨_, h⟩
  · intro r hr
    have hr' : r < 2 := hr
    interval_cases r <;> decide

/-- Non-vacuity: fields `10*rank + row` on the two ranks; afterwards the left guard cells of rank 0
hold the values of rank 1's owned rows 4,5, and the added field in row 1 is `1 + 15`. -/
example : ∃ F' F'' : RankFields ℤ,
    exchangeFields exComm2 .replace 3 1 exLayout.N (fun r _ _ j => 10 * (r : ℤ) + j) = .ok F' ∧
    F' 0 0 2 0 = 14 ∧ F' 0 0 2 1 = 15 ∧ F' 0 0 2 2 = 2 ∧ F' 0 0 2 7 = 13 ∧
    exchangeFields exComm2 .add 3 1 exLayout.N (fun r _ _ j => 10 * (r : ℤ) + j) = .ok F'' ∧
    F'' 0 0 2 1 = 1 + 15 := by
  refine ⟨_, _, rfl, ?_, ?_, ?_, ?_, rfl, ?_⟩ <;> decide

end
end Fbpic
