import Verif.Lemmas.Ranks
import Verif.Props.Stretch

/-!
# C101: the number of processes changes neither the deposited charge and current nor the gathered fields

`Spec/Ranks.lean` says what "the same particles" and "the same cell" mean.
-/

namespace Fbpic

open Ranks Spec

section
variable {a : CommArgs ℝ} {n : ℕ} {c1 c : Comm} (h1 : mkComm { a with size := 1 } = .ok c1)
  (hc : mkComm { a with size := n } = .ok c) {S : Setup} (hdz : 0 < S.dz) (ht : 0 < S.nthreads) (hNz : 2 ≤ a.Nz)
  (hNr : 2 ≤ S.Nr)

include h1 hc hNz in
private theorem rows_one : 2 ≤ rows c1 0 ∧ (c.bz = .periodic → rows c1 0 = c.NzGlobal ∧ start c1 0 = 0) := by
  obtain ⟨n1, n2, s1, s2, hb, hper, hopen⟩ := mkComm_sizes h1 hc
  have e := rows_eq c1 0
  have e2 := start_eq c1 0
  have e3 := Comm.izLoc_zero c1 true
  simp only [Comm.nzLoc, n1, s1, Nat.div_one, Nat.mod_one, if_true] at e
  refine ⟨by omega, fun hp => ?_⟩
  obtain ⟨g1, d1, i1, -, -⟩ := hper hp
  simp only [g1, d1, i1] at e e2 e3
  constructor
  · simp at e; omega
  · simp at e3; omega

include h1 hc hNz in
private theorem rows_ge (r : ℕ) (hr : r < n) (hg : ∃ g, rankGrid c S r = .ok g) (h2 : 1 < n → 0 < c.nGuard) :
    2 ≤ rows c r := by
  obtain ⟨n1, n2, s1, s2, hb, hper, hopen⟩ := mkComm_sizes h1 hc
  by_cases hn : n = 1
  · subst hn
    have hr0 : r = 0 := by omega
    subst hr0
    have e := rows_eq c 0
    simp only [Comm.nzLoc, n2, s2, Nat.div_one, Nat.mod_one, if_true] at e
    omega
  · obtain ⟨g, hg⟩ := hg
    obtain ⟨res, hres⟩ := rankGrid_domain hg
    have h := C01_accepted_size c S.z0 S.dz r res hres _ _ (Comm.getNzIz_local c true false r)
    have := h2 (by omega)
    rw [rows_eq]
    simp at h
    omega

include h1 hc hNz in
private theorem one_grid (hr : 0 < n) (hg : ∀ r < n, ∃ g, rankGrid c S r = .ok g) : ∃ g, rankGrid c1 S 0 = .ok g := by
  obtain ⟨n1, n2, s1, s2, hb, hper, hopen⟩ := mkComm_sizes h1 hc
  obtain ⟨o1, o2⟩ := rows_one h1 hc hNz
  have hacc : Accepted { a with size := n } c (lay c) := accepted (S := S) hc fun r hr => hg r (by omega)
  have hdom : 4 * c1.nGuard ≤ rows c1 0 := by
    cases hbz : c.bz with
    | periodic => rw [(hper hbz).1]; omega
    | opened =>
      have h := open_rows s1 (by omega) (hopen hbz) (by omega : 0 < c.size)
      have hN := hacc.geo.N_ge (by omega : 0 < c.size)
      have : (lay c).N 0 = rows c 0 := rfl
      rw [(hopen hbz).1]
      omega
  obtain ⟨zm, zM, h⟩ := (C01_reject_iff c1 S.z0 S.dz 0 _ _ (Comm.getNzIz_local c1 true true 0)).2 (by
    have := rows_eq c1 0
    simp only [if_true]
    omega)
  unfold rankGrid
  rw [h]
  exact ⟨_, rfl⟩

include h1 hc hdz ht hNz hNr in
/-- **C101** (deposition). Take the same simulation (same arguments `a` of the communicator, same set-up `S`) with
one process and with `n` processes, with open or periodic boundaries, and the same particles, each of which is on
one of the `n` processes, with its shape inside the rows stored by that process. Then, after
`deposit('rho')` or `deposit('J')` with exchange of the guard cells, every cell stored by any of the `n` processes
— owned cells and guard cells — holds, for all modes and components, exactly the value that the single process
holds for that cell. Every stored cell has its counterpart. -/
theorem C101_deposit (f : Source) {sps : ℕ → List DepSpecies} {one : List DepSpecies} {F B : RankFields (ℕ → ℂ)}
    (hF : depositRanks c S f sps = .ok F) (hB : depositRanks c1 S f (fun _ => one) = .ok B)
    (hsame : SameSources (boxOf c S) n sps one)
    (hin : ∀ r < n, ∀ sp ∈ sps r, ∀ p ∈ sp.ptcls,
      Within (S.z0 + start c r * S.dz) S.dz (rows c r) sp.shape p.z)
    (hone : c.bz = .periodic → ∀ sp ∈ one, ∀ p ∈ sp.ptcls, Near S.z0 S.dz a.Nz sp.shape p.z)
    (r i : ℕ) (hr : r < n) (hi : i < rows c r) :
    (∃ j < rows c1 0, SameCell (periodOf c) (start c r + i) (start c1 0 + j)) ∧
    ∀ j < rows c1 0, SameCell (periodOf c) (start c r + i) (start c1 0 + j) →
      ∀ m < S.Nm, ∀ k < f.nf, ∀ ir < S.Nr, F r m k i ir = B 0 m k j ir := by
  obtain ⟨n1, n2, s1, s2, hb, hper, hopen⟩ := mkComm_sizes h1 hc
  obtain ⟨F0, hF1, -, hF3⟩ := (depositRanks_ok c S f sps F).1 hF
  obtain ⟨B0, hB1, -, hB3⟩ := (depositRanks_ok c1 S f _ B).1 hB
  obtain ⟨o1, o2⟩ := rows_one h1 hc hNz
  rw [s2] at hF1
  rw [s1] at hB1 hB3
  rw [if_neg (by omega)] at hB3
  have hB3' : B0 = B := Except.ok.inj hB3
  subst hB3'
  -- the exchange
  have hx : exchangeFields c .add f.nf S.Nm (lay c).N F0 = .ok F := by
    rw [← hF3]
    by_cases h : 1 < c.size
    · rw [if_pos h]; rfl
    · rw [if_neg h]; unfold exchangeFields; rw [if_pos (by omega)]; rfl
  have hacc : Accepted { a with size := n } c (lay c) :=
    accepted (S := S) hc fun r hr => ⟨_, (hF1 r (by omega)).choose_spec.1⟩
  have hgu : 1 < n → 0 < c.nGuard := by
    intro h
    have := (C04_ok_iff c .add f.nf S.Nm (lay c).N F0).1 ⟨F, hx⟩
    omega
  have hrows : ∀ s < n, 2 ≤ rows c s := fun s hs =>
    rows_ge (S := S) h1 hc hNz s hs ⟨_, (hF1 s hs).choose_spec.1⟩ hgu
  refine ⟨?_, ?_⟩
  · cases hbz : c.bz with
    | opened =>
      have h := open_rows s1 (by omega) (hopen hbz) (by omega : r < c.size)
      refine ⟨(start c r + i - start c1 0).toNat, by omega, ?_⟩
      have : periodOf c = none := by simp [periodOf, hbz]
      rw [this]
      show start c r + i = _
      omega
    | periodic =>
      obtain ⟨e1, e2⟩ := o2 hbz
      have : periodOf c = some c.NzGlobal := by simp [periodOf, hbz]
      have hpos : (0 : ℤ) < c.NzGlobal := by omega
      rw [this, e1, e2]
      have h3 := Int.emod_nonneg (start c r + i) hpos.ne'
      have h4 := Int.emod_lt_of_pos (start c r + i) hpos
      refine ⟨((start c r + i) % c.NzGlobal).toNat, by omega, ?_⟩
      show start c r + i ≡ _ [ZMOD c.NzGlobal]
      rw [Int.toNat_of_nonneg h3, zero_add]
      exact (Int.mod_modEq _ _).symm
  · intro j hj hcell m hm k hk ir hir
    -- the single process
    obtain ⟨g1, hg1, hd1⟩ := hB1 0 (by omega)
    have eg1 := rankGrid_eq c1 S hdz 0 g1 hg1 (by omega)
    obtain ⟨b, hb1, hb2⟩ := depositRank_ok S f g1 one (B0 0) hd1 m k hm hk
    rw [eg1] at hb1
    have vone := one_value hdz ht hNr hir o1 hb1 (periodOf c) (by
      cases hbz : c.bz with
      | opened =>
        refine Or.inl ⟨by simp [periodOf, hbz], fun sp hsp q hq => ?_⟩
        obtain ⟨s, hs, sp', hsp', hsh, p, hp, hpq⟩ := SameSources_mem hsame hsp hq
        have hz : q.z = p.z := by
          have := hpq.2.2.2.2.2.2.2
          simpa [boxOf, periodOf, hbz, SamePos] using this
        have w := within_rows hdz (hin s hs sp' hsp' p hp)
        have o := open_rows s1 (by omega) (hopen hbz) (by omega : s < c.size)
        rw [hsh] at w
        rw [hz]
        omega
      | periodic =>
        obtain ⟨e1, e2⟩ := o2 hbz
        refine Or.inr ⟨by simp [periodOf, hbz, e1], e2, ?_⟩
        rw [e1, n2]
        exact hone hbz) hj
    -- the n processes
    have htot := C05_add hacc f.nf S.Nm F0 F hx r m k i (by show r < c.size; omega) hm hk hi
    have hrank : ∀ s ∈ Finset.range n,
        ∑ i' ∈ Finset.range (rows c s), (if SameCell (periodOf c) (start c r + i) (start c s + (i' : ℤ))
          then F0 s m k i' ir else 0)
        = allVal S (f.comp k) m ir (ind (periodOf c) (start c r + i)) (sps s) * ((1 / S.vol m ir : ℝ) : ℂ) := by
      intro s hs
      rw [Finset.mem_range] at hs
      obtain ⟨g, hg, hd⟩ := hF1 s hs
      have eg := rankGrid_eq c S hdz s g hg (by have := hrows s hs; omega)
      obtain ⟨A, hA1, hA2⟩ := depositRank_ok S f g (sps s) (F0 s) hd m k hm hk
      rw [eg] at hA1
      rw [← rank_total hdz ht hNr hir (hrows s hs) hA1 (hin s hs), Finset.sum_mul]
      apply Finset.sum_congr rfl
      intro i' _
      rw [hA2]
      simp only [CellVolume.divideByVolume, ite_mul, zero_mul]
    have e : F r m k i ir = ∑ s ∈ Finset.range n, ∑ i' ∈ Finset.range (rows c s),
        (if SameCell (periodOf c) (start c r + i) (start c s + (i' : ℤ)) then F0 s m k i' ir else 0) := by
      rw [htot]
      unfold _root_.Spec.Layout.total _root_.Spec.Layout.stored
      rw [Finset.sum_filter, Finset.sum_sigma, Finset.sum_apply]
      show ∑ s ∈ Finset.range c.size, _ = _
      rw [s2]
      apply Finset.sum_congr rfl
      intro s _
      rw [Finset.sum_apply]
      apply Finset.sum_congr rfl
      intro i' _
      simp only [lay_same]
      split_ifs <;> rfl
    rw [e, Finset.sum_congr rfl hrank, ← Finset.sum_mul, allVal_same hdz (periodOf c) _ hsame, hb2,
      ind_congr hcell]
    simp only [CellVolume.divideByVolume]
    rw [vone]

include h1 hc hdz ht hNz in
/-- **C101** (no error): in the setting of `C101_deposit` both depositions succeed, provided the sub-domains are
accepted, there are guard cells, and there are `Nr + 1` Ruyten coefficients as the code allocates them. -/
theorem C101_ok (hn : 0 < n) (hdr : 0 < S.invdr) (hbeta : ∀ s k, (S.beta s k).length = S.Nr + 1)
    (hg : ∀ r < n, ∃ g, rankGrid c S r = .ok g) (hgu : 1 < n → 0 < c.nGuard) (f : Source)
    {sps : ℕ → List DepSpecies} {one : List DepSpecies} (hsame : SameSources (boxOf c S) n sps one)
    (hin : ∀ r < n, ∀ sp ∈ sps r, ∀ p ∈ sp.ptcls,
      Within (S.z0 + start c r * S.dz) S.dz (rows c r) sp.shape p.z)
    (hone : c.bz = .periodic → ∀ sp ∈ one, ∀ p ∈ sp.ptcls, Near S.z0 S.dz a.Nz sp.shape p.z) :
    (∃ F, depositRanks c S f sps = .ok F) ∧ ∃ B, depositRanks c1 S f (fun _ => one) = .ok B := by
  obtain ⟨n1, n2, s1, s2, hb, hper, hopen⟩ := mkComm_sizes h1 hc
  obtain ⟨o1, o2⟩ := rows_one h1 hc hNz
  have hrows : ∀ s < n, 2 ≤ rows c s := fun s hs => rows_ge (S := S) h1 hc hNz s hs (hg s hs) hgu
  obtain ⟨g1, hg1⟩ := one_grid h1 hc hNz hn hg
  have eg1 := rankGrid_eq c1 S hdz 0 g1 hg1 (by omega)
  constructor
  · have hA : ∀ r < n, ∃ A g, rankGrid c S r = .ok g ∧ depositRank S f g (sps r) = .ok A := by
      intro r hr
      obtain ⟨g, hgr⟩ := hg r hr
      have eg := rankGrid_eq c S hdz r g hgr (by have := hrows r hr; omega)
      obtain ⟨A, hA⟩ := depositRank_exists S f g (sps r) (by
        intro m _ k _
        rw [eg]
        refine depositAll_one_ok (f.comp k) S hdr hbeta m ht hdz (start c r) (rows c r) (sps r) fun sp hsp p hp => ?_
        have := within_rows hdz (hin r hr sp hsp p hp)
        omega)
      exact ⟨A, g, hgr, hA⟩
    choose! A hA using hA
    obtain ⟨F, hF⟩ := (C04_ok_iff c .add f.nf S.Nm (rows c) (fun r => if r < n then A r else fun _ _ _ _ => 0)).2 (by
      rw [s2]
      by_cases h : 1 < n
      · exact Or.inr (hgu h)
      · left; omega)
    refine ⟨F, (depositRanks_ok c S f sps F).2
      ⟨fun r => if r < n then A r else fun _ _ _ _ => 0, fun r hr => ?_, fun r hr => ?_, ?_⟩⟩
    · rw [s2] at hr
      simp only [hr, if_true]
      exact hA r hr
    · rw [s2] at hr
      simp only [not_lt.2 hr, if_false]
    · rw [← hF]
      by_cases h : 1 < c.size
      · rw [if_pos h]
      · rw [if_neg h]; unfold exchangeFields; rw [if_pos (by omega)]; rfl
  · obtain ⟨A, hA⟩ := depositRank_exists S f g1 one (by
      intro m _ k _
      rw [eg1]
      refine depositAll_one_ok (f.comp k) S hdr hbeta m ht hdz (start c1 0) (rows c1 0) one fun sp hsp q hq => ?_
      cases hbz : c.bz with
      | opened =>
        obtain ⟨s, hs, sp', hsp', hsh, p, hp, hpq⟩ := SameSources_mem hsame hsp hq
        have hz : q.z = p.z := by
          have := hpq.2.2.2.2.2.2.2
          simpa [boxOf, periodOf, hbz, SamePos] using this
        have w := within_rows hdz (hin s hs sp' hsp' p hp)
        have o := open_rows s1 (by omega) (hopen hbz) (by omega : s < c.size)
        rw [hsh] at w
        rw [hz]
        omega
      | periodic =>
        obtain ⟨e1, e2⟩ := o2 hbz
        have := near_rows hdz (hone hbz sp hsp q hq)
        omega)
    refine ⟨fun r => if r = 0 then A else fun _ _ _ _ => 0, (depositRanks_ok c1 S f _ _).2
      ⟨fun r => if r = 0 then A else fun _ _ _ _ => 0, fun r hr => ?_, fun r hr => ?_, ?_⟩⟩
    · rw [s1] at hr
      have : r = 0 := by omega
      subst this
      exact ⟨g1, hg1, by simpa using hA⟩
    · rw [s1] at hr
      simp only [show r ≠ 0 by omega, if_false]
    · rw [s1, if_neg (by omega)]; rfl

include h1 hc hdz hNz in
/-- **C101** (gathering). In the same setting, let the cells owned by each of the `n` processes hold the same
fields as in the single process. Then, after the exchange of the guard cells, a particle of process `r` whose shape
is inside the rows stored by that process gathers exactly the field that the same particle gathers in the single
process. -/
theorem C101_gather {E E1 : RankFields (ℕ → ℂ)} (hE : OwnedAgree c1 c S E E1) (s : Shape) {r : ℕ} (hr : r < n)
    (hg : ∀ r < n, ∃ g, rankGrid c S r = .ok g) (hgu : 1 < n → 0 < c.nGuard) {x y z z' : ℝ}
    (hin : Within (S.z0 + start c r * S.dz) S.dz (rows c r) s z) (hz : SamePos (boxOf c S) z z')
    (hbox : c.bz = .periodic → S.z0 ≤ z' ∧ z' ≤ S.z0 + a.Nz * S.dz) :
    gatherRank c S s E r x y z = gatherRank c1 S s E1 0 x y z' := by
  obtain ⟨n1, n2, s1, s2, hb, hper, hopen⟩ := mkComm_sizes h1 hc
  obtain ⟨o1, o2⟩ := rows_one h1 hc hNz
  have hacc : Accepted { a with size := n } c (lay c) := accepted (S := S) hc fun r hr => hg r (by omega)
  have hrows : ∀ s < n, 2 ≤ rows c s := fun s hs => rows_ge (S := S) h1 hc hNz s hs (hg s hs) hgu
  obtain ⟨E', hE'⟩ : ∃ E', exchangeFields c .replace 3 S.Nm (rows c) E = .ok E' := by
    rw [C04_ok_iff, s2]
    by_cases h : 1 < n
    · exact Or.inr (hgu h)
    · left; omega
  -- after the exchange all rows agree
  have hall : ∀ i < rows c r, ∀ j < rows c1 0, SameCell (periodOf c) (start c r + i) (start c1 0 + j) →
      ∀ m < S.Nm, ∀ k < 3, ∀ ir < S.Nr, E' r m k i ir = E1 0 m k j ir := by
    intro i hi j hj hcell m hm k hk ir hir
    have h4 := C04_replace hacc 3 S.Nm E E' hE' r m k i (by show r < c.size; omega) hm hk hi
    by_cases hex : ∃ t < c.size, ∃ i', Owns c t i' ∧ SameCell (periodOf c) (start c r + i) (start c t + i')
    · obtain ⟨t, ht, i', ho, hs⟩ := hex
      rw [h4.1 t i' ⟨ht, ho⟩ hs]
      exact hE t ht i' (by have := ho.2; omega) (Or.inl ho) j hj (hs.symm.trans hcell) m hm k hk ir hir
    · rw [h4.2 fun t i' ho hs => hex ⟨t, ho.1, i', ho.2, hs⟩]
      exact hE r (by omega) i hi (Or.inr hex) j hj hcell m hm k hk ir hir
  obtain ⟨g, hgr⟩ := hg r hr
  have eg := rankGrid_eq c S hdz r g hgr (by have := hrows r hr; omega)
  obtain ⟨g1, hg1⟩ := one_grid h1 hc hNz (by omega) hg
  have eg1 := rankGrid_eq c1 S hdz 0 g1 hg1 (by omega)
  obtain ⟨q, hq1, hq2, hq3⟩ : ∃ q : ℤ, S.g0.zCell z' = S.g0.zCell z + q ∧ (c.bz = .opened → q = 0) ∧
      (c.bz = .periodic → (c.NzGlobal : ℤ) ∣ q) := by
    cases hbz : c.bz with
    | opened =>
      have : z' = z := by simpa [boxOf, periodOf, hbz, SamePos] using hz
      exact ⟨0, by rw [this]; simp, fun _ => rfl, by simp⟩
    | periodic =>
      obtain ⟨k, hk⟩ : ∃ k : ℤ, z' = z + k * (c.NzGlobal * S.dz) := by
        simpa [boxOf, periodOf, hbz, SamePos] using hz
      refine ⟨k * c.NzGlobal, ?_, by simp, fun _ => ⟨k, by ring⟩⟩
      rw [hk]
      unfold Setup.g0 CylGrid.zCell
      push_cast
      field_simp
      ring
  have w := within_gather hdz hin
  unfold gatherRank
  rw [hE', hgr, hg1]
  have hx1 : exchangeFields c1 .replace 3 S.Nm (rows c1) E1 = .ok E1 := by
    unfold exchangeFields; rw [if_pos s1]
  rw [hx1]
  simp only [bind, Except.bind]
  subst eg
  subst eg1
  refine gatherField_agree (S := S) (n := -start c r) (n' := q - start c1 0) rfl rfl rfl
    (at_zCell S hdz (start c r) (rows c r) z) rfl rfl rfl ?_ ?_
  · refine (at_zCell S hdz (start c1 0) (rows c1 0) z').trans ?_
    rw [hq1]
    push_cast
    ring
  · rw [List.forall₂_map_left_iff, List.forall₂_map_right_iff, List.forall₂_same]
    intro m hm k hk1 hk2
    rw [List.mem_range] at hm
    have r1 : 0 ≤ k + -start c r := by omega
    have r2 : k + -start c r < rows c r := by omega
    have row : ∃ j : ℤ, wrapOf s (k + (q - start c1 0)) (rows c1 0) = j ∧ 0 ≤ j ∧ j < rows c1 0 ∧
        SameCell (periodOf c) k (start c1 0 + j) := by
      cases hbz : c.bz with
      | opened =>
        have h := open_rows s1 (by omega) (hopen hbz) (by omega : r < c.size)
        have hq0 := hq2 hbz
        refine ⟨k + (q - start c1 0), wrapOf_within (by omega) (by omega), by omega, by omega, ?_⟩
        have : periodOf c = none := by simp [periodOf, hbz]
        rw [this]
        show k = _
        omega
      | periodic =>
        obtain ⟨e1, e2⟩ := o2 hbz
        have hb := hbox hbz
        have hi := inbox_rows (s := s) hdz (N := a.Nz) hb.1 hb.2
        rw [hq1, Int.floor_add_intCast] at hi
        have hN : 2 ≤ rows c1 0 := o1
        obtain ⟨p1, p2, p3⟩ := wrapOf_period (s := s) hN (k := k + (q - start c1 0)) (by omega) (by omega)
        refine ⟨_, rfl, p1, p2, ?_⟩
        have : periodOf c = some c.NzGlobal := by simp [periodOf, hbz]
        rw [this, e2]
        show k ≡ _ [ZMOD c.NzGlobal]
        rw [e1, e2] at p3
        rw [zero_add, e1]
        refine Int.ModEq.trans ?_ p3.symm
        obtain ⟨d, hd⟩ := hq3 hbz
        rw [hd]
        simp [Int.ModEq]
    obtain ⟨j, ej, j1, j2, hcell⟩ := row
    have hi : (k + -start c r).toNat < rows c r := by omega
    have hj : j.toNat < rows c1 0 := by omega
    have hsame : SameCell (periodOf c) (start c r + ((k + -start c r).toNat : ℤ)) (start c1 0 + (j.toNat : ℤ)) := by
      rw [show start c r + ((k + -start c r).toNat : ℤ) = k by omega, Int.toNat_of_nonneg j1]
      exact hcell
    refine ⟨⟨(k + -start c r).toNat, j.toNat, ?_, ?_, fun ir hir => ?_⟩⟩
    · show bufIndex (rows c r) (wrapOf s (k + -start c r) (rows c r)) = _
      rw [wrapOf_within r1 r2]
      exact bufIndex_nat r1 r2
    · show bufIndex (rows c1 0) (wrapOf s (k + (q - start c1 0)) (rows c1 0)) = _
      rw [ej]
      exact bufIndex_nat j1 j2
    · exact ⟨hall _ hi _ hj hsame m hm 0 (by omega) ir hir, hall _ hi _ hj hsame m hm 1 (by omega) ir hir,
        hall _ hi _ hj hsame m hm 2 (by omega) ir hir⟩

end

private theorem whole_grid {c : Comm} (hs : c.size = 1) {S : Setup} (hdz : 0 < S.dz) (hNz : 0 < c.NzGlobal)
    {g : CylGrid} (hg : rankGrid c S 0 = .ok g) : g = wholeGrid c S := by
  have e1 := rows_eq c 0
  have e2 := start_eq c 0
  simp only [Comm.nzLoc, Comm.izLoc, hs, Nat.div_one, Nat.mod_one, if_true, and_self, zero_add] at e1 e2
  rw [rankGrid_eq c S hdz 0 g hg (by omega)]
  unfold wholeGrid
  rw [e1, e2]
  push_cast
  congr 1
  · ring
  · ring

/-- **C101** (the single process). On one process this is: `deposit` deposits each component of each mode on the whole
grid and divides by the volumes of the cells of that mode, and `gather` interpolates the given fields on that grid. -/
theorem C101_single {c : Comm} (hs : c.size = 1) {S : Setup} (hdz : 0 < S.dz) (hNz : 0 < c.NzGlobal) :
    (∀ {one B}, depositRanks c S .rho (fun _ => one) = .ok B → ∀ m < S.Nm,
      ∃ A, depositAll .rho S.clight (wholeGrid c S) S.beta m S.nthreads one = .ok A ∧
        B 0 m 0 = CellVolume.divideByVolume (S.vol m) A) ∧
    (∀ {one B}, depositRanks c S .J (fun _ => one) = .ok B → ∀ m < S.Nm,
      ∃ Ar At Az, depositAll .Jr S.clight (wholeGrid c S) S.beta m S.nthreads one = .ok Ar ∧
        depositAll .Jt S.clight (wholeGrid c S) S.beta m S.nthreads one = .ok At ∧
        depositAll .Jz S.clight (wholeGrid c S) S.beta m S.nthreads one = .ok Az ∧
        B 0 m 0 = CellVolume.divideByVolume (S.vol m) Ar ∧ B 0 m 1 = CellVolume.divideByVolume (S.vol m) At ∧
        B 0 m 2 = CellVolume.divideByVolume (S.vol m) Az) ∧
    (2 * c.nGuard ≤ c.NzGlobal + 2 * (c.nzDamp + c.nInject) → ∀ s E x y z, gatherRank c S s E 0 x y z =
      gatherField s (wholeGrid c S) S.rmaxGather
        ((List.range S.Nm).map fun m => (⟨E 0 m 0, E 0 m 1, E 0 m 2⟩ : GridVec)) x y z) := by
  have key : ∀ {f : Source} {one B}, depositRanks c S f (fun _ => one) = .ok B → ∀ m < S.Nm, ∀ k < f.nf,
      ∃ A, depositAll (f.comp k) S.clight (wholeGrid c S) S.beta m S.nthreads one = .ok A ∧
        B 0 m k = CellVolume.divideByVolume (S.vol m) A := by
    intro f one B hB m hm k hk
    obtain ⟨B0, hB1, -, hB3⟩ := (depositRanks_ok c S f _ B).1 hB
    rw [if_neg (by omega)] at hB3
    have hB3' : B0 = B := Except.ok.inj hB3
    subst hB3'
    obtain ⟨g, hg, hd⟩ := hB1 0 (by omega)
    rw [whole_grid hs hdz hNz hg] at hd
    exact depositRank_ok S f _ one _ hd m k hm hk
  refine ⟨fun h m hm => key h m hm 0 Nat.one_pos, fun h m hm => ?_, fun hacc s E x y z => ?_⟩
  · obtain ⟨A0, a0, b0⟩ := key h m hm 0 (by decide)
    obtain ⟨A1, a1, b1⟩ := key h m hm 1 (by decide)
    obtain ⟨A2, a2, b2⟩ := key h m hm 2 (by decide)
    exact ⟨A0, A1, A2, a0, a1, a2, b0, b1, b2⟩
  · obtain ⟨zm, zM, h⟩ := (C01_reject_iff c S.z0 S.dz 0 _ _ (Comm.getNzIz_local c true true 0)).2 (by
      simp only [Comm.nzLoc, hs, Nat.div_one, Nat.mod_one, if_true, and_self, zero_add]
      omega)
    have hg : ∃ g, rankGrid c S 0 = .ok g := by
      unfold rankGrid
      rw [h]
      exact ⟨_, rfl⟩
    obtain ⟨g, hg⟩ := hg
    unfold gatherRank exchangeFields
    rw [if_pos hs, hg, whole_grid hs hdz hNz hg]
    rfl

/-- **C101** (the particles stay inside): with the exchange period chosen by the code, on several processes or with
open boundaries, with or without moving window and Galilean frame, a particle that was in the sub-domain of its
process at the last exchange and is not faster than light still has its whole shape inside the rows stored by that
process at every deposition and gathering until the next exchange. -/
theorem C101_inside {a : CommArgs ℝ} {c : Comm} {dz : ℝ} {w w' : World ℝ} (h : Reached a c dz w) (hdz : a.dz = dz)
    (cl dt : ℝ) (hcl : 0 < cl) (hdt : 0 < dt) (hcdt : a.cdt = cl * dt) (hauto : a.exchangePeriod = none)
    (hm : ¬(c.bz = .periodic ∧ c.size = 1)) (vGal : Option ℝ) (hv : ∀ v, vGal = some v → |v| ≤ cl) (t : ℝ)
    (hs : Synced cl dz dt w t) (k j : ℕ) (hk : (k : ℤ) + 1 ≤ c.exchangePeriod)
    (hrun : World.run c dz w (stretchOps vGal dt t k ++ (iterOps vGal dt (t + (k : ℝ) * dt)).take j) = .ok w')
    (r : ℕ) (lo hi : ℝ)
    (e : c.getZminZmax (w.zminG r) dz true true false (some r) = .ok (lo, hi))
    (z z' : ℝ) (hz : lo ≤ z ∧ z ≤ hi) (hmove : |z' - z| ≤ ((k : ℝ) + 1) * (cl * dt)) (s : Shape) :
    Within (w'.zminG r + start c r * dz) dz (rows c r) s z' := by
  have hdz0 := h.dz_pos
  have hng := C54_enough_cells h.made hauto (by rw [hcdt]; positivity) (by rw [hdz]; exact hdz0) hm
  have e' := Comm.getZminZmax_of (Comm.getNzIz_local c true false r) (w'.zminG r) dz
  obtain ⟨g1, g2⟩ := C54_guard_partial h hdz cl dt hcl hdt hcdt hauto hm vGal hv t hs k j hk hrun r lo hi _ _ e e' z z'
    hz hmove
  simp only [Bool.false_eq_true, if_false, add_zero, sub_zero] at g1 g2
  have hng' : (7 : ℝ) ≤ (c.nGuard : ℝ) := by exact_mod_cast hng
  have he : edge s ≤ 3 / 2 := by cases s <;> norm_num [edge]
  have h1 : edge s * dz ≤ 3 / 2 * dz := mul_le_mul_of_nonneg_right he hdz0.le
  have h2 : 7 * dz ≤ c.nGuard * dz := mul_le_mul_of_nonneg_right hng' hdz0.le
  unfold Within
  rw [rows_eq, start_eq]
  push_cast
  constructor <;> nlinarith


/-! ### A concrete case

Two periodic processes with 4 cells and 2 guard cells each (rows `-2 … 5` and `2 … 9`), against one process with
8 cells. One particle of process 0 is in its left guard cells, at `z = -1/4`; the single
process has it at `z = 31/4`. -/

/-- The arguments of the communicator. -/
def exRanksArgs : CommArgs ℝ :=
  { Nz := 8, size := 1, boundaries := .str "periodic", nOrder := 16, nGuard := some 2, nDampZ := 5
    nInject := none, exchangePeriod := some 1, stencil := 10, cdt := 1, dz := 1 }

/-- The communicator of the single process. -/
def exRanksOne : Comm :=
  { NzGlobal := 8, size := 1, nGuard := 0, nzDamp := 0, nInject := 0, bz := .periodic
    br := .reflective, exchangePeriod := 1 }

/-- The grid. -/
noncomputable def exRanksSetup : Setup :=
  { z0 := 0, dz := 1, invdr := 1, Nr := 2, Nm := 2, clight := 1, nthreads := 3, rmaxGather := 2
    beta := fun _ _ => [0, 0, 0], vol := fun _ _ => 1 }

/-- A particle at `z`. -/
noncomputable def exRanksPtcl (z : ℝ) : DepPtcl :=
  { x := 1 / 2, y := 1 / 2, z := z, w := 1, ux := 1, uy := 0, uz := 2, invGamma := 1 / 3 }

/-- The particles of the two processes. -/
noncomputable def exRanksSpecies (r : ℕ) : List DepSpecies :=
  [⟨1, .cubic, [exRanksPtcl (if r = 0 then -1 / 4 else 5)]⟩]

/-- The same particles on one process, in another order and with another position. -/
noncomputable def exRanksSingle : List DepSpecies := [⟨1, .cubic, [exRanksPtcl 5, exRanksPtcl (31 / 4)]⟩]

theorem exRanks_one : mkComm { exRanksArgs with size := 1 } = .ok exRanksOne := by rfl

theorem exRanks_two : mkComm { exRanksArgs with size := 2 } = .ok exComm2 := by rfl

theorem exRanks_same : SameSources (boxOf exComm2 exRanksSetup) 2 exRanksSpecies exRanksSingle := by
  refine ⟨fun r _ => by simp [exRanksSpecies, exRanksSingle], fun k sp h => ?_⟩
  have hk : k = 0 ∧ sp = ⟨1, .cubic, [exRanksPtcl 5, exRanksPtcl (31 / 4)]⟩ := by
    rcases k with _ | k
    · simpa [exRanksSingle, eq_comm] using h
    · simp [exRanksSingle] at h
  obtain ⟨rfl, rfl⟩ := hk
  refine ⟨[exRanksPtcl (31 / 4), exRanksPtcl 5], ?_, List.Perm.swap _ _ _⟩
  simp only [List.range_succ, List.range_zero, List.nil_append, List.cons_append, List.flatMap_cons, List.flatMap_nil,
    exRanksSpecies, List.getElem?_cons_zero, Option.map_some, Option.getD_some, List.append_nil, if_true,
    one_ne_zero, if_false]
  refine .cons ⟨rfl, rfl, rfl, rfl, rfl, rfl, rfl, 1, ?_⟩ (.cons ⟨rfl, rfl, rfl, rfl, rfl, rfl, rfl, 0, ?_⟩ .nil) <;>
    norm_num [exRanksPtcl, exRanksSetup, exComm2]

theorem exRanks_rows (r : ℕ) (hr : r < 2) : rows exComm2 r = 8 ∧ start exComm2 r = 4 * r - 2 := by
  interval_cases r <;> decide

theorem exRanks_grid (r : ℕ) (hr : r < 2) : ∃ g, rankGrid exComm2 exRanksSetup r = .ok g := by
  obtain ⟨zm, zM, h⟩ := (C01_reject_iff exComm2 exRanksSetup.z0 exRanksSetup.dz r _ _
    (Comm.getNzIz_local exComm2 true true r)).2 (by interval_cases r <;> decide)
  unfold rankGrid
  rw [h]
  exact ⟨_, rfl⟩

theorem exRanks_in (r : ℕ) (hr : r < 2) : ∀ sp ∈ exRanksSpecies r, ∀ p ∈ sp.ptcls,
    Within (exRanksSetup.z0 + start exComm2 r * exRanksSetup.dz) exRanksSetup.dz (rows exComm2 r) sp.shape p.z := by
  intro sp hsp p hp
  obtain ⟨e1, e2⟩ := exRanks_rows r hr
  rw [e1, e2]
  simp only [exRanksSpecies, List.mem_singleton] at hsp
  subst hsp
  simp only [List.mem_singleton] at hp
  subst hp
  interval_cases r <;> norm_num [Within, edge, exRanksPtcl, exRanksSetup]

theorem exRanks_near : ∀ sp ∈ exRanksSingle, ∀ p ∈ sp.ptcls,
    Near exRanksSetup.z0 exRanksSetup.dz exRanksArgs.Nz sp.shape p.z := by
  intro sp hsp p hp
  simp only [exRanksSingle, List.mem_singleton] at hsp
  subst hsp
  simp only [List.mem_cons, List.not_mem_nil, or_false] at hp
  rcases hp with rfl | rfl <;> norm_num [Near, beyond, exRanksPtcl, exRanksSetup, exRanksArgs]

/-- Non-vacuity of `C101_ok` and `C101_deposit`. Row 1 of process 0, row 5 of process 1 and row 7 of the single
process are the same cell. -/
example (f : Source) : ∃ F B, depositRanks exComm2 exRanksSetup f exRanksSpecies = .ok F ∧
    depositRanks exRanksOne exRanksSetup f (fun _ => exRanksSingle) = .ok B ∧
    ∀ m < 2, ∀ k < f.nf, ∀ ir < 2, F 0 m k 1 ir = B 0 m k 7 ir ∧ F 1 m k 5 ir = B 0 m k 7 ir := by
  have hdz : 0 < exRanksSetup.dz := by norm_num [exRanksSetup]
  have ht : 0 < exRanksSetup.nthreads := by norm_num [exRanksSetup]
  have hNz : 2 ≤ exRanksArgs.Nz := by norm_num [exRanksArgs]
  obtain ⟨⟨F, hF⟩, B, hB⟩ := C101_ok exRanks_one exRanks_two hdz ht hNz (by norm_num)
    (by norm_num [exRanksSetup]) (fun _ _ => rfl) exRanks_grid (fun _ => by decide) f exRanks_same exRanks_in
    (fun _ => exRanks_near)
  have key := C101_deposit exRanks_one exRanks_two hdz ht hNz (le_refl _) f hF hB exRanks_same exRanks_in
    fun _ => exRanks_near
  exact ⟨F, B, hF, hB, fun m hm k hk ir hir =>
    ⟨(key 0 1 (by norm_num) (by decide)).2 7 (by decide) (by decide) m hm k hk ir hir,
      (key 1 5 (by norm_num) (by decide)).2 7 (by decide) (by decide) m hm k hk ir hir⟩⟩

/-- Non-vacuity of `C101_gather`: any field of the single process; the two processes hold it in their own cells and
zeros in the guard cells. -/
example (A : ℕ → ℕ → ℕ → ℕ → ℂ) (s : Shape) (x y : ℝ) :
    gatherRank exComm2 exRanksSetup s
      (fun r m k i ir => if 2 ≤ i ∧ i < 6 then A m k (4 * r + i - 2) ir else 0) 0 x y (-1 / 4) =
    gatherRank exRanksOne exRanksSetup s (fun _ m k i ir => A m k i ir) 0 x y (31 / 4) := by
  refine C101_gather exRanks_one exRanks_two (by norm_num [exRanksSetup]) (by norm_num [exRanksArgs]) ?_ s (by norm_num)
    exRanks_grid (fun _ => by decide) ?_ ⟨1, by norm_num [exRanksSetup, exComm2]⟩
    fun _ => by norm_num [exRanksSetup, exRanksArgs]
  · intro r hr i hi hor j hj hcell m _ k _ ir _
    have hr' : r < 2 := hr
    obtain ⟨e1, e2⟩ := exRanks_rows r hr'
    rw [e1] at hi
    rw [e2] at hcell
    have hj' : j < 8 := hj
    have hs : start exRanksOne 0 = 0 := by decide
    rw [hs] at hcell
    have hcell' : (4 * (r : ℤ) - 2 + i) % 8 = (0 + (j : ℤ)) % 8 := hcell
    have hown : 2 ≤ i ∧ i < 6 := by
      rcases hor with h | h
      · have h1 : 2 ≤ i := h.1
        have h2 : i + 2 < rows exComm2 r := h.2
        omega
      · exfalso
        apply h
        by_cases hr0 : r = 0
        · subst hr0
          by_cases hi2 : i < 2
          · refine ⟨1, by decide, i + 4, ⟨by show 2 ≤ _; omega, ?_⟩, ?_⟩
            · show i + 4 + 2 < _; rw [(exRanks_rows 1 (by norm_num)).1]; omega
            · rw [(exRanks_rows 1 (by norm_num)).2, e2]
              show (4 * ((0 : ℕ) : ℤ) - 2 + i) % 8 = (4 * ((1 : ℕ) : ℤ) - 2 + ((i + 4 : ℕ) : ℤ)) % 8
              omega
          by_cases hi6 : i < 6
          · exact absurd ⟨0, hr, i, ⟨by show 2 ≤ _; omega, by show i + 2 < _; omega⟩, rfl⟩ h
          · refine ⟨1, by decide, i - 4, ⟨by show 2 ≤ _; omega, ?_⟩, ?_⟩
            · show i - 4 + 2 < _; rw [(exRanks_rows 1 (by norm_num)).1]; omega
            · rw [(exRanks_rows 1 (by norm_num)).2, e2]
              show (4 * ((0 : ℕ) : ℤ) - 2 + i) % 8 = (4 * ((1 : ℕ) : ℤ) - 2 + ((i - 4 : ℕ) : ℤ)) % 8
              omega
        · have hr1 : r = 1 := by omega
          subst hr1
          by_cases hi2 : i < 2
          · refine ⟨0, by decide, i + 4, ⟨by show 2 ≤ _; omega, ?_⟩, ?_⟩
            · show i + 4 + 2 < _; rw [(exRanks_rows 0 (by norm_num)).1]; omega
            · rw [(exRanks_rows 0 (by norm_num)).2, e2]
              show (4 * ((1 : ℕ) : ℤ) - 2 + i) % 8 = (4 * ((0 : ℕ) : ℤ) - 2 + ((i + 4 : ℕ) : ℤ)) % 8
              omega
          by_cases hi6 : i < 6
          · exact absurd ⟨1, hr, i, ⟨by show 2 ≤ _; omega, by show i + 2 < _; omega⟩, rfl⟩ h
          · refine ⟨0, by decide, i - 4, ⟨by show 2 ≤ _; omega, ?_⟩, ?_⟩
            · show i - 4 + 2 < _; rw [(exRanks_rows 0 (by norm_num)).1]; omega
            · rw [(exRanks_rows 0 (by norm_num)).2, e2]
              show (4 * ((1 : ℕ) : ℤ) - 2 + i) % 8 = (4 * ((0 : ℕ) : ℤ) - 2 + ((i - 4 : ℕ) : ℤ)) % 8
              omega
    simp only [hown, and_self, if_true]
    rw [show 4 * r + i - 2 = j by omega]
  · rw [(exRanks_rows 0 (by norm_num)).1, (exRanks_rows 0 (by norm_num)).2]
    cases s <;> norm_num [Within, edge, exRanksSetup]

end Fbpic
