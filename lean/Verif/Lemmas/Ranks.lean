import Verif.Spec.Ranks
import Verif.Lemmas.Deposit
import Verif.Lemmas.FieldGather
import Verif.Props.FieldExchange
import Verif.Props.Deposit
import Verif.Lemmas.Tactics

/-! Lemmas on deposition and gathering by several processes. -/

namespace Fbpic.Ranks

open Fbpic.Spec

/-! ### Loops -/

theorem foldlM_update {β : Type} (h : ℕ → Except PyErr β) (F0 : ℕ → β) (n : ℕ) :
    ∀ F, (List.range n).foldlM (fun (F : ℕ → β) (r : ℕ) => do
      let a ← h r
      pure (Function.update F r a)) F0 = .ok F ↔ ∀ r, (r < n → h r = .ok (F r)) ∧ (n ≤ r → F r = F0 r) := by
  induction n with
  | zero =>
    intro F
    simp only [List.range_zero, List.foldlM_nil, pure, Except.pure, Except.ok.injEq, Nat.not_lt_zero,
      false_imp_iff, true_and, Nat.zero_le, true_imp_iff]
    exact ⟨fun h r => by rw [h], fun h => (funext h).symm⟩
  | succ n ih =>
    intro F
    rw [List.range_succ, List.foldlM_append]
    simp only [except_bind_ok, List.foldlM_cons, List.foldlM_nil, pure, Except.pure, Except.ok.injEq]
    constructor
    · rintro ⟨G, hG, _, ⟨a, ha, rfl⟩, rfl⟩ r
      have hr := (ih G).1 hG r
      constructor
      · intro hlt
        by_cases e : r = n
        · subst e; rw [Function.update_self]; exact ha
        · rw [Function.update_of_ne e]; exact hr.1 (by omega)
      · intro hge
        rw [Function.update_of_ne (by omega)]; exact hr.2 (by omega)
    · intro hF
      refine ⟨fun r => if r < n then F r else F0 r, (ih _).2 fun r => ⟨fun hr => ?_, fun hr => ?_⟩, _,
        ⟨F n, (hF n).1 (by omega), rfl⟩, ?_⟩
      · rw [if_pos hr]; exact (hF r).1 (by omega)
      · rw [if_neg (by omega)]
      · funext r
        by_cases e : r = n
        · subst e; rw [Function.update_self]
        · rw [Function.update_of_ne e]
          by_cases hr : r < n
          · rw [if_pos hr]
          · rw [if_neg hr]; exact ((hF r).2 (by omega)).symm

theorem depositRank_ok (S : Setup) (f : Source) (g : CylGrid) (sps : List DepSpecies) (A : ℕ → ℕ → Buf)
    (h : depositRank S f g sps = .ok A) (m k : ℕ) (hm : m < S.Nm) (hk : k < f.nf) :
    ∃ a, depositAll (f.comp k) S.clight g S.beta m S.nthreads sps = .ok a ∧
      A m k = CellVolume.divideByVolume (S.vol m) a := by
  have h1 := ((foldlM_update _ _ _ _).1 h m).1 hm
  have h2 := ((foldlM_update (fun k => do
    let a ← depositAll (f.comp k) S.clight g S.beta m S.nthreads sps
    pure (CellVolume.divideByVolume (S.vol m) a)) _ _ (A m)).1 (by
      rw [← h1]
      congr 1
      funext B k
      cases depositAll (f.comp k) S.clight g S.beta m S.nthreads sps <;> rfl) k).1 hk
  rw [except_bind_ok] at h2
  obtain ⟨a, ha, e⟩ := h2
  exact ⟨a, ha, (Except.ok.inj e).symm⟩

theorem depositRank_exists (S : Setup) (f : Source) (g : CylGrid) (sps : List DepSpecies)
    (h : ∀ m < S.Nm, ∀ k < f.nf, ∃ a, depositAll (f.comp k) S.clight g S.beta m S.nthreads sps = .ok a) :
    ∃ A, depositRank S f g sps = .ok A := by
  choose! a ha using h
  refine ⟨fun m k => if m < S.Nm ∧ k < f.nf then CellVolume.divideByVolume (S.vol m) (a m k) else fun _ _ => 0,
    (foldlM_update _ _ _ _).2 fun m => ⟨fun hm => ?_, fun hm => ?_⟩⟩
  · have h2 := (foldlM_update (fun k => do
      let a ← depositAll (f.comp k) S.clight g S.beta m S.nthreads sps
      pure (CellVolume.divideByVolume (S.vol m) a)) (fun _ _ _ => 0) f.nf
        (fun k => if m < S.Nm ∧ k < f.nf then CellVolume.divideByVolume (S.vol m) (a m k)
          else fun _ _ => 0)).2 fun k => ⟨fun hk => by
            rw [if_pos ⟨hm, hk⟩, ha m hm k hk]; rfl, fun hk => by rw [if_neg (by omega)]⟩
    refine Eq.trans ?_ h2
    congr 1
    funext B k
    cases depositAll (f.comp k) S.clight g S.beta m S.nthreads sps <;> rfl
  · funext k
    rw [if_neg (by omega)]

theorem depositRanks_ok (c : Comm) (S : Setup) (f : Source) (sps : ℕ → List DepSpecies)
    (F : RankFields (ℕ → ℂ)) :
    depositRanks c S f sps = .ok F ↔ ∃ F0 : RankFields (ℕ → ℂ),
      (∀ r < c.size, ∃ g, rankGrid c S r = .ok g ∧ depositRank S f g (sps r) = .ok (F0 r)) ∧
      (∀ r, c.size ≤ r → F0 r = fun _ _ _ _ => 0) ∧
      (if 1 < c.size then exchangeFields c .add f.nf S.Nm (rows c) F0 else pure F0) = .ok F := by
  unfold depositRanks
  rw [except_bind_ok]
  have key : ∀ F0 : RankFields (ℕ → ℂ),
      (List.range c.size).foldlM (fun (F : RankFields (ℕ → ℂ)) (r : ℕ) => do
        let g ← rankGrid c S r
        let A ← depositRank S f g (sps r)
        pure (Function.update F r A)) (fun _ _ _ _ _ => 0) = .ok F0 ↔
      (∀ r < c.size, ∃ g, rankGrid c S r = .ok g ∧ depositRank S f g (sps r) = .ok (F0 r)) ∧
      (∀ r, c.size ≤ r → F0 r = fun _ _ _ _ => 0) := by
    intro F0
    have e : (List.range c.size).foldlM (fun (F : RankFields (ℕ → ℂ)) (r : ℕ) => do
        let g ← rankGrid c S r
        let A ← depositRank S f g (sps r)
        pure (Function.update F r A)) (fun _ _ _ _ _ => 0) =
      (List.range c.size).foldlM (fun (F : RankFields (ℕ → ℂ)) (r : ℕ) => do
        let a ← (do let g ← rankGrid c S r; depositRank S f g (sps r))
        pure (Function.update F r a)) (fun _ _ _ _ _ => 0) := by
      congr 1
      funext F r
      cases rankGrid c S r <;> rfl
    rw [e, foldlM_update]
    simp only [except_bind_ok]
    exact ⟨fun h => ⟨fun r hr => (h r).1 hr, fun r hr => (h r).2 hr⟩, fun h r => ⟨h.1 r, h.2 r⟩⟩
  constructor
  · rintro ⟨F0, h1, h2⟩
    exact ⟨F0, ((key F0).1 h1).1, ((key F0).1 h1).2, h2⟩
  · rintro ⟨F0, h1, h2, h3⟩
    exact ⟨F0, (key F0).2 ⟨h1, h2⟩, h3⟩

/-! ### The grid of a process -/

theorem rankGrid_eq (c : Comm) (S : Setup) (hdz : 0 < S.dz) (r : ℕ) (g : CylGrid)
    (h : rankGrid c S r = .ok g) (hN : 0 < rows c r) :
    g = ⟨1 / S.dz, S.z0 + start c r * S.dz, rows c r, S.invdr, 0, S.Nr⟩ := by
  unfold rankGrid Comm.divideIntoDomain Comm.getZminZmax at h
  unfold rows at hN
  unfold rows start
  cases e : c.getNzIz true true true (some r) with
  | error x => rw [e] at h; cases h
  | ok p =>
    obtain ⟨N, s⟩ := p
    rw [e] at h hN
    simp only at hN ⊢
    by_cases hlt : N < 4 * c.nGuard
    · simp [bind, Except.bind, pure, Except.pure, throw, throwThe, MonadExceptOf.throw, hlt] at h
    · simp only [bind, Except.bind, pure, Except.pure, hlt, if_false, Except.ok.injEq] at h
      rw [← h]
      congr 2
      have : (N : ℝ) ≠ 0 := by exact_mod_cast hN.ne'
      field_simp
      ring

/-- The grid on which `start` is 0. -/
noncomputable def Setup.g0 (S : Setup) : CylGrid := ⟨1 / S.dz, S.z0, 0, S.invdr, 0, S.Nr⟩

/-- The grid of `N` rows whose first row has the global index `st`. -/
noncomputable def Setup.at (S : Setup) (st : ℤ) (N : ℕ) : CylGrid :=
  ⟨1 / S.dz, S.z0 + st * S.dz, N, S.invdr, 0, S.Nr⟩

theorem sz_add_int (s : Shape) (p : ℝ) (n : ℤ) (a : ℕ) : s.sz (p + n) a = s.sz p a := by
  cases s <;> simp only [Shape.sz, szLinear, szCubic, Int.ceil_add_intCast] <;> push_cast <;>
    simp only [add_sub_add_right_eq_sub, show p + (n : ℝ) - ((⌈p⌉ : ℝ) + n - 2) - 1 = p - (⌈p⌉ - 2) - 1 by ring]

theorem izCell_add_int (s : Shape) (p : ℝ) (n : ℤ) : izCell s (p + n) = izCell s p + n := by
  cases s <;> simp only [izCell, Int.ceil_add_intCast] <;> ring

theorem ptclAdds_shift (s : Shape) (g g' : CylGrid) (n : ℤ) (bn flip : ℝ) (scal : ℂ) (r z z' : ℝ)
    (h1 : g'.invdr = g.invdr) (h2 : g'.rmin = g.rmin) (h3 : g'.Nr = g.Nr)
    (hz : g'.zCell z' = g.zCell z + n) :
    ptclAdds s g' bn flip scal r z' = (ptclAdds s g bn flip scal r z).map fun a => (a.1 + n, a.2) := by
  have hr : g'.rCell r = g.rCell r := by unfold CylGrid.rCell; rw [h1, h2]
  unfold ptclAdds
  simp only [hr, hz, h3, izCell_add_int, sz_add_int, List.map_flatMap, List.map_map]
  congr 1
  funext a
  congr 1
  funext b
  simp only [Function.comp]
  congr 1
  ring

theorem addsOf_shift (s : Shape) (f : DepField) (c q : ℝ) (g g' : CylGrid) (n : ℤ) (beta : List ℝ) (m : ℕ)
    (p p' : DepPtcl) (h1 : g'.invdr = g.invdr) (h2 : g'.rmin = g.rmin) (h3 : g'.Nr = g.Nr)
    (hp : p' = { p with z := p'.z }) (hz : g'.zCell p'.z = g.zCell p.z + n) :
    addsOf s f c q g' beta m p' = (addsOf s f c q g beta m p).map fun a => (a.1 + n, a.2) := by
  have hx : p'.x = p.x := by rw [hp]
  have hy : p'.y = p.y := by rw [hp]
  have hs : scalOf f c q m p' = scalOf f c q m p := by
    rw [hp]; cases f <;> rfl
  have hb : betaOf g' beta p' = betaOf g beta p := by
    unfold betaOf betaIdx CylGrid.rCell
    rw [h1, h2, h3, hx, hy]
  unfold addsOf
  rw [hs, hb, hx, hy]
  exact ptclAdds_shift s g g' n _ _ _ _ _ _ h1 h2 h3 hz

theorem at_zCell (S : Setup) (hdz : 0 < S.dz) (st : ℤ) (N : ℕ) (z : ℝ) :
    (S.at st N).zCell z = S.g0.zCell z + ((-st : ℤ) : ℝ) := by
  unfold Setup.at Setup.g0 CylGrid.zCell
  push_cast
  field_simp
  ring

theorem addsOf_at (S : Setup) (hdz : 0 < S.dz) (st : ℤ) (N : ℕ) (s : Shape) (f : DepField) (c q : ℝ)
    (beta : List ℝ) (m : ℕ) (p : DepPtcl) :
    addsOf s f c q (S.at st N) beta m p = (addsOf s f c q S.g0 beta m p).map fun a => (a.1 - st, a.2) := by
  rw [addsOf_shift s f c q S.g0 (S.at st N) (-st) beta m p p rfl rfl rfl rfl (at_zCell S hdz st N p.z)]
  rfl

/-! ### What is deposited, cell by cell -/

section Val

variable (S : Setup) (f : DepField) (m ir : ℕ)

/-- What one particle deposits in column `ir`, the rows being weighted by `χ` (global row index). -/
noncomputable def ptclVal (χ : ℤ → ℂ) (sp : DepSpecies) (p : DepPtcl) : ℂ :=
  ((addsOf sp.shape f S.clight sp.q S.g0 (S.beta sp.shape (min m 1)) m p).map fun a =>
    a.2.2 * (χ (a.1 - 2) * if foldCol S.Nr (wrapIdx (S.Nr + 4) a.2.1) = ir then 1 else 0)).sum

/-- What one species deposits. -/
noncomputable def spVal (χ : ℤ → ℂ) (sp : DepSpecies) : ℂ :=
  if sp.q = 0 then 0 else (sp.ptcls.map (ptclVal S f m ir χ sp)).sum

/-- What all species deposit. -/
noncomputable def allVal (χ : ℤ → ℂ) (sps : List DepSpecies) : ℂ := (sps.map (spVal S f m ir χ)).sum

/-- The global rows in which the particle deposits. -/
def writes (sp : DepSpecies) (p : DepPtcl) (k : ℤ) : Prop :=
  ∃ a ∈ addsOf sp.shape f S.clight sp.q S.g0 (S.beta sp.shape (min m 1)) m p, k = a.1 - 2

variable {S f m ir}

theorem allVal_congr {χ χ' : ℤ → ℂ} {sps : List DepSpecies}
    (h : ∀ sp ∈ sps, sp.q ≠ 0 → ∀ p ∈ sp.ptcls, ∀ k, writes S f m sp p k → χ k = χ' k) :
    allVal S f m ir χ sps = allVal S f m ir χ' sps := by
  unfold allVal spVal ptclVal
  congr 1
  apply List.map_congr_left
  intro sp hsp
  by_cases hq : sp.q = 0
  · simp only [hq, if_true]
  · simp only [hq, if_false]
    congr 1
    apply List.map_congr_left
    intro p hp
    congr 1
    apply List.map_congr_left
    intro a ha
    rw [h sp hsp hq p hp _ ⟨a, ha, rfl⟩]

theorem sum_list_map {ι α : Type} (T : Finset ι) (L : List α) (u : ι → α → ℂ) :
    ∑ i ∈ T, (L.map (u i)).sum = (L.map fun a => ∑ i ∈ T, u i a).sum := by
  induction L with
  | nil => simp
  | cons a L ih => simp only [List.map_cons, List.sum_cons, Finset.sum_add_distrib, ih]

theorem allVal_sum {ι : Type} (T : Finset ι) (χ : ι → ℤ → ℂ) (sps : List DepSpecies) :
    ∑ i ∈ T, allVal S f m ir (χ i) sps = allVal S f m ir (fun k => ∑ i ∈ T, χ i k) sps := by
  unfold allVal
  rw [sum_list_map]
  congr 1
  apply List.map_congr_left
  intro sp _
  unfold spVal
  by_cases hq : sp.q = 0
  · simp [hq]
  · simp only [hq, if_false]
    rw [sum_list_map]
    congr 1
    apply List.map_congr_left
    intro p _
    unfold ptclVal
    rw [sum_list_map]
    congr 1
    apply List.map_congr_left
    intro a _
    rw [Finset.sum_mul, Finset.mul_sum]

/-- The value in a cell. -/
theorem deposit_value (hdz : 0 < S.dz) (hn : 0 < S.nthreads) (hr : 2 ≤ S.Nr) {st : ℤ} {N : ℕ} (hN : 2 ≤ N)
    {sps : List DepSpecies} {A : Buf}
    (h : depositAll f S.clight (S.at st N) S.beta m S.nthreads sps = .ok A) {i : ℕ} (hi : i < N)
    (hir : ir < S.Nr) :
    A i ir = allVal S f m ir (fun k => if foldRow N (wrapIdx (N + 4) (k + 2 - st)) = i then 1 else 0) sps := by
  have key := pair_depositAll f S.clight (S.at st N) S.beta m S.nthreads hn sps A
    (fun i' j' => if i' = i ∧ j' = ir then 1 else 0) hN hr h
  have hp : pair (S.at st N).Nz (S.at st N).Nr (fun i' j' => if i' = i ∧ j' = ir then 1 else 0) A = A i ir := by
    unfold pair
    show ∑ i' ∈ Finset.range N, ∑ j' ∈ Finset.range S.Nr, _ = _
    rw [Finset.sum_eq_single i, Finset.sum_eq_single ir]
    · simp
    · intro b _ hb; simp [hb]
    · intro h; exact absurd (Finset.mem_range.2 hir) h
    · intro b _ hb; simp [hb]
    · intro h; exact absurd (Finset.mem_range.2 hi) h
  rw [← hp, key]
  unfold allVal spVal ptclVal
  congr 1
  apply List.map_congr_left
  intro sp _
  by_cases hq : sp.q = 0
  · simp only [hq, if_true]
  · simp only [hq, if_false]
    congr 1
    apply List.map_congr_left
    intro p _
    rw [addsOf_at S hdz, List.map_map]
    congr 1
    apply List.map_congr_left
    intro a _
    simp only [Function.comp, addVal]
    rw [show a.1 - 2 + 2 - st = a.1 - st by ring]
    show a.2.2 * (if foldRow N (wrapIdx (N + 4) (a.1 - st)) = i ∧
      foldCol S.Nr (wrapIdx (S.Nr + 4) a.2.1) = ir then 1 else 0) = _
    by_cases h1 : foldRow N (wrapIdx (N + 4) (a.1 - st)) = i <;>
      by_cases h2 : foldCol S.Nr (wrapIdx (S.Nr + 4) a.2.1) = ir <;> simp [h1, h2]

end Val

/-! ### The rows that a particle reaches -/

theorem writes_bounds {S : Setup} {f : DepField} {m : ℕ} {sp : DepSpecies} {p : DepPtcl} {k : ℤ}
    (h : writes S f m sp p k) :
    ⌈S.g0.zCell p.z⌉ - sp.shape.half ≤ k ∧ k ≤ ⌈S.g0.zCell p.z⌉ + sp.shape.half - 1 := by
  obtain ⟨a, ha, rfl⟩ := h
  unfold addsOf ptclAdds at ha
  simp only [List.mem_flatMap, List.mem_map, List.mem_range] at ha
  obtain ⟨u, hu, v, hv, rfl⟩ := ha
  simp only [izCell_eq]
  have := sp.shape.width_half
  omega

theorem within_rows {S : Setup} (hdz : 0 < S.dz) {st : ℤ} {N : ℕ} {s : Shape} {z : ℝ}
    (h : Within (S.z0 + st * S.dz) S.dz N s z) :
    st ≤ ⌈S.g0.zCell z⌉ - s.half ∧ ⌈S.g0.zCell z⌉ + s.half ≤ st + N := by
  obtain ⟨h1, h2⟩ := h
  have e : S.g0.zCell z = (z - S.z0) / S.dz - 1 / 2 := by
    unfold Setup.g0 CylGrid.zCell; field_simp
  have h1' : st + edge s < (z - S.z0) / S.dz := by rw [lt_div_iff₀ hdz]; linarith
  have h2' : (z - S.z0) / S.dz < st + N - edge s := by rw [div_lt_iff₀ hdz]; linarith
  cases s
  · simp only [edge, Shape.half] at *
    have a : st < ⌈S.g0.zCell z⌉ := by rw [Int.lt_ceil, e]; linarith
    have b : ⌈S.g0.zCell z⌉ ≤ st + N - 1 := by rw [Int.ceil_le, e]; push_cast; linarith
    omega
  · simp only [edge, Shape.half] at *
    have a : st + 1 < ⌈S.g0.zCell z⌉ := by rw [Int.lt_ceil, e]; push_cast; linarith
    have b : ⌈S.g0.zCell z⌉ ≤ st + N - 2 := by rw [Int.ceil_le, e]; push_cast; linarith
    omega

theorem near_rows {S : Setup} (hdz : 0 < S.dz) {N : ℕ} {s : Shape} {z : ℝ} (h : Near S.z0 S.dz N s z) :
    -2 ≤ ⌈S.g0.zCell z⌉ - s.half ∧ ⌈S.g0.zCell z⌉ + s.half ≤ N + 2 := by
  obtain ⟨h1, h2⟩ := h
  have e : S.g0.zCell z = (z - S.z0) / S.dz - 1 / 2 := by
    unfold Setup.g0 CylGrid.zCell; field_simp
  have h1' : -beyond s < (z - S.z0) / S.dz := by rw [lt_div_iff₀ hdz]; linarith
  have h2' : (z - S.z0) / S.dz ≤ N + beyond s := by rw [div_le_iff₀ hdz]; linarith
  cases s
  · simp only [beyond, Shape.half] at *
    have a : -2 < ⌈S.g0.zCell z⌉ := by rw [Int.lt_ceil, e]; push_cast; linarith
    have b : ⌈S.g0.zCell z⌉ ≤ N + 1 := by rw [Int.ceil_le, e]; push_cast; linarith
    omega
  · simp only [beyond, Shape.half] at *
    have a : -1 < ⌈S.g0.zCell z⌉ := by rw [Int.lt_ceil, e]; push_cast; linarith
    have b : ⌈S.g0.zCell z⌉ ≤ N := by rw [Int.ceil_le, e]; push_cast; linarith
    omega

/-! ### Cells -/

theorem _root_.Fbpic.Spec.SameCell.refl (P : Option ℕ) (i : ℤ) : SameCell P i i := by
  cases P
  · rfl
  · exact Int.ModEq.refl _

theorem _root_.Fbpic.Spec.SameCell.symm {P : Option ℕ} {i j : ℤ} (h : SameCell P i j) : SameCell P j i := by
  cases P
  · exact Eq.symm h
  · exact Int.ModEq.symm h

theorem _root_.Fbpic.Spec.SameCell.trans {P : Option ℕ} {i j k : ℤ} (h : SameCell P i j) (h' : SameCell P j k) : SameCell P i k := by
  cases P
  · exact Eq.trans h h'
  · exact Int.ModEq.trans h h'

instance (P : Option ℕ) (i j : ℤ) : Decidable (SameCell P i j) := by
  unfold SameCell; cases P <;> infer_instance

/-- Indicator of a global cell. -/
noncomputable def ind (P : Option ℕ) (G : ℤ) (k : ℤ) : ℂ := if SameCell P k G then 1 else 0

theorem ind_congr {P : Option ℕ} {G G' : ℤ} (h : SameCell P G G') : ind P G = ind P G' := by
  funext k
  unfold ind
  by_cases hk : SameCell P k G
  · rw [if_pos hk, if_pos (hk.trans h)]
  · rw [if_neg hk, if_neg fun h' => hk (h'.trans h.symm)]

/-! ### One process against several -/

theorem _root_.Fbpic.Spec.SameSource.eq {box : Option ℝ} {p q : DepPtcl} (h : SameSource box p q) : q = { p with z := q.z } := by
  obtain ⟨h1, h2, h3, h4, h5, h6, h7, -⟩ := h
  cases p; cases q
  simp only at *
  subst h1 h2 h3 h4 h5 h6 h7
  rfl

theorem ptclVal_same {S : Setup} (hdz : 0 < S.dz) {f : DepField} {m ir : ℕ} (P : Option ℕ) (G : ℤ)
    (sp : DepSpecies) {p q : DepPtcl} (h : SameSource (P.map fun L : ℕ => (L : ℝ) * S.dz) p q) :
    ptclVal S f m ir (ind P G) sp q = ptclVal S f m ir (ind P G) sp p := by
  have hk : ∃ k : ℤ, S.g0.zCell q.z = S.g0.zCell p.z + k ∧ ∀ i : ℤ, SameCell P (i + k) i := by
    have h8 := h.2.2.2.2.2.2.2
    cases P with
    | none =>
      simp only [Option.map_none] at h8
      exact ⟨0, by rw [h8]; simp, fun i => by simp [SameCell]⟩
    | some L =>
      simp only [Option.map_some] at h8
      obtain ⟨k, hk⟩ := h8
      refine ⟨k * L, ?_, fun i => ?_⟩
      · rw [hk]
        unfold Setup.g0 CylGrid.zCell
        push_cast
        field_simp
        ring
      · show i + k * L ≡ i [ZMOD L]
        simp [Int.ModEq]
  obtain ⟨k, hk, hc⟩ := hk
  unfold ptclVal
  rw [addsOf_shift sp.shape f S.clight sp.q S.g0 S.g0 k _ m p q rfl rfl rfl h.eq hk, List.map_map]
  congr 1
  apply List.map_congr_left
  intro a _
  simp only [Function.comp]
  have e : ind P G (a.1 + k - 2) = ind P G (a.1 - 2) := by
    unfold ind
    have h1 : SameCell P (a.1 + k - 2) (a.1 - 2) := by
      rw [show a.1 + k - 2 = a.1 - 2 + k by ring]; exact hc _
    by_cases h2 : SameCell P (a.1 - 2) G
    · rw [if_pos h2, if_pos (h1.trans h2)]
    · rw [if_neg h2, if_neg fun h3 => h2 (h1.symm.trans h3)]
  rw [e]

theorem sum_map_getElem {α : Type} (L : List α) (u : α → ℂ) :
    (L.map u).sum = ∑ k ∈ Finset.range L.length, ((L[k]?).map u).getD 0 := by
  induction L with
  | nil => simp
  | cons a L ih =>
    rw [List.map_cons, List.sum_cons, List.length_cons, Finset.sum_range_succ', ih, add_comm]
    simp

theorem allVal_same {S : Setup} (hdz : 0 < S.dz) {f : DepField} {m ir : ℕ} (P : Option ℕ) (G : ℤ)
    {n : ℕ} {sps : ℕ → List DepSpecies} {one : List DepSpecies}
    (h : SameSources (P.map fun L : ℕ => (L : ℝ) * S.dz) n sps one) :
    ∑ s ∈ Finset.range n, allVal S f m ir (ind P G) (sps s) = allVal S f m ir (ind P G) one := by
  obtain ⟨h1, h2⟩ := h
  have hlen : ∀ s ∈ Finset.range n, (sps s).length = one.length := by
    intro s hs
    have := congrArg List.length (h1 s (Finset.mem_range.1 hs))
    simpa using this
  unfold allVal
  have e1 : ∑ s ∈ Finset.range n, ((sps s).map (spVal S f m ir (ind P G))).sum
      = ∑ s ∈ Finset.range n, ∑ k ∈ Finset.range one.length,
        (((sps s)[k]?).map (spVal S f m ir (ind P G))).getD 0 := by
    apply Finset.sum_congr rfl
    intro s hs
    rw [sum_map_getElem, hlen s hs]
  rw [e1, Finset.sum_comm, sum_map_getElem]
  apply Finset.sum_congr rfl
  intro k hk
  rw [Finset.mem_range] at hk
  have hsp : one[k]? = some one[k] := List.getElem?_eq_getElem hk
  obtain ⟨l, hl, hperm⟩ := h2 k _ hsp
  rw [hsp]
  simp only [Option.map_some, Option.getD_some]
  -- charge and shape
  have hqs : ∀ s < n, ∃ sp, (sps s)[k]? = some sp ∧ sp.q = one[k].q ∧ sp.shape = one[k].shape := by
    intro s hs
    have e := congrArg (fun L => L[k]?) (h1 s hs)
    simp only [List.getElem?_map, hsp, Option.map_some] at e
    cases hx : (sps s)[k]? with
    | none => rw [hx] at e; simp at e
    | some sp =>
      rw [hx] at e
      simp only [Option.map_some, Option.some.injEq, Prod.mk.injEq] at e
      exact ⟨sp, rfl, e.1, e.2⟩
  by_cases hq : one[k].q = 0
  · rw [Finset.sum_eq_zero]
    · unfold spVal; rw [if_pos hq]
    · intro s hs
      obtain ⟨sp, e, e1, -⟩ := hqs s (Finset.mem_range.1 hs)
      rw [e]
      simp [spVal, e1, hq]
  · have e2 : ∀ s ∈ Finset.range n, (((sps s)[k]?).map (spVal S f m ir (ind P G))).getD 0
        = (((((sps s)[k]?).map DepSpecies.ptcls).getD []).map (ptclVal S f m ir (ind P G) one[k])).sum := by
      intro s hs
      obtain ⟨sp, e, e1, e2⟩ := hqs s (Finset.mem_range.1 hs)
      rw [e]
      simp only [Option.map_some, Option.getD_some, spVal, e1, hq, if_false]
      congr 1
      apply List.map_congr_left
      intro p _
      unfold ptclVal
      rw [e1, e2]
    rw [Finset.sum_congr rfl e2]
    unfold spVal
    rw [if_neg hq, ← (hperm.map _).sum_eq]
    rw [← list_map_range_sum, ← list_sum_flatMap]
    generalize (List.range n).flatMap (fun r => (((sps r)[k]?).map DepSpecies.ptcls).getD []) = L at hl
    clear hperm e2
    induction hl with
    | nil => rfl
    | cons hab _ ih =>
      rw [List.map_cons, List.map_cons, List.sum_cons, List.sum_cons, ih, ptclVal_same hdz P G _ hab]

/-! ### The two communicators -/

theorem rows_eq (c : Comm) (r : ℕ) : rows c r = c.nzLoc true r + 2 * c.nGuard := by
  unfold rows; rw [Comm.getNzIz_local]; simp

theorem start_eq (c : Comm) (r : ℕ) : start c r = c.izLoc true r - c.nGuard := by
  unfold start; rw [Comm.getNzIz_local]; simp

theorem mkComm_sizes {a : CommArgs ℝ} {n : ℕ} {c1 c : Comm} (h1 : mkComm { a with size := 1 } = .ok c1)
    (hn : mkComm { a with size := n } = .ok c) :
    c1.NzGlobal = a.Nz ∧ c.NzGlobal = a.Nz ∧ c1.size = 1 ∧ c.size = n ∧ c1.bz = c.bz ∧
    (c.bz = .periodic → c1.nGuard = 0 ∧ c1.nzDamp = 0 ∧ c1.nInject = 0 ∧ c.nzDamp = 0 ∧ c.nInject = 0) ∧
    (c.bz = .opened → c1.nGuard = c.nGuard ∧ c1.nzDamp = c.nzDamp ∧ c1.nInject = c.nInject) := by
  have s1 := mkComm_spec h1
  have s2 := mkComm_spec hn
  unfold mkComm at h1 hn
  cases hb : parseBoundaries a.boundaries with
  | error e => simp [hb, bind, Except.bind] at h1
  | ok b =>
    obtain ⟨bz, br⟩ := b
    cases hg1 : initialGuard { a with size := 1 } with
    | error e => simp [hb, hg1, bind, Except.bind] at h1
    | ok g1 =>
      cases hg : initialGuard { a with size := n } with
      | error e => simp [hb, hg, bind, Except.bind] at hn
      | ok g =>
        have hgg : g1 = g := by
          unfold initialGuard at hg1 hg
          cases hx : a.nGuard with
          | some k =>
            simp only [hx, Except.ok.injEq] at hg1 hg
            omega
          | none =>
            simp only [hx] at hg1 hg
            by_cases ho : a.nOrder = -1
            · by_cases hs : n = 1
              · subst hs
                simp [ho] at hg1 hg
                omega
              · simp [ho, hs] at hg
            · simp [ho] at hg1 hg
              omega
        simp only [hb, hg1, hg, bind, Except.bind] at h1 hn
        split at h1
        · simp at h1
        · split at hn
          · simp at hn
          · simp only [pure, Except.pure, Except.ok.injEq] at h1 hn
            subst h1 hn hgg
            simp only
            refine ⟨trivial, trivial, trivial, trivial, trivial, ?_, ?_⟩
            · rintro rfl; simp
            · rintro rfl; simp

/-- The layout of a communicator. -/
def lay (c : Comm) : _root_.Spec.Layout :=
  { n := c.size, first := start c, N := rows c, ng := c.nGuard, period := periodOf c }

theorem lay_describes (c : Comm) : c.Describes (lay c) := by
  refine ⟨rfl, rfl, rfl, fun r hr => ?_⟩
  rw [Comm.getNzIz_local]
  simp only [if_true, lay, rows_eq, start_eq]

theorem lay_same (c : Comm) (r j s k : ℕ) :
    (lay c).Same r j s k ↔ SameCell (periodOf c) (start c r + j) (start c s + k) := Iff.rfl

theorem rankGrid_domain {c : Comm} {S : Setup} {r : ℕ} {g : CylGrid} (h : rankGrid c S r = .ok g) :
    ∃ res, c.divideIntoDomain S.z0 S.dz r = .ok res := by
  unfold rankGrid at h
  rw [except_bind_ok] at h
  obtain ⟨res, h, -⟩ := h
  exact ⟨res, h⟩

theorem accepted {a : CommArgs ℝ} {c : Comm} {S : Setup} (hm : mkComm a = .ok c)
    (hg : ∀ r < c.size, ∃ g, rankGrid c S r = .ok g) : Accepted a c (lay c) := by
  refine ⟨hm, fun r hr => ?_, lay_describes c⟩
  obtain ⟨g, h⟩ := hg r hr
  obtain ⟨res, h⟩ := rankGrid_domain h
  exact ⟨S.z0, S.dz, res, h⟩

/-- The rows of every process are rows of the whole domain (open boundaries). -/
theorem open_rows {c1 c : Comm} (hs1 : c1.size = 1) (hN : c1.NzGlobal = c.NzGlobal)
    (hg : c1.nGuard = c.nGuard ∧ c1.nzDamp = c.nzDamp ∧ c1.nInject = c.nInject) {r : ℕ} (hr : r < c.size) :
    start c1 0 ≤ start c r ∧ start c r + rows c r ≤ start c1 0 + rows c1 0 := by
  have l1 := Comm.izLoc_last c1 true (by omega)
  have l2 := Comm.izLoc_last c true (by omega)
  have z1 := Comm.izLoc_zero c1 true
  have z2 := Comm.izLoc_zero c true
  rw [hs1] at l1
  simp only [if_true, hg.2.1, hg.2.2] at l1 l2 z1 z2
  have mono : ∀ a b, a < b → b < c.size → c.izLoc true a + c.nzLoc true a ≤ c.izLoc true b := fun a b h1 h2 =>
    Spec.mono_of_contiguous (n := c.size) (start := c.izLoc true) (len := c.nzLoc true)
      (fun r hr => Comm.izLoc_succ c true r hr) a b h1 h2
  have lo : c.izLoc true 0 ≤ c.izLoc true r := by
    rcases Nat.eq_zero_or_pos r with h | h
    · subst h; exact le_refl _
    · have := mono 0 r h hr; omega
  have hi : c.izLoc true r + c.nzLoc true r ≤ c.izLoc true (c.size - 1) + c.nzLoc true (c.size - 1) := by
    by_cases h : r = c.size - 1
    · rw [h]
    · have := mono r (c.size - 1) (by omega) (by omega); omega
  simp only [rows_eq, start_eq, hg.1]
  rw [hN] at l1
  push_cast at *
  constructor <;> omega

theorem foldRow_same {N : ℕ} (hN : 2 ≤ N) {k : ℤ} (h1 : -2 ≤ k) (h2 : k < N + 2) {j : ℕ} (hj : j < N) :
    foldRow N (wrapIdx (N + 4) (k + 2)) = j ↔ k ≡ j [ZMOD N] := by
  rw [wrapIdx_of_nonneg (by omega)]
  have e : ((foldRow N (k + 2).toNat : ℕ) : ℤ) = if k < 0 then k + N else if k < N then k else k - N := by
    unfold foldRow
    split_ifs <;> omega
  rw [← Int.natCast_inj, e]
  have hmod : (if k < 0 then k + N else if k < N then k else k - N : ℤ) = k % N := by
    split_ifs with a b
    · rw [← Int.add_emod_right]; exact (Int.emod_eq_of_lt (by omega) (by omega)).symm
    · exact (Int.emod_eq_of_lt (by omega) (by omega)).symm
    · rw [← Int.sub_emod_right k N]; exact (Int.emod_eq_of_lt (by omega) (by omega)).symm
  rw [hmod]
  unfold Int.ModEq
  rw [Int.emod_eq_of_lt (by omega : (0:ℤ) ≤ j) (by omega)]

theorem foldRow_within {N : ℕ} {st k : ℤ} (h1 : st ≤ k) (h2 : k < st + N) {j : ℕ} :
    foldRow N (wrapIdx (N + 4) (k + 2 - st)) = j ↔ k = st + j := by
  rw [wrapIdx_of_nonneg (by omega)]
  unfold foldRow
  split_ifs <;> omega

/-- What a process deposits for a global cell. -/
theorem rank_total {S : Setup} (hdz : 0 < S.dz) (ht : 0 < S.nthreads) (hr : 2 ≤ S.Nr) {f : DepField} {m ir : ℕ}
    (hir : ir < S.Nr) {st : ℤ} {N : ℕ} (hN : 2 ≤ N) {sps : List DepSpecies} {A : Buf}
    (h : depositAll f S.clight (S.at st N) S.beta m S.nthreads sps = .ok A)
    (hin : ∀ sp ∈ sps, ∀ p ∈ sp.ptcls, Within (S.z0 + st * S.dz) S.dz N sp.shape p.z) (P : Option ℕ) (G : ℤ) :
    ∑ i ∈ Finset.range N, (if SameCell P G (st + (i : ℤ)) then A i ir else 0) = allVal S f m ir (ind P G) sps := by
  rw [← Finset.sum_filter]
  rw [Finset.sum_congr rfl fun i hi => deposit_value hdz ht hr hN h
    (Finset.mem_range.1 (Finset.mem_filter.1 hi).1) hir, allVal_sum]
  refine allVal_congr fun sp hsp _ p hp k hk => ?_
  have b1 := writes_bounds hk
  have b2 := within_rows hdz (hin sp hsp p hp)
  have hk1 : st ≤ k := by omega
  have hk2 : k < st + N := by omega
  rw [Finset.sum_filter, Finset.sum_eq_single (k - st).toNat]
  · rw [if_pos ((foldRow_within hk1 hk2).2 (by omega))]
    unfold ind
    rw [show st + ((k - st).toNat : ℤ) = k by omega]
    by_cases hs : SameCell P k G
    · rw [if_pos hs, if_pos hs.symm]
    · rw [if_neg hs, if_neg fun h => hs h.symm]
  · intro b hb hne
    have h0 : ¬ foldRow N (wrapIdx (N + 4) (k + 2 - st)) = b := fun h =>
      hne (by rw [foldRow_within hk1 hk2] at h; omega)
    simp only [h0, if_false, ite_self]
  · intro h
    exact absurd (Finset.mem_range.2 (by omega)) h

/-- What the single process deposits in a cell. -/
theorem one_value {S : Setup} (hdz : 0 < S.dz) (ht : 0 < S.nthreads) (hr : 2 ≤ S.Nr) {f : DepField} {m ir : ℕ}
    (hir : ir < S.Nr) {st : ℤ} {N : ℕ} (hN : 2 ≤ N) {sps : List DepSpecies} {A : Buf}
    (h : depositAll f S.clight (S.at st N) S.beta m S.nthreads sps = .ok A) (P : Option ℕ)
    (hP : (P = none ∧ ∀ sp ∈ sps, ∀ p ∈ sp.ptcls, st ≤ ⌈S.g0.zCell p.z⌉ - sp.shape.half ∧
        ⌈S.g0.zCell p.z⌉ + sp.shape.half ≤ st + N) ∨
      (P = some N ∧ st = 0 ∧ ∀ sp ∈ sps, ∀ p ∈ sp.ptcls, Near S.z0 S.dz N sp.shape p.z))
    {j : ℕ} (hj : j < N) : A j ir = allVal S f m ir (ind P (st + j)) sps := by
  rw [deposit_value hdz ht hr hN h hj hir]
  refine allVal_congr fun sp hsp _ p hp k hk => ?_
  have b1 := writes_bounds hk
  have key : foldRow N (wrapIdx (N + 4) (k + 2 - st)) = j ↔ SameCell P k (st + j) := by
    rcases hP with ⟨rfl, hin⟩ | ⟨rfl, rfl, hin⟩
    · have b2 := hin sp hsp p hp
      exact foldRow_within (by omega) (by omega)
    · have b2 := near_rows hdz (hin sp hsp p hp)
      rw [sub_zero, zero_add]
      exact foldRow_same hN (by omega) (by omega) hj
  unfold ind
  by_cases hs : SameCell P k (st + j)
  · rw [if_pos (key.2 hs), if_pos hs]
  · rw [if_neg fun h => hs (key.1 h), if_neg hs]

/-- Every particle of the single process is the particle of some process. -/
theorem SameSources_mem {box : Option ℝ} {n : ℕ} {sps : ℕ → List DepSpecies} {one : List DepSpecies}
    (h : SameSources box n sps one) {sp : DepSpecies} (hsp : sp ∈ one) {q : DepPtcl} (hq : q ∈ sp.ptcls) :
    ∃ s < n, ∃ sp' ∈ sps s, sp'.shape = sp.shape ∧ ∃ p ∈ sp'.ptcls, SameSource box p q := by
  obtain ⟨k, hk, rfl⟩ := List.mem_iff_getElem.1 hsp
  have hsp : one[k]? = some one[k] := List.getElem?_eq_getElem hk
  obtain ⟨l, hl, hperm⟩ := h.2 k _ hsp
  have hql : q ∈ l := hperm.mem_iff.2 hq
  have : ∀ (L l : List DepPtcl), List.Forall₂ (SameSource box) L l → ∀ q ∈ l, ∃ p ∈ L, SameSource box p q := by
    intro L l hl
    induction hl with
    | nil => intro q hq; simp at hq
    | @cons a b L l hab _ ih =>
      intro q hq
      rcases List.mem_cons.1 hq with rfl | hq
      · exact ⟨a, by simp, hab⟩
      · obtain ⟨p, hp, h⟩ := ih q hq
        exact ⟨p, List.mem_cons_of_mem _ hp, h⟩
  obtain ⟨p, hp, hpq⟩ := this _ _ hl q hql
  simp only [List.mem_flatMap, List.mem_range] at hp
  obtain ⟨s, hs, hp⟩ := hp
  have e := congrArg (fun L => L[k]?) (h.1 s hs)
  simp only [List.getElem?_map, hsp, Option.map_some] at e
  cases hx : (sps s)[k]? with
  | none => rw [hx] at hp; simp at hp
  | some sp' =>
    rw [hx] at hp e
    simp only [Option.map_some, Option.some.injEq, Prod.mk.injEq, Option.getD_some] at hp e
    exact ⟨s, hs, sp', List.mem_of_getElem? hx, e.2, p, hp, hpq⟩

theorem depositAll_one_ok (f : DepField) (S : Setup) (hdr : 0 < S.invdr)
    (hbeta : ∀ s k, (S.beta s k).length = S.Nr + 1) (m : ℕ) (ht : 0 < S.nthreads) (hdz : 0 < S.dz) (st : ℤ) (N : ℕ)
    (sps : List DepSpecies)
    (h : ∀ sp ∈ sps, ∀ p ∈ sp.ptcls, st - 2 ≤ ⌈S.g0.zCell p.z⌉ - sp.shape.half ∧
        ⌈S.g0.zCell p.z⌉ + sp.shape.half ≤ st + N + 2) :
    ∃ A, depositAll f S.clight (S.at st N) S.beta m S.nthreads sps = .ok A := by
  refine C24_deposit_partial f S.clight (S.at st N) S.beta m S.nthreads ht sps hbeta hdr rfl fun sp hsp p hp => ?_
  obtain ⟨h1, h2⟩ := h sp hsp p hp
  have e := at_zCell S hdz st N p.z
  have e' : (S.at st N).invdz * (p.z - (S.at st N).zmin) = S.g0.zCell p.z - st + 1 / 2 := by
    have : (S.at st N).zCell p.z = (S.at st N).invdz * (p.z - (S.at st N).zmin) - 1 / 2 := rfl
    rw [this] at e
    push_cast at e
    linarith
  rw [e']
  have hN : (S.at st N).Nz = N := rfl
  rw [hN]
  cases hs : sp.shape with
  | linear =>
    rw [hs] at h1 h2
    simp only [Shape.half, Shape.reach] at *
    have a : st - 2 < ⌈S.g0.zCell p.z⌉ := by omega
    have b : ⌈S.g0.zCell p.z⌉ ≤ st + N + 1 := by omega
    rw [Int.lt_ceil] at a
    rw [Int.ceil_le] at b
    push_cast at a b
    constructor <;> linarith
  | cubic =>
    rw [hs] at h1 h2
    simp only [Shape.half, Shape.reach] at *
    have a : st - 1 < ⌈S.g0.zCell p.z⌉ := by omega
    have b : ⌈S.g0.zCell p.z⌉ ≤ st + N := by omega
    rw [Int.lt_ceil] at a
    rw [Int.ceil_le] at b
    push_cast at a b
    constructor <;> linarith

/-! ### Gathering -/

/-- The cells of `linearCells` before the longitudinal indices are wrapped, with global indices. -/
noncomputable def rawLinear (S : Setup) (m : ℕ) (r z : ℝ) : List GCell :=
  let rc := S.g0.rCell r
  let zc := S.g0.zCell z
  let irLower : ℤ := ⌊rc⌋
  let irUpper : ℤ := irLower + 1
  let izLower : ℤ := ⌊zc⌋
  let izUpper : ℤ := izLower + 1
  let SrLower : ℝ := irUpper - rc
  let SrUpper : ℝ := rc - irLower
  let SzLower : ℝ := izUpper - zc
  let SzUpper : ℝ := zc - izLower
  let SrGuard : ℝ := if irLower < 0 then SrLower else 0
  let SrLower : ℝ := if irLower < 0 then 0 else SrLower
  let irLower : ℤ := if irLower < 0 then 0 else irLower
  let irLower : ℤ := if irLower > S.Nr - 1 then S.Nr - 1 else irLower
  let irUpper : ℤ := if irUpper > S.Nr - 1 then S.Nr - 1 else irUpper
  let Sll := SzLower * SrLower
  let Slu := SzLower * SrUpper
  let Sul := SzUpper * SrLower
  let Suu := SzUpper * SrUpper
  let Slg := SzLower * SrGuard
  let Sug := SzUpper * SrGuard
  let flipFactor : ℝ := (-1)^m
  [⟨izLower, irLower, Sll, Sll⟩, ⟨izLower, irUpper, Slu, Slu⟩,
   ⟨izUpper, irLower, Sul, Sul⟩, ⟨izUpper, irUpper, Suu, Suu⟩] ++
  (if irLower = irUpper ∧ irUpper = 0 then
    [⟨izLower, 0, -flipFactor * Slg, flipFactor * Slg⟩,
     ⟨izUpper, 0, -flipFactor * Sug, flipFactor * Sug⟩] else [])

/-- The cells of `cubicCells` before the longitudinal indices are wrapped, with global indices. -/
noncomputable def rawCubic (S : Setup) (m : ℕ) (r z : ℝ) : List GCell :=
  let rc := S.g0.rCell r
  let zc := S.g0.zCell z
  let irLowest : ℤ := ⌊rc⌋ - 1
  let rLocal : ℝ := rc - irLowest
  let izLowest : ℤ := ⌊zc⌋ - 1
  let zLocal : ℝ := zc - izLowest
  (List.range 4).flatMap fun (b : ℕ) =>
    let ir : ℤ := irLowest + b
    let Sr := cubicWeight rLocal b
    let SrLong : ℝ := if ir < 0 then Sr * (-1)^m else Sr
    let SrPerp : ℝ := if ir < 0 then Sr * -(-1)^m else Sr
    (List.range 4).map fun (a : ℕ) =>
      let Sz := cubicWeight zLocal a
      ⟨izLowest + a, foldCubic ir S.Nr, Sz * SrPerp, Sz * SrLong⟩

noncomputable def rawCells (S : Setup) (s : Shape) (m : ℕ) (r z : ℝ) : List GCell :=
  match s with
  | .linear => rawLinear S m r z
  | .cubic => rawCubic S m r z

def wrapOf (s : Shape) (iz : ℤ) (N : ℕ) : ℤ :=
  match s with
  | .linear => wrapLinear iz N
  | .cubic => wrapCubic iz N

/-- The cells on any grid at any image of the position. -/
theorem cells_raw (S : Setup) (s : Shape) (g : CylGrid) (n : ℤ) (m : ℕ) (r z z' : ℝ)
    (h1 : g.invdr = S.invdr) (h2 : g.rmin = 0) (h3 : g.Nr = S.Nr) (hz : g.zCell z' = S.g0.zCell z + n) :
    s.cells g m r z' = (rawCells S s m r z).map fun cl => { cl with iz := wrapOf s (cl.iz + n) g.Nz } := by
  have hr : g.rCell r = S.g0.rCell r := by unfold CylGrid.rCell Setup.g0; rw [h1, h2]
  cases s
  · simp only [Shape.cells, linearCells, rawCells, rawLinear, hr, hz, h3, Int.floor_add_intCast, wrapOf,
      List.map_append, List.map_cons, List.map_nil]
    have e1 : ⌊S.g0.zCell z⌋ + n + 1 = ⌊S.g0.zCell z⌋ + 1 + n := by ring
    have e2 : (((⌊S.g0.zCell z⌋ + 1 + n : ℤ)) : ℝ) - (S.g0.zCell z + n)
        = ((⌊S.g0.zCell z⌋ + 1 : ℤ) : ℝ) - S.g0.zCell z := by push_cast; ring
    have e3 : S.g0.zCell z + n - (((⌊S.g0.zCell z⌋ + n : ℤ)) : ℝ)
        = S.g0.zCell z - (⌊S.g0.zCell z⌋ : ℤ) := by push_cast; ring
    rw [e1, e2, e3]
    congr 1
    split_ifs <;> rfl
  · simp only [Shape.cells, cubicCells, rawCells, rawCubic, hr, hz, h3, Int.floor_add_intCast, wrapOf,
      List.map_flatMap, List.map_map]
    have e3 : S.g0.zCell z + n - ((⌊S.g0.zCell z⌋ + n - 1 : ℤ) : ℝ)
        = S.g0.zCell z - ((⌊S.g0.zCell z⌋ - 1 : ℤ) : ℝ) := by push_cast; ring
    rw [e3]
    congr 1
    funext b
    congr 1
    funext a
    simp only [Function.comp]
    congr 2
    ring

theorem raw_bounds {S : Setup} {s : Shape} {m : ℕ} {r z : ℝ} {cl : GCell} (h : cl ∈ rawCells S s m r z) :
    ⌊S.g0.zCell z⌋ - s.half + 1 ≤ cl.iz ∧ cl.iz ≤ ⌊S.g0.zCell z⌋ + s.half := by
  cases s
  · simp only [rawCells, rawLinear, List.mem_append, List.mem_cons, List.not_mem_nil, or_false] at h
    simp only [Shape.half]
    rcases h with (rfl | rfl | rfl | rfl) | h
    · simp
    · simp
    · simp
    · simp
    · split_ifs at h <;> simp only [List.mem_cons, List.not_mem_nil, or_false] at h <;>
        rcases h with rfl | rfl <;> simp
  · simp only [rawCells, rawCubic, List.mem_flatMap, List.mem_map, List.mem_range] at h
    obtain ⟨b, hb, a, ha, rfl⟩ := h
    simp only [Shape.half]
    omega

theorem within_gather {S : Setup} (hdz : 0 < S.dz) {st : ℤ} {N : ℕ} {s : Shape} {z : ℝ}
    (h : Within (S.z0 + st * S.dz) S.dz N s z) :
    st ≤ ⌊S.g0.zCell z⌋ - s.half + 1 ∧ ⌊S.g0.zCell z⌋ + s.half < st + N := by
  obtain ⟨h1, h2⟩ := h
  have e : S.g0.zCell z = (z - S.z0) / S.dz - 1 / 2 := by
    unfold Setup.g0 CylGrid.zCell; field_simp
  have h1' : st + edge s < (z - S.z0) / S.dz := by rw [lt_div_iff₀ hdz]; linarith
  have h2' : (z - S.z0) / S.dz < st + N - edge s := by rw [div_lt_iff₀ hdz]; linarith
  cases s
  · simp only [edge, Shape.half] at *
    have a : st ≤ ⌊S.g0.zCell z⌋ := by rw [Int.le_floor, e]; linarith
    have b : ⌊S.g0.zCell z⌋ < st + N - 1 := by rw [Int.floor_lt, e]; push_cast; linarith
    omega
  · simp only [edge, Shape.half] at *
    have a : st + 1 ≤ ⌊S.g0.zCell z⌋ := by rw [Int.le_floor, e]; push_cast; linarith
    have b : ⌊S.g0.zCell z⌋ < st + N - 2 := by rw [Int.floor_lt, e]; push_cast; linarith
    omega

theorem foldlM_congr' {α β : Type} {L : List α} {f g : β → α → Except PyErr β}
    (h : ∀ b, ∀ a ∈ L, f b a = g b a) : ∀ b, L.foldlM f b = L.foldlM g b := by
  induction L with
  | nil => intro b; rfl
  | cons a L ih =>
    intro b
    rw [List.foldlM_cons, List.foldlM_cons, h b a (by simp)]
    congr 1
    funext b'
    exact ih (fun b a ha => h b a (List.mem_cons_of_mem _ ha)) b'

/-- Two sets of rows look the same to the cells of a particle. -/
structure Agrees (S : Setup) (g g' : CylGrid) (F F' : GridVec) (i i' : ℤ) : Prop where
  ex : ∃ k k', bufIndex g.Nz i = .ok k ∧ bufIndex g'.Nz i' = .ok k' ∧
    ∀ j < S.Nr, F.r k j = F'.r k' j ∧ F.t k j = F'.t k' j ∧ F.z k j = F'.z k' j

theorem gatherCells_agree {S : Setup} {s : Shape} {g g' : CylGrid} {n n' : ℤ} {m : ℕ} {F F' : GridVec} {r z y y' : ℝ}
    (h1 : g.invdr = S.invdr) (h2 : g.rmin = 0) (h3 : g.Nr = S.Nr) (hz : g.zCell y = S.g0.zCell z + n)
    (h1' : g'.invdr = S.invdr) (h2' : g'.rmin = 0) (h3' : g'.Nr = S.Nr) (hz' : g'.zCell y' = S.g0.zCell z + n')
    (H : ∀ k : ℤ, ⌊S.g0.zCell z⌋ - s.half + 1 ≤ k → k ≤ ⌊S.g0.zCell z⌋ + s.half →
      Agrees S g g' F F' (wrapOf s (k + n) g.Nz) (wrapOf s (k + n') g'.Nz)) :
    gatherCells g F (s.cells g m r y) = gatherCells g' F' (s.cells g' m r y') := by
  rw [cells_raw S s g n m r z y h1 h2 h3 hz, cells_raw S s g' n' m r z y' h1' h2' h3' hz']
  unfold gatherCells
  rw [List.foldlM_map, List.foldlM_map]
  apply foldlM_congr'
  intro acc cl hcl
  obtain ⟨b1, b2⟩ := raw_bounds hcl
  obtain ⟨k, k', e1, e2, e3⟩ := (H cl.iz b1 b2).ex
  simp only [e1, e2, h3, h3', bind, Except.bind]
  cases hj : bufIndex S.Nr cl.ir with
  | error e => rfl
  | ok j =>
    obtain ⟨ho, rfl⟩ := (bufIndex_ok _ _ _).1 hj
    obtain ⟨a1, a2, a3⟩ := e3 _ (wrapIdx_lt ho)
    simp only [a1, a2, a3]

theorem gatherField_agree {S : Setup} {s : Shape} {g g' : CylGrid} {rmax : ℝ} {n n' : ℤ} {Fs Fs' : List GridVec}
    {x y z w w' : ℝ}
    (h1 : g.invdr = S.invdr) (h2 : g.rmin = 0) (h3 : g.Nr = S.Nr) (hz : g.zCell w = S.g0.zCell z + n)
    (h1' : g'.invdr = S.invdr) (h2' : g'.rmin = 0) (h3' : g'.Nr = S.Nr) (hz' : g'.zCell w' = S.g0.zCell z + n')
    (H : List.Forall₂ (fun F F' => ∀ k : ℤ, ⌊S.g0.zCell z⌋ - s.half + 1 ≤ k → k ≤ ⌊S.g0.zCell z⌋ + s.half →
      Agrees S g g' F F' (wrapOf s (k + n) g.Nz) (wrapOf s (k + n') g'.Nz)) Fs Fs') :
    gatherField s g rmax Fs x y w = gatherField s g' rmax Fs' x y w' := by
  have key : ∀ (m : ℕ) (F F' : GridVec), (∀ k : ℤ, ⌊S.g0.zCell z⌋ - s.half + 1 ≤ k →
      k ≤ ⌊S.g0.zCell z⌋ + s.half → Agrees S g g' F F' (wrapOf s (k + n) g.Nz) (wrapOf s (k + n') g'.Nz)) →
      ∀ e r acc, addGather s g m F e r w acc = addGather s g' m F' e r w' acc := by
    intro m F F' h e r acc
    unfold addGather
    rw [gatherCells_agree (m := m) (r := r) h1 h2 h3 hz h1' h2' h3' hz' h]
  have gen : ∀ (Fs Fs' : List GridVec), List.Forall₂ (fun F F' => ∀ k : ℤ, ⌊S.g0.zCell z⌋ - s.half + 1 ≤ k →
      k ≤ ⌊S.g0.zCell z⌋ + s.half → Agrees S g g' F F' (wrapOf s (k + n) g.Nz) (wrapOf s (k + n') g'.Nz)) Fs Fs' →
      ∀ (m : ℕ) (E : ℝ × ℝ × ℝ),
      (Fs.zipIdx m).foldlM (fun (E : ℝ × ℝ × ℝ) (Fm : GridVec × ℕ) =>
        gatherOneMode s g rmax Fm.2 Fm.1 x y w E) E =
      (Fs'.zipIdx m).foldlM (fun (E : ℝ × ℝ × ℝ) (Fm : GridVec × ℕ) =>
        gatherOneMode s g' rmax Fm.2 Fm.1 x y w' E) E := by
    intro Fs Fs' h
    induction h with
    | nil => intro m E; rfl
    | @cons a b _ _ hab _ ih =>
      intro m E
      rw [List.zipIdx_cons, List.zipIdx_cons, List.foldlM_cons, List.foldlM_cons]
      have e : ∀ E, gatherOneMode s g rmax m a x y w E = gatherOneMode s g' rmax m b x y w' E := by
        intro E
        unfold gatherOneMode
        simp only [key m _ _ hab]
      rw [e E]
      congr 1
      funext E'
      exact ih (m + 1) E'
  cases H with
  | nil => rfl
  | cons hab H =>
    cases H with
    | nil => exact gen _ _ (.cons hab .nil) 0 _
    | cons hab' H =>
      cases H with
      | nil =>
        show gatherTwoModes s g rmax _ _ x y w = gatherTwoModes s g' rmax _ _ x y w'
        unfold gatherTwoModes
        simp only [key _ _ _ hab, key _ _ _ hab']
      | cons hab'' H => exact gen _ _ (.cons hab (.cons hab' (.cons hab'' H))) 0 _

theorem wrapOf_within {s : Shape} {N : ℕ} {k : ℤ} (h1 : 0 ≤ k) (h2 : k < N) : wrapOf s k N = k := by
  cases s <;> simp only [wrapOf, wrapLinear, wrapCubic] <;> split_ifs <;> omega

theorem wrapOf_period {s : Shape} {N : ℕ} (hN : 2 ≤ N) {k : ℤ} (h1 : -2 ≤ k) (h2 : k ≤ N + 1) :
    0 ≤ wrapOf s k N ∧ wrapOf s k N < N ∧ wrapOf s k N ≡ k [ZMOD N] := by
  have e : wrapOf s k N = if k < 0 then k + N else if (N : ℤ) ≤ k then k - N else k := by
    cases s <;> simp only [wrapOf, wrapLinear, wrapCubic] <;> split_ifs <;> omega
  rw [e]
  split_ifs with a b
  · exact ⟨by omega, by omega, by simp [Int.ModEq]⟩
  · exact ⟨by omega, by omega, by simp [Int.ModEq]⟩
  · exact ⟨by omega, by omega, rfl⟩

theorem bufIndex_nat {N : ℕ} {k : ℤ} (h1 : 0 ≤ k) (h2 : k < N) : bufIndex N k = .ok k.toNat := by
  unfold bufIndex; rw [if_pos ⟨h1, h2⟩]

/-- In the box: the cells are at most two rows outside. -/
theorem inbox_rows {S : Setup} (hdz : 0 < S.dz) {N : ℕ} {s : Shape} {z : ℝ} (h1 : S.z0 ≤ z)
    (h2 : z ≤ S.z0 + N * S.dz) : -2 ≤ ⌊S.g0.zCell z⌋ - s.half + 1 ∧ ⌊S.g0.zCell z⌋ + s.half ≤ N + 1 := by
  have e : S.g0.zCell z = (z - S.z0) / S.dz - 1 / 2 := by
    unfold Setup.g0 CylGrid.zCell; field_simp
  have h1' : 0 ≤ (z - S.z0) / S.dz := div_nonneg (by linarith) hdz.le
  have h2' : (z - S.z0) / S.dz ≤ N := by rw [div_le_iff₀ hdz]; linarith
  have a : -1 ≤ ⌊S.g0.zCell z⌋ := by rw [Int.le_floor, e]; push_cast; linarith
  have b : ⌊S.g0.zCell z⌋ < N := by rw [Int.floor_lt, e]; push_cast; linarith
  cases s <;> simp only [Shape.half] <;> omega

end Fbpic.Ranks
