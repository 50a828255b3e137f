import Verif.Lemmas.GpuConservation
import Verif.Props.ParticleExchange
import Verif.Props.Stretch
import Mathlib.Data.List.Sort

/-!
# C67: particle exchange on the GPU

The GPU finds the particles to send from the prefix sum of the last sort, which may be older than
the last move of the window. It keeps particles up to half a cell outside the sub-domain.
-/

namespace Fbpic
open GpuExchange _root_.Spec

variable {K : Type} [Field K] [LinearOrder K] [IsStrictOrderedRing K] [FloorRing K]

/-- Everything the theorems assume about the ranks before the exchange: on every rank the species
`st r` holds the particles `P r`, sorted or not, with any number of window moves since the last
sort; the particles were in the local grid and not in its last half cell when they were sorted; the
window did not move by more than the local grid without its guard cells; `thrust.argsort`
sorts, and the kernels have enough threads (in any order). -/
structure GpuRanks (c : Comm) (w : World K) (rad : Radial K) (d : ℕ → Device K) (t i : Bool)
    (inj : List (Ptcl K)) (P : ℕ → List (Ptcl K)) (st : ℕ → GpuSpecies K) : Prop where
  holds : ∀ r < c.size, Holds rad t i (w.interp r 0) (P r) (st r)
  inGrid : ∀ r < c.size, ∀ p ∈ P r, InGrid (w.interp r 0) (st r) p
  moved : ∀ r < c.size, |(st r).moved| + c.nGuard ≤ (w.interp r 0).Nz
  invdr : 0 < rad.invdr
  radius : ∀ r < c.size, ∀ p ∈ P r, rad.rmin ≤ rad.radius p.x p.y
  argsort : ∀ r < c.size, IsArgSort (d r).argsort
  threads : ∀ r < c.size, (d r).Covers
    (∑ q ∈ Finset.range c.size, (P q).length + inj.length + (w.interp r 0).Nz * (rad.Nr + 1))

/-- The exchange in terms of lists: every rank sends its particles at or below `lo - dz/2` to the
left and those above `hi + dz/2` to the right. -/
private theorem exchange_lists {a : CommArgs K} {c : Comm} {dz : K} {w : World K} {lo hi : ℕ → K}
    {glo ghi : K} (h : Reached a c dz w) (e : Edges c dz w lo hi glo ghi) (rad : Radial K)
    (d : ℕ → Device K) (t i : Bool) (P : ℕ → List (Ptcl K)) (inj : Option (List (Ptcl K)))
    (st : ℕ → GpuSpecies K) (hst : GpuRanks c w rad d t i (inj.getD []) P st)
    (hinj : inj ≠ none → c.bz = .opened) :
    ∃ Q : ℕ → List (Ptcl K), (∀ r < c.size, (Q r).Perm (P r)) ∧
      ∀ r < c.size, ∃ s', exchangeGpu c dz (fun q => w.interp q 0) rad d
          (inj.map (PBuf.ofList t i)) st r = .ok s' ∧ s'.sorted = false ∧
        s'.arr = Species.ofList t i
          (recvL c dz (fun q => (Q q).filter (aboveH (hi q) (dz / 2))) r ++
            (Q r).filter (insideH (lo r) (hi r) (dz / 2)) ++
            (if r + 1 = c.size then
                inj.getD (recvR c dz (fun q => (Q q).filter (belowH (lo q) (dz / 2))) r)
              else recvR c dz (fun q => (Q q).filter (belowH (lo q) (dz / 2))) r)) := by
  obtain ⟨f1, f2, f3, f4, f5, f6, f7⟩ := e.facts h
  obtain ⟨z0, g0, ops, hinit, hrun⟩ := h.run
  obtain ⟨Z, hZ, hI⟩ := World.inv_run (World.inv_start hinit) hrun
  have geo : ∀ r < c.size, (w.interp r 0).dz = dz ∧ (w.interp r 0).zmax
      = (w.interp r 0).zmin + ((w.interp r 0).Nz : K) * (w.interp r 0).dz ∧
      2 * c.nGuard ≤ (w.interp r 0).Nz ∧ 0 < (w.interp r 0).Nz := by
    intro r hr
    obtain ⟨N, iz, h1, h2, h3⟩ := hI r hr 0
    rw [Comm.getNzIz_local] at h1
    simp only [if_true, Except.ok.injEq, Prod.mk.injEq] at h1
    rw [h3]
    exact ⟨rfl, rfl, by simp only []; omega, Nat.pos_of_ne_zero h2⟩
  have key : ∀ r, ∃ (q : List (Ptcl K)) (s' : GpuSpecies K), r < c.size → q.Perm (P r) ∧
      removeParticlesGpu (d r) rad (w.interp r 0) c.nGuard (c.leftProc r) (c.rightProc r) (st r) =
        .ok (PBuf.ofList t i (if (c.leftProc r).isSome then q.filter (belowH (lo r) (dz / 2)) else []),
          PBuf.ofList t i (if (c.rightProc r).isSome then q.filter (aboveH (hi r) (dz / 2)) else []), s') ∧
      s'.arr = Species.ofList t i (q.filter (insideH (lo r) (hi r) (dz / 2))) := by
    intro r
    by_cases hr : r < c.size
    · obtain ⟨g1, g2, g3, g4⟩ := geo r hr
      have hm := hst.moved r hr
      have hm' := abs_le.1 (show |(st r).moved| ≤ ((w.interp r 0).Nz : ℤ) - c.nGuard by omega)
      obtain ⟨q, s', a1, a2, a3⟩ := removeParticlesGpu_eq (hst.holds r hr) hst.invdr (d r)
        (hst.argsort r hr) (by
          intro j hj
          refine hst.threads r hr j ?_
          have : (P r).length ≤ ∑ q ∈ Finset.range c.size, (P q).length :=
            Finset.single_le_sum (f := fun q => (P q).length) (fun _ _ => Nat.zero_le _)
              (Finset.mem_range.2 hr)
          omega) (hst.radius r hr) (hst.inGrid r hr) (by rw [g1]; exact h.dz_pos) g2 c.nGuard g3 g4
        (by omega) (by omega) (c.leftProc r) (c.rightProc r) (lo r) (hi r) (f1 r hr) (f2 r hr)
      rw [g1] at a2 a3
      exact ⟨q, s', fun _ => ⟨a1, a2, a3⟩⟩
    · exact ⟨[], st r, fun h => absurd h hr⟩
  choose Q S hQ using key
  refine ⟨Q, fun r hr => (hQ r hr).1, fun r hr => ?_⟩
  set rem : ℕ → PBuf K × PBuf K × GpuSpecies K := fun q =>
    (PBuf.ofList t i (if (c.leftProc q).isSome then (Q q).filter (belowH (lo q) (dz / 2)) else []),
     PBuf.ofList t i (if (c.rightProc q).isSome then (Q q).filter (aboveH (hi q) (dz / 2)) else []),
     S q) with hrem
  have hmap : (List.range c.size).mapM (fun q => removeParticlesGpu (d q) rad (w.interp q 0) c.nGuard
      (c.leftProc q) (c.rightProc q) (st q)) = .ok ((List.range c.size).map rem) :=
    mapM_ok _ rem _ (fun q hq => (hQ q (List.mem_range.1 hq)).2.1)
  have hget : ∀ q < c.size, ∀ dflt, ((List.range c.size).map rem).getD q dflt = rem q := by
    intro q hq dflt
    simp [List.getD, List.getElem?_range hq]
  have hemp : emptyBuffer (st r).arr = PBuf.ofList t i [] := by
    rw [((hst.holds r hr).facts hst.invdr).1, emptyBuffer_ofList]
  set A : ℕ → List (Ptcl K) := fun q => (Q q).filter (aboveH (hi q) (dz / 2)) with hA
  set B : ℕ → List (Ptcl K) := fun q => (Q q).filter (belowH (lo q) (dz / 2)) with hB
  set dflt := (emptyBuffer (st r).arr, emptyBuffer (st r).arr, st r)
  -- received from the left
  have eL : (if c.leftProc r = some ((c.size : ℤ) - 1) then
        shiftZ (-((c.NzGlobal : K) * dz)) ((c.exchangeDomains
          (fun q => (((List.range c.size).map rem).getD q dflt).1)
          (fun q => (((List.range c.size).map rem).getD q dflt).2.1) r).1.getD
            (emptyBuffer (st r).arr))
      else (c.exchangeDomains (fun q => (((List.range c.size).map rem).getD q dflt).1)
          (fun q => (((List.range c.size).map rem).getD q dflt).2.1) r).1.getD
            (emptyBuffer (st r).arr))
      = PBuf.ofList t i (recvL c dz A r) := by
    cases hl : c.leftProc r with
    | none => simp [recvL, hl, Comm.exchangeDomains, hemp]
    | some l =>
      obtain ⟨l', rfl, hls, -⟩ := Comm.leftProc_nat hr hl
      have hrl := (Comm.right_of_left hr hl).2
      rw [Comm.exchangeDomains_left _ _ hr hl]
      simp only [Option.getD_some, hget l' hls]
      simp only [hrem, hrl, Option.isSome_some, if_true, recvL, hl,
        Int.toNat_natCast, Option.some.injEq]
      split_ifs with hh
      · rw [shiftZ_ofList]
      · simp [hA]
  have eR : (if c.rightProc r = some 0 then shiftZ ((c.NzGlobal : K) * dz)
        (if r + 1 = c.size then (inj.map (PBuf.ofList t i)).getD ((c.exchangeDomains
          (fun q => (((List.range c.size).map rem).getD q dflt).1)
          (fun q => (((List.range c.size).map rem).getD q dflt).2.1) r).2.getD
            (emptyBuffer (st r).arr)) else (c.exchangeDomains
          (fun q => (((List.range c.size).map rem).getD q dflt).1)
          (fun q => (((List.range c.size).map rem).getD q dflt).2.1) r).2.getD
            (emptyBuffer (st r).arr))
      else (if r + 1 = c.size then (inj.map (PBuf.ofList t i)).getD ((c.exchangeDomains
          (fun q => (((List.range c.size).map rem).getD q dflt).1)
          (fun q => (((List.range c.size).map rem).getD q dflt).2.1) r).2.getD
            (emptyBuffer (st r).arr)) else (c.exchangeDomains
          (fun q => (((List.range c.size).map rem).getD q dflt).1)
          (fun q => (((List.range c.size).map rem).getD q dflt).2.1) r).2.getD
            (emptyBuffer (st r).arr)))
      = PBuf.ofList t i (if r + 1 = c.size then inj.getD (recvR c dz B r) else recvR c dz B r) := by
    cases hp : c.rightProc r with
    | none =>
      simp only [recvR, hp, Comm.exchangeDomains, hemp]
      cases inj with
      | none => simp
      | some v => simp; split_ifs <;> rfl
    | some p =>
      obtain ⟨p', rfl, hps, hcc⟩ := Comm.rightProc_nat hr hp
      have hpl := (Comm.left_of_right hr hp).2
      have hnoinj : r + 1 = c.size → inj = none := by
        intro he
        by_contra hne
        have := hinj hne
        rcases hcc with ⟨-, -, h'⟩ | h'
        · rw [this] at h'; cases h'
        · omega
      have hif2 : (if r + 1 = c.size then inj.getD (recvR c dz B r) else recvR c dz B r)
          = recvR c dz B r := by
        split_ifs with h'
        · rw [hnoinj h']; rfl
        · rfl
      have hif : ∀ b : PBuf K, (if r + 1 = c.size then (inj.map (PBuf.ofList t i)).getD b else b)
          = b := by
        intro b
        split_ifs with h'
        · rw [hnoinj h']; rfl
        · rfl
      rw [hif2, hif, Comm.exchangeDomains_right _ _ hr hp]
      simp only [Option.getD_some, hget p' hps]
      simp only [hrem, hpl, Option.isSome_some, if_true, recvR, hp,
        Int.toNat_natCast, Option.some.injEq]
      split_ifs with hh
      · rw [shiftZ_ofList]
      · simp [hB]
  refine ⟨_, by unfold exchangeGpu; simp only [hmap]; rfl, rfl, ?_⟩
  simp only []
  refine (congrArg₂ (fun x y => addBuffersGpu (d r).junk (d r).junkI (d r).threads
    (((List.range c.size).map rem).getD r dflt).2.2.arr x y) eL eR).trans ?_
  rw [hget r hr]
  simp only [hrem]
  rw [(hQ r hr).2.2]
  refine addBuffersGpu_ofList _ _ _ t i _ _ _ ?_
  -- enough threads
  have hlen : ∀ q < c.size, (Q q).length ≤ ∑ q ∈ Finset.range c.size, (P q).length := by
    intro q hq
    rw [(hQ q hq).1.length_eq]
    exact Finset.single_le_sum (f := fun q => (P q).length) (fun _ _ => Nat.zero_le _)
      (Finset.mem_range.2 hq)
  have hrecvL : (recvL c dz A r).length ≤ ∑ q ∈ Finset.range c.size, (P q).length := by
    unfold recvL
    cases hl : c.leftProc r with
    | none => simp
    | some l =>
      obtain ⟨l', rfl, hls, -⟩ := Comm.leftProc_nat hr hl
      simp only [Int.toNat_natCast, List.length_map]
      exact (List.length_filter_le _ _).trans (hlen l' hls)
  have hrecvR : (recvR c dz B r).length ≤ ∑ q ∈ Finset.range c.size, (P q).length := by
    unfold recvR
    cases hl : c.rightProc r with
    | none => simp
    | some l =>
      obtain ⟨l', rfl, hls, -⟩ := Comm.rightProc_nat hr hl
      simp only [Int.toNat_natCast, List.length_map]
      exact (List.length_filter_le _ _).trans (hlen l' hls)
  have hR : (if r + 1 = c.size then inj.getD (recvR c dz B r) else recvR c dz B r).length
      ≤ ∑ q ∈ Finset.range c.size, (P q).length + (inj.getD []).length := by
    split_ifs
    · cases inj with
      | none => simpa using hrecvR
      | some v => simp
    · omega
  intro j hj
  refine hst.threads r hr j ?_
  have := List.length_filter_le (insideH (lo r) (hi r) (dz / 2)) (Q r)
  have := hlen r hr
  rcases hj with hj | hj | hj <;> omega

/-- **C67.** For `n_guard > 0`, the exchange of a species on the GPU, whether or not it is sorted at
that moment, does not fail, and turns the particle lists `P` into lists `P'` such that
* (conservation) the particles of all ranks after the exchange are, with multiplicity and with all
  attributes including id and ionization level, those before it, where the particles more than half a
  cell outside the global domain were removed (open) or translated by one box length (periodic), plus
  the injected ones;
* (delivery) if no particle is farther than one neighbouring sub-domain away, every particle is,
  after the exchange, at most half a cell outside the sub-domain of the rank that holds it. -/
theorem C67_exchange {a : CommArgs K} {c : Comm} {dz : K} {w : World K} {lo hi : ℕ → K}
    {glo ghi : K} (h : Reached a c dz w) (e : Edges c dz w lo hi glo ghi) (rad : Radial K)
    (d : ℕ → Device K) (t i : Bool) (P : ℕ → List (Ptcl K)) (inj : Option (List (Ptcl K)))
    (st : ℕ → GpuSpecies K) (hst : GpuRanks c w rad d t i (inj.getD []) P st)
    (hinj : inj ≠ none → c.bz = .opened) :
    ∃ P' : ℕ → List (Ptcl K),
      (∀ r < c.size, ∃ s', exchangeGpu c dz (fun q => w.interp q 0) rad d
          (inj.map (PBuf.ofList t i)) st r = .ok s' ∧ s'.sorted = false ∧
        s'.arr = Species.ofList t i (P' r)) ∧
      ∑ r ∈ Finset.range c.size, (P' r : Multiset (Ptcl K))
        = (inj.getD [] : List (Ptcl K)) + ∑ r ∈ Finset.range c.size,
            (((P r).filterMap (settleWithin (c.bz = .periodic) (r = 0) (r + 1 = c.size) glo ghi
              ((c.NzGlobal : K) * dz) (dz / 2)) : List (Ptcl K)) : Multiset (Ptcl K)) ∧
      ((∀ r < c.size, ∀ p ∈ P r,
          (∀ l : ℕ, c.leftProc r = some (l : ℤ) → lo r - (hi l - lo l) - dz / 2 < p.z) ∧
          (∀ q : ℕ, c.rightProc r = some (q : ℤ) → p.z ≤ hi r + (hi q - lo q) + dz / 2)) →
        (∀ p ∈ inj.getD [], lo (c.size - 1) - dz / 2 < p.z ∧ p.z ≤ hi (c.size - 1) + dz / 2) →
        ∀ r < c.size, ∀ p ∈ P' r, lo r - dz / 2 < p.z ∧ p.z ≤ hi r + dz / 2) := by
  obtain ⟨f1, f2, f3, f4, f5, f6, f7⟩ := e.facts h
  obtain ⟨Q, hQ, hrun⟩ := exchange_lists h e rad d t i P inj st hst hinj
  have hdz := h.dz_pos
  set A : ℕ → List (Ptcl K) := fun q => (Q q).filter (aboveH (hi q) (dz / 2)) with hA
  set B : ℕ → List (Ptcl K) := fun q => (Q q).filter (belowH (lo q) (dz / 2)) with hB
  refine ⟨_, hrun, ?_, ?_⟩
  · have key : ∀ r < c.size, (((P r).filterMap (settleWithin (c.bz = .periodic) (r = 0)
        (r + 1 = c.size) glo ghi ((c.NzGlobal : K) * dz) (dz / 2)) : List (Ptcl K)) :
          Multiset (Ptcl K))
        = (sentR c dz A r : Multiset (Ptcl K))
          + ((Q r).filter (insideH (lo r) (hi r) (dz / 2)) : List (Ptcl K))
          + (sentL c dz B r : Multiset (Ptcl K)) := by
      intro r hr
      have h1 : (((P r).filterMap (settleWithin (c.bz = .periodic) (r = 0)
        (r + 1 = c.size) glo ghi ((c.NzGlobal : K) * dz) (dz / 2)) : List (Ptcl K)) :
          Multiset (Ptcl K)) = ((Q r).filterMap (settleWithin (c.bz = .periodic) (r = 0)
        (r + 1 = c.size) glo ghi ((c.NzGlobal : K) * dz) (dz / 2)) : List (Ptcl K)) :=
        Multiset.coe_eq_coe.2 ((hQ r hr).symm.filterMap _)
      rw [h1]
      refine (settleWithin_split (c.bz = .periodic) (r = 0) (r + 1 = c.size)
        ((c.NzGlobal : K) * dz) (lo r) (hi r) glo ghi (dz / 2) (f3 r hr) (by linarith)
        (fun h0 => by rw [f4]; congr 1; simp at h0; omega)
        (fun h1 => by rw [f5]; congr 1; simp at h1; omega) (Q r)).trans ?_
      simp only [decide_eq_true_eq, sentR, sentL, hA, hB]
    rw [Finset.sum_congr rfl (fun r hr => key r (Finset.mem_range.mp hr))]
    simp only [← Multiset.coe_add]
    rw [Finset.sum_add_distrib, Finset.sum_add_distrib, Finset.sum_add_distrib,
      Finset.sum_add_distrib, sum_recvL c dz A h.pos, ← sum_recvR c dz B h.pos]
    have hR : ∑ r ∈ Finset.range c.size, ((if r + 1 = c.size then inj.getD (recvR c dz B r)
        else recvR c dz B r : List (Ptcl K)) : Multiset (Ptcl K)) = (inj.getD [] : List (Ptcl K))
          + ∑ r ∈ Finset.range c.size, (recvR c dz B r : Multiset (Ptcl K)) := by
      cases inj with
      | none => simp
      | some v =>
        have ho := hinj (by simp)
        obtain ⟨n, hn⟩ : ∃ n, c.size = n + 1 := ⟨c.size - 1, by have := h.pos; omega⟩
        rw [hn, Finset.sum_range_succ, Finset.sum_range_succ]
        have hl : c.rightProc n = none := by simp [Comm.rightProc, ho, hn]
        have e1 : recvR c dz B n = [] := by simp [recvR, hl]
        rw [Finset.sum_congr rfl (g := fun r => (recvR c dz B r : Multiset (Ptcl K)))]
        · simp only [if_true, Option.getD_some, e1]
          rw [Multiset.coe_nil, add_zero, add_comm]
        · intro r hr
          rw [Finset.mem_range] at hr
          have : ¬ (r + 1 = n + 1) := by omega
          rw [if_neg this]
    rw [hR]
    abel
  · intro hdisp hinjz r hr p hp
    have hdispQ : ∀ q < c.size, ∀ p ∈ Q q, _ := fun q hq p hp =>
      hdisp q hq p ((hQ q hq).mem_iff.1 hp)
    rw [List.mem_append, List.mem_append] at hp
    have hright : p ∈ recvR c dz B r → lo r - dz / 2 < p.z ∧ p.z ≤ hi r + dz / 2 := by
      intro hp
      unfold recvR at hp
      cases hq : c.rightProc r with
      | none => simp [hq] at hp
      | some q =>
        obtain ⟨q', rfl, hqs, hc⟩ := Comm.rightProc_nat hr hq
        have hback := (Comm.left_of_right hr hq).2
        simp only [hq, Int.toNat_natCast, List.mem_map, List.mem_filter, belowH, hB,
          decide_eq_true_eq] at hp
        obtain ⟨p0, ⟨hp0, hlt⟩, rfl⟩ := hp
        have hd := (hdispQ q' hqs p0 hp0).1 r hback
        rcases hc with ⟨hz, hlast, hper⟩ | hz
        · subst hz
          have h7 := f7 hper
          have : hi r = lo 0 + (c.NzGlobal : K) * dz := by
            rw [← f4, ← h7, f5]; congr 1; omega
          simp only [Nat.cast_zero, if_true, Ptcl.shift]
          constructor <;> linarith
        · have : ¬ ((q' : ℤ) = 0) := by omega
          simp only [this, if_false, id]
          have h6 := f6 r (by omega)
          rw [hz] at hd hlt
          constructor <;> linarith
    rcases hp with (hp | hp) | hp
    · unfold recvL at hp
      cases hl : c.leftProc r with
      | none => simp [hl] at hp
      | some l =>
        obtain ⟨l', rfl, hls, hc⟩ := Comm.leftProc_nat hr hl
        have hback := (Comm.right_of_left hr hl).2
        simp only [hl, Int.toNat_natCast, List.mem_map, List.mem_filter, aboveH, hA,
          decide_eq_true_eq] at hp
        obtain ⟨p0, ⟨hp0, hlt⟩, rfl⟩ := hp
        have hd := (hdispQ l' hls p0 hp0).2 r hback
        rcases hc with ⟨hz, hlast, hper⟩ | hz
        · have h7 := f7 hper
          have e1 : hi l' = lo 0 + (c.NzGlobal : K) * dz := by
            rw [← f4, ← h7, f5]; congr 1; omega
          have : (l' : ℤ) = (c.size : ℤ) - 1 := by omega
          subst hz
          simp only [this, if_true, Ptcl.shift]
          constructor <;> linarith
        · have : ¬ ((l' : ℤ) = (c.size : ℤ) - 1) := by omega
          simp only [this, if_false, id]
          have h6 := f6 l' (by omega)
          rw [hz] at h6
          constructor <;> linarith
    · simp [insideH, belowH, aboveH] at hp
      exact hp.2
    · split_ifs at hp with hlast
      · cases inj with
        | none => exact hright hp
        | some v =>
          have := hinjz p hp
          have e1 : c.size - 1 = r := by omega
          rw [e1] at this
          exact this
      · exact hright hp

/-- **C67** (agreement with the CPU): if no particle is within half a cell outside its sub-domain, the
GPU leaves the same particles on every rank as the CPU (up to their order and, see C08, the integer
attributes on the CPU). -/
theorem C67_same_as_cpu {a : CommArgs K} {c : Comm} {dz : K} {w : World K} {lo hi : ℕ → K}
    {glo ghi : K} (h : Reached a c dz w) (e : Edges c dz w lo hi glo ghi) (hng : c.nGuard ≠ 0)
    (rad : Radial K) (d : ℕ → Device K) (t i : Bool) (P : ℕ → List (Ptcl K))
    (inj : Option (List (Ptcl K))) (st : ℕ → GpuSpecies K)
    (hst : GpuRanks c w rad d t i (inj.getD []) P st) (hinj : inj ≠ none → c.bz = .opened)
    (hout : ∀ r < c.size, ∀ p ∈ P r, ¬ (lo r - dz / 2 < p.z ∧ p.z < lo r) ∧
      ¬ (hi r < p.z ∧ p.z ≤ hi r + dz / 2)) (fuel : ℕ) :
    ∀ r < c.size, ∃ s' ps ps', exchangeGpu c dz (fun q => w.interp q 0) rad d
        (inj.map (PBuf.ofList t i)) st r = .ok s' ∧ s'.arr = Species.ofList t i ps ∧
      exchangeParticles c dz (fun q => w.interp q 0) (inj.map (PBuf.ofList t i)) fuel
        (fun q => Species.ofList t i (P q)) r = some (Species.ofList t i ps') ∧
      (ps.map Ptcl.noInts).Perm (ps'.map Ptcl.noInts) := by
  obtain ⟨f1, f2, f3, f4, f5, f6, f7⟩ := e.facts h
  obtain ⟨Q, hQ, hrun⟩ := exchange_lists h e rad d t i P inj st hst hinj
  have hdz := h.dz_pos
  intro r hr
  obtain ⟨s', hs, -, ha⟩ := hrun r hr
  refine ⟨s', _, fromLeft c dz hi P r ++ (P r).filter (inside (lo r) (hi r)) ++
      (if r + 1 = c.size then inj.getD (fromRight c dz lo P r) else fromRight c dz lo P r), hs, ha,
    ?_, ?_⟩
  · rw [exchangeParticles, if_neg hng]
    exact congrArg some (exchangeAperiodic_ofList c dz lo hi P inj t i _ f1 f2 hinj r hr)
  · have hmem : ∀ q < c.size, ∀ p ∈ Q q, _ := fun q hq p hp => hout q hq p ((hQ q hq).mem_iff.1 hp)
    have hab : ∀ q < c.size, (Q q).filter (aboveH (hi q) (dz / 2)) = (Q q).filter (aboveHi (hi q)) := by
      intro q hq
      apply List.filter_congr
      intro p hp
      apply decide_eq_decide.2
      have := (hmem q hq p hp).2
      push Not at this
      exact ⟨fun h => by linarith, fun h => this h⟩
    have hbe : ∀ q < c.size, (Q q).filter (belowH (lo q) (dz / 2)) = (Q q).filter (belowLo (lo q)) := by
      intro q hq
      apply List.filter_congr
      intro p hp
      apply decide_eq_decide.2
      have := (hmem q hq p hp).1
      constructor
      · intro h; linarith
      · intro h; by_contra hc; exact this ⟨not_le.1 hc, h⟩
    have hinn : (Q r).filter (insideH (lo r) (hi r) (dz / 2)) = (Q r).filter (inside (lo r) (hi r)) := by
      apply List.filter_congr
      intro p hp
      have h1 := (hmem r hr p hp).1
      have h2 := (hmem r hr p hp).2
      push Not at h2
      have e1 : belowH (lo r) (dz / 2) p = belowLo (lo r) p := by
        apply decide_eq_decide.2
        constructor
        · intro h; linarith
        · intro h; by_contra hc; exact h1 ⟨not_le.1 hc, h⟩
      have e2 : aboveH (hi r) (dz / 2) p = aboveHi (hi r) p := by
        apply decide_eq_decide.2
        exact ⟨fun h => by linarith, fun h => h2 h⟩
      unfold insideH inside
      rw [e1, e2]
    have pL : ((recvL c dz (fun q => (Q q).filter (aboveH (hi q) (dz / 2))) r).map Ptcl.noInts).Perm
        ((fromLeft c dz hi P r).map Ptcl.noInts) := by
      unfold recvL fromLeft
      cases hl : c.leftProc r with
      | none => exact List.Perm.refl _
      | some l =>
        obtain ⟨l', rfl, hls, -⟩ := Comm.leftProc_nat hr hl
        simp only [Int.toNat_natCast]
        rw [hab l' hls]
        have hp := (hQ l' hls).filter (aboveHi (hi l'))
        split_ifs
        · rw [List.map_map, List.map_map, List.map_map]
          exact hp.map _
        · rw [List.map_map, List.map_map, List.map_map]
          exact hp.map _
    have pR : ((recvR c dz (fun q => (Q q).filter (belowH (lo q) (dz / 2))) r).map Ptcl.noInts).Perm
        ((fromRight c dz lo P r).map Ptcl.noInts) := by
      unfold recvR fromRight
      cases hl : c.rightProc r with
      | none => exact List.Perm.refl _
      | some l =>
        obtain ⟨l', rfl, hls, -⟩ := Comm.rightProc_nat hr hl
        simp only [Int.toNat_natCast]
        rw [hbe l' hls]
        exact (((hQ l' hls).filter (belowLo (lo l'))).map _).map _
    rw [hinn]
    simp only [List.map_append]
    refine (pL.append (((hQ r hr).filter _).map _)).append ?_
    split_ifs
    · cases inj with
      | none => exact pR
      | some v => exact List.Perm.refl _
    · exact pR

/-! ### The particles are in the local grid -/

/-- **C67** (the assumption on the positions): with the default exchange period, particles that
were at most half a cell outside the sub-domain after an exchange are, during all the iterations
until the next one, well inside the local grid: at least `n_guard/2 + 1/2` cells from its ends. -/
theorem C67_in_grid {a : CommArgs K} {c : Comm} {dz : K} {w w' : World K} (h : Reached a c dz w)
    (hdz : a.dz = dz)
    (cl dt : K) (hcl : 0 < cl) (hdt : 0 < dt) (hcdt : a.cdt = cl * dt) (hauto : a.exchangePeriod = none)
    (hm : ¬(c.bz = .periodic ∧ c.size = 1)) (vGal : Option K) (hv : ∀ v, vGal = some v → |v| ≤ cl) (t : K)
    (hs : Fbpic.Spec.Synced cl dz dt w t) (k j : ℕ) (hk : (k : ℤ) + 1 ≤ c.exchangePeriod)
    (hrun : World.run c dz w (stretchOps vGal dt t k ++ (iterOps vGal dt (t + (k : K) * dt)).take j) = .ok w')
    (r : ℕ) (hr : r < c.size) (lo hi : K)
    (e : c.getZminZmax (w.zminG r) dz true true false (some r) = .ok (lo, hi))
    (z z' : K) (hz : lo - dz / 2 < z ∧ z ≤ hi + dz / 2) (hmove : |z' - z| ≤ ((k : K) + 1) * (cl * dt)) :
    (c.nGuard : K) / 2 + 1 / 2 < (z' - (w'.interp r 0).zmin) / (w'.interp r 0).dz ∧
      (z' - (w'.interp r 0).zmin) / (w'.interp r 0).dz
        < ((w'.interp r 0).Nz : K) - (c.nGuard : K) / 2 - 1 / 2 := by
  have hdz0 := h.dz_pos
  obtain ⟨z0, g, ops, hinit, hr0⟩ := h.run
  have inv : w.Inv c dz := World.inv_run (World.inv_start hinit) hr0
  obtain ⟨Z', hZ', hI⟩ := World.inv_run inv hrun
  obtain ⟨N, iz, q1, q2, q3⟩ := hI r hr 0
  have hlohi : lo ≤ hi := by
    rw [Comm.getZminZmax_of (Comm.getNzIz_local c true false r)] at e
    simp only [Except.ok.injEq, Prod.mk.injEq, Bool.false_eq_true, if_false, add_zero, sub_zero] at e
    rw [← e.1, ← e.2]
    have : (0 : K) ≤ (c.nzLoc true r : K) * dz := mul_nonneg (Nat.cast_nonneg _) hdz0.le
    linarith
  -- a point of the sub-domain at most half a cell away
  obtain ⟨s, s1, s2, s3⟩ : ∃ s, |s| ≤ dz / 2 ∧ lo ≤ z + s ∧ z + s ≤ hi := by
    by_cases h1 : z < lo
    · exact ⟨lo - z, by rw [abs_of_nonneg (by linarith)]; linarith, by linarith, by linarith⟩
    · by_cases h2 : hi < z
      · exact ⟨hi - z, by rw [abs_of_nonpos (by linarith)]; linarith, by linarith, by linarith⟩
      · exact ⟨0, by simp; linarith, by linarith, by linarith⟩
  have key := (C54_cells_partial h hdz cl dt hcl hdt hcdt hauto hm vGal hv t hs k j hk hrun r 0 hr lo hi e
    (z + s) (z' + s) ⟨s2, s3⟩ (by rw [add_sub_add_right_eq_sub]; exact hmove) _ rfl).1
  rw [one_div, inv_mul_eq_div] at key
  have hd : (w'.interp r 0).dz = dz := by rw [q3]
  rw [hd] at key ⊢
  have e2 : (z' + s - (w'.interp r 0).zmin) / dz = (z' - (w'.interp r 0).zmin) / dz + s / dz := by
    rw [← add_div]; congr 1; ring
  rw [e2] at key
  have s1' : |s / dz| ≤ 1 / 2 := by
    rw [abs_div, abs_of_pos hdz0, div_le_iff₀ hdz0]; linarith
  rw [abs_le] at s1'
  constructor <;> linarith [key.1, key.2, s1'.1, s1'.2]

/-! ### Non-vacuity, and what happens in the last half cell -/

/-- An argsort. -/
def exArgsort : ℕ → (ℕ → ℕ) → ℕ → ℕ := fun n keys i =>
  ((List.range n).insertionSort (fun a b => keys a ≤ keys b)).getD i 0

theorem exArgsort_isArgSort : IsArgSort exArgsort := by
  intro n keys
  set l := (List.range n).insertionSort (fun a b => keys a ≤ keys b) with hl
  have hp : l.Perm (List.range n) := List.perm_insertionSort _ _
  have hlen : l.length = n := by rw [hp.length_eq, List.length_range]
  have htot : Std.Total (fun a b => keys a ≤ keys b) := ⟨fun a b => le_total _ _⟩
  have htr : IsTrans ℕ (fun a b => keys a ≤ keys b) := ⟨fun a b c => le_trans⟩
  have hs : l.Pairwise (fun a b => keys a ≤ keys b) := List.pairwise_insertionSort _ _
  have hmap : (List.range n).map (exArgsort n keys) = l := by
    apply List.ext_getElem
    · simp [hlen]
    · intro j h1 h2
      simp [exArgsort, ← hl, List.getD, List.getElem?_eq_getElem h2]
  refine ⟨by rw [hmap]; exact hp, fun j _ => rfl, fun j k hjk hk => ?_⟩
  have hj' : j < l.length := by omega
  have hk' : k < l.length := by omega
  have e1 : exArgsort n keys j = l[j] := by
    simp [exArgsort, ← hl, List.getD, List.getElem?_eq_getElem hj']
  have e2 : exArgsort n keys k = l[k] := by
    simp [exArgsort, ← hl, List.getD, List.getElem?_eq_getElem hk']
  rw [e1, e2]
  rcases Nat.lt_or_ge j k with hlt | hge
  · exact List.pairwise_iff_getElem.1 hs j k hj' hk' hlt
  · have : j = k := by omega
    subst this; exact le_refl _

/-- Two radial cells; every particle is at radius 1/2. -/
def exRadial : Radial ℚ := { Nr := 2, invdr := 1, rmin := 0, radius := fun _ _ => 1 / 2 }

/-- A device that runs its threads backwards. -/
def exDevice : Device ℚ :=
  { threads := (List.range 64).reverse, junk := fun _ => 77, junkI := fun _ => 99
    argsort := exArgsort }

/-- Unsorted particles on the two ranks of `exCommP`; the prefix sum contains garbage. -/
def exGpu (ps : List (Ptcl ℚ)) : GpuSpecies ℚ :=
  { arr := Species.ofList true true ps, prefixSum := fun _ => 1000, shift := 3, sorted := false }

/-- Particles of the example: two leave rank 0 on either side, one is a quarter of a cell outside. -/
def exGpuP : ℕ → List (Ptcl ℚ) := fun r =>
  if r = 0 then [exPtcl (35 / 4 - 1 / 4) 5, exPtcl 3 6, exPtcl (-7 / 8) 7, exPtcl (-1 / 4) 8]
  else [exPtcl (25 / 2) 9]

example : GpuRanks exCommP (World.start 0 exGridP) exRadial (fun _ => exDevice) true true [] exGpuP
    (fun r => exGpu (exGpuP r)) where
  holds := fun r _ => Holds.unsorted _ _ _ rfl rfl
  inGrid := by
    intro r hr p hp
    have : r = 0 ∨ r = 1 := by simp [exCommP] at hr; omega
    have hm : ((exGpu (exGpuP r)).moved : ℚ) = 0 := by simp [exGpu, GpuSpecies.moved]
    unfold InGrid
    rw [hm]
    rcases this with rfl | rfl <;>
      simp [exGpuP, exPtcl, World.start, exGridP] at hp ⊢
    · rcases hp with rfl | rfl | rfl | rfl <;> norm_num
    · rw [hp]; norm_num
  moved := by
    intro r hr
    have : r = 0 ∨ r = 1 := by simp [exCommP] at hr; omega
    rcases this with rfl | rfl <;> decide +kernel
  invdr := by norm_num [exRadial]
  radius := by intro r hr p hp; norm_num [exRadial]
  argsort := fun _ _ => exArgsort_isArgSort
  threads := by
    intro r hr i hi
    have : r = 0 ∨ r = 1 := by simp [exCommP] at hr; omega
    rcases this with rfl | rfl <;>
      simp [exDevice, exCommP, exGpuP, World.start, exGridP, exRadial, Finset.sum_range_succ] at hi ⊢ <;>
      omega

/-- The same two ranks: a particle that is in the last half cell of the local grid of rank 0 (at
17/2 + 1/10, less than one cell outside the sub-domain [0, 8]) is sent by the GPU to the left: with
periodic boundaries, rank 1 receives it at 24 + 6/10, outside the whole box. The CPU sends it to
the right, where it belongs. -/
theorem C67_violated_last_half_cell :
    (exchangeGpu exCommP (1 : ℚ) exGridP exRadial (fun _ => exDevice) none
      (fun r => exGpu (if r = 0 then [exPtcl (43 / 5) 5] else [])) 1).toOption.map GpuSpecies.arr
      = some (Species.ofList true true [exPtcl (123 / 5) 5]) ∧
    exchangeParticles exCommP (1 : ℚ) exGridP none 0
      (fun r => Species.ofList false false (if r = 0 then [exPtcl (43 / 5) 5] else [])) 1
      = some (Species.ofList false false [exPtcl (43 / 5) 5]) := by
  constructor <;> decide +kernel

end Fbpic
