import Verif.Lemmas.NewSpecies
import Verif.Lemmas.RankInterval
import Verif.Props.BoostConv
import Mathlib.Data.Rat.Floor

/-! # C56: loading of a new species -/

namespace Fbpic

open Spec

variable {K : Type} [Field K] [LinearOrder K] [IsStrictOrderedRing K] [FloorRing K]

omit [LinearOrder K] [IsStrictOrderedRing K] [FloorRing K] in
private theorem sites_shift (e Z dx : K) (first : ℤ) (p : ℕ) (cells : List ℤ) (he : e = Z + (first : K) * dx) :
    sites e dx p cells = sites Z dx p (cells.map fun i => first + i) := by
  simp only [sites, List.flatMap_map]
  refine List.flatMap_congr fun i _ => ?_
  refine List.map_congr_left fun k _ => ?_
  rw [he]; push_cast; ring

omit [IsStrictOrderedRing K] [FloorRing K] in
private theorem cells_shift (e Z dx : K) (first : ℤ) (lo hi : Option K) (cells : List ℤ) (he : e = Z + (first : K) * dx) :
    (cellsBetween e dx lo hi cells).map (fun i => first + i) = cellsBetween Z dx lo hi (cells.map fun i => first + i) := by
  simp only [cellsBetween, List.filter_map]
  congr 1
  refine List.filter_congr fun i _ => ?_
  have : e + ((i : K) + 1 / 2) * dx = Z + (((first + i : ℤ) : K) + 1 / 2) * dx := by rw [he]; push_cast; ring
  simp only [Function.comp, this]

/-- Restriction of the bounds to an interval of cells, and of the cells to the interval. -/
private theorem cells_clip (Z dx : K) (hdx : 0 < dx) (first iz : ℤ) (Narr N : ℕ) (h1 : first ≤ iz) (h2 : iz + N ≤ first + Narr)
    (lo hi : Option K) (l h : K) (hl : l = Z + (iz : K) * dx) (hh : h = Z + (iz : K) * dx + (N : K) * dx) :
    cellsBetween Z dx (some (maxBound l lo)) (some (minBound h hi)) ((List.range Narr).map fun (j : ℕ) => first + (j : ℤ))
      = cellsBetween Z dx lo hi ((List.range N).map fun (j : ℕ) => iz + (j : ℤ)) := by
  obtain ⟨A, rfl⟩ : ∃ A : ℕ, iz = first + A := ⟨(iz - first).toNat, by omega⟩
  obtain ⟨B, rfl⟩ : ∃ B : ℕ, Narr = A + N + B := ⟨Narr - A - N, by omega⟩
  have key : ∀ i : ℤ, ((∀ x ∈ some (maxBound l lo), x < Z + ((i : K) + 1 / 2) * dx) ∧
      ∀ x ∈ some (minBound h hi), Z + ((i : K) + 1 / 2) * dx < x) ↔
      (first + A ≤ i ∧ i < first + A + N) ∧ (∀ x ∈ lo, x < Z + ((i : K) + 1 / 2) * dx) ∧ ∀ x ∈ hi, Z + ((i : K) + 1 / 2) * dx < x := by
    intro i
    have a1 : l < Z + ((i : K) + 1 / 2) * dx ↔ first + A ≤ i := by
      rw [hl]
      constructor
      · intro hx
        by_contra hc
        have : (i : K) + 1 ≤ ((first + A : ℤ) : K) := by exact_mod_cast (by omega : i + 1 ≤ first + (A : ℤ))
        nlinarith
      · intro hx
        have : ((first + A : ℤ) : K) ≤ (i : K) := by exact_mod_cast hx
        nlinarith
    have a2 : Z + ((i : K) + 1 / 2) * dx < h ↔ i < first + A + N := by
      rw [hh]
      constructor
      · intro hx
        by_contra hc
        have : ((first + A : ℤ) : K) + (N : K) ≤ (i : K) := by exact_mod_cast (by omega : first + (A : ℤ) + N ≤ i)
        nlinarith
      · intro hx
        have : (i : K) + 1 ≤ ((first + A : ℤ) : K) + (N : K) := by exact_mod_cast (by omega : i + 1 ≤ first + (A : ℤ) + N)
        nlinarith
    rw [← a1, ← a2]
    cases lo <;> cases hi <;> simp only [maxBound, minBound, Option.mem_def, Option.some.injEq, forall_eq', reduceCtorEq, false_implies,
      implies_true, max_lt_iff, lt_min_iff, and_true] <;> tauto
  have hstep : ∀ cells : List ℤ, cellsBetween Z dx (some (maxBound l lo)) (some (minBound h hi)) cells
      = cellsBetween Z dx lo hi (cells.filter fun i => first + A ≤ i ∧ i < first + A + N) := by
    intro cells
    simp only [cellsBetween, List.filter_filter]
    refine List.filter_congr fun i _ => ?_
    rw [← Bool.decide_and, decide_eq_decide]
    rw [key i, and_comm]
  rw [hstep]
  congr 1
  rw [List.range_add, List.range_add, List.map_append, List.map_append, List.filter_append, List.filter_append]
  have f1 : ((List.range A).map fun (j : ℕ) => first + (j : ℤ)).filter (fun i => decide (first + A ≤ i ∧ i < first + A + N)) = [] := by
    rw [List.filter_eq_nil_iff]
    intro i hi
    obtain ⟨j, hj, rfl⟩ := List.mem_map.mp hi
    have := List.mem_range.mp hj
    simp; omega
  have f2 : (((List.range N).map (fun x => A + x)).map fun (j : ℕ) => first + (j : ℤ)).filter
      (fun i => decide (first + A ≤ i ∧ i < first + A + N)) = (List.range N).map fun (j : ℕ) => first + (A : ℤ) + (j : ℤ) := by
    rw [List.filter_eq_self.mpr]
    · rw [List.map_map]
      refine List.map_congr_left fun j _ => ?_
      simp only [Function.comp]; push_cast; ring
    · intro i hi
      rw [List.map_map] at hi
      obtain ⟨j, hj, rfl⟩ := List.mem_map.mp hi
      have := List.mem_range.mp hj
      simp; omega
  have f3 : (((List.range B).map (fun x => A + N + x)).map fun (j : ℕ) => first + (j : ℤ)).filter
      (fun i => decide (first + A ≤ i ∧ i < first + A + N)) = [] := by
    rw [List.filter_eq_nil_iff]
    intro i hi
    rw [List.map_map] at hi
    obtain ⟨j, hj, rfl⟩ := List.mem_map.mp hi
    simp; omega
  rw [f1, f2, f3]
  simp

/-- `generate_evenly_spaced` in terms of the sites. -/
private theorem generate_eq (Npz Npr Nt : ℕ) (zmin zmax rmin rmax n twoPi : K) (dens : K → K → ℕ → K) :
    generateEvenlySpaced (Npz : ℤ) zmin zmax Npr rmin rmax Nt n twoPi dens =
      loadedPlasma ((List.range Npz).map fun (j : ℕ) => zmin + (zmax - zmin) / (Npz : K) * ((j : K) + 1 / 2))
        ((List.range Npr).map fun (j : ℕ) => rmin + (rmax - rmin) / (Npr : K) * ((j : K) + 1 / 2)) Nt n twoPi
        ((zmax - zmin) / (Npz : K)) ((rmax - rmin) / (Npr : K)) dens := by
  unfold generateEvenlySpaced loadedPlasma
  by_cases h : 0 < (Npz : ℤ) * Npr * Nt
  · rw [if_pos h]
    simp only [Int.toNat_natCast, List.flatMap_map, Int.cast_natCast]
    congr 1
    refine List.flatMap_congr fun i _ => ?_
    refine List.flatMap_congr fun j _ => ?_
    refine List.map_congr_left fun k _ => ?_
    congr 1
    ring
  · rw [if_neg h]
    have : Npz = 0 ∨ Npr = 0 ∨ Nt = 0 := by
      by_contra hc
      push Not at hc
      exact h (by have := Nat.pos_of_ne_zero hc.1; have := Nat.pos_of_ne_zero hc.2.1; have := Nat.pos_of_ne_zero hc.2.2; positivity)
    rcases this with h | h | h <;> subst h <;> simp

/-- The macroparticles expected from the arguments, with the cells along z given. -/
private def expected (Z dz twoPi : K) (rg : RGrid K) (a : SpeciesArgs K) (n : K) (pz pr pt : ℕ) (cells : List ℤ) : List (NewPtcl K) :=
  loadedPlasma (sites Z dz pz (cellsBetween Z dz a.pZmin a.pZmax cells))
    (sites 0 rg.dr pr (cellsBetween 0 rg.dr (some a.pRmin) a.pRmax ((List.range rg.Nr).map fun (i : ℕ) => (i : ℤ))))
    pt n twoPi (dz / (pz : K)) (rg.dr / (pr : K)) a.dens

/-- **C56** (one rank): at every moment of a run (`World.Inv` holds at the start and is kept by every move of the grids), the species gets
on each rank `p_nz × p_nr × p_nt` evenly spaced macroparticles in exactly those cells of the physical sub-domain of the rank whose centre
is strictly between the bounds, and not in the damp, guard and radial PML cells; the weights are density times volume. -/
theorem C56_load (c : Comm) (dz twoPi : K) (hdz : 0 < dz) (w : World K) (hw : w.Inv c dz) (rg : RGrid K) (hdr : 0 < rg.dr)
    (a : SpeciesArgs K) (n : K) (pz pr pt : ℕ) (hn : a.n = some n) (hz : a.pNz = some pz) (hr : a.pNr = some pr) (ht : a.pNt = some pt)
    (hpz : 0 < pz) (hpr : 0 < pr) (rank : ℕ) (hrank : rank < c.size) (hNz : 2 ≤ (w.interp rank 0).Nz) (hNr : 2 ≤ rg.Nr + rg.nrDamp)
    (N : ℕ) (iz : ℤ) (hloc : c.getNzIz true false false (some rank) = .ok (N, iz)) :
    newSpeciesParticles c (w.zminG rank) dz twoPi (w.interp rank 0) rg rank a = .ok
      (loadedPlasma (sites (w.zminG rank) dz pz (cellsBetween (w.zminG rank) dz a.pZmin a.pZmax ((List.range N).map fun (j : ℕ) => iz + (j : ℤ))))
        (sites 0 rg.dr pr (cellsBetween 0 rg.dr (some a.pRmin) a.pRmax ((List.range rg.Nr).map fun (i : ℕ) => (i : ℤ))))
        pt n twoPi (dz / (pz : K)) (rg.dr / (pr : K)) a.dens) := by
  obtain ⟨Z, hZ, hint⟩ := hw
  obtain ⟨Narr, first, harr, _, hgrid⟩ := hint rank hrank 0
  rw [hZ rank]
  have hle : first ≤ iz ∧ iz + N ≤ first + Narr := by
    have e1 := Comm.getNzIz_local c false false rank
    have e2 := Comm.getNzIz_local c true true rank
    rw [hloc] at e1
    rw [harr] at e2
    injection e1 with e1
    injection e2 with e2
    obtain ⟨rfl, rfl⟩ := Prod.mk.inj e1
    obtain ⟨rfl, rfl⟩ := Prod.mk.inj e2
    unfold Comm.izLoc Comm.nzLoc
    simp only [Bool.false_eq_true, false_and, if_false, true_and, if_true]
    split_ifs <;> push_cast <;> omega
  rw [hgrid] at hNz ⊢
  simp only at hNz
  obtain ⟨zl, zh, hzz⟩ : ∃ zl zh, zl = Z + (iz : K) * dz ∧ zh = Z + (iz : K) * dz + (N : K) * dz := ⟨_, _, rfl, rfl⟩
  obtain ⟨lo', hi', Npz, e1, e2, e3, e4⟩ := adaptToGrid_spec (Z + (first : K) * dz) dz hdz Narr hNz
    (maxBound zl a.pZmin) (minBound zh a.pZmax) pz hpz
  obtain ⟨rlo', rhi', Npr, f1, f2, f3, f4⟩ := adaptToGrid_spec (0 : K) rg.dr hdr (rg.Nr + rg.nrDamp) hNr
    a.pRmin (minBound ((rg.Nr : K) * rg.dr) a.pRmax) pr hpr
  have hloc' : c.getZminZmax Z dz true false false (some rank) = .ok (zl, zh) := by
    rw [Comm.getZminZmax_of hloc, hzz.1, hzz.2]
  have hnew : newSpecies c Z dz ⟨Narr, Z + (first : K) * dz, Z + (first : K) * dz + (Narr : K) * dz, dz⟩ rg rank a =
      .ok ⟨n, Npz, lo', hi', Npr, rlo', rhi', pt, a.continuousInjection, dz / (pz : K)⟩ := by
    unfold newSpecies
    rw [hn, hz, hr, ht]
    simp only [hloc', bind, Except.bind]
    rw [show (List.range Narr).map (InterpGrid.z ⟨Narr, Z + (first : K) * dz, Z + (first : K) * dz + (Narr : K) * dz, dz⟩) =
      (List.range Narr).map fun (j : ℕ) => Z + (first : K) * dz + (1 / 2 + (j : K)) * dz from rfl, e1]
    simp only
    rw [show rg.r = (List.range (rg.Nr + rg.nrDamp)).map fun (j : ℕ) => 0 + (1 / 2 + (j : K)) * rg.dr by
      simp [RGrid.r], f1]
    simp only
    rw [if_neg hpz.ne']
  unfold newSpeciesParticles
  rw [hnew]
  simp only [bind, Except.bind, pure, Except.pure, Loading.particles]
  rw [generate_eq, e2, f2]
  have hcz : sites (Z + (first : K) * dz) dz pz (cellsBetween (Z + (first : K) * dz) dz (some (maxBound zl a.pZmin))
      (some (minBound zh a.pZmax)) ((List.range Narr).map fun (i : ℕ) => (i : ℤ)))
      = sites Z dz pz (cellsBetween Z dz a.pZmin a.pZmax ((List.range N).map fun (j : ℕ) => iz + (j : ℤ))) := by
    rw [sites_shift _ Z dz first pz _ rfl, cells_shift _ Z dz first _ _ _ rfl, List.map_map]
    rw [show ((fun i => first + i) ∘ fun (i : ℕ) => (i : ℤ)) = fun (j : ℕ) => first + (j : ℤ) from rfl]
    rw [cells_clip Z dz hdz first iz Narr N hle.1 hle.2 a.pZmin a.pZmax zl zh hzz.1 hzz.2]
  have hcr : cellsBetween 0 rg.dr (some a.pRmin) (some (minBound ((rg.Nr : K) * rg.dr) a.pRmax))
      ((List.range (rg.Nr + rg.nrDamp)).map fun (i : ℕ) => (i : ℤ))
      = cellsBetween 0 rg.dr (some a.pRmin) a.pRmax ((List.range rg.Nr).map fun (i : ℕ) => (i : ℤ)) := by
    have := cells_clip 0 rg.dr hdr 0 0 (rg.Nr + rg.nrDamp) rg.Nr le_rfl (by push_cast; omega) (some a.pRmin) a.pRmax 0
      ((rg.Nr : K) * rg.dr) (by simp) (by simp)
    simp only [zero_add] at this
    rw [← this]
    refine List.filter_congr fun i hi => ?_
    obtain ⟨j, _, rfl⟩ := List.mem_map.mp hi
    have : (0 : K) < 0 + (((j : ℤ) : K) + 1 / 2) * rg.dr := by push_cast; positivity
    simp only [maxBound, Option.mem_def, Option.some.injEq, forall_eq', max_lt_iff, this, true_and]
  have hz' : ∀ rs : List K, loadedPlasma (sites (Z + (first : K) * dz) dz pz (cellsBetween (Z + (first : K) * dz) dz (some (maxBound zl a.pZmin))
      (some (minBound zh a.pZmax)) ((List.range Narr).map fun (i : ℕ) => (i : ℤ)))) rs pt n twoPi ((hi' - lo') / (Npz : K))
        ((rhi' - rlo') / (Npr : K)) a.dens = loadedPlasma (sites (Z + (first : K) * dz) dz pz (cellsBetween (Z + (first : K) * dz) dz
        (some (maxBound zl a.pZmin)) (some (minBound zh a.pZmax)) ((List.range Narr).map fun (i : ℕ) => (i : ℤ)))) rs pt n twoPi
        (dz / (pz : K)) ((rhi' - rlo') / (Npr : K)) a.dens := by
    intro rs
    rcases Nat.eq_zero_or_pos Npz with h0 | h0
    · rw [← e2, h0]; simp [loadedPlasma]
    · rw [e4 h0]
  rw [hz', hcz]
  rcases Nat.eq_zero_or_pos Npr with h0 | h0
  · have : sites 0 rg.dr pr (cellsBetween 0 rg.dr (some a.pRmin) (some (minBound ((rg.Nr : K) * rg.dr) a.pRmax))
      ((List.range (rg.Nr + rg.nrDamp)).map fun (i : ℕ) => (i : ℤ))) = [] := by rw [← f2, h0]; simp
    rw [← hcr, this]; simp [loadedPlasma]
  · rw [f4 h0, hcr]

/-- The cells of the ranks, one after the other. -/
private theorem cells_ranks (c : Comm) (hsize : 0 < c.size) :
    ((List.range c.size).flatMap fun r => (List.range (c.nzLoc false r)).map fun (j : ℕ) => c.izLoc false r + (j : ℤ))
      = (List.range c.NzGlobal).map fun (i : ℕ) => (i : ℤ) := by
  have h : ∀ k, k < c.size → ((List.range (k + 1)).flatMap fun r => (List.range (c.nzLoc false r)).map fun (j : ℕ) => c.izLoc false r + (j : ℤ))
      = (List.range (c.izLoc false k + c.nzLoc false k).toNat).map fun (i : ℕ) => (i : ℤ) := by
    intro k
    induction k with
    | zero => intro _; simp [Comm.izLoc_zero]
    | succ k ih =>
      intro hk
      rw [List.range_succ, List.flatMap_append, ih (by omega)]
      have e := Comm.izLoc_succ c false k hk
      have hnn : 0 ≤ c.izLoc false (k + 1) := by
        unfold Comm.izLoc
        simp only [Bool.false_eq_true, false_and, if_false]
        have : (0 : ℤ) ≤ ((k + 1 : ℕ) : ℤ) * ((c.NzGlobal / c.size : ℕ) : ℤ) := by positivity
        omega
      rw [← e]
      obtain ⟨q, hq⟩ := Int.eq_ofNat_of_zero_le hnn
      rw [hq, show ((q : ℤ) + (c.nzLoc false (k + 1) : ℤ)).toNat = q + c.nzLoc false (k + 1) by omega, Int.toNat_natCast,
        List.range_add, List.map_append, List.map_map]
      simp [Function.comp_def, hq]
  have := h (c.size - 1) (by omega)
  rw [Nat.sub_add_cancel hsize, Comm.izLoc_last c false hsize] at this
  simpa using this

/-- **C56** (all ranks): the macroparticles of the ranks, one after the other, are those of a single domain: in particular none is created
twice or lost at an edge between sub-domains, whatever the number of ranks. -/
theorem C56_ranks (c : Comm) (hsize : 0 < c.size) (dz twoPi : K) (hdz : 0 < dz) (w : World K) (hw : w.Inv c dz) (rg : RGrid K)
    (hdr : 0 < rg.dr) (a : SpeciesArgs K) (n : K) (pz pr pt : ℕ) (hn : a.n = some n) (hz : a.pNz = some pz) (hr : a.pNr = some pr)
    (ht : a.pNt = some pt) (hpz : 0 < pz) (hpr : 0 < pr) (hNz : ∀ rank, rank < c.size → 2 ≤ (w.interp rank 0).Nz)
    (hNr : 2 ≤ rg.Nr + rg.nrDamp) :
    ∃ parts : ℕ → List (NewPtcl K),
      (∀ rank, rank < c.size → newSpeciesParticles c (w.zminG rank) dz twoPi (w.interp rank 0) rg rank a = .ok (parts rank)) ∧
      (List.range c.size).flatMap parts =
        loadedPlasma (sites (w.zminG 0) dz pz (cellsBetween (w.zminG 0) dz a.pZmin a.pZmax ((List.range c.NzGlobal).map fun (i : ℕ) => (i : ℤ))))
          (sites 0 rg.dr pr (cellsBetween 0 rg.dr (some a.pRmin) a.pRmax ((List.range rg.Nr).map fun (i : ℕ) => (i : ℤ))))
          pt n twoPi (dz / (pz : K)) (rg.dr / (pr : K)) a.dens := by
  refine ⟨fun rank => expected (w.zminG 0) dz twoPi rg a n pz pr pt
    ((List.range (c.nzLoc false rank)).map fun (j : ℕ) => c.izLoc false rank + (j : ℤ)), ?_, ?_⟩
  · intro rank hrank
    have hl := Comm.getNzIz_local c false false rank
    simp only [Bool.false_eq_true, if_false, add_zero, sub_zero] at hl
    have hZ : w.zminG rank = w.zminG 0 := by
      obtain ⟨Z, hZ, _⟩ := hw
      rw [hZ, hZ]
    rw [C56_load c dz twoPi hdz w hw rg hdr a n pz pr pt hn hz hr ht hpz hpr rank hrank (hNz rank hrank) hNr _ _ hl, hZ]
    rfl
  · rw [← cells_ranks c hsize]
    simp only [expected, loadedPlasma, sites, cellsBetween, List.filter_flatMap, List.flatMap_assoc]

/-- The positions along z (or r): strictly increasing, evenly spaced by the cell size over the number per cell, inside their cells. -/
theorem C56_positions (Z dz : K) (hdz : 0 < dz) (p : ℕ) (hp : 0 < p) (lo hi : Option K) (N : ℕ) (iz : ℤ) :
    ((sites Z dz p (cellsBetween Z dz lo hi ((List.range N).map fun (j : ℕ) => iz + (j : ℤ)))).Pairwise (· < ·)) ∧
    (∀ z ∈ sites Z dz p (cellsBetween Z dz lo hi ((List.range N).map fun (j : ℕ) => iz + (j : ℤ))),
      Z + (iz : K) * dz < z ∧ z < Z + (iz : K) * dz + (N : K) * dz ∧
      (∀ l ∈ lo, l - dz / 2 < z) ∧ ∀ h ∈ hi, z < h + dz / 2) ∧
    ∃ z0 L, sites Z dz p (cellsBetween Z dz lo hi ((List.range N).map fun (j : ℕ) => iz + (j : ℤ)))
      = (List.range L).map fun (j : ℕ) => z0 + (j : K) * (dz / (p : K)) := by
  have hpK : (0 : K) < (p : K) := by exact_mod_cast hp
  obtain ⟨a, L, hcells, haL⟩ := filter_range_convex (fun j : ℕ => (∀ l ∈ lo, l < Z + (((iz + j : ℤ) : K) + 1 / 2) * dz) ∧
      ∀ h ∈ hi, Z + (((iz + j : ℤ) : K) + 1 / 2) * dz < h) (by
    rintro i j k hij hjk ⟨h1, _⟩ ⟨_, h4⟩
    have e1 : ((iz + i : ℤ) : K) ≤ ((iz + j : ℤ) : K) := by exact_mod_cast (by omega)
    have e2 : ((iz + j : ℤ) : K) ≤ ((iz + k : ℤ) : K) := by exact_mod_cast (by omega)
    exact ⟨fun l hl => (h1 l hl).trans_le (by nlinarith), fun h hh => lt_of_le_of_lt (by nlinarith) (h4 h hh)⟩) N
  have hc : cellsBetween Z dz lo hi ((List.range N).map fun (j : ℕ) => iz + (j : ℤ))
      = ((List.range' a L).map fun (i : ℕ) => (i : ℤ)).map fun i => iz + i := by
    rw [← hcells, cellsBetween, List.filter_map, List.map_map]
    rfl
  have heven : sites Z dz p (cellsBetween Z dz lo hi ((List.range N).map fun (j : ℕ) => iz + (j : ℤ)))
      = (List.range (L * p)).map fun (j : ℕ) => (Z + (iz : K) * dz + (a : K) * dz + dz / (p : K) * (1 / 2)) + (j : K) * (dz / (p : K)) := by
    rw [hc, ← sites_shift _ Z dz iz p _ rfl, ← sites_consecutive _ dz p a hp L]
    refine List.map_congr_left fun j _ => ?_
    ring
  refine ⟨?_, ?_, _, _, heven⟩
  · rw [heven, List.pairwise_map]
    refine List.pairwise_lt_range.imp ?_
    intro i j hij
    have : (i : K) < (j : K) := by exact_mod_cast hij
    have hd : 0 < dz / (p : K) := by positivity
    have := mul_lt_mul_of_pos_right this hd
    linarith
  · intro z hz
    simp only [sites, List.mem_flatMap, cellsBetween, List.mem_filter, List.mem_map, List.mem_range, decide_eq_true_eq] at hz
    obtain ⟨i, ⟨⟨j, hj, rfl⟩, h1, h2⟩, k, hk, rfl⟩ := hz
    have hk' : (k : K) + 1 ≤ (p : K) := by exact_mod_cast hk
    have hj' : (j : K) + 1 ≤ (N : K) := by exact_mod_cast hj
    have q1 : 0 < ((k : K) + 1 / 2) / (p : K) := by positivity
    have q2 : ((k : K) + 1 / 2) / (p : K) < 1 := by rw [div_lt_one hpK]; linarith
    have hj0 : (0 : K) ≤ (j : K) := by positivity
    push_cast
    refine ⟨by nlinarith, by nlinarith, ?_, ?_⟩
    · intro l hl
      have := h1 l hl
      push_cast at this
      nlinarith
    · intro h hh
      have := h2 h hh
      push_cast at this
      nlinarith

/-- **C56** (arguments): without a density no macroparticle is created, neither now nor by the moving window; with a density but without
the numbers of macroparticles the call is refused. -/
theorem C56_arguments (c : Comm) (zminG dz twoPi : K) (g : InterpGrid K) (rg : RGrid K) (rank : ℕ) (a : SpeciesArgs K) :
    (a.n = none → ∃ l, newSpecies c zminG dz g rg rank a = .ok l ∧ l.continuousInjection = false ∧
      newSpeciesParticles c zminG dz twoPi g rg rank a = .ok []) ∧
    (a.n ≠ none → (a.pNz = none ∨ a.pNr = none ∨ a.pNt = none) → ∃ msg, newSpecies c zminG dz g rg rank a = .error (.valueError msg)) := by
  constructor
  · intro h
    refine ⟨⟨0, 0, 0, 0, 0, 0, 0, 0, false, 0⟩, by simp [newSpecies, h], rfl, ?_⟩
    simp [newSpeciesParticles, newSpecies, h, bind, Except.bind, pure, Except.pure, Loading.particles, generateEvenlySpaced]
  · intro h h'
    obtain ⟨n, hn⟩ := Option.ne_none_iff_exists'.mp h
    refine ⟨"then the arguments `p_nz`, `p_nr` and `p_nt` need to be passed too.", ?_⟩
    unfold newSpecies
    rw [hn]
    cases hz : a.pNz <;> cases hr : a.pNr <;> cases ht : a.pNt <;> simp_all

/-- **C56** (boosted frame): an element of the plasma at `z0` at the time 0 of the lab, moving with the mean velocity, is at `z'` at the
time 0 of the boosted frame: the converted density function gives there the density of `z0`, the converted bounds contain `z'` exactly if
the bounds contain `z0`, a piece of plasma has the same number of physical particles per unit area, and the mean momentum is the Lorentz
transform. -/
theorem C56_boost (b : BoostConv.Conv) (hc : 0 < b.c) (hg : 1 ≤ b.gamma0) (u : MeanU) (a : SpeciesArgs ℝ)
    (z0 t z' : ℝ) (gm : ℝ) (hgm : gm = Real.sqrt (1 + u.ux ^ 2 + u.uy ^ 2 + u.uz ^ 2))
    (hev : LorentzEvent b.gamma0 b.beta0 b.c t (z0 + u.uz / gm * b.c * t) 0 z') :
    (∀ r i, (boostSpecies b u true a).1.dens z' r i = a.dens z0 r i) ∧
    (∀ z, (boostSpecies b u true a).1.pZmin = a.pZmin.map z → ∀ l ∈ a.pZmin, z l < z' ↔ l < z0) ∧
    (∀ z, (boostSpecies b u true a).1.pZmax = a.pZmax.map z → ∀ h ∈ a.pZmax, z' < z h ↔ z0 < h) ∧
    (∀ z1 t1 z1' n n', LorentzEvent b.gamma0 b.beta0 b.c t1 (z1 + u.uz / gm * b.c * t1) 0 z1' → a.n = some n →
      (boostSpecies b u true a).1.n = some n' → n' * (z1' - z') = n * (z1 - z0)) ∧
    LorentzMomentum b.gamma0 b.beta0 gm u.uz
      (Real.sqrt (1 + u.ux ^ 2 + u.uy ^ 2 + (boostSpecies b u true a).2.uz ^ 2)) (boostSpecies b u true a).2.uz := by
  obtain ⟨q1, q2, q3⟩ := C49_boost b hg
  have hγ : 0 < b.gamma0 := by linarith
  have hgm0 : 0 < gm := by rw [hgm]; exact Real.sqrt_pos.mpr (by positivity)
  have hgm2 : gm ^ 2 = 1 + u.ux ^ 2 + u.uy ^ 2 + u.uz ^ 2 := by rw [hgm, Real.sq_sqrt (by positivity)]
  have hgm' : Real.sqrt (1 + u.uz ^ 2 + u.ux ^ 2 + u.uy ^ 2) = gm := by rw [hgm]; congr 1; ring
  have hbm : |u.uz / gm| < 1 := by
    rw [abs_div, abs_of_pos hgm0, div_lt_one hgm0]
    refine abs_lt_of_sq_lt_sq ?_ hgm0.le
    rw [hgm2]; nlinarith [sq_nonneg u.ux, sq_nonneg u.uy]
  obtain ⟨hb1, hb2⟩ := abs_lt.mp hbm
  obtain ⟨bm, hbm'⟩ : ∃ bm, bm = u.uz / gm := ⟨_, rfl⟩
  rw [← hbm'] at hb1 hb2 hev
  have hcoef : 0 < 1 - b.beta0 * bm := by nlinarith
  have hrel : ∀ z0 t z', LorentzEvent b.gamma0 b.beta0 b.c t (z0 + bm * b.c * t) 0 z' → b.gamma0 * (1 - bm * b.beta0) * z' = z0 := by
    rintro z0 t z' ⟨h1, h2⟩
    have h3 : t - b.beta0 * (z0 + bm * b.c * t) / b.c = 0 := by
      rcases mul_eq_zero.mp h1.symm with h | h
      · exact absurd h hγ.ne'
      · exact h
    have h4 : b.c * t = b.beta0 * (z0 + bm * b.c * t) := by field_simp at h3; linarith
    rw [h2]
    linear_combination (1 - bm * b.beta0) * (z0 + bm * b.c * t) * q3 - (b.gamma0 ^ 2 * (1 - bm * b.beta0) * b.beta0 - bm) * h4
  have hz := hrel z0 t z' hev
  refine ⟨?_, ?_, ?_, ?_, ?_⟩
  · intro r i
    simp only [boostSpecies, if_true, hgm', ← hbm', hz]
  · intro z hzm l hl
    simp only [boostSpecies, hgm', ← hbm'] at hzm
    rw [Option.mem_def] at hl
    rw [hl] at hzm
    simp only [Option.map_some, Option.some.injEq] at hzm
    rw [← hzm, BoostConv.Conv.copropagLength, mul_one_div, div_lt_iff₀ (by positivity),
      show z' * (b.gamma0 * (1 - b.beta0 * bm)) = z0 by rw [← hz]; ring]
  · intro z hzm l hl
    simp only [boostSpecies, hgm', ← hbm'] at hzm
    rw [Option.mem_def] at hl
    rw [hl] at hzm
    simp only [Option.map_some, Option.some.injEq] at hzm
    rw [← hzm, BoostConv.Conv.copropagLength, mul_one_div, lt_div_iff₀ (by positivity),
      show z' * (b.gamma0 * (1 - b.beta0 * bm)) = z0 by rw [← hz]; ring]
  · intro z1 t1 z1' n n' hev1 hn hn'
    rw [← hbm'] at hev1
    have hz1 := hrel z1 t1 z1' hev1
    simp only [boostSpecies, hgm', ← hbm', hn, Option.map_some, Option.some.injEq] at hn'
    rw [← hn', BoostConv.Conv.copropagDensity, ← hz, ← hz1]
    ring
  · simp only [boostSpecies, hgm', LorentzMomentum, and_true]
    have hpos : 0 ≤ b.gamma0 * (gm - b.beta0 * u.uz) := by
      have : u.uz = bm * gm := by rw [hbm']; field_simp
      rw [this]
      have : 0 ≤ gm - b.beta0 * (bm * gm) := by nlinarith
      positivity
    rw [← Real.sqrt_sq hpos]
    congr 1
    linear_combination (-1 : ℝ) * hgm2 + (u.uz ^ 2 - gm ^ 2) * q3

private def exLoadComm : Comm := ⟨8, 3, 1, 1, 1, .opened, .opened, 1⟩

private def exLoadGrid (r : ℕ) : InterpGrid ℚ :=
  match initGrid exLoadComm (0 : ℚ) 1 r with
  | .ok g => g
  | .error _ => ⟨0, 0, 0, 0⟩

/-- 8 cells on 3 ranks (2, 2 and 4 cells), with damp and guard cells and bounds that are not on the grid: the species gets 4 macroparticles
on the first rank, 8 on the second, 4 on the third, the same as 16 macroparticles of a single domain. -/
example :
    let a : SpeciesArgs ℚ := ⟨some 3, some 2, some 1, some 2, some (3 / 4), some (27 / 5), 0, some 1, true, fun _ _ _ => 1⟩
    (∀ r < exLoadComm.size, initGrid exLoadComm (0 : ℚ) 1 r = .ok (exLoadGrid r)) ∧ (World.start (0 : ℚ) exLoadGrid).Inv exLoadComm 1 ∧
    (List.range 3).map (fun r => (newSpeciesParticles exLoadComm 0 1 6 (exLoadGrid r) ⟨1, 2, 1⟩ r a).map fun l => l.map (·.z)) =
      [.ok [5 / 4, 5 / 4, 7 / 4, 7 / 4], .ok [9 / 4, 9 / 4, 11 / 4, 11 / 4, 13 / 4, 13 / 4, 15 / 4, 15 / 4],
       .ok [17 / 4, 17 / 4, 19 / 4, 19 / 4]] := by
  have h : ∀ r < exLoadComm.size, initGrid exLoadComm (0 : ℚ) 1 r = .ok (exLoadGrid r) := by
    intro r hr
    have : r = 0 ∨ r = 1 ∨ r = 2 := by simp [exLoadComm] at hr; omega
    rcases this with rfl | rfl | rfl <;> decide +kernel
  exact ⟨h, World.inv_start h, by decide +kernel⟩

/-- The hypothesis of `C56_boost` is met for every element of the plasma. -/
example (b : BoostConv.Conv) (hc : 0 < b.c) (hg : 1 ≤ b.gamma0) (u : MeanU) (z0 : ℝ) :
    ∃ t z', LorentzEvent b.gamma0 b.beta0 b.c t (z0 + u.uz / Real.sqrt (1 + u.ux ^ 2 + u.uy ^ 2 + u.uz ^ 2) * b.c * t) 0 z' := by
  obtain ⟨q1, q2, q3⟩ := C49_boost b hg
  generalize hgm : Real.sqrt (1 + u.ux ^ 2 + u.uy ^ 2 + u.uz ^ 2) = gm
  have hgm0 : 0 < gm := by rw [← hgm]; exact Real.sqrt_pos.mpr (by positivity)
  have hgm2 : gm ^ 2 = 1 + u.ux ^ 2 + u.uy ^ 2 + u.uz ^ 2 := by rw [← hgm, Real.sq_sqrt (by positivity)]
  have hbm : |u.uz / gm| < 1 := by
    rw [abs_div, abs_of_pos hgm0, div_lt_one hgm0]
    refine abs_lt_of_sq_lt_sq ?_ hgm0.le
    rw [hgm2]; nlinarith [sq_nonneg u.ux, sq_nonneg u.uy]
  obtain ⟨hb1, hb2⟩ := abs_lt.mp hbm
  generalize u.uz / gm = bm at *
  have hcoef : 0 < 1 - b.beta0 * bm := by nlinarith
  refine ⟨b.beta0 * z0 / (b.c * (1 - b.beta0 * bm)), _, ?_, rfl⟩
  field_simp
  ring

end Fbpic
