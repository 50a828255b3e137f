import Verif.Lemmas.Gather
import Verif.Props.Decomposition

/-!
# C06: gathering and scattering grids

Global row `g` (an index counted from the first cell of the global physical domain, so possibly
negative in the damping cells) is row `g - lo` of the global array, where `lo` is the index of the
first cell of the global domain; it is row `g - first k` of the local array of rank `k`.
-/

namespace Fbpic

variable {A : Type} [Zero A]

/-- **C06** (gather). Let rank `k` own global cell `g` (with or without damping cells). Then the
gathered array has at `g` the value that rank `k` holds at `g`. `iz/N` is the sub-domain of `k`,
`first` the start of its array with guard and damping cells. -/
theorem C06_gather (c : Comm) (withDamp : Bool) (Nr : ℕ) (arr : ℕ → ℕ → ℕ → A)
    (Nglob N Narr : ℕ) (lo iz first : ℤ) (k : ℕ) (hk : k < c.size)
    (hglob : c.getNzIz false withDamp false none = .ok (Nglob, lo))
    (hloc : c.getNzIz true withDamp false (some k) = .ok (N, iz))
    (harr : c.getNzIz true true true (some k) = .ok (Narr, first))
    (g : ℤ) (h1 : iz ≤ g) (h2 : g < iz + N) (j : ℕ) (hj : j < Nr) :
    gatherGridArray c Nr withDamp arr (g - lo).toNat j = arr k (g - first).toNat j ∧
    0 ≤ g - first ∧ g - first < Narr := by
  have e0 := getNzIz_global_eq c withDamp none
  rw [hglob] at e0; simp only [okOr] at e0
  rw [Comm.getNzIz_local] at hloc harr
  simp only [Bool.false_eq_true, if_false, if_true, add_zero, sub_zero, Except.ok.injEq,
    Prod.mk.injEq] at hloc harr
  have hnn := izLoc_sub_nonneg c withDamp hk
  -- the sub-domain lies in the array
  have hin : c.izLoc true k ≤ c.izLoc withDamp k ∧
      c.izLoc withDamp k + c.nzLoc withDamp k ≤ c.izLoc true k + c.nzLoc true k := by
    cases withDamp
    · simp only [Comm.izLoc, Comm.nzLoc]
      constructor <;> split_ifs <;> simp_all <;> omega
    · simp
  have e := gather_apply c withDamp Nr arr (k := k) (t := (g - iz).toNat) (j := j) hk (by omega) hj
  have i1 : (c.izLoc withDamp k - c.izLoc withDamp 0).toNat + (g - iz).toNat = (g - lo).toNat := by
    omega
  have i2 : izIn c withDamp k + (g - iz).toNat = (g - first).toNat := by
    unfold izIn; omega
  rw [i1, i2] at e
  exact ⟨e, by omega, by omega⟩

/-- **C06** (scatter). Rank `k` gets, in row `i` of its sub-domain, the global row with the same
global index. -/
theorem C06_scatter (c : Comm) (withDamp : Bool) (Nr : ℕ) (array : ℕ → ℕ → A)
    (Nglob N : ℕ) (lo iz : ℤ) (k : ℕ) (hk : k < c.size)
    (hglob : c.getNzIz false withDamp false none = .ok (Nglob, lo))
    (hloc : c.getNzIz true withDamp false (some k) = .ok (N, iz))
    (i : ℕ) (hi : i < N) (j : ℕ) (hj : j < Nr) :
    scatterGridArray c Nr withDamp array k i j = array (iz + i - lo).toNat j ∧
    0 ≤ iz + i - lo ∧ iz + i - lo < Nglob := by
  have e0 := getNzIz_global_eq c withDamp none
  obtain ⟨start, len, N', lo', p1, p2, p3, -⟩ := C01_partition c (by omega) withDamp
  have p2' := p2 none
  rw [hglob] at p2'; cases p2'
  have p1' := p1 k hk
  rw [hloc] at p1'; cases p1'
  have hr := p3.2.1 k hk
  rw [hglob] at e0; simp only [okOr] at e0
  rw [Comm.getNzIz_local] at hloc
  simp only [Bool.false_eq_true, if_false, add_zero, sub_zero, Except.ok.injEq,
    Prod.mk.injEq] at hloc
  have hnn := izLoc_sub_nonneg c withDamp hk
  have e := scatter_apply c withDamp Nr array (k := k) (t := i) (j := j) hk (by omega) hj
  have i1 : (c.izLoc withDamp k - c.izLoc withDamp 0).toNat + i = (start k + i - lo).toNat := by
    omega
  rw [i1] at e
  exact ⟨e, by omega, by omega⟩

/-- **C06** (gather then scatter): every rank gets back its own rows. -/
theorem C06_gather_scatter (c : Comm) (withDamp : Bool) (Nr : ℕ) (arr : ℕ → ℕ → ℕ → A)
    (N Narr : ℕ) (iz first : ℤ) (k : ℕ) (hk : k < c.size)
    (hloc : c.getNzIz true withDamp false (some k) = .ok (N, iz))
    (harr : c.getNzIz true true true (some k) = .ok (Narr, first))
    (i : ℕ) (hi : i < N) (j : ℕ) (hj : j < Nr) :
    scatterGridArray c Nr withDamp (gatherGridArray c Nr withDamp arr) k i j
      = arr k (iz + i - first).toNat j := by
  have hglob : c.getNzIz false withDamp false none = .ok (_, _) := Comm.getNzIz_global c _ _ none
  rw [(C06_scatter c withDamp Nr _ _ N _ iz k hk hglob hloc i hi j hj).1]
  exact (C06_gather c withDamp Nr arr _ N Narr _ iz first k hk hglob hloc harr (iz + i)
    (by omega) (by omega) j hj).1

/-- **C06** (scatter then gather): if every rank stores the scattered rows in its array, gathering
gives back the global array on all of its rows. -/
theorem C06_scatter_gather (c : Comm) (hs : 0 < c.size) (withDamp : Bool) (Nr : ℕ)
    (array : ℕ → ℕ → A) (arr : ℕ → ℕ → ℕ → A)
    (Nglob : ℕ) (lo : ℤ) (hglob : c.getNzIz false withDamp false none = .ok (Nglob, lo))
    (hstore : ∀ k < c.size, ∀ N Narr iz first,
      c.getNzIz true withDamp false (some k) = .ok (N, iz) →
      c.getNzIz true true true (some k) = .ok (Narr, first) →
      ∀ i < N, ∀ j < Nr, arr k (iz + i - first).toNat j
        = scatterGridArray c Nr withDamp array k i j)
    (i : ℕ) (hi : i < Nglob) (j : ℕ) (hj : j < Nr) :
    gatherGridArray c Nr withDamp arr i j = array i j := by
  obtain ⟨start, len, N', lo', p1, p2, p3, -⟩ := C01_partition c hs withDamp
  have p2' := p2 none
  rw [hglob] at p2'; cases p2'
  obtain ⟨k, ⟨hk, h1, h2⟩, -⟩ := p3.1 (lo + i) (by omega) (by omega)
  have hloc := p1 k hk
  have harr := Comm.getNzIz_local c true true k
  have e := (C06_gather c withDamp Nr arr Nglob _ _ lo _ _ k hk hglob hloc harr (lo + i) h1 h2 j hj).1
  have i1 : (lo + i - lo).toNat = i := by omega
  rw [i1] at e
  rw [e]
  have e2 := hstore k hk _ _ _ _ hloc harr (lo + i - start k).toNat (by omega) j hj
  have i2 : start k + ((lo + i - start k).toNat : ℤ) = lo + i := by omega
  rw [i2] at e2
  rw [e2, (C06_scatter c withDamp Nr array Nglob _ lo _ k hk hglob hloc _ (by omega) j hj).1, i2, i1]

/-- Non-vacuity: 7 cells on 3 ranks with 1 guard and 3 damping cells, 2 columns. Row -1 of the
global domain belongs to rank 0, at row 3 of its array; it is row 2 of the gathered array. -/
example : ∃ c : Comm,
    c.getNzIz false true false none = .ok (13, -3) ∧
    c.getNzIz true true false (some 2) = .ok (6, 4) ∧
    c.getNzIz true true true (some 2) = .ok (8, 3) ∧
    gatherGridArray c 2 true (fun k i j => 100 * (k : ℤ) + 10 * i + j) 9 1 = 231 ∧
    scatterGridArray c 2 true (fun i j => 10 * (i : ℤ) + j) 2 2 1 = 91 :=
  ⟨{ NzGlobal := 7, size := 3, nGuard := 1, nzDamp := 2, nInject := 1, bz := .opened
     br := .reflective, exchangePeriod := 1 }, by decide⟩

end Fbpic
