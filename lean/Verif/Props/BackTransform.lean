import Verif.Lemmas.BackTransform
import Mathlib.Data.Rat.Floor

/-! # C45-C48: lab-frame snapshots of boosted-frame simulations -/

namespace Fbpic

open BackTransform Spec

variable {K : Type} [Field K] [LinearOrder K] [IsStrictOrderedRing K] [FloorRing K]

/-! ### C45 -/

/-- **C45**: the positions used for a snapshot are the lab and boosted position of one event, at the lab time of
the snapshot and the boosted time of the iteration; from one iteration to the next the lab position
decreases by one cell. -/
theorem C45_plane (b : Boost K) (hb : IsBoost b) (s : Snap K) (t dt : K) :
    SameEvent b t (s.zBoost b t) s.tLab (s.zLab b t) ∧
    s.zLab b (t + dt) = s.zLab b t - b.dzLab dt := by
  have h1 := hb.c.ne'; have h2 := hb.gamma.ne'; have h3 := hb.beta.ne'
  have hs := hb.shell
  unfold SameEvent Snap.zBoost Snap.zLab Boost.dzLab Boost.invBeta Boost.invGamma
  refine ⟨⟨?_, ?_⟩, by ring⟩
  · field_simp
    linear_combination t * hs
  · field_simp
    ring

private theorem run_ok {α : Type} [Zero α] (b : Boost K) (hb : IsBoost b) (dt : K) (hdt : 0 < dt) (s : Snap K)
    (w : World K α) (lab : α → α) (size period n0 : ℕ) (hslow : SlowEdges b dt size w)
    (hdis : Spec.Disjoint size w) (k : ℕ) :
    ∃ L disk, n0 ≤ L ∧ L ≤ n0 + k ∧ (∀ m, L ≤ m → m < n0 + k → m % period ≠ 0) ∧
      (L = n0 ∨ ∃ m, n0 ≤ m ∧ L = m + 1 ∧ m % period = 0) ∧
      run b dt s w lab period size n0 k = .ok ⟨(List.range size).map (bufOf b dt s w L (n0 + k)), disk⟩ ∧
      Holds size n0 L (crosses b dt s w) s.zminLab (b.dzLab dt) (fun n => s.zLab b (n * dt))
        (fun n r => lab (w.slice n r)) disk := by
  induction k with
  | zero =>
    refine ⟨n0, fun _ => 0, le_refl _, le_refl _, by omega, Or.inl rfl, ?_, ?_, ?_⟩
    · unfold run init
      congr 2
      refine List.ext_getElem (by simp) fun r h1 h2 => ?_
      simp [bufOf, iters]
    · intro n r i h1 h2; omega
    · intro i _; rfl
  | succ k ih =>
    obtain ⟨L, disk, h1, h2, h3, h4, h5, h6⟩ := ih
    rw [run, h5]
    simp only [bind, Except.bind, write]
    rw [store_ok hb hdt s w hslow h2]
    by_cases hp : (n0 + k) % period = 0
    · rw [if_pos hp]
      obtain ⟨disk', g1, g2⟩ := flush_ok hb hdt s w lab hslow hdis (n := n0 + k + 1) (by omega) disk h6 h1
      exact ⟨n0 + k + 1, disk', by omega, by omega, by omega, Or.inr ⟨n0 + k, by omega, rfl, hp⟩, g1, g2⟩
    · rw [if_neg hp]
      refine ⟨L, disk, h1, by omega, ?_, h4, rfl, h6⟩
      intro m hm1 hm2
      by_cases hm : m < n0 + k
      · exact h3 m hm1 hm
      · obtain rfl : m = n0 + k := by omega
        exact hp

/-- **C45**: for any number of iterations, ranks and any period, the dataset holds in every cell the slice (in the
lab frame) recorded at the iteration at which the plane was in this cell, for all iterations up to the last
flush (exclusive bound `L`), and zero elsewhere; the memory buffers of every rank hold, in order, the slices
recorded since then with the cells in which the plane was. No error is raised. -/
theorem C45_run {α : Type} [Zero α] (b : Boost K) (hb : IsBoost b) (dt : K) (hdt : 0 < dt) (s : Snap K)
    (w : World K α) (lab : α → α) (size period n0 : ℕ) (hslow : SlowEdges b dt size w)
    (hdis : Spec.Disjoint size w) (k : ℕ) :
    ∃ L st, run b dt s w lab period size n0 k = .ok st ∧
      -- `L` follows the last iteration that is a multiple of the period
      n0 ≤ L ∧ L ≤ n0 + k ∧ (∀ m, L ≤ m → m < n0 + k → m % period ≠ 0) ∧
      (L = n0 ∨ ∃ m, n0 ≤ m ∧ L = m + 1 ∧ m % period = 0) ∧
      Holds size n0 L (crosses b dt s w) s.zminLab (b.dzLab dt) (fun n => s.zLab b (n * dt))
        (fun n r => lab (w.slice n r)) st.disk ∧
      st.bufs.length = size ∧ ∀ r (h : r < st.bufs.length), ∃ its : List ℕ,
        its.Pairwise (· < ·) ∧ (∀ m, m ∈ its ↔ L ≤ m ∧ m < n0 + k ∧ crosses b dt s w m r) ∧
        st.bufs[r].slices = its.map (w.slice · r) ∧
        List.Forall₂ (fun (m : ℕ) (i : ℤ) => InCell s.zminLab (b.dzLab dt) i (s.zLab b (m * dt))) its st.bufs[r].idx := by
  obtain ⟨L, disk, h1, h2, h3, h4, h5, h6⟩ := run_ok b hb dt hdt s w lab size period n0 hslow hdis k
  refine ⟨L, _, h5, h1, h2, h3, h4, h6, by simp, ?_⟩
  intro r hr
  refine ⟨iters b dt s w L (n0 + k) r, ?_, fun m => mem_iters, ?_, ?_⟩
  · exact (List.pairwise_lt_range').filter _
  · simp [bufOf]
  · simp only [List.getElem_map, List.getElem_range, bufOf]
    rw [List.forall₂_map_right_iff, List.forall₂_same]
    intro m _
    rw [inCell_iff (dzLab_pos hb hdt), floor_cell hb hdt]

/-- **C45**: the cells written are inside the dataset, each contains the lab position of its plane, and successive
iterations use successive decreasing cells (so no two iterations use the same cell). -/
theorem C45_cells {α : Type} (b : Boost K) (hb : IsBoost b) (dt : K) (hdt : 0 < dt) (s : Snap K) (w : World K α)
    (n r : ℕ) (i : ℤ) (h : crosses b dt s w n r) (hi : InCell s.zminLab (b.dzLab dt) i (s.zLab b (n * dt))) :
    0 ≤ i ∧ i < s.Nz b dt ∧
    ∀ (k : ℕ) (i' : ℤ), InCell s.zminLab (b.dzLab dt) i' (s.zLab b ((n + k : ℕ) * dt)) ↔ i' = i - k := by
  have hd := dzLab_pos hb hdt
  rw [inCell_iff hd, floor_cell hb hdt] at hi
  have := cell_range hb hdt h
  refine ⟨by omega, by omega, ?_⟩
  intro k i'
  rw [inCell_iff hd, floor_cell hb hdt]
  push_cast
  omega

/-- **C45**: the dataset does not depend on the flush period: after an iteration that is a multiple of two
periods, it is the same for both. -/
theorem C45_period {α : Type} [Zero α] (b : Boost K) (hb : IsBoost b) (dt : K) (hdt : 0 < dt) (s : Snap K)
    (w : World K α) (lab : α → α) (size p p' n0 : ℕ) (hslow : SlowEdges b dt size w)
    (hdis : Spec.Disjoint size w) (k : ℕ) (hp : (n0 + k) % p = 0) (hp' : (n0 + k) % p' = 0) :
    ∃ st st', run b dt s w lab p size n0 (k + 1) = .ok st ∧ run b dt s w lab p' size n0 (k + 1) = .ok st' ∧
      st.disk = st'.disk := by
  obtain ⟨L, disk, h1, h2, h3, h4, h5, h6⟩ := run_ok b hb dt hdt s w lab size p n0 hslow hdis (k + 1)
  obtain ⟨L', disk', h1', h2', h3', h4', h5', h6'⟩ := run_ok b hb dt hdt s w lab size p' n0 hslow hdis (k + 1)
  refine ⟨_, _, h5, h5', ?_⟩
  obtain rfl : L = n0 + (k + 1) := by
    by_contra hne
    exact h3 (n0 + k) (by omega) (by omega) hp
  obtain rfl : L' = n0 + (k + 1) := by
    by_contra hne
    exact h3' (n0 + k) (by omega) (by omega) hp'
  change disk = disk'
  funext i
  by_cases hex : ∃ n r, n0 ≤ n ∧ n < n0 + (k + 1) ∧ r < size ∧ crosses b dt s w n r ∧
      InCell s.zminLab (b.dzLab dt) i (s.zLab b (n * dt))
  · obtain ⟨n, r, g1, g2, g3, g4, g5⟩ := hex
    rw [h6.written n r i g1 g2 g3 g4 g5, h6'.written n r i g1 g2 g3 g4 g5]
  · rw [h6.empty i fun n r g1 g2 g3 g4 g5 => hex ⟨n, r, g1, g2, g3, g4, g5⟩,
      h6'.empty i fun n r g1 g2 g3 g4 g5 => hex ⟨n, r, g1, g2, g3, g4, g5⟩]

/-- A boost with `γ = 5/4`, `β = 3/5`. -/
def exBoost : Boost ℚ := ⟨5 / 4, 3 / 5, 1⟩

theorem exBoost_ok : IsBoost exBoost := by
  constructor <;> norm_num [exBoost]

/-- Two ranks at rest; the slice of iteration `n` on rank `r` is the number `1 + n + 100 r`. -/
def exWorld : World ℚ ℚ := ⟨fun _ r => 10 * r, fun _ r => 10 * r + 10, fun n r => 1 + n + 100 * r⟩

/-- Cells `0, ..., 19` of the dataset. -/
def exDisk (r : Except PyErr (State ℚ)) : List ℚ :=
  match r with
  | .ok st => (List.range 20).map fun i => st.disk i
  | .error _ => []

/-- The hypotheses of `C45_run` are met, and the dataset after 13 iterations with two ranks is as expected: the
plane is on rank 1 at the iterations 0 to 3 and on rank 0 from 4 to 9. -/
example : IsBoost exBoost ∧ SlowEdges exBoost 1 2 exWorld ∧ Spec.Disjoint 2 exWorld ∧
    exDisk (run exBoost 1 ⟨12, 1, 100⟩ exWorld (fun x => -x) 4 2 0 13) =
      [0, 0, 0, 0, 0, -10, -9, -8, -7, -6, -5, -104, -103, -102, -101, 0, 0, 0, 0, 0] := by
  refine ⟨exBoost_ok, ?_, ?_, by decide +kernel⟩
  · intro n r _; norm_num [exWorld, exBoost]
  · intro n r r' _ _ h
    rcases lt_or_gt_of_ne h with h | h
    · left
      have : (r : ℚ) + 1 ≤ r' := by exact_mod_cast h
      simp only [exWorld]; linarith
    · right
      have : (r' : ℚ) + 1 ≤ r := by exact_mod_cast h
      simp only [exWorld]; linarith

/-- **C45** is violated when the window moves to the left: it is moved by several cells at once, the plane leaves the
sub-domain and enters it again, and the slices recorded then go to the cells following the last one recorded
before. Here the window moves by -8 at iteration 12 (less than the distance travelled by light): the
slice of iteration 12 is written in cell 20, whereas the plane is in cell 18. -/
theorem C45_violated : ∃ (w : World ℚ ℚ) (s : Snap ℚ) (st : State ℚ),
    (∀ n, w.zmin n 0 = if n < 12 then 0 else -8) ∧ (∀ n, w.zmax n 0 = w.zmin n 0 + 20) ∧
    run exBoost 1 s w (fun x => x) 15 1 0 16 = .ok st ∧
    crosses exBoost 1 s w 12 0 ∧ InCell s.zminLab (exBoost.dzLab 1) 18 (s.zLab exBoost ((12 : ℕ) * 1)) ∧
    st.disk 20 = w.slice 12 0 ∧ st.disk 18 = w.slice 14 0 ∧ w.slice 12 0 ≠ w.slice 14 0 := by
  let w : World ℚ ℚ := ⟨fun n _ => if n < 12 then 0 else -8, fun n _ => if n < 12 then 20 else 12, fun n _ => 1 + n⟩
  let s : Snap ℚ := ⟨12, -20, 100⟩
  have h : ∃ st, run exBoost 1 s w (fun x => x) 15 1 0 16 = .ok st ∧ st.disk 20 = 13 ∧ st.disk 18 = 15 := by
    have h1 : (match run exBoost 1 s w (fun x => x) 15 1 0 16 with
      | .ok st => decide (st.disk 20 = 13 ∧ st.disk 18 = 15)
      | .error _ => false) = true := by decide +kernel
    cases hr : run exBoost 1 s w (fun x => x) 15 1 0 16 with
    | ok st => rw [hr] at h1; exact ⟨st, rfl, of_decide_eq_true h1⟩
    | error e => rw [hr] at h1; exact absurd h1 (by simp)
  obtain ⟨st, h1, h2, h3⟩ := h
  refine ⟨w, s, st, fun n => rfl, ?_, h1, ?_, ?_, ?_, ?_, ?_⟩
  · intro n
    by_cases hn : n < 12 <;> norm_num [w, hn]
  · norm_num [crosses, w, s, exBoost, Snap.zBoost, Snap.zLab, Boost.invGamma, Boost.invBeta]
  · norm_num [InCell, s, exBoost, Snap.zLab, Boost.dzLab, Boost.invGamma, Boost.invBeta]
  · rw [h2]; norm_num [w]
  · rw [h3]; norm_num [w]
  · norm_num [w]

/-- A plane exactly on the edge between two sub-domains is recorded by none of them: its cell of the snapshot
stays at zero although the neighbouring ones are filled. -/
theorem C45_lost_on_edge : ∃ (w : World ℚ ℚ) (s : Snap ℚ) (st : State ℚ),
    w.zmax 3 0 = w.zmin 3 1 ∧ w.zmin 3 0 < s.zBoost exBoost ((3 : ℕ) * 1) ∧
    s.zBoost exBoost ((3 : ℕ) * 1) < w.zmax 3 1 ∧
    run exBoost 1 s w (fun x => x) 6 2 0 7 = .ok st ∧
    InCell s.zminLab (exBoost.dzLab 1) 27 (s.zLab exBoost ((3 : ℕ) * 1)) ∧
    st.disk 28 = w.slice 2 1 ∧ st.disk 27 = 0 ∧ st.disk 26 = w.slice 4 0 ∧ w.slice 3 0 ≠ 0 ∧ w.slice 3 1 ≠ 0 := by
  let w : World ℚ ℚ := ⟨fun _ r => 11 * r, fun _ r => 11 * r + 11, fun n _ => 1 + n⟩
  let s : Snap ℚ := ⟨12, -20, 100⟩
  have h : ∃ st, run exBoost 1 s w (fun x => x) 6 2 0 7 = .ok st ∧ st.disk 28 = 3 ∧ st.disk 27 = 0 ∧ st.disk 26 = 5 := by
    have h1 : (match run exBoost 1 s w (fun x => x) 6 2 0 7 with
      | .ok st => decide (st.disk 28 = 3 ∧ st.disk 27 = 0 ∧ st.disk 26 = 5)
      | .error _ => false) = true := by decide +kernel
    cases hr : run exBoost 1 s w (fun x => x) 6 2 0 7 with
    | ok st => rw [hr] at h1; exact ⟨st, rfl, of_decide_eq_true h1⟩
    | error e => rw [hr] at h1; exact absurd h1 (by simp)
  obtain ⟨st, h1, h2, h3, h4⟩ := h
  refine ⟨w, s, st, ?_, ?_, ?_, h1, ?_, ?_, h3, ?_, ?_, ?_⟩
  · norm_num [w]
  · norm_num [w, s, exBoost, Snap.zBoost, Boost.invGamma, Boost.invBeta]
  · norm_num [w, s, exBoost, Snap.zBoost, Boost.invGamma, Boost.invBeta]
  · norm_num [InCell, s, exBoost, Snap.zLab, Boost.dzLab, Boost.invGamma, Boost.invBeta]
  · rw [h2]; norm_num [w]
  · rw [h4]; norm_num [w]
  · norm_num [w]
  · norm_num [w]

/-! ### C46 -/

/-- Position of the centre of the cell `i` of the array, with `shift` cells left of the position `zmin`. -/
def centre (zmin dz : K) (shift : ℕ) (i : ℤ) : K := zmin + (i - shift + 1 / 2) * dz

/-- **C46** (partial: from the centre of the first cell on, and as long as there is a cell on the right; see
`C46_violated` and `C46_violated_last`): the value of the slice is a convex combination of the two cells that
surround it, with the weights of linear interpolation. -/
theorem C46_convex_partial (dz z zmin : K) (hdz : 0 < dz) (shift N : ℕ) (F : ℕ → K)
    (h1 : zmin + dz / 2 ≤ z) (h2 : z < centre zmin dz shift (N - 1)) :
    ∃ i : ℕ, i + 1 < N ∧ centre zmin dz shift i ≤ z ∧ z < centre zmin dz shift (i + 1) ∧
      extract N F (sliceIndex dz z zmin shift) =
        .ok ((centre zmin dz shift (i + 1) - z) / dz * F i + (z - centre zmin dz shift i) / dz * F (i + 1)) := by
  set u := (z - zmin - dz / 2) / dz with hu
  have hz : z = zmin + dz / 2 + u * dz := by rw [hu]; field_simp; ring
  have hu0 : 0 ≤ u := div_nonneg (by linarith) hdz.le
  have hp : pyInt u = ⌊u⌋ := pyInt_of_nonneg hu0
  obtain ⟨k, hk⟩ := Int.eq_ofNat_of_zero_le (Int.floor_nonneg.mpr hu0)
  have hk1 : (k : K) ≤ u := by have := Int.floor_le u; rw [hk] at this; exact_mod_cast this
  have hk2 : u < k + 1 := by have := Int.lt_floor_add_one u; rw [hk] at this; exact_mod_cast this
  have hN : (u : K) < N - 1 - shift := by
    rw [hz, centre] at h2
    have : u * dz < (N - 1 - shift) * dz := by push_cast at h2; linarith
    exact lt_of_mul_lt_mul_right this hdz.le
  have hNk : k + shift + 1 < N := by
    have : (k : K) + shift + 1 < N := by linarith
    exact_mod_cast this
  refine ⟨k + shift, hNk, ?_, ?_, ?_⟩
  · unfold centre; rw [hz]; push_cast; nlinarith
  · unfold centre; rw [hz]; push_cast; nlinarith
  · have hsl : sliceIndex dz z zmin shift = (((k + shift : ℕ) : ℤ), k + 1 - u) := by
      unfold sliceIndex
      simp only [← hu, hp, hk]
      simp
    rw [hsl]
    unfold extract
    simp only [bind, Except.bind]
    rw [if_pos ⟨by omega, by omega⟩]
    simp only
    rw [if_pos ⟨by omega, by omega⟩]
    simp only [pure, Except.pure]
    refine congrArg Except.ok ?_
    have e1 : (((k + shift : ℕ) : ℤ)).toNat = k + shift := by omega
    have e2 : (((k + shift : ℕ) : ℤ) + 1).toNat = k + shift + 1 := by omega
    rw [e1, e2]
    have c1 : (centre zmin dz shift ((k + shift : ℕ) + 1) - z) / dz = k + 1 - u := by
      unfold centre; rw [hz]; push_cast; field_simp; ring
    have c2 : (z - centre zmin dz shift (k + shift : ℕ)) / dz = u - k := by
      unfold centre; rw [hz]; push_cast; field_simp; ring
    rw [c1, c2]
    ring

/-- **C46** is violated in the first half cell of a sub-domain: the slice is extrapolated from the first two cells,
with a weight larger than one and a negative one, although the guard cell on the left is available. -/
theorem C46_violated (dz z zmin : K) (hdz : 0 < dz) (shift N : ℕ) (F : ℕ → K) (hN : shift + 1 < N)
    (h1 : zmin < z) (h2 : z < zmin + dz / 2) :
    ∃ S, 1 < S ∧ extract N F (sliceIndex dz z zmin shift) = .ok (S * F shift + (1 - S) * F (shift + 1)) := by
  set u := (z - zmin - dz / 2) / dz with hu
  have hu0 : u < 0 := div_neg_of_neg_of_pos (by linarith) hdz
  have hu1 : -1 < u := by rw [hu, lt_div_iff₀ hdz]; linarith
  have hp : pyInt u = 0 := by
    rw [pyInt_of_neg hu0, Int.ceil_eq_iff]
    constructor
    · push_cast; linarith
    · push_cast; linarith
  refine ⟨1 - u, by linarith, ?_⟩
  have hsl : sliceIndex dz z zmin shift = ((shift : ℤ), 1 - u) := by
    unfold sliceIndex
    simp only [← hu, hp]
    simp
  rw [hsl]
  unfold extract
  simp only [bind, Except.bind]
  rw [if_pos ⟨by omega, by omega⟩]
  simp only
  rw [if_pos ⟨by omega, by omega⟩]
  simp only [pure, Except.pure]
  have e2 : ((shift : ℤ) + 1).toNat = shift + 1 := by omega
  rw [e2, Int.toNat_natCast]

/-- **C46** is violated in the last half cell when there are no guard cells (single process with periodic
boundaries, or no communicator): the extraction raises an `IndexError`. -/
theorem C46_violated_last (dz z zmin : K) (hdz : 0 < dz) (N : ℕ) (hN : 0 < N) (F : ℕ → K)
    (h1 : centre zmin dz 0 (N - 1) ≤ z) (h2 : z < zmin + N * dz) :
    ∃ m, extract N F (sliceIndex dz z zmin 0) = .error (.indexError m) := by
  set u := (z - zmin - dz / 2) / dz with hu
  have hz : z = zmin + dz / 2 + u * dz := by rw [hu]; field_simp; ring
  have hN' : (1 : K) ≤ N := by exact_mod_cast hN
  have hu1 : (N : K) - 1 ≤ u := by
    rw [hz, centre] at h1
    push_cast at h1
    have : (N - 1 : K) * dz ≤ u * dz := by linarith
    exact le_of_mul_le_mul_right this hdz
  have hu2 : u < N := by
    rw [hz] at h2
    have : u * dz < N * dz := by linarith
    exact lt_of_mul_lt_mul_right this hdz.le
  have hp : pyInt u = (N : ℤ) - 1 := by
    rw [pyInt_of_nonneg (by linarith), Int.floor_eq_iff]
    push_cast
    exact ⟨hu1, by linarith⟩
  have hsl : sliceIndex dz z zmin 0 = ((N : ℤ) - 1, N - u) := by
    unfold sliceIndex
    simp only [← hu, hp]
    simp
  rw [hsl]
  unfold extract
  simp only [bind, Except.bind]
  rw [if_pos ⟨by omega, by omega⟩]
  simp only
  rw [if_neg (by omega), if_neg (by omega)]
  exact ⟨_, rfl⟩

/-- **C46**: the GPU kernel computes the same numbers as the CPU code, for all modes. -/
theorem C46_gpu (S : K) (a b : List (K × K)) (h : a.length = b.length) :
    (List.zipWith (fun x y => S * x + (1 - S) * y) (getDataset a) (getDataset b)) =
      ((List.zip a b).mapIdx fun m p => if m = 0 then [extractCuda m S p.1.1 p.2.1]
        else [extractCuda m S p.1.1 p.2.1, extractCuda m S p.1.2 p.2.2]).flatten := by
  cases a with
  | nil => rfl
  | cons x a =>
    cases b with
    | nil => simp at h
    | cons y b =>
      simp only [List.length_cons, Nat.add_right_cancel_iff] at h
      simp only [getDataset, List.zipWith_cons_cons, List.zip_cons_cons, List.mapIdx_cons, List.flatten_cons,
        extractCuda, if_true, List.singleton_append, gt_iff_lt, lt_irrefl, if_false, List.cons.injEq, true_and]
      induction a generalizing b with
      | nil => simp
      | cons u a ih =>
        cases b with
        | nil => simp at h
        | cons v b =>
          simp only [List.length_cons, Nat.add_right_cancel_iff] at h
          have := ih b h
          simp only [List.flatMap_cons, List.cons_append, List.nil_append, List.zipWith_cons_cons,
            List.zip_cons_cons, List.mapIdx_cons, List.flatten_cons]
          rw [this]
          simp only [Nat.add_eq_zero_iff, one_ne_zero, and_false, if_false, Nat.zero_lt_succ, if_true,
            List.cons_append, List.nil_append, List.cons.injEq]
          refine ⟨by ring, by ring, trivial⟩

example : extract 4 (fun i => (10 * i : ℚ)) (sliceIndex 1 (9 / 4) 0 1) = .ok (55 / 2) ∧
    extract 4 (fun i => if i = 1 then (1 : ℚ) else 0) (sliceIndex 1 (1 / 4) 0 1) = .ok (5 / 4) ∧
    extract 2 (fun i => if i = 1 then (1 : ℚ) else 0) (sliceIndex 1 (7 / 4) 0 0) = .error (.indexError "index out of bounds") := by
  refine ⟨?_, ?_, ?_⟩ <;> decide +kernel

/-! ### C47 -/

/-- Positions of a particle at the iterations: from one to the next it moves with the velocity known at the later one
(the momentum is the one of the half step before, see C40), slower than light. -/
structure Moves (b : Boost K) (dt : K) (p : ℕ → Ptcl K) : Prop where
  step : ∀ n, (p (n + 1)).z = (p n).z + (p (n + 1)).uz * (p (n + 1)).invGamma * b.c * dt
  slow : ∀ n, |(p n).uz * (p n).invGamma| < 1

private theorem gap_step {b : Boost K} (hb : IsBoost b) {dt : K} (hdt : 0 < dt) (s : Snap K) {p : ℕ → Ptcl K}
    (hp : Moves b dt p) (n : ℕ) :
    (p n).z - s.zBoost b (n * dt) < (p (n + 1)).z - s.zBoost b ((n + 1 : ℕ) * dt) := by
  have h1 := hb.c; have h3 := hb.beta; have h4 := hb.beta_lt
  rw [hp.step, zBoost_step]
  have hv := (abs_lt.mp (hp.slow (n + 1))).1
  have : b.c * dt < b.c * dt / b.beta := by
    rw [lt_div_iff₀ h3]
    have : 0 < b.c * dt := by positivity
    nlinarith
  have h5 : 0 < b.c * dt := by positivity
  nlinarith

private theorem gap_mono {b : Boost K} (hb : IsBoost b) {dt : K} (hdt : 0 < dt) (s : Snap K) {p : ℕ → Ptcl K}
    (hp : Moves b dt p) : StrictMono fun n : ℕ => (p n).z - s.zBoost b (n * dt) :=
  strictMono_nat_of_lt_succ fun n => gap_step hb hdt s hp n

/-- What the selection amounts to. -/
private theorem caught_iff {b : Boost K} (hb : IsBoost b) {dt : K} (hdt : 0 < dt) (s : Snap K) {p : ℕ → Ptcl K}
    (hp : Moves b dt p) (n : ℕ) :
    caught b dt (s.zBoost b ((n + 1 : ℕ) * dt)) (s.zBoost b ((n + 1 : ℕ) * dt - dt)) (p (n + 1)) ↔
      (p n).z ≤ s.zBoost b (n * dt) ∧ s.zBoost b ((n + 1 : ℕ) * dt) ≤ (p (n + 1)).z := by
  have e : ((n + 1 : ℕ) : K) * dt - dt = n * dt := by push_cast; ring
  have e2 : (p (n + 1)).z - (p (n + 1)).uz * (p (n + 1)).invGamma * b.c * dt = (p n).z := by
    rw [hp.step]; ring
  have hg := gap_step hb hdt s hp n
  unfold caught
  rw [e, e2]
  constructor
  · rintro (⟨h1, h2⟩ | ⟨h1, h2⟩)
    · exact ⟨h2, h1⟩
    · exact absurd hg (by linarith)
  · rintro ⟨h1, h2⟩; exact Or.inl ⟨h2, h1⟩

/-- **C47** (partial: see `C47_violated`): a particle is recorded at two iterations of a snapshot only if these are
successive and it was exactly on the plane at the first one. -/
theorem C47_once_partial (b : Boost K) (hb : IsBoost b) (dt : K) (hdt : 0 < dt) (s : Snap K) (p : ℕ → Ptcl K)
    (hp : Moves b dt p) (zmin zmax : ℕ → K) (n m : ℕ) (hn : 1 ≤ n) (hnm : n < m)
    (h1 : recorded b dt s zmin zmax p n) (h2 : recorded b dt s zmin zmax p m) :
    m = n + 1 ∧ (p n).z = s.zBoost b (n * dt) := by
  obtain ⟨n, rfl⟩ : ∃ k, n = k + 1 := ⟨n - 1, by omega⟩
  obtain ⟨m, rfl⟩ : ∃ k, m = k + 1 := ⟨m - 1, by omega⟩
  have c1 := (caught_iff hb hdt s hp n).mp h1.2
  have c2 := (caught_iff hb hdt s hp m).mp h2.2
  have hm := gap_mono hb hdt s hp
  have hle : n + 1 ≤ m := by omega
  have q := hm.monotone hle
  try simp only at q
  have hz : (p (n + 1)).z = s.zBoost b ((n + 1 : ℕ) * dt) := le_antisymm (by linarith [c2.1]) c1.2
  refine ⟨?_, hz⟩
  by_contra hne
  have hlt : n + 1 < m := by omega
  have q := hm hlt
  try simp only at q
  linarith [c2.1]

/-- **C47**: a particle that starts behind the plane and ends in front of it is caught at an iteration in between, and
recorded there if the plane is in the local domain and in the lab window at this iteration. -/
theorem C47_caught (b : Boost K) (hb : IsBoost b) (dt : K) (hdt : 0 < dt) (s : Snap K) (p : ℕ → Ptcl K)
    (hp : Moves b dt p) (zmin zmax : ℕ → K) (n m : ℕ)
    (h1 : (p n).z ≤ s.zBoost b (n * dt)) (h2 : s.zBoost b (m * dt) < (p m).z) :
    ∃ k, n < k ∧ k ≤ m ∧ (p (k - 1)).z ≤ s.zBoost b ((k - 1 : ℕ) * dt) ∧ s.zBoost b (k * dt) < (p k).z ∧
      (planeInside b s (zmin k) (zmax k) (k * dt) → recorded b dt s zmin zmax p k) := by
  have hm := gap_mono hb hdt s hp
  have hnm : n < m := by
    by_contra h
    have q := hm.monotone (not_lt.mp h)
    try simp only at q
    linarith
  have hex : ∃ k, 0 < (p k).z - s.zBoost b (k * dt) := ⟨m, by linarith⟩
  classical
  have hk1 := Nat.find_spec hex
  set k := Nat.find hex with hk
  have hkm : k ≤ m := Nat.find_min' hex (by linarith)
  have hnk : n < k := by
    by_contra h
    have q := hm.monotone (not_lt.mp h)
    try simp only at q
    linarith
  have hk2 := Nat.find_min hex (m := k - 1) (by omega)
  refine ⟨k, hnk, hkm, by linarith, by linarith, ?_⟩
  intro hin
  refine ⟨hin, ?_⟩
  obtain ⟨j, hj⟩ : ∃ j, k = j + 1 := ⟨k - 1, by omega⟩
  rw [hj] at hk1 hk2 ⊢
  simp only [Nat.add_sub_cancel] at hk2
  exact (caught_iff hb hdt s hp j).mpr ⟨by linarith, by linarith⟩

/-- **C47** on several ranks: `zmin k`, `zmax k` are the limits (guard cells included) of the grid of the rank that holds
the particle at iteration `k`, which can be another one at each iteration. A particle crossed by the plane is recorded
by the rank that holds it, provided that it stays in this grid, not closer to its left end than what the plane and a
particle can travel in a step (the exchange of particles keeps it there, C54), and the plane is within the limits of the
snapshot. -/
theorem C47_ranks (b : Boost K) (hb : IsBoost b) (dt : K) (hdt : 0 < dt) (s : Snap K) (p : ℕ → Ptcl K)
    (hp : Moves b dt p) (zmin zmax : ℕ → K) (n m : ℕ)
    (h1 : (p n).z ≤ s.zBoost b (n * dt)) (h2 : s.zBoost b (m * dt) < (p m).z)
    (hin : ∀ k, n < k → k ≤ m → zmin k + (b.c * dt + b.c * dt / b.beta) ≤ (p k).z ∧ (p k).z ≤ zmax k)
    (hlab : ∀ k : ℕ, n < k → k ≤ m → s.zminLab ≤ s.zLab b (k * dt) ∧ s.zLab b (k * dt) < s.zmaxLab) :
    ∃ k, n < k ∧ k ≤ m ∧ recorded b dt s zmin zmax p k := by
  obtain ⟨k, g1, g2, g3, g4, g5⟩ := C47_caught b hb dt hdt s p hp zmin zmax n m h1 h2
  refine ⟨k, g1, g2, g5 ?_⟩
  obtain ⟨j, rfl⟩ : ∃ j, k = j + 1 := ⟨k - 1, by omega⟩
  simp only [Nat.add_sub_cancel] at g3
  obtain ⟨i1, i2⟩ := hin (j + 1) g1 g2
  refine ⟨?_, lt_of_lt_of_le g4 i2, hlab _ g1 g2⟩
  have hv := (abs_lt.mp (hp.slow (j + 1))).2
  have h5 : 0 < b.c * dt := mul_pos hb.c hdt
  have hs := hp.step j
  have e : s.zBoost b ((j + 1 : ℕ) * dt) = s.zBoost b (j * dt) - b.c * dt / b.beta := by
    rw [zBoost_step]
  have : (p (j + 1)).uz * (p (j + 1)).invGamma * b.c * dt ≤ b.c * dt := by nlinarith
  rw [e]
  linarith

/-- **C47** is violated for a particle that is exactly on the plane at an iteration: it is recorded twice. (Here a particle
at rest.) -/
theorem C47_violated : ∃ (p : ℕ → Ptcl ℚ) (s : Snap ℚ), Moves exBoost 1 p ∧
    recorded exBoost 1 s (fun _ => 0) (fun _ => 20) p 3 ∧ recorded exBoost 1 s (fun _ => 0) (fun _ => 20) p 4 := by
  refine ⟨fun _ => ⟨0, 0, 11, 0, 0, 0, 1⟩, ⟨12, -20, 100⟩, ⟨fun _ => by norm_num, fun _ => by norm_num⟩, ?_, ?_⟩ <;>
  · norm_num [recorded, planeInside, caught, exBoost, Snap.zBoost, Snap.zLab, Boost.invGamma, Boost.invBeta]

/-- **C47**: a caught particle is recorded at the event where its straight world line meets the plane: that event is in the
last time step, at the lab time of the snapshot, and the recorded `z` is its lab position, between the lab
positions of the plane at this iteration and at the preceding one. -/
theorem C47_event (b : Boost K) (hb : IsBoost b) (dt : K) (s : Snap K) (t : K) (p : Ptcl K)
    (hslow : |p.uz * p.invGamma| < 1)
    (hc : caught b dt (s.zBoost b t) (s.zBoost b (t - dt)) p) :
    let r := toLabPtcl b (s.zBoost b t) t p
    let tc := r.2.2
    let zc := p.z + (tc - t) * (p.uz * p.invGamma * b.c)
    SameEvent b tc zc s.tLab r.1.2.2 ∧
    r.1.1 = p.x + (tc - t) * (p.ux * p.invGamma * b.c) ∧ r.1.2.1 = p.y + (tc - t) * (p.uy * p.invGamma * b.c) ∧
    (0 ≤ dt → t - dt ≤ tc ∧ tc ≤ t ∧ s.zLab b t ≤ r.1.2.2 ∧ r.1.2.2 ≤ s.zLab b (t - dt)) := by
  have h1 := hb.c; have h2 := hb.gamma; have h3 := hb.beta; have h4 := hb.beta_lt
  have hs := hb.shell
  set v := p.uz * p.invGamma with hv
  obtain ⟨hv1, hv2⟩ := abs_lt.mp hslow
  have hD : -b.c / b.beta - v * b.c < 0 := by
    have : b.c / b.beta > b.c := by rw [gt_iff_lt, lt_div_iff₀ h3]; nlinarith
    rw [neg_div]; nlinarith
  intro r tc zc
  have htc : tc = t - (s.zBoost b t - p.z) / (-b.c / b.beta - v * b.c) := rfl
  have hzr : r.1.2.2 = b.gamma * (zc + b.beta * b.c * tc) := by
    change b.gamma * (p.z + b.c * (tc - t) * p.invGamma * p.uz + b.beta * b.c * tc) = _
    simp only [zc]; ring
  -- the plane at the time of crossing
  have hplane : zc = s.zBoost b tc := by
    have e : s.zBoost b tc = s.zBoost b t + (tc - t) * (-b.c / b.beta) := by
      unfold Snap.zBoost Boost.invBeta; ring
    have e2 : (tc - t) * (-b.c / b.beta - v * b.c) = -(s.zBoost b t - p.z) := by
      rw [htc, sub_sub_cancel_left, neg_mul, div_mul_cancel₀ _ hD.ne]
    rw [e]
    simp only [zc]
    linarith
  have hev := (C45_plane b hb s tc 0).1
  rw [← hplane] at hev
  have hzl : r.1.2.2 = s.zLab b tc := by rw [hzr, hev.1]
  refine ⟨⟨hzr, hev.2⟩, ?_, ?_, ?_⟩
  · change p.x + b.c * (tc - t) * p.invGamma * p.ux = _; ring
  · change p.y + b.c * (tc - t) * p.invGamma * p.uy = _; ring
  · intro hdt
    have hpl : s.zBoost b (t - dt) = s.zBoost b t + dt * (b.c / b.beta) := by
      unfold Snap.zBoost Boost.invBeta; ring
    have hcase : s.zBoost b t ≤ p.z ∧ p.z - v * b.c * dt ≤ s.zBoost b t + dt * (b.c / b.beta) := by
      unfold caught at hc
      rw [hpl] at hc
      rcases hc with ⟨g1, g2⟩ | ⟨g1, g2⟩
      · exact ⟨g1, g2⟩
      · -- only possible without motion
        have : dt * (b.c / b.beta + v * b.c) ≤ 0 := by
          have : p.uz * p.invGamma * b.c * dt = dt * (v * b.c) := by rw [hv]; ring
          linarith
        have hpos : 0 < b.c / b.beta + v * b.c := by rw [neg_div] at hD; linarith
        have hdt0 : dt = 0 := le_antisymm (by
          by_contra h
          have := mul_pos (not_le.mp h) hpos
          linarith) hdt
        rw [hdt0] at g2 ⊢
        exact ⟨by linarith, by linarith⟩
    have hle : tc ≤ t := by
      rw [htc]
      have : 0 ≤ (s.zBoost b t - p.z) / (-b.c / b.beta - v * b.c) := div_nonneg_of_nonpos (by linarith [hcase.1]) hD.le
      linarith
    have hge : t - dt ≤ tc := by
      rw [htc]
      have : (s.zBoost b t - p.z) / (-b.c / b.beta - v * b.c) ≤ dt := by
        rw [div_le_iff_of_neg hD, neg_div]
        linarith [hcase.2]
      linarith
    have hmono : ∀ x y, x ≤ y → s.zLab b y ≤ s.zLab b x := by
      intro x y hxy
      unfold Snap.zLab Boost.invGamma Boost.invBeta
      have q : 0 < b.c * (1 / b.beta) := by positivity
      have q2 : x * (1 / b.gamma) ≤ y * (1 / b.gamma) := mul_le_mul_of_nonneg_right hxy (by positivity)
      rw [mul_assoc, mul_assoc]
      exact mul_le_mul_of_nonneg_right (by linarith) q.le
    exact ⟨hge, hle, by rw [hzl]; exact hmono _ _ hle, by rw [hzl]; exact hmono _ _ hge⟩

/-- **C47**: the recorded momentum is the Lorentz transform of the one in the boosted frame: for a particle on the mass shell,
it is on the mass shell with the lab Lorentz factor `γ(g + β uz)`. -/
theorem C47_momentum (b : Boost K) (hb : IsBoost b) (cur t g : K) (hg : g ≠ 0) (p : Ptcl K)
    (hi : p.invGamma = 1 / g) (hm : g ^ 2 = 1 + p.ux ^ 2 + p.uy ^ 2 + p.uz ^ 2) :
    let u := (toLabPtcl b cur t p).2.1
    u.1 = p.ux ∧ u.2.1 = p.uy ∧ u.2.2 = b.gamma * (p.uz + b.beta * g) ∧
    (b.gamma * (g + b.beta * p.uz)) ^ 2 = 1 + u.1 ^ 2 + u.2.1 ^ 2 + u.2.2 ^ 2 := by
  have hs := hb.shell
  have e : 1 / p.invGamma = g := by rw [hi]; field_simp
  simp only [toLabPtcl, e]
  refine ⟨trivial, trivial, by ring, ?_⟩
  linear_combination hm + (g ^ 2 - p.uz ^ 2) * hs

/-- The hypotheses of the C47 theorems are met by a particle moving at `-3/5` of the speed of light, recorded once. -/
example : Moves exBoost 1 (fun n => ⟨0, 0, 8 - 3 / 5 * n, 0, 0, -3 / 4, 4 / 5⟩) ∧
    (∃ k, 0 < k ∧ k ≤ 9 ∧ recorded exBoost 1 (⟨12, -20, 100⟩ : Snap ℚ) (fun _ => -3) (fun _ => 20)
      (fun n => ⟨0, 0, 8 - 3 / 5 * n, 0, 0, -3 / 4, 4 / 5⟩) k) := by
  have hm : Moves exBoost 1 (fun n => (⟨0, 0, 8 - 3 / 5 * n, 0, 0, -3 / 4, 4 / 5⟩ : Ptcl ℚ)) :=
    ⟨fun n => by norm_num [exBoost]; ring, fun n => by norm_num [abs_lt]⟩
  refine ⟨hm, ?_⟩
  obtain ⟨k, h1, h2, -, -, h5⟩ := C47_caught exBoost exBoost_ok 1 (by norm_num) ⟨12, -20, 100⟩ _ hm
    (fun _ => -3) (fun _ => 20) 0 9 (by norm_num [exBoost, Snap.zBoost, Boost.invGamma, Boost.invBeta])
    (by norm_num [exBoost, Snap.zBoost, Boost.invGamma, Boost.invBeta])
  refine ⟨k, h1, h2, h5 ?_⟩
  have hk : (k : ℚ) ≤ 9 := by exact_mod_cast h2
  have hk0 : (0 : ℚ) ≤ k := by positivity
  unfold planeInside
  norm_num [exBoost, Snap.zBoost, Snap.zLab, Boost.invGamma, Boost.invBeta]
  refine ⟨?_, ?_, ?_, ?_⟩ <;> linarith

/-- The hypotheses of `C47_ranks` are met by the same particle, first on a rank with the grid from -3 to 20, then on one
with the grid from -30 to 7. -/
example : ∃ k, 0 < k ∧ k ≤ 9 ∧ recorded exBoost 1 (⟨12, -20, 100⟩ : Snap ℚ) (fun n => if n < 4 then -3 else -30)
    (fun n => if n < 4 then 20 else 7) (fun n => ⟨0, 0, 8 - 3 / 5 * n, 0, 0, -3 / 4, 4 / 5⟩) k := by
  have hm : Moves exBoost 1 (fun n => (⟨0, 0, 8 - 3 / 5 * n, 0, 0, -3 / 4, 4 / 5⟩ : Ptcl ℚ)) :=
    ⟨fun n => by norm_num [exBoost]; ring, fun n => by norm_num [abs_lt]⟩
  refine C47_ranks exBoost exBoost_ok 1 (by norm_num) ⟨12, -20, 100⟩ _ hm _ _ 0 9
    (by norm_num [exBoost, Snap.zBoost, Boost.invGamma, Boost.invBeta])
    (by norm_num [exBoost, Snap.zBoost, Boost.invGamma, Boost.invBeta]) ?_ ?_
  · intro k h1 h2
    interval_cases k <;> norm_num [exBoost]
  · intro k h1 h2
    interval_cases k <;> norm_num [exBoost, Snap.zLab, Boost.invGamma, Boost.invBeta]

/-! ### C48 -/

/-- **C48**: the transform of the fields to the lab frame is the Lorentz transform to the frame moving at `-β`. -/
theorem C48_transform (b : Boost K) (hb : IsBoost b) (f : Flds K) : Boosted b f (toLab b f) := by
  have := hb.c.ne'
  simp only [Boosted, toLab]
  refine ⟨trivial, trivial, trivial, trivial, ?_, ?_, ?_, ?_, ?_, ?_⟩ <;> field_simp <;> ring

/-- **C48**: it is the inverse of the transform with the opposite velocity, in both orders. -/
theorem C48_inverse (b : Boost K) (hb : IsBoost b) (f : Flds K) :
    toLab b (toLab { b with beta := -b.beta } f) = f ∧ toLab { b with beta := -b.beta } (toLab b f) = f := by
  have h1 := hb.c.ne'
  have hs := hb.shell
  obtain ⟨Er, Et, Ez, Br, Bt, Bz, Jr, Jt, Jz, rho⟩ := f
  simp only [toLab, Flds.mk.injEq, true_and, and_true]
  refine ⟨⟨?_, ?_, ?_, ?_, ?_, ?_⟩, ⟨?_, ?_, ?_, ?_, ?_, ?_⟩⟩ <;> field_simp
  · first | linear_combination Er * hs | linear_combination Er * b.c * hs
  · first | linear_combination Et * hs | linear_combination Et * b.c * hs
  · first | linear_combination Br * hs | linear_combination Br * b.c * hs
  · first | linear_combination Bt * hs | linear_combination Bt * b.c * hs
  · first | linear_combination Jz * hs | linear_combination Jz * b.c * hs
  · first | linear_combination rho * hs | linear_combination rho * b.c * hs
  · first | linear_combination Er * hs | linear_combination Er * b.c * hs
  · first | linear_combination Et * hs | linear_combination Et * b.c * hs
  · first | linear_combination Br * hs | linear_combination Br * b.c * hs
  · first | linear_combination Bt * hs | linear_combination Bt * b.c * hs
  · first | linear_combination Jz * hs | linear_combination Jz * b.c * hs
  · first | linear_combination rho * hs | linear_combination rho * b.c * hs

/-- **C48**: it preserves `E·B`, `E² - c²B²` and `c²rho² - J²`. -/
theorem C48_invariants (b : Boost K) (hb : IsBoost b) (f : Flds K) :
    let g := toLab b f
    g.Er * g.Br + g.Et * g.Bt + g.Ez * g.Bz = f.Er * f.Br + f.Et * f.Bt + f.Ez * f.Bz ∧
    g.Er ^ 2 + g.Et ^ 2 + g.Ez ^ 2 - b.c ^ 2 * (g.Br ^ 2 + g.Bt ^ 2 + g.Bz ^ 2) =
      f.Er ^ 2 + f.Et ^ 2 + f.Ez ^ 2 - b.c ^ 2 * (f.Br ^ 2 + f.Bt ^ 2 + f.Bz ^ 2) ∧
    b.c ^ 2 * g.rho ^ 2 - (g.Jr ^ 2 + g.Jt ^ 2 + g.Jz ^ 2) = b.c ^ 2 * f.rho ^ 2 - (f.Jr ^ 2 + f.Jt ^ 2 + f.Jz ^ 2) := by
  have h1 := hb.c.ne'
  have hs := hb.shell
  simp only [toLab]
  refine ⟨?_, ?_, ?_⟩ <;> field_simp
  · linear_combination b.c * (f.Er * f.Br + f.Et * f.Bt) * hs
  · linear_combination (f.Er ^ 2 + f.Et ^ 2 - b.c ^ 2 * (f.Br ^ 2 + f.Bt ^ 2)) * hs
  · linear_combination (b.c ^ 2 * f.rho ^ 2 - f.Jz ^ 2) * hs

/-- A non-trivial case: all transverse components mix. -/
example : IsBoost exBoost ∧ toLab exBoost ⟨1, 2, 3, 4, 5, 6, 7, 8, 9, 10⟩ =
    ⟨5, -1 / 2, 3, 7 / 2, 7, 6, 7, 8, 75 / 4, 77 / 4⟩ := by
  refine ⟨exBoost_ok, ?_⟩
  norm_num [toLab, exBoost]

end Fbpic
