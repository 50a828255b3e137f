import Verif.Spec.Antenna
import Verif.Model.LaserPulse
import Verif.Lemmas.DepositLinear
import Verif.Lemmas.RankInterval
import Verif.Props.Deposit
import Verif.Props.BoostConv

/-! # C52: the laser antenna -/

namespace Fbpic

open Antenna BoostConv Spec

/-- **C52** (one rank): all virtual particles of the antenna are in one plane; if its position is in the global domain (with the damp
and injection cells), exactly one rank deposits; else none does. -/
theorem C52_one_rank (a : Ant) (p : VP) (l : List VP) (ha : a.parts = p :: l) (cm : Comm) (hsize : 0 < cm.size)
    (Z dz : ℝ) (hdz : 0 < dz) :
    ∃ (flag : ℕ → Bool) (zmin zmax : ℝ),
      (∀ r, updateCurrentRank a cm Z dz r = .ok { a with onRank := flag r }) ∧
      cm.getZminZmax Z dz false true false none = .ok (zmin, zmax) ∧
      (zmin ≤ p.z ∧ p.z < zmax → ∃ r, r < cm.size ∧ flag r = true ∧ ∀ r', r' < cm.size → flag r' = true → r' = r) ∧
      (¬ (zmin ≤ p.z ∧ p.z < zmax) → ∀ r, r < cm.size → flag r = false) := by
  obtain ⟨zmin, zmax, hg, lo, hi, hloc, hiff, huniq⟩ := Comm.partition cm hsize Z dz hdz true p.z
  refine ⟨fun r => decide (p.z ≥ lo r ∧ p.z < hi r), zmin, zmax, ?_, hg, ?_, ?_⟩
  · intro r
    simp [updateCurrentRank, hloc r, ha, bind, Except.bind, pure, Except.pure]
  · intro hin
    obtain ⟨r, hr, h⟩ := hiff.mp hin
    refine ⟨r, hr, decide_eq_true h, ?_⟩
    intro r' hr' h'
    exact huniq r' r hr' hr (of_decide_eq_true h') h
  · intro hout r hr
    rw [decide_eq_false_iff_not]
    intro h
    exact hout (hiff.mpr ⟨r, hr, h⟩)

/-- Depositing with antennas is depositing the species and, on the rank of the antenna, its negative and positive particles. -/
theorem depositAllWith_eq (k : Consts) (f : DepField) (g : CylGrid) (beta : Shape → ℕ → List ℝ) (m n : ℕ)
    (sps : List DepSpecies) (ants : List Ant) :
    depositAllWith k f g beta m n sps ants = depositAll f k.c g beta m n
      (sps ++ ants.flatMap fun a => if a.onRank then [species k (-1) a, species k 1 a] else []) := by
  have h : ∀ G, ants.foldlM (deposit k f g beta m n) G =
      (ants.flatMap fun a => if a.onRank then [species k (-1) a, species k 1 a] else []).foldlM
        (depositSpecies f k.c g beta m n) G := by
    induction ants with
    | nil => intro G; rfl
    | cons a ants ih =>
      intro G
      rw [List.foldlM_cons, List.flatMap_cons, List.foldlM_append]
      have : deposit k f g beta m n G a = (if a.onRank then [species k (-1) a, species k 1 a] else []).foldlM
          (depositSpecies f k.c g beta m n) G := by
        cases hr : a.onRank <;> simp [deposit, hr, pure, Except.pure]
      rw [this]
      congr 1
      funext G
      exact ih G
  unfold depositAllWith depositAll
  rw [List.foldlM_append]
  simp only [bind_assoc, h]

private theorem pairs_cancel {β : Type} [AddCommGroup β] (V : DepSpecies → β) (k : Consts) (ants : List Ant)
    (hV : ∀ a ∈ ants, V (species k (-1) a) + V (species k 1 a) = 0) :
    ((ants.flatMap fun a => if a.onRank then [species k (-1) a, species k 1 a] else []).map V).sum = 0 := by
  induction ants with
  | nil => simp
  | cons a ants ih =>
    rw [List.flatMap_cons, List.map_append, List.sum_append, ih (fun a ha => hV a (by simp [ha])), add_zero]
    have := hV a (by simp)
    cases a.onRank <;> simp_all

/-- **C52** (neutral): whatever the number, the positions, excursions and velocities of the antennas, the total charge on the grid is
that of the species. -/
theorem C52_neutral (k : Consts) (g : CylGrid) (beta : Shape → ℕ → List ℝ) (n : ℕ) (hn : 0 < n) (sps : List DepSpecies)
    (ants : List Ant) (A : Buf) (hz : 2 ≤ g.Nz) (hr : 2 ≤ g.Nr) (h : depositAllWith k .rho g beta 0 n sps ants = .ok A) :
    ∑ iz ∈ Finset.range g.Nz, ∑ ir ∈ Finset.range g.Nr, A iz ir =
      (((sps.map fun sp => (sp.ptcls.map fun p => sp.q * p.w).sum).sum : ℝ) : ℂ) := by
  rw [depositAllWith_eq] at h
  rw [C23_charge k.c g beta n hn _ A hz hr h, List.map_append, List.sum_append, pairs_cancel, add_zero]
  intro a _
  simp only [species, List.map_map, Function.comp_def]
  rw [← List.sum_map_add]
  simp

/-- **C52** (no net longitudinal current): the same for the total longitudinal current, also for a moving antenna. -/
theorem C52_neutral_current (k : Consts) (g : CylGrid) (beta : Shape → ℕ → List ℝ) (n : ℕ) (hn : 0 < n) (sps : List DepSpecies)
    (ants : List Ant) (A : Buf) (hz : 2 ≤ g.Nz) (hr : 2 ≤ g.Nr) (h : depositAllWith k .Jz g beta 0 n sps ants = .ok A) :
    ∑ iz ∈ Finset.range g.Nz, ∑ ir ∈ Finset.range g.Nr, A iz ir =
      (((sps.map fun sp => (sp.ptcls.map fun p => sp.q * p.w * k.c * p.invGamma * p.uz).sum).sum : ℝ) : ℂ) := by
  rw [depositAllWith_eq] at h
  rw [C23_current k.c g beta n hn _ A hz hr h, List.map_append, List.sum_append, pairs_cancel, add_zero]
  intro a _
  simp only [species, List.map_map, Function.comp_def]
  rw [← List.sum_map_add]
  simp

/-- The contribution of a species to the pairing with a grid function. -/
private noncomputable def contrib (f : DepField) (c : ℝ) (g : CylGrid) (beta : Shape → ℕ → List ℝ) (m : ℕ) (F : Buf)
    (sp : DepSpecies) : ℂ :=
  if sp.q = 0 then 0 else
      (sp.ptcls.map fun p => ((addsOf sp.shape f c sp.q g (beta sp.shape (min m 1)) m p).map
        (addVal g.Nz g.Nr F)).sum).sum

/-- All excursions are zero. -/
def Ant.Superimposed (a : Ant) : Prop := ∀ p ∈ a.parts, p.ex = 0 ∧ p.ey = 0

private theorem contrib_neg (k : Consts) (f : DepField) (g : CylGrid) (beta : Shape → ℕ → List ℝ) (m : ℕ) (F : Buf) (a : Ant)
    (ha : Ant.Superimposed a) :
    contrib f k.c g beta m F (species k (-1) a) =
      (match f with | .rho | .Jz => -1 | .Jr | .Jt => 1) * contrib f k.c g beta m F (species k 1 a) := by
  unfold contrib
  rw [if_neg (by simp [species]), if_neg (by simp [species]), ← List.sum_map_mul_left]
  simp only [species, List.map_map, Function.comp_def]
  congr 1
  refine List.map_congr_left fun p hp => ?_
  obtain ⟨h1, h2⟩ := ha p hp
  unfold addsOf
  rw [← ptclAdds_smul]
  simp only [ h1, h2, mul_zero, add_zero, betaOf, betaIdx]
  congr 3
  unfold scalOf
  simp only
  rw [← modeScal_smul]
  congr 1
  cases f <;> simp [DepField.scal0] <;> ring

/-- **C52** (superimposed pairs): an antenna without excursion adds nothing to the charge density and to the longitudinal current,
in any cell and mode, also when it moves; to the transverse currents it adds twice what its positive particles alone deposit: both signs
deposit the same current. -/
theorem C52_superimposed (k : Consts) (g : CylGrid) (beta : Shape → ℕ → List ℝ) (m n : ℕ) (hn : 0 < n) (sps : List DepSpecies)
    (ants : List Ant) (ha : ∀ a ∈ ants, Ant.Superimposed a) (f : DepField) (A A0 A1 : Buf) (hz : 2 ≤ g.Nz) (hr : 2 ≤ g.Nr)
    (h : depositAllWith k f g beta m n sps ants = .ok A) (h0 : depositAll f k.c g beta m n sps = .ok A0)
    (h1 : depositAll f k.c g beta m n (ants.flatMap fun a => if a.onRank then [species k 1 a] else []) = .ok A1) :
    ∀ iz ir, iz < g.Nz → ir < g.Nr →
      A iz ir = match f with
        | .rho | .Jz => A0 iz ir
        | .Jr | .Jt => A0 iz ir + 2 * A1 iz ir := by
  intro iz ir hiz hir
  rw [depositAllWith_eq] at h
  have e := pair_depositAll f k.c g beta m n hn _ A (fun i j => if i = iz ∧ j = ir then 1 else 0) hz hr h
  have e0 := pair_depositAll f k.c g beta m n hn _ A0 (fun i j => if i = iz ∧ j = ir then 1 else 0) hz hr h0
  have e1 := pair_depositAll f k.c g beta m n hn _ A1 (fun i j => if i = iz ∧ j = ir then 1 else 0) hz hr h1
  rw [pair_indicator _ _ _ _ _ hiz hir] at e e0 e1
  rw [List.map_append, List.sum_append, ← e0] at e
  rw [e, e1]
  clear e e0 e1 h h0 h1
  change A0 iz ir + ((ants.flatMap fun a => if a.onRank then [species k (-1) a, species k 1 a] else []).map
    (contrib f k.c g beta m (fun i j => if i = iz ∧ j = ir then 1 else 0))).sum = _
  have key : ((ants.flatMap fun a => if a.onRank then [species k (-1) a, species k 1 a] else []).map
      (contrib f k.c g beta m (fun i j => if i = iz ∧ j = ir then 1 else 0))).sum =
      (match f with | .rho | .Jz => 0 | .Jr | .Jt => 2) *
      ((ants.flatMap fun a => if a.onRank then [species k 1 a] else []).map
      (contrib f k.c g beta m (fun i j => if i = iz ∧ j = ir then 1 else 0))).sum := by
    induction ants with
    | nil => simp
    | cons a ants ih =>
      rw [List.flatMap_cons, List.flatMap_cons, List.map_append, List.map_append, List.sum_append, List.sum_append,
        ih (fun a h => ha a (by simp [h])), mul_add]
      congr 1
      cases a.onRank
      · simp
      · have := contrib_neg k f g beta m (fun i j => if i = iz ∧ j = ir then 1 else 0) a (ha a (by simp))
        simp only [if_true, List.map_cons, List.map_nil, List.sum_cons, List.sum_nil, add_zero, this]
        cases f <;> simp <;> ring
  rw [key]
  cases f <;> simp <;> rfl

/-- Relation between a virtual particle of the initial antenna and the same one after calls of total duration `T`. -/
private def Later (T : ℝ) (p p' : VP) : Prop :=
  p'.x = p.x ∧ p'.y = p.y ∧ p'.w = p.w ∧ p'.vz = p.vz ∧ p'.z = p.z + T * p.vz

private theorem later_run (k : Consts) (ops : List Op) (a : Ant) :
    (ops.foldl (Op.run k) a).profile = a.profile ∧ (ops.foldl (Op.run k) a).boost = a.boost ∧
    (ops.foldl (Op.run k) a).mobility = a.mobility ∧
    List.Forall₂ (Later (elapsed ops)) a.parts (ops.foldl (Op.run k) a).parts := by
  induction ops generalizing a with
  | nil => exact ⟨rfl, rfl, rfl, List.forall₂_same.mpr fun p _ => by simp [Later, elapsed]⟩
  | cons o ops ih =>
    obtain ⟨h1, h2, h3, h4⟩ := ih (o.run k a)
    rw [List.foldl_cons]
    cases o with
    | push dt xp yp zp =>
      refine ⟨h1, h2, h3, ?_⟩
      simp only [Op.run, Antenna.pushX, List.forall₂_map_left_iff] at h4
      refine h4.imp ?_
      rintro p p' ⟨q1, q2, q3, q4, q5⟩
      refine ⟨q1, q2, q3, q4, ?_⟩
      rw [show p'.z = _ from q5]
      simp only [elapsed]
      ring
    | update t dt =>
      refine ⟨h1, h2, h3, ?_⟩
      simp only [Op.run, Antenna.updateV, List.forall₂_map_left_iff] at h4
      exact h4.imp fun p p' ⟨q1, q2, q3, q4, q5⟩ => ⟨q1, q2, q3, q4, q5⟩

/-- Arguments with which an antenna is made. -/
structure AntArgs where
  profile : ℝ → ℝ → ℝ → ℝ → ℝ × ℝ
  (direction z0 v dr : ℝ)
  (Nr Nm npr : ℕ)
  epsilon : ℝ
  boost : Option Conv

/-- `make` with these arguments. -/
noncomputable def AntArgs.make (x : AntArgs) (k : Consts) : Except PyErr Ant :=
  Antenna.make k x.profile x.direction x.z0 x.v x.dr x.Nr x.Nm x.npr x.epsilon x.boost

private theorem make_ok (x : AntArgs) (k : Consts) (a : Ant) (h : x.make k = .ok a) :
    (∀ b, x.boost = some b → x.v = 0 ∨ b.gamma0 = 1) ∧ a.profile = x.profile ∧ a.boost = x.boost ∧
    a.mobility = mobilityCoef k (2 * x.Nm) x.npr (alphaWeights k (2 * x.Nm) x.npr x.epsilon x.dr) x.dr x.direction x.v x.boost ∧
    ∀ p ∈ a.parts, ∃ j i, p = initPart k (2 * x.Nm) x.npr (alphaWeights k (2 * x.Nm) x.npr x.epsilon x.dr) x.dr x.z0 x.v
      x.boost j i ∧ i < x.Nr * x.npr ∧ j < 2 * x.Nm := by
  unfold AntArgs.make Antenna.make at h
  cases hb : x.boost with
  | none =>
    simp only [hb] at h
    cases h
    refine ⟨by simp, rfl, rfl, rfl, ?_⟩
    intro p hp
    simp only [List.mem_flatMap, List.mem_map, List.mem_range] at hp
    obtain ⟨j, hj, i, hi, rfl⟩ := hp
    exact ⟨j, i, rfl, hi, hj⟩
  | some b =>
    simp only [hb] at h
    split at h
    · cases h
    · rename_i hbad
      cases h
      refine ⟨?_, rfl, rfl, rfl, ?_⟩
      · intro b' hb'
        cases hb'
        by_contra hc
        push Not at hc
        exact hbad (decide_eq_true hc)
      · intro p hp
        simp only [List.mem_flatMap, List.mem_map, List.mem_range] at hp
        obtain ⟨j, hj, i, hi, rfl⟩ := hp
        exact ⟨j, i, rfl, hi, hj⟩

/-- **C52** (plane): after any calls of total duration `T`, all the virtual particles are in the same plane; without boost it has moved
from `z0_antenna` at `v_antenna`, with a boost it is where the lab plane `z0_antenna` is at the boosted time `T`. -/
theorem C52_plane (k : Consts) (hc : k.c ≠ 0) (x : AntArgs) (a : Ant) (h : x.make k = .ok a) (ops : List Op) :
    ∀ p ∈ (ops.foldl (Op.run k) a).parts,
      (x.boost = none → p.z = x.z0 + x.v * elapsed ops) ∧
      (∀ b, x.boost = some b → b.c = k.c → 1 ≤ b.gamma0 →
        ∃ tl, LorentzEvent b.gamma0 b.beta0 k.c tl x.z0 (elapsed ops) p.z) := by
  obtain ⟨-, -, -, -, hp⟩ := make_ok x k a h
  obtain ⟨-, -, -, h4⟩ := later_run k ops a
  intro p hpm
  obtain ⟨q, hq, -, -, -, -, hz⟩ : ∃ q ∈ a.parts, Later (elapsed ops) q p := by
    obtain ⟨i, hi, rfl⟩ := List.getElem_of_mem hpm
    have hl := h4.length_eq
    exact ⟨a.parts[i], List.getElem_mem _, List.forall₂_iff_get.mp h4 |>.2 i (by omega) hi⟩
  obtain ⟨j, i, rfl, -, -⟩ := hp q hq
  rw [hz]
  constructor
  · intro hb
    simp only [initPart, hb]
    by_cases hv : x.v = 0
    · simp [hv]
    · simp [hv]; ring
  · intro b hb hbc hg
    obtain ⟨b1, b2, b3⟩ := C49_boost b hg
    have hg0 : b.gamma0 ≠ 0 := by positivity
    simp only [initPart, hb, Conv.staticLength, Conv.velocity, hbc, LorentzEvent, zero_mul, zero_div, sub_zero, div_one, zero_sub]
    refine ⟨elapsed ops / b.gamma0 + b.beta0 * x.z0 / k.c, ?_, ?_⟩
    · field_simp; ring
    · field_simp
      linear_combination -x.z0 * b3

/-- **C52** (emission event): when the velocities are updated for the time `t + dt/2` and the positions are those at `t` (after calls of
total duration `t`), the profile is evaluated at the antenna plane: without boost at its position and time, with a boost at the lab
position `z0_antenna` and at the lab time of the event. -/
theorem C52_event (k : Consts) (hc : k.c ≠ 0) (x : AntArgs) (a : Ant) (h : x.make k = .ok a) (ops : List Op) (dt : ℝ) :
    ∀ p ∈ (updateV k (ops.foldl (Op.run k) a) (elapsed ops + dt / 2) dt).parts, ∃ X Y,
      (x.boost = none → (p.vx, p.vy) = (a.mobility * (x.profile X Y (x.z0 + x.v * (elapsed ops + dt / 2)) (elapsed ops + dt / 2)).1,
        a.mobility * (x.profile X Y (x.z0 + x.v * (elapsed ops + dt / 2)) (elapsed ops + dt / 2)).2)) ∧
      (∀ b, x.boost = some b → b.c = k.c → 1 ≤ b.gamma0 →
        ∀ tl, LorentzEvent b.gamma0 b.beta0 k.c tl x.z0 (elapsed ops + dt / 2) (p.z + p.vz * (dt / 2)) →
          (p.vx, p.vy) = (a.mobility * (x.profile X Y x.z0 tl).1, a.mobility * (x.profile X Y x.z0 tl).2)) := by
  intro p hp
  simp only [Antenna.updateV, List.mem_map] at hp
  obtain ⟨q, hq, rfl⟩ := hp
  obtain ⟨hpl1, hpl2⟩ := C52_plane k hc x a h ops q hq
  obtain ⟨-, hpr, hbo, -, hin⟩ := make_ok x k a h
  obtain ⟨h1, h2, h3, h4⟩ := later_run k ops a
  obtain ⟨q0, hq0, -, -, -, hvz, -⟩ : ∃ q0 ∈ a.parts, Later (elapsed ops) q0 q := by
    obtain ⟨i, hi, rfl⟩ := List.getElem_of_mem hq
    have hl := h4.length_eq
    exact ⟨a.parts[i], List.getElem_mem _, List.forall₂_iff_get.mp h4 |>.2 i (by omega) hi⟩
  obtain ⟨j, i, rfl, -, -⟩ := hin q0 hq0
  refine ⟨q.x + q.vx * (1 / 2) * dt, q.y + q.vy * (1 / 2) * dt, ?_, ?_⟩
  · intro hb
    have hv : q.vz = x.v := by
      rw [hvz]; simp only [initPart, hb]
      by_cases hv : x.v = 0 <;> simp [hv]
    simp only [h1, h2, h3, hpr, hbo, hb, hv, hpl1 hb]
    rw [show x.z0 + x.v * elapsed ops + x.v * (1 / 2) * dt = x.z0 + x.v * (elapsed ops + dt / 2) by ring]
  · intro b hb hbc hg tl htl
    obtain ⟨b1, b2, b3⟩ := C49_boost b hg
    simp only [h1, h2, h3, hpr, hbo, hb]
    obtain ⟨e1, e2⟩ := htl
    simp only at e1 e2
    have hz : b.gamma0 * (q.z + q.vz * (1 / 2) * dt + k.c * b.beta0 * (elapsed ops + dt / 2)) = x.z0 := by
      rw [show q.z + q.vz * (1 / 2) * dt = q.z + q.vz * (dt / 2) by ring, e2, e1]
      field_simp
      linear_combination x.z0 * b3
    have ht : b.gamma0 * (elapsed ops + dt / 2 + 1 / k.c * b.beta0 * (q.z + q.vz * (1 / 2) * dt)) = tl := by
      rw [show q.z + q.vz * (1 / 2) * dt = q.z + q.vz * (dt / 2) by ring, e2, e1]
      field_simp
      first | linear_combination tl * b3 | linear_combination tl * k.c * b3
    rw [hz, ht]

/-- Example for `C52_neutral`, `C52_superimposed`: an antenna on this rank whose pairs have an excursion, next to a species. -/
private noncomputable def exAnt : Ant :=
  ⟨fun _ _ _ _ => (0, 0), none, 1, [⟨1, 0, 3, 2, 1 / 100, 0, 1 / 2, 0, 0⟩, ⟨0, 2, 3, 2, 0, 1 / 50, 0, 1 / 4, 0⟩], true⟩

example : ∃ A, depositAllWith ⟨1, 1, 1, 1⟩ .rho ⟨1, 0, 8, 1, 0, 4⟩ (fun _ _ => List.replicate 5 0) 0 3
    [⟨-1, .cubic, [⟨1, 1, 4, 3, 0, 0, 0, 1⟩]⟩] [exAnt] = .ok A := by
  rw [depositAllWith_eq]
  refine C24_deposit_partial _ _ _ _ _ _ (by norm_num) _ (by simp) (by norm_num) rfl ?_
  intro sp hsp p hp
  simp [exAnt] at hsp
  rcases hsp with rfl | rfl | rfl <;> simp [species] at hp
  · subst hp; norm_num [Shape.reach]
  · rcases hp with rfl | rfl <;> norm_num [Shape.reach, species]
  · rcases hp with rfl | rfl <;> norm_num [Shape.reach, species]

/-! ### C64: amplitude and polarity of the emitted field -/

/-- Current per unit length along x of the sheet at a virtual particle: current of the negative and the positive particle of the pair,
as passed to the deposition, over the area that the pair stands for. -/
noncomputable def sheetCurrent (k : Consts) (x : AntArgs) (p : VP) : ℝ :=
  ((-1) * p.w * k.c * ((-1) * p.vx / k.c) + 1 * p.w * k.c * (1 * p.vx / k.c)) /
    (x.dr / x.npr * (2 * Real.pi / (2 * x.Nm : ℕ) * Real.sqrt (p.x ^ 2 + p.y ^ 2)))

private theorem sheet_solve (c eps0 v K Ef Eb : ℝ) (hc : 0 < c) (he : 0 < eps0) (h : SheetEmits c eps0 v K Ef Eb) :
    K = -(2 * eps0 * (c - v)) * Ef ∧ K = -(2 * eps0 * (c + v)) * Eb := by
  obtain ⟨h1, h2⟩ := h
  have hc' := hc.ne'
  have he' := he.ne'
  have h3 : Ef * (c - v) = Eb * (c + v) := by
    field_simp at h1; linarith
  have h4 : K = -(eps0 * (c * (Ef + Eb) - v * (Ef - Eb))) := by
    have : K = -(eps0 * c ^ 2) * (-(1 / (eps0 * c ^ 2)) * K) := by field_simp
    rw [this, ← h2]; field_simp; ring
  constructor
  · rw [h4]; linear_combination eps0 * h3
  · rw [h4]; linear_combination -eps0 * h3

private theorem sheet_value (k : Consts) (x : AntArgs) (a : Ant) (h : x.make k = .ok a) (ops : List Op) (hre : k.re ≠ 0) (he : k.e ≠ 0)
    (hdr : 0 < x.dr) (hnpr : 0 < x.npr) (heps : x.epsilon ≠ 0) (p : VP)
    (hp : p ∈ (ops.foldl (Op.run k) a).parts) (hc : k.c ≠ 0) (Ex : ℝ) (hE : p.vx = a.mobility * Ex) :
    sheetCurrent k x p = 2 * k.eps0 * k.c * Ex * (match x.boost with | some b => 1 / b.gamma0 | none => 1 - x.direction * x.v / k.c) ∧
    p.vz = (match x.boost with | some b => b.velocity 0 | none => x.v) := by
  obtain ⟨-, -, -, hmob, hin⟩ := make_ok x k a h
  obtain ⟨-, -, -, h4⟩ := later_run k ops a
  obtain ⟨q, hq, hx, hy, hw, hvz, -⟩ : ∃ q ∈ a.parts, Later (elapsed ops) q p := by
    obtain ⟨i, hi, rfl⟩ := List.getElem_of_mem hp
    have hl := h4.length_eq
    exact ⟨a.parts[i], List.getElem_mem _, List.forall₂_iff_get.mp h4 |>.2 i (by omega) hi⟩
  obtain ⟨j, i, rfl, -, hj⟩ := hin q hq
  have hNm : ((2 * x.Nm : ℕ) : ℝ) ≠ 0 := by
    have : 2 * x.Nm ≠ 0 := by omega
    exact_mod_cast this
  have hnpr' : (x.npr : ℝ) ≠ 0 := by exact_mod_cast hnpr.ne'
  have hpi := Real.pi_ne_zero
  have hal : alphaWeights k (2 * x.Nm) x.npr x.epsilon x.dr ≠ 0 := by
    unfold alphaWeights
    have := hdr.ne'
    positivity
  constructor
  · set r : ℝ := x.dr / x.npr * (i + 1 / 2) with hr
    have hrpos : 0 < r := by
      have : (0 : ℝ) < x.npr := by exact_mod_cast hnpr
      positivity
    have hsq : Real.sqrt (p.x ^ 2 + p.y ^ 2) = r := by
      rw [hx, hy]
      simp only [initPart, ← hr]
      rw [show ∀ θ : ℝ, (r * Real.cos θ) ^ 2 + (r * Real.sin θ) ^ 2 = r ^ 2 by
        intro θ; linear_combination r ^ 2 * Real.sin_sq_add_cos_sq θ]
      exact Real.sqrt_sq hrpos.le
    unfold sheetCurrent
    rw [hsq, hE, hw, hmob]
    simp only [initPart, ← hr, mobilityCoef]
    generalize alphaWeights k (2 * x.Nm) x.npr x.epsilon x.dr = al at *
    have := hdr.ne'
    have := hrpos.ne'
    clear_value r
    generalize ((2 * x.Nm : ℕ) : ℝ) = nt at *
    cases x.boost with
    | none => simp only; field_simp; ring
    | some b => simp only; field_simp; ring
  · rw [hvz]
    simp only [initPart]
    cases x.boost with
    | none => by_cases hv : x.v = 0 <;> simp [hv]
    | some b => rfl

/-- **C64** (partial): in the lab frame, with an antenna at rest or moving, and in a boosted frame, the wave that the antenna emits in the
direction of propagation has the requested amplitude, but the opposite sign: `-Ex`, where `Ex` is the value of the profile from which
the velocity was computed (see `C52_event`). -/
theorem C64_emitted_partial (k : Consts) (x : AntArgs) (a : Ant) (h : x.make k = .ok a) (ops : List Op) (hc : 0 < k.c)
    (he0 : 0 < k.eps0) (hre : k.re ≠ 0) (he : k.e ≠ 0) (hdr : 0 < x.dr) (hnpr : 0 < x.npr) (heps : x.epsilon ≠ 0)
    (hdir : x.direction = 1 ∨ x.direction = -1) (p : VP) (hp : p ∈ (ops.foldl (Op.run k) a).parts) (Ex : ℝ)
    (hE : p.vx = a.mobility * Ex) (Ef Eb : ℝ) (hem : SheetEmits k.c k.eps0 p.vz (sheetCurrent k x p) Ef Eb) :
    let emitted := if x.direction = 1 then Ef else Eb
    (x.boost = none → |x.v| < k.c → emitted = -Ex) ∧
    (∀ b, x.boost = some b → b.c = k.c → 1 ≤ b.gamma0 →
      emitted = -boostFields b.gamma0 b.beta0 k.c (planeWave k.c x.direction Ex) .Ex) := by
  obtain ⟨h1, h2⟩ := sheet_solve _ _ _ _ _ _ hc he0 hem
  obtain ⟨hK, hvz⟩ := sheet_value k x a h ops hre he hdr hnpr heps p hp hc.ne' Ex hE
  rw [hK, hvz] at h1 h2
  have hc' := hc.ne'
  have he0' := he0.ne'
  constructor
  · intro hb hv
    obtain ⟨v1, v2⟩ := abs_lt.mp hv
    simp only [hb] at h1 h2
    rcases hdir with hd | hd
    · rw [if_pos hd]
      rw [hd] at h1
      have : k.c - x.v ≠ 0 := by linarith
      have e : 2 * k.eps0 * (k.c - x.v) * (Ef + Ex) = 0 := by
        have e0 : 2 * k.eps0 * k.c * Ex * (1 - 1 * x.v / k.c) = 2 * k.eps0 * Ex * (k.c - x.v) := by field_simp
        rw [e0] at h1; linarith
      simp only [mul_eq_zero, he0', this, OfNat.ofNat_ne_zero, false_or, or_false] at e
      linarith
    · rw [if_neg (by rw [hd]; norm_num)]
      rw [hd] at h2
      have : k.c + x.v ≠ 0 := by linarith
      have e : 2 * k.eps0 * (k.c + x.v) * (Eb + Ex) = 0 := by
        have e0 : 2 * k.eps0 * k.c * Ex * (1 - -1 * x.v / k.c) = 2 * k.eps0 * Ex * (k.c + x.v) := by field_simp; ring
        rw [e0] at h2; linarith
      simp only [mul_eq_zero, he0', this, OfNat.ofNat_ne_zero, false_or, or_false] at e
      linarith
  · intro b hb hbc hg
    obtain ⟨b1, b2, b3⟩ := C49_boost b hg
    have hg0 : b.gamma0 ≠ 0 := by positivity
    simp only [hb, Conv.velocity, hbc, zero_mul, zero_div, sub_zero, div_one, zero_sub] at h1 h2
    simp only [boostFields, planeWave]
    rcases hdir with hd | hd
    · rw [if_pos hd, hd]
      have e : Ex = -(b.gamma0 * (1 + b.beta0)) * Ef := by
        have : 2 * k.eps0 * k.c * (Ex + b.gamma0 * (1 + b.beta0) * Ef) = 0 := by
          field_simp at h1; linear_combination 2 * k.eps0 * k.c * h1
        simp only [mul_eq_zero, he0', hc', OfNat.ofNat_ne_zero, false_or] at this
        linarith
      rw [e]
      field_simp
      linear_combination -Ef * b3
    · rw [if_neg (by rw [hd]; norm_num), hd]
      have e : Ex = -(b.gamma0 * (1 - b.beta0)) * Eb := by
        have : 2 * k.eps0 * k.c * (Ex + b.gamma0 * (1 - b.beta0) * Eb) = 0 := by
          field_simp at h2; linear_combination 2 * k.eps0 * k.c * h2
        simp only [mul_eq_zero, he0', hc', OfNat.ofNat_ne_zero, false_or] at this
        linarith
      rw [e]
      field_simp
      linear_combination -Eb * b3

/-- **C64** (violated): the antenna at rest in the lab never emits the requested field, except where this field is zero. -/
theorem C64_violated (k : Consts) (x : AntArgs) (a : Ant) (h : x.make k = .ok a) (ops : List Op) (hc : 0 < k.c)
    (he0 : 0 < k.eps0) (hre : k.re ≠ 0) (he : k.e ≠ 0) (hdr : 0 < x.dr) (hnpr : 0 < x.npr) (heps : x.epsilon ≠ 0)
    (hdir : x.direction = 1) (hb : x.boost = none) (hv : x.v = 0) (p : VP) (hp : p ∈ (ops.foldl (Op.run k) a).parts) (Ex : ℝ)
    (hE : p.vx = a.mobility * Ex) (hne : Ex ≠ 0) (Ef Eb : ℝ)
    (hem : SheetEmits k.c k.eps0 p.vz (sheetCurrent k x p) Ef Eb) : Ef ≠ Ex := by
  have := (C64_emitted_partial k x a h ops hc he0 hre he hdr hnpr heps (Or.inl hdir) p hp Ex hE Ef Eb hem).1 hb (by simp [hv, hc])
  rw [if_pos hdir] at this
  rw [this]
  intro h
  exact hne (by linarith)

/-- One iteration for an antenna: new velocities for the time `s.1`, then a push over the time step `s.2`. -/
noncomputable def antennaStep (k : Consts) (a : Ant) (s : ℝ × ℝ) : Ant := Antenna.pushX (updateV k a s.1 s.2) s.2 1 1 1

private theorem excursion_run (k : Consts) (steps : List (ℝ × ℝ)) (a : Ant) (z0 : ℝ) (hb : a.boost = none)
    (hz : ∀ p ∈ a.parts, p.z = z0 ∧ p.vz = 0) (p : VP) (hp : p ∈ (steps.foldl (antennaStep k) a).parts) :
    ∃ q ∈ a.parts, ∃ l : List (ℝ × ℝ), List.Forall₂ (fun s E => ∃ X Y, E = a.profile X Y z0 s.1) steps l ∧
      p.ex = q.ex + a.mobility * (List.zipWith (fun s E => s.2 * E.1) steps l).sum ∧
      p.ey = q.ey + a.mobility * (List.zipWith (fun s E => s.2 * E.2) steps l).sum := by
  induction steps generalizing a with
  | nil => exact ⟨p, hp, [], .nil, by simp⟩
  | cons s steps ih =>
    obtain ⟨q, hq, l, hl, h1, h2⟩ := ih (antennaStep k a s) hb (by
      intro q hq
      simp only [antennaStep, Antenna.pushX, Antenna.updateV, List.map_map, List.mem_map, Function.comp] at hq
      obtain ⟨r, hr, rfl⟩ := hq
      obtain ⟨hr1, hr2⟩ := hz r hr
      exact ⟨by simp [hr1, hr2], hr2⟩) hp
    simp only [antennaStep, Antenna.pushX, Antenna.updateV, List.map_map, List.mem_map, Function.comp, hb] at hq
    obtain ⟨r, hr, rfl⟩ := hq
    obtain ⟨hr1, hr2⟩ := hz r hr
    refine ⟨r, hr, a.profile (r.x + r.vx * (1 / 2) * s.2) (r.y + r.vy * (1 / 2) * s.2) z0 s.1 :: l, ?_, ?_, ?_⟩
    · exact .cons ⟨_, _, rfl⟩ hl
    · rw [h1]
      simp only [hr1, hr2, List.zipWith_cons_cons, List.sum_cons, antennaStep, Antenna.pushX, Antenna.updateV]
      ring_nf
    · rw [h2]
      simp only [hr1, hr2, List.zipWith_cons_cons, List.sum_cons, antennaStep, Antenna.pushX, Antenna.updateV]
      ring_nf

/-- **C64** (excursion): in the lab frame the virtual particles of an antenna at rest move, whatever the number of particles, by
`epsilon*dr/(4 pi)` times the time integral of the requested field in units of `m c/e`, i.e. times the normalized vector potential. (The
documentation says that no particle moves by more than `epsilon*dr`: true while the normalized vector potential is below `4 pi`.) -/
theorem C64_excursion (k : Consts) (x : AntArgs) (a : Ant) (h : x.make k = .ok a) (me : ℝ) (hc : 0 < k.c) (he0 : 0 < k.eps0) (he : 0 < k.e)
    (hme : 0 < me) (hre : k.re = k.e ^ 2 / (4 * Real.pi * k.eps0 * me * k.c ^ 2)) (hdr : 0 < x.dr) (hnpr : 0 < x.npr)
    (heps : 0 < x.epsilon) (hb : x.boost = none) (hv : x.v = 0) (steps : List (ℝ × ℝ)) (p : VP)
    (hp : p ∈ (steps.foldl (antennaStep k) a).parts) :
    ∃ l : List (ℝ × ℝ), List.Forall₂ (fun s E => ∃ X Y, E = x.profile X Y x.z0 s.1) steps l ∧
      p.ex = x.epsilon * x.dr / (4 * Real.pi) * (k.e / (me * k.c) * (List.zipWith (fun s E => s.2 * E.1) steps l).sum) ∧
      p.ey = x.epsilon * x.dr / (4 * Real.pi) * (k.e / (me * k.c) * (List.zipWith (fun s E => s.2 * E.2) steps l).sum) := by
  obtain ⟨-, hpr, hbo, hmob, hin⟩ := make_ok x k a h
  obtain ⟨q, hq, l, hl, h1, h2⟩ := excursion_run k steps a x.z0 (hbo.trans hb) (by
    intro p hp
    obtain ⟨j, i, rfl, -⟩ := hin p hp
    simp [initPart, hb, hv]) p hp
  obtain ⟨j, i, rfl, -, hj⟩ := hin q hq
  have hNm : ((2 * x.Nm : ℕ) : ℝ) ≠ 0 := by
    have : 2 * x.Nm ≠ 0 := by omega
    exact_mod_cast this
  have hnpr' : (x.npr : ℝ) ≠ 0 := by exact_mod_cast hnpr.ne'
  have hm : a.mobility = x.epsilon * x.dr / (4 * Real.pi) * (k.e / (me * k.c)) := by
    rw [hmob]
    simp only [mobilityCoef, alphaWeights, hb, hv, hre]
    generalize ((2 * x.Nm : ℕ) : ℝ) = nt at *
    have := Real.pi_pos
    field_simp
    ring
  rw [hpr] at hl
  refine ⟨l, hl, ?_, ?_⟩
  · rw [h1, hm]; simp only [initPart]; ring
  · rw [h2, hm]; simp only [initPart]; ring

/-- Hypotheses of `C64_excursion` in units with `c = e = m = epsilon_0 = 1`: an antenna of two virtual particles. -/
example : ∃ a, (AntArgs.mk (fun _ _ _ t => (t, 0)) 1 0 0 1 1 1 1 (1 / 100) none).make ⟨1, 1, 1 / (4 * Real.pi), 1⟩ = .ok a ∧
    a.parts.length = 2 ∧ (1 / (4 * Real.pi) : ℝ) = 1 ^ 2 / (4 * Real.pi * 1 * 1 * 1 ^ 2) :=
  ⟨_, rfl, by simp [List.range_succ], by ring⟩

/-- **C64** (through the API): whatever the arguments, an antenna that `add_laser_pulse` accepts emits the requested amplitude (with the
opposite sign) in the requested direction, for a lab frame simulation (`gamma_boost` missing or 1) from the plane that starts at
`z0_antenna` and moves at `v_antenna`; in a boosted frame it is accepted only at rest and emitting forward. -/
theorem C64_pulse (k : Consts) (dr : ℝ) (Nr Nm : ℕ) (x : LaserPulse.Args) (a : Ant)
    (h : LaserPulse.addLaserPulse k dr Nr Nm x = .ok (.antenna a)) (ops : List Op) (hc : 0 < k.c) (he0 : 0 < k.eps0) (hre : k.re ≠ 0)
    (he : k.e ≠ 0) (hdr : 0 < dr) (hdir : x.direction = 1 ∨ x.direction = -1) :
    ∃ y : AntArgs, y.make k = .ok a ∧ x.z0 = some y.z0 ∧ y.v = x.v ∧
      ∀ p ∈ (ops.foldl (Op.run k) a).parts, ∀ Ex, p.vx = a.mobility * Ex → ∀ Ef Eb,
        SheetEmits k.c k.eps0 p.vz (sheetCurrent k y p) Ef Eb →
        ((x.gammaBoost = none ∨ x.gammaBoost = some 1) → p.z = y.z0 + x.v * elapsed ops ∧
          (|x.v| < k.c → (if x.direction = 1 then Ef else Eb) = -Ex)) ∧
        (∀ g, x.gammaBoost = some g → 1 < g → x.direction = 1 ∧ x.v = 0 ∧
          (∃ tl, LorentzEvent g (Conv.beta0 ⟨k.c, g⟩) k.c tl y.z0 (elapsed ops) p.z) ∧
          Ef = -boostFields g (Conv.beta0 ⟨k.c, g⟩) k.c (planeWave k.c 1 Ex) .Ex) := by
  unfold LaserPulse.addLaserPulse at h
  have key : ∃ boost : Option Conv, ∃ z0, x.z0 = some z0 ∧
      Antenna.make k x.profile x.direction z0 x.v dr Nr Nm 2 (1 / 100) boost = .ok a ∧
      ((x.gammaBoost = none ∨ x.gammaBoost = some 1) → boost = none) ∧
      (∀ g, x.gammaBoost = some g → 1 < g → x.direction = 1 ∧ boost = some ⟨k.c, g⟩) := by
    have fin : ∀ boost : Option Conv,
        (if x.method = "direct" then
            if x.isLasy = true then
              throw (PyErr.runtimeError "A laser profile from a `lasy` file cannot be emitted with the `direct` method.")
            else (pure (LaserPulse.Pulse.direct boost) : Except PyErr LaserPulse.Pulse)
          else if x.method = "antenna" then
            match x.z0 with
            | none => throw (.valueError "You need to provide `z0_antenna`.")
            | some z0 =>
              if x.isLasy = true ∧ x.v ≠ 0 then
                throw (.runtimeError "A laser profile from a `lasy` file cannot be emitted with a moving antenna.")
              else do
                let a ← Antenna.make k x.profile x.direction z0 x.v dr Nr Nm 2 (1 / 100) boost
                return .antenna a
          else throw (.valueError "Unknown laser method")) = .ok (.antenna a) →
        ∃ z0, x.z0 = some z0 ∧ Antenna.make k x.profile x.direction z0 x.v dr Nr Nm 2 (1 / 100) boost = .ok a := by
      intro boost h
      split at h
      · split at h <;> cases h
      · split at h
        · split at h
          · cases h
          · rename_i z0 hz0
            split at h
            · cases h
            · refine ⟨z0, hz0, ?_⟩
              cases hm : Antenna.make k x.profile x.direction z0 x.v dr Nr Nm 2 (1 / 100) boost with
              | error e => rw [hm] at h; cases h
              | ok a' => rw [hm] at h; cases h; rfl
        · cases h
    cases hg : x.gammaBoost with
    | none =>
      rw [hg] at h
      obtain ⟨z0, h1, h2⟩ := fin none h
      exact ⟨none, z0, h1, h2, fun _ => rfl, by simp⟩
    | some g =>
      rw [hg] at h
      by_cases hg1 : g = 1
      · simp only [hg1, ne_eq, not_true_eq_false, if_false] at h
        obtain ⟨z0, h1, h2⟩ := fin none h
        refine ⟨none, z0, h1, h2, fun _ => rfl, ?_⟩
        intro g' e hlt
        cases e
        exact absurd hlt (by rw [hg1]; exact lt_irrefl _)
      · simp only [ne_eq, hg1, not_false_eq_true, if_true] at h
        by_cases hd : x.direction = 1
        · simp only [hd, if_true] at h
          obtain ⟨z0, h1, h2⟩ := fin (some ⟨k.c, g⟩) (by rw [hd]; exact h)
          refine ⟨some ⟨k.c, g⟩, z0, h1, h2, ?_, ?_⟩
          · rintro (e | e)
            · cases e
            · exact absurd (Option.some.inj e) hg1
          · intro g' e _
            cases e
            exact ⟨hd, rfl⟩
        · simp only [hd, if_false] at h
          cases h
  obtain ⟨boost, z0, hz0, hmk, hn, hs⟩ := key
  let y : AntArgs := ⟨x.profile, x.direction, z0, x.v, dr, Nr, Nm, 2, 1 / 100, boost⟩
  have hmk : y.make k = .ok a := hmk
  refine ⟨y, hmk, hz0, rfl, ?_⟩
  intro p hp Ex hE Ef Eb hem
  have hem' := C64_emitted_partial k y a hmk ops hc he0 hre he hdr (by norm_num [y]) (by norm_num [y]) hdir p hp Ex hE Ef Eb hem
  have hpl := C52_plane k hc.ne' y a hmk ops p hp
  constructor
  · intro hg
    exact ⟨hpl.1 (hn hg), fun hv => hem'.1 (hn hg) hv⟩
  · intro g hg hlt
    obtain ⟨hd, hb⟩ := hs g hg hlt
    have hv := (make_ok y k a hmk).1 _ hb
    refine ⟨hd, ?_, hpl.2 _ hb rfl hlt.le, ?_⟩
    · rcases hv with hv | hv
      · exact hv
      · exact absurd hv hlt.ne'
    · have := hem'.2 _ hb rfl hlt.le
      simp only [y, hd, if_true] at this
      exact this

/-- Example: all constants 1, an antenna of two angles and two radii that moves at half the speed of light. -/
private noncomputable def exArgs : AntArgs :=
  ⟨fun _ _ z t => (z - t, 0), 1, 3, 1 / 2, 1, 1, 1, 2, 1 / 100, none⟩

example : ∃ a, exArgs.make ⟨1, 1, 1, 1⟩ = .ok a ∧ a.parts.length = 4 ∧ |exArgs.v| < 1 ∧ exArgs.direction = 1 := by
  refine ⟨_, rfl, ?_, ?_, rfl⟩
  · simp [exArgs]
  · norm_num [exArgs, abs_of_pos]

/-- The hypothesis of `C64_pulse` is met by a moving antenna in the lab, and by an antenna in a boosted frame. -/
example : (∃ a, LaserPulse.addLaserPulse ⟨1, 1, 1, 1⟩ 1 1 1 ⟨exArgs.profile, -1, false, some 1, "antenna", some 3, 1 / 2⟩ = .ok (.antenna a)) ∧
    (∃ a, LaserPulse.addLaserPulse ⟨1, 1, 1, 1⟩ 1 1 1 ⟨exArgs.profile, 1, true, some 5, "antenna", some 3, 0⟩ = .ok (.antenna a)) := by
  constructor <;>
  simp [LaserPulse.addLaserPulse, Antenna.make, pure, Except.pure, bind, Except.bind]

/-- The emitted waves of a sheet exist for every current. -/
example (K : ℝ) : ∃ Ef Eb, SheetEmits 1 1 (1 / 2) K Ef Eb :=
  ⟨-K, -K / 3, by constructor <;> ring⟩

end Fbpic
