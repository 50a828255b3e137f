import Verif.Spec.Mirror
import Verif.Lemmas.Comm
import Verif.Lemmas.Prelude
import Verif.Lemmas.Tactics

/-! # C51: mirrors -/

namespace Fbpic

open Mirror Spec

/-- **C51** (position): the faces of the mirror are at rest in the lab: in the boosted frame they are where the lab planes are at
the boosted time `t`. -/
theorem C51_position (c : ℝ) (hc : c ≠ 0) (γ : ℝ) (hγ : 1 ≤ γ) (t z : ℝ) :
    ∃ tl, LorentzEvent γ (Real.sqrt (1 - 1 / γ ^ 2)) c tl z t (position c (some γ) t z) := by
  have hsh : γ ^ 2 * (1 - Real.sqrt (1 - 1 / γ ^ 2) ^ 2) = 1 := by
    rw [Real.sq_sqrt (by rw [sub_nonneg, div_le_one (by positivity)]; nlinarith)]
    field_simp; ring
  simp only [position, LorentzEvent]
  generalize Real.sqrt (1 - 1 / γ ^ 2) = b at *
  refine ⟨t / γ + b * z / c, ?_, ?_⟩
  · field_simp; ring
  · field_simp
    linear_combination -z * hsh

private theorem mem_fieldlist (g : Grid) (a : Arr) : a ∈ fieldlist g ↔ isEB g.usePml a := by
  unfold fieldlist isEB
  cases hp : g.usePml <;> cases a <;> simp

private theorem rows_iff (zs ze zmin dz : ℝ) (hdz : 0 < dz) (hz : zmin ≤ zs) (iz : ℕ) :
    (max (pyInt ((zs - zmin) / dz) - pyInt ((ze - zs) / dz)) 0 ≤ (iz : ℤ) ∧ (iz : ℤ) < pyInt ((zs - zmin) / dz)) ↔
      Before zs (pyInt ((ze - zs) / dz)) zmin dz iz := by
  have h0 : 0 ≤ (zs - zmin) / dz := div_nonneg (by linarith) hdz.le
  rw [pyInt_of_nonneg h0]
  generalize pyInt ((ze - zs) / dz) = n
  have hs : zs = zmin + (zs - zmin) / dz * dz := by field_simp; ring
  generalize hS : (zs - zmin) / dz = S at *
  unfold Before
  rw [hs]
  have e1 : (zmin + ((iz : ℝ) + 1) * dz ≤ zmin + S * dz) ↔ (iz : ℝ) + 1 ≤ S := by
    rw [add_le_add_iff_left, mul_le_mul_iff_left₀ hdz]
  have e2 : (zmin + S * dz - n * dz < zmin + ((iz : ℝ) + 1) * dz) ↔ S < (iz : ℝ) + 1 + n := by
    constructor
    · intro h; by_contra h'; push Not at h'; nlinarith
    · intro h; nlinarith
  rw [e1, e2]
  have e3 : (iz : ℝ) + 1 ≤ S ↔ (iz : ℤ) + 1 ≤ ⌊S⌋ := by rw [Int.le_floor]; push_cast; rfl
  have e4 : S < (iz : ℝ) + 1 + n ↔ ⌊S⌋ < (iz : ℤ) + 1 + n := by rw [Int.floor_lt]; push_cast; rfl
  rw [e3, e4]
  omega

/-- **C51** (partial): what a mirror does on a rank. The limits of the local grid (with guard and damp cells) are `zmin`, `zmax`. If
the start of the mirror is inside, E and B of the selected modes are zero in the slab of `int((z_end - z_start)/dz)` cells just *before*
the start of the mirror (not between its start and its end, see `C51_violated`); everything else is unchanged. If the start is outside
of the local grid, nothing is changed on this rank. -/
theorem C51_zeroed_partial (c : ℝ) (zS zE : ℝ) (g : Option ℝ) (modes : ModeArg) (M : Mir) (hM : make zS zE g modes = .ok M)
    (cm : Comm) (zminGlobal dz : ℝ) (hdz : 0 < dz) (rank : ℕ) (t : ℝ) (interp : List Grid) (zmin zmax : ℝ)
    (hz : cm.getZminZmax zminGlobal dz true true true (some rank) = .ok (zmin, zmax)) :
    ∃ interp', setFieldsToZero c M cm zminGlobal dz rank t interp = .ok interp' ∧
      let zs := position c g t zS
      let ze := position c g t zE
      (zmin ≤ zs → zs < zmax → ZeroedIn (Before zs (pyInt ((ze - zs) / dz)) zmin dz) modes interp interp') ∧
      (¬ (zmin ≤ zs ∧ zs < zmax) → interp' = interp) := by
  have hMz : M.zStart = zS ∧ M.zEnd = zE ∧ M.gammaBoost = g ∧
      ∀ i, M.selects i = true ↔ wanted modes i := by
    cases modes <;> simp [make] at hM <;> subst hM <;> simp [wanted, Mir.selects]
  obtain ⟨h1, h2, h3, h4⟩ := hMz
  unfold setFieldsToZero
  rw [hz, h1, h2, h3]
  simp only [bind, Except.bind, pure, Except.pure, cells]
  by_cases hin : zmin ≤ position c g t zS ∧ position c g t zS < zmax
  · rw [if_neg (by push Not; exact hin)]
    refine ⟨_, rfl, ?_, fun h => absurd hin h⟩
    intro _ _
    refine ⟨by simp, ?_⟩
    intro i gr gr' hi hi'
    rw [List.getElem?_mapIdx, hi] at hi'
    simp only [Option.map_some, Option.some.injEq] at hi'
    subst hi'
    by_cases hw : wanted modes i
    · rw [if_pos ((h4 i).mpr hw)]
      refine ⟨rfl, ?_⟩
      intro a iz ir
      by_cases ha : isEB gr.usePml a
      · have : a ∈ fieldlist gr := (mem_fieldlist gr a).mpr ha
        have hrow := rows_iff (position c g t zS) (position c g t zE) zmin dz hdz hin.1 iz
        simp only [this, if_true, zeroRows]
        constructor
        · rintro ⟨h, -, -⟩; rw [if_pos (hrow.mpr h)]
        · intro h; rw [if_neg (fun h' => h ⟨hrow.mp h', hw, ha⟩)]
      · have : a ∉ fieldlist gr := fun h => ha ((mem_fieldlist gr a).mp h)
        simp only [this, if_false]
        exact ⟨fun h => absurd h.2.2 ha, fun _ => trivial⟩
    · rw [if_neg (fun h => hw ((h4 i).mp h))]
      exact ⟨rfl, fun a iz ir => ⟨fun h => absurd h.2.1 hw, fun _ => rfl⟩⟩
  · rw [if_pos (by by_contra h'; push Not at h'; exact hin h')]
    exact ⟨interp, rfl, fun h h' => absurd ⟨h, h'⟩ hin, fun _ => rfl⟩

/-- **C51** (violated): for every mirror at least one cell thick whose start is inside the grid, no cell with its centre between start and
end is touched, and there is a cell before the start that is set to zero. -/
theorem C51_violated (c : ℝ) (zS zE : ℝ) (g : Option ℝ) (modes : ModeArg) (M : Mir) (hM : make zS zE g modes = .ok M)
    (cm : Comm) (zminGlobal dz : ℝ) (hdz : 0 < dz) (rank : ℕ) (t : ℝ) (gr : Grid) (zmin zmax : ℝ)
    (hz : cm.getZminZmax zminGlobal dz true true true (some rank) = .ok (zmin, zmax)) (hm : wanted modes 0)
    (hin : zmin + dz ≤ position c g t zS) (hin' : position c g t zS < zmax)
    (hthick : dz ≤ position c g t zE - position c g t zS) :
    ∃ gr', setFieldsToZero c M cm zminGlobal dz rank t [gr] = .ok [gr'] ∧
      (∀ iz, Between (position c g t zS) (position c g t zE) zmin dz iz → ∀ a, gr'.arr a iz = gr.arr a iz) ∧
      ∃ iz, ¬ Between (position c g t zS) (position c g t zE) zmin dz iz ∧ ∀ a ir, isEB gr.usePml a → gr'.arr a iz ir = 0 := by
  obtain ⟨interp', h, hzero, -⟩ := C51_zeroed_partial c zS zE g modes M hM cm zminGlobal dz hdz rank t [gr] zmin zmax hz
  obtain ⟨hl, hzero⟩ := hzero (by linarith) hin'
  obtain ⟨gr', rfl⟩ : ∃ g', interp' = [g'] := List.length_eq_one_iff.mp (by simpa using hl)
  obtain ⟨-, hzero⟩ := hzero 0 gr gr' rfl rfl
  have hS : (position c g t zS - zmin) / dz * dz = position c g t zS - zmin := by field_simp
  have hS1 : 1 ≤ (position c g t zS - zmin) / dz := by rw [le_div_iff₀ hdz]; linarith
  have hN : 1 ≤ (position c g t zE - position c g t zS) / dz := by rw [le_div_iff₀ hdz]; linarith
  generalize position c g t zS = zs at *
  generalize position c g t zE = ze at *
  refine ⟨gr', h, ?_, ?_⟩
  · intro iz hb a
    funext ir
    refine (hzero a iz ir).2 ?_
    rintro ⟨⟨-, h2⟩, -, -⟩
    have := hb.1
    nlinarith
  · have hn : 1 ≤ pyInt ((ze - zs) / dz) := by
      rw [pyInt_of_nonneg (by linarith)]; exact Int.le_floor.mpr (by simpa using hN)
    have hf1 : 1 ≤ ⌊(zs - zmin) / dz⌋ := Int.le_floor.mpr (by simpa using hS1)
    obtain ⟨k, hk⟩ : ∃ k : ℕ, ⌊(zs - zmin) / dz⌋ = k + 1 :=
      ⟨(⌊(zs - zmin) / dz⌋ - 1).toNat, by omega⟩
    have hlo := Int.floor_le ((zs - zmin) / dz)
    have hhi := Int.lt_floor_add_one ((zs - zmin) / dz)
    rw [hk] at hlo hhi
    push_cast at hlo hhi
    refine ⟨k, ?_, ?_⟩
    · rintro ⟨h1, -⟩
      nlinarith
    · intro a ir ha
      refine (hzero a k ir).1 ⟨⟨?_, ?_⟩, hm, ha⟩
      · have : (1 : ℝ) ≤ (pyInt ((ze - zs) / dz) : ℤ) := by exact_mod_cast hn
        nlinarith
      · nlinarith

/-- Twenty cells of size 1 from 0, with two guard cells. -/
def exMirrorComm (size : ℕ) : Comm :=
  { NzGlobal := 20, size := size, nGuard := 2, nzDamp := 0, nInject := 0, bz := .opened, br := .reflective, exchangePeriod := 1 }

private theorem exMirror1 : (exMirrorComm 1).getZminZmax (0 : ℝ) 1 true true true (some 0) = .ok (-2, 22) := by
  simp [Comm.getZminZmax, Comm.getNzIz, exMirrorComm, bind, Except.bind, pure, Except.pure]; norm_num

private theorem exMirror20 : (exMirrorComm 2).getZminZmax (0 : ℝ) 1 true true true (some 0) = .ok (-2, 12) := by
  simp [Comm.getZminZmax, Comm.getNzIz, exMirrorComm, bind, Except.bind, pure, Except.pure]; norm_num

private theorem exMirror21 : (exMirrorComm 2).getZminZmax (0 : ℝ) 1 true true true (some 1) = .ok (8, 22) := by
  simp [Comm.getZminZmax, Comm.getNzIz, exMirrorComm, bind, Except.bind, pure, Except.pure]; norm_num

/-- Example for `C51_zeroed_partial` and `C51_violated`: the hypotheses are met. -/
example : ∃ M, make 14 20 none (.list [0, 2]) = .ok M ∧
    (exMirrorComm 1).getZminZmax (0 : ℝ) 1 true true true (some 0) = .ok (-2, 22) ∧ wanted (.list [0, 2]) 0 ∧
    (-2 : ℝ) + 1 ≤ position 3 none 0 14 ∧ position 3 none 0 14 < 22 ∧ 1 ≤ position 3 none 0 20 - position 3 none 0 14 :=
  ⟨_, rfl, exMirror1, by simp [wanted], by norm_num [position], by norm_num [position], by norm_num [position]⟩

/-- **C51** (violated): the region also depends on the number of ranks. With one rank the physical cell 9 (row 11 of the
local grid) is set to zero by the mirror from 14 to 20; with two ranks, on rank 0, which owns this cell (again row 11), it is unchanged. -/
theorem C51_violated_ranks (M : Mir) (hM : make 14 20 none .all = .ok M) (c t : ℝ) (gr : Grid) :
    (∃ g', setFieldsToZero c M (exMirrorComm 1) 0 1 0 t [gr] = .ok [g'] ∧ ∀ ir, g'.arr .Er 11 ir = 0) ∧
    setFieldsToZero c M (exMirrorComm 2) 0 1 0 t [gr] = .ok [gr] := by
  constructor
  · obtain ⟨interp', h, hzero, -⟩ := C51_zeroed_partial c 14 20 none .all M hM (exMirrorComm 1) 0 1 one_pos 0 t [gr] _ _ exMirror1
    obtain ⟨hl, hzero⟩ := hzero (by norm_num [position]) (by norm_num [position])
    obtain ⟨gr', rfl⟩ : ∃ g', interp' = [g'] := List.length_eq_one_iff.mp (by simpa using hl)
    obtain ⟨-, hzero⟩ := hzero 0 gr gr' rfl rfl
    refine ⟨gr', h, fun ir => (hzero .Er 11 ir).1 ⟨?_, by simp [wanted], by simp [isEB]⟩⟩
    have : pyInt ((position c none t 20 - position c none t 14) / 1) = 6 := by
      rw [pyInt_of_nonneg (by norm_num [position])]
      norm_num [position]
    unfold Before
    rw [this]
    norm_num [position]
  · obtain ⟨interp', h, -, hno⟩ := C51_zeroed_partial c 14 20 none .all M hM (exMirrorComm 2) 0 1 one_pos 0 t [gr] _ _ exMirror20
    rw [h, hno (by norm_num [position])]

end Fbpic
