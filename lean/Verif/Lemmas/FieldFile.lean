import Verif.Spec.FieldFile
import Verif.Props.FieldDiag

/-!
# Lemmas on field files that exist already
-/

namespace Fbpic.FFile

open FieldDiag
open Spec.FFile (SameMesh Room Writes latest)

theorem runOps_cons {o : Op} {b : List Op} {f f₁ : Disk} (h : o f = (f₁, none)) :
    runOps (o :: b) f = runOps b f₁ := by
  conv_lhs => unfold runOps
  rw [h]

theorem runOps_append {a b : List Op} {f f₁ : Disk} (h : runOps a f = (f₁, none)) :
    runOps (a ++ b) f = runOps b f₁ := by
  induction a generalizing f with
  | nil => cases h; rfl
  | cons o a ih =>
    rw [List.cons_append]
    unfold runOps at h
    cases ho : o f with
    | mk f' e =>
      cases e with
      | some e => rw [ho] at h; cases h
      | none => rw [ho] at h; exact (runOps_cons ho).trans (ih h)

/-- The attributes and the shape of a dataset of the diagnostic, with some data. -/
noncomputable def meshWith (s : Sim) (zmin : ℝ) (shape : ℕ × ℕ × ℕ) (u : Fin 7 → ℤ) (D : ℕ → ℕ → ℕ → ℝ) : Dataset where
  modes := s.Nm
  shape := shape
  spacing := (s.dr, s.dz)
  offset := (s.rmin, zmin)
  gridUnitSI := 1
  position := (0.5, 0.5)
  unitSI := 1
  unitDimension := u
  timeOffset := 0
  data := D

theorem require_all (shape : ℕ × ℕ × ℕ) (l : List Loc) : ∀ f : Disk, (∀ p ∈ l, ∀ d, f.mesh p = some d → d.shape = shape) →
    ∃ f', runOps (l.map fun p => require p shape) f = (f', none) ∧ f'.time = f.time ∧ f'.dt = f.dt ∧
      (∀ p ∈ l, ∃ d, f'.mesh p = some d ∧ d.shape = shape) ∧ ∀ p, p ∉ l → f'.mesh p = f.mesh p := by
  induction l with
  | nil => intro f _; exact ⟨f, rfl, rfl, rfl, fun p hp => (by simp at hp), fun _ _ => rfl⟩
  | cons q l ih =>
    intro f hf
    have one : ∃ f₁, require q shape f = (f₁, none) ∧ f₁.time = f.time ∧ f₁.dt = f.dt ∧
        (∃ d, f₁.mesh q = some d ∧ d.shape = shape) ∧ ∀ p, p ≠ q → f₁.mesh p = f.mesh p := by
      unfold require
      cases hq : f.mesh q with
      | none => exact ⟨_, rfl, rfl, rfl, ⟨_, if_pos rfl, rfl⟩, fun p hp => if_neg hp⟩
      | some d =>
        have := hf q (by simp) d hq
        exact ⟨f, by simp only [if_pos this], rfl, rfl, ⟨d, hq, this⟩, fun _ _ => rfl⟩
    obtain ⟨f₁, h1, h2, h3, ⟨d, h4, h5⟩, h6⟩ := one
    have room : ∀ p ∈ l, ∀ d, f₁.mesh p = some d → d.shape = shape := by
      intro p hp d' hd'
      by_cases hpq : p = q
      · subst hpq; rw [h4] at hd'; cases hd'; exact h5
      · rw [h6 p hpq] at hd'; exact hf p (by simp [hp]) d' hd'
    obtain ⟨f', g1, g2, g3, g4, g5⟩ := ih f₁ room
    refine ⟨f', (runOps_cons h1).trans g1, g2.trans h2, g3.trans h3, ?_, ?_⟩
    · intro p hp
      by_cases hpl : p ∈ l
      · exact g4 p hpl
      · have : p = q := by simpa [hpl] using hp
        subst this
        exact ⟨d, (g5 p hpl).trans h4, h5⟩
    · intro p hp
      have := not_or.1 (mt List.mem_cons.2 hp)
      rw [g5 p this.2, h6 p this.1]

theorem setup_all (s : Sim) (zmin : ℝ) (t : FieldType) (u : Fin 7 → ℤ) (hu : unitDimension t.record = some u)
    (shape : ℕ × ℕ × ℕ) (l : List Loc) : ∀ f : Disk, (∀ p ∈ l, ∃ d, f.mesh p = some d ∧ d.shape = shape) →
    ∃ f', runOps (l.map fun p => setup s zmin t p) f = (f', none) ∧ f'.time = f.time ∧ f'.dt = f.dt ∧
      (∀ p ∈ l, ∃ D, f'.mesh p = some (meshWith s zmin shape u D)) ∧ ∀ p, p ∉ l → f'.mesh p = f.mesh p := by
  induction l with
  | nil => intro f _; exact ⟨f, rfl, rfl, rfl, fun p hp => (by simp at hp), fun _ _ => rfl⟩
  | cons q l ih =>
    intro f hf
    obtain ⟨d, hd, hs⟩ := hf q (by simp)
    have one : setup s zmin t q f = (f.set q (meshWith s zmin shape u d.data), none) := by
      unfold setup
      rw [hd, hu]
      simp only [hs]
      rfl
    obtain ⟨f', g1, g2, g3, g4, g5⟩ := ih (f.set q (meshWith s zmin shape u d.data)) fun p hp => by
      by_cases hpq : p = q
      · exact ⟨_, if_pos hpq, rfl⟩
      · obtain ⟨d', h1, h2⟩ := hf p (by simp [hp])
        exact ⟨d', (if_neg hpq).trans h1, h2⟩
    refine ⟨f', (runOps_cons one).trans g1, g2, g3, ?_, ?_⟩
    · intro p hp
      by_cases hpl : p ∈ l
      · exact g4 p hpl
      · have : p = q := by simpa [hpl] using hp
        subst this
        exact ⟨d.data, (g5 p hpl).trans (if_pos rfl)⟩
    · intro p hp
      have := not_or.1 (mt List.mem_cons.2 hp)
      rw [g5 p this.2]
      exact if_neg this.1

theorem createOps_eq {s : Sim} {zmin : ℝ} {Nz Nr : ℕ} {t : FieldType} (ht : ∀ n, t ≠ .other n) :
    createOps s zmin Nz Nr t = (pathsOf t).map (fun p => require p (2 * s.Nm - 1, Nr, Nz))
      ++ (pathsOf t).map fun p => setup s zmin t p := by
  cases t with
  | other n => exact absurd rfl (ht n)
  | rho => rfl
  | rhoOf n => rfl
  | E => rfl
  | B => rfl
  | J => rfl
  | Epml c => rfl
  | Bpml c => rfl

theorem create_all (s : Sim) (zmin : ℝ) (Nz Nr : ℕ) (dim : FieldType → Fin 7 → ℤ) (T : List FieldType) :
    ∀ f : Disk, (∀ t ∈ T, (∀ n, t ≠ .other n) ∧ unitDimension t.record = some (dim t)) →
    (∀ t ∈ T, ∀ p ∈ pathsOf t, ∀ d, f.mesh p = some d → d.shape = (2 * s.Nm - 1, Nr, Nz)) →
    ∃ f', runOps (T.flatMap (createOps s zmin Nz Nr)) f = (f', none) ∧ f'.time = f.time ∧ f'.dt = f.dt ∧
      (∀ t ∈ T, ∀ p ∈ pathsOf t, ∃ D, f'.mesh p = some (meshWith s zmin (2 * s.Nm - 1, Nr, Nz) (dim t) D)) ∧
      ∀ p, (∀ t ∈ T, p ∉ pathsOf t) → f'.mesh p = f.mesh p := by
  induction T with
  | nil => intro f _ _; exact ⟨f, rfl, rfl, rfl, fun p hp => (by simp at hp), fun _ _ => rfl⟩
  | cons t T ih =>
    intro f hT hf
    obtain ⟨ht, hu⟩ := hT t (by simp)
    obtain ⟨f₁, a1, a2, a3, a4, a5⟩ := require_all (2 * s.Nm - 1, Nr, Nz) (pathsOf t) f (hf t (by simp))
    obtain ⟨f₂, b1, b2, b3, b4, b5⟩ := setup_all s zmin t (dim t) hu (2 * s.Nm - 1, Nr, Nz) (pathsOf t) f₁ a4
    have one : runOps (createOps s zmin Nz Nr t) f = (f₂, none) := by
      rw [createOps_eq ht, runOps_append a1, b1]
    obtain ⟨f', g1, g2, g3, g4, g5⟩ := ih f₂ (fun t' h' => hT t' (by simp [h'])) fun t' h' p hp d hd => by
      by_cases hpt : p ∈ pathsOf t
      · obtain ⟨D, hD⟩ := b4 p hpt
        rw [hD] at hd
        cases hd
        rfl
      · rw [b5 p hpt, a5 p hpt] at hd
        exact hf t' (by simp [h']) p hp d hd
    refine ⟨f', ?_, g2.trans (b2.trans a2), g3.trans (b3.trans a3), ?_, ?_⟩
    · rw [List.flatMap_cons, runOps_append one, g1]
    · intro t' h' p hp
      by_cases hin : t' ∈ T
      · exact g4 t' hin p hp
      · have e : t' = t := by simpa [hin] using h'
        subst e
        have : ∀ x ∈ T, p ∉ pathsOf x := fun x hx hpx => by
          have := (pathsOf_fst hp).symm.trans (pathsOf_fst hpx)
          subst this
          exact hin hx
        obtain ⟨D, hD⟩ := b4 p hp
        exact ⟨D, (g5 p this).trans hD⟩
    · intro p hp
      have h1 : p ∉ pathsOf t := hp t (by simp)
      rw [g5 p fun x hx => hp x (by simp [hx]), b5 p h1, a5 p h1]

/-- All entries of the modes are overwritten. -/
theorem writeOver_entries (Nm : ℕ) (hN : 0 < Nm) (A : ℕ → ℕ → ℕ → ℂ) (old old' : ℕ → ℕ → ℕ → ℝ) (i : ℕ) (hi : i < 2 * Nm - 1)
    (ir iz : ℕ) : writeOver Nm A old i ir iz = writeOver Nm A old' i ir iz := by
  have gen : ∀ (l : List ℕ) (d d' : ℕ → ℕ → ℕ → ℝ), (d i ir iz = d' i ir iz ∨ ∃ m ∈ l, i = 2 * m - 1 ∨ i = 2 * m) →
      l.foldl (fun d m i ir iz => if i = 2 * m - 1 then 2 * (A m iz ir).re else if i = 2 * m then 2 * (A m iz ir).im
        else d i ir iz) d i ir iz
      = l.foldl (fun d m i ir iz => if i = 2 * m - 1 then 2 * (A m iz ir).re else if i = 2 * m then 2 * (A m iz ir).im
        else d i ir iz) d' i ir iz := by
    intro l
    induction l with
    | nil => rintro d d' (h | ⟨m, hm, -⟩); exact h; simp at hm
    | cons m l ih =>
      intro d d' h
      rw [List.foldl_cons, List.foldl_cons]
      apply ih
      by_cases h1 : i = 2 * m - 1
      · left; simp only [if_pos h1]
      · by_cases h2 : i = 2 * m
        · left; simp only [if_neg h1, if_pos h2]
        · rcases h with h | ⟨m', hm', h⟩
          · left; simp only [if_neg h1, if_neg h2, h]
          · right
            rcases List.mem_cons.1 hm' with rfl | hm'
            · rcases h with h | h
              · exact absurd h h1
              · exact absurd h h2
            · exact ⟨m', hm', h⟩
  refine gen _ _ _ ?_
  by_cases h0 : i = 0
  · left; simp only [if_pos h0]
  · right
    refine ⟨(i + 1) / 2, List.mem_range'_1.2 ⟨by omega, by omega⟩, by omega⟩

theorem fill_all (s : Sim) (hN : 0 < s.Nm) (zmin : ℝ) (shape : ℕ × ℕ × ℕ) (dim : FieldType → Fin 7 → ℤ)
    (A : Loc → ℕ → ℕ → ℕ → ℂ) (l : List Loc) :
    ∀ f : Disk, (∀ p ∈ l, ∃ D, f.mesh p = some (meshWith s zmin shape (dim p.1) D)) →
    ∃ f', runOps (l.map fun p => fill s.Nm (A p) p) f = (f', none) ∧ f'.time = f.time ∧ f'.dt = f.dt ∧
      (∀ p ∈ l, ∃ D, f'.mesh p = some (meshWith s zmin shape (dim p.1) D) ∧
        ∀ i < 2 * s.Nm - 1, ∀ ir iz, D i ir iz = writeOver s.Nm (A p) (fun _ _ _ => 0) i ir iz) ∧
      ∀ p, p ∉ l → f'.mesh p = f.mesh p := by
  induction l with
  | nil => intro f _; exact ⟨f, rfl, rfl, rfl, fun p hp => (by simp at hp), fun _ _ => rfl⟩
  | cons q l ih =>
    intro f hf
    obtain ⟨D, hD⟩ := hf q (by simp)
    have one : fill s.Nm (A q) q f = (f.set q (meshWith s zmin shape (dim q.1) (writeOver s.Nm (A q) D)), none) := by
      unfold fill
      rw [hD]
      rfl
    obtain ⟨f', g1, g2, g3, g4, g5⟩ := ih (f.set q (meshWith s zmin shape (dim q.1) (writeOver s.Nm (A q) D))) fun p hp => by
      by_cases hpq : p = q
      · subst hpq; exact ⟨_, if_pos rfl⟩
      · obtain ⟨D', h1⟩ := hf p (by simp [hp])
        exact ⟨D', (if_neg hpq).trans h1⟩
    refine ⟨f', (runOps_cons one).trans g1, g2, g3, ?_, ?_⟩
    · intro p hp
      by_cases hpl : p ∈ l
      · exact g4 p hpl
      · have : p = q := by simpa [hpl] using hp
        subst this
        exact ⟨_, (g5 p hpl).trans (if_pos rfl), fun i hi ir iz => writeOver_entries s.Nm hN _ _ _ i hi ir iz⟩
    · intro p hp
      have := not_or.1 (mt List.mem_cons.2 hp)
      rw [g5 p this.2]
      exact if_neg this.1

end Fbpic.FFile
