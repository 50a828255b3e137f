import Verif.Spec.ExternalField
import Verif.Lemmas.Tactics

/-! # C50: external fields -/

namespace Fbpic

open ExternalField Spec

private theorem foldl_species (e : Ext) (t : ℝ) (l : List (Comp × ℝ)) (s : Species) :
    l.foldl (fun (s : Species) a => { s with ptcls := s.ptcls.map fun p => applyTerm e t p a }) s =
      { s with ptcls := s.ptcls.map fun p => l.foldl (applyTerm e t) p } := by
  induction l generalizing s with
  | nil => simp
  | cons a l ih => simp [ih, List.map_map, Function.comp_def]

private theorem apply_eq (e : Ext) (ptcl : List Species) (t : ℝ) :
    applyExpression e ptcl t = ptcl.map fun s => { s with
      ptcls := s.ptcls.map fun p => if e.species = none ∨ e.species = some s.id then e.terms.foldl (applyTerm e t) p else p } := by
  unfold applyExpression
  refine List.map_congr_left fun s _ => ?_
  by_cases h : e.species = none ∨ e.species = some s.id
  · simp only [h, if_true]
    by_cases h0 : s.ptcls.length ≤ 0
    · rw [if_pos h0]
      have : s.ptcls = [] := List.length_eq_zero_iff.mp (Nat.le_zero.mp h0)
      cases s; simp_all
    · rw [if_neg h0, foldl_species]
  · simp only [h, if_false, List.map_id']

private theorem parse_nameOf (k : Comp) : parse (nameOf k) = some k := by cases k <;> rfl

/-- **C50** (refusal): exactly the six names are accepted. -/
theorem C50_error (c : ℝ) (f : FieldFunc) (name : String) (a ls : ℝ) (sp : Option ℕ) (g : Option ℝ) :
    (∃ e, make c f name a ls sp g = .ok e) ↔ ∃ k, name = nameOf k := by
  constructor
  · rintro ⟨e, h⟩
    have : ∀ k, parse name = some k → name = nameOf k := by
      intro k hk
      unfold parse at hk
      split at hk <;> first | (cases hk; rfl) | cases hk
    cases hp : parse name with
    | none => simp [make, hp] at h
    | some k => exact ⟨k, this k hp⟩
  · rintro ⟨k, rfl⟩
    unfold make
    rw [parse_nameOf]
    cases g with
    | none => exact ⟨_, rfl⟩
    | some γ => simp only; split <;> exact ⟨_, rfl⟩

example : ¬ ∃ e, make 1 (fun F _ _ _ _ _ _ => F) "Er" 1 1 none none = .ok e := by
  rw [C50_error]; rintro ⟨k, hk⟩; cases k <;> simp [nameOf] at hk

/-- **C50** (lab frame): without boost, or with `γ = 1`, the function of the user replaces the given component by its value at the
particle, for every function, on the given species only; the other components are unchanged. -/
theorem C50_lab (c : ℝ) (f : FieldFunc) (k : Comp) (a ls : ℝ) (sp : Option ℕ) (g : Option ℝ) (hg : g = none ∨ g = some 1)
    (e : Ext) (h : make c f (nameOf k) a ls sp g = .ok e) (ptcl : List Species) (t : ℝ) :
    applyExpression e ptcl t = ptcl.map fun s => { s with
      ptcls := s.ptcls.map fun p => if sp = none ∨ sp = some s.id then
          { p with F := fun k' => if k' = k then f (p.F k) p.x p.y p.z t a ls else p.F k' }
        else p } := by
  have he : e = ⟨f, [(k, a)], ls, sp⟩ := by
    rcases hg with rfl | rfl <;> simp [make, parse_nameOf] at h <;> exact h.symm
  subst he
  rw [apply_eq]
  refine List.map_congr_left fun s _ => ?_
  congr 1
  refine List.map_congr_left fun p _ => ?_
  simp only [List.foldl_cons, List.foldl_nil, applyTerm]
  congr 2
  funext k'
  by_cases hk : k' = k
  · subst hk; simp
  · simp [hk]

private theorem boostFields_add (γ β c : ℝ) (F G : Comp → ℝ) :
    boostFields γ β c (F + G) = boostFields γ β c F + boostFields γ β c G := by
  funext k; cases k <;> simp [boostFields] <;> ring

private theorem boostFields_zero (γ β c : ℝ) : boostFields γ β c 0 = 0 := by
  funext k; cases k <;> simp [boostFields]

private theorem one_particle (c γ : ℝ) (hc : c ≠ 0) (hγ : 1 < γ) (d : LabField) (t tl zl : ℝ) (p : Part)
    (hev : LorentzEvent γ (betaBoost γ) c tl zl t p.z) :
    ((boostedTerms c γ d.amplitude d.comp).foldl
      (applyTerm ⟨boostedFunc c γ d.func, boostedTerms c γ d.amplitude d.comp, d.lengthScale, d.species⟩ t) p).F =
      p.F + boostFields γ (betaBoost γ) c (only d.comp (d.amplitude * d.profile p.x p.y zl tl d.lengthScale)) := by
  have hsh : γ ^ 2 * (1 - betaBoost γ ^ 2) = 1 := by
    have : betaBoost γ ^ 2 = 1 - 1 / γ ^ 2 := by
      refine Real.sq_sqrt ?_
      rw [sub_nonneg, div_le_one (by positivity)]; nlinarith
    rw [this]; field_simp; ring
  obtain ⟨h1, h2⟩ := hev
  have hz : γ * (p.z + betaBoost γ * c * t) = zl := by
    rw [h1, h2]; field_simp; linear_combination zl * hsh
  have ht : γ * (t + betaBoost γ * (1 / c) * p.z) = tl := by
    rw [h1, h2]; field_simp
    first | linear_combination tl * c * hsh | linear_combination tl * hsh
  have hf : ∀ F A L, boostedFunc c γ d.func F p.x p.y p.z t A L = F + A * d.profile p.x p.y zl tl L := by
    intro F A L
    simp only [boostedFunc, LabField.func, hz, ht]
  obtain ⟨k, amp, ls, prof, sp⟩ := d
  simp only at hf
  funext k'
  cases k <;> cases k' <;>
    simp [boostedTerms, applyTerm, hf, boostFields, only] <;> field_simp

/-- All the external fields of a simulation: each was made from a field given in the lab. -/
private theorem all_species (c γ : ℝ) (hc : c ≠ 0) (hγ : 1 < γ) (ds : List LabField) (es : List Ext)
    (h : List.Forall₂ (fun (d : LabField) (e : Ext) =>
      make c d.func (nameOf d.comp) d.amplitude d.lengthScale d.species (some γ) = .ok e) ds es)
    (ptcl : List Species) (t : ℝ) :
    applyAll es ptcl t = ptcl.map fun s => { s with
      ptcls := s.ptcls.map fun p =>
        let zl := γ * (p.z + betaBoost γ * c * t)
        let tl := γ * (t + betaBoost γ * p.z / c)
        { p with F := p.F + boostFields γ (betaBoost γ) c ((ds.map fun d => d.value s.id p.x p.y zl tl).sum) } } := by
  have hsh : γ ^ 2 * (1 - betaBoost γ ^ 2) = 1 := by
    have : betaBoost γ ^ 2 = 1 - 1 / γ ^ 2 := by
      refine Real.sq_sqrt ?_
      rw [sub_nonneg, div_le_one (by positivity)]; nlinarith
    rw [this]; field_simp; ring
  induction h generalizing ptcl with
  | nil => simp [applyAll, boostFields_zero]
  | @cons d e ds es hd _ ih =>
    have he : e = ⟨boostedFunc c γ d.func, boostedTerms c γ d.amplitude d.comp, d.lengthScale, d.species⟩ := by
      simp [make, parse_nameOf, hγ.ne'] at hd
      exact hd.symm
    subst he
    change applyAll es (applyExpression _ ptcl t) t = _
    rw [ih, apply_eq, List.map_map]
    refine List.map_congr_left fun s _ => ?_
    simp only [Function.comp, List.map_map]
    congr 1
    refine List.map_congr_left fun p _ => ?_
    simp only [Function.comp]
    by_cases hs : d.species = none ∨ d.species = some s.id
    · simp only [hs, if_true, List.map_cons, List.sum_cons]
      have h1 := one_particle c γ hc hγ d t (γ * (t + betaBoost γ * p.z / c)) (γ * (p.z + betaBoost γ * c * t)) p (by
        constructor
        · field_simp; linear_combination -t * c * hsh
        · field_simp; linear_combination -p.z * hsh)
      have h2 : ∀ l : List (Comp × ℝ), ∀ e q, (l.foldl (applyTerm e t) q).x = q.x ∧ (l.foldl (applyTerm e t) q).y = q.y ∧
          (l.foldl (applyTerm e t) q).z = q.z := by
        intro l e
        induction l with
        | nil => simp
        | cons a l ih => intro q; simpa [applyTerm] using ih (applyTerm e t q a)
      obtain ⟨hx, hy, hz⟩ := h2 (boostedTerms c γ d.amplitude d.comp)
        ⟨boostedFunc c γ d.func, boostedTerms c γ d.amplitude d.comp, d.lengthScale, d.species⟩ p
      generalize List.foldl _ p _ = q at *
      obtain ⟨qx, qy, qz, qF⟩ := q
      simp only at hx hy hz h1
      subst hx hy hz h1
      simp only [LabField.value, hs, if_true, boostFields_add, add_assoc]
    · simp only [hs, if_false, List.map_cons, List.sum_cons, LabField.value, zero_add]

/-- **C50**: with `gamma_boost`, all the external fields of a simulation together add to the fields of every particle of a species the
Lorentz transform of the sum of the lab fields acting on this species, at the lab event `(tl, zl)` at which the particle is. -/
theorem C50_boost (c γ : ℝ) (hc : c ≠ 0) (hγ : 1 < γ) (ds : List LabField) (es : List Ext)
    (h : List.Forall₂ (fun (d : LabField) (e : Ext) =>
      make c d.func (nameOf d.comp) d.amplitude d.lengthScale d.species (some γ) = .ok e) ds es)
    (ptcl : List Species) (t : ℝ) :
    List.Forall₂ (fun (s s' : Species) => s'.id = s.id ∧ List.Forall₂ (fun (p p' : Part) =>
      p'.x = p.x ∧ p'.y = p.y ∧ p'.z = p.z ∧
      ∀ tl zl, LorentzEvent γ (Real.sqrt (1 - 1 / γ ^ 2)) c tl zl t p.z →
        p'.F = p.F + boostFields γ (Real.sqrt (1 - 1 / γ ^ 2)) c ((ds.map fun d => d.value s.id p.x p.y zl tl).sum))
      s.ptcls s'.ptcls) ptcl (applyAll es ptcl t) := by
  have hsh : γ ^ 2 * (1 - betaBoost γ ^ 2) = 1 := by
    have : betaBoost γ ^ 2 = 1 - 1 / γ ^ 2 := by
      refine Real.sq_sqrt ?_
      rw [sub_nonneg, div_le_one (by positivity)]; nlinarith
    rw [this]; field_simp; ring
  rw [all_species c γ hc hγ ds es h, List.forall₂_map_right_iff, List.forall₂_same]
  refine fun s _ => ⟨rfl, ?_⟩
  simp only
  rw [List.forall₂_map_right_iff, List.forall₂_same]
  refine fun p _ => ⟨rfl, rfl, rfl, ?_⟩
  rintro tl zl ⟨h1, h2⟩
  change t = γ * (tl - betaBoost γ * zl / c) at h1
  change p.z = γ * (zl - betaBoost γ * c * tl) at h2
  have hz : γ * (p.z + betaBoost γ * c * t) = zl := by
    rw [h1, h2]; field_simp; linear_combination zl * hsh
  have ht : γ * (t + betaBoost γ * p.z / c) = tl := by
    rw [h1, h2]; field_simp
    first | linear_combination tl * c * hsh | linear_combination tl * hsh
  simp only [hz, ht]
  rfl

/-- Check of the specification: the transformed fields have the invariants of the lab fields, so the factors and signs of the two coupled components
are right. -/
theorem boostFields_invariants (γ β c : ℝ) (hc : c ≠ 0) (h : γ ^ 2 * (1 - β ^ 2) = 1) (F : Comp → ℝ) :
    let G := boostFields γ β c F
    G .Ex * G .Bx + G .Ey * G .By + G .Ez * G .Bz = F .Ex * F .Bx + F .Ey * F .By + F .Ez * F .Bz ∧
    G .Ex ^ 2 + G .Ey ^ 2 + G .Ez ^ 2 - c ^ 2 * (G .Bx ^ 2 + G .By ^ 2 + G .Bz ^ 2) =
      F .Ex ^ 2 + F .Ey ^ 2 + F .Ez ^ 2 - c ^ 2 * (F .Bx ^ 2 + F .By ^ 2 + F .Bz ^ 2) := by
  simp only [boostFields]
  constructor
  · field_simp
    linear_combination c * (F .Ex * F .Bx + F .Ey * F .By) * h
  · field_simp
    linear_combination (F .Ex ^ 2 + F .Ey ^ 2 - c ^ 2 * (F .Bx ^ 2 + F .By ^ 2)) * h

/-- An undulator along y and a uniform electric field on species 3, in the frame with `γ = 2`. -/
example : ∃ es, List.Forall₂ (fun (d : LabField) (e : Ext) =>
    make 3 d.func (nameOf d.comp) d.amplitude d.lengthScale d.species (some 2) = .ok e)
    [⟨.By, 1, 5, fun _ _ z _ l => z / l, none⟩, ⟨.Ex, 7, 1, fun _ _ _ _ _ => 1, some 3⟩] es := by
  obtain ⟨e1, h1⟩ := (C50_error 3 (LabField.func ⟨.By, 1, 5, fun _ _ z _ l => z / l, none⟩) (nameOf .By) 1 5 none (some 2)).mpr
    ⟨_, rfl⟩
  obtain ⟨e2, h2⟩ := (C50_error 3 (LabField.func ⟨.Ex, 7, 1, fun _ _ _ _ _ => 1, some 3⟩) (nameOf .Ex) 7 1 (some 3) (some 2)).mpr
    ⟨_, rfl⟩
  exact ⟨[e1, e2], .cons h1 (.cons h2 .nil)⟩

end Fbpic
