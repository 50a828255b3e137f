import Verif.Spec.DensFunc
import Mathlib.Tactic.Ring
import Mathlib.Tactic.Positivity
import Mathlib.Tactic.Linarith

/-!
# Lemmas about density functions
-/

namespace Fbpic.DensF

open Spec (Cartesian Radial Means profile)

theorem check_cart {f : Callable} (h : Cartesian f) : checkArguments f = .ok ["x", "y", "z"] := by
  unfold checkArguments; rcases h with h | h <;> rw [h] <;> simp

theorem check_rad {f : Callable} (h : Radial f) : checkArguments f = .ok ["z", "r"] := by
  unfold checkArguments; rcases h with h | h <;> rw [h] <;> simp

theorem formals_cart {f : Callable} (h : Cartesian f) : f.formals = ["x", "y", "z"] := by
  unfold Callable.formals; rcases h with h | h <;> rw [h] <;> rfl

theorem formals_rad {f : Callable} (h : Radial f) : f.formals = ["z", "r"] := by
  unfold Callable.formals; rcases h with h | h <;> rw [h] <;> rfl

theorem call_cart {f : Callable} (h : Cartesian f) (x y z : ℝ) : f.call [x, y, z] = f.value [x, y, z] := by
  unfold Callable.call; rw [formals_cart h]; rfl

theorem call_rad {f : Callable} (h : Radial f) (z r : ℝ) : f.call [z, r] = f.value [z, r] := by
  unfold Callable.call; rw [formals_rad h]; rfl

theorem callKw_cart {f : Callable} (h : Cartesian f) (x y z : ℝ) :
    f.callKw [("x", x), ("y", y), ("z", z)] = f.value [x, y, z] := by
  unfold Callable.callKw; rw [formals_cart h]; rfl

theorem callKw_rad {f : Callable} (h : Radial f) (z r : ℝ) : f.callKw [("z", z), ("r", r)] = f.value [z, r] := by
  unfold Callable.callKw; rw [formals_rad h]; rfl

/-- A mesh point lies on its ring. -/
theorem mesh_ring {s : Slab} (h0 : 0 ≤ s.rmin) (h1 : s.rmin ≤ s.rmax) {p : Macro} (hp : p ∈ s.mesh) :
    0 ≤ p.r ∧ p.r = Real.sqrt (p.x ^ 2 + p.y ^ 2) := by
  unfold Slab.mesh at hp
  simp only [List.mem_flatMap, List.mem_map, List.mem_range] at hp
  obtain ⟨iz, -, ir, -, it, -, rfl⟩ := hp
  have hr : 0 ≤ s.rmin + (s.rmax - s.rmin) / s.Npr * (ir + 1 / 2) := by
    have : 0 ≤ s.rmax - s.rmin := by linarith
    positivity
  refine ⟨hr, ?_⟩
  simp only
  rw [show ∀ a t : ℝ, (a * Real.cos t) ^ 2 + (a * Real.sin t) ^ 2 = a ^ 2 * (Real.cos t ^ 2 + Real.sin t ^ 2) from fun a t => by ring,
    Real.cos_sq_add_sin_sq, mul_one, Real.sqrt_sq hr]

/-- The function evaluated on a mesh point. -/
theorem evalAt_means {f : Callable} {D : ℝ → ℝ → ℝ → ℝ} (h : Means f D) :
    ∃ args, checkArguments f = .ok args ∧
      ∀ p : Macro, 0 ≤ p.r → p.r = Real.sqrt (p.x ^ 2 + p.y ^ 2) → evalAt f args p = .ok (D p.x p.y p.z) := by
  rcases h with ⟨hc, hv⟩ | ⟨hr, g, hg, hD⟩
  · refine ⟨_, check_cart hc, fun p _ _ => ?_⟩
    unfold evalAt; rw [if_pos rfl, callKw_cart hc, hv]
  · refine ⟨_, check_rad hr, fun p h0 h1 => ?_⟩
    unfold evalAt; rw [if_neg (by decide), callKw_rad hr, hg _ _ h0, hD, ← h1]

theorem mapM_ok {α β : Type} {g : α → Except PyErr β} {h : α → β} :
    ∀ l : List α, (∀ a ∈ l, g a = .ok (h a)) → l.mapM g = .ok (l.map h)
  | [], _ => rfl
  | a :: l, hl => by
    rw [List.mapM_cons, hl a (by simp), mapM_ok l fun b hb => hl b (by simp [hb])]; rfl

theorem mesh_map (s : Slab) (D : ℝ → ℝ → ℝ → ℝ) :
    ((s.mesh.map fun p => { p with w := p.w * D p.x p.y p.z }).filter fun p => 0 < p.w) = profile s D := by
  unfold Slab.mesh profile
  simp only [List.map_flatMap, List.map_map]
  congr 1
  apply List.flatMap_congr; intro iz _
  apply List.flatMap_congr; intro ir _
  apply List.map_congr_left; intro it _
  simp only [Function.comp]
  ext <;> simp only [] <;> ring_nf

theorem profile_none {s : Slab} (h : ¬ 0 < s.Npz * s.Npr * s.Nptheta) (D : ℝ → ℝ → ℝ → ℝ) : profile s D = [] := by
  unfold profile
  rcases Nat.eq_zero_or_pos s.Nptheta with h1 | h1
  · simp [h1]
  rcases Nat.eq_zero_or_pos s.Npr with h2 | h2
  · simp [h2]
  have h3 : s.Npz.toNat = 0 := by
    rcases Int.lt_or_le 0 s.Npz with h3 | h3
    · exact absurd (Int.mul_pos (Int.mul_pos h3 (by exact_mod_cast h2)) (by exact_mod_cast h1)) h
    · omega
  simp [h3]

/-- The particles that are generated. -/
theorem generate_means {s : Slab} (h0 : 0 ≤ s.rmin) (h1 : s.rmin ≤ s.rmax) {f : Callable} {D : ℝ → ℝ → ℝ → ℝ} (h : Means f D) :
    generate s (some f) = .ok (profile s D) := by
  unfold generate
  by_cases hp : 0 < s.Npz * s.Npr * s.Nptheta
  · obtain ⟨args, ha, he⟩ := evalAt_means h
    rw [if_pos hp]
    simp only [ha]
    change (s.mesh.mapM (fun p => evalAt f args p >>= fun d => pure ({ p with w := p.w * d } : Macro)) >>= fun l =>
      pure (l.filter fun p => 0 < p.w)) = _
    rw [mapM_ok (h := fun p => { p with w := p.w * D p.x p.y p.z }) s.mesh fun p hp => by
        obtain ⟨e0, e1⟩ := mesh_ring h0 h1 hp
        rw [he p e0 e1]; rfl]
    rw [← mesh_map]; rfl
  · rw [if_neg hp, profile_none hp]

theorem generate_uniform (s : Slab) : generate s .none = .ok (profile s fun _ _ _ => 1) := by
  unfold generate
  by_cases hp : 0 < s.Npz * s.Npr * s.Nptheta
  · rw [if_pos hp, ← mesh_map]
    simp only [mul_one]
    rw [show (fun p : Macro => ({ x := p.x, y := p.y, z := p.z, r := p.r, w := p.w } : Macro)) = id from rfl, List.map_id]
    rfl
  · rw [if_neg hp, profile_none hp]

/-- The density seen in the boosted frame. -/
theorem speciesFunc_means {f : Callable} {D : ℝ → ℝ → ℝ → ℝ} (h : Means f D) (coef : ℝ) :
    ∃ g, speciesFunc (some coef) true (some f) = .ok (some g) ∧ Means g fun x y z => D x y (coef * z) := by
  unfold speciesFunc
  simp only [if_true]
  rcases h with ⟨hc, hv⟩ | ⟨hr, u, hu, hD⟩
  · rw [check_cart hc]
    refine ⟨_, rfl, .inl ⟨.inl rfl, fun x y z => ?_⟩⟩
    simp only [call_cart hc, hv]
  · rw [check_rad hr]
    refine ⟨_, rfl, .inr ⟨.inl rfl, fun z r => u (coef * z) r, fun z r h0 => ?_, fun x y z => hD _ _ _⟩⟩
    simp only [call_rad hr, hu _ _ h0]

/-- The density that moves with the plasma. -/
theorem movedFunc_means {f : Callable} {D : ℝ → ℝ → ℝ → ℝ} (h : Means f D) (v t : ℝ) :
    ∃ g, movedFunc v t (some f) = .ok (some g) ∧ Means g fun x y z => D x y (z - v * t) := by
  unfold movedFunc
  rcases h with ⟨hc, hv⟩ | ⟨hr, u, hu, hD⟩
  · simp only [check_cart hc]
    refine ⟨_, rfl, .inl ⟨.inl rfl, fun x y z => ?_⟩⟩
    simp only [call_cart hc, hv]
  · simp only [check_rad hr]
    refine ⟨_, rfl, .inr ⟨.inl rfl, fun z r => u (z - v * t) r, fun z r h0 => ?_, fun x y z => hD _ _ _⟩⟩
    simp only [call_rad hr, hu _ _ h0]

theorem check_wrong {f : Callable} (h0 : f.args ≠ []) (hc : ¬ Cartesian f) (hr : ¬ Radial f) :
    ∃ m, checkArguments f = .error (.valueError m) := by
  unfold checkArguments
  unfold Cartesian at hc; unfold Radial at hr
  rcases e : f.args with _ | ⟨a, l⟩
  · exact absurd e h0
  rw [e] at hc hr
  simp only
  rw [if_pos]
  · exact ⟨_, rfl⟩
  · by_cases ha : a = "self"
    · subst ha
      rw [if_pos rfl]
      rintro (rfl | rfl) <;> simp at hc hr
    · rw [if_neg ha]
      rintro (h | h)
      · exact hc (.inl h)
      · exact hr (.inl h)

end Fbpic.DensF
