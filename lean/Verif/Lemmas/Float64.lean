import Verif.Model.ParticleExchange
import Verif.Lemmas.Tactics
import Mathlib.Algebra.Order.Floor.Ring
import Mathlib.Algebra.Order.Archimedean.Basic

namespace Fbpic

theorem f64Bits_ge (v : ℕ) (h : 0 < v) : 1023 * 2 ^ 52 ≤ f64Bits v := by
  unfold f64Bits
  rw [if_neg (by omega)]
  have : ∀ e x : ℕ, 1023 * 2 ^ 52 ≤ (1023 + e) * 2 ^ 52 + x := by
    intro e x; nlinarith
  simp only
  split
  · exact this _ _
  · exact this _ _

variable {K : Type} [Field K] [LinearOrder K] [IsStrictOrderedRing K] [FloorRing K]

omit [IsStrictOrderedRing K] [FloorRing K] in
theorem loopDown_mono {zmax L : K} : ∀ {f g : ℕ} {z z' : K}, loopDown zmax L f z = some z' →
    f ≤ g → loopDown zmax L g z = some z' := by
  intro f
  induction f with
  | zero => intro g z z' h; simp [loopDown] at h
  | succ f ih =>
    intro g z z' h hfg
    obtain ⟨g', rfl⟩ : ∃ g', g = g' + 1 := ⟨g - 1, by omega⟩
    rw [loopDown] at h ⊢
    split_ifs at h ⊢
    · exact ih h (by omega)
    · exact h

omit [IsStrictOrderedRing K] [FloorRing K] in
theorem loopUp_mono {zmin L : K} : ∀ {f g : ℕ} {z z' : K}, loopUp zmin L f z = some z' →
    f ≤ g → loopUp zmin L g z = some z' := by
  intro f
  induction f with
  | zero => intro g z z' h; simp [loopUp] at h
  | succ f ih =>
    intro g z z' h hfg
    obtain ⟨g', rfl⟩ : ∃ g', g = g' + 1 := ⟨g - 1, by omega⟩
    rw [loopUp] at h ⊢
    split_ifs at h ⊢
    · exact ih h (by omega)
    · exact h

omit [IsStrictOrderedRing K] [FloorRing K] in
theorem wrapZ_mono {zmin zmax : K} {f g : ℕ} {z z' : K} (h : wrapZ zmin zmax f z = some z')
    (hfg : f ≤ g) : wrapZ zmin zmax g z = some z' := by
  unfold wrapZ at *
  rw [Option.bind_eq_some_iff] at *
  obtain ⟨z1, h1, h2⟩ := h
  exact ⟨z1, loopDown_mono h1 hfg, loopUp_mono h2 hfg⟩

theorem loopDown_spec (zmax L : K) (hL : 0 < L) (z : K) :
    ∃ z' : K, (∃ N : ℕ, ∀ fuel, N ≤ fuel → loopDown zmax L fuel z = some z') ∧ z' < zmax ∧
      ∃ k : ℕ, z' = z - (k : K) * L ∧ (zmax ≤ z → zmax - L ≤ z') ∧ (z < zmax → z' = z) := by
  have key : ∀ n : ℕ, ∀ z : K, z < zmax + (n : K) * L →
    ∃ z' : K, (∃ N : ℕ, ∀ fuel, N ≤ fuel → loopDown zmax L fuel z = some z') ∧ z' < zmax ∧
      ∃ k : ℕ, z' = z - (k : K) * L ∧ (zmax ≤ z → zmax - L ≤ z') ∧ (z < zmax → z' = z) := by
    intro n
    induction n with
    | zero =>
      intro z hz
      simp only [Nat.cast_zero, zero_mul, add_zero] at hz
      refine ⟨z, ⟨1, fun f hf => ?_⟩, hz, 0, by simp, fun h => absurd hz (not_lt.mpr h), fun _ => rfl⟩
      obtain ⟨f', rfl⟩ : ∃ f', f = f' + 1 := ⟨f - 1, by omega⟩
      rw [loopDown, if_neg (not_le.mpr hz)]
    | succ n ih =>
      intro z hz
      by_cases hlt : z < zmax
      · refine ⟨z, ⟨1, fun f hf => ?_⟩, hlt, 0, by simp, fun h => absurd hlt (not_lt.mpr h), fun _ => rfl⟩
        obtain ⟨f', rfl⟩ : ∃ f', f = f' + 1 := ⟨f - 1, by omega⟩
        rw [loopDown, if_neg (not_le.mpr hlt)]
      · have hge := not_lt.mp hlt
        obtain ⟨z', ⟨N, h1⟩, h2, k, h3, h4, h5⟩ := ih (z - L) (by push_cast at hz; linarith)
        refine ⟨z', ⟨N + 1, fun f hf => ?_⟩, h2, k + 1, by rw [h3]; push_cast; ring, ?_,
          fun h => absurd h hlt⟩
        · obtain ⟨f', rfl⟩ : ∃ f', f = f' + 1 := ⟨f - 1, by omega⟩
          rw [loopDown, if_pos hge]
          exact h1 f' (by omega)
        · intro _
          by_cases hc : zmax ≤ z - L
          · exact h4 hc
          · rw [h5 (not_le.mp hc)]; linarith
  obtain ⟨n, hn⟩ := exists_nat_gt ((z - zmax) / L)
  rw [div_lt_iff₀ hL] at hn
  exact key n z (by linarith)

theorem loopUp_spec (zmin L : K) (hL : 0 < L) (z : K) :
    ∃ z' : K, (∃ N : ℕ, ∀ fuel, N ≤ fuel → loopUp zmin L fuel z = some z') ∧ zmin ≤ z' ∧
      ∃ k : ℕ, z' = z + (k : K) * L ∧ (z' = z ∨ z' < zmin + L) ∧ (zmin ≤ z → z' = z) := by
  have key : ∀ n : ℕ, ∀ z : K, zmin - (n : K) * L ≤ z →
    ∃ z' : K, (∃ N : ℕ, ∀ fuel, N ≤ fuel → loopUp zmin L fuel z = some z') ∧ zmin ≤ z' ∧
      ∃ k : ℕ, z' = z + (k : K) * L ∧ (z' = z ∨ z' < zmin + L) ∧ (zmin ≤ z → z' = z) := by
    intro n
    induction n with
    | zero =>
      intro z hz
      simp only [Nat.cast_zero, zero_mul, sub_zero] at hz
      refine ⟨z, ⟨1, fun f hf => ?_⟩, hz, 0, by simp, Or.inl rfl, fun _ => rfl⟩
      obtain ⟨f', rfl⟩ : ∃ f', f = f' + 1 := ⟨f - 1, by omega⟩
      rw [loopUp, if_neg (not_lt.mpr hz)]
    | succ n ih =>
      intro z hz
      by_cases hge : zmin ≤ z
      · refine ⟨z, ⟨1, fun f hf => ?_⟩, hge, 0, by simp, Or.inl rfl, fun _ => rfl⟩
        obtain ⟨f', rfl⟩ : ∃ f', f = f' + 1 := ⟨f - 1, by omega⟩
        rw [loopUp, if_neg (not_lt.mpr hge)]
      · have hlt := not_le.mp hge
        obtain ⟨z', ⟨N, h1⟩, h2, k, h3, h4, h5⟩ := ih (z + L) (by push_cast at hz; linarith)
        refine ⟨z', ⟨N + 1, fun f hf => ?_⟩, h2, k + 1, by rw [h3]; push_cast; ring, ?_,
          fun h => absurd h hge⟩
        · obtain ⟨f', rfl⟩ : ∃ f', f = f' + 1 := ⟨f - 1, by omega⟩
          rw [loopUp, if_pos hlt]
          exact h1 f' (by omega)
        · right
          rcases h4 with h | h
          · rw [h]; linarith
          · exact h
  obtain ⟨n, hn⟩ := exists_nat_gt ((zmin - z) / L)
  rw [div_lt_iff₀ hL] at hn
  exact key n z (by linarith)

end Fbpic
