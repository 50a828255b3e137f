import Verif.Lemmas.DensFunc

/-!
# C119: density functions given by the user
-/

namespace Fbpic.DensF

open Spec (Cartesian Radial Means profile)

/-- The plasma at the beginning of a simulation in the laboratory frame has the density that the function stands for, be it a function of
`x, y, z`, of `z, r`, or an object with a method of these arguments; without function the density is uniform. -/
theorem C119_load {s : Slab} (h0 : 0 ≤ s.rmin) (h1 : s.rmin ≤ s.rmax) {f : Callable} {D : ℝ → ℝ → ℝ → ℝ} (h : Means f D) (b : Bool) :
    load .none b s (some f) = .ok (profile s D) ∧ load .none b s .none = .ok (profile s fun _ _ _ => 1) :=
  ⟨generate_means h0 h1 h, generate_uniform s⟩

/-- In a boosted frame the function is evaluated at the position in the laboratory `coef * z`, if this is asked for. -/
theorem C119_load_boost {s : Slab} (h0 : 0 ≤ s.rmin) (h1 : s.rmin ≤ s.rmax) {f : Callable} {D : ℝ → ℝ → ℝ → ℝ} (h : Means f D) (coef : ℝ) :
    load (some coef) true s (some f) = .ok (profile s fun x y z => D x y (coef * z)) ∧
      load (some coef) false s (some f) = .ok (profile s D) := by
  refine ⟨?_, generate_means h0 h1 h⟩
  obtain ⟨g, e, hg⟩ := speciesFunc_means h coef
  unfold load
  rw [e]
  exact generate_means h0 h1 hg

/-- The plasma injected at the time `t` continues the plasma that has moved by `v t`, in the laboratory and in a boosted frame. -/
theorem C119_inject {s : Slab} (h0 : 0 ≤ s.rmin) (h1 : s.rmin ≤ s.rmax) {f : Callable} {D : ℝ → ℝ → ℝ → ℝ} (h : Means f D)
    (coef v t : ℝ) (b : Bool) :
    inject .none b v t s (some f) = .ok (profile s fun x y z => D x y (z - v * t)) ∧
      inject (some coef) true v t s (some f) = .ok (profile s fun x y z => D x y (coef * (z - v * t))) ∧
      inject (some coef) false v t s (some f) = .ok (profile s fun x y z => D x y (z - v * t)) ∧
      inject .none b v t s .none = .ok (profile s fun _ _ _ => 1) := by
  have hm : ∀ {f : Callable} {D : ℝ → ℝ → ℝ → ℝ}, Means f D →
      (movedFunc v t (some f) >>= fun f => generate s f) = .ok (profile s fun x y z => D x y (z - v * t)) := fun h => by
    obtain ⟨g, e, hg⟩ := movedFunc_means h v t
    rw [e]
    exact generate_means h0 h1 hg
  refine ⟨hm h, ?_, hm h, generate_uniform s⟩
  obtain ⟨g, e, hg⟩ := speciesFunc_means h coef
  unfold inject
  rw [e]
  exact hm hg

/-- The same density as a function of `z, r` and of `x, y, z` gives the same plasma, at the beginning and at each injection. -/
theorem C119_forms {s : Slab} (h0 : 0 ≤ s.rmin) (h1 : s.rmin ≤ s.rmax) {f g : Callable} (hf : Radial f) (hg : Cartesian g)
    (u : ℝ → ℝ → ℝ) (ef : ∀ z r, 0 ≤ r → f.value [z, r] = .ok (u z r))
    (eg : ∀ x y z, g.value [x, y, z] = .ok (u z (Real.sqrt (x ^ 2 + y ^ 2)))) (boost : Option ℝ) (b : Bool) (v t : ℝ) :
    load boost b s (some f) = load boost b s (some g) ∧ inject boost b v t s (some f) = inject boost b v t s (some g) := by
  have mf : Means f fun x y z => u z (Real.sqrt (x ^ 2 + y ^ 2)) := .inr ⟨hf, u, ef, fun _ _ _ => rfl⟩
  have mg : Means g fun x y z => u z (Real.sqrt (x ^ 2 + y ^ 2)) := .inl ⟨hg, eg⟩
  rcases boost with _ | coef
  · exact ⟨(C119_load h0 h1 mf b).1.trans (C119_load h0 h1 mg b).1.symm,
      (C119_inject h0 h1 mf 0 v t b).1.trans (C119_inject h0 h1 mg 0 v t b).1.symm⟩
  · cases b
    · exact ⟨(C119_load_boost h0 h1 mf coef).2.trans (C119_load_boost h0 h1 mg coef).2.symm,
        (C119_inject h0 h1 mf coef v t false).2.2.1.trans (C119_inject h0 h1 mg coef v t false).2.2.1.symm⟩
    · exact ⟨(C119_load_boost h0 h1 mf coef).1.trans (C119_load_boost h0 h1 mg coef).1.symm,
        (C119_inject h0 h1 mf coef v t false).2.1.trans (C119_inject h0 h1 mg coef v t false).2.1.symm⟩

/-- A function with any other list of arguments (not empty) is refused with `ValueError` when particles are to be created, in any frame:
no plasma is made from it. -/
theorem C119_refuse {s : Slab} {f : Callable} (h : f.args ≠ []) (hc : ¬ Cartesian f) (hr : ¬ Radial f) (boost : Option ℝ) (b : Bool)
    (v t : ℝ) :
    (0 < s.Npz * s.Npr * s.Nptheta → ∃ m, load boost b s (some f) = .error (.valueError m)) ∧
      ∃ m, inject boost b v t s (some f) = .error (.valueError m) := by
  obtain ⟨m, e⟩ := check_wrong h hc hr
  have hs : speciesFunc boost b (some f) = .ok (some f) ∨ speciesFunc boost b (some f) = .error (.valueError m) := by
    unfold speciesFunc
    rcases boost with _ | coef
    · exact .inl rfl
    · cases b
      · exact .inl rfl
      · right; simp only [if_true, e]; rfl
  unfold load inject
  rcases hs with hs | hs <;> rw [hs]
  · refine ⟨fun hp => ⟨m, ?_⟩, m, ?_⟩
    · change generate s (some f) = _
      unfold generate
      rw [if_pos hp]
      simp only [e]; rfl
    · change (movedFunc v t (some f) >>= fun f => generate s f) = _
      unfold movedFunc
      simp only [e]; rfl
  · exact ⟨fun _ => ⟨m, rfl⟩, m, rfl⟩

/-- Not all wrong functions are refused in this way: one without arguments ends with `IndexError`. -/
theorem C119_noargs_violated (s : Slab) (hp : 0 < s.Npz * s.Npr * s.Nptheta) (d : ℝ) :
    ∃ m, load .none true s (some ⟨[], fun _ => .ok d⟩) = .error (.indexError m) :=
  ⟨"list index out of range", by
    change generate s (some ⟨[], fun _ => .ok d⟩) = _
    unfold generate
    rw [if_pos hp]
    rfl⟩

/-- And not at once: a species that has no particle in the box at the beginning (in the laboratory frame) is accepted with any function
whatever, and the run is stopped by `ValueError` when the injection begins. -/
theorem C119_late_violated (s : Slab) (hp : s.Npz = 0) (b : Bool) (v t : ℝ) (d : ℝ) (s' : Slab) :
    load .none b s (some ⟨["r", "z"], fun _ => .ok d⟩) = .ok [] ∧
      ∃ m, inject .none b v t s' (some ⟨["r", "z"], fun _ => .ok d⟩) = .error (.valueError m) := by
  refine ⟨?_, (C119_refuse (s := s') (by simp) (by simp [Cartesian]) (by simp [Radial]) .none b v t).2⟩
  change generate s (some ⟨["r", "z"], fun _ => .ok d⟩) = _
  unfold generate
  rw [if_neg (by simp [hp])]

/-! A parabolic channel as object with `__call__(self, z, r)` and as function of `x, y, z`; one particle per cell, the density is zero on
one of two rings. -/

/-- The channel of the examples. -/
private noncomputable def channel : Callable := ⟨["self", "z", "r"], fun v => match v with
  | [z, r] => .ok (if z < 3 then 1 + r ^ 2 else 0)
  | _ => .error (.typeError "")⟩

/-- The same as a function of `x, y, z`. -/
private noncomputable def channel' : Callable := ⟨["x", "y", "z"], fun v => match v with
  | [x, y, z] => .ok (if z < 3 then 1 + x ^ 2 + y ^ 2 else 0)
  | _ => .error (.typeError "")⟩

private theorem channel_means : Means channel fun x y z => if z < 3 then 1 + x ^ 2 + y ^ 2 else 0 :=
  .inr ⟨.inr rfl, fun z r => if z < 3 then 1 + r ^ 2 else 0, fun _ _ _ => rfl, fun x y z => by
    simp only
    rw [Real.sq_sqrt (by positivity), add_assoc]⟩

/-- A slab with one ring and two layers. -/
private noncomputable def slab : Slab := ⟨2, 0, 4, 1, 0, 2, 1, 5, fun _ _ _ => 0⟩

private theorem slab_profile : profile slab (fun x y z => if z < 3 then 1 + x ^ 2 + y ^ 2 else 0) = [⟨1, 0, 1, 1, 5 * 2 * (2 * Real.pi * 2 * 2)⟩] := by
  unfold profile slab
  simp [List.range_succ]
  have hpi := Real.pi_pos
  rw [List.filter_cons_of_pos (by norm_num; positivity), List.filter_cons_of_neg (by norm_num)]
  norm_num

/-- Only the particle in the channel is loaded, with its weight. -/
example : load .none true slab (some channel) = .ok [⟨1, 0, 1, 1, 5 * 2 * (2 * Real.pi * 2 * 2)⟩] :=
  slab_profile ▸ (C119_load (by norm_num [slab]) (by norm_num [slab]) channel_means true).1

/-- The other form, with the boost and the motion of the plasma. -/
example : inject (some 7) true 2 3 slab (some channel) = inject (some 7) true 2 3 slab (some channel') :=
  (C119_forms (by norm_num [slab]) (by norm_num [slab]) (.inr rfl) (.inl rfl) (fun z r => if z < 3 then 1 + r ^ 2 else 0)
    (fun _ _ _ => rfl) (fun x y z => by
      simp only [channel']
      rw [Real.sq_sqrt (by positivity), add_assoc]) (some 7) true 2 3).2

/-- The arguments in the other order are refused. -/
example : ∃ m, load .none true slab (some ⟨["r", "z"], fun _ => .ok 1⟩) = .error (.valueError m) :=
  (C119_refuse (by simp) (by simp [Cartesian]) (by simp [Radial]) .none true 0 0).1 (by norm_num [slab])

end Fbpic.DensF
