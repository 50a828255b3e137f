import Verif.Spec.Locality
import Verif.Props.SpectShift
import Verif.Lemmas.Transform
import Mathlib.Analysis.Normed.Ring.InfiniteSum
import Mathlib.Analysis.SpecialFunctions.Trigonometric.Series

/-!
# Lemmas: symbols with rapidly decreasing Fourier coefficients
-/

namespace Fbpic.Locality

open Complex

/-- The symbol `h` is an absolutely convergent sum of translations, with the weight `ρ^|n|`. -/
def SymW (ρ : ℝ) (h : ℝ → ℂ) (C : ℝ) : Prop := ∃ (T : Type) (a : T → ℂ) (n : T → ℤ) (S : ℝ),
  HasSum (fun t => ‖a t‖ * ρ ^ (n t).natAbs) S ∧ S ≤ C ∧ ∀ θ : ℝ, HasSum (fun t => a t * exp (I * (n t : ℂ) * θ)) (h θ)

variable {ρ : ℝ} {h g : ℝ → ℂ} {C C' : ℝ}

theorem SymW.nonneg (hρ : 1 ≤ ρ) (s : SymW ρ h C) : 0 ≤ C := by
  obtain ⟨T, a, n, S, h1, h2, -⟩ := s
  exact (h1.nonneg fun t => mul_nonneg (norm_nonneg _) (pow_nonneg (by linarith) _)).trans h2

theorem SymW.mono (s : SymW ρ h C) (hC : C ≤ C') : SymW ρ h C' := by
  obtain ⟨T, a, n, S, h1, h2, h3⟩ := s
  exact ⟨T, a, n, S, h1, h2.trans hC, h3⟩

theorem symW_one (z : ℂ) (n : ℤ) : SymW ρ (fun θ => z * exp (I * (n : ℂ) * θ)) (‖z‖ * ρ ^ n.natAbs) :=
  ⟨Unit, fun _ => z, fun _ => n, _, hasSum_unique _, le_rfl, fun θ => hasSum_unique (f := fun _ : Unit => z * exp (I * (n : ℂ) * θ))⟩

theorem SymW.tsum (hρ : 1 ≤ ρ) {ι : Type} {h : ι → ℝ → ℂ} {C : ι → ℝ} {H : ℝ → ℂ} (s : ∀ j, SymW ρ (h j) (C j)) (hC : Summable C)
    (hH : ∀ θ, HasSum (fun j => h j θ) (H θ)) : SymW ρ H (∑' j, C j) := by
  choose T a n S h1 h2 h3 using s
  have S0 : ∀ j, 0 ≤ S j := fun j => (h1 j).nonneg fun t => mul_nonneg (norm_nonneg _) (pow_nonneg (by linarith) _)
  have hS : Summable S := Summable.of_nonneg_of_le S0 h2 hC
  have f0 : ∀ x : (Σ j, T j), 0 ≤ ‖a x.1 x.2‖ * ρ ^ (n x.1 x.2).natAbs := fun x => mul_nonneg (norm_nonneg _) (pow_nonneg (by linarith) _)
  have sm : Summable fun x : (Σ j, T j) => ‖a x.1 x.2‖ * ρ ^ (n x.1 x.2).natAbs := by
    rw [summable_sigma_of_nonneg f0]
    refine ⟨fun j => (h1 j).summable, ?_⟩
    have : (fun j => ∑' t, ‖a j t‖ * ρ ^ (n j t).natAbs) = S := funext fun j => (h1 j).tsum_eq
    rw [this]
    exact hS
  refine ⟨(Σ j, T j), fun x => a x.1 x.2, fun x => n x.1 x.2, ∑' j, S j, ?_, Summable.tsum_le_tsum h2 hS hC, fun θ => ?_⟩
  · exact HasSum.sigma_of_hasSum hS.hasSum h1 sm
  · refine HasSum.sigma_of_hasSum (hH θ) (fun j => h3 j θ) ?_
    refine Summable.of_norm (Summable.of_nonneg_of_le (fun _ => norm_nonneg _) (fun x => ?_) sm)
    have e : ‖exp (I * (n x.1 x.2 : ℂ) * θ)‖ = 1 := by
      have : I * (n x.1 x.2 : ℂ) * θ = (((n x.1 x.2 : ℝ) * θ : ℝ) : ℂ) * I := by push_cast; ring
      rw [this, norm_exp_ofReal_mul_I]
    rw [norm_mul, e]
    exact mul_le_mul_of_nonneg_left (one_le_pow₀ hρ) (norm_nonneg _)

/-- Rapid decrease, with some constant. -/
def Loc (ρ : ℝ) (h : ℝ → ℂ) : Prop := ∃ C, SymW ρ h C

theorem Loc.add (hρ : 1 ≤ ρ) (s : Loc ρ h) (s' : Loc ρ g) : Loc ρ (fun θ => h θ + g θ) := by
  obtain ⟨C, s⟩ := s
  obtain ⟨C', s'⟩ := s'
  refine ⟨_, SymW.tsum hρ (ι := Bool) (h := fun b => if b then h else g) (C := fun b => if b then C else C') (fun b => ?_) (Summable.of_finite) fun θ => ?_⟩
  · cases b
    · exact s'
    · exact s
  · have := hasSum_fintype (fun b : Bool => (if b then h else g) θ)
    rw [Fintype.sum_bool] at this
    exact this

theorem SymW.mul (hρ : 1 ≤ ρ) (s : SymW ρ h C) (s' : SymW ρ g C') : SymW ρ (fun θ => h θ * g θ) (C * C') := by
  have hC := s.nonneg hρ
  have hC' := s'.nonneg hρ
  obtain ⟨T, a, n, S, h1, h2, h3⟩ := s
  obtain ⟨T', a', n', S', h1', h2', h3'⟩ := s'
  have f0 : ∀ t, 0 ≤ ‖a t‖ * ρ ^ (n t).natAbs := fun t => mul_nonneg (norm_nonneg _) (pow_nonneg (by linarith) _)
  have f0' : ∀ t, 0 ≤ ‖a' t‖ * ρ ^ (n' t).natAbs := fun t => mul_nonneg (norm_nonneg _) (pow_nonneg (by linarith) _)
  have sm := h1.summable.mul_of_nonneg h1'.summable f0 f0'
  have le : ∀ x : T × T', ‖a x.1 * a' x.2‖ * ρ ^ (n x.1 + n' x.2).natAbs ≤ (‖a x.1‖ * ρ ^ (n x.1).natAbs) * (‖a' x.2‖ * ρ ^ (n' x.2).natAbs) := by
    intro x
    rw [norm_mul, mul_mul_mul_comm, ← pow_add]
    exact mul_le_mul_of_nonneg_left (pow_le_pow_right₀ hρ (Int.natAbs_add_le _ _)) (mul_nonneg (norm_nonneg _) (norm_nonneg _))
  have sm' : Summable fun x : T × T' => ‖a x.1 * a' x.2‖ * ρ ^ (n x.1 + n' x.2).natAbs :=
    Summable.of_nonneg_of_le (fun x => mul_nonneg (norm_nonneg _) (pow_nonneg (by linarith) _)) le sm
  refine ⟨T × T', fun x => a x.1 * a' x.2, fun x => n x.1 + n' x.2, _, sm'.hasSum, ?_, fun θ => ?_⟩
  · have := hasSum_le le sm'.hasSum (h1.mul h1' sm)
    exact this.trans (mul_le_mul h2 h2' (h1'.nonneg f0') hC)
  · have e : ∀ m : ℤ, ‖exp (I * (m : ℂ) * θ)‖ = 1 := by
      intro m
      have : I * (m : ℂ) * θ = (((m : ℝ) * θ : ℝ) : ℂ) * I := by push_cast; ring
      rw [this, norm_exp_ofReal_mul_I]
    have sp : Summable fun x : T × T' => (a x.1 * exp (I * (n x.1 : ℂ) * θ)) * (a' x.2 * exp (I * (n' x.2 : ℂ) * θ)) := by
      refine Summable.of_norm (Summable.of_nonneg_of_le (fun _ => norm_nonneg _) (fun x => ?_) sm)
      rw [norm_mul, norm_mul, norm_mul, e, e, mul_one, mul_one]
      exact mul_le_mul (le_mul_of_one_le_right (norm_nonneg _) (one_le_pow₀ hρ)) (le_mul_of_one_le_right (norm_nonneg _) (one_le_pow₀ hρ))
        (norm_nonneg _) (f0 _)
    have := (h3 θ).mul (h3' θ) sp
    have e' : (fun x : T × T' => a x.1 * a' x.2 * exp (I * ((n x.1 + n' x.2 : ℤ) : ℂ) * θ))
        = fun x => (a x.1 * exp (I * (n x.1 : ℂ) * θ)) * (a' x.2 * exp (I * (n' x.2 : ℂ) * θ)) := by
      funext x
      have : I * ((n x.1 + n' x.2 : ℤ) : ℂ) * θ = I * (n x.1 : ℂ) * θ + I * (n' x.2 : ℂ) * θ := by push_cast; ring
      rw [this, exp_add]
      ring
    rw [e']
    exact this

theorem Loc.mul (hρ : 1 ≤ ρ) (s : Loc ρ h) (s' : Loc ρ g) : Loc ρ (fun θ => h θ * g θ) :=
  have ⟨_, s⟩ := s
  have ⟨_, s'⟩ := s'
  ⟨_, s.mul hρ s'⟩

theorem loc_const (z : ℂ) : Loc ρ (fun _ => z) := by
  have := symW_one (ρ := ρ) z 0
  simp only [Int.cast_zero, mul_zero, zero_mul, exp_zero, mul_one] at this
  exact ⟨_, this⟩

theorem Loc.neg (hρ : 1 ≤ ρ) (s : Loc ρ h) : Loc ρ (fun θ => -h θ) := by
  have := (loc_const (ρ := ρ) (-1)).mul hρ s
  simpa using this

theorem Loc.sub (hρ : 1 ≤ ρ) (s : Loc ρ h) (s' : Loc ρ g) : Loc ρ (fun θ => h θ - g θ) := by
  simpa [sub_eq_add_neg] using s.add hρ (s'.neg hρ)

theorem loc_sum (hρ : 1 ≤ ρ) {ι : Type} (s : Finset ι) {f : ι → ℝ → ℂ} (hf : ∀ j ∈ s, Loc ρ (f j)) : Loc ρ (fun θ => ∑ j ∈ s, f j θ) := by
  classical
  induction s using Finset.induction_on with
  | empty => simpa using loc_const (ρ := ρ) 0
  | insert j s hj ih =>
    simp only [Finset.sum_insert hj]
    exact (hf j (Finset.mem_insert_self _ _)).add hρ (ih fun i hi => hf i (Finset.mem_insert_of_mem hi))

/-- Power series of rapid decrease. -/
theorem loc_series (hρ : 1 ≤ ρ) {q H : ℝ → ℂ} (hq : Loc ρ q) {γ : ℕ → ℂ} {G X : ℝ} (hγ : ∀ j, ‖γ j‖ ≤ G * (X ^ j / j.factorial))
    (hH : ∀ θ, HasSum (fun j => γ j * q θ ^ j) (H θ)) : Loc ρ H := by
  obtain ⟨B, hB⟩ := hq
  have B0 := hB.nonneg hρ
  have pw : ∀ j : ℕ, SymW ρ (fun θ => q θ ^ j) (B ^ j) := by
    intro j
    induction j with
    | zero =>
      have := symW_one (ρ := ρ) 1 0
      simpa using this
    | succ j ih =>
      have := ih.mul hρ hB
      simpa only [pow_succ] using this
  have one : ∀ j, SymW ρ (fun θ => γ j * q θ ^ j) (‖γ j‖ * B ^ j) := by
    intro j
    have := (symW_one (ρ := ρ) (γ j) 0).mul hρ (pw j)
    simpa using this
  have sm : Summable fun j => ‖γ j‖ * B ^ j := by
    refine Summable.of_nonneg_of_le (fun j => mul_nonneg (norm_nonneg _) (pow_nonneg B0 _)) (fun j => ?_)
      ((Real.summable_pow_div_factorial (X * B)).mul_left G)
    calc ‖γ j‖ * B ^ j ≤ G * (X ^ j / j.factorial) * B ^ j := mul_le_mul_of_nonneg_right (hγ j) (pow_nonneg B0 _)
      _ = G * ((X * B) ^ j / j.factorial) := by rw [mul_pow]; ring
  exact ⟨_, SymW.tsum hρ one sm hH⟩

/-! ### Translations on a grid -/

section
variable {N : ℕ} [NeZero N]

/-- The operator that belongs to a symbol, on a periodic grid of `N` cells. -/
noncomputable def op (N : ℕ) [NeZero N] (dz : ℝ) (h : ℝ → ℂ) (f : ZMod N → ℂ) (j : ZMod N) : ℂ :=
  ifftZ N (fun k => h (kzTrue N dz k.val * dz) * fftZ N f k) j

theorem char_angle {dz : ℝ} (hdz : dz ≠ 0) (n : ℤ) (k : ZMod N) :
    exp (I * (n : ℂ) * ((kzTrue N dz k.val * dz : ℝ) : ℂ)) = ZMod.stdAddChar ((n : ZMod N) * k) := by
  have e := fieldShift_eq (N := N) dz hdz k
  unfold fieldShift at e
  have : (n : ZMod N) * k = n • k := by simp
  rw [this, AddChar.map_zsmul_eq_zpow, ← e, ← exp_int_mul]
  congr 1
  push_cast
  ring

theorem op_hasSum {dz : ℝ} (hdz : dz ≠ 0) {T : Type} {a : T → ℂ} {n : T → ℤ}
    (hs : ∀ θ : ℝ, HasSum (fun t => a t * exp (I * (n t : ℂ) * θ)) (h θ)) (f : ZMod N → ℂ) (j : ZMod N) :
    HasSum (fun t => a t * f (j + (n t : ZMod N))) (op N dz h f j) := by
  have e : ∀ t, a t * f (j + (n t : ZMod N)) = (1 / (N : ℂ)) * ∑ k : ZMod N,
      (a t * exp (I * (n t : ℂ) * ((kzTrue N dz k.val * dz : ℝ) : ℂ))) * fftZ N f k * exp (2 * Real.pi * I * ((j.val * k.val : ℕ) : ℂ) / (N : ℂ)) := by
    intro t
    rw [← C12_translation dz hdz (n t) f j]
    have : shiftSpectArray N (fieldShift N dz) (n t) (fftZ N f) = fun k => fftZ N f k * ZMod.stdAddChar ((n t : ZMod N) * k) :=
      funext fun k => shift_char dz hdz _ _ _
    rw [this, ifftZ, mul_left_comm, Finset.mul_sum]
    congr 1
    refine Finset.sum_congr rfl fun k _ => ?_
    rw [char_angle hdz]
    ring
  simp only [e]
  unfold op ifftZ
  exact (hasSum_sum fun k _ => ((hs _).mul_right _).mul_right _).mul_left _

end

end Fbpic.Locality
