import Verif.Model.Lasy
import Verif.Spec.Lasy
import Verif.Lemmas.Tactics
import Mathlib.Analysis.SpecialFunctions.Complex.Arg

/-! # C76: lasers read from a file -/

namespace Fbpic.Lasy

open Complex (I)
open Spec

/-! ## Acceptance -/

theorem tupleGe_iff (v w : List ℤ) : tupleGe v w = true ↔ NotOlder v w := by
  induction w generalizing v with
  | nil => simp [tupleGe, NotOlder]
  | cons b bs ih =>
    cases v with
    | nil =>
      simp [tupleGe, NotOlder]
    | cons a as =>
      by_cases h : a = b
      · subst h
        simp only [tupleGe, if_true, ih]
        unfold NotOlder
        constructor
        · rintro (h1 | ⟨p, x, y, v', w', h1, h2, h3⟩)
          · left; simpa using h1
          · right; exact ⟨a :: p, x, y, v', w', by simp [h1], by simp [h2], h3⟩
        · rintro (h1 | ⟨p, x, y, v', w', h1, h2, h3⟩)
          · left; simpa using h1
          · right
            cases p with
            | nil =>
              simp only [List.nil_append, List.cons.injEq] at h1 h2
              obtain ⟨rfl, -⟩ := h1
              obtain ⟨h2, -⟩ := h2
              exact absurd h3 (by rw [h2]; exact lt_irrefl _)
            | cons c p =>
              simp only [List.cons_append, List.cons.injEq] at h1 h2
              exact ⟨p, x, y, v', w', h1.2, h2.2, h3⟩
      · simp only [tupleGe, h, if_false, decide_eq_true_eq]
        unfold NotOlder
        constructor
        · intro h1
          right
          exact ⟨[], a, b, as, bs, rfl, rfl, h1⟩
        · rintro (h1 | ⟨p, x, y, v', w', h1, h2, h3⟩)
          · exact absurd (List.cons_prefix_cons.mp h1).1.symm h
          · cases p with
            | nil =>
              simp only [List.nil_append, List.cons.injEq] at h1 h2
              rw [h1.1, h2.1]; exact h3
            | cons c p =>
              simp only [List.cons_append, List.cons.injEq] at h1 h2
              exact absurd (h1.1.trans h2.1.symm) h

theorem checkVersion_ok (f : File) : checkVersion f = .ok () ↔
    f.software = some "lasy" ∧ ∃ v : List ℤ, f.version = some (v.map some) ∧ NotOlder v [0, 3, 0] := by
  unfold checkVersion
  cases hs : f.software with
  | none => simp [bind, Except.bind, throw, throwThe, MonadExceptOf.throw]
  | some s =>
    cases hv : f.version with
    | none => simp [bind, Except.bind, throw, throwThe, MonadExceptOf.throw]
    | some parts =>
      by_cases hn : parts.any (·.isNone) = true
      · simp only [hn, if_true, bind, Except.bind, throw, throwThe, MonadExceptOf.throw]
        constructor
        · intro h; simp at h
        · rintro ⟨-, v, h, -⟩
          injection h with h
          subst h
          simp at hn
      · have hv : ∃ v : List ℤ, parts = v.map some := by
          refine ⟨parts.map (·.getD 0), ?_⟩
          rw [List.map_map]
          conv_lhs => rw [← List.map_id parts]
          refine List.map_congr_left fun a ha => ?_
          cases a with
          | none => exact absurd (List.any_eq_true.mpr ⟨none, ha, rfl⟩) hn
          | some a => rfl
        obtain ⟨v, rfl⟩ := hv
        have hmap : (v.map some).map (·.getD 0) = v := by rw [List.map_map]; simp
        simp only [hn, hmap, bind, Except.bind, pure, Except.pure]
        have hb := tupleGe_iff v [0, 3, 0]
        by_cases hg : s = "lasy" ∧ tupleGe v [0, 3, 0] = true
        · simp only [if_pos hg]
          simp only [Bool.false_eq_true, not_true_eq_false, if_false, true_iff]
          exact ⟨by rw [hg.1], v, rfl, hb.mp hg.2⟩
        · simp only [if_neg hg]
          simp only [Bool.false_eq_true, not_false_eq_true, if_true, if_false, throw, throwThe, MonadExceptOf.throw]
          constructor
          · intro h; simp at h
          · rintro ⟨h1, w, h2, h3⟩
            simp only [Option.some.injEq] at h1 h2
            have := List.map_injective_iff.mpr (Option.some_injective ℤ) h2
            subst this
            exact absurd ⟨h1, hb.mpr h3⟩ hg

/-- Why a file may be refused. -/
theorem checkVersion_err (f : File) (e : PyErr) (h : checkVersion f = .error e) : (∃ s, e = .runtimeError s) ∨ (∃ s, e = .valueError s) := by
  unfold checkVersion at h
  cases hs : f.software with
  | none => simp [hs, bind, Except.bind, throw, throwThe, MonadExceptOf.throw] at h; left; exact ⟨_, h.symm⟩
  | some s =>
    cases hv : f.version with
    | none => simp [hs, hv, bind, Except.bind, throw, throwThe, MonadExceptOf.throw] at h; left; exact ⟨_, h.symm⟩
    | some parts =>
      simp only [hs, hv] at h
      by_cases hn : parts.any (·.isNone) = true
      · simp only [hn, if_true, bind, Except.bind, throw, throwThe, MonadExceptOf.throw] at h
        injection h with h
        right; exact ⟨_, h.symm⟩
      · simp only [hn, bind, Except.bind, pure, Except.pure, throw, throwThe, MonadExceptOf.throw, if_false, Bool.false_eq_true] at h
        split at h <;> simp at h
        left; exact ⟨_, h.symm⟩

/-- **C76** A file is accepted exactly if it was written by lasy, version 0.3.0 or later, if its geometry is `thetaMode` or `cartesian`, and
if spacing, offset and array have the dimensions of this geometry. -/
theorem C76_accepted (f : File) (tStart : ℝ) : (∃ F, fromLasyFile f tStart = .ok F) ↔
    (f.software = some "lasy" ∧ ∃ v : List ℤ, f.version = some (v.map some) ∧ NotOlder v [0, 3, 0]) ∧
    ((f.geometry = "thetaMode" ∧ f.spacing.length = 2 ∧ f.offset ≠ [] ∧ f.shape.length = 3) ∨
     (f.geometry = "cartesian" ∧ f.spacing.length = 3 ∧ f.offset.length = 3 ∧ f.shape.length = 3)) := by
  rw [← checkVersion_ok]
  unfold fromLasyFile
  cases hc : checkVersion f with
  | error e => simp [bind, Except.bind]
  | ok u =>
    cases u
    rcases ho : f.offset with _ | ⟨o0, _ | ⟨o1, _ | ⟨o2, _ | ⟨o3, os⟩⟩⟩⟩ <;>
    rcases hs : f.spacing with _ | ⟨s0, _ | ⟨s1, _ | ⟨s2, _ | ⟨s3, ss⟩⟩⟩⟩ <;>
    rcases hh : f.shape with _ | ⟨h0, _ | ⟨h1, _ | ⟨h2, _ | ⟨h3, hs⟩⟩⟩⟩ <;>
    by_cases g1 : f.geometry = "thetaMode" <;> by_cases g2 : f.geometry = "cartesian" <;>
    simp_all [bind, Except.bind, pure, Except.pure, unpack2, unpack3, throw, throwThe, MonadExceptOf.throw]

/-- **C76** An obsolete file and an unknown geometry raise `RuntimeError`. -/
theorem C76_refused (f : File) (tStart : ℝ) :
    ((f.software ≠ some "lasy" ∨ f.version = none ∨ ∃ v : List ℤ, f.version = some (v.map some) ∧ ¬NotOlder v [0, 3, 0]) →
      (∀ parts, f.version = some parts → ∀ p ∈ parts, p.isSome) → ∃ s, fromLasyFile f tStart = .error (.runtimeError s)) ∧
    (f.geometry ≠ "thetaMode" → f.geometry ≠ "cartesian" → f.offset ≠ [] → checkVersion f = .ok () →
      ∃ s, fromLasyFile f tStart = .error (.runtimeError s)) := by
  constructor
  · intro h hp
    have hne : checkVersion f ≠ .ok () := by
      intro hc
      obtain ⟨h1, v, h2, h3⟩ := (checkVersion_ok f).mp hc
      rcases h with h | h | ⟨w, h, h'⟩
      · exact h h1
      · rw [h] at h2; simp at h2
      · rw [h] at h2
        injection h2 with h2
        have := List.map_injective_iff.mpr (Option.some_injective ℤ) h2
        subst this
        exact h' h3
    have hrun : ∃ s, checkVersion f = .error (.runtimeError s) := by
      unfold checkVersion at hne ⊢
      cases hs : f.software with
      | none => simp [bind, Except.bind, throw, throwThe, MonadExceptOf.throw]
      | some s =>
        cases hv : f.version with
        | none => simp [bind, Except.bind, throw, throwThe, MonadExceptOf.throw]
        | some parts =>
          have hn : ¬parts.any (·.isNone) = true := by
            intro hany
            obtain ⟨p, hp1, hp2⟩ := List.any_eq_true.mp hany
            have := hp parts hv p hp1
            cases p with
            | none => exact absurd this (by simp)
            | some _ => exact absurd hp2 (by simp)
          simp only [hs, hv, hn, bind, Except.bind, pure, Except.pure, throw, throwThe, MonadExceptOf.throw, if_false, Bool.false_eq_true] at hne ⊢
          split
          · rename_i hh; simp [hh] at hne
          · simp
    obtain ⟨s, hs⟩ := hrun
    exact ⟨s, by unfold fromLasyFile; simp only [hs, bind, Except.bind]⟩
  · intro g1 g2 ho hc
    unfold fromLasyFile
    rcases ho' : f.offset with _ | ⟨o0, os⟩
    · exact absurd ho' ho
    · simp [hc, g1, g2, bind, Except.bind, pure, Except.pure, throw, throwThe, MonadExceptOf.throw]

/-! ## Interpolation -/

theorem floor_between (d : ℤ → ℂ) (i : ℤ) (a u : ℝ) (ha : 0 ≤ a) (ha1 : a ≤ 1) (hu : u = i + a) :
    ((⌊u⌋ + 1 - u : ℝ) : ℂ) * d ⌊u⌋ + ((u - ⌊u⌋ : ℝ) : ℂ) * d (⌊u⌋ + 1) = between a (d i) (d (i + 1)) := by
  subst hu
  unfold between
  rcases lt_or_eq_of_le ha1 with h | h
  · have : ⌊(i : ℝ) + a⌋ = i := by rw [Int.floor_intCast_add, Int.floor_eq_zero_iff.mpr ⟨ha, h⟩, add_zero]
    rw [this]; push_cast; ring
  · subst h
    have : ⌊(i : ℝ) + 1⌋ = i + 1 := by rw [Int.floor_intCast_add]; simp
    rw [this]; push_cast; ring

theorem floor_range (n : ℤ) (u : ℝ) (h0 : 0 ≤ u) (h1 : u < n - 1) : ¬⌊u⌋ < 0 ∧ ¬⌊u⌋ + 1 > n - 1 := by
  refine ⟨not_lt.mpr (Int.floor_nonneg.mpr h0), not_lt.mpr ?_⟩
  have : ⌊u⌋ < n - 1 := Int.floor_lt.mpr (by push_cast; exact h1)
  omega

theorem bilinear_between (d : ℤ → ℤ → ℂ) (i j : ℤ) (a b u v : ℝ) (ha : 0 ≤ a) (ha1 : a ≤ 1) (hb : 0 ≤ b) (hb1 : b ≤ 1)
    (hu : u = i + a) (hv : v = j + b) :
    bilinear d ⌊u⌋ ⌊v⌋ (u - ⌊u⌋) (⌊u⌋ + 1 - u) (v - ⌊v⌋) (⌊v⌋ + 1 - v) = between2 a b d i j := by
  unfold between2
  rw [← floor_between (d i) j b v hb hb1 hv, ← floor_between (d (i + 1)) j b v hb hb1 hv,
    ← floor_between (fun k => ((⌊v⌋ + 1 - v : ℝ) : ℂ) * d k ⌊v⌋ + ((v - ⌊v⌋ : ℝ) : ℂ) * d k (⌊v⌋ + 1)) i a u ha ha1 hu]
  unfold bilinear
  ring

theorem cartInterp_between (env : ℤ → ℤ → ℤ → ℂ) (dt dy dx yMin xMin : ℝ) (nt ny nx : ℤ) (i j k : ℕ) (a b c : ℝ)
    (hdt : 0 < dt) (hdy : 0 < dy) (hdx : 0 < dx)
    (ha : 0 ≤ a) (ha1 : a ≤ 1) (hb : 0 ≤ b) (hb1 : b ≤ 1) (hc : 0 ≤ c) (hc1 : c ≤ 1)
    (hi : i + a < nt - 1) (hj : j + b < ny - 1) (hk : k + c < nx - 1) :
    cartInterp env (1 / dt) (1 / dy) (1 / dx) yMin xMin nt ny nx (xMin + (k + c) * dx) (yMin + (j + b) * dy) ((i + a) * dt) =
      some (between3 a b c env i j k) := by
  have e1 : (i + a) * dt * (1 / dt) = ((i : ℤ) : ℝ) + a := by push_cast; field_simp
  have e2 : (yMin + (j + b) * dy - yMin) * (1 / dy) = ((j : ℤ) : ℝ) + b := by push_cast; field_simp; ring
  have e3 : (xMin + (k + c) * dx - xMin) * (1 / dx) = ((k : ℤ) : ℝ) + c := by push_cast; field_simp; ring
  unfold cartInterp
  simp only [e1, e2, e3]
  obtain ⟨r1, r2⟩ := floor_range nt (((i : ℤ) : ℝ) + a) (by push_cast; positivity) (by push_cast; exact hi)
  obtain ⟨r3, r4⟩ := floor_range ny (((j : ℤ) : ℝ) + b) (by push_cast; positivity) (by push_cast; exact hj)
  obtain ⟨r5, r6⟩ := floor_range nx (((k : ℤ) : ℝ) + c) (by push_cast; positivity) (by push_cast; exact hk)
  rw [if_neg (by tauto)]
  congr 1
  unfold between3
  rw [← bilinear_between (env i) j k b c _ _ hb hb1 hc hc1 rfl rfl, ← bilinear_between (env (i + 1)) j k b c _ _ hb hb1 hc hc1 rfl rfl]
  rw [← floor_between (fun l => bilinear (env l) ⌊((j : ℤ) : ℝ) + b⌋ ⌊((k : ℤ) : ℝ) + c⌋ _ _ _ _) i a _ ha ha1 rfl]
  unfold bilinear
  ring

theorem cart_ok (f : File) (tStart : ℝ) (hv : checkVersion f = .ok ()) (hg : f.geometry = "cartesian") (st sy sx ot oy ox : ℝ) (nt ny nx : ℕ)
    (hs : f.spacing = [st, sy, sx]) (ho : f.offset = [ot, oy, ox]) (hn : f.shape = [nt, ny, nx]) :
    fromLasyFile f tStart = .ok (eField f.omega f.pol ot tStart
      (cartInterp f.env (1 / (st * f.unitSI)) (1 / (sy * f.unitSI)) (1 / (sx * f.unitSI)) oy ox nt ny nx)) := by
  unfold fromLasyFile
  simp only [hv, hg, hs, ho, hn, List.map_cons, List.map_nil, unpack3, bind, Except.bind, pure, Except.pure, if_true,
    show ¬("cartesian" = "thetaMode") by decide, if_false]

/-- **C76** (Cartesian file) At the instant `t_start + (i+a)*dt` and the position of the fraction `b`, `c` of the cell `j`, `k` of the file, the
field is the one of the envelope interpolated between the nodes of the file (so that it is the recorded value at the nodes), with the
phase of the time axis of the file. This is for all points of the box except its last planes, and for a file whose axes are in SI units or start
at zero. Missing: other units (`C76_units_violated`). -/
theorem C76_cartesian_partial (f : File) (tStart : ℝ) (F : ℝ → ℝ → ℝ → ℝ → Option (ℝ × ℝ)) (hF : fromLasyFile f tStart = .ok F)
    (hg : f.geometry = "cartesian") (st sy sx ot oy ox : ℝ) (nt ny nx : ℕ)
    (hs : f.spacing = [st, sy, sx]) (ho : f.offset = [ot, oy, ox]) (hn : f.shape = [nt, ny, nx])
    (hst : 0 < st) (hsy : 0 < sy) (hsx : 0 < sx) (hunit : 0 < f.unitSI) (hSI : f.unitSI = 1 ∨ (ot = 0 ∧ oy = 0 ∧ ox = 0))
    (i j k : ℕ) (a b c z : ℝ) (ha : 0 ≤ a ∧ a ≤ 1) (hb : 0 ≤ b ∧ b ≤ 1) (hc : 0 ≤ c ∧ c ≤ 1)
    (hi : i + a < nt - 1) (hj : j + b < ny - 1) (hk : k + c < nx - 1) :
    F (axisNode f.unitSI ox sx (k + c)) (axisNode f.unitSI oy sy (j + b)) z (tStart + axisNode f.unitSI 0 st (i + a)) =
      some (realField f.omega f.pol (between3 a b c f.env i j k) (axisNode f.unitSI ot st (i + a))) := by
  have hok : ∃ F, fromLasyFile f tStart = .ok F := ⟨F, hF⟩
  have hv := (checkVersion_ok f).mpr ((C76_accepted f tStart).mp hok).1
  unfold fromLasyFile at hF
  simp only [hv, hg, hs, ho, hn, List.map_cons, List.map_nil, unpack3, bind, Except.bind, pure, Except.pure, if_true,
    show ¬("cartesian" = "thetaMode") by decide, if_false] at hF
  injection hF with hF
  subst hF
  have e1 : axisNode f.unitSI ox sx (k + c) = ox + (k + c) * (sx * f.unitSI) := by
    unfold axisNode; rcases hSI with h | ⟨-, -, h⟩ <;> rw [h] <;> ring
  have e2 : axisNode f.unitSI oy sy (j + b) = oy + (j + b) * (sy * f.unitSI) := by
    unfold axisNode; rcases hSI with h | ⟨-, h, -⟩ <;> rw [h] <;> ring
  have e3 : axisNode f.unitSI ot st (i + a) = ot + (i + a) * (st * f.unitSI) := by
    unfold axisNode; rcases hSI with h | ⟨h, -, -⟩ <;> rw [h] <;> ring
  have e4 : tStart + axisNode f.unitSI 0 st (i + a) - tStart = (i + a) * (st * f.unitSI) := by
    unfold axisNode; ring
  unfold eField
  rw [e4, e1, e2, e3, cartInterp_between f.env _ _ _ oy ox nt ny nx i j k a b c (by positivity) (by positivity) (by positivity)
    ha.1 ha.2 hb.1 hb.2 hc.1 hc.2 (by exact_mod_cast hi) (by exact_mod_cast hj) (by exact_mod_cast hk)]
  simp only [Option.bind_eq_bind, Option.bind_some, pure, realField]
  have e5 : ((tStart + axisNode f.unitSI 0 st (i + a) : ℝ) : ℂ) - tStart + ot = ((ot + (i + a) * (st * f.unitSI) : ℝ) : ℂ) := by
    unfold axisNode; push_cast; ring
  rw [e5]

theorem foldl_azimuthal (n : ℕ) (g : ℕ → ℂ) (z : ℂ) :
    ((List.range n).map (· + 1)).foldl (fun acc m => acc + g m) z = z + ∑ m ∈ Finset.range n, g (m + 1) := by
  induction n with
  | zero => simp
  | succ n ih => rw [List.range_succ, List.map_append, List.foldl_append, ih, Finset.sum_range_succ]; simp; ring

theorem expTheta (r theta : ℝ) (m : ℕ) (hr : 0 < r) :
    (((r * Real.cos theta : ℝ) + I * (r * Real.sin theta : ℝ)) / (Real.sqrt ((r * Real.cos theta) ^ 2 + (r * Real.sin theta) ^ 2) : ℝ) : ℂ) ^ m =
      (Real.cos (m * theta) : ℝ) + (Real.sin (m * theta) : ℝ) * I := by
  have hs : Real.sqrt ((r * Real.cos theta) ^ 2 + (r * Real.sin theta) ^ 2) = r := by
    rw [show (r * Real.cos theta) ^ 2 + (r * Real.sin theta) ^ 2 = r ^ 2 * (Real.sin theta ^ 2 + Real.cos theta ^ 2) by ring,
      Real.sin_sq_add_cos_sq, mul_one, Real.sqrt_sq hr.le]
  have hr0 : (r : ℂ) ≠ 0 := by exact_mod_cast hr.ne'
  rw [hs]
  have : ((r * Real.cos theta : ℝ) + I * (r * Real.sin theta : ℝ)) / (r : ℂ) = Complex.exp (theta * I) := by
    rw [Complex.exp_mul_I]; push_cast; field_simp
  rw [this, ← Complex.exp_nat_mul, ← mul_assoc, Complex.exp_mul_I]
  push_cast
  rfl

/-- **C76** (file of azimuthal modes) The same, with the interpolation in radius and time of the components of each mode, and the sum over the
modes at the angle of the point. The radius is positive, or there is only the mode 0. -/
theorem C76_thetaMode_partial (f : File) (tStart : ℝ) (F : ℝ → ℝ → ℝ → ℝ → Option (ℝ × ℝ)) (hF : fromLasyFile f tStart = .ok F)
    (hg : f.geometry = "thetaMode") (st sr ot : ℝ) (os : List ℝ) (nm nt nr : ℕ)
    (hs : f.spacing = [st, sr]) (ho : f.offset = ot :: os) (hn : f.shape = [2 * nm + 1, nt, nr])
    (hst : 0 < st) (hsr : 0 < sr) (hunit : 0 < f.unitSI) (hSI : f.unitSI = 1 ∨ ot = 0)
    (i j : ℕ) (a b z theta : ℝ) (ha : 0 ≤ a ∧ a ≤ 1) (hb : 0 ≤ b ∧ b ≤ 1)
    (hi : i + a < nt - 1) (hj : j + b < nr - 1) (hr : nm = 0 ∨ 0 < j + b) :
    F (axisNode f.unitSI 0 sr (j + b) * Real.cos theta) (axisNode f.unitSI 0 sr (j + b) * Real.sin theta) z
        (tStart + axisNode f.unitSI 0 st (i + a)) =
      some (realField f.omega f.pol (azimuthal nm theta fun c => between2 a b (f.env c) i j) (axisNode f.unitSI ot st (i + a))) := by
  have hok : ∃ F, fromLasyFile f tStart = .ok F := ⟨F, hF⟩
  have hv := (checkVersion_ok f).mpr ((C76_accepted f tStart).mp hok).1
  unfold fromLasyFile at hF
  simp only [hv, hg, hs, ho, hn, List.map_cons, List.map_nil, unpack3, unpack2, bind, Except.bind, pure, Except.pure, if_true] at hF
  injection hF with hF
  subst hF
  have hdr : 0 < sr * f.unitSI := by positivity
  have hdt : 0 < st * f.unitSI := by positivity
  set R := axisNode f.unitSI 0 sr (j + b) with hR
  have eR : R = (j + b) * (sr * f.unitSI) := by rw [hR]; unfold axisNode; ring
  have hR0 : 0 ≤ R := by rw [eR]; have := hb.1; positivity
  have hsq : Real.sqrt ((R * Real.cos theta) ^ 2 + (R * Real.sin theta) ^ 2) = R := by
    rw [show (R * Real.cos theta) ^ 2 + (R * Real.sin theta) ^ 2 = R ^ 2 * (Real.sin theta ^ 2 + Real.cos theta ^ 2) by ring,
      Real.sin_sq_add_cos_sq, mul_one, Real.sqrt_sq hR0]
  have e4 : tStart + axisNode f.unitSI 0 st (i + a) - tStart = (i + a) * (st * f.unitSI) := by
    unfold axisNode; ring
  have e1 : (i + a) * (st * f.unitSI) * (1 / (st * f.unitSI)) = ((i : ℤ) : ℝ) + a := by push_cast; field_simp
  have e2 : R * (1 / (sr * f.unitSI)) = ((j : ℤ) : ℝ) + b := by rw [eR]; push_cast; field_simp
  have hmodes : ((((2 * nm + 1) / 2 : ℕ) : ℤ) + 1 - 1).toNat = nm := by omega
  have hint : thetaInterp f.env (1 / (st * f.unitSI)) (1 / (sr * f.unitSI)) nt nr (((2 * nm + 1) / 2 : ℕ) + 1)
      (R * Real.cos theta) (R * Real.sin theta) ((i + a) * (st * f.unitSI)) =
      some (azimuthal nm theta fun c => between2 a b (f.env c) i j) := by
    unfold thetaInterp
    simp only [hsq, e1, e2, hmodes]
    obtain ⟨r1, r2⟩ := floor_range nt (((i : ℤ) : ℝ) + a) (by have := ha.1; push_cast; positivity) (by push_cast; exact hi)
    obtain ⟨r3, r4⟩ := floor_range nr (((j : ℤ) : ℝ) + b) (by have := hb.1; push_cast; positivity) (by push_cast; exact hj)
    rw [if_neg (by tauto)]
    have hdiv : ¬(1 < (((2 * nm + 1) / 2 : ℕ) : ℤ) + 1 ∧ R = 0) := by
      rintro ⟨h1, h2⟩
      rcases hr with h | h
      · omega
      · rw [eR] at h2
        have : 0 < (j + b) * (sr * f.unitSI) := by positivity
        linarith
    rw [if_neg hdiv]
    congr 1
    rw [foldl_azimuthal nm (fun m => bilinear (f.env (2 * m - 1)) _ _ _ _ _ _ * _ + bilinear (f.env (2 * m)) _ _ _ _ _ _ * _)]
    unfold azimuthal
    simp only [bilinear_between _ i j a b _ _ ha.1 ha.2 hb.1 hb.2 rfl rfl]
    congr 1
    refine Finset.sum_congr rfl fun m hm => ?_
    have hRp : 0 < R := by
      rcases hr with h | h
      · rw [h] at hm; simp at hm
      · rw [eR]; positivity
    have he := expTheta R theta (m + 1) hRp
    rw [hsq] at he
    have hre : ∀ u v : ℝ, ((u : ℂ) + v * I).re = u := by intro u v; simp
    have him : ∀ u v : ℝ, ((u : ℂ) + v * I).im = v := by intro u v; simp
    rw [he, hre, him]
    push_cast
    rfl
  unfold eField
  rw [e4, hint]
  simp only [Option.bind_eq_bind, Option.bind_some, pure, realField]
  have e5 : ((tStart + axisNode f.unitSI 0 st (i + a) : ℝ) : ℂ) - tStart + ot = ((axisNode f.unitSI ot st (i + a) : ℝ) : ℂ) := by
    unfold axisNode; rcases hSI with h | h <;> rw [h] <;> push_cast <;> ring
  rw [e5]

/-- `F` is the field of a file (any geometry), emitted from the time `tStart`. -/
theorem eField_delay (omega : ℝ) (pol : ℂ × ℂ) (o s : ℝ) (interp : ℝ → ℝ → ℝ → Option ℂ) (x y z t : ℝ) :
    eField omega pol o s interp x y z t = eField omega pol o 0 interp x y z (t - s) := by
  unfold eField; push_cast; simp only [sub_zero]

/-- **C76** `t_start` delays the pulse, and does nothing else. -/
theorem C76_delay (f : File) (tStart : ℝ) (F : ℝ → ℝ → ℝ → ℝ → Option (ℝ × ℝ)) (hF : fromLasyFile f tStart = .ok F) :
    ∃ F0, fromLasyFile f 0 = .ok F0 ∧ ∀ x y z t, F x y z t = F0 x y z (t - tStart) := by
  unfold fromLasyFile at hF ⊢
  cases hc : checkVersion f with
  | error e => simp [hc, bind, Except.bind] at hF
  | ok u =>
    rcases ho : f.offset with _ | ⟨o0, os⟩
    · simp [hc, ho, bind, Except.bind, throw, throwThe, MonadExceptOf.throw] at hF
    simp only [hc, ho, bind, Except.bind, pure, Except.pure, throw, throwThe, MonadExceptOf.throw] at hF ⊢
    by_cases g1 : f.geometry = "thetaMode"
    · simp only [g1, if_true] at hF ⊢
      cases h1 : unpack2 (f.spacing.map (· * f.unitSI)) with
      | error e => simp [h1] at hF
      | ok sp =>
        cases h2 : unpack3 f.shape with
        | error e => simp [h1, h2] at hF
        | ok n =>
          simp only [h1, h2] at hF ⊢
          injection hF with hF
          subst hF
          exact ⟨_, rfl, fun x y z t => eField_delay _ _ _ _ _ _ _ _ _⟩
    · by_cases g2 : f.geometry = "cartesian"
      · simp only [g2, if_true, show ¬("cartesian" = "thetaMode") by decide, if_false] at hF ⊢
        cases h1 : unpack3 (f.spacing.map (· * f.unitSI)) with
        | error e => simp [h1] at hF
        | ok sp =>
          cases h3 : unpack3 (o0 :: os) with
          | error e => simp [h1, h3] at hF
          | ok off =>
            cases h2 : unpack3 f.shape with
            | error e => simp [h1, h3, h2] at hF
            | ok n =>
              simp only [h1, h2, h3] at hF ⊢
              injection hF with hF
              subst hF
              exact ⟨_, rfl, fun x y z t => eField_delay _ _ _ _ _ _ _ _ _⟩
      · simp [g1, g2] at hF

/-- **C76** (Cartesian file) Nothing is emitted before `t_start`, nor outside of the box of the file and of its duration. -/
theorem C76_outside (f : File) (tStart : ℝ) (F : ℝ → ℝ → ℝ → ℝ → Option (ℝ × ℝ)) (hF : fromLasyFile f tStart = .ok F)
    (hg : f.geometry = "cartesian") (st sy sx ot oy ox : ℝ) (nt ny nx : ℕ)
    (hs : f.spacing = [st, sy, sx]) (ho : f.offset = [ot, oy, ox]) (hn : f.shape = [nt, ny, nx])
    (hst : 0 < st) (hsy : 0 < sy) (hsx : 0 < sx) (hunit : f.unitSI = 1) (x y z t : ℝ)
    (hout : t < tStart ∨ tStart + axisNode 1 0 st (nt - 1) ≤ t ∨ y < oy ∨ axisNode 1 oy sy (ny - 1) ≤ y ∨ x < ox ∨
      axisNode 1 ox sx (nx - 1) ≤ x) : F x y z t = some (0, 0) := by
  have hok : ∃ F, fromLasyFile f tStart = .ok F := ⟨F, hF⟩
  have hv := (checkVersion_ok f).mpr ((C76_accepted f tStart).mp hok).1
  unfold fromLasyFile at hF
  simp only [hv, hg, hs, ho, hn, List.map_cons, List.map_nil, unpack3, bind, Except.bind, pure, Except.pure, if_true, hunit, mul_one,
    show ¬("cartesian" = "thetaMode") by decide, if_false] at hF
  injection hF with hF
  subst hF
  have low : ∀ (u d : ℝ), 0 < d → u < 0 → ⌊u * (1 / d)⌋ < 0 := by
    intro u d hd hu
    rw [Int.floor_lt, Int.cast_zero]
    exact mul_neg_of_neg_of_pos hu (by positivity)
  have high : ∀ (u d : ℝ) (n : ℕ), 0 < d → (n - 1) * d ≤ u → ⌊u * (1 / d)⌋ + 1 > (n : ℤ) - 1 := by
    intro u d n hd hu
    have : ((n : ℤ) - 1) ≤ ⌊u * (1 / d)⌋ := by
      rw [Int.le_floor]
      push_cast
      rw [mul_one_div, le_div_iff₀ hd]
      exact hu
    omega
  have hz : cartInterp f.env (1 / st) (1 / sy) (1 / sx) oy ox nt ny nx x y (t - tStart) = some 0 := by
    unfold cartInterp
    apply if_pos
    unfold axisNode at hout
    rcases hout with h | h | h | h | h | h
    · exact Or.inl (low _ _ hst (by linarith))
    · exact Or.inr (Or.inl (high _ _ _ hst (by linarith)))
    · exact Or.inr (Or.inr (Or.inl (low _ _ hsy (by linarith))))
    · exact Or.inr (Or.inr (Or.inr (Or.inl (high _ _ _ hsy (by linarith)))))
    · exact Or.inr (Or.inr (Or.inr (Or.inr (Or.inl (low _ _ hsx (by linarith))))))
    · exact Or.inr (Or.inr (Or.inr (Or.inr (Or.inr (high _ _ _ hsx (by linarith))))))
  unfold eField
  rw [hz]
  simp

theorem between_norm (a M : ℝ) (u v : ℂ) (ha : 0 ≤ a) (ha1 : a ≤ 1) (hu : ‖u‖ ≤ M) (hv : ‖v‖ ≤ M) : ‖between a u v‖ ≤ M := by
  unfold between
  refine (norm_add_le _ _).trans ?_
  rw [norm_mul, norm_mul]
  have h1 : ‖(1 - a : ℂ)‖ = 1 - a := by
    rw [show (1 - a : ℂ) = ((1 - a : ℝ) : ℂ) by push_cast; rfl, Complex.norm_real, Real.norm_of_nonneg (by linarith)]
  rw [h1, Complex.norm_real, Real.norm_of_nonneg ha]
  nlinarith

theorem between2_norm (a b M : ℝ) (d : ℤ → ℤ → ℂ) (i j : ℤ) (ha : 0 ≤ a) (ha1 : a ≤ 1) (hb : 0 ≤ b) (hb1 : b ≤ 1)
    (h : ∀ i' j', (i' = i ∨ i' = i + 1) → (j' = j ∨ j' = j + 1) → ‖d i' j'‖ ≤ M) : ‖between2 a b d i j‖ ≤ M := by
  unfold between2
  exact between_norm _ _ _ _ ha ha1 (between_norm _ _ _ _ hb hb1 (h _ _ (.inl rfl) (.inl rfl)) (h _ _ (.inl rfl) (.inr rfl)))
    (between_norm _ _ _ _ hb hb1 (h _ _ (.inr rfl) (.inl rfl)) (h _ _ (.inr rfl) (.inr rfl)))

theorem cartInterp_cases (env : ℤ → ℤ → ℤ → ℂ) (invDt invDy invDx yMin xMin : ℝ) (nt ny nx : ℤ) (x y t : ℝ) :
    cartInterp env invDt invDy invDx yMin xMin nt ny nx x y t = some 0 ∨
    ∃ (i j k : ℤ) (a b c : ℝ), 0 ≤ i ∧ i + 1 < nt ∧ 0 ≤ j ∧ j + 1 < ny ∧ 0 ≤ k ∧ k + 1 < nx ∧
      0 ≤ a ∧ a ≤ 1 ∧ 0 ≤ b ∧ b ≤ 1 ∧ 0 ≤ c ∧ c ≤ 1 ∧ ∀ env' : ℤ → ℤ → ℤ → ℂ,
      cartInterp env' invDt invDy invDx yMin xMin nt ny nx x y t = some (between3 a b c env' i j k) := by
  set u := t * invDt with hu
  set v := (y - yMin) * invDy with hv
  set w := (x - xMin) * invDx with hw
  by_cases h : ⌊u⌋ < 0 ∨ ⌊u⌋ + 1 > nt - 1 ∨ ⌊v⌋ < 0 ∨ ⌊v⌋ + 1 > ny - 1 ∨ ⌊w⌋ < 0 ∨ ⌊w⌋ + 1 > nx - 1
  · left; unfold cartInterp; exact if_pos h
  · right
    have hu0 := Int.fract_nonneg u
    have hv0 := Int.fract_nonneg v
    have hw0 := Int.fract_nonneg w
    have hu1 := (Int.fract_lt_one u).le
    have hv1 := (Int.fract_lt_one v).le
    have hw1 := (Int.fract_lt_one w).le
    refine ⟨⌊u⌋, ⌊v⌋, ⌊w⌋, Int.fract u, Int.fract v, Int.fract w, by omega, by omega, by omega, by omega, by omega, by omega,
      hu0, hu1, hv0, hv1, hw0, hw1, fun env' => ?_⟩
    unfold cartInterp
    simp only [← hu, ← hv, ← hw]
    rw [if_neg h]
    congr 1
    unfold between3 between2 between Int.fract
    push_cast
    ring

/-- **C76** (Cartesian file) Only the array of the file is read: two files whose arrays agree within their shape give the same field at every
point (no index is out of bounds, for whatever position and time); and the field is never larger than the largest recorded value. -/
theorem C76_in_bounds (f g : File) (tStart : ℝ) (F G : ℝ → ℝ → ℝ → ℝ → Option (ℝ × ℝ)) (hF : fromLasyFile f tStart = .ok F)
    (hG : fromLasyFile g tStart = .ok G) (hg : f.geometry = "cartesian") (nt ny nx : ℕ) (hn : f.shape = [nt, ny, nx])
    (hsame : g = { f with env := g.env })
    (hagree : ∀ i j k : ℤ, 0 ≤ i → i < nt → 0 ≤ j → j < ny → 0 ≤ k → k < nx → f.env i j k = g.env i j k) (x y z t : ℝ) :
    G x y z t = F x y z t ∧
    ∀ M, 0 ≤ M → (∀ i j k : ℤ, 0 ≤ i → i < nt → 0 ≤ j → j < ny → 0 ≤ k → k < nx → ‖f.env i j k‖ ≤ M) →
      ∃ Ex Ey, F x y z t = some (Ex, Ey) ∧ |Ex| ≤ M * ‖f.pol.1‖ ∧ |Ey| ≤ M * ‖f.pol.2‖ := by
  obtain ⟨hv, hd⟩ := (C76_accepted f tStart).mp ⟨F, hF⟩
  obtain ⟨hv', -⟩ := (C76_accepted g tStart).mp ⟨G, hG⟩
  rw [← checkVersion_ok] at hv hv'
  rcases hd with ⟨hd, -⟩ | ⟨-, hs, ho, -⟩
  · rw [hg] at hd; exact absurd hd (by decide)
  obtain ⟨st, sy, sx, hs⟩ := List.length_eq_three.mp hs
  obtain ⟨ot, oy, ox, ho⟩ := List.length_eq_three.mp ho
  have k1 : g.geometry = "cartesian" := by rw [hsame]; exact hg
  have k2 : g.spacing = [st, sy, sx] := by rw [hsame]; exact hs
  have k3 : g.offset = [ot, oy, ox] := by rw [hsame]; exact ho
  have k4 : g.shape = [nt, ny, nx] := by rw [hsame]; exact hn
  have k5 : g.omega = f.omega := by rw [hsame]
  have k6 : g.pol = f.pol := by rw [hsame]
  have k7 : g.unitSI = f.unitSI := by rw [hsame]
  rw [cart_ok f tStart hv hg st sy sx ot oy ox nt ny nx hs ho hn] at hF
  rw [cart_ok g tStart hv' k1 st sy sx ot oy ox nt ny nx k2 k3 k4, k5, k6, k7] at hG
  clear hsame
  injection hF with hF
  injection hG with hG
  subst hF hG
  have hc := cartInterp_cases f.env (1 / (st * f.unitSI)) (1 / (sy * f.unitSI)) (1 / (sx * f.unitSI)) oy ox nt ny nx x y (t - tStart)
  have hc' := cartInterp_cases g.env (1 / (st * f.unitSI)) (1 / (sy * f.unitSI)) (1 / (sx * f.unitSI)) oy ox nt ny nx x y (t - tStart)
  have hexp : ‖Complex.exp (-I * f.omega * (t - tStart + ot))‖ = 1 := by
    rw [show (-I * f.omega * (t - tStart + ot) : ℂ) = ((-f.omega * (t - tStart + ot) : ℝ) : ℂ) * I by push_cast; ring,
      Complex.norm_exp_ofReal_mul_I]
  constructor
  · have : cartInterp g.env (1 / (st * f.unitSI)) (1 / (sy * f.unitSI)) (1 / (sx * f.unitSI)) oy ox nt ny nx x y (t - tStart) =
        cartInterp f.env (1 / (st * f.unitSI)) (1 / (sy * f.unitSI)) (1 / (sx * f.unitSI)) oy ox nt ny nx x y (t - tStart) := by
      by_cases hz : ∃ (i j k : ℤ) (a b c : ℝ), 0 ≤ i ∧ i + 1 < nt ∧ 0 ≤ j ∧ j + 1 < ny ∧ 0 ≤ k ∧ k + 1 < nx ∧
          0 ≤ a ∧ a ≤ 1 ∧ 0 ≤ b ∧ b ≤ 1 ∧ 0 ≤ c ∧ c ≤ 1 ∧ ∀ env' : ℤ → ℤ → ℤ → ℂ,
          cartInterp env' (1 / (st * f.unitSI)) (1 / (sy * f.unitSI)) (1 / (sx * f.unitSI)) oy ox nt ny nx x y (t - tStart) =
            some (between3 a b c env' i j k)
      · obtain ⟨i, j, k, a, b, c, i0, i1, j0, j1, k0, k1, -, -, -, -, -, -, he⟩ := hz
        rw [he, he]
        unfold between3 between2
        rw [hagree i j k (by omega) (by omega) (by omega) (by omega) (by omega) (by omega),
          hagree i j (k + 1) (by omega) (by omega) (by omega) (by omega) (by omega) (by omega),
          hagree i (j + 1) k (by omega) (by omega) (by omega) (by omega) (by omega) (by omega),
          hagree i (j + 1) (k + 1) (by omega) (by omega) (by omega) (by omega) (by omega) (by omega),
          hagree (i + 1) j k (by omega) (by omega) (by omega) (by omega) (by omega) (by omega),
          hagree (i + 1) j (k + 1) (by omega) (by omega) (by omega) (by omega) (by omega) (by omega),
          hagree (i + 1) (j + 1) k (by omega) (by omega) (by omega) (by omega) (by omega) (by omega),
          hagree (i + 1) (j + 1) (k + 1) (by omega) (by omega) (by omega) (by omega) (by omega) (by omega)]
      · rw [hc.resolve_right hz, hc'.resolve_right hz]
    unfold eField
    rw [this]
  · intro M hM hb
    have hn : ∃ e, cartInterp f.env (1 / (st * f.unitSI)) (1 / (sy * f.unitSI)) (1 / (sx * f.unitSI)) oy ox nt ny nx x y (t - tStart) =
        some e ∧ ‖e‖ ≤ M := by
      rcases hc with h | ⟨i, j, k, a, b, c, i0, i1, j0, j1, k0, k1, a0, a1, b0, b1, c0, c1, he⟩
      · exact ⟨0, h, by simpa using hM⟩
      · refine ⟨_, he _, ?_⟩
        unfold between3
        refine between_norm _ _ _ _ a0 a1 (between2_norm _ _ _ _ _ _ b0 b1 c0 c1 ?_) (between2_norm _ _ _ _ _ _ b0 b1 c0 c1 ?_) <;>
        · intro i' j' hi' hj'
          apply hb <;> omega
    obtain ⟨e, he, hM'⟩ := hn
    unfold eField
    rw [he]
    refine ⟨_, _, rfl, ?_, ?_⟩ <;>
    · refine (Complex.abs_re_le_norm _).trans ?_
      rw [norm_mul, norm_mul, hexp, mul_one]
      exact mul_le_mul_of_nonneg_right hM' (norm_nonneg _)

/-- A file of `2 × 3 × 3` samples written in a length unit of 2 m, whose axes start at 1 unit. -/
noncomputable def unitFile : File :=
  ⟨some "lasy", some [some 0, some 4, some 1], 0, (1, 0), "cartesian", 2, [1, 1, 1], [0, 1, 1], [2, 3, 3],
    fun i j k => if i = 0 ∧ j = 0 ∧ k = 0 then 1 else 0⟩

/-- **C76** (refuted part) The unit of length of the file, `gridUnitSI`, multiplies the spacing but not the offset: in `unitFile` the first
sample, recorded at `x = y = 2`, is not what is emitted there. -/
theorem C76_units_violated : ∃ F, fromLasyFile unitFile 0 = .ok F ∧
    axisNode unitFile.unitSI 1 1 0 = 2 ∧ F 2 2 0 0 ≠ some (realField unitFile.omega unitFile.pol (unitFile.env 0 0 0) 0) := by
  have hv : checkVersion unitFile = .ok () := by
    rw [checkVersion_ok]
    exact ⟨rfl, [0, 4, 1], rfl, Or.inr ⟨[0], 4, 3, [1], [0], rfl, rfl, by norm_num⟩⟩
  refine ⟨_, cart_ok unitFile 0 hv rfl 1 1 1 0 1 1 2 3 3 rfl rfl rfl, ?_, ?_⟩
  · unfold unitFile axisNode; norm_num
  · simp only [eField, unitFile, realField, sub_self, cartInterp]
    have f0 : ⌊(0 : ℝ) * (1 / (1 * 2))⌋ = 0 := by norm_num
    have f1 : ⌊((2 : ℝ) - 1) * (1 / (1 * 2))⌋ = 0 := by rw [Int.floor_eq_zero_iff]; norm_num
    rw [f0, f1]
    norm_num

theorem theta_ok (f : File) (tStart : ℝ) (hv : checkVersion f = .ok ()) (hg : f.geometry = "thetaMode") (st sr ot : ℝ) (os : List ℝ) (n0 nt nr : ℕ)
    (hs : f.spacing = [st, sr]) (ho : f.offset = ot :: os) (hn : f.shape = [n0, nt, nr]) :
    fromLasyFile f tStart = .ok (eField f.omega f.pol ot tStart
      (thetaInterp f.env (1 / (st * f.unitSI)) (1 / (sr * f.unitSI)) nt nr ((n0 / 2 : ℕ) + 1))) := by
  unfold fromLasyFile
  simp only [hv, hg, hs, ho, hn, List.map_cons, List.map_nil, unpack3, unpack2, bind, Except.bind, pure, Except.pure, if_true]

/-- **C76** (file of azimuthal modes) Nothing is emitted before `t_start`, after the duration of the file and beyond its largest radius; on the
axis, within the duration, the field is defined exactly if there is a single mode (otherwise the code divides zero by zero). -/
theorem C76_thetaMode_outside (f : File) (tStart : ℝ) (F : ℝ → ℝ → ℝ → ℝ → Option (ℝ × ℝ)) (hF : fromLasyFile f tStart = .ok F)
    (hg : f.geometry = "thetaMode") (st sr ot : ℝ) (os : List ℝ) (nm nt nr : ℕ)
    (hs : f.spacing = [st, sr]) (ho : f.offset = ot :: os) (hn : f.shape = [2 * nm + 1, nt, nr])
    (hst : 0 < st) (hsr : 0 < sr) (hunit : 0 < f.unitSI) (x y z t : ℝ) :
    (t < tStart ∨ tStart + axisNode f.unitSI 0 st (nt - 1) ≤ t ∨ axisNode f.unitSI 0 sr (nr - 1) ≤ Real.sqrt (x ^ 2 + y ^ 2) →
      F x y z t = some (0, 0)) ∧
    (tStart ≤ t → t < tStart + axisNode f.unitSI 0 st (nt - 1) → 2 ≤ nr → ((F 0 0 z t).isSome ↔ nm = 0)) := by
  obtain ⟨hv, -⟩ := (C76_accepted f tStart).mp ⟨F, hF⟩
  rw [← checkVersion_ok] at hv
  rw [theta_ok f tStart hv hg st sr ot os _ nt nr hs ho hn] at hF
  injection hF with hF
  subst hF
  have hdr : 0 < sr * f.unitSI := by positivity
  have hdt : 0 < st * f.unitSI := by positivity
  constructor
  · intro hout
    have low : ∀ (u d : ℝ), 0 < d → u < 0 → ⌊u * (1 / d)⌋ < 0 := by
      intro u d hd hu
      rw [Int.floor_lt, Int.cast_zero]
      exact mul_neg_of_neg_of_pos hu (by positivity)
    have high : ∀ (u d : ℝ) (n : ℕ), 0 < d → (n - 1) * d ≤ u → ⌊u * (1 / d)⌋ + 1 > (n : ℤ) - 1 := by
      intro u d n hd hu
      have : ((n : ℤ) - 1) ≤ ⌊u * (1 / d)⌋ := by
        rw [Int.le_floor]
        push_cast
        rw [mul_one_div, le_div_iff₀ hd]
        exact hu
      omega
    have hz : thetaInterp f.env (1 / (st * f.unitSI)) (1 / (sr * f.unitSI)) nt nr (((2 * nm + 1) / 2 : ℕ) + 1) x y (t - tStart) = some 0 := by
      unfold thetaInterp
      apply if_pos
      unfold axisNode at hout
      rcases hout with h | h | h
      · exact Or.inl (low _ _ hdt (by linarith))
      · exact Or.inr (Or.inl (high _ _ _ hdt (by linarith)))
      · exact Or.inr (Or.inr (Or.inr (high _ _ _ hdr (by linarith))))
    unfold eField
    rw [hz]
    simp
  · intro h0 h1 h2
    have hr : Real.sqrt ((0 : ℝ) ^ 2 + 0 ^ 2) = 0 := by norm_num
    unfold axisNode at h1
    obtain ⟨r1, r2⟩ := floor_range nt ((t - tStart) * (1 / (st * f.unitSI))) (by
      have : 0 ≤ t - tStart := by linarith
      positivity) (by
      push_cast
      rw [mul_one_div, div_lt_iff₀ hdt]
      linarith)
    unfold eField thetaInterp
    simp only [hr, zero_mul, Int.floor_zero, and_true]
    rw [if_neg (by push Not; refine ⟨by omega, by omega, by omega, by omega⟩)]
    by_cases hm : nm = 0
    · subst hm
      rw [if_neg (by norm_num)]
      simp
    · rw [if_pos (by omega)]
      simp [hm]

theorem thetaInterp_cases (invDt invDr : ℝ) (nt nr : ℤ) (nm : ℕ) (x y t : ℝ) :
    (∀ env, thetaInterp env invDt invDr nt nr (nm + 1) x y t = some 0) ∨ (∀ env, thetaInterp env invDt invDr nt nr (nm + 1) x y t = none) ∨
    ∃ (i j : ℤ) (a b : ℝ) (u : ℕ → ℝ × ℝ), 0 ≤ i ∧ i + 1 < nt ∧ 0 ≤ j ∧ j + 1 < nr ∧ 0 ≤ a ∧ a ≤ 1 ∧ 0 ≤ b ∧ b ≤ 1 ∧
      (∀ m, |(u m).1| ≤ 1 ∧ |(u m).2| ≤ 1) ∧ ∀ env : ℤ → ℤ → ℤ → ℂ,
      thetaInterp env invDt invDr nt nr (nm + 1) x y t = some (((List.range nm).map (· + 1)).foldl (fun acc (m : ℕ) =>
        acc + (between2 a b (env (2 * m - 1)) i j * (u m).1 + between2 a b (env (2 * m)) i j * (u m).2)) (between2 a b (env 0) i j)) := by
  set r := Real.sqrt (x ^ 2 + y ^ 2) with hr
  set v := r * invDr with hv
  set w := t * invDt with hw
  by_cases h : ⌊w⌋ < 0 ∨ ⌊w⌋ + 1 > nt - 1 ∨ ⌊v⌋ < 0 ∨ ⌊v⌋ + 1 > nr - 1
  · left; intro env; unfold thetaInterp; exact if_pos h
  right
  by_cases hax : 1 < (nm : ℤ) + 1 ∧ r = 0
  · left; intro env; unfold thetaInterp; simp only [← hr, ← hv, ← hw]; rw [if_neg h, if_pos hax]
  right
  refine ⟨⌊w⌋, ⌊v⌋, Int.fract w, Int.fract v,
    fun m => ((((x + I * y) / (r : ℝ)) ^ m : ℂ).re, (((x + I * y) / (r : ℝ)) ^ m : ℂ).im), by omega, by omega, by omega, by omega,
    Int.fract_nonneg w, (Int.fract_lt_one w).le, Int.fract_nonneg v, (Int.fract_lt_one v).le, fun m => ?_, fun env => ?_⟩
  · have hn : ‖((x + I * y) / (r : ℝ) : ℂ)‖ ≤ 1 := by
      rw [norm_div, Complex.norm_real, Real.norm_of_nonneg (Real.sqrt_nonneg _)]
      have : ‖(x + I * y : ℂ)‖ = r := by
        rw [show (x + I * y : ℂ) = x + y * I by ring, Complex.norm_add_mul_I]
      rw [this]
      exact div_self_le_one r
    have hp : ‖(((x + I * y) / (r : ℝ)) ^ m : ℂ)‖ ≤ 1 := by
      rw [norm_pow]; exact pow_le_one₀ (norm_nonneg _) hn
    exact ⟨(Complex.abs_re_le_norm _).trans hp, (Complex.abs_im_le_norm _).trans hp⟩
  · have hb : ∀ d : ℤ → ℤ → ℂ, bilinear d ⌊w⌋ ⌊v⌋ (w - ⌊w⌋) (⌊w⌋ + 1 - w) (v - ⌊v⌋) (⌊v⌋ + 1 - v) =
        between2 (Int.fract w) (Int.fract v) d ⌊w⌋ ⌊v⌋ := by
      intro d
      unfold bilinear between2 between Int.fract
      push_cast
      ring
    unfold thetaInterp
    simp only [← hr, ← hv, ← hw]
    rw [if_neg h, if_neg hax, show (((nm : ℤ) + 1 - 1).toNat) = nm by omega]
    simp only [hb]

theorem foldl_norm (l : List ℕ) (d : ℕ → ℂ) (z : ℂ) (M : ℝ) (h : ∀ m ∈ l, ‖d m‖ ≤ 2 * M) :
    ‖l.foldl (fun acc m => acc + d m) z‖ ≤ ‖z‖ + 2 * l.length * M := by
  induction l generalizing z with
  | nil => simp
  | cons m l ih =>
    have h1 := ih (z + d m) fun m' hm' => h m' (List.mem_cons_of_mem _ hm')
    have h2 := norm_add_le z (d m)
    have h3 := h m List.mem_cons_self
    rw [List.foldl_cons]
    refine h1.trans ?_
    push_cast [List.length_cons]
    nlinarith

/-- **C76** (file of azimuthal modes) Only the array of the file is read: two files whose arrays of `2 nm + 1` components agree within their
shape give the same field (or both none) at every point; and where it is defined, the field is never larger than the largest recorded value
times the number of components. -/
theorem C76_thetaMode_in_bounds (f g : File) (tStart : ℝ) (F G : ℝ → ℝ → ℝ → ℝ → Option (ℝ × ℝ)) (hF : fromLasyFile f tStart = .ok F)
    (hG : fromLasyFile g tStart = .ok G) (hg : f.geometry = "thetaMode") (nm nt nr : ℕ) (hn : f.shape = [2 * nm + 1, nt, nr])
    (hsame : g = { f with env := g.env })
    (hagree : ∀ c i j : ℤ, 0 ≤ c → c < 2 * nm + 1 → 0 ≤ i → i < nt → 0 ≤ j → j < nr → f.env c i j = g.env c i j) (x y z t : ℝ) :
    G x y z t = F x y z t ∧
    ∀ M, 0 ≤ M → (∀ c i j : ℤ, 0 ≤ c → c < 2 * nm + 1 → 0 ≤ i → i < nt → 0 ≤ j → j < nr → ‖f.env c i j‖ ≤ M) →
      ∀ Ex Ey, F x y z t = some (Ex, Ey) → |Ex| ≤ (2 * nm + 1) * M * ‖f.pol.1‖ ∧ |Ey| ≤ (2 * nm + 1) * M * ‖f.pol.2‖ := by
  obtain ⟨hv, hd⟩ := (C76_accepted f tStart).mp ⟨F, hF⟩
  obtain ⟨hv', -⟩ := (C76_accepted g tStart).mp ⟨G, hG⟩
  rw [← checkVersion_ok] at hv hv'
  rcases hd with ⟨-, hs, ho, -⟩ | ⟨hd, -⟩
  swap
  · rw [hg] at hd; exact absurd hd (by decide)
  obtain ⟨st, sr, hs⟩ := List.length_eq_two.mp hs
  obtain ⟨ot, os, ho⟩ := List.exists_cons_of_ne_nil ho
  have k1 : g.geometry = "thetaMode" := by rw [hsame]; exact hg
  have k2 : g.spacing = [st, sr] := by rw [hsame]; exact hs
  have k3 : g.offset = ot :: os := by rw [hsame]; exact ho
  have k4 : g.shape = [2 * nm + 1, nt, nr] := by rw [hsame]; exact hn
  have k5 : g.omega = f.omega := by rw [hsame]
  have k6 : g.pol = f.pol := by rw [hsame]
  have k7 : g.unitSI = f.unitSI := by rw [hsame]
  rw [theta_ok f tStart hv hg st sr ot os _ nt nr hs ho hn, show (2 * nm + 1) / 2 = nm by omega] at hF
  rw [theta_ok g tStart hv' k1 st sr ot os _ nt nr k2 k3 k4, k5, k6, k7, show (2 * nm + 1) / 2 = nm by omega] at hG
  clear hsame
  injection hF with hF
  injection hG with hG
  subst hF hG
  have hexp : ‖Complex.exp (-I * f.omega * (t - tStart + ot))‖ = 1 := by
    rw [show (-I * f.omega * (t - tStart + ot) : ℂ) = ((-f.omega * (t - tStart + ot) : ℝ) : ℂ) * I by push_cast; ring,
      Complex.norm_exp_ofReal_mul_I]
  unfold eField
  rcases thetaInterp_cases (1 / (st * f.unitSI)) (1 / (sr * f.unitSI)) nt nr nm x y (t - tStart) with h | h |
    ⟨i, j, a, b, u, i0, i1, j0, j1, a0, a1, b0, b1, hu, he⟩
  · rw [h, h]
    refine ⟨rfl, fun M hM _ Ex Ey hE => ?_⟩
    have hz : (0 : ℝ) ≤ (2 * nm + 1) * M := by positivity
    simp only [bind, Option.bind, pure, zero_mul, Complex.zero_re, Option.some.injEq, Prod.mk.injEq] at hE
    rw [← hE.1, ← hE.2, abs_zero]
    exact ⟨mul_nonneg hz (norm_nonneg _), mul_nonneg hz (norm_nonneg _)⟩
  · rw [h, h]
    exact ⟨rfl, fun M _ _ Ex Ey hE => by simp at hE⟩
  · rw [he, he]
    have hcomp : ∀ c : ℤ, 0 ≤ c → c < 2 * nm + 1 → between2 a b (g.env c) i j = between2 a b (f.env c) i j := by
      intro c c0 c1
      unfold between2
      rw [hagree c i j c0 c1 (by omega) (by omega) (by omega) (by omega), hagree c i (j + 1) c0 c1 (by omega) (by omega) (by omega) (by omega),
        hagree c (i + 1) j c0 c1 (by omega) (by omega) (by omega) (by omega),
        hagree c (i + 1) (j + 1) c0 c1 (by omega) (by omega) (by omega) (by omega)]
    constructor
    · rw [hcomp 0 le_rfl (by omega)]
      congr 2
      refine List.foldl_ext _ _ _ fun acc m hm => ?_
      rw [List.mem_map] at hm
      obtain ⟨k, hk, rfl⟩ := hm
      rw [List.mem_range] at hk
      rw [hcomp _ (by push_cast; omega) (by push_cast; omega), hcomp _ (by push_cast; omega) (by push_cast; omega)]
    · intro M hM hb Ex Ey hE
      have hle : ∀ c : ℤ, 0 ≤ c → c < 2 * nm + 1 → ‖between2 a b (f.env c) i j‖ ≤ M := by
        intro c c0 c1
        refine between2_norm _ _ _ _ _ _ a0 a1 b0 b1 fun i' j' hi' hj' => ?_
        apply hb <;> omega
      have hsum := foldl_norm ((List.range nm).map (· + 1))
        (fun m : ℕ => between2 a b (f.env (2 * m - 1)) i j * (u m).1 + between2 a b (f.env (2 * m)) i j * (u m).2)
        (between2 a b (f.env 0) i j) M (by
          intro m hm
          rw [List.mem_map] at hm
          obtain ⟨k, hk, rfl⟩ := hm
          rw [List.mem_range] at hk
          have l1 := hle (2 * ((k + 1 : ℕ) : ℤ) - 1) (by push_cast; omega) (by push_cast; omega)
          have l2 := hle (2 * ((k + 1 : ℕ) : ℤ)) (by push_cast; omega) (by push_cast; omega)
          refine (norm_add_le _ _).trans ?_
          rw [norm_mul, norm_mul, Complex.norm_real, Complex.norm_real, Real.norm_eq_abs, Real.norm_eq_abs]
          have m1 := mul_le_mul l1 (hu (k + 1)).1 (abs_nonneg _) hM
          have m2 := mul_le_mul l2 (hu (k + 1)).2 (abs_nonneg _) hM
          linarith)
      have h0 := hle 0 le_rfl (by omega)
      rw [List.length_map, List.length_range] at hsum
      have htot := hsum.trans (show _ ≤ (2 * (nm : ℝ) + 1) * M by nlinarith)
      simp only [bind, Option.bind, pure, Option.some.injEq, Prod.mk.injEq] at hE
      rw [← hE.1, ← hE.2]
      constructor <;>
      · refine (Complex.abs_re_le_norm _).trans ?_
        rw [norm_mul, norm_mul, hexp, mul_one]
        exact mul_le_mul_of_nonneg_right htot (norm_nonneg _)

/-- A file with the modes 0 and 1. -/
noncomputable def modeFile : File :=
  ⟨some "lasy", some [some 0, some 3, some 0], 2, (1, I), "thetaMode", 1, [1 / 2, 1 / 4], [-5, 0], [3, 4, 4], fun m i j => m + 2 * i + 3 * j⟩

-- The hypotheses are met: at `r = 3/8` (half-way between the samples 1 and 2), `theta = pi/2` and a quarter of the first interval of time.
example : ∃ F, fromLasyFile modeFile 7 = .ok F ∧
    F ((1 + 1 / 2) * (1 / 4) * Real.cos (Real.pi / 2)) ((1 + 1 / 2) * (1 / 4) * Real.sin (Real.pi / 2)) 0 (7 + 1 / 8) =
      some (realField 2 (1, I) (azimuthal 1 (Real.pi / 2) fun c => between2 (1 / 4) (1 / 2) (modeFile.env c) 0 1) (-5 + 1 / 8)) := by
  have hv : checkVersion modeFile = .ok () := by
    rw [checkVersion_ok]
    exact ⟨rfl, [0, 3, 0], rfl, Or.inl (List.prefix_refl _)⟩
  refine ⟨_, theta_ok modeFile 7 hv rfl (1 / 2) (1 / 4) (-5) [0] 3 4 4 rfl rfl rfl, ?_⟩
  have h := C76_thetaMode_partial modeFile 7 _ (theta_ok modeFile 7 hv rfl (1 / 2) (1 / 4) (-5) [0] 3 4 4 rfl rfl rfl) rfl (1 / 2) (1 / 4) (-5) [0]
    1 4 4 rfl rfl rfl (by norm_num) (by norm_num) one_pos (Or.inl rfl) 0 1 (1 / 4) (1 / 2) 0 (Real.pi / 2) (by norm_num) (by norm_num)
    (by norm_num) (by norm_num) (Or.inr (by norm_num))
  have e1 : axisNode modeFile.unitSI 0 (1 / 4) ((1 : ℕ) + 1 / 2) = (1 + 1 / 2) * (1 / 4) := by unfold axisNode modeFile; norm_num
  have e2 : axisNode modeFile.unitSI 0 (1 / 2) ((0 : ℕ) + 1 / 4) = 1 / 8 := by unfold axisNode modeFile; norm_num
  have e3 : axisNode modeFile.unitSI (-5) (1 / 2) ((0 : ℕ) + 1 / 4) = -5 + 1 / 8 := by unfold axisNode modeFile; norm_num
  rw [e1, e2, e3] at h
  exact h

-- The hypotheses of the bounds are met, with an array that differs outside of the shape of the file.
example : ∃ F G, fromLasyFile modeFile 7 = .ok F ∧
    fromLasyFile { modeFile with env := fun m i j => if m < 3 ∧ i < 4 ∧ j < 4 then modeFile.env m i j else 17 } 7 = .ok G ∧
    G 1 0 0 8 = F 1 0 0 8 := by
  have hv : checkVersion modeFile = .ok () := by
    rw [checkVersion_ok]
    exact ⟨rfl, [0, 3, 0], rfl, Or.inl (List.prefix_refl _)⟩
  have h1 := theta_ok modeFile 7 hv rfl (1 / 2) (1 / 4) (-5) [0] 3 4 4 rfl rfl rfl
  have h2 := theta_ok { modeFile with env := fun m i j => if m < 3 ∧ i < 4 ∧ j < 4 then modeFile.env m i j else 17 } 7 hv rfl
    (1 / 2) (1 / 4) (-5) [0] 3 4 4 rfl rfl rfl
  refine ⟨_, _, h1, h2, (C76_thetaMode_in_bounds _ _ 7 _ _ h1 h2 rfl 1 4 4 rfl rfl (fun c i j _ hc _ hi _ hj => ?_) 1 0 0 8).1⟩
  show _ = if c < 3 ∧ i < 4 ∧ j < 4 then modeFile.env c i j else 17
  rw [if_pos ⟨by push_cast at hc; omega, by push_cast at hi; omega, by push_cast at hj; omega⟩]

-- A file in Cartesian geometry, at one of its nodes.
example : ∃ F, fromLasyFile { unitFile with unitSI := 1 } 3 = .ok F ∧
    F (axisNode 1 1 1 (0 + 0)) (axisNode 1 1 1 (0 + 0)) 0 (3 + axisNode 1 0 1 (0 + 0)) =
      some (realField 0 (1, 0) (between3 0 0 0 unitFile.env 0 0 0) (axisNode 1 0 1 (0 + 0))) := by
  have hv : checkVersion { unitFile with unitSI := 1 } = .ok () := by
    rw [checkVersion_ok]
    exact ⟨rfl, [0, 4, 1], rfl, Or.inr ⟨[0], 4, 3, [1], [0], rfl, rfl, by norm_num⟩⟩
  refine ⟨_, cart_ok _ 3 hv rfl 1 1 1 0 1 1 2 3 3 rfl rfl rfl, ?_⟩
  have h := C76_cartesian_partial { unitFile with unitSI := 1 } 3 _ (cart_ok _ 3 hv rfl 1 1 1 0 1 1 2 3 3 rfl rfl rfl) rfl 1 1 1 0 1 1 2 3 3
    rfl rfl rfl one_pos one_pos one_pos one_pos (Or.inl rfl) 0 0 0 0 0 0 0 (by norm_num) (by norm_num) (by norm_num)
    (by norm_num) (by norm_num) (by norm_num)
  simp only [Nat.cast_zero] at h
  exact h

end Fbpic.Lasy
