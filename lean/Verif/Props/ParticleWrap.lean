import Verif.Props.ParticleExchange
import Verif.Lemmas.Float64
import Verif.Spec.Float64

/-!
# C08: integer attributes in a transfer; C09: periodic wrapping; C10: open boundaries
-/

namespace Fbpic
open _root_.Spec

variable {K : Type} [Field K] [LinearOrder K] [IsStrictOrderedRing K] [FloorRing K]

/-! ### C09 -/

/-- **C09.** For every box `zmin < zmax` and every position the wrapping loops terminate (any
sufficient fuel gives the same result `z'`), `z'` is in the box, differs from `z` by a whole number
of box lengths, and equals `z` if `z` was already inside. -/
theorem C09_wrap (zmin zmax : K) (hbox : zmin < zmax) (z : K) :
    ∃ z' : K, (∃ N : ℕ, ∀ fuel, N ≤ fuel → wrapZ zmin zmax fuel z = some z') ∧
      zmin ≤ z' ∧ z' < zmax ∧ (∃ k : ℤ, z' = z + (k : K) * (zmax - zmin)) ∧
      (zmin ≤ z → z < zmax → z' = z) := by
  obtain ⟨z1, h1, h2, k1, h3, h4, h5⟩ := loopDown_spec zmax (zmax - zmin) (by linarith) z
  obtain ⟨z2, g1, g2, k2, g3, g4, g5⟩ := loopUp_spec zmin (zmax - zmin) (by linarith) z1
  obtain ⟨N1, h1⟩ := h1
  obtain ⟨N2, g1⟩ := g1
  refine ⟨z2, ⟨max N1 N2, fun f hf => ?_⟩, g2, ?_, ⟨(k2 : ℤ) - k1, ?_⟩, ?_⟩
  · rw [wrapZ, h1 f (le_trans (le_max_left _ _) hf)]
    exact g1 f (le_trans (le_max_right _ _) hf)
  · rcases g4 with h | h
    · rw [h]; exact h2
    · linarith
  · rw [g3, h3]; push_cast; ring
  · intro hz1 hz2
    have e1 : z1 = z := h5 hz2
    have e2 : z2 = z1 := g5 (by rw [e1]; exact hz1)
    rw [e2, e1]

/-- **C09** (idempotence): wrapping twice equals wrapping once, for every fuel for which the loops
end. -/
theorem C09_idempotent (zmin zmax : K) (hbox : zmin < zmax) (z z' : K) (fuel : ℕ)
    (h : wrapZ zmin zmax fuel z = some z') :
    zmin ≤ z' ∧ z' < zmax ∧ wrapZ zmin zmax (fuel + 1) z' = some z' := by
  obtain ⟨z2, ⟨N, hN⟩, h1, h2, _, _⟩ := C09_wrap zmin zmax hbox z
  have e : z2 = z' := by
    have a := hN (max N fuel) (le_max_left _ _)
    have b := wrapZ_mono h (le_max_right N fuel)
    rw [a] at b; exact Option.some.inj b
  subst e
  refine ⟨h1, h2, ?_⟩
  simp [wrapZ, loopDown, loopUp, not_le.mpr h2, not_lt.mpr h1]

/-- **C09** (whole species): with `n_guard = 0` the exchange on a rank gives, for enough fuel, the
same particles in the same order with only `z` changed, by whole box lengths, into the box. -/
theorem C09_species (c : Comm) (hng : c.nGuard = 0) (dz : K) (grid : ℕ → InterpGrid K) (r : ℕ)
    (hbox : (grid r).zmin < (grid r).zmax) (t i : Bool) (P : ℕ → List (Ptcl K)) :
    ∃ N, ∀ fuel, N ≤ fuel → ∃ zs : List K,
      exchangeParticles c dz grid none fuel (fun q => Species.ofList t i (P q)) r
        = some { Species.ofList t i (P r) with z := zs } ∧
      List.Forall₂ (fun (p : Ptcl K) z' => (grid r).zmin ≤ z' ∧ z' < (grid r).zmax ∧
        ∃ k : ℤ, z' = p.z + (k : K) * ((grid r).zmax - (grid r).zmin)) (P r) zs := by
  have key : ∀ l : List (Ptcl K), ∃ N, ∀ fuel, N ≤ fuel → ∃ zs : List K,
      (l.map Ptcl.z).mapM (wrapZ (grid r).zmin (grid r).zmax fuel) = some zs ∧
      List.Forall₂ (fun (p : Ptcl K) z' => (grid r).zmin ≤ z' ∧ z' < (grid r).zmax ∧
        ∃ k : ℤ, z' = p.z + (k : K) * ((grid r).zmax - (grid r).zmin)) l zs := by
    intro l
    induction l with
    | nil => exact ⟨0, fun _ _ => ⟨[], rfl, List.Forall₂.nil⟩⟩
    | cons p l ih =>
      obtain ⟨N, hN⟩ := ih
      obtain ⟨z', ⟨M, hM⟩, h1, h2, h3, _⟩ := C09_wrap (grid r).zmin (grid r).zmax hbox p.z
      refine ⟨max N M, fun fuel hf => ?_⟩
      obtain ⟨zs, e1, e2⟩ := hN fuel (le_trans (le_max_left _ _) hf)
      refine ⟨z' :: zs, ?_, List.Forall₂.cons ⟨h1, h2, h3⟩ e2⟩
      simp [List.mapM_cons, hM fuel (le_trans (le_max_right _ _) hf), e1]
  obtain ⟨N, hN⟩ := key (P r)
  refine ⟨N, fun fuel hf => ?_⟩
  obtain ⟨zs, e1, e2⟩ := hN fuel hf
  refine ⟨zs, ?_, e2⟩
  simp only [exchangeParticles, hng, if_true]
  have : (Species.ofList t i (P r)).z = (P r).map Ptcl.z := rfl
  rw [this, e1]; rfl

/-- Non-vacuity: several box lengths away on both sides. -/
example : wrapZ (-1 : ℚ) 3 5 14 = some 2 ∧ wrapZ (-1 : ℚ) 3 5 (-9) = some (-1) ∧
    wrapZ (-1 : ℚ) 3 5 3 = some (-1) ∧ wrapZ (-1 : ℚ) 3 2 14 = none := by decide +kernel

/-! ### C08 -/

/-- **C08** (leftward transfers, partial): a particle that leaves to the left arrives on the left
neighbour with all attributes, in particular `id` and ionization level, unchanged (`z` translated
by the box length if it crosses the periodic end). Missing: the rightward transfer, for which the
property is false (`C08_right_violated`). -/
theorem C08_left_partial {a : CommArgs K} {c : Comm} {dz : K} {w : World K} {lo hi : ℕ → K}
    {glo ghi : K} (h : Reached a c dz w) (e : Edges c dz w lo hi glo ghi) (hng : c.nGuard ≠ 0)
    (t i : Bool) (fuel : ℕ) (P : ℕ → List (Ptcl K)) (r l : ℕ) (hr : r < c.size)
    (hl : c.leftProc r = some (l : ℤ)) (p : Ptcl K) (hp : p ∈ P r) (hlt : p.z < lo r) :
    ∃ P' : ℕ → List (Ptcl K),
      (∀ r < c.size, exchangeParticles c dz (fun q => w.interp q 0) none fuel
          (fun q => Species.ofList t i (P q)) r = some (Species.ofList t i (P' r))) ∧
      (if r = 0 then p.shift ((c.NzGlobal : K) * dz) else p) ∈ P' l := by
  obtain ⟨f1, f2, -⟩ := e.facts h
  refine ⟨_, fun r hr => by
    rw [exchangeParticles, if_neg hng]
    exact congrArg some (exchangeAperiodic_ofList c dz lo hi P none t i _ f1 f2
      (fun h => absurd rfl h) r hr), ?_⟩
  obtain ⟨hls, hback⟩ := Comm.right_of_left hr hl
  rw [List.mem_append]
  right
  have : p ∈ (P r).filter (belowLo (lo r)) := by simp [belowLo, hp, hlt]
  simp only [Option.getD_none, ite_self, fromRight, hback, Int.toNat_natCast, List.mem_map]
  refine ⟨p, this, ?_⟩
  by_cases h0 : r = 0 <;> simp [h0]

/-- **C08** (rightward transfers): what arrives are the bits of the floating-point encoding of the
id and of the level. -/
theorem C08_right_received {a : CommArgs K} {c : Comm} {dz : K} {w : World K} {lo hi : ℕ → K}
    {glo ghi : K} (h : Reached a c dz w) (e : Edges c dz w lo hi glo ghi) (hng : c.nGuard ≠ 0)
    (t i : Bool) (fuel : ℕ) (P : ℕ → List (Ptcl K)) (r q : ℕ) (hr : r < c.size)
    (hq : c.rightProc r = some (q : ℤ)) (p : Ptcl K) (hp : p ∈ P r) (hlt : hi r < p.z) :
    ∃ P' : ℕ → List (Ptcl K),
      (∀ r < c.size, exchangeParticles c dz (fun q => w.interp q 0) none fuel
          (fun q => Species.ofList t i (P q)) r = some (Species.ofList t i (P' r))) ∧
      ∃ p' ∈ P' q, p'.noInts = (if r + 1 = c.size then p.shift (-((c.NzGlobal : K) * dz)) else p).noInts ∧
        p'.id = f64Bits p.id ∧ p'.level = f64Bits p.level := by
  obtain ⟨f1, f2, -⟩ := e.facts h
  refine ⟨_, fun r hr => by
    rw [exchangeParticles, if_neg hng]
    exact congrArg some (exchangeAperiodic_ofList c dz lo hi P none t i _ f1 f2
      (fun h => absurd rfl h) r hr), ?_⟩
  obtain ⟨hls, hback⟩ := Comm.left_of_right hr hq
  have hm : p ∈ (P r).filter (aboveHi (hi r)) := by simp [aboveHi, hp, hlt]
  refine ⟨(if (r : ℤ) = (c.size : ℤ) - 1 then Ptcl.shift (-((c.NzGlobal : K) * dz)) else id)
    (convPtcl f64Bits p), ?_, ?_⟩
  · rw [List.mem_append, List.mem_append]
    left; left
    simp only [fromLeft, hback, Int.toNat_natCast]
    exact List.mem_map_of_mem (List.mem_map_of_mem hm)
  · by_cases h0 : r + 1 = c.size
    · have h1 : (r : ℤ) = (c.size : ℤ) - 1 := by omega
      simp [h0, h1, Ptcl.shift, Ptcl.noInts, convPtcl]
    · have h1 : ¬ (r : ℤ) = (c.size : ℤ) - 1 := by omega
      simp [h0, h1, Ptcl.noInts, convPtcl]

/-- **C08** (violation, general): every id or level between 1 and `1023 * 2^52 - 1` arrives as
another number. -/
theorem C08_right_changed (v : ℕ) (h0 : 0 < v) (h1 : v < 1023 * 2 ^ 52) : f64Bits v ≠ v := by
  have := f64Bits_ge v h0
  omega

private theorem f64Value_eq (e x : ℕ) (hx : x ≤ 2 ^ 52) :
    Fbpic.Spec.f64Value ((1023 + e) * 2 ^ 52 + x) = ((2 ^ 52 + x : ℕ) : ℚ) * 2 ^ e / 2 ^ 52 := by
  unfold Fbpic.Spec.f64Value
  rcases Nat.lt_or_ge x (2 ^ 52) with h | h
  · have h1 : ((1023 + e) * 2 ^ 52 + x) % 2 ^ 52 = x := by omega
    have h2 : ((1023 + e) * 2 ^ 52 + x) / 2 ^ 52 = 1023 + e := by omega
    rw [h1, h2]
    have : (((1023 + e : ℕ) : ℤ) - 1023) = (e : ℤ) := by omega
    rw [this, zpow_natCast]
    push_cast; field_simp; norm_num
  · have hx : x = 2 ^ 52 := by omega
    subst hx
    have h1 : ((1023 + e) * 2 ^ 52 + 2 ^ 52) % 2 ^ 52 = 0 := by omega
    have h2 : ((1023 + e) * 2 ^ 52 + 2 ^ 52) / 2 ^ 52 = 1024 + e := by omega
    rw [h1, h2]
    have : (((1024 + e : ℕ) : ℤ) - 1023) = ((e + 1 : ℕ) : ℤ) := by omega
    rw [this, zpow_natCast]
    push_cast; rw [pow_succ]; field_simp; ring

/-- **C08** (the encoding): what arrives on the right is the bit pattern of the floating-point number nearest
to the id or level: it represents it exactly below `2^53`, and within half a unit of the last of
the 53 binary digits above. -/
theorem C08_right_bits (v : ℕ) (h0 : 0 < v) :
    (v < 2 ^ 53 → Fbpic.Spec.f64Value (f64Bits v) = v) ∧
    |Fbpic.Spec.f64Value (f64Bits v) - v| ≤ 2 ^ Nat.log 2 v / 2 ^ 53 := by
  have hlo : 2 ^ Nat.log 2 v ≤ v := Nat.pow_log_le_self 2 (by omega)
  have hhi : v < 2 ^ (Nat.log 2 v + 1) := Nat.lt_pow_succ_log_self (by omega) v
  set e := Nat.log 2 v with he
  by_cases h : e ≤ 52
  · have hv : Fbpic.Spec.f64Value (f64Bits v) = v := by
      unfold f64Bits
      rw [if_neg (by omega)]
      simp only [← he, h, if_true]
      have p1 : 2 ^ 52 = 2 ^ e * 2 ^ (52 - e) := by rw [← pow_add]; congr 1; omega
      have h1 : 2 ^ 52 ≤ v * 2 ^ (52 - e) := by rw [p1]; exact Nat.mul_le_mul_right _ hlo
      have h2 : v * 2 ^ (52 - e) < 2 ^ 53 := by
        have : 2 ^ 53 = 2 ^ (e + 1) * 2 ^ (52 - e) := by rw [← pow_add]; congr 1; omega
        rw [this]; exact Nat.mul_lt_mul_of_pos_right hhi (by positivity)
      rw [f64Value_eq e _ (by omega)]
      rw [Nat.add_sub_cancel' h1]
      have p2 : (2 : ℚ) ^ 52 = 2 ^ e * 2 ^ (52 - e) := by rw [← pow_add]; congr 1; omega
      rw [p2]; push_cast; field_simp
    refine ⟨fun _ => hv, ?_⟩
    rw [hv, sub_self, abs_zero]; positivity
  · have hge : 2 ^ 53 ≤ v := le_trans (Nat.pow_le_pow_right (by omega) (by omega)) hlo
    refine ⟨fun hlt => absurd hlt (by omega), ?_⟩
    unfold f64Bits
    rw [if_neg (by omega)]
    simp only [← he, h, if_false]
    set s := 2 ^ (e - 52) with hs
    have hs0 : 0 < s := by positivity
    have p1 : 2 ^ e = 2 ^ 52 * s := by rw [hs, ← pow_add]; congr 1; omega
    have p2 : 2 ^ (e + 1) = 2 ^ 53 * s := by rw [hs, ← pow_add]; congr 1; omega
    have q1 : 2 ^ 52 ≤ v / s := by
      rw [Nat.le_div_iff_mul_le hs0, ← p1]; exact hlo
    have q2 : v / s < 2 ^ 53 := by
      rw [Nat.div_lt_iff_lt_mul hs0, ← p2]; exact hhi
    have hdm := Nat.div_add_mod v s
    have hmod := Nat.mod_lt v hs0
    generalize hq : v / s = q at *
    generalize hr : v % s = r at *
    set m := if s < 2 * r ∨ s = 2 * r ∧ q % 2 = 1 then q + 1 else q with hm
    have hm1 : 2 ^ 52 ≤ m ∧ m ≤ 2 ^ 53 := by
      rw [hm]; split_ifs <;> omega
    rw [f64Value_eq e _ (by omega)]
    rw [Nat.add_sub_cancel' hm1.1]
    have p3 : (2 : ℚ) ^ e = 2 ^ 52 * (s : ℚ) := by exact_mod_cast p1
    have hv : (v : ℚ) = s * q + r := by exact_mod_cast hdm.symm
    rw [p3]
    have e1 : (m : ℚ) * (2 ^ 52 * s) / 2 ^ 52 = m * s := by field_simp
    have e2 : (2 : ℚ) ^ 52 * s / 2 ^ 53 = s / 2 := by norm_num; ring
    rw [e1, e2, hv]
    rw [hm]
    split_ifs with hc
    · have : (s : ℚ) ≤ 2 * r := by
        have : s ≤ 2 * r := by omega
        exact_mod_cast this
      have : (r : ℚ) < s := by exact_mod_cast hmod
      push_cast
      rw [abs_le]; constructor <;> linarith
    · have : (2 * r : ℚ) ≤ s := by
        have : 2 * r ≤ s := by omega
        exact_mod_cast this
      have : (0 : ℚ) ≤ r := by positivity
      rw [abs_le]; constructor <;> linarith

/-- **C08** is violated: in a reachable state, a tracked particle with id 5 and level 2 that crosses
from rank 0 to rank 1 arrives with another id and level. -/
theorem C08_right_violated :
    Reached exArgsP exCommP 1 (World.start 0 exGridP) ∧
    exchangeParticles exCommP (1 : ℚ) (fun q => (World.start 0 exGridP).interp q 0) none 0
      (fun r => Species.ofList true true (if r = 0 then [exPtcl (17/2) 5] else [])) 1
      = some (Species.ofList true true
        [{ exPtcl (17/2) 5 with id := 4617315517961601024, level := 4611686018427387904 }]) :=
  ⟨exReachedP, by decide +kernel⟩

/-! ### C10 -/

/-- **C10** (open boundaries, `n_guard > 0`; partial: `n_guard = 0` is false, see
`C10_nguard0_violated`). The particles after an exchange are exactly, with multiplicity and at their
unchanged positions, those that are not beyond the global end on an end rank; and if no particle
is farther than one sub-domain away then all remaining ones are inside the global domain. -/
theorem C10_open_partial {a : CommArgs K} {c : Comm} {dz : K} {w : World K} {lo hi : ℕ → K}
    {glo ghi : K} (h : Reached a c dz w) (e : Edges c dz w lo hi glo ghi) (hng : c.nGuard ≠ 0)
    (hopen : c.bz = .opened) (t i : Bool) (fuel : ℕ) (P : ℕ → List (Ptcl K)) :
    ∃ P' : ℕ → List (Ptcl K),
      (∀ r < c.size, exchangeParticles c dz (fun q => w.interp q 0) none fuel
          (fun q => Species.ofList t i (P q)) r = some (Species.ofList t i (P' r))) ∧
      (∑ r ∈ Finset.range c.size, (P' r : Multiset (Ptcl K))).map Ptcl.noInts
        = (∑ r ∈ Finset.range c.size,
            (((P r).filter (fun p => ¬ (r = 0 ∧ p.z < glo) ∧ ¬ (r + 1 = c.size ∧ ghi < p.z)) :
              List (Ptcl K)) : Multiset (Ptcl K))).map Ptcl.noInts ∧
      ((∀ r < c.size, ∀ p ∈ P r,
          (∀ l : ℕ, c.leftProc r = some (l : ℤ) → lo r - (hi l - lo l) ≤ p.z) ∧
          (∀ q : ℕ, c.rightProc r = some (q : ℤ) → p.z ≤ hi r + (hi q - lo q))) →
        ∀ r < c.size, ∀ p ∈ P' r, glo ≤ p.z ∧ p.z ≤ ghi) := by
  obtain ⟨f1, f2, f3, f4, f5, f6, f7⟩ := e.facts h
  obtain ⟨P', h1, h2, h3⟩ := C07_exchange h e hng t i fuel P none (fun h => absurd rfl h)
  refine ⟨P', h1, ?_, ?_⟩
  · rw [h2]
    simp only [Option.getD_none, Multiset.coe_nil, zero_add]
    congr 1
    apply Finset.sum_congr rfl
    intro r hr
    congr 1
    rw [filter_eq_fm]
    congr 1
    funext p
    simp only [Ptcl.settle, hopen, reduceCtorEq, decide_false, Bool.false_eq_true, if_false,
      decide_eq_true_eq]
    split_ifs <;> simp_all
  · intro hd r hr p hp
    obtain ⟨b1, b2⟩ := h3 hd (by simp) r hr p hp
    -- edges are ordered
    have mono : ∀ n, r + n < c.size → hi r ≤ hi (r + n) := by
      intro n
      induction n with
      | zero => intro _; simp
      | succ n ih =>
        intro hn
        have := f6 (r + n) (by omega)
        have := f3 (r + n + 1) (by omega)
        have := ih (by omega)
        calc hi r ≤ hi (r + n) := this
          _ = lo (r + n + 1) := by rw [f6 (r + n) (by omega)]
          _ ≤ _ := f3 _ (by omega)
    have mono2 : ∀ n, n ≤ r → lo (r - n) ≤ lo r := by
      intro n
      induction n with
      | zero => intro _; simp
      | succ n ih =>
        intro hn
        have h6 := f6 (r - (n + 1)) (by omega)
        have h3' := f3 (r - (n + 1)) (by omega)
        have e1 : r - (n + 1) + 1 = r - n := by omega
        rw [e1] at h6
        have := ih (by omega)
        linarith
    have m1 := mono (c.size - 1 - r) (by omega)
    have m2 := mono2 r le_rfl
    rw [show r + (c.size - 1 - r) = c.size - 1 by omega, ← f5] at m1
    rw [Nat.sub_self, ← f4] at m2
    constructor <;> linarith

/-- Arguments: open boundaries, one rank, no guard cells, exchange at every step. -/
def exArgsO : CommArgs ℚ :=
  { Nz := 16, size := 1, boundaries := .str "open", nOrder := 4, nGuard := some 0, nDampZ := 2
    nInject := none, exchangePeriod := some 1, stencil := 1, cdt := 1/2, dz := 1 }

/-- The communicator built from `exArgsO`. -/
def exCommO : Comm :=
  { NzGlobal := 16, size := 1, nGuard := 0, nzDamp := 2, nInject := 0, bz := .opened
    br := .reflective, exchangePeriod := 1 }

/-- **C10** is violated for `n_guard = 0`: these arguments are accepted, the boundaries are open,
and a particle that leaves the global domain `[-2, 18]` through the right end is not removed but
re-enters at the left end. -/
theorem C10_nguard0_violated :
    Reached exArgsO exCommO 1 (World.start (0 : ℚ) (fun _ => ⟨20, -2, 18, 1⟩)) ∧
    exCommO.getZminZmax (0 : ℚ) 1 false true false none = .ok (-2, 18) ∧
    exchangeParticles exCommO (1 : ℚ) (fun _ => ⟨20, -2, 18, 1⟩) none 3
      (fun _ => Species.ofList true false [exPtcl (37/2) 5]) 0
      = some (Species.ofList true false [exPtcl (-3/2) 5]) := by
  refine ⟨⟨by decide +kernel, by decide, by norm_num, 0, fun _ => ⟨20, -2, 18, 1⟩, [],
    fun r hr => ?_, rfl⟩, by decide +kernel, by decide +kernel⟩
  have : r = 0 := by simp [exCommO] at hr; omega
  subst this; decide +kernel

/-- **C10** (periodic boundaries): the number of particles over all ranks never changes. -/
theorem C10_periodic {a : CommArgs K} {c : Comm} {dz : K} {w : World K} {lo hi : ℕ → K}
    {glo ghi : K} (h : Reached a c dz w) (e : Edges c dz w lo hi glo ghi)
    (hper : c.bz = .periodic) (hN : 0 < c.NzGlobal) (t i : Bool) (P : ℕ → List (Ptcl K)) :
    ∃ N, ∀ fuel, N ≤ fuel → ∃ S : ℕ → Species K,
      (∀ r < c.size, exchangeParticles c dz (fun q => w.interp q 0) none fuel
          (fun q => Species.ofList t i (P q)) r = some (S r)) ∧
      (∑ r ∈ Finset.range c.size, (S r).z.length) = ∑ r ∈ Finset.range c.size, (P r).length := by
  by_cases hng : c.nGuard = 0
  · -- every rank wraps its own particles
    have hbox : ∀ r < c.size, (w.interp r 0).zmin < (w.interp r 0).zmax := by
      intro r hr
      obtain ⟨z0, g, ops, hinit, hrun⟩ := h.run
      obtain ⟨Z, hZ, hI⟩ := World.inv_run (World.inv_start hinit) hrun
      obtain ⟨N, iz, _, h2, h3⟩ := hI r hr 0
      rw [h3]
      have : (0 : K) < (N : K) * dz :=
        mul_pos (by exact_mod_cast Nat.pos_of_ne_zero h2) h.dz_pos
      simpa using this
    have key : ∀ n ≤ c.size, ∃ N, ∀ fuel, N ≤ fuel → ∀ r < n, ∃ zs : List K,
        exchangeParticles c dz (fun q => w.interp q 0) none fuel (fun q => Species.ofList t i (P q)) r
          = some { Species.ofList t i (P r) with z := zs } ∧ zs.length = (P r).length := by
      intro n
      induction n with
      | zero => intro _; exact ⟨0, fun _ _ r hr => by omega⟩
      | succ n ih =>
        intro hn
        obtain ⟨N, hN⟩ := ih (by omega)
        obtain ⟨M, hM⟩ := C09_species c hng dz (fun q => w.interp q 0) n (hbox n (by omega)) t i P
        refine ⟨max N M, fun fuel hf r hr => ?_⟩
        by_cases hrn : r = n
        · subst hrn
          obtain ⟨zs, e1, e2⟩ := hM fuel (le_trans (le_max_right _ _) hf)
          exact ⟨zs, e1, e2.length_eq.symm⟩
        · exact hN fuel (le_trans (le_max_left _ _) hf) r (by omega)
    obtain ⟨N, hN⟩ := key c.size le_rfl
    refine ⟨N, fun fuel hf => ?_⟩
    choose zs hz using fun (r : {r // r < c.size}) => hN fuel hf r.1 r.2
    refine ⟨fun r => if hr : r < c.size then { Species.ofList t i (P r) with z := zs ⟨r, hr⟩ }
      else Species.ofList t i [], fun r hr => by simp [hr, (hz ⟨r, hr⟩).1], ?_⟩
    apply Finset.sum_congr rfl
    intro r hr
    rw [Finset.mem_range] at hr
    simp [hr, (hz ⟨r, hr⟩).2]
  · refine ⟨0, fun fuel _ => ?_⟩
    obtain ⟨P', h1, h2, _⟩ := C07_exchange h e hng t i fuel P none (fun h => absurd rfl h)
    refine ⟨fun r => Species.ofList t i (P' r), h1, ?_⟩
    have hcard := congrArg Multiset.card h2
    simp only [Multiset.card_map, Option.getD_none, Multiset.coe_nil, zero_add] at hcard
    have hc : ∀ F : ℕ → List (Ptcl K), Multiset.card (∑ r ∈ Finset.range c.size,
        (F r : Multiset (Ptcl K))) = ∑ r ∈ Finset.range c.size, (F r).length := by
      intro F
      rw [Multiset.card_sum]; simp
    rw [hc, hc] at hcard
    have e1 : ∀ r, (Species.ofList t i (P' r)).z.length = (P' r).length := by
      intro r; simp [Species.ofList]
    simp only [e1]
    rw [hcard]
    apply Finset.sum_congr rfl
    intro r _
    have : ∀ l : List (Ptcl K), (l.filterMap (Ptcl.settle (decide (c.bz = .periodic)) (r = 0)
        (r + 1 = c.size) glo ghi ((c.NzGlobal : K) * dz))).length = l.length := by
      intro l
      induction l with
      | nil => rfl
      | cons p l ih =>
        have : ∃ q, Ptcl.settle (decide (c.bz = .periodic)) (r = 0) (r + 1 = c.size) glo ghi
            ((c.NzGlobal : K) * dz) p = some q := by
          unfold Ptcl.settle
          simp only [hper, decide_true, if_true]
          split_ifs <;> exact ⟨_, rfl⟩
        obtain ⟨q, hq⟩ := this
        rw [List.filterMap_cons, hq]
        simp [ih]
    exact this (P r)

end Fbpic
