import Verif.Lemmas.ParticleConservation
import Verif.Props.GridPosition

/-!
# C07: particle exchange conserves particles and delivers them to the owner (n_guard > 0)
-/

namespace Fbpic
open Spec

variable {K : Type} [Field K] [LinearOrder K] [IsStrictOrderedRing K] [FloorRing K]

/-- The setting: a communicator accepted by its constructor, grids created on all ranks, and any
history `ops` of window moves and Galilean shifts before the exchange. -/
structure Reached (a : CommArgs K) (c : Comm) (dz : K) (w : World K) : Prop where
  made : mkComm a = .ok c
  pos : 0 < c.size
  dz_pos : 0 < dz
  run : ∃ (z0 : K) (g : ℕ → InterpGrid K) (ops : List (PosOp K)),
    (∀ r < c.size, initGrid c z0 dz r = .ok (g r)) ∧
    World.run c dz (World.start z0 g) ops = .ok w

/-- `lo r`, `hi r` are the edges of the sub-domain of rank `r` (with damping cells, no guard cells),
`glo`, `ghi` those of the global domain, as reported by the communicator. -/
structure Edges (c : Comm) (dz : K) (w : World K) (lo hi : ℕ → K) (glo ghi : K) : Prop where
  loc : ∀ r < c.size, c.getZminZmax (w.zminG r) dz true true false (some r) = .ok (lo r, hi r)
  glob : c.getZminZmax (w.zminG 0) dz false true false none = .ok (glo, ghi)

theorem Edges.facts {a : CommArgs K} {c : Comm} {dz : K} {w : World K} {lo hi : ℕ → K}
    {glo ghi : K} (h : Reached a c dz w) (e : Edges c dz w lo hi glo ghi) :
    (∀ r < c.size, lo r = (w.interp r 0).zmin + (c.nGuard : K) * (w.interp r 0).dz) ∧
    (∀ r < c.size, hi r = (w.interp r 0).zmax - (c.nGuard : K) * (w.interp r 0).dz) ∧
    (∀ r < c.size, lo r ≤ hi r) ∧ glo = lo 0 ∧ ghi = hi (c.size - 1) ∧
    (∀ r, r + 1 < c.size → lo (r + 1) = hi r) ∧
    (c.bz = .periodic → ghi = glo + (c.NzGlobal : K) * dz) := by
  obtain ⟨z0, g, ops, hinit, hrun⟩ := h.run
  obtain ⟨Z, hZ, hI⟩ := World.inv_run (World.inv_start hinit) hrun
  have eloc : ∀ r < c.size, lo r = Z + (c.izLoc true r : K) * dz ∧
      hi r = Z + (c.izLoc true r : K) * dz + (c.nzLoc true r : K) * dz := by
    intro r hr
    have := e.loc r hr
    rw [Comm.getZminZmax_of (Comm.getNzIz_local c true false r), hZ] at this
    simp only [Except.ok.injEq, Prod.mk.injEq] at this
    refine ⟨by rw [← this.1]; simp, by rw [← this.2]; simp⟩
  have eglob := e.glob
  rw [Comm.getZminZmax_of (Comm.getNzIz_global c true false none), hZ] at eglob
  simp only [Except.ok.injEq, Prod.mk.injEq] at eglob
  have hI' : ∀ r < c.size,
      (w.interp r 0).zmin = Z + ((c.izLoc true r : K) - c.nGuard) * dz ∧
      (w.interp r 0).zmax = Z + ((c.izLoc true r : K) - c.nGuard) * dz
        + ((c.nzLoc true r : K) + 2 * c.nGuard) * dz ∧ (w.interp r 0).dz = dz := by
    intro r hr
    obtain ⟨N, iz, h1, _, h3⟩ := hI r hr 0
    rw [Comm.getNzIz_local] at h1
    simp only [Except.ok.injEq, Prod.mk.injEq] at h1
    rw [h3, ← h1.1, ← h1.2]
    simp
  refine ⟨?_, ?_, ?_, ?_, ?_, ?_, ?_⟩
  · intro r hr; rw [(eloc r hr).1, (hI' r hr).1, (hI' r hr).2.2]; ring
  · intro r hr; rw [(eloc r hr).2, (hI' r hr).2.1, (hI' r hr).2.2]; ring
  · intro r hr
    rw [(eloc r hr).1, (eloc r hr).2]
    have : (0 : K) ≤ (c.nzLoc true r : K) * dz := mul_nonneg (Nat.cast_nonneg _) h.dz_pos.le
    linarith
  · rw [(eloc 0 h.pos).1, ← eglob.1, Comm.izLoc_zero]; simp
  · have hs := h.pos
    rw [(eloc (c.size - 1) (by omega)).2, ← eglob.2]
    have := Comm.izLoc_last c true h.pos
    have h' : (c.izLoc true (c.size - 1) : K) + (c.nzLoc true (c.size - 1) : K)
      = c.NzGlobal + (c.nzDamp + c.nInject : ℕ) := by exact_mod_cast this
    have h'' : (c.izLoc true (c.size - 1) : K)
      = c.NzGlobal + (c.nzDamp + c.nInject : ℕ) - (c.nzLoc true (c.size - 1) : K) := by linarith
    rw [h'']; simp; ring
  · intro r hr
    rw [(eloc (r + 1) hr).1, (eloc r (by omega)).2, Comm.izLoc_succ c true r hr]
    push_cast; ring
  · intro hp
    obtain ⟨_, _, h1, _⟩ := mkComm_spec h.made
    rw [← eglob.1, ← eglob.2]
    simp [(h1 hp).1, (h1 hp).2]

/-- **C07.** For `n_guard > 0`: `exchange_particles` on all ranks turns the particle lists `P` into
lists `P'` such that
* (conservation) the particles of all ranks after the exchange are, with multiplicity, those before
  it, where particles that left through the global ends were removed (open) or translated by
  exactly one box length (periodic), plus the injected ones on the last rank. (All attributes but
  the integer ones, for which see C08.)
* (delivery) if no particle is farther than one neighbouring sub-domain away, every particle
  is, after the exchange, inside the sub-domain of the rank that holds it.
`injected`: particles created by the moving window, only with open boundaries. -/
theorem C07_exchange {a : CommArgs K} {c : Comm} {dz : K} {w : World K} {lo hi : ℕ → K}
    {glo ghi : K} (h : Reached a c dz w) (e : Edges c dz w lo hi glo ghi) (hng : c.nGuard ≠ 0)
    (t i : Bool) (fuel : ℕ) (P : ℕ → List (Ptcl K)) (inj : Option (List (Ptcl K)))
    (hinj : inj ≠ none → c.bz = .opened) :
    ∃ P' : ℕ → List (Ptcl K),
      (∀ r < c.size, exchangeParticles c dz (fun q => w.interp q 0) (inj.map (PBuf.ofList t i)) fuel
          (fun q => Species.ofList t i (P q)) r = some (Species.ofList t i (P' r))) ∧
      (∑ r ∈ Finset.range c.size, (P' r : Multiset (Ptcl K))).map Ptcl.noInts
        = ((inj.getD [] : List (Ptcl K)) + ∑ r ∈ Finset.range c.size,
            (((P r).filterMap (Ptcl.settle (c.bz = .periodic) (r = 0) (r + 1 = c.size) glo ghi
              ((c.NzGlobal : K) * dz)) : List (Ptcl K)) : Multiset (Ptcl K))).map Ptcl.noInts ∧
      ((∀ r < c.size, ∀ p ∈ P r,
          (∀ l : ℕ, c.leftProc r = some (l : ℤ) → lo r - (hi l - lo l) ≤ p.z) ∧
          (∀ q : ℕ, c.rightProc r = some (q : ℤ) → p.z ≤ hi r + (hi q - lo q))) →
        (∀ p ∈ inj.getD [], lo (c.size - 1) ≤ p.z ∧ p.z ≤ hi (c.size - 1)) →
        ∀ r < c.size, ∀ p ∈ P' r, lo r ≤ p.z ∧ p.z ≤ hi r) := by
  obtain ⟨f1, f2, f3, f4, f5, f6, f7⟩ := e.facts h
  refine ⟨fun r => fromLeft c dz hi P r ++ (P r).filter (inside (lo r) (hi r)) ++
          (if r + 1 = c.size then inj.getD (fromRight c dz lo P r) else fromRight c dz lo P r),
    ?_, ?_, ?_⟩
  · intro r hr
    rw [exchangeParticles, if_neg hng]
    exact congrArg some (exchangeAperiodic_ofList c dz lo hi P inj t i _ f1 f2 hinj r hr)
  · -- conservation
    have key : ∀ r < c.size, ms ((P r).filterMap (Ptcl.settle (c.bz = .periodic) (r = 0)
        (r + 1 = c.size) glo ghi ((c.NzGlobal : K) * dz)))
        = ms (goRight (c.bz = .periodic) (r + 1 = c.size) ((c.NzGlobal : K) * dz) (hi r) (P r))
          + ms ((P r).filter (inside (lo r) (hi r)))
          + ms (goLeft (c.bz = .periodic) ((c.NzGlobal : K) * dz) (lo r) r (P r)) := by
      intro r hr
      have := settle_split (c.bz = .periodic) (r + 1 = c.size) ((c.NzGlobal : K) * dz) (lo r) (hi r)
        glo ghi r (f3 r hr) (fun h0 => by rw [f4, h0])
        (fun h1 => by rw [f5]; congr 1; simp at h1; omega) (P r)
      have h2 := congrArg (Multiset.map Ptcl.noInts) this
      simpa [ms] using h2
    have hms : ∀ l : List (Ptcl K), (l : Multiset (Ptcl K)).map Ptcl.noInts = ms l := by
      intro l; simp [ms]
    have hsum : ∀ F : ℕ → Multiset (Ptcl K),
        (∑ r ∈ Finset.range c.size, F r).map Ptcl.noInts
          = ∑ r ∈ Finset.range c.size, (F r).map Ptcl.noInts := by
      intro F
      exact map_sum (Multiset.mapAddMonoidHom Ptcl.noInts) F _
    rw [Multiset.map_add, hsum, hsum, hms]
    simp only [hms]
    rw [Finset.sum_congr rfl (fun r hr => key r (Finset.mem_range.mp hr))]
    simp only [ms_append]
    rw [Finset.sum_add_distrib, Finset.sum_add_distrib, Finset.sum_add_distrib,
      Finset.sum_add_distrib, sum_fromLeft c dz hi P h.pos, ← sum_fromRight c dz lo P h.pos]
    have hR : ∑ r ∈ Finset.range c.size, ms (if r + 1 = c.size then inj.getD (fromRight c dz lo P r)
        else fromRight c dz lo P r) = ms (inj.getD [])
          + ∑ r ∈ Finset.range c.size, ms (fromRight c dz lo P r) := by
      cases inj with
      | none => simp [ms]
      | some v =>
        have ho := hinj (by simp)
        obtain ⟨n, hn⟩ : ∃ n, c.size = n + 1 := ⟨c.size - 1, by have := h.pos; omega⟩
        rw [hn, Finset.sum_range_succ, Finset.sum_range_succ]
        have hl : c.rightProc n = none := by simp [Comm.rightProc, ho, hn]
        have e1 : fromRight c dz lo P n = [] := by simp [fromRight, hl]
        rw [Finset.sum_congr rfl (g := fun r => ms (fromRight c dz lo P r))]
        · simp only [if_true, Option.getD_some, e1]
          have : ms ([] : List (Ptcl K)) = 0 := rfl
          rw [this, add_zero, add_comm]
        · intro r hr
          rw [Finset.mem_range] at hr
          have : ¬ (r + 1 = n + 1) := by omega
          rw [if_neg this]
    rw [hR]
    abel
  · -- delivery
    intro hdisp hi' r hr p hp
    rw [List.mem_append, List.mem_append] at hp
    have hright : p ∈ fromRight c dz lo P r → lo r ≤ p.z ∧ p.z ≤ hi r := by
      intro hp
      unfold fromRight at hp
      cases hq : c.rightProc r with
      | none => simp [hq] at hp
      | some q =>
        obtain ⟨q', rfl, hqs, hc⟩ := Comm.rightProc_nat hr hq
        have hback := (Comm.left_of_right hr hq).2
        simp only [hq, Int.toNat_natCast, List.mem_map, List.mem_filter, belowLo,
          decide_eq_true_eq] at hp
        obtain ⟨p0, ⟨hp0, hlt⟩, rfl⟩ := hp
        have hd := (hdisp q' hqs p0 hp0).1 r hback
        rcases hc with ⟨hz, hlast, hper⟩ | hz
        · subst hz
          have h7 := f7 hper
          have : hi r = lo 0 + (c.NzGlobal : K) * dz := by
            rw [← f4, ← h7, f5]; congr 1; omega
          simp only [Nat.cast_zero, if_true, Ptcl.shift]
          constructor <;> linarith
        · have : ¬ ((q' : ℤ) = 0) := by omega
          simp only [this, if_false, id]
          have h6 := f6 r (by omega)
          rw [hz] at hd hlt
          constructor <;> linarith
    rcases hp with (hp | hp) | hp
    · unfold fromLeft at hp
      cases hl : c.leftProc r with
      | none => simp [hl] at hp
      | some l =>
        obtain ⟨l', rfl, hls, hc⟩ := Comm.leftProc_nat hr hl
        have hback := (Comm.right_of_left hr hl).2
        simp only [hl, Int.toNat_natCast, List.mem_map, List.mem_filter, aboveHi,
          decide_eq_true_eq] at hp
        obtain ⟨p1, ⟨p0, ⟨hp0, hlt⟩, rfl⟩, rfl⟩ := hp
        have hd := (hdisp l' hls p0 hp0).2 r hback
        rcases hc with ⟨hz, hlast, hper⟩ | hz
        · have h7 := f7 hper
          have e1 : hi l' = lo 0 + (c.NzGlobal : K) * dz := by
            rw [← f4, ← h7, f5]; congr 1; omega
          have : (l' : ℤ) = (c.size : ℤ) - 1 := by omega
          subst hz
          simp only [this, if_true, Ptcl.shift, convPtcl]
          constructor <;> linarith
        · have : ¬ ((l' : ℤ) = (c.size : ℤ) - 1) := by omega
          simp only [this, if_false, id, convPtcl]
          have h6 := f6 l' (by omega)
          rw [hz] at h6
          constructor <;> linarith
    · simp [inside, belowLo, aboveHi] at hp
      exact hp.2
    · split_ifs at hp with hlast
      · cases inj with
        | none => exact hright hp
        | some v =>
          have := hi' p hp
          have e1 : c.size - 1 = r := by omega
          rw [e1] at this
          exact this
      · exact hright hp

/-! ### Non-vacuity -/

/-- Two periodic ranks of 8 cells with 1 guard cell. -/
def exArgsP : CommArgs ℚ :=
  { Nz := 16, size := 2, boundaries := .str "periodic", nOrder := 4, nGuard := some 1, nDampZ := 0
    nInject := none, exchangePeriod := some 1, stencil := 1, cdt := 1/2, dz := 1 }

/-- The communicator built from `exArgsP`. -/
def exCommP : Comm :=
  { NzGlobal := 16, size := 2, nGuard := 1, nzDamp := 0, nInject := 0, bz := .periodic
    br := .reflective, exchangePeriod := 1 }

/-- Its grids. -/
def exGridP : ℕ → InterpGrid ℚ := fun r => if r = 0 then ⟨10, -1, 9, 1⟩ else ⟨10, 7, 17, 1⟩

/-- A particle at `z` with id `n`. -/
def exPtcl (z : ℚ) (n : ℕ) : Ptcl ℚ := ⟨1, 2, z, 3, 4, 5, 6, 7, n, 2, 14⟩

theorem exReachedP : Reached exArgsP exCommP 1 (World.start 0 exGridP) where
  made := by decide +kernel
  pos := by decide
  dz_pos := by norm_num
  run := by
    refine ⟨0, exGridP, [], fun r hr => ?_, rfl⟩
    have : r = 0 ∨ r = 1 := by simp [exCommP] at hr; omega
    rcases this with rfl | rfl <;> decide +kernel

example : Edges exCommP 1 (World.start 0 exGridP) (fun r => 8 * (r : ℚ)) (fun r => 8 * (r : ℚ) + 8)
    0 16 where
  loc := by
    intro r hr
    have : r = 0 ∨ r = 1 := by simp [exCommP] at hr; omega
    rcases this with rfl | rfl <;> decide +kernel
  glob := by decide +kernel

/-- A particle at `-1/2` on rank 0 is received by rank 1 at `31/2`, with its id. -/
example : exchangeParticles exCommP (1 : ℚ) exGridP none 0
    (fun r => Species.ofList true true (if r = 0 then [exPtcl (-1/2) 5, exPtcl 3 6] else [])) 1
      = some (Species.ofList true true [exPtcl (31/2) 5]) := by decide +kernel

end Fbpic
