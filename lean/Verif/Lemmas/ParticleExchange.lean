import Verif.Spec.ParticleArrays
import Verif.Lemmas.Exchange
import Verif.Lemmas.Tactics

namespace Fbpic
open Spec

variable {K : Type}

theorem mask_map {α β : Type} (p : β → Bool) (f : β → α) (l : List β) :
    mask (l.map p) (l.map f) = (l.filter p).map f := by
  unfold mask
  induction l with
  | nil => rfl
  | cons a l ih =>
    simp only [List.map_cons, List.zip_cons_cons, List.filter_cons]
    cases p a <;> simp [ih]

/-- Effect of the integer conversion on one particle. -/
def convPtcl (conv : ℕ → ℕ) (p : Ptcl K) : Ptcl K :=
  { p with id := conv p.id, level := conv p.level }

theorem fillBuffer_ofList (t i : Bool) (ps : List (Ptcl K)) (p : Ptcl K → Bool) (conv : ℕ → ℕ) :
    fillBuffer (Species.ofList t i ps) (ps.map p) conv
      = PBuf.ofList t i ((ps.filter p).map (convPtcl conv)) := by
  cases t <;> cases i <;>
    simp [fillBuffer, Species.ofList, PBuf.ofList, mask_map, convPtcl, Function.comp_def]

theorem emptyBuffer_ofList (t i : Bool) (ps : List (Ptcl K)) :
    emptyBuffer (Species.ofList t i ps) = PBuf.ofList t i [] := by
  cases t <;> cases i <;> rfl

theorem keep_ofList (t i : Bool) (ps : List (Ptcl K)) (p : Ptcl K → Bool) :
    keep (Species.ofList t i ps) (ps.map p) = Species.ofList t i (ps.filter p) := by
  cases t <;> cases i <;> simp [keep, Species.ofList, mask_map]

theorem addBuffers_ofList (t i : Bool) (ps l r : List (Ptcl K)) :
    addBuffers (Species.ofList t i ps) (PBuf.ofList t i l) (PBuf.ofList t i r)
      = Species.ofList t i (l ++ ps ++ r) := by
  cases t <;> cases i <;> simp [addBuffers, Species.ofList, PBuf.ofList]

variable [Field K] [LinearOrder K]

theorem shiftZ_ofList (t i : Bool) (s : K) (ps : List (Ptcl K)) :
    shiftZ s (PBuf.ofList t i ps) = PBuf.ofList t i (ps.map (Ptcl.shift s)) := by
  cases t <;> cases i <;> simp [shiftZ, PBuf.ofList, List.modify, Ptcl.shift, Function.comp_def,
    List.modifyHead]

/-- Particles below / above / inside `[lo, hi]`. -/
def belowLo (lo : K) (p : Ptcl K) : Bool := decide (p.z < lo)
@[inherit_doc belowLo] def aboveHi (hi : K) (p : Ptcl K) : Bool := decide (hi < p.z)
@[inherit_doc belowLo] def inside (lo hi : K) (p : Ptcl K) : Bool :=
  !belowLo lo p && !aboveHi hi p

theorem removeParticles_ofList (t i : Bool) (ps : List (Ptcl K)) (zmin zmax dz : K) (ng : ℕ)
    (left right : Option ℤ) :
    removeParticles (Species.ofList t i ps) zmin zmax dz ng left right =
      (PBuf.ofList t i (if left.isSome then ps.filter (belowLo (zmin + (ng : K) * dz)) else []),
       PBuf.ofList t i (if right.isSome then
          (ps.filter (aboveHi (zmax - (ng : K) * dz))).map (convPtcl f64Bits) else []),
       Species.ofList t i (ps.filter (inside (zmin + (ng : K) * dz) (zmax - (ng : K) * dz)))) := by
  unfold removeParticles
  have e1 : (Species.ofList t i ps).z = ps.map Ptcl.z := rfl
  have hid : (convPtcl id : Ptcl K → Ptcl K) = id := rfl
  simp only [e1, List.map_map]
  refine Prod.ext ?_ (Prod.ext ?_ ?_)
  · cases left with
    | none => simp [emptyBuffer_ofList]
    | some l =>
      simp only [Option.isSome_some, if_true]
      exact (fillBuffer_ofList t i ps (belowLo (zmin + (ng : K) * dz)) id).trans (by simp [hid])
  · cases right with
    | none => simp [emptyBuffer_ofList]
    | some l =>
      simp only [Option.isSome_some, if_true]
      exact fillBuffer_ofList t i ps (aboveHi (zmax - (ng : K) * dz)) f64Bits
  · rw [List.zip_map', List.map_map]
    exact keep_ofList t i ps (inside (zmin + (ng : K) * dz) (zmax - (ng : K) * dz))

section
variable (c : Comm) (dz : K) (lo hi : ℕ → K) (P : ℕ → List (Ptcl K)) (inj : Option (List (Ptcl K)))

/-- Particles received by `r` from the left / right. -/
def fromLeft (r : ℕ) : List (Ptcl K) :=
  match c.leftProc r with
  | none => []
  | some l => (((P l.toNat).filter (aboveHi (hi l.toNat))).map (convPtcl f64Bits)).map
      (if l = (c.size : ℤ) - 1 then Ptcl.shift (-((c.NzGlobal : K) * dz)) else id)

@[inherit_doc fromLeft]
def fromRight (r : ℕ) : List (Ptcl K) :=
  match c.rightProc r with
  | none => []
  | some p => ((P p.toNat).filter (belowLo (lo p.toNat))).map
      (if p = 0 then Ptcl.shift ((c.NzGlobal : K) * dz) else id)

/-- Closed form of the exchange in terms of particles. On the last rank injected particles come
instead of received ones (the code only injects with open boundaries). -/
theorem exchangeAperiodic_ofList (t i : Bool) (grid : ℕ → InterpGrid K)
    (hlo : ∀ r < c.size, lo r = (grid r).zmin + (c.nGuard : K) * (grid r).dz)
    (hhi : ∀ r < c.size, hi r = (grid r).zmax - (c.nGuard : K) * (grid r).dz)
    (hinj : inj ≠ none → c.bz = .opened) (r : ℕ) (hr : r < c.size) :
    exchangeAperiodic c dz grid (inj.map (PBuf.ofList t i))
        (fun q => Species.ofList t i (P q)) r
      = Species.ofList t i (fromLeft c dz hi P r ++ (P r).filter (inside (lo r) (hi r)) ++
          (if r + 1 = c.size then inj.getD (fromRight c dz lo P r) else fromRight c dz lo P r)) := by
  unfold exchangeAperiodic
  simp only [removeParticles_ofList, emptyBuffer_ofList]
  rw [← hlo r hr, ← hhi r hr]
  rw [← addBuffers_ofList]
  congr 1
  · -- left
    cases hl : c.leftProc r with
    | none =>
      simp [fromLeft, hl, Comm.exchangeDomains]
    | some l =>
      obtain ⟨l', rfl, hls, -⟩ := Comm.leftProc_nat hr hl
      have hrl := (Comm.right_of_left hr hl).2
      rw [Comm.exchangeDomains_left _ _ hr hl]
      simp only [Option.getD_some, hrl, Option.isSome_some, if_true, fromLeft, hl,
        Int.toNat_natCast, ← hhi l' hls, Option.some.injEq]
      split_ifs with h
      · rw [shiftZ_ofList]
      · simp
  · -- right
    cases hp : c.rightProc r with
    | none =>
      simp only [fromRight, hp, Comm.exchangeDomains]
      cases inj with
      | none => simp
      | some v => simp; split_ifs <;> rfl
    | some p =>
      obtain ⟨p', rfl, hps, hc⟩ := Comm.rightProc_nat hr hp
      have hpl := (Comm.left_of_right hr hp).2
      rw [Comm.exchangeDomains_right _ _ hr hp]
      have hnoinj : r + 1 = c.size → inj = none := by
        intro he
        by_contra hne
        have := hinj hne
        rcases hc with ⟨-, -, h⟩ | h
        · rw [this] at h; cases h
        · omega
      have hif : (if r + 1 = c.size then (inj.map (PBuf.ofList t i)).getD
            (PBuf.ofList t i ((P p').filter (belowLo (lo p')))) else
            (PBuf.ofList t i ((P p').filter (belowLo (lo p'))))) =
            PBuf.ofList t i ((P p').filter (belowLo (lo p'))) := by
        split_ifs with h
        · rw [hnoinj h]; rfl
        · rfl
      have hif2 : (if r + 1 = c.size then inj.getD (fromRight c dz lo P r)
          else fromRight c dz lo P r) = fromRight c dz lo P r := by
        split_ifs with h
        · rw [hnoinj h]; rfl
        · rfl
      rw [hif2]
      simp only [Option.getD_some, hpl, Option.isSome_some, if_true, ← hlo p' hps, hif,
        fromRight, hp, Int.toNat_natCast, Option.some.injEq]
      split_ifs with h
      · rw [shiftZ_ofList]
      · simp

end
end Fbpic
