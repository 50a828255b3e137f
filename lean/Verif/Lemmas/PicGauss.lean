import Verif.Spec.PicGauss
import Verif.Lemmas.PicScale
import Verif.Lemmas.PicAxis
import Verif.Lemmas.PicTotal
import Verif.Props.CrossDeposit

/-!
# Lemmas: charge density and electric field through the cycle
-/

namespace Fbpic.Pic

open Transform ExternalField Step
open Spec (SolverOk GaussLaw NoMonopoles dropLow TransOk V3 div)

variable {Old : Seen → Prop}
variable (c : Cfg)

/-! ### The periodic box -/

theorem foldRow_period (Nz i : ℕ) (hN : 2 ≤ Nz) (hi : i ≤ 3) : foldRow Nz (i + Nz) = foldRow Nz i := by
  unfold foldRow
  split_ifs <;> omega

theorem sz_period (sh : Shape) (z : ℝ) (N a : ℕ) : sh.sz (z + N) a = sh.sz z a := by
  cases sh <;> simp only [Shape.sz, szLinear, szCubic, Int.ceil_add_natCast] <;> push_cast
  · rw [show ((⌈z⌉ : ℝ) + N - (z + N)) = ⌈z⌉ - z by ring]
  · rw [show (z + N - ((⌈z⌉ : ℝ) + N - 2) - 1) = z - (⌈z⌉ - 2) - 1 by ring]

theorem izCell_period (sh : Shape) (z : ℝ) (N : ℕ) : izCell sh (z + N) = izCell sh z + N := by
  cases sh <;> simp only [izCell, Int.ceil_add_natCast] <;> ring

/-- A particle that is displaced by the length of the box is deposited in the same cells. -/
theorem adds_period (sh : Shape) (f : DepField) (cc q : ℝ) (g : CylGrid) (beta : List ℝ) (m : ℕ) (p p' : DepPtcl)
    (hN : 2 ≤ g.Nz) (he : p' = { p with z := p'.z }) (hz : g.zCell p'.z = g.zCell p.z + g.Nz)
    (h0 : 0 ≤ izCell sh (g.zCell p.z)) (h1 : izCell sh (g.zCell p.z) + sh.width ≤ 4) :
    reduceBuf g.Nz g.Nr (ptclBuf sh f cc q g beta m p') = reduceBuf g.Nz g.Nr (ptclBuf sh f cc q g beta m p) := by
  unfold ptclBuf
  rw [reduceBuf_sum, reduceBuf_sum, List.map_map, List.map_map]
  congr 1
  have e1 : betaOf g beta p' = betaOf g beta p := by rw [he]; rfl
  have e2 : scalOf f cc q m p' = scalOf f cc q m p := by rw [he]; cases f <;> rfl
  have e3 : cylR p'.x p'.y = cylR p.x p.y := by rw [he]
  unfold addsOf ptclAdds
  rw [e1, e2, e3, hz]
  simp only [List.map_flatMap, List.map_map]
  unfold List.flatMap
  congr 1
  refine List.map_congr_left fun a ha => List.map_congr_left fun b _ => ?_
  have ha' := List.mem_range.1 ha
  simp only [Function.comp, addBuf, reduceBuf_cellBuf, sz_period, izCell_period]
  have w0 : wrapIdx (g.Nz + 4) (izCell sh (g.zCell p.z) + a) = (izCell sh (g.zCell p.z) + a).toNat :=
    if_pos (by omega)
  have w1 : wrapIdx (g.Nz + 4) (izCell sh (g.zCell p.z) + g.Nz + a) = (izCell sh (g.zCell p.z) + a).toNat + g.Nz := by
    unfold wrapIdx
    rw [if_pos (by omega)]; omega
  rw [w0, w1, foldRow_period _ _ hN (by omega)]
  by_cases hc : wrapIdx (g.Nr + 4) (irCell sh (g.rCell (cylR p.x p.y)) g.Nr + b) < g.Nr + 4
  · rw [if_pos ⟨by omega, hc⟩, if_pos ⟨by omega, hc⟩]
  · rw [if_neg fun h => hc h.2, if_neg fun h => hc h.2]

theorem forall₂_trans {α β γ : Type} {R : α → β → Prop} {S : β → γ → Prop} {T : α → γ → Prop} {l : List α}
    {l' : List β} {l'' : List γ} (h : List.Forall₂ R l l') (h' : List.Forall₂ S l' l'')
    (H : ∀ a b c, R a b → S b c → T a c) : List.Forall₂ T l l'' := by
  induction h generalizing l'' with
  | nil => cases h'; exact .nil
  | cons hab _ ih =>
    cases h' with
    | cons hbc h' => exact .cons (H _ _ _ hab hbc) (ih h')

theorem map_forall₂ {α β γ : Type} {R : α → β → Prop} {f : α → γ} {g : β → γ} {l : List α} {l' : List β}
    (h : List.Forall₂ R l l') (H : ∀ a b, a ∈ l → R a b → f a = g b) : l.map f = l'.map g := by
  induction h with
  | nil => rfl
  | cons hab _ ih =>
    rw [List.map_cons, List.map_cons, H _ _ (by simp) hab, ih fun a b ha => H a b (by simp [ha])]

theorem filter_forall₂ {α β : Type} {R : α → β → Prop} {p : α → Bool} {q : β → Bool} {l : List α} {l' : List β}
    (h : List.Forall₂ R l l') (H : ∀ a b, R a b → q b = p a) : List.Forall₂ R (l.filter p) (l'.filter q) := by
  induction h with
  | nil => exact .nil
  | cons hab _ ih =>
    rw [List.filter_cons, List.filter_cons, H _ _ hab]
    split_ifs
    · exact .cons hab ih
    · exact ih

theorem wrapZ_cases (zmin zmax z z' : ℝ) (fuel : ℕ) (hf : 2 ≤ fuel) (hb : 0 < zmax - zmin)
    (h1 : zmin - (zmax - zmin) ≤ z) (h2 : z < zmax + (zmax - zmin)) (h : wrapZ zmin zmax fuel z = some z') :
    (zmax ≤ z ∧ z' = z - (zmax - zmin)) ∨ (z < zmin ∧ z' = z + (zmax - zmin)) ∨ z' = z := by
  obtain ⟨n, rfl⟩ := Nat.exists_eq_add_of_le hf
  rw [show 2 + n = n + 1 + 1 by ring] at h
  unfold wrapZ at h
  by_cases hd : zmax ≤ z
  · left
    unfold loopDown at h
    rw [if_pos hd] at h
    unfold loopDown at h
    rw [if_neg (by linarith)] at h
    change loopUp _ _ _ _ = _ at h
    unfold loopUp at h
    rw [if_neg (by linarith)] at h
    exact ⟨hd, (Option.some.inj h).symm⟩
  · right
    have e : loopDown zmax (zmax - zmin) (n + 1 + 1) z = some z := by
      unfold loopDown
      rw [if_neg hd]
    rw [e] at h
    change loopUp _ _ _ _ = _ at h
    by_cases hu : z < zmin
    · left
      unfold loopUp at h
      rw [if_pos hu] at h
      unfold loopUp at h
      rw [if_neg (by linarith)] at h
      exact ⟨hu, (Option.some.inj h).symm⟩
    · right
      unfold loopUp at h
      rw [if_neg hu] at h
      exact (Option.some.inj h).symm

theorem cell_reach (sh : Shape) (x : ℝ) (hx : x < 0) (hr : -sh.reach < x) :
    0 ≤ izCell sh (x - 1 / 2) ∧ izCell sh (x - 1 / 2) + sh.width ≤ 4 := by
  cases sh <;> simp only [izCell, Shape.width, Shape.reach] at *
  · have h1 : -2 < ⌈x - 1 / 2⌉ := by rw [Int.lt_ceil]; push_cast; linarith
    have h2 : ⌈x - 1 / 2⌉ ≤ 0 := by rw [Int.ceil_le]; push_cast; linarith
    push_cast
    omega
  · have h1 : -1 < ⌈x - 1 / 2⌉ := by rw [Int.lt_ceil]; push_cast; linarith
    have h2 : ⌈x - 1 / 2⌉ ≤ 0 := by rw [Int.ceil_le]; push_cast; linarith
    push_cast
    omega

theorem cell_reach' (sh : Shape) (x : ℝ) (hx : 0 ≤ x) (hr : x < sh.reach) :
    0 ≤ izCell sh (x - 1 / 2) ∧ izCell sh (x - 1 / 2) + sh.width ≤ 4 := by
  cases sh <;> simp only [izCell, Shape.width, Shape.reach] at *
  · have h1 : -1 < ⌈x - 1 / 2⌉ := by rw [Int.lt_ceil]; push_cast; linarith
    have h2 : ⌈x - 1 / 2⌉ ≤ 1 := by rw [Int.ceil_le]; push_cast; linarith
    push_cast
    omega
  · have h1 : -1 < ⌈x - 1 / 2⌉ := by rw [Int.lt_ceil]; push_cast; linarith
    have h2 : ⌈x - 1 / 2⌉ ≤ 0 := by rw [Int.ceil_le]; push_cast; linarith
    push_cast
    omega

section
variable [NeZero c.Nz]

/-- Bringing the particles into the box does not change what they deposit. -/
theorem wrap_dep_of (hs : Sane c) {s w : Sim} (hB : c.invdz * (s.zmax - s.zmin) = c.Nz)
    (hP : ∀ sp ∈ s.species, ∀ p ∈ sp.ptcl, -sp.shape.reach < c.invdz * (p.push.z - s.zmin) ∧
      c.invdz * (p.push.z - s.zmax) < sp.shape.reach ∧ s.zmin - (s.zmax - s.zmin) ≤ p.push.z ∧
      p.push.z < s.zmax + (s.zmax - s.zmin))
    (hw : c.wrapAll s = .ok w) (f : DepField) (m : ℕ) : c.depArr f w m = c.depArr f s m := by
  unfold Cfg.depArr
  by_cases hm : m < c.Nm
  swap
  · rw [if_neg hm, if_neg hm]
  rw [if_pos hm, if_pos hm]
  refine congrArg _ ?_
  rw [reduceBuf_sum, reduceBuf_sum]
  refine congrArg _ ?_
  obtain ⟨sps, hsp, rfl⟩ := (mapPtclM_ok _ _ _).1 hw
  have hbox := box_pos c hs hB
  unfold Sim.depositing
  simp only [List.map_map]
  have hf := filter_forall₂ (p := fun sp => !sp.isTracer) (q := fun sp => !sp.isTracer) hsp
    (fun a b hab => by rw [hab.tracer])
  refine (map_forall₂ hf ?_).symm
  intro sp sp' hin hrel
  have hin := (List.mem_filter.1 hin).1
  simp only [Function.comp]
  show reduceBuf c.Nz c.Nr (speciesBuf f c.k.c (c.grid s.zmin) c.beta m sp.dep)
    = reduceBuf c.Nz c.Nr (speciesBuf f c.k.c (c.grid s.zmin) c.beta m sp'.dep)
  unfold speciesBuf
  show reduceBuf c.Nz c.Nr (if sp.q = 0 then 0 else _) = reduceBuf c.Nz c.Nr (if sp'.q = 0 then 0 else _)
  rw [hrel.q]
  by_cases hq : sp.q = 0
  · rw [if_pos hq, if_pos hq]
  rw [if_neg hq, if_neg hq, reduceBuf_sum, reduceBuf_sum]
  refine congrArg _ ?_
  show ((sp.ptcl.map _).map _).map _ = ((sp'.ptcl.map _).map _).map _
  simp only [List.map_map]
  refine map_forall₂ hrel.ptcl ?_
  intro p p' hp hpp
  simp only [Function.comp]
  show reduceBuf c.Nz c.Nr (ptclBuf sp.shape f c.k.c sp.q (c.grid s.zmin) (c.beta sp.shape (min m 1)) m (Ptcl.dep sp.ionizable p))
    = reduceBuf c.Nz c.Nr (ptclBuf sp'.shape f c.k.c sp'.q (c.grid s.zmin) (c.beta sp'.shape (min m 1)) m
      (Ptcl.dep sp'.ionizable p'))
  rw [hrel.q, hrel.shape, hrel.ionizable]
  obtain ⟨hlo', hhi', hL1, hL2⟩ := hP sp hin p hp
  unfold Cfg.wrap at hpp
  cases hz : wrapZ s.zmin s.zmax c.fuel p.push.z with
  | none => rw [hz] at hpp; cases hpp
  | some z' =>
    rw [hz] at hpp
    cases hpp
    have hN : ((c.grid s.zmin).Nz : ℝ) = c.invdz * (s.zmax - s.zmin) := hB.symm
    rcases wrapZ_cases _ _ _ _ _ hs.fuel hbox hL1 hL2 hz with ⟨hc, rfl⟩ | ⟨hc, rfl⟩ | rfl
    · have hx : (c.grid s.zmin).zCell (p.push.z - (s.zmax - s.zmin)) = c.invdz * (p.push.z - s.zmax) - 1 / 2 := by
        show c.invdz * (p.push.z - (s.zmax - s.zmin) - s.zmin) - 1 / 2 = _
        ring
      obtain ⟨k1, k2⟩ := cell_reach' sp.shape (c.invdz * (p.push.z - s.zmax))
        (mul_nonneg hs.invdz.le (by linarith)) (by linarith)
      refine adds_period sp.shape f c.k.c sp.q (c.grid s.zmin) _ m _ _ hs.Nz rfl ?_ ?_ ?_
      · show c.invdz * (p.push.z - s.zmin) - 1 / 2 = c.invdz * (p.push.z - (s.zmax - s.zmin) - s.zmin) - 1 / 2 + _
        rw [hN]; ring
      · show 0 ≤ izCell sp.shape ((c.grid s.zmin).zCell (p.push.z - (s.zmax - s.zmin)))
        rw [hx]; exact k1
      · show izCell sp.shape ((c.grid s.zmin).zCell (p.push.z - (s.zmax - s.zmin))) + _ ≤ 4
        rw [hx]; exact k2
    · have hx : (c.grid s.zmin).zCell p.push.z = c.invdz * (p.push.z - s.zmin) - 1 / 2 := rfl
      obtain ⟨k1, k2⟩ := cell_reach sp.shape (c.invdz * (p.push.z - s.zmin))
        (mul_neg_of_pos_of_neg hs.invdz (by linarith)) (by linarith)
      refine (adds_period sp.shape f c.k.c sp.q (c.grid s.zmin) _ m _ _ hs.Nz rfl ?_ ?_ ?_).symm
      · show c.invdz * (p.push.z + (s.zmax - s.zmin) - s.zmin) - 1 / 2 = c.invdz * (p.push.z - s.zmin) - 1 / 2 + _
        rw [hN]; ring
      · exact k1
      · exact k2
    · rfl

theorem SInv.wrap_dep (hs : Sane c) {a b rho : ℝ} {s w : Sim} (h : SInv c Old a b rho s) (ha : |a| ≤ c.dt) (hb : |b| ≤ c.dt)
    (hw : c.wrapAll s = .ok w) (f : DepField) (m : ℕ) : c.depArr f w m = c.depArr f s m := by
  refine wrap_dep_of c hs h.box (fun sp hin p hp => ?_) hw f m
  have hP := h.ptcl sp hin p hp
  have hr := (h.sp sp hin).reach
  have hL := (h.loose c hs ha hb).ptcl sp hin p hp
  have hv := vz_lt c hs p hP.mom
  have e1 : |a * c.vz p| < c.k.c * c.dt := by
    rw [abs_mul]
    nlinarith [abs_nonneg a, abs_nonneg (c.vz p), hs.dt_pos]
  have e2 : |b * c.vg| ≤ |c.vg| * c.dt := by
    rw [abs_mul]; nlinarith [abs_nonneg (c.vg)]
  obtain ⟨e1l, e1h⟩ := abs_lt.1 e1
  obtain ⟨e2l, e2h⟩ := abs_le.1 e2
  have hlo : -((c.k.c + |c.vg|) * c.dt) < p.push.z - s.zmin := by linarith [hP.lo]
  have hhi : p.push.z - s.zmax < (c.k.c + |c.vg|) * c.dt := by linarith [hP.hi]
  have hlo' := mul_lt_mul_of_pos_left hlo hs.invdz
  have hhi' := mul_lt_mul_of_pos_left hhi hs.invdz
  exact ⟨by linarith, by linarith, hL.2.2.1, hL.2.2.2⟩

/-! ### What the depositions do to the spectral arrays -/

/-- The factor of the filter. -/
noncomputable def Cfg.filt (m iz ir : ℕ) : ℂ :=
  match c.filter with
  | some (fz, fr) => ((fz iz * fr m ir : ℝ) : ℂ)
  | none => 1

/-- The charge density of the particles in spectral space. -/
noncomputable def Cfg.rhoHat (s : Sim) (m iz ir : ℕ) : ℂ :=
  c.filt m iz ir * fwd c.Nz c.Nr (c.mats m).M0 (c.depArr .rho s m) 0 iz ir

theorem rhoHat_congr {s s' : Sim} (h : ∀ m, c.depArr .rho s' m = c.depArr .rho s m) : c.rhoHat s' = c.rhoHat s := by
  funext m iz ir
  unfold Cfg.rhoHat
  rw [h m]

theorem depArr_congr {s s' : Sim} (h : s'.species = s.species) (hz : s'.zmin = s.zmin) (f : DepField) (m : ℕ) :
    c.depArr f s' m = c.depArr f s m := by
  unfold Cfg.depArr Sim.depositing
  rw [h, hz]

/-- The arrays of the spectral grids belong to the grid. -/
def Cfg.Sized (s : Sim) : Prop := ∀ m < c.Nm, (s.spect m).Nz = c.Nz ∧ (s.spect m).Nr = c.Nr

/-- Sizes, wavenumbers, fields and the charge densities in `A` are kept. -/
def Cfg.Keeps (A : RhoName → Prop) (s t : Sim) : Prop :=
  ∀ m < c.Nm, (s.spect m).SameShape (t.spect m) ∧ ∀ iz < c.Nz, ∀ ir < c.Nr,
    ((t.spect m).cell iz ir).em = ((s.spect m).cell iz ir).em ∧
    ∀ n, A n → n.get ((t.spect m).cell iz ir) = n.get ((s.spect m).cell iz ir)

theorem Cfg.Keeps.of_eq (A : RhoName → Prop) {s t : Sim} (h : t.spect = s.spect) : c.Keeps A s t := by
  intro m _
  rw [h]
  exact ⟨⟨rfl, rfl, rfl, rfl⟩, fun iz _ ir _ => ⟨rfl, fun _ _ => rfl⟩⟩

theorem Cfg.Keeps.trans {A B : RhoName → Prop} {s t u : Sim} (h : c.Keeps A s t) (h' : c.Keeps B t u) :
    c.Keeps (fun n => A n ∧ B n) s u := by
  intro m hm
  obtain ⟨⟨a1, a2, a3, a4⟩, a5⟩ := h m hm
  obtain ⟨⟨b1, b2, b3, b4⟩, b5⟩ := h' m hm
  refine ⟨⟨b1.trans a1, b2.trans a2, b3.trans a3, b4.trans a4⟩, fun iz hz ir hr => ?_⟩
  exact ⟨(b5 iz hz ir hr).1.trans (a5 iz hz ir hr).1,
    fun n hn => ((b5 iz hz ir hr).2 n hn.2).trans ((a5 iz hz ir hr).2 n hn.1)⟩

theorem Cfg.Keeps.mono {A B : RhoName → Prop} {s t : Sim} (h : c.Keeps A s t) (hAB : ∀ n, B n → A n) :
    c.Keeps B s t := fun m hm => ⟨(h m hm).1, fun iz hz ir hr =>
  ⟨((h m hm).2 iz hz ir hr).1, fun n hn => ((h m hm).2 iz hz ir hr).2 n (hAB n hn)⟩⟩

theorem Cfg.Keeps.sized {A : RhoName → Prop} {s t : Sim} (h : c.Keeps A s t) (hs : c.Sized s) : c.Sized t :=
  fun m hm => ⟨(h m hm).1.1.trans (hs m hm).1, (h m hm).1.2.1.trans (hs m hm).2⟩

/-- The values of a charge density. -/
def Cfg.Holds (n : RhoName) (rho : ℕ → ℕ → ℕ → ℂ) (s : Sim) : Prop :=
  ∀ m < c.Nm, ∀ iz < c.Nz, ∀ ir < c.Nr, n.get ((s.spect m).cell iz ir) = rho m iz ir

theorem Cfg.Keeps.holds {A : RhoName → Prop} {s t : Sim} (h : c.Keeps A s t) {n : RhoName} (hn : A n)
    {rho : ℕ → ℕ → ℕ → ℂ} (hr : c.Holds n rho s) : c.Holds n rho t :=
  fun m hm iz hz ir hr' => (((h m hm).2 iz hz ir hr').2 n hn).trans (hr m hm iz hz ir hr')

theorem withRho_cell (n : RhoName) (s : Sim) (hs : c.Sized s) {m iz ir : ℕ} (hm : m < c.Nm) (hz : iz < c.Nz)
    (hr : ir < c.Nr) : ((c.withRho n s).spect m).cell iz ir = n.set (c.rhoHat s m iz ir) ((s.spect m).cell iz ir) := by
  obtain ⟨h1, h2⟩ := hs m hm
  have hi : onModes c.Nm (fun m i => { i with rho := c.depArr .rho s m }) s.interp m
      = { s.interp m with rho := c.depArr .rho s m } := if_pos hm
  show (onModes c.Nm _ s.spect m).cell iz ir = _
  unfold onModes
  rw [if_pos hm]
  have e : ∀ i : Interp, (c.spectRho n m i (s.spect m)).cell iz ir
      = n.set (fwd c.Nz c.Nr (c.mats m).M0 i.rho 0 iz ir) ((s.spect m).cell iz ir) := by
    intro i
    unfold Cfg.spectRho
    simp only [toSpectScal_eq]
    unfold fwd
    rw [if_pos ⟨hz, hr⟩, if_pos ⟨hz, hr⟩]
  unfold Cfg.rhoHat Cfg.filt Cfg.filterSpect
  cases hf : c.filter with
  | none =>
    simp only [one_mul]
    rw [e]
    simp only [if_pos hm]
  | some ff =>
    obtain ⟨fz, fr⟩ := ff
    show (if iz < (s.spect m).Nz ∧ ir < (s.spect m).Nr then _ else _) = _
    rw [if_pos ⟨h1 ▸ hz, h2 ▸ hr⟩, e]
    simp only [if_pos hm]
    cases n <;> rfl

theorem withRho_keeps (n : RhoName) (s : Sim) (hs : c.Sized s) :
    c.Keeps (fun n' => n' ≠ n) s (c.withRho n s) ∧ c.Holds n (c.rhoHat s) (c.withRho n s) := by
  constructor
  · intro m hm
    constructor
    · show (s.spect m).SameShape (onModes c.Nm _ s.spect m)
      unfold onModes
      rw [if_pos hm]
      unfold Cfg.filterSpect Cfg.spectRho
      cases c.filter <;> exact ⟨rfl, rfl, rfl, rfl⟩
    · intro iz hz ir hr
      rw [withRho_cell c n s hs hm hz hr]
      refine ⟨by cases n <;> rfl, fun n' hn => ?_⟩
      cases n <;> cases n' <;> first | rfl | exact absurd rfl hn
  · intro m hm iz hz ir hr
    rw [withRho_cell c n s hs hm hz hr]
    cases n <;> rfl

theorem withJ_keeps (s : Sim) : c.Keeps (fun _ => True) s (c.withJ s) := by
  intro m hm
  have : (c.withJ s).spect m = c.filterSpect .J m (c.spectJ m
      (onModes c.Nm (fun m i => { i with J := ⟨c.depArr .Jr s m, c.depArr .Jt s m, c.depArr .Jz s m⟩ }) s.interp m)
      (s.spect m)) := if_pos hm
  rw [this]
  unfold Cfg.filterSpect Cfg.spectJ
  cases c.filter with
  | none => exact ⟨⟨rfl, rfl, rfl, rfl⟩, fun iz _ ir _ => ⟨rfl, fun n _ => by cases n <;> rfl⟩⟩
  | some ff =>
    refine ⟨⟨rfl, rfl, rfl, rfl⟩, fun iz _ ir _ => ?_⟩
    unfold SpecGrid.filter
    simp only
    split_ifs
    · exact ⟨rfl, fun n _ => by cases n <;> rfl⟩
    · exact ⟨rfl, fun n _ => by cases n <;> rfl⟩

/-! ### Transverse positions -/

/-- The same particles, whose transverse positions differ by `a` times the velocity. -/
structure PX (a : ℝ) (p p' : Ptcl) : Prop where
  w : p'.w = p.w
  level : p'.push.level = p.push.level
  x : p'.push.x = p.push.x + a * (c.k.c * p'.push.mom.invGamma * p'.push.mom.ux)
  y : p'.push.y = p.push.y + a * (c.k.c * p'.push.mom.invGamma * p'.push.mom.uy)

/-- The same species with such particles. -/
def Cfg.TX (a : ℝ) (s t : Sim) : Prop := List.Forall₂ (SpRel fun _ => PX c a) s.species t.species

theorem Cfg.TX.refl (s : Sim) : c.TX 0 s s := by
  refine List.forall₂_same.2 fun sp _ => ⟨rfl, rfl, rfl, rfl, rfl, rfl, List.forall₂_same.2 fun p _ => ⟨rfl, rfl, ?_, ?_⟩⟩
  · rw [zero_mul, add_zero]
  · rw [zero_mul, add_zero]

theorem Cfg.TX.mapM {a a' : ℝ} {s t u : Sim} (h : c.TX a s t) (f : Species → Ptcl → Except PyErr Ptcl)
    (hf : ∀ sp p p' p'', PX c a p p' → f sp p' = .ok p'' → PX c a' p p'') (hu : t.mapPtclM f = .ok u) : c.TX a' s u := by
  obtain ⟨sps, hsp, rfl⟩ := (mapPtclM_ok _ _ _).1 hu
  refine forall₂_trans h hsp fun x y z hxy hyz => ?_
  refine ⟨hyz.q.trans hxy.q, hyz.m.trans hxy.m, hyz.shape.trans hxy.shape, hyz.tracer.trans hxy.tracer,
    hyz.ionizable.trans hxy.ionizable, hyz.plane.trans hxy.plane, ?_⟩
  exact forall₂_trans hxy.ptcl hyz.ptcl fun p p' p'' h1 h2 => hf _ p p' p'' h1 h2

theorem Cfg.TX.wrap {a : ℝ} {s t u : Sim} (h : c.TX a s t) (hu : c.wrapAll t = .ok u) : c.TX a s u := by
  refine h.mapM c _ ?_ hu
  intro sp p p' p'' hP he
  unfold Cfg.wrap at he
  split at he
  · cases he; exact ⟨hP.w, hP.level, hP.x, hP.y⟩
  · cases he

theorem Cfg.TX.gather {a : ℝ} {s t u : Sim} (h : c.TX a s t) (hu : c.gatherAll t = .ok u) : c.TX a s u := by
  refine Cfg.TX.mapM c (t := t.record) h _ ?_ hu
  intro sp p p' p'' hP he
  unfold Cfg.gatherPtcl at he
  by_cases hq : sp.q = 0
  · rw [if_pos hq] at he; cases he; exact hP
  · rw [if_neg hq] at he
    obtain ⟨E, -, he⟩ := (except_bind_ok _ _ _).1 he
    obtain ⟨B, -, he⟩ := (except_bind_ok _ _ _).1 he
    cases he; exact ⟨hP.w, hP.level, hP.x, hP.y⟩

theorem Cfg.TX.exts {a : ℝ} {s t : Sim} (h : c.TX a s t) : c.TX a s (c.applyExts t) := by
  have hw : ∀ (L : List Ext) (tm : ℝ) (id : ℕ) (p : Ptcl), (L.foldl (fun p e => applyExt e tm id p) p).w = p.w := by
    intro L tm id
    induction L with
    | nil => intro p; rfl
    | cons e L ih =>
      intro p
      rw [List.foldl_cons, ih]
      unfold applyExt; split_ifs <;> rfl
  have h2 : List.Forall₂ (SpRel fun _ p p' => p'.push = p.push ∧ p'.w = p.w) t.species (c.applyExts t).species := by
    rw [List.forall₂_iff_get]
    refine ⟨by simp [Cfg.applyExts], fun i h1 h2 => ?_⟩
    simp only [Cfg.applyExts, List.get_eq_getElem, List.getElem_mapIdx]
    refine ⟨rfl, rfl, rfl, rfl, rfl, rfl, ?_⟩
    rw [List.forall₂_map_right_iff]
    exact List.forall₂_same.2 fun p _ => ⟨applyExts_push _ _ _ _, hw _ _ _ _⟩
  refine forall₂_trans h h2 fun x y z hxy hyz => ?_
  refine ⟨hyz.q.trans hxy.q, hyz.m.trans hxy.m, hyz.shape.trans hxy.shape, hyz.tracer.trans hxy.tracer,
    hyz.ionizable.trans hxy.ionizable, hyz.plane.trans hxy.plane, ?_⟩
  refine forall₂_trans hxy.ptcl hyz.ptcl fun p p' p'' h1 h2 => ⟨h2.2.trans h1.w, ?_, ?_, ?_⟩
  · rw [h2.1]; exact h1.level
  · rw [h2.1]; exact h1.x
  · rw [h2.1]; exact h1.y

theorem Cfg.TX.pushP {s t u : Sim} (h : c.TX 0 s t) (hu : c.pushPAll t = .ok u) : c.TX 0 s u := by
  refine h.mapM c _ ?_ hu
  intro sp p p' p'' hP he
  have hx := hP.x
  have hy := hP.y
  rw [zero_mul, add_zero] at hx hy
  have mk : ∀ e : ElecMom, PX c 0 p { p' with push := { p'.push with mom := e } } := fun e =>
    ⟨hP.w, hP.level, by rw [zero_mul, add_zero]; exact hx, by rw [zero_mul, add_zero]; exact hy⟩
  unfold Cfg.pushP at he
  by_cases hq : sp.q = 0
  · rw [if_pos hq] at he; cases he; exact hP
  rw [if_neg hq] at he
  cases hpl : sp.plane with
  | some b =>
    rw [hpl] at he
    simp only at he
    split_ifs at he
    cases he
    unfold pushPAfterPlane
    split_ifs
    · exact mk _
    · exact hP
  | none =>
    rw [hpl] at he
    simp only at he
    split_ifs at he
    · cases he
      unfold pushPIoniz
      split_ifs
      · exact hP
      · exact mk _
    · cases he; exact mk _

theorem Cfg.TX.pushX {a dt px pz : ℝ} {s t : Sim} (h : c.TX a s t) : c.TX (a + dt * px) s (c.pushX dt px px pz t) := by
  have h2 : List.Forall₂ (SpRel fun _ p p' => p' = { p with push := Fbpic.pushX c.k.c dt px px pz p.push }) t.species
      (c.pushX dt px px pz t).species := by
    show List.Forall₂ _ t.species (t.species.map _)
    rw [List.forall₂_map_right_iff]
    refine List.forall₂_same.2 fun sp _ => ⟨rfl, rfl, rfl, rfl, rfl, rfl, ?_⟩
    show List.Forall₂ _ sp.ptcl (sp.ptcl.map _)
    rw [List.forall₂_map_right_iff]
    exact List.forall₂_same.2 fun p _ => rfl
  refine forall₂_trans h h2 fun x y z hxy hyz => ?_
  refine ⟨hyz.q.trans hxy.q, hyz.m.trans hxy.m, hyz.shape.trans hxy.shape, hyz.tracer.trans hxy.tracer,
    hyz.ionizable.trans hxy.ionizable, hyz.plane.trans hxy.plane, ?_⟩
  refine forall₂_trans hxy.ptcl hyz.ptcl ?_
  rintro p p' p'' h1 rfl
  refine ⟨h1.w, h1.level, ?_, ?_⟩
  · show p'.push.x + _ = _
    rw [h1.x]
    simp only [Fbpic.pushX]
    ring
  · show p'.push.y + _ = _
    rw [h1.y]
    simp only [Fbpic.pushX]
    ring

theorem shift_species (dt : ℝ) (s : Sim) : (c.shiftGalilean dt s).species = s.species := by
  unfold Cfg.shiftGalilean; split_ifs <;> rfl

theorem shift_spect (dt : ℝ) (s : Sim) : (c.shiftGalilean dt s).spect = s.spect := by
  unfold Cfg.shiftGalilean; split_ifs <;> rfl

theorem movePush_spect (move : Bool) (dt px py pz dtg : ℝ) (s : Sim) :
    (c.movePush move dt px py pz dtg s).spect = s.spect := by
  unfold Cfg.movePush
  rw [shift_spect]; split_ifs <;> rfl

theorem Cfg.TX.move {a dt px pz dtg : ℝ} (move : Bool) {s t : Sim} (h : c.TX a s t) :
    c.TX (if move then a + dt * px else a) s (c.movePush move dt px px pz dtg t) := by
  unfold Cfg.movePush Cfg.TX
  rw [shift_species]
  cases move
  · exact h
  · exact h.pushX c

theorem Cfg.TX.same {s t : Sim} (h : c.TX 0 s t) : List.Forall₂ DepSpecies.SameButZ s.depositing t.depositing := by
  unfold Sim.depositing
  rw [List.forall₂_map_left_iff, List.forall₂_map_right_iff]
  refine (filter_forall₂ h fun a b hab => by rw [hab.tracer]).imp ?_
  intro a b hab
  refine ⟨hab.q, hab.shape, ?_⟩
  show List.Forall₂ _ (a.ptcl.map _) (b.ptcl.map _)
  rw [List.forall₂_map_left_iff, List.forall₂_map_right_iff]
  refine hab.ptcl.imp ?_
  intro p p' hp
  refine ⟨?_, ?_, ?_⟩
  · show p'.push.x = p.push.x
    rw [hp.x, zero_mul, add_zero]
  · show p'.push.y = p.push.y
    rw [hp.y, zero_mul, add_zero]
  · show (if b.ionizable then p'.w * p'.push.level else p'.w) = (if a.ionizable then p.w * p.push.level else p.w)
    rw [hab.ionizable, hp.w, hp.level]

theorem depArr_sum {s t : Sim} (h : c.TX 0 s t) (hn : 0 < c.nthreads) (hN : 2 ≤ c.Nz) (hR : 2 ≤ c.Nr)
    (h1 : c.depOk .rho s) (h2 : c.depOk .rho t) {m ir : ℕ} (hm : m < c.Nm) (hr : ir < c.Nr) :
    ∑ iz ∈ Finset.range c.Nz, c.depArr .rho s m iz ir = ∑ iz ∈ Finset.range c.Nz, c.depArr .rho t m iz ir := by
  have hA := (depositAll_ok .rho c.k.c (c.grid s.zmin) c.beta m c.nthreads hn s.depositing _).2 ⟨h1 m hm, rfl⟩
  have hB := (depositAll_ok .rho c.k.c (c.grid t.zmin) c.beta m c.nthreads hn t.depositing _).2 ⟨h2 m hm, rfl⟩
  have key := C30_kz0 c.k.c (c.grid s.zmin) t.zmin c.beta m c.nthreads hn _ _ _ _ hN hR (h.same c) hA hB ir hr
  unfold Cfg.depArr CellVolume.divideByVolume
  simp only [if_pos hm]
  rw [← Finset.sum_mul, ← Finset.sum_mul]
  congr 1

/-- At `kz = 0` the charge density depends only on the transverse positions. -/
theorem Cfg.TX.row0 {s t : Sim} (h : c.TX 0 s t) (hn : 0 < c.nthreads) (hN : 2 ≤ c.Nz) (hR : 2 ≤ c.Nr)
    (h1 : c.depOk .rho s) (h2 : c.depOk .rho t) {m ir : ℕ} (hm : m < c.Nm) (hr : ir < c.Nr) :
    c.rhoHat t m 0 ir = c.rhoHat s m 0 ir := by
  have h0 : 0 < c.Nz := by omega
  unfold Cfg.rhoHat fwd
  rw [if_pos ⟨h0, hr⟩, if_pos ⟨h0, hr⟩]
  refine congrArg _ ?_
  unfold Spec.hankel
  refine Finset.sum_congr rfl fun l hl => ?_
  rw [fftAxis0_zero, fftAxis0_zero, depArr_sum c h hn hN hR h1 h2 hm (Finset.mem_range.1 hl)]

end

end Fbpic.Pic
