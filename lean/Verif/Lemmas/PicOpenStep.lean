import Verif.Lemmas.PicOpenEnd

/-!
# Lemmas: a whole iteration with open boundaries
-/

namespace Fbpic.Pic

open Transform ExternalField Step
open Spec (Paired pairPtcl pairSpecies charges earlier back ChargeOf CurrentOf Sources Exchanged Entered LeapFrom
  Swings Placed V3)

variable (c : OCfg) [NeZero c.base.Nz]

/-- The parts of one iteration: `U` after the exchange, `A` before the momentum push, `B` in the middle, `D` after the
depositions. -/
structure OCfg.Way (o : Opts) (i : ℕ) (S U A B D T : OSim) : Prop where
  period : c.comm.exchangePeriod ≠ 0
  exch : c.exchanges i S → c.exchange S = .ok U
  noexch : ¬ c.exchanges i S → U = S
  frameU : c.SameFrame S U
  frameA : c.SameFrame U A
  antsA : A.ants = U.ants
  injA : A.inj = U.inj
  spectU : U.sim.spect = S.sim.spect
  depU : c.exchanges i S → c.base.depOk .rho (charges c U)
  spectA : c.base.Sized S.sim → c.base.Keeps (fun n => n = .prev ∧ ¬ c.exchanges i S) S.sim A.sim ∧
    (c.exchanges i S → c.base.Holds .prev (c.base.rhoHat (charges c U)) A.sim)
  ptclB : Paired (c.base.Midst Eq o S.sim) U.sim B.sim
  zminB : B.sim.zmin = S.sim.zmin + c.base.drift (0.5 * c.base.dt)
  zmaxB : B.sim.zmax = S.sim.zmax + c.base.drift (0.5 * c.base.dt)
  timeB : B.sim.time = S.sim.time
  iterationB : B.sim.iteration = S.sim.iteration
  spectB : B.sim.spect = A.sim.spect
  antsB : B.ants = U.ants.map (fun a => slide (0.5 * c.base.dt) (0.5 * c.base.dt)
    (Antenna.updateV c.ak a (S.sim.time + 0.5 * c.base.dt) c.base.dt))
  zminGB : B.zminG = S.zminG + c.base.drift (0.5 * c.base.dt)
  winB : B.win = S.win
  injB : B.inj = U.inj
  dep : c.iterDeposit o B = .ok D
  endT : c.iterEnd o D = .ok T

theorem half_spect (b : Cfg) [NeZero b.Nz] (o : Opts) {s t : Sim} (h : b.iterHalf o s = .ok t) : t.spect = s.spect := by
  rw [iterHalf_eq] at h
  obtain ⟨s1, h1, h⟩ := (except_bind_ok _ _ _).1 h
  have ht : b.movePush o.movePositions (0.5 * b.dt) 1 1 1 (0.5 * b.dt) s1 = t := Except.ok.inj h
  rw [← ht, movePush_spect]
  split_ifs at h1
  · rw [mapPtclM_rest _ _ _ h1]
  · rw [← Except.ok.inj h1]

theorem iter_way (hn : 0 < c.base.nthreads) (o : Opts) (i : ℕ) {S T : OSim} (h : c.iter o i S = .ok T) :
    ∃ U A B D, c.Way o i S U A B D T := by
  unfold OCfg.iter at h
  by_cases hp : c.comm.exchangePeriod = 0
  · rw [if_pos hp] at h; cases h
  rw [if_neg hp] at h
  obtain ⟨A, hA, h⟩ := (except_bind_ok _ _ _).1 h
  obtain ⟨B, hB, h⟩ := (except_bind_ok _ _ _).1 h
  obtain ⟨D, hD, h⟩ := (except_bind_ok _ _ _).1 h
  obtain ⟨U, u1, u2, u3, u4, u5, u6, u7, u8, u9, u10⟩ := ostart c hn i hA
  have hs := half_sim c o hB
  obtain ⟨r1, r2, r3, r4⟩ := half_rest c o hB
  have f := u3.trans c u4
  obtain ⟨pb, kb, -⟩ := half_ptcl c.base Eq o u5 (.of_eq c.base f.zmin f.zmax f.time f.iteration) hs
  refine ⟨U, A, B, D, hp, u1, u2, u3, u4, u6, u7, u8, u9, u10, pb, ?_, ?_, ?_, ?_, half_spect c.base o hs, ?_, ?_, r3.trans f.win,
    r4.trans u7, hD, h⟩
  · rw [kb.zmin, f.zmin]
  · rw [kb.zmax, f.zmax]
  · rw [kb.time, f.time, add_zero]
  · rw [kb.iteration, f.iteration, add_zero]
  · rw [r1, u6, f.time]
  · rw [r2, f.zminG]

variable {c}

/-- The state before the end has its grid where the communicator says, if the first state has. -/
theorem OCfg.Way.placed {o : Opts} {i : ℕ} {S U A B D T : OSim} (w : c.Way o i S U A B D T) {iz0 : ℤ} {N : ℕ}
    (hN : c.comm.getNzIz true true true (some 0) = .ok (N, iz0)) (hp : Placed c S) : Placed c D := by
  have m := deposit_moved c o w.dep
  have e : ∀ z : ℝ, z + c.base.drift (0.5 * c.base.dt) + c.base.drift (0.5 * c.base.dt) = z + c.base.drift c.base.dt := by
    intro z
    rw [add_assoc, drift_add]
    congr 2
    ring
  refine placed_shift c hN hp (c.base.drift c.base.dt) ?_ ?_ ?_
  · rw [m.zminG, w.zminGB, e]
  · rw [m.zmin, w.zminB, e]
  · rw [m.zmax, w.zmaxB, e]

variable (c)

theorem rho_keeps (hn : 0 < c.base.nthreads) (n : RhoName) {S T : OSim} (hs : c.base.Sized S.sim) (h : c.depositRho n S = .ok T) :
    c.base.Keeps (fun _ => False) S.sim T.sim := by
  obtain ⟨-, -, -, -, -, e⟩ := rho_frame c hn n h
  have k := (withRho_keeps c.base n (charges c S) hs).1.mono c.base (B := fun _ => False) fun _ h => h.elim
  intro m hm
  rw [e]
  exact k m hm

theorem J_keeps (hn : 0 < c.base.nthreads) {S T : OSim} (h : c.depositJ S = .ok T) :
    c.base.Keeps (fun _ => False) S.sim T.sim := by
  obtain ⟨-, -, -, -, e⟩ := J_frame c hn h
  have k := (withJ_keeps c.base (charges c S)).mono c.base (B := fun _ => False) fun _ h => h.elim
  intro m hm
  rw [e]
  exact k m hm

theorem push_keeps (move : Bool) (dt px pz g : ℝ) (S : OSim) :
    c.base.Keeps (fun _ => False) S.sim (c.movePush move dt px pz g S).sim := by
  refine .of_eq c.base _ ?_
  unfold OCfg.movePush OCfg.shiftGalilean OCfg.pushX Cfg.shiftGalilean
  cases move <;> split_ifs <;> rfl

/-- The grids keep their shape. -/
theorem deposit_keeps (hn : 0 < c.base.nthreads) (o : Opts) {S T : OSim} (hs : c.base.Sized S.sim) (h : c.iterDeposit o S = .ok T) :
    c.base.Keeps (fun _ => False) S.sim T.sim := by
  rw [oiterDeposit_eq] at h
  obtain ⟨S1, h1, h⟩ := (except_bind_ok _ _ _).1 h
  obtain ⟨S2, h2, h⟩ := (except_bind_ok _ _ _).1 h
  have step : ∀ {A B C : OSim}, c.base.Keeps (fun _ => False) A.sim B.sim → c.base.Keeps (fun _ => False) B.sim C.sim →
      c.base.Keeps (fun _ => False) A.sim C.sim := fun h h' => (h.trans c.base h').mono c.base fun _ h => h.elim
  have k1 := J_keeps c hn h1
  have k2 : c.base.Keeps (fun _ => False) S1.sim S2.sim := by
    unfold OCfg.maybeCross at h2
    split at h2
    · rw [ocrossDeposit_eq] at h2
      obtain ⟨X, hX, h2⟩ := (except_bind_ok _ _ _).1 h2
      obtain ⟨Z, hZ, h2⟩ := (except_bind_ok _ _ _).1 h2
      rw [← Except.ok.inj h2]
      have a1 := push_keeps c o.movePositions (0.5 * c.base.dt) 1 (-1) (-0.5 * c.base.dt) S1
      have z1 := a1.sized c.base (k1.sized c.base hs)
      have a2 := rho_keeps c hn _ z1 hX
      have a3 := push_keeps c o.movePositions c.base.dt (-1) 1 c.base.dt X
      have z2 := a3.sized c.base (a2.sized c.base z1)
      have a4 := rho_keeps c hn _ z2 hZ
      exact step (step (step (step a1 a2) a3) a4) (push_keeps c o.movePositions _ _ _ _ Z)
    · rw [← Except.ok.inj h2]
      exact .of_eq c.base _ rfl
  have k3 := step (step k1 k2) (push_keeps c o.movePositions (0.5 * c.base.dt) 1 1 (0.5 * c.base.dt) S2)
  exact step k3 (rho_keeps c hn _ (k3.sized c.base hs) h)

/-- The momenta of the injected particles are sound. -/
def OCfg.SoundFill : Prop := ∀ id t n x, (c.fill id t n x).2.1.ok

theorem exchange_sound (hf : c.SoundFill) {S U : OSim} (hs : S.sim.Sound) (h : c.exchange S = .ok U) : U.sim.Sound := by
  unfold OCfg.exchange at h
  obtain ⟨r, hr, h⟩ := (except_bind_ok _ _ _).1 h
  obtain ⟨as, ha, h⟩ := (except_bind_ok _ _ _).1 h
  have hU := Except.ok.inj h
  have hr := (mapM_ok _ _ _).1 hr
  rw [← hU]
  intro sp' hsp' p' hp'
  obtain ⟨x, hx, rfl⟩ := List.mem_map.1 hsp'
  obtain ⟨j, hj, e⟩ := List.getElem_of_mem hx
  have hj' : j < S.sim.species.zipIdx.length := by rw [hr.length_eq]; exact hj
  have hj2 : j < S.sim.species.length := by simpa using hj'
  have h1 := (List.forall₂_iff_get.1 hr).2 j hj' hj
  simp only [List.get_eq_getElem, List.getElem_zipIdx, zero_add, e] at h1
  have hsp := hs _ (List.getElem_mem hj2)
  generalize S.sim.species[j] = sp at h1 hsp
  unfold OCfg.exchangeSpecies at h1
  dsimp only at h1
  by_cases hg : c.comm.nGuard = 0
  · rw [if_pos hg] at h1
    obtain ⟨l, hl, h1⟩ := (except_bind_ok _ _ _).1 h1
    have e1 := Except.ok.inj h1
    have hl := (mapM_ok _ _ _).1 hl
    rw [← e1] at hp'
    obtain ⟨k, hk, e2⟩ := List.getElem_of_mem hp'
    have hk' : k < sp.ptcl.length := by rw [hl.length_eq]; exact hk
    have h2 := (List.forall₂_iff_get.1 hl).2 k hk' hk
    simp only [List.get_eq_getElem] at h2
    obtain ⟨z, -, e3⟩ := wrap_spec c.base h2
    rw [← e2, e3]
    exact hsp sp.ptcl[k] (List.getElem_mem hk')
  · rw [if_neg hg] at h1
    have stay : ∀ {q : Ptcl → Bool} {p : Ptcl}, p ∈ sp.ptcl.filter q → p.push.mom.ok := fun hp => hsp _ (List.mem_of_mem_filter hp)
    split at h1
    · split at h1
      · have e1 := Except.ok.inj h1
        rw [← e1] at hp'
        rcases List.mem_append.1 hp' with hp' | hp'
        · exact stay hp'
        · obtain ⟨y, -, rfl⟩ := List.mem_map.1 hp'
          exact hf _ _ _ _
      · cases h1
    · have e1 := Except.ok.inj h1
      rw [← e1] at hp'
      exact stay hp'

variable {c}

theorem OCfg.Way.soundU {o : Opts} {i : ℕ} {S U A B D T : OSim} (w : c.Way o i S U A B D T) (hf : c.SoundFill)
    (hs : S.sim.Sound) : U.sim.Sound := by
  by_cases hx : c.exchanges i S
  · exact exchange_sound c hf hs (w.exch hx)
  · rw [w.noexch hx]; exact hs

/-- The whole way of the particles, and their momenta at the end. -/
theorem OCfg.Way.ptcl {o : Opts} {i : ℕ} {S U A B D T : OSim} (w : c.Way o i S U A B D T) {iz0 : ℤ} (hsz : c.comm.size = 1)
    (hN : c.comm.getNzIz true true true (some 0) = .ok (c.base.Nz, iz0)) (hdz : 0 < c.dz) (hp : Placed c S) :
    Paired (fun id sp p p' => p.push.mom.ok → LeapFrom c.base o S.sim id sp p.push.z p p') U.sim T.sim ∧
    (U.sim.Sound → T.sim.Sound) := by
  have m := deposit_moved c o w.dep
  have e := oend c o hsz hN hdz (w.placed hN hp) w.endT
  have pd := shiftAll_paired c.base (m.species)
  have pall := (w.ptclB.trans pd).of_eq (s' := U.sim) (t' := T.sim) rfl e.species
  refine ⟨pall.mono ?_, fun hs => sound_of pall hs ?_⟩
  · rintro id sp p p' ⟨p2, hm, l, rfl⟩ hok
    obtain ⟨p1, ⟨m1, m2, m3, m4, m5, m6, m7, m8, m9⟩, rfl⟩ := hm hok
    rw [m6]
    exact leap_of c.base o ⟨m1, m2, m3, m4, m5, m7, m8, m9⟩
  · rintro id sp p p' ⟨p2, hm, l, rfl⟩ hok
    obtain ⟨p1, ⟨m1, m2, m3, m4, m5, -⟩, rfl⟩ := hm hok
    exact m5

variable (c)

theorem earlier_ants (o : Opts) (n : ℤ) (a b : ℝ) (S : OSim) : (earlier c o n a b S).ants = S.ants.map (slide (-a) (-b)) := by
  unfold earlier slide
  dsimp only
  refine List.map_congr_left fun A _ => ?_
  congr 1
  refine List.map_congr_left fun p _ => ?_
  congr 1 <;> ring

theorem strip_ants {as bs : List Antenna.Ant} (h : List.Forall₂ (fun a b => b.onRank = a.onRank ∧
    ∀ q, stripS (Antenna.species c.ak q b) = stripS (Antenna.species c.ak q a)) as bs) :
    (bs.flatMap fun a => if a.onRank then [Antenna.species c.ak (-1) a, Antenna.species c.ak 1 a] else []).map stripS =
    (as.flatMap fun a => if a.onRank then [Antenna.species c.ak (-1) a, Antenna.species c.ak 1 a] else []).map stripS := by
  induction h with
  | nil => rfl
  | cons h _ ih =>
    rw [List.flatMap_cons, List.flatMap_cons, List.map_append, List.map_append, ih, h.1]
    congr 1
    split_ifs
    · simp only [List.map_cons, List.map_nil, h.2]
    · rfl

theorem updateV_strip (q t dt : ℝ) (a : Antenna.Ant) :
    stripS (Antenna.species c.ak q (Antenna.updateV c.ak a t dt)) = stripS (Antenna.species c.ak q a) := by
  unfold stripS Antenna.species Antenna.updateV stripP
  dsimp only
  rw [List.map_map, List.map_map, List.map_map]
  rfl

variable {c}

/-- The sources, and the cells of the spectral grid before the window moves. -/
theorem OCfg.Way.sources {o : Opts} {i : ℕ} {S U A B D T : OSim} (w : c.Way o i S U A B D T) {iz0 : ℤ} (hn : 0 < c.base.nthreads)
    (hc : c.base.k.c ≠ 0) (hsz : c.comm.size = 1) (hN : c.comm.getNzIz true true true (some 0) = .ok (c.base.Nz, iz0)) (hdz : 0 < c.dz)
    (hp : Placed c S) (hsize : c.base.Sized S.sim) (hf : c.SoundFill) (hok : S.sim.Sound)
    (hm : o.movePositions = true ∨ S.ants = [])
    (hreg : ∀ m < c.base.Nm, ∀ iz < c.base.Nz, Regular c.base.k ((S.sim.spect m).kz iz) c.base.dt c.base.V) :
    (∀ m < c.base.Nm, (S.sim.spect m).SameShape (c.base.endGrid o (D.sim.spect m))) ∧
    ∃ rho₀ : ℕ → ℕ → ℕ → ℂ, (c.exchanges i S → ChargeOf c.base (charges c (earlier c o (c.windowCells D) c.base.dt c.base.dt T)) rho₀) ∧
    (¬ c.exchanges i S → ∀ m < c.base.Nm, ∀ iz < c.base.Nz, ∀ ir < c.base.Nr,
      rho₀ m iz ir = ((S.sim.spect m).cell iz ir).rhoPrev) ∧
    Sources c.base o (fun m => (S.sim.spect m).kz) (fun m => (S.sim.spect m).kr)
      (fun a b => charges c (earlier c o (c.windowCells D) a b T)) rho₀
      (fun m iz ir => ((c.base.endGrid o (D.sim.spect m)).cell iz ir).rhoPrev)
      (fun m iz ir => ((c.base.endGrid o (D.sim.spect m)).cell iz ir).J) ∧
    ∀ m < c.base.Nm, ∀ iz < c.base.Nz, ∀ ir < c.base.Nr, ∃ u : SpecCell,
      u.em = ((S.sim.spect m).cell iz ir).em ∧ u.rhoPrev = rho₀ m iz ir ∧
      c.base.CellEnd o ((S.sim.spect m).kz iz) ((S.sim.spect m).kr ir) u ((c.base.endGrid o (D.sim.spect m)).cell iz ir) := by
  have mv := deposit_moved c o w.dep
  have e := oend c o hsz hN hdz (w.placed hN hp) w.endT
  have hU := w.soundU hf hok
  have hT := (w.ptcl hsz hN hdz hp).2 hU
  obtain ⟨kA, holds⟩ := w.spectA hsize
  have kB : c.base.Keeps (fun _ => True) A.sim B.sim := .of_eq c.base _ w.spectB
  have kall := kA.trans c.base kB
  have zB := kall.sized c.base hsize
  have hmU : o.movePositions = true ∨ U.ants = [] := by
    refine hm.imp id fun h0 => ?_
    by_cases hx : c.exchanges i S
    · obtain ⟨-, -, -, -, -, -, ha⟩ := exchange_ok c (w.exch hx)
      rw [h0] at ha
      exact List.forall₂_nil_left_iff.1 ha
    · rw [w.noexch hx]; exact h0
  have hmB : o.movePositions = true ∨ B.ants = [] := hmU.imp id fun h => by rw [w.antsB, h]; rfl
  obtain ⟨t, ht, et⟩ := emb_deposit c hc o hmB (emb_charges c B) w.dep
  set n := c.windowCells D with hnD
  set hh : ℝ := if o.movePositions then 0.5 * c.base.dt else 0 with hhh
  -- the particles on their way
  have spT : ∀ x y, (earlier c o n x y T).sim.species = c.base.shiftAll (hh + if o.movePositions then -x else 0)
      (hh + if o.movePositions then -y else 0) B.sim.species := by
    intro x y
    have hs : ({ T.sim with zmin := T.sim.zmin - n * c.dz } : Sim).Sound := hT
    show (back c.base o x y _).species = _
    rw [back_species c.base o x y hs]
    show c.base.shiftAll _ _ T.sim.species = _
    rw [e.species, mv.species, shiftAll_add]
  have anT : ∀ x y, (earlier c o n x y T).ants = B.ants.map (slide (0.5 * c.base.dt + -x) (0.5 * c.base.dt + -y)) := by
    intro x y
    rw [earlier_ants, e.ants, mv.ants, slides_add]
  have zT : ∀ x y, (earlier c o n x y T).sim.zmin = B.sim.zmin + c.base.drift (0.5 * c.base.dt + -y) := by
    intro x y
    show (back c.base o x y _).zmin = _
    rw [back_zmin]
    show T.sim.zmin - n * c.dz + _ = _
    rw [e.zmin, mv.zmin, ← hnD, add_sub_cancel_right, add_assoc, drift_add]
  have hP : ∀ x y, (charges c (earlier c o n x y T)).species = c.base.shiftAll (hh + if o.movePositions then -x else 0)
      (hh + if o.movePositions then -y else 0) (charges c B).species := by
    intro x y
    refine charges_slide c hc (spT x y) ?_
    rcases hmB with hb | hb
    · rw [anT, hhh]
      simp only [hb, if_true]
    · rw [anT, hb]; rfl
  have hPz : ∀ x y, (charges c (earlier c o n x y T)).zmin = (charges c B).zmin + c.base.drift (0.5 * c.base.dt + -y) := zT
  have hk : ∀ m < c.base.Nm, (B.sim.spect m).kz = (S.sim.spect m).kz ∧ (B.sim.spect m).kr = (S.sim.spect m).kr :=
    fun m hm => ⟨(kall m hm).1.2.2.1, (kall m hm).1.2.2.2⟩
  obtain ⟨c1, c2, c3⟩ := sources_core c.base hn o (b := charges c B) (d := t) zB
    (fun m hm => by show ∀ iz < _, Regular _ ((B.sim.spect m).kz iz) _ _; rw [(hk m hm).1]; exact hreg m hm) ht
    (g := fun m => c.base.endGrid o (D.sim.spect m)) (fun m hm => by rw [et.spect])
    (fun x y => charges c (earlier c o n x y T)) hP hPz
  refine ⟨fun m hm => ?_, fun m iz ir => ((B.sim.spect m).cell iz ir).rhoPrev, fun hx => ?_, fun hx m hm iz hz ir hr => ?_, ?_,
    fun m hm iz hz ir hr => ?_⟩
  · obtain ⟨a1, a2, a3, a4⟩ := (kall m hm).1
    obtain ⟨b1, b2, b3, b4⟩ := c1 m hm
    exact ⟨b1.trans a1, b2.trans a2, b3.trans a3, b4.trans a4⟩
  · -- the charge at the beginning
    have hr : ∀ m < c.base.Nm, ∀ iz < c.base.Nz, ∀ ir < c.base.Nr,
        ((B.sim.spect m).cell iz ir).rhoPrev = c.base.rhoHat (charges c U) m iz ir := by
      intro m hm iz hz ir hr
      rw [w.spectB]
      exact holds hx m hm iz hz ir hr
    refine ChargeOf.values c.base ?_ hr
    have hz : (charges c (earlier c o n c.base.dt c.base.dt T)).zmin = (charges c U).zmin := by
      rw [hPz]
      show B.sim.zmin + _ = U.sim.zmin
      rw [w.zminB, w.frameU.zmin, add_assoc, drift_add, show 0.5 * c.base.dt + (0.5 * c.base.dt + -c.base.dt) = 0 by ring,
        drift_zero, add_zero]
    have hstrip : (charges c (earlier c o n c.base.dt c.base.dt T)).depositing.map stripS = (charges c U).depositing.map stripS := by
      rw [charges_depositing, charges_depositing, List.map_append, List.map_append]
      congr 1
      · refine strip_of_paired (((Paired.refl U.sim).join (w.ptclB.trans
          (shiftAll_paired c.base (spT c.base.dt c.base.dt)))).mono ?_)
        rintro id - p p' ⟨sp, p0, hsp, hp0, rfl, p2, hmid, -, rfl⟩
        obtain ⟨p1, ⟨m1, m2, m3, m4, m5, m6, m7, m8, m9⟩, rfl⟩ := hmid (hU sp hsp _ hp0)
        have h0 : (if o.movePositions = true then 0.5 * c.base.dt else 0) + (hh + if o.movePositions = true then -c.base.dt else 0) = 0 := by
          rw [hhh]
          split_ifs <;> ring
        simp only [Cfg.shiftP, m3, m4, ← m6, add_assoc, ← add_mul, h0, zero_mul, add_zero]
        exact ⟨m1, m2, trivial, trivial, trivial⟩
      · refine strip_ants c ?_
        rw [anT, w.antsB, List.map_map, List.forall₂_map_right_iff]
        refine List.forall₂_same.2 fun a _ => ⟨rfl, fun q => ?_⟩
        simp only [Function.comp_apply]
        rw [slide_add, show 0.5 * c.base.dt + (0.5 * c.base.dt + -c.base.dt) = 0 by ring, slide_zero, updateV_strip]
    obtain ⟨h1, h2⟩ := dep_strip c.base hz hstrip
    have := chargeOf_rhoHat c.base hn (h1 (w.depU hx))
    rwa [rhoHat_congr c.base h2] at this
  · exact ((kall m hm).2 iz hz ir hr).2 .prev ⟨⟨rfl, hx⟩, trivial⟩
  · exact c2.waves c.base hk
  · obtain ⟨v, v1, v2, v3⟩ := c3 m hm iz hz ir hr
    refine ⟨v, ?_, v2, ?_⟩
    · rw [v1]
      exact ((kall m hm).2 iz hz ir hr).1
    · have v3' : c.base.CellEnd o ((B.sim.spect m).kz iz) ((B.sim.spect m).kr ir) v _ := v3
      rw [(hk m hm).1, (hk m hm).2] at v3'
      exact v3'

omit [NeZero c.base.Nz]
open Spec (OneProcess Healthy)

theorem nziz (h : OneProcess c) : c.comm.getNzIz true true true (some 0) =
    .ok (c.base.Nz, -((c.comm.nzDamp + c.comm.nInject : ℕ) : ℤ) - c.comm.nGuard) := by
  rw [Comm.getNzIz_local, h.cells]
  unfold Comm.nzLoc Comm.izLoc
  rw [h.size]
  simp
  omega

theorem placed_iff (h : OneProcess c) (S : OSim) : Placed c S ↔
    S.sim.zmin = S.zminG - (c.comm.nzDamp + c.comm.nInject + c.comm.nGuard) * c.dz ∧ S.sim.zmax = S.sim.zmin + c.base.Nz * c.dz := by
  unfold Placed
  rw [Comm.getZminZmax_of (nziz h)]
  rw [Except.ok.injEq, Prod.mk.injEq]
  push_cast
  constructor
  · rintro ⟨h1, h2⟩
    rw [← h1, ← h2]
    constructor <;> ring
  · rintro ⟨h1, h2⟩
    have e : S.zminG + (-((c.comm.nzDamp : ℝ) + c.comm.nInject) - c.comm.nGuard) * c.dz = S.sim.zmin := by rw [h1]; ring
    rw [e, h2]
    exact ⟨rfl, rfl⟩

theorem _root_.Fbpic.Spec.Healthy.placed (h : OneProcess c) {S : OSim} (hS : Healthy c S) : Placed c S := (placed_iff h S).2 ⟨hS.zmin, hS.zmax⟩

end Fbpic.Pic
