import Verif.Lemmas.PicUnits

/-!
# Units: the whole cycle
-/

namespace Fbpic.Pic

open Transform ExternalField Step

/-- `R` is preserved by the pieces of the cycle, with time steps that differ by the factor `τ`. -/
structure SimulatesT (c c' : Cfg) [NeZero c.Nz] [NeZero c'.Nz] (τ : ℝ) (R : Sim → Sim → Prop) : Prop where
  period : c'.exchangePeriod = c.exchangePeriod
  correction : c'.correction = c.correction
  dt : c'.dt = τ * c.dt
  iteration : ∀ s s', R s s' → s'.iteration = s.iteration
  wrap : ∀ s s', R s s' → Fwd (fun _ => True) R (c.wrapAll s) (c'.wrapAll s')
  rho : ∀ n s s', R s s' → Fwd (fun _ => True) R (c.depositRho n s) (c'.depositRho n s')
  J : ∀ s s', R s s' → Fwd (fun _ => True) R (c.depositJ s) (c'.depositJ s')
  gather : ∀ s s', R s s' → Fwd (fun _ => True) R (c.gatherAll s) (c'.gatherAll s')
  exts : ∀ s s', R s s' → R (c.applyExts s) (c'.applyExts s')
  pushP : ∀ s s', R s s' → Fwd (fun _ => True) R (c.pushPAll s) (c'.pushPAll s')
  pushX : ∀ dt a b s s', R s s' → R (c.pushX dt a a b s) (c'.pushX (τ * dt) a a b s')
  shift : ∀ dt s s', R s s' → R (c.shiftGalilean dt s) (c'.shiftGalilean (τ * dt) s')
  iterEnd : ∀ o s s', R s s' → Fwd (fun _ => True) R (c.iterEnd o s) (c'.iterEnd o s')
  start : ∀ s s', R s s' → R (c.startFields s) (c'.startFields s')
  finish : ∀ s s', R s s' → R (c.endFields s) (c'.endFields s')

namespace SimulatesT

variable {c c' : Cfg} [NeZero c.Nz] [NeZero c'.Nz] {τ : ℝ} {R : Sim → Sim → Prop}

theorem movePush (h : SimulatesT c c' τ R) (move : Bool) (dt a b dtg : ℝ) (s s' : Sim) (hR : R s s') :
    R (c.movePush move dt a a b dtg s) (c'.movePush move (τ * dt) a a b (τ * dtg) s') := by
  unfold Cfg.movePush
  apply h.shift
  cases move
  · exact hR
  · exact h.pushX _ _ _ _ _ hR

theorem half (h : SimulatesT c c' τ R) : 0.5 * c'.dt = τ * (0.5 * c.dt) := by rw [h.dt]; ring

theorem mhalf (h : SimulatesT c c' τ R) : -0.5 * c'.dt = τ * (-0.5 * c.dt) := by rw [h.dt]; ring

theorem cross (h : SimulatesT c c' τ R) (move : Bool) (s s' : Sim) (hR : R s s') :
    Fwd (fun _ => True) R (c.crossDeposit move s) (c'.crossDeposit move s') := by
  rw [crossDeposit_eq, crossDeposit_eq, h.half, h.mhalf, h.dt]
  refine Fwd.bind (h.rho _ _ _ (h.movePush _ _ _ _ _ _ _ hR)) ?_ fun a a' hR => ?_
  · intro s t ht
    obtain ⟨b, hb, ht⟩ := (except_bind_ok _ _ _).1 ht
    have := grows_depositRho c _ _ _ hb
    rw [seen_movePush] at this
    rw [← Except.ok.inj ht, seen_movePush]
    exact this
  refine Fwd.bind (h.rho _ _ _ (h.movePush _ _ _ _ _ _ _ hR)) ?_ fun a a' hR => ?_
  · exact Grows.pure _ fun s => seen_movePush c _ _ _ _ _ _ s
  · exact Fwd.pure (h.movePush _ _ _ _ _ _ _ hR)

theorem iter (h : SimulatesT c c' τ R) (o : Opts) (i : ℕ) (s s' : Sim) (hR : R s s') :
    Fwd (fun _ => True) R (c.iter o i s) (c'.iter o i s') := by
  rw [iter_eq, iter_eq, h.period]
  by_cases hp : c.exchangePeriod = 0
  · rw [if_pos hp]
    intro t ht
    cases ht
  rw [if_neg hp, if_neg hp]
  refine Fwd.bind (R := R) ?_ (Grows.comp (grows_iterHalf c o)
      (Grows.comp (grows_iterDeposit c o) (grows_iterEnd c o))) fun s s' hR => ?_
  · rw [iterStart_eq, iterStart_eq, h.iteration s s' hR, h.period]
    refine Fwd.bind (R := R) ?_ ?_ fun s s' hR => ?_
    · by_cases hq : s.iteration % c.exchangePeriod = 0 ∨ i = 0
      · rw [if_pos hq, if_pos hq]
        exact Fwd.bind (h.wrap _ _ hR) (grows_depositRho c _) fun s s' hR => h.rho _ _ _ hR
      · rw [if_neg hq, if_neg hq]
        exact Fwd.pure hR
    · exact Grows.comp (grows_if (grows_depositJ c) grows_pure) (Grows.comp (grows_gatherAll c)
        (Grows.pure _ fun s => rfl))
    refine Fwd.bind (R := R) ?_ ?_ fun s s' hR => ?_
    · by_cases hq : i = 0
      · rw [if_pos hq, if_pos hq]; exact h.J _ _ hR
      · rw [if_neg hq, if_neg hq]; exact Fwd.pure hR
    · exact Grows.comp (grows_gatherAll c) (Grows.pure _ fun s => rfl)
    exact Fwd.bind (h.gather _ _ hR) (Grows.pure _ fun s => rfl) fun s s' hR => Fwd.pure (h.exts _ _ hR)
  refine Fwd.bind (R := R) ?_ (Grows.comp (grows_iterDeposit c o) (grows_iterEnd c o)) fun s s' hR => ?_
  · rw [iterHalf_eq, iterHalf_eq, h.half]
    refine Fwd.bind (R := R) ?_ (Grows.pure _ fun s => seen_movePush c _ _ _ _ _ _ s) fun s s' hR =>
      Fwd.pure (h.movePush _ _ _ _ _ _ _ hR)
    by_cases hq : o.moveMomenta = true
    · rw [if_pos hq, if_pos hq]; exact h.pushP _ _ hR
    · rw [if_neg hq, if_neg hq]; exact Fwd.pure hR
  refine Fwd.bind (R := R) ?_ (grows_iterEnd c o) fun s s' hR => h.iterEnd o _ _ hR
  rw [iterDeposit_eq, iterDeposit_eq, h.half]
  refine Fwd.bind (h.J _ _ hR) (Grows.comp (grows_maybeCross c o) ?_) fun s s' hR => ?_
  · intro s t ht
    have := grows_depositRho c _ _ _ ht
    rwa [seen_movePush] at this
  refine Fwd.bind (R := R) ?_ ?_ fun s s' hR => h.rho _ _ _ (h.movePush _ _ _ _ _ _ _ hR)
  · unfold Cfg.maybeCross
    rw [h.correction]
    split
    · exact h.cross _ _ _ hR
    · exact Fwd.pure hR
  · intro s t ht
    have := grows_depositRho c _ _ _ ht
    rwa [seen_movePush] at this

theorem loop (h : SimulatesT c c' τ R) (o : Opts) (n : ℕ) : ∀ (i : ℕ) (s s' : Sim), R s s' →
    Fwd (fun _ => True) R (c.loop o i n s) (c'.loop o i n s') := by
  induction n with
  | zero => intro i s s' hR; exact Fwd.pure hR
  | succ n ih =>
    intro i s s' hR
    exact Fwd.bind (h.iter o i s s' hR) (grows_loop c o n (i + 1)) fun s s' hR => ih _ _ _ hR

theorem step (h : SimulatesT c c' τ R) (N : ℕ) (o : Opts) (s s' : Sim) (hR : R s s') :
    Fwd (fun _ => True) R (c.step N o s) (c'.step N o s') := by
  unfold Cfg.step
  exact Fwd.bind (h.loop o N 0 _ _ (h.start _ _ hR)) (Grows.pure _ fun s => rfl) fun s s' hR =>
    Fwd.pure (h.finish _ _ hR)

theorem calls (h : SimulatesT c c' τ R) (L : List (ℕ × Opts)) : ∀ (s s' : Sim), R s s' →
    Fwd (fun _ => True) R (c.calls L s) (c'.calls L s') := by
  induction L with
  | nil => intro s s' hR; exact Fwd.pure hR
  | cons a L ih =>
    intro s s' hR
    exact Fwd.bind (h.step a.1 a.2 s s' hR) (grows_calls c L) fun s s' hR => ih _ _ hR

end SimulatesT

open Spec (Rescaling)

namespace Units

variable (U : Rescaling) (c : Cfg) (ext : List Ext)

/-- The relation between the states, in the terms of the model. -/
structure Rel (s s' : Sim) : Prop where
  zmin : s'.zmin = U.len * s.zmin
  zmax : s'.zmax = U.len * s.zmax
  time : s'.time = U.tim * s.time
  iteration : s'.iteration = s.iteration
  species : s'.species = s.species.map U.species
  interp : s'.interp = fun m => interp U (s.interp m)
  spect : s'.spect = fun m => U.grid (s.spect m)

theorem rel_iff (s s' : Sim) : Rel U s s' ↔ U.Rescaled s s' := by
  constructor
  · intro h
    have hi : ∀ m, s'.interp m = interp U (s.interp m) := fun m => congrFun h.interp m
    refine ⟨h.zmin, h.zmax, h.time, h.iteration, h.species, ?_, ?_, ?_, ?_, ?_, ?_, ?_, ?_, ?_, ?_,
      fun m => congrFun h.spect m⟩ <;> intro m <;> rw [hi] <;> rfl
  · intro h
    refine ⟨h.zmin, h.zmax, h.time, h.iteration, h.species, ?_, funext h.spect⟩
    funext m
    have h1 := h.Er m
    have h2 := h.Et m
    have h3 := h.Ez m
    have h4 := h.Br m
    have h5 := h.Bt m
    have h6 := h.Bz m
    have h7 := h.Jr m
    have h8 := h.Jt m
    have h9 := h.Jz m
    have h10 := h.rho m
    generalize s'.interp m = i at *
    obtain ⟨⟨_, _, _⟩, ⟨_, _, _⟩, ⟨_, _, _⟩, _⟩ := i
    simp only at h1 h2 h3 h4 h5 h6 h7 h8 h9 h10
    rw [h1, h2, h3, h4, h5, h6, h7, h8, h9, h10]
    rfl

variable [NeZero c.Nz]

theorem iterEnd_u (hc : 0 < c.k.c) (hV : ∀ v, c.V = some v → |v| < c.k.c) (o : Opts) (s s' : Sim) (hR : Rel U s s') :
    Fwd (fun _ => True) (Rel U) (c.iterEnd o s) ((U.cfg c ext).iterEnd o s') := by
  intro t ht _
  unfold Cfg.iterEnd at ht
  obtain ⟨sp, hsp, ht2⟩ := (except_bind_ok _ _ _).1 ht
  clear ht
  have h1 : (if o.correctCurrents = true then onModes c.Nm (fun _ g => g.correctCurrents (U.consts c.k) c.correction
      (U.tim * c.dt) (c.V.map fun v => U.len / U.tim * v) c.galilean) s'.spect else s'.spect)
      = fun m => U.grid ((if o.correctCurrents = true then onModes c.Nm
      (fun _ g => g.correctCurrents c.k c.correction c.dt c.V c.galilean) s.spect else s.spect) m) := by
    rw [hR.spect]
    split_ifs
    · exact onModes_u _ _ _ U.grid _ fun m g => gridCurrents_u U c hc hV g
    · rfl
  generalize (if o.correctCurrents = true then onModes c.Nm (fun _ g => g.correctCurrents c.k c.correction c.dt c.V
      c.galilean) s.spect else s.spect) = A at *
  have h2 : onModes c.Nm (fun _ g => g.push (U.consts c.k) (U.tim * c.dt) (c.V.map fun v => U.len / U.tim * v)
        c.galilean false o.useTrueRho) (fun m => U.grid (A m)) = fun m => U.grid (onModes c.Nm
      (fun _ g => g.push c.k c.dt c.V c.galilean false o.useTrueRho) A m) :=
    onModes_u _ _ _ U.grid _ fun m g => gridPush_u U c hc hV _ g
  generalize onModes c.Nm (fun _ g => g.push c.k c.dt c.V c.galilean false o.useTrueRho) A = A' at *
  have h3 : (if o.correctDivE = true then (U.cfg c ext).correctDivE (fun m => U.grid (A' m))
      else pure fun m => U.grid (A' m)) = .ok fun m => U.grid (sp m) := by
    by_cases hd : o.correctDivE = true
    · rw [if_pos hd] at hsp ⊢
      exact correctDivE_u U c ext A' sp hsp
    · rw [if_neg hd] at hsp ⊢
      rw [Except.ok.inj hsp]; rfl
  have h4 : (U.cfg c ext).iterEnd o s' = .ok { s' with
      spect := fun m => U.grid (sp m)
      interp := onModes c.Nm (fun m i => (U.cfg c ext).interpEB m (U.grid (sp m)) i) s'.interp
      time := s'.time + U.tim * c.dt
      iteration := s'.iteration + 1 } := by
    unfold Cfg.iterEnd
    refine (except_bind_ok _ _ _).2 ⟨fun m => U.grid (sp m), ?_, rfl⟩
    change (fun X : ℕ → SpecGrid => (if o.correctDivE = true then (U.cfg c ext).correctDivE X else pure X :
      Except PyErr (ℕ → SpecGrid))) (onModes c.Nm (fun _ g => g.push (U.consts c.k) (U.tim * c.dt)
        (c.V.map fun v => U.len / U.tim * v) c.galilean false o.useTrueRho)
        (if o.correctCurrents = true then onModes c.Nm (fun _ g => g.correctCurrents (U.consts c.k) c.correction
          (U.tim * c.dt) (c.V.map fun v => U.len / U.tim * v) c.galilean) s'.spect else s'.spect)) = _
    rw [h1, h2]
    exact h3
  rw [← Except.ok.inj ht2]
  refine ⟨_, h4, hR.zmin, hR.zmax, ?_, ?_, hR.species, ?_, rfl⟩
  · show s'.time + _ = U.tim * (s.time + c.dt); rw [hR.time]; ring
  · show s'.iteration + _ = _; rw [hR.iteration]
  · show onModes c.Nm _ s'.interp = _
    rw [hR.interp]
    exact onModes_u _ _ _ (interp U) _ fun m i => interpEB_u U c ext _ _ _

theorem rho_u (hn : 0 < c.nthreads) (nm : RhoName) (s s' : Sim) (hR : Rel U s s') :
    Fwd (fun _ => True) (Rel U) (c.depositRho nm s) ((U.cfg c ext).depositRho nm s') := by
  intro t ht _
  obtain ⟨h1, rfl⟩ := (depositRho_ok c hn nm s t).1 ht
  have h2 := depOk_u U c ext .rho s s' hR.zmin hR.species h1
  have h3 := depArr_u U c ext .rho s s' hR.zmin hR.species
  have h4 : onModes c.Nm (fun m i => { i with rho := (U.cfg c ext).depArr .rho s' m })
      (fun m => interp U (s.interp m)) = fun m => interp U
      (onModes c.Nm (fun m i => { i with rho := c.depArr .rho s m }) s.interp m) := by
    refine onModes_u _ _ _ (interp U) _ fun m i => ?_
    rw [h3, depFac_rho]; rfl
  refine ⟨_, (depositRho_ok (U.cfg c ext) hn nm s' _).2 ⟨h2, rfl⟩, hR.zmin, hR.zmax, hR.time, hR.iteration,
    hR.species, ?_, ?_⟩
  · unfold Cfg.withRho
    dsimp only
    rw [hR.interp]
    exact h4
  · unfold Cfg.withRho
    dsimp only
    rw [hR.spect, hR.interp]
    refine onModes_u _ _ _ U.grid _ fun m g => ?_
    change (U.cfg c ext).filterSpect _ m ((U.cfg c ext).spectRho nm m (onModes c.Nm (fun m i => { i with
      rho := (U.cfg c ext).depArr .rho s' m }) (fun m => interp U (s.interp m)) m) (U.grid g)) = _
    rw [h4, spectRho_u, filterSpect_u]

theorem J_u (hn : 0 < c.nthreads) (s s' : Sim) (hR : Rel U s s') :
    Fwd (fun _ => True) (Rel U) (c.depositJ s) ((U.cfg c ext).depositJ s') := by
  intro t ht _
  obtain ⟨⟨h1, h1', h1''⟩, rfl⟩ := (depositJ_ok c hn s t).1 ht
  have h2 := fun f => depOk_u U c ext f s s' hR.zmin hR.species
  have h3 := fun f => depArr_u U c ext f s s' hR.zmin hR.species
  have h4 : onModes c.Nm (fun m i => { i with J := ⟨(U.cfg c ext).depArr .Jr s' m, (U.cfg c ext).depArr .Jt s' m,
        (U.cfg c ext).depArr .Jz s' m⟩ }) (fun m => interp U (s.interp m)) = fun m => interp U
      (onModes c.Nm (fun m i => { i with J := ⟨c.depArr .Jr s m, c.depArr .Jt s m, c.depArr .Jz s m⟩ })
        s.interp m) := by
    refine onModes_u _ _ _ (interp U) _ fun m i => ?_
    rw [h3, h3, h3, depFac_J U .Jr (by simp), depFac_J U .Jt (by simp), depFac_J U .Jz (by simp)]; rfl
  refine ⟨_, (depositJ_ok (U.cfg c ext) hn s' _).2 ⟨⟨h2 _ h1, h2 _ h1', h2 _ h1''⟩, rfl⟩, hR.zmin, hR.zmax, hR.time,
    hR.iteration, hR.species, ?_, ?_⟩
  · unfold Cfg.withJ
    dsimp only
    rw [hR.interp]
    exact h4
  · unfold Cfg.withJ
    dsimp only
    rw [hR.spect, hR.interp]
    refine onModes_u _ _ _ U.grid _ fun m g => ?_
    change (U.cfg c ext).filterSpect _ m ((U.cfg c ext).spectJ m (onModes c.Nm (fun m i => { i with
      J := ⟨(U.cfg c ext).depArr .Jr s' m, (U.cfg c ext).depArr .Jt s' m, (U.cfg c ext).depArr .Jz s' m⟩ })
        (fun m => interp U (s.interp m)) m) (U.grid g)) = _
    rw [h4, spectJ_u, filterSpect_u]

theorem simulates (hc : 0 < c.k.c) (hV : ∀ v, c.V = some v → |v| < c.k.c) (hn : 0 < c.nthreads)
    (hext : U.ExtRescaled c ext) : SimulatesT c (U.cfg c ext) U.tim (Rel U) where
  period := rfl
  correction := rfl
  dt := rfl
  iteration := fun _ _ hR => hR.iteration
  wrap := by
    intro s s' hR t ht _
    have h1 := mapPtclM_u U _ (fun _ p => (U.cfg c ext).wrap s'.zmin s'.zmax p) s s' t hR.species ht (by
      intro sp p p' h
      rw [hR.zmin, hR.zmax]
      exact wrap_u U c ext _ _ p p' h)
    have := mapPtclM_rest _ _ _ ht
    rw [this]
    exact ⟨_, h1, hR.zmin, hR.zmax, hR.time, hR.iteration, rfl, hR.interp, hR.spect⟩
  rho := rho_u U c ext hn
  J := J_u U c ext hn
  gather := by
    intro s s' hR t ht _
    have h1 := mapPtclM_u U _ (fun sp p => (U.cfg c ext).gatherPtcl s' sp p) s.record s'.record t hR.species ht (by
      intro sp p p' h
      exact gather_u U c ext s s' hR.zmin hR.interp sp p p' h)
    have := mapPtclM_rest _ _ _ ht
    rw [this]
    exact ⟨_, h1, hR.zmin, hR.zmax, hR.time, hR.iteration, rfl, hR.interp, hR.spect⟩
  exts := by
    intro s s' hR
    refine ⟨hR.zmin, hR.zmax, hR.time, hR.iteration, ?_, hR.interp, hR.spect⟩
    show s'.species.mapIdx _ = (s.species.mapIdx _).map _
    rw [hR.species, hR.time]
    apply List.ext_getElem
    · simp
    · intro i h1 h2
      simp only [List.getElem_mapIdx, List.getElem_map]
      show Species.mk _ _ _ _ _ _ _ = Species.mk _ _ _ _ _ _ _
      congr 1
      show (List.map U.ptcl _).map _ = (List.map _ _).map U.ptcl
      rw [List.map_map, List.map_map]
      refine List.map_congr_left fun p _ => ?_
      exact hext s.time i p
  pushP := by
    intro s s' hR t ht _
    have h1 := mapPtclM_u U _ (fun sp p => (U.cfg c ext).pushP (s'.time + 0.5 * (U.tim * c.dt)) sp p) s s' t hR.species
      ht (by
      intro sp p p' h
      rw [hR.time, show U.tim * s.time + 0.5 * (U.tim * c.dt) = U.tim * (s.time + 0.5 * c.dt) by ring]
      exact pushP_u U c ext _ sp p p' h)
    have := mapPtclM_rest _ _ _ ht
    rw [this]
    exact ⟨_, h1, hR.zmin, hR.zmax, hR.time, hR.iteration, rfl, hR.interp, hR.spect⟩
  pushX := by
    intro dt a b s s' hR
    refine ⟨hR.zmin, hR.zmax, hR.time, hR.iteration, ?_, hR.interp, hR.spect⟩
    show s'.species.map _ = (s.species.map _).map _
    rw [hR.species, List.map_map, List.map_map]
    refine List.map_congr_left fun sp _ => ?_
    show Species.mk _ _ _ _ _ _ _ = Species.mk _ _ _ _ _ _ _
    congr 1
    show (List.map U.ptcl _).map _ = (List.map _ _).map U.ptcl
    rw [List.map_map, List.map_map]
    refine List.map_congr_left fun p _ => ?_
    have ht := tim_ne U
    have key : ∀ a v g x : ℝ, U.len * x + U.len / U.tim * c.k.c * (U.tim * dt) * v * a * g
        = U.len * (x + c.k.c * dt * v * a * g) := fun a v g x => by field_simp
    show Ptcl.mk _ _ _ = Ptcl.mk _ _ _
    congr 1
    show PushPtcl.mk _ _ _ _ _ = PushPtcl.mk _ _ _ _ _
    congr 1 <;> simp only [Rescaling.ptcl, Rescaling.push, Fbpic.pushX, Rescaling.cfg, Rescaling.consts] <;> field_simp
  shift := by
    intro dt s s' hR
    have ht := tim_ne U
    have hg : (U.cfg c ext).galilean = c.galilean := rfl
    have hV' : (U.cfg c ext).V.getD 0 = U.len / U.tim * c.V.getD 0 := getD_u U c.V
    unfold Cfg.shiftGalilean
    rw [hg, hV']
    by_cases hc : c.galilean = true
    · rw [if_pos hc, if_pos hc]
      refine ⟨?_, ?_, hR.time, hR.iteration, hR.species, hR.interp, hR.spect⟩
      · show s'.zmin + _ = U.len * (s.zmin + _)
        rw [hR.zmin]; field_simp
      · show s'.zmax + _ = U.len * (s.zmax + _)
        rw [hR.zmax]; field_simp
    · rw [if_neg hc, if_neg hc]; exact hR
  iterEnd := fun o s s' hR => iterEnd_u U c ext hc hV o s s' hR
  start := by
    intro s s' hR
    refine ⟨hR.zmin, hR.zmax, hR.time, hR.iteration, hR.species, hR.interp, ?_⟩
    show onModes c.Nm (fun m g => (U.cfg c ext).spectB m (s'.interp m) ((U.cfg c ext).spectE m (s'.interp m) g))
      s'.spect = _
    rw [hR.spect, hR.interp]
    refine onModes_u _ _ _ U.grid _ fun m g => ?_
    rw [spectE_u, spectB_u]
  finish := by
    intro s s' hR
    refine ⟨hR.zmin, hR.zmax, hR.time, hR.iteration, hR.species, ?_, hR.spect⟩
    show onModes c.Nm (fun m i => (U.cfg c ext).interpSources m (s'.spect m) i) s'.interp = _
    rw [hR.spect, hR.interp]
    refine onModes_u _ _ _ (interp U) _ fun m g => ?_
    rw [interpSources_u]

end Units

end Fbpic.Pic
