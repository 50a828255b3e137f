import Verif.Spec.Seed
import Verif.Lemmas.PicEvent
import Verif.Lemmas.PicIonize

/-!
# Lemmas: random numbers
-/

namespace Fbpic.Seed

open Pic Transform ExternalField Step

variable {G C : Type} (lib : Lib G C)

section Trees
variable {α β : Type}

theorem bind_eq (p : Ask α) (f : α → Ask β) : p >>= f = p.bind f := rfl

/-- The second function starts with the generators that the first one leaves. -/
def continue_ (f : α → Ask β) (x : Except PyErr α × Gens G C) : Except PyErr β × Gens G C :=
  match x.1 with
  | .ok a => (f a).run lib x.2
  | .error e => (.error e, x.2)

theorem run_bind (p : Ask α) (f : α → Ask β) (g : Gens G C) :
    (p >>= f).run lib g = continue_ lib f (p.run lib g) := by
  rw [bind_eq]
  induction p generalizing g with
  | done r => cases r <;> rfl
  | uniform n k ih => exact ih _ _
  | normal n k ih => exact ih _ _
  | gpuUniform n k ih => exact ih _ _
  | byte k ih => exact ih _ _
  | numba k ih => exact ih _ _

theorem run_done (r : Except PyErr α) (g : Gens G C) : (Ask.done r).run lib g = (r, g) := rfl

theorem continue_ok (f : α → Ask β) (a : α) (g : Gens G C) : continue_ lib f (.ok a, g) = (f a).run lib g := rfl

theorem continue_error (f : α → Ask β) (e : PyErr) (g : Gens G C) : continue_ lib f (.error e, g) = (.error e, g) := rfl

/-- The random numbers come from generators that can be seeded. -/
def Ask.Seeds (cupy : Bool) : Ask α → Prop
  | .done _ => True
  | .uniform _ k => ∀ d, (k d).Seeds cupy
  | .normal _ k => ∀ d, (k d).Seeds cupy
  | .gpuUniform _ k => cupy = true ∧ ∀ d, (k d).Seeds cupy
  | .byte k => ∀ d, (k d).Seeds cupy
  | .numba _ => False

theorem seeds_bind {cupy : Bool} {p : Ask α} {f : α → Ask β} (hp : p.Seeds cupy) (hf : ∀ a, (f a).Seeds cupy) :
    (p >>= f).Seeds cupy := by
  rw [bind_eq]
  induction p with
  | done r => cases r with
    | ok a => exact hf a
    | error e => trivial
  | uniform n k ih => exact fun d => ih d (hp d)
  | normal n k ih => exact fun d => ih d (hp d)
  | gpuUniform n k ih => exact ⟨hp.1, fun d => ih d (hp.2 d)⟩
  | byte k ih => exact fun d => ih d (hp d)
  | numba k => exact hp.elim

/-- The seeded generators agree. -/
structure Alike (cupy : Bool) (g g' : Gens G C) : Prop where
  np : g'.np = g.np
  cp : cupy = true → g'.cp = g.cp

theorem run_alike {cupy : Bool} {p : Ask α} (hp : p.Seeds cupy) {g g' : Gens G C} (h : Alike cupy g g') :
    (p.run lib g').1 = (p.run lib g).1 := by
  induction p generalizing g g' with
  | done r => rfl
  | uniform n k ih =>
    show ((k _).run lib _).1 = ((k _).run lib _).1
    rw [h.np]
    exact ih _ (hp _) ⟨rfl, h.cp⟩
  | normal n k ih =>
    show ((k _).run lib _).1 = ((k _).run lib _).1
    rw [h.np]
    exact ih _ (hp _) ⟨rfl, h.cp⟩
  | gpuUniform n k ih =>
    show ((k _).run lib _).1 = ((k _).run lib _).1
    rw [h.cp hp.1]
    exact ih _ (hp.2 _) ⟨h.np, fun _ => rfl⟩
  | byte k ih =>
    show ((k _).run lib _).1 = ((k _).run lib _).1
    rw [h.np]
    exact ih _ (hp _) ⟨rfl, h.cp⟩
  | numba k => exact hp.elim

theorem seeds_foldlM {cupy : Bool} {ι : Type} (f : α → ι → Ask α) (hf : ∀ a i, (f a i).Seeds cupy) (l : List ι) :
    ∀ a, (l.foldlM f a).Seeds cupy := by
  induction l with
  | nil => intro a; exact trivial
  | cons i l ih =>
    intro a
    rw [List.foldlM_cons]
    exact seeds_bind (hf a i) ih

end Trees

theorem alike_seed (cupy : Bool) (rank seed : ℕ) (g g' : Gens G C) :
    Alike cupy (setRandomSeed lib cupy rank seed g) (setRandomSeed lib cupy rank seed g') :=
  ⟨rfl, fun h => by unfold setRandomSeed; simp [h]⟩

/-! ### The functions that draw -/

theorem seeds_load (cupy : Bool) (a : Load) : a.ask.Seeds cupy := by
  unfold Load.ask
  split_ifs
  · trivial
  · exact fun _ _ _ _ => trivial

theorem seeds_bunch (cupy : Bool) (cl : ℝ) (a : Bunch.GaussArgs) : (bunchAsk cl a).Seeds cupy := by
  unfold bunchAsk
  simp only
  by_cases h : a.symmetrize = true ∧ a.N % 4 ≠ 0
  · rw [if_pos h]; trivial
  · rw [if_neg h]; exact fun _ _ _ _ _ _ => trivial

theorem seeds_elementary {cupy : Bool} {M : Machine} {P : Processes} (h : Spec.Seed.Seedable cupy M P)
    (xoro : ℕ → ℕ → ℕ → ℝ) (cl dt t : ℝ) (it : ℕ) (sps : List Pic.Species) (id : ℕ) :
    (elementaryAsk xoro M P.ionizers P.scat cl dt t it sps id).Seeds cupy := by
  refine seeds_bind ?_ fun sps => ?_
  · unfold ionizePart
    cases P.ionizers id with
    | none => trivial
    | some I =>
      show (ionizeAsk M I cl it id sps).Seeds cupy
      unfold ionizeAsk
      simp only
      by_cases hg : M.gpu = true
      · rw [if_pos hg]; exact ⟨h.gpu hg, fun _ => trivial⟩
      · rw [if_neg hg]; exact fun _ => trivial
  · unfold comptonPart
    cases hS : P.scat id with
    | none => trivial
    | some S =>
      show (comptonAsk xoro M S cl dt t it id sps).Seeds cupy
      unfold comptonAsk
      simp only
      by_cases hg : M.gpu = true
      · rw [if_pos hg]; exact fun _ => trivial
      · rw [h.cpu (by simpa using hg) id] at hS
        cases hS

theorem seeds_process {cupy : Bool} {M : Machine} {P : Processes} (h : Spec.Seed.Seedable cupy M P)
    (xoro : ℕ → ℕ → ℕ → ℝ) (cl dt : ℝ) (s : Sim) :
    (processAsk xoro M P.ionizers P.scat cl dt s).Seeds cupy :=
  seeds_bind (seeds_foldlM _ (fun sps id => seeds_elementary h xoro cl dt _ _ sps id) _ _) fun _ => trivial

variable (c : Cfg) [NeZero c.Nz]

theorem seeds_loop {cupy : Bool} {ev : Sim → Ask Sim} (hev : ∀ s, (ev s).Seeds cupy) (o : Opts) (n : ℕ) :
    ∀ i s, (loopAsk c ev o i n s).Seeds cupy := by
  induction n with
  | zero => intro i s; trivial
  | succ n ih =>
    intro i s
    refine seeds_bind ?_ fun s => ih _ _
    unfold iterAsk
    split_ifs
    · trivial
    · exact seeds_bind trivial fun _ => seeds_bind trivial fun _ => seeds_bind (hev _) fun _ => seeds_bind trivial fun _ => trivial

theorem seeds_step {cupy : Bool} {ev : Sim → Ask Sim} (hev : ∀ s, (ev s).Seeds cupy) (o : Opts) (n : ℕ) (s : Sim) :
    (stepAsk c ev n o s).Seeds cupy :=
  seeds_bind (seeds_loop c hev o n 0 _) fun _ => trivial

theorem seeds_calls {cupy : Bool} {ev : Sim → Ask Sim} (hev : ∀ s, (ev s).Seeds cupy) (L : List (ℕ × Opts)) :
    ∀ s, (callsAsk c ev L s).Seeds cupy := by
  induction L with
  | nil => intro s; trivial
  | cons x L ih => intro s; exact seeds_bind (seeds_step c hev x.2 x.1 s) ih

theorem seeds_script {cupy : Bool} {M : Machine} {P : Processes} (h : Spec.Seed.Seedable cupy M P)
    (xoro : ℕ → ℕ → ℕ → ℝ) (L : List Command) : ∀ w, (script c xoro M P L w).Seeds cupy := by
  induction L with
  | nil => intro w; trivial
  | cons x L ih =>
    intro w
    refine seeds_bind ?_ ih
    cases x with
    | plain f => exact seeds_bind trivial fun _ => trivial
    | load a id => exact seeds_bind (seeds_bind (seeds_load cupy a) fun _ => trivial) fun _ => trivial
    | bunch a place id => exact seeds_bind (seeds_bunch cupy _ a) fun _ => trivial
    | sample f id => exact fun _ => trivial
    | step n o => exact seeds_bind (seeds_step c (seeds_process h xoro _ _) o n _) fun _ => trivial

/-! ### A run with generators is a run with some random numbers -/

section Covered
variable {X : Type}

/-- The result of the event with the random numbers `x` is what the event does. -/
structure Covers (ev : Sim → Ask Sim) (e : X → Sim → Except PyErr Sim) : Prop where
  some : ∀ s (g : Gens G C), ∃ x, ((ev s).run lib g).1 = e x s
  iteration : ∀ x s t, e x s = .ok t → t.iteration = s.iteration

private theorem it_mapM (f : Pic.Species → Ptcl → Except PyErr Ptcl) (s t : Sim) (h : s.mapPtclM f = .ok t) :
    t.iteration = s.iteration := by
  unfold Sim.mapPtclM at h
  obtain ⟨sps, -, h⟩ := (except_bind_ok _ _ _).1 h
  rw [← Except.ok.inj h]

private theorem it_rho (n : RhoName) (s t : Sim) (h : c.depositRho n s = .ok t) : t.iteration = s.iteration := by
  unfold Cfg.depositRho at h
  obtain ⟨A, -, h⟩ := (except_bind_ok _ _ _).1 h
  rw [← Except.ok.inj h]
  rfl

private theorem it_J (s t : Sim) (h : c.depositJ s = .ok t) : t.iteration = s.iteration := by
  unfold Cfg.depositJ at h
  obtain ⟨A, -, h⟩ := (except_bind_ok _ _ _).1 h
  obtain ⟨A, -, h⟩ := (except_bind_ok _ _ _).1 h
  obtain ⟨A, -, h⟩ := (except_bind_ok _ _ _).1 h
  rw [← Except.ok.inj h]
  rfl

private theorem it_move (move : Bool) (dt px py pz dtg : ℝ) (s : Sim) :
    (c.movePush move dt px py pz dtg s).iteration = s.iteration := by
  unfold Cfg.movePush Cfg.shiftGalilean
  cases move <;> split_ifs <;> first | rfl | simp_all [Cfg.pushX, Sim.mapPtcl]

theorem it_start (i : ℕ) (s t : Sim) (h : c.iterStart i s = .ok t) : t.iteration = s.iteration := by
  rw [iterStart_eq] at h
  obtain ⟨s2, h2, h⟩ := (except_bind_ok _ _ _).1 h
  obtain ⟨s3, h3, h⟩ := (except_bind_ok _ _ _).1 h
  obtain ⟨s4, h4, h⟩ := (except_bind_ok _ _ _).1 h
  rw [← (Except.ok.inj h : c.applyExts s4 = t)]
  have q2 : s2.iteration = s.iteration := by
    split_ifs at h2
    · obtain ⟨s1, h1, h2⟩ := (except_bind_ok _ _ _).1 h2
      exact (it_rho c _ _ _ h2).trans (it_mapM _ _ _ h1)
    · rw [← Except.ok.inj h2]
  have q3 : s3.iteration = s2.iteration := by
    split_ifs at h3
    · exact it_J c _ _ h3
    · rw [← Except.ok.inj h3]
  have q4 : s4.iteration = s3.iteration := (it_mapM _ _ _ h4).trans rfl
  exact (q4.trans q3).trans q2

theorem it_half (o : Opts) (s t : Sim) (h : c.iterHalf o s = .ok t) : t.iteration = s.iteration := by
  rw [iterHalf_eq] at h
  obtain ⟨s1, h1, h⟩ := (except_bind_ok _ _ _).1 h
  rw [← Except.ok.inj h, it_move]
  split_ifs at h1
  · exact it_mapM _ _ _ h1
  · rw [← Except.ok.inj h1]

theorem it_deposit (o : Opts) (s t : Sim) (h : c.iterDeposit o s = .ok t) : t.iteration = s.iteration := by
  rw [iterDeposit_eq] at h
  obtain ⟨s2, h2, h⟩ := (except_bind_ok _ _ _).1 h
  obtain ⟨s3, h3, h⟩ := (except_bind_ok _ _ _).1 h
  have q2 := it_J c _ _ h2
  have q4 := (it_rho c _ _ _ h).trans (it_move c _ _ _ _ _ _ _)
  have q3 : s3.iteration = s2.iteration := by
    unfold Cfg.maybeCross at h3
    split at h3
    · rw [crossDeposit_eq] at h3
      obtain ⟨sX, hX, h3⟩ := (except_bind_ok _ _ _).1 h3
      obtain ⟨sZ, hZ, h3⟩ := (except_bind_ok _ _ _).1 h3
      rw [← Except.ok.inj h3, it_move, it_rho c _ _ _ hZ, it_move, it_rho c _ _ _ hX, it_move]
    · rw [← Except.ok.inj h3]
  exact (q4.trans q3).trans q2

theorem it_end (o : Opts) (s t : Sim) (h : c.iterEnd o s = .ok t) : t.iteration = s.iteration + 1 := by
  unfold Cfg.iterEnd at h
  simp only at h
  obtain ⟨A, -, h⟩ := (except_bind_ok _ _ _).1 h
  rw [← Except.ok.inj h]

variable {lib} {ev : Sim → Ask Sim} {e : X → Sim → Except PyErr Sim}

theorem iter_covered (H : Covers lib ev e) (x0 : X) (o : Opts) (i : ℕ) (s : Sim) (g : Gens G C) :
    ∃ x, ∀ ch : ℕ → X, ch s.iteration = x →
      ((iterAsk c ev o i s).run lib g).1 = c.iterEv (fun s => e (ch s.iteration) s) o i s ∧
      ∀ t, ((iterAsk c ev o i s).run lib g).1 = .ok t → t.iteration = s.iteration + 1 := by
  unfold iterAsk Cfg.iterEv
  by_cases hp : c.exchangePeriod = 0
  · refine ⟨x0, fun ch _ => ?_⟩
    rw [if_pos hp, if_pos hp]
    exact ⟨rfl, fun t h => by cases h⟩
  · rw [if_neg hp]
    simp only [if_neg hp, run_bind]
    simp only [run_done]
    cases ha : c.iterStart i s with
    | error er => exact ⟨x0, fun ch _ => ⟨rfl, fun t h => by cases h⟩⟩
    | ok a =>
      have ia := it_start c i s a ha
      simp only [continue_ok, run_bind, run_done]
      cases hb : c.iterHalf o a with
      | error er =>
        refine ⟨x0, fun ch _ => ⟨?_, fun t h => by cases h⟩⟩
        simp [hb, bind, Except.bind, continue_error]
      | ok b =>
        have ib := it_half c o a b hb
        obtain ⟨x, hx⟩ := H.some b g
        refine ⟨x, fun ch hch => ?_⟩
        have ib' : ch b.iteration = x := by rw [ib, ia, hch]
        simp only [continue_ok, run_bind, run_done]
        rcases hr : (ev b).run lib g with ⟨r, g'⟩
        rw [hr] at hx
        simp only at hx
        subst hx
        have hev : c.iterHalf o a >>= (fun s => e (ch s.iteration) s >>= fun s => c.iterDeposit o s >>= fun s => c.iterEnd o s)
            = e x b >>= fun s => c.iterDeposit o s >>= fun s => c.iterEnd o s := by
          rw [hb]
          show e (ch b.iteration) b >>= _ = _
          rw [ib']
        show _ = (c.iterHalf o a >>= (fun s => e (ch s.iteration) s >>= fun s => c.iterDeposit o s >>= fun s => c.iterEnd o s)) ∧ _
        rw [hev]
        cases hd : e x b with
        | error er => exact ⟨rfl, fun t h => by cases h⟩
        | ok d =>
          have id' := H.iteration x b d hd
          simp only [continue_ok, run_bind, run_done]
          show _ = (c.iterDeposit o d >>= fun s => c.iterEnd o s) ∧ _
          cases hf : c.iterDeposit o d with
          | error er => exact ⟨rfl, fun t h => by cases h⟩
          | ok f =>
            refine ⟨rfl, fun t h => ?_⟩
            rw [it_end c o f t h, it_deposit c o d f hf, id', ib, ia]

theorem loop_covered (H : Covers lib ev e) (x0 : X) (o : Opts) (n : ℕ) : ∀ (i : ℕ) (s : Sim) (g : Gens G C),
    ∃ ch₀ : ℕ → X, ∀ ch : ℕ → X, (∀ j, s.iteration ≤ j → j < s.iteration + n → ch j = ch₀ j) →
      ((loopAsk c ev o i n s).run lib g).1 = c.loopEv (fun s => e (ch s.iteration) s) o i n s ∧
      ∀ t, ((loopAsk c ev o i n s).run lib g).1 = .ok t → t.iteration = s.iteration + n := by
  induction n with
  | zero =>
    intro i s g
    refine ⟨fun _ => x0, fun ch _ => ⟨rfl, fun t h => ?_⟩⟩
    rw [← Except.ok.inj h]; rfl
  | succ n ih =>
    intro i s g
    obtain ⟨x, hx⟩ := iter_covered c H x0 o i s g
    rcases hr : (iterAsk c ev o i s).run lib g with ⟨r, g'⟩
    have eq : (loopAsk c ev o i (n + 1) s).run lib g = continue_ lib (fun s => loopAsk c ev o (i + 1) n s) (r, g') := by
      rw [← hr]; exact run_bind lib _ _ _
    rw [hr] at hx
    rw [eq]
    unfold continue_
    cases r with
    | error er =>
      refine ⟨fun _ => x, fun ch hch => ⟨?_, fun t h => by cases h⟩⟩
      have := (hx ch (hch _ le_rfl (by omega))).1
      show _ = (c.iterEv _ o i s >>= _)
      rw [← this]; rfl
    | ok u =>
      obtain ⟨ch₀, h₀⟩ := ih (i + 1) u g'
      refine ⟨fun j => if j = s.iteration then x else ch₀ j, fun ch hch => ?_⟩
      have hs : ch s.iteration = x := (hch _ le_rfl (by omega)).trans (if_pos rfl)
      obtain ⟨h1, h2⟩ := hx ch hs
      have hu : u.iteration = s.iteration + 1 := h2 u rfl
      obtain ⟨k1, k2⟩ := h₀ ch fun j a b => by
        exact (hch j (by omega) (by omega)).trans (if_neg (by omega))
      refine ⟨?_, fun t h => by rw [k2 t h, hu]; omega⟩
      show _ = (c.iterEv _ o i s >>= _)
      rw [← h1]
      exact k1

theorem calls_covered (H : Covers lib ev e) (x0 : X) (L : List (ℕ × Opts)) : ∀ (s : Sim) (g : Gens G C),
    ∃ ch₀ : ℕ → X, ∀ ch : ℕ → X, (∀ j, s.iteration ≤ j → ch j = ch₀ j) →
      ((callsAsk c ev L s).run lib g).1 = c.callsEv (fun s => e (ch s.iteration) s) L s := by
  induction L with
  | nil => intro s g; exact ⟨fun _ => x0, fun ch _ => rfl⟩
  | cons x L ih =>
    obtain ⟨n, o⟩ := x
    intro s g
    obtain ⟨ch₁, h₁⟩ := loop_covered c H x0 o n 0 (c.startFields s) g
    have is : (c.startFields s).iteration = s.iteration := rfl
    rw [is] at h₁
    rcases hr : (loopAsk c ev o 0 n (c.startFields s)).run lib g with ⟨r, g'⟩
    have eq : (callsAsk c ev ((n, o) :: L) s).run lib g
        = continue_ lib (fun s => callsAsk c ev L s) (continue_ lib (fun s => Pure.pure (c.endFields s)) (r, g')) := by
      rw [← hr]
      exact (run_bind lib _ _ _).trans (congrArg _ (run_bind lib _ _ _))
    rw [hr] at h₁
    rw [eq]
    cases r with
    | error er =>
      refine ⟨ch₁, fun ch hch => ?_⟩
      have := (h₁ ch fun j a _ => hch j a).1
      show _ = ((c.loopEv _ o 0 n (c.startFields s) >>= _) >>= _)
      rw [← this]; rfl
    | ok u =>
      obtain ⟨ch₂, h₂⟩ := ih (c.endFields u) g'
      refine ⟨fun j => if j < s.iteration + n then ch₁ j else ch₂ j, fun ch hch => ?_⟩
      obtain ⟨k1, k2⟩ := h₁ ch fun j a b => (hch j a).trans (if_pos b)
      have hu : u.iteration = s.iteration + n := k2 u rfl
      have iu : (c.endFields u).iteration = u.iteration := rfl
      have := h₂ ch fun j a => (hch j (by omega)).trans (if_neg (by omega))
      show ((callsAsk c ev L (c.endFields u)).run lib g').1 = ((c.loopEv _ o 0 n (c.startFields s) >>= _) >>= _)
      rw [← k1, this]
      rfl

end Covered

/-! ### Ionization -/

section
variable (xoro : ℕ → ℕ → ℕ → ℝ) (M : Machine)

/-- The elementary processes of a list of species with different numbers: all of them draw something. -/
theorem fold_ionize (ionizers : ℕ → Option Ionizer) (cl dt t : ℝ) (it : ℕ) (l : List ℕ) (hl : l.Nodup) :
    ∀ (sps : List Pic.Species) (g : Gens G C), ∃ d : ℕ → ℕ → ℝ, ∀ d' : ℕ → ℕ → ℝ, (∀ id ∈ l, d' id = d id) →
      ((l.foldlM (elementaryAsk xoro M ionizers (fun _ => none) cl dt t it) sps).run lib g).1
        = l.foldlM (fun sps id => match ionizers id with
            | none => (.ok sps : Except PyErr (List Pic.Species))
            | some I => I.handle cl (d' id) (M.junkI it id) id sps) sps := by
  induction l with
  | nil => intro sps g; exact ⟨fun _ _ => 0, fun _ _ => rfl⟩
  | cons id l ih =>
    intro sps g
    obtain ⟨hid, hl⟩ := List.nodup_cons.1 hl
    have one : ∃ x : ℕ → ℝ, ∃ g', (elementaryAsk xoro M ionizers (fun _ => none) cl dt t it sps id).run lib g
        = ((match ionizers id with
            | none => (.ok sps : Except PyErr (List Pic.Species))
            | some I => I.handle cl x (M.junkI it id) id sps), g') := by
      unfold elementaryAsk ionizePart
      rw [run_bind]
      cases ionizers id with
      | none => exact ⟨fun _ => 0, g, rfl⟩
      | some I =>
        show ∃ x g', continue_ lib _ ((ionizeAsk M I cl it id sps).run lib g) = _
        have : ∃ x g', (ionizeAsk M I cl it id sps).run lib g = (I.handle cl x (M.junkI it id) id sps, g') := by
          unfold ionizeAsk
          simp only
          by_cases hg : M.gpu = true
          · rw [if_pos hg]; exact ⟨_, _, rfl⟩
          · rw [if_neg hg]; exact ⟨_, _, rfl⟩
        obtain ⟨x, g', h⟩ := this
        refine ⟨x, g', ?_⟩
        rw [h]
        simp only
        unfold continue_
        cases I.handle cl x (M.junkI it id) id sps <;> rfl
    obtain ⟨x, g', hx⟩ := one
    simp only [List.foldlM_cons, run_bind, hx]
    cases hr : (match ionizers id with
            | none => (.ok sps : Except PyErr (List Pic.Species))
            | some I => I.handle cl x (M.junkI it id) id sps) with
    | error e =>
      refine ⟨fun _ => x, fun d' hd => ?_⟩
      rw [hd id (by simp), hr]
      rfl
    | ok u =>
      obtain ⟨d, h⟩ := ih hl u g'
      refine ⟨fun i => if i = id then x else d i, fun d' hd => ?_⟩
      have hx' : d' id = x := (hd id (by simp)).trans (if_pos rfl)
      rw [hx', hr]
      exact h d' fun i hi => (hd i (List.mem_cons_of_mem _ hi)).trans (if_neg fun e : i = id => hid (e ▸ hi))

/-- The same for Compton scattering. -/
theorem fold_compton (scat : ℕ → Option Scatterer) (cl dt t : ℝ) (it : ℕ) (l : List ℕ) (hl : l.Nodup) :
    ∀ (sps : List Pic.Species) (g : Gens G C), ∃ d : ℕ → ComptonDraws, ∀ d' : ℕ → ComptonDraws, (∀ id ∈ l, d' id = d id) →
      ((l.foldlM (elementaryAsk xoro M (fun _ => none) scat cl dt t it) sps).run lib g).1
        = l.foldlM (fun sps id => match scat id with
            | none => (.ok sps : Except PyErr (List Pic.Species))
            | some S => S.handle cl dt t (d' id) (M.junkC it id) id sps) sps := by
  induction l with
  | nil => intro sps g; exact ⟨fun _ => ⟨fun _ => 0, fun _ _ => ⟨0, 0⟩, fun _ => 0⟩, fun _ _ => rfl⟩
  | cons id l ih =>
    intro sps g
    obtain ⟨hid, hl⟩ := List.nodup_cons.1 hl
    have one : ∃ x : ComptonDraws, ∃ g', (elementaryAsk xoro M (fun _ => none) scat cl dt t it sps id).run lib g
        = ((match scat id with
            | none => (.ok sps : Except PyErr (List Pic.Species))
            | some S => S.handle cl dt t x (M.junkC it id) id sps), g') := by
      have e : elementaryAsk xoro M (fun _ => none) scat cl dt t it sps id = comptonPart xoro M scat cl dt t it id sps := rfl
      rw [e]
      unfold comptonPart
      cases scat id with
      | none => exact ⟨⟨fun _ => 0, fun _ _ => ⟨0, 0⟩, fun _ => 0⟩, g, rfl⟩
      | some S =>
        show ∃ x g', (comptonAsk xoro M S cl dt t it id sps).run lib g = _
        unfold comptonAsk
        simp only
        by_cases hg : M.gpu = true
        · rw [if_pos hg]; exact ⟨_, _, rfl⟩
        · rw [if_neg hg]; exact ⟨_, _, rfl⟩
    obtain ⟨x, g', hx⟩ := one
    simp only [List.foldlM_cons, run_bind, hx]
    cases hr : (match scat id with
            | none => (.ok sps : Except PyErr (List Pic.Species))
            | some S => S.handle cl dt t x (M.junkC it id) id sps) with
    | error e =>
      refine ⟨fun _ => x, fun d' hd => ?_⟩
      rw [hd id (by simp), hr]
      rfl
    | ok u =>
      obtain ⟨d, h⟩ := ih hl u g'
      refine ⟨fun i => if i = id then x else d i, fun d' hd => ?_⟩
      have hx' : d' id = x := (hd id (by simp)).trans (if_pos rfl)
      rw [hx', hr]
      exact h d' fun i hi => (hd i (List.mem_cons_of_mem _ hi)).trans (if_neg fun e : i = id => hid (e ▸ hi))

/-- One ionization step with the random numbers `x`. -/
noncomputable def ionizeWith (ionizers : ℕ → Option Ionizer) (cl : ℝ) (x : ℕ → ℕ → ℝ) (s : Sim) : Except PyErr Sim :=
  ionizeAll ionizers cl ⟨fun _ => x, M.junkI⟩ s

/-- One scattering step with the random numbers `x`. -/
noncomputable def comptonWith (scat : ℕ → Option Scatterer) (cl dt : ℝ) (x : ℕ → ComptonDraws) (s : Sim) : Except PyErr Sim :=
  comptonAll scat cl dt ⟨fun _ => x, M.junkC⟩ s

theorem covers_ionize (ionizers : ℕ → Option Ionizer) (cl dt : ℝ) :
    Covers lib (processAsk xoro M ionizers (fun _ => none) cl dt) (ionizeWith M ionizers cl) where
  some := fun s g => by
    obtain ⟨d, h⟩ := fold_ionize lib xoro M ionizers cl dt (s.time + 0.5 * dt) s.iteration _ (List.nodup_range (n := s.species.length))
      s.species g
    refine ⟨d, ?_⟩
    unfold processAsk ionizeWith ionizeAll
    rw [run_bind]
    refine Eq.trans ?_ (congrArg (fun r => r >>= fun sps => (Pure.pure { s with species := sps } : Except PyErr Sim))
      (h d fun _ _ => rfl))
    generalize (((List.range s.species.length).foldlM
      (elementaryAsk xoro M ionizers (fun _ => none) cl dt (s.time + 0.5 * dt) s.iteration) s.species).run lib g) = r
    obtain ⟨r, g'⟩ := r
    cases r <;> rfl
  iteration := fun x s t h => by
    unfold ionizeWith ionizeAll at h
    obtain ⟨sps, -, h⟩ := (except_bind_ok _ _ _).1 h
    rw [← Except.ok.inj h]

theorem covers_compton (scat : ℕ → Option Scatterer) (cl dt : ℝ) :
    Covers lib (processAsk xoro M (fun _ => none) scat cl dt) (comptonWith M scat cl dt) where
  some := fun s g => by
    obtain ⟨d, h⟩ := fold_compton lib xoro M scat cl dt (s.time + 0.5 * dt) s.iteration _ (List.nodup_range (n := s.species.length))
      s.species g
    refine ⟨d, ?_⟩
    unfold processAsk comptonWith comptonAll
    rw [run_bind]
    refine Eq.trans ?_ (congrArg (fun r => r >>= fun sps => (Pure.pure { s with species := sps } : Except PyErr Sim))
      (h d fun _ _ => rfl))
    generalize (((List.range s.species.length).foldlM
      (elementaryAsk xoro M (fun _ => none) scat cl dt (s.time + 0.5 * dt) s.iteration) s.species).run lib g) = r
    obtain ⟨r, g'⟩ := r
    cases r <;> rfl
  iteration := fun x s t h => by
    unfold comptonWith comptonAll at h
    obtain ⟨sps, -, h⟩ := (except_bind_ok _ _ _).1 h
    rw [← Except.ok.inj h]

end

/-! ### Uninitialised memory -/

section
variable {α β : Type}

/-- All results have the property. -/
def Ask.Ends (Q : α → Prop) : Ask α → Prop
  | .done (.ok a) => Q a
  | .done (.error _) => True
  | .uniform _ k => ∀ d, (k d).Ends Q
  | .normal _ k => ∀ d, (k d).Ends Q
  | .gpuUniform _ k => ∀ d, (k d).Ends Q
  | .byte k => ∀ d, (k d).Ends Q
  | .numba k => ∀ d, (k d).Ends Q

theorem bind_agree {Q : α → Prop} {p : Ask α} {f f' : α → Ask β} (hp : p.Ends Q) (h : ∀ a, Q a → f' a = f a) :
    p >>= f' = p >>= f := by
  rw [bind_eq, bind_eq]
  induction p with
  | done r => cases r with
    | ok a => exact h a hp
    | error e => rfl
  | uniform n k ih => exact congrArg (Ask.uniform n) (funext fun d => ih d (hp d))
  | normal n k ih => exact congrArg (Ask.normal n) (funext fun d => ih d (hp d))
  | gpuUniform n k ih => exact congrArg (Ask.gpuUniform n) (funext fun d => ih d (hp d))
  | byte k ih => exact congrArg Ask.byte (funext fun d => ih d (hp d))
  | numba k ih => exact congrArg Ask.numba (funext fun d => ih d (hp d))

theorem ends_bind {Q : α → Prop} {R : β → Prop} {p : Ask α} {f : α → Ask β} (hp : p.Ends Q)
    (h : ∀ a, Q a → (f a).Ends R) : (p >>= f).Ends R := by
  rw [bind_eq]
  induction p with
  | done r => cases r with
    | ok a => exact h a hp
    | error e => trivial
  | uniform n k ih => exact fun d => ih d (hp d)
  | normal n k ih => exact fun d => ih d (hp d)
  | gpuUniform n k ih => exact fun d => ih d (hp d)
  | byte k ih => exact fun d => ih d (hp d)
  | numba k ih => exact fun d => ih d (hp d)

theorem ends_done {Q : α → Prop} {r : Except PyErr α} (h : ∀ a, r = .ok a → Q a) : (Ask.done r).Ends Q := by
  cases r with
  | ok a => exact h a rfl
  | error e => trivial

theorem foldlM_agree {ι : Type} {Q : α → Prop} {f f' : α → ι → Ask α} (h : ∀ a i, Q a → f' a i = f a i)
    (he : ∀ a i, Q a → (f a i).Ends Q) (l : List ι) : ∀ a, Q a → l.foldlM f' a = l.foldlM f a ∧ (l.foldlM f a).Ends Q := by
  induction l with
  | nil => intro a ha; exact ⟨rfl, ha⟩
  | cons i l ih =>
    intro a ha
    rw [List.foldlM_cons, List.foldlM_cons, h a i ha]
    exact ⟨bind_agree (he a i ha) fun b hb => (ih b hb).1, ends_bind (he a i ha) fun b hb => (ih b hb).2⟩

end

section
variable {Q : List Pic.Species → Prop} {ev ev' : Sim → Ask Sim}

/-- Two events that agree in the states that are met lead to the same runs. -/
theorem calls_agree (hn : 0 < c.nthreads) (heq : ∀ s, Q s.species → ev' s = ev s)
    (hmove : ∀ a b, Moved a b → Q a → Q b) (hev : ∀ s, Q s.species → (ev s).Ends fun t => Q t.species)
    (L : List (ℕ × Opts)) : ∀ s, Q s.species → callsAsk c ev' L s = callsAsk c ev L s := by
  have iter : ∀ o i s, Q s.species → iterAsk c ev' o i s = iterAsk c ev o i s ∧
      (iterAsk c ev o i s).Ends fun t => Q t.species := by
    intro o i s hQ
    unfold iterAsk
    by_cases hp : c.exchangePeriod = 0
    · rw [if_pos hp, if_pos hp]; exact ⟨rfl, trivial⟩
    rw [if_neg hp, if_neg hp]
    have e1 : (Ask.done (c.iterStart i s)).Ends fun t => Q t.species :=
      ends_done fun a ha => hmove _ _ (start_moved c hn i ha) hQ
    have e2 : ∀ a : Sim, Q a.species → (Ask.done (c.iterHalf o a)).Ends fun t => Q t.species :=
      fun a hQ => ends_done fun b hb => hmove _ _ (half_moved c o hb) hQ
    refine ⟨bind_agree e1 fun a qa => bind_agree (e2 a qa) fun b qb => by rw [heq b qb],
      ends_bind e1 fun a qa => ends_bind (e2 a qa) fun b qb => ends_bind (hev b qb) fun d qd =>
      ends_bind (Q := fun t => Q t.species) (ends_done fun f hf => hmove _ _ (evDeposit_moved c hn o hf) qd) fun f qf =>
      ends_done fun t h => ?_⟩
    have : t.species = f.species := by
      unfold Cfg.iterEnd at h
      simp only at h
      obtain ⟨A, -, h⟩ := (except_bind_ok _ _ _).1 h
      rw [← Except.ok.inj h]
    show Q t.species
    rw [this]; exact qf
  have loop : ∀ o n i s, Q s.species → loopAsk c ev' o i n s = loopAsk c ev o i n s ∧
      (loopAsk c ev o i n s).Ends fun t => Q t.species := by
    intro o n
    induction n with
    | zero => intro i s hQ; exact ⟨rfl, hQ⟩
    | succ n ih =>
      intro i s hQ
      obtain ⟨h1, h2⟩ := iter o i s hQ
      show (iterAsk c ev' o i s >>= _) = (iterAsk c ev o i s >>= _) ∧ (iterAsk c ev o i s >>= _).Ends _
      rw [h1]
      exact ⟨bind_agree h2 fun u qu => (ih _ u qu).1, ends_bind h2 fun u qu => (ih _ u qu).2⟩
  induction L with
  | nil => intro s _; rfl
  | cons x L ih =>
    obtain ⟨n, o⟩ := x
    intro s hQ
    obtain ⟨h1, h2⟩ := loop o n 0 (c.startFields s) hQ
    have e1 : stepAsk c ev' n o s = stepAsk c ev n o s := by
      show (loopAsk c ev' o 0 n (c.startFields s) >>= _) = (loopAsk c ev o 0 n (c.startFields s) >>= _)
      rw [h1]
    show (stepAsk c ev' n o s >>= _) = (stepAsk c ev n o s >>= _)
    rw [e1]
    exact bind_agree (Q := fun t : Sim => Q t.species) (ends_bind h2 fun u qu => qu) fun u qu => ih u qu

end

theorem modify_agree {α : Type} (l : List α) (i : ℕ) (f f' : α → α) (h : ∀ a, l[i]? = some a → f' a = f a) :
    l.modify i f' = l.modify i f := by
  refine List.ext_getElem? fun j => ?_
  rw [List.getElem?_modify, List.getElem?_modify]
  by_cases hij : i = j
  · subst hij
    cases hl : l[i]? with
    | none => rfl
    | some a => simp [h a hl]
  · simp [hij]

open Spec (IonizersOk)

omit [NeZero c.Nz] in
/-- What an ionizer does is independent of the uninitialised memory. -/
theorem handle_memory {ionizers : ℕ → Option Ionizer} {sps : List Pic.Species} (hok : IonizersOk c ionizers sps) {id : ℕ}
    {I : Ionizer} (hI : ionizers id = some I) (cl : ℝ) (draw : ℕ → ℝ) (J J' : Junk ℝ IonAttr) :
    I.handle cl draw J' id sps = I.handle cl draw J id sps := by
  obtain ⟨sp, hsp, -⟩ := hok.ion id I hI
  obtain ⟨lev, h1, h2⟩ := handle_run hok hI cl draw J hsp
  obtain ⟨lev', h1', h2'⟩ := handle_run hok hI cl draw J' hsp
  rw [h1, h1']
  have : (sps.modify id fun sp => sp.setLevels lev') = sps.modify id fun sp => sp.setLevels lev := by
    refine modify_agree _ _ _ _ fun a ha => ?_
    obtain rfl := Option.some.inj (hsp.symm.trans ha)
    unfold Species.setLevels
    refine congrArg (fun l => { sp with ptcl := l }) (List.ext_getElem? fun j => ?_)
    rw [List.getElem?_mapIdx, List.getElem?_mapIdx]
    cases hj : sp.ptcl[j]? with
    | none => rfl
    | some p =>
      obtain ⟨hlt, -⟩ := List.getElem?_eq_some_iff.1 hj
      rw [Option.map_some, Option.map_some, h2 j hlt, h2' j hlt]
  rw [this]

end Fbpic.Seed
