import Verif.Lemmas.FieldFile

/-!
# C118: several diagnostics and runs write into one field file
-/

namespace Fbpic.FFile

open FieldDiag
open Spec.FFile (SameMesh Room Writes latest entries densities)

private theorem keys_create (s : Sim) (zmin : ℝ) (Nz Nr : ℕ) (types : List FieldType) :
    ∀ ds, types.mapM (createBlock s zmin Nz Nr) = .ok ds → ∀ e ∈ ds.flatten, ∃ t ∈ types, e.1 ∈ pathsOf t := by
  induction types with
  | nil => intro ds h e he; cases h; simp at he
  | cons t types ih =>
    intro ds h e he
    rw [List.mapM_cons] at h
    cases h1 : createBlock s zmin Nz Nr t with
    | error e => rw [h1] at h; cases h
    | ok b =>
      cases h2 : types.mapM (createBlock s zmin Nz Nr) with
      | error e => rw [h1, h2] at h; cases h
      | ok ds' =>
        rw [h1, h2] at h
        cases h
        rw [List.flatten_cons, List.mem_append] at he
        rcases he with he | he
        · refine ⟨t, by simp, ?_⟩
          unfold createBlock at h1
          cases h3 : createPaths t with
          | error e => rw [h3] at h1; cases h1
          | ok ps =>
            cases h4 : emptyDataset s zmin Nz Nr t with
            | error e => rw [h3, h4] at h1; cases h1
            | ok d =>
              rw [h3, h4] at h1
              cases h1
              obtain ⟨p, hp, rfl⟩ := List.mem_map.1 he
              cases t <;> simp [createPaths] at h3 <;> subst h3 <;> simpa [pathsOf] using hp
        · obtain ⟨t', ht', h⟩ := ih ds' h2 e he
          exact ⟨t', by simp [ht'], h⟩

private theorem keys_fill (f : File) (p : Loc) (D : ℕ → ℕ → ℕ → ℝ) : (f.fill p D).dsets.map Prod.fst = f.dsets.map Prod.fst := by
  unfold File.fill
  simp only [List.map_map]
  refine List.map_congr_left fun e _ => ?_
  simp only [Function.comp]
  split <;> rfl

private theorem keys_fills (s : Sim) (gather : Bool) (k : ℕ) (ps : List (Loc × Attr)) : ∀ f : File,
    (ps.foldl (fun f p => f.fill p.1 (writeDataset s gather k p.2)) f).dsets.map Prod.fst = f.dsets.map Prod.fst := by
  induction ps with
  | nil => intro f; rfl
  | cons p ps ih => intro f; rw [List.foldl_cons, ih, keys_fill]

private theorem keys_write (s : Sim) (gather : Bool) (k : ℕ) (types : List FieldType) : ∀ (f f' : File),
    types.foldlM (writeType s gather k) f = .ok f' → f'.dsets.map Prod.fst = f.dsets.map Prod.fst := by
  induction types with
  | nil => intro f f' h; cases h; rfl
  | cons t types ih =>
    intro f f' h
    rw [List.foldlM_cons] at h
    cases h1 : writeType s gather k f t with
    | error e => rw [h1] at h; cases h
    | ok f₁ =>
      rw [h1] at h
      rw [ih f₁ f' h]
      unfold writeType at h1
      cases h2 : writePaths t with
      | error e => rw [h2] at h1; cases h1
      | ok ps => rw [h2] at h1; cases h1; exact keys_fills s gather k ps f

/-- A new file holds nothing but the fields that were asked for. -/
private theorem file_keys {s : Sim} {gather : Bool} {k : ℕ} {types : List FieldType} {it : ℕ} {F : File}
    (h : writeHdf5 s gather k types it = .ok F) (p : Loc) (hp : ∀ t ∈ types, p ∉ pathsOf t) : F.get p = none := by
  unfold writeHdf5 at h
  simp only [bind, Except.bind] at h
  cases h2 : bring s gather types with
  | error e => rw [h2] at h; cases h
  | ok s' =>
    rw [h2] at h
    simp only at h
    cases h3 : extent s' gather k with
    | error e => rw [h3] at h; cases h
    | ok x =>
      obtain ⟨zmin, Nz, Nr⟩ := x
      rw [h3] at h
      simp only at h
      cases h4 : createFile s' types it zmin Nz Nr with
      | error e => rw [h4] at h; cases h
      | ok f0 =>
        rw [h4] at h
        simp only at h
        have e1 := keys_write s' gather k types f0 F h
        have e2 : ∀ q ∈ f0.dsets.map Prod.fst, ∃ t ∈ types, q ∈ pathsOf t := by
          unfold createFile at h4
          cases h5 : types.mapM (createBlock s' zmin Nz Nr) with
          | error e => rw [h5] at h4; cases h4
          | ok ds =>
            rw [h5] at h4
            cases h4
            intro q hq
            obtain ⟨e, he, rfl⟩ := List.mem_map.1 hq
            exact keys_create s' zmin Nz Nr types ds h5 e he
        unfold File.get
        rw [Option.map_eq_none_iff, List.find?_eq_none]
        intro e he hep
        have : p ∈ f0.dsets.map Prod.fst := by
          rw [← e1, ← of_decide_eq_true hep]
          exact List.mem_map_of_mem he
        obtain ⟨t, ht, h⟩ := e2 p this
        exact hp t ht h

private theorem writeOps_eq {s : Sim} {gather : Bool} {k : ℕ} {t : FieldType} (ht : t.Documented) :
    writeOps s gather k t = (pathsOf t).map fun p => fill s.Nm (getDataset s gather k (attrOf p)) p := by
  cases t with
  | rho => rfl
  | E => rfl
  | B => rfl
  | J => rfl
  | rhoOf x => exact ht.elim
  | other x => exact ht.elim
  | Epml c => rfl
  | Bpml c => rfl

/-- **C118 (fields).** Whatever the file of the iteration holds already, from other diagnostics or from an earlier run,
provided that fields of the same name have the same shape: after the output it holds exactly what a new file would hold
(C77) for the fields that were asked for, with the time of this run, and everything else as before. -/
theorem C118_field (s : Sim) (gather : Bool) (k : ℕ) (types : List FieldType) (it : ℕ) (F : File) (hN : 0 < s.Nm)
    (h : writeHdf5 s gather k types it = .ok F) : Writes (fieldFile s gather k types it) F.get F.time F.dt := by
  intro f hf
  have hdoc := ((C77_written_iff s gather k types it).1 ⟨F, h⟩).1
  obtain ⟨s', zmin, Nz, Nr, hb, he, ht, hdt, hget⟩ := file_get h
  have hN' : 0 < s'.Nm := by
    obtain ⟨I, e, -⟩ := bring_spec hb
    rw [e]
    exact hN
  set dim : FieldType → Fin 7 → ℤ := fun t => (unitDimension t.record).getD 0 with hdim
  have hdim' : ∀ t ∈ types, unitDimension t.record = some (dim t) := by
    intro t htt
    obtain ⟨u, hu⟩ := documented_dim (hdoc t htt)
    rw [hdim]
    simp only [hu, Option.getD_some]
  have hother : ∀ t ∈ types, ∀ n, t ≠ .other n := by
    rintro t htt n rfl
    exact hdoc _ htt
  have hget' : ∀ t ∈ types, ∀ p ∈ pathsOf t, F.get p = some (meshWith s' zmin (2 * s'.Nm - 1, Nr, Nz) (dim t)
      (writeOver s'.Nm (getDataset s' gather k (attrOf p)) fun _ _ _ => 0)) := by
    intro t htt p hp
    obtain ⟨u, hu, hg⟩ := hget t htt p hp
    rw [hdim' t htt, Option.some.injEq] at hu
    rw [hg, hu]
    rfl
  obtain ⟨f₁, a1, a2, a3, a4, a5⟩ := create_all s' zmin Nz Nr dim types
    { f with time := some (it * s'.dt), dt := some s'.dt } (fun t htt => ⟨hother t htt, hdim' t htt⟩)
    fun t htt p hp d hd => (hf p _ d (hget' t htt p hp) hd).trans rfl
  obtain ⟨f₂, b1, b2, b3, b4, b5⟩ := fill_all s' hN' zmin (2 * s'.Nm - 1, Nr, Nz) dim
    (fun p => getDataset s' gather k (attrOf p)) (types.flatMap pathsOf) f₁ fun p hp => by
      obtain ⟨t, htt, hpt⟩ := List.mem_flatMap.1 hp
      rw [pathsOf_fst hpt]
      exact a4 t htt p hpt
  have hw : types.flatMap (writeOps s' gather k)
      = (types.flatMap pathsOf).map fun p => fill s'.Nm (getDataset s' gather k (attrOf p)) p := by
    rw [List.map_flatMap]
    exact List.flatMap_congr fun t htt => writeOps_eq (hdoc t htt)
  refine ⟨f₂, ?_, b2.trans (a2.trans (by rw [ht])), b3.trans (a3.trans (by rw [hdt])), ?_, ?_⟩
  · unfold fieldFile
    simp only [hb, he]
    rw [List.cons_append, runOps_cons (f₁ := { f with time := some (it * s'.dt), dt := some s'.dt }) rfl,
      runOps_append a1, hw, b1]
  · intro p d hd
    by_cases hp : p ∈ types.flatMap pathsOf
    · obtain ⟨t, htt, hpt⟩ := List.mem_flatMap.1 hp
      obtain ⟨D, hD, hD'⟩ := b4 p hp
      rw [hget' t htt p hpt, Option.some.injEq] at hd
      subst hd
      rw [pathsOf_fst hpt] at hD
      exact ⟨_, hD, rfl, fun i hi ir iz => hD' i hi ir iz⟩
    · have := file_keys h p fun t htt hpt => hp (List.mem_flatMap.2 ⟨t, htt, hpt⟩)
      rw [this] at hd
      cases hd
  · intro p hp
    have : p ∉ types.flatMap pathsOf := fun hm => by
      obtain ⟨t, htt, hpt⟩ := List.mem_flatMap.1 hm
      rw [hget' t htt p hpt] at hp
      cases hp
    rw [b5 p this, a5 p fun t htt hpt => this (List.mem_flatMap.2 ⟨t, htt, hpt⟩)]

private theorem writeOver_eq (Nm : ℕ) (hN : 0 < Nm) (A : ℕ → ℕ → ℕ → ℂ) (old : ℕ → ℕ → ℕ → ℝ) (i : ℕ) (hi : i < 2 * Nm - 1)
    (ir iz : ℕ) : writeOver Nm A old i ir iz = entries A i ir iz := by
  rw [writeOver_entries Nm hN A old (entries A) i hi]
  have gen : ∀ l : List ℕ, (∀ m ∈ l, 1 ≤ m) → l.foldl (fun d m i ir iz => if i = 2 * m - 1 then 2 * (A m iz ir).re
      else if i = 2 * m then 2 * (A m iz ir).im else d i ir iz) (entries A) = entries A := by
    intro l
    induction l with
    | nil => intro _; rfl
    | cons m l ih =>
      intro hl
      rw [List.foldl_cons]
      refine Eq.trans (congrArg (fun d => List.foldl _ d l) ?_) (ih fun m hm => hl m (by simp [hm]))
      have hm := hl m (by simp)
      funext i ir iz
      unfold entries
      by_cases h1 : i = 2 * m - 1
      · rw [if_pos h1, if_neg (by omega), if_pos (by omega), show (i + 1) / 2 = m by omega]
      · rw [if_neg h1]
        by_cases h2 : i = 2 * m
        · rw [if_pos h2, if_neg (by omega), if_neg (by omega), show i / 2 = m by omega]
        · rw [if_neg h2]
  have init : (fun i ir iz => if i = 0 then (A 0 iz ir).re else entries A i ir iz) = entries A := by
    funext i ir iz
    by_cases h : i = 0
    · rw [if_pos h]; unfold entries; rw [if_pos h]
    · rw [if_neg h]
  unfold writeOver
  rw [init, gen _ fun m hm => (List.mem_range'_1.1 hm).1]

/-- **C118 (densities of species).** The same for the diagnostic of the charge densities of the species. -/
theorem C118_density (s : Sim) (names : List String) (R : String → ℕ → ℕ → ℕ → ℕ → ℂ) (it : ℕ) (hN : 0 < s.Nm) :
    Writes (densityFile s names R it) (densities s names R) (it * s.dt) s.dt := by
  intro f hf
  have he : extent s true 0 = .ok (s.zminGlobal, s.comm.NzGlobal, s.NrPhys) := by
    simp [extent, Comm.getZminZmax, Comm.getNzIz_global, bind, Except.bind, pure, Except.pure]
  have hden : ∀ n ∈ names, densities s names R (.rhoOf n, none) = some (meshWith s s.zminGlobal
      (2 * s.Nm - 1, s.NrPhys, s.comm.NzGlobal) Spec.Dim.chargeDensity
      (entries fun m => gatherGridArray s.comm s.NrPhys false fun r => R n r m)) := by
    intro n hn
    have e : ((0.5 : ℝ), (0.5 : ℝ)) = (1 / 2, 1 / 2) := by norm_num
    unfold densities meshWith
    simp only [if_pos hn, e]
  obtain ⟨f₁, a1, a2, a3, a4, a5⟩ := create_all s s.zminGlobal s.comm.NzGlobal s.NrPhys (fun _ => Spec.Dim.chargeDensity)
    (names.map FieldType.rhoOf) { f with time := some (it * s.dt), dt := some s.dt }
    (fun t ht => by
      obtain ⟨n, -, rfl⟩ := List.mem_map.1 ht
      exact ⟨fun m h => (nomatch h), C77_dimensions.1⟩)
    (fun t ht p hp d hd => by
      obtain ⟨n, hn, rfl⟩ := List.mem_map.1 ht
      have : p = (.rhoOf n, none) := by simpa [pathsOf] using hp
      subst this
      exact (hf _ _ d (hden n hn) hd).trans rfl)
  set A : Loc → ℕ → ℕ → ℕ → ℂ := fun p => match p.1 with
    | .rhoOf n => fun m => gatherGridArray s.comm s.NrPhys false fun r => R n r m
    | _ => fun _ _ _ => 0 with hA
  obtain ⟨f₂, b1, b2, b3, b4, b5⟩ := fill_all s hN s.zminGlobal (2 * s.Nm - 1, s.NrPhys, s.comm.NzGlobal)
    (fun _ => Spec.Dim.chargeDensity) A (names.map fun n => ((FieldType.rhoOf n, none) : Loc)) f₁ fun p hp => by
      obtain ⟨n, hn, rfl⟩ := List.mem_map.1 hp
      exact a4 (.rhoOf n) (List.mem_map_of_mem hn) _ (by simp [pathsOf])
  refine ⟨f₂, ?_, b2.trans a2, b3.trans a3, ?_, ?_⟩
  · unfold densityFile
    simp only [he]
    rw [List.flatMap_map] at a1
    rw [List.map_map] at b1
    rw [List.cons_append, runOps_cons (f₁ := { f with time := some (it * s.dt), dt := some s.dt }) rfl, runOps_append a1]
    exact b1
  · intro p d hd
    by_cases hp : p ∈ names.map fun n => ((FieldType.rhoOf n, none) : Loc)
    · obtain ⟨D, hD, hD'⟩ := b4 p hp
      obtain ⟨n, hn, rfl⟩ := List.mem_map.1 hp
      rw [hden n hn, Option.some.injEq] at hd
      subst hd
      exact ⟨_, hD, rfl, fun i hi ir iz => (hD' i hi ir iz).trans (writeOver_eq s.Nm hN _ _ i hi ir iz)⟩
    · exfalso
      unfold densities at hd
      split at hd
      · split at hd
        · rename_i n hn
          exact hp (List.mem_map_of_mem (f := fun n => ((FieldType.rhoOf n, none) : Loc)) hn)
        · cases hd
      · cases hd
  · intro p hp
    have : p ∉ names.map fun n => ((FieldType.rhoOf n, none) : Loc) := fun hm => by
      obtain ⟨n, hn, rfl⟩ := List.mem_map.1 hm
      rw [hden n hn] at hp
      cases hp
    rw [b5 p this]
    refine a5 p fun t ht hpt => this ?_
    obtain ⟨n, hn, rfl⟩ := List.mem_map.1 ht
    have e : p = (.rhoOf n, none) := by simpa [pathsOf] using hpt
    rw [e]
    exact List.mem_map_of_mem (f := fun n => ((FieldType.rhoOf n, none) : Loc)) hn

private theorem latest_append (L : List (Loc → Option Dataset)) (F : Loc → Option Dataset) (p : Loc) :
    latest (L ++ [F]) p = (F p).or (latest L p) := by
  unfold latest
  rw [List.foldl_append]
  rfl

/-- **C118 (sharing a file).** Any number of diagnostics of a run write one after the other into the file of an iteration,
which may hold something already; fields of the same name have the same shape. Then the file holds each field that some of
them write, as the last of these has written it, and everything else as before. -/
theorem C118_share (L : List (Op × (Loc → Option Dataset))) (time dt : ℝ) (hL : ∀ x ∈ L, Writes x.1 x.2 time dt)
    (hs : ∀ x ∈ L, ∀ y ∈ L, ∀ p d d', x.2 p = some d → y.2 p = some d' → d.shape = d'.shape)
    (f : Disk) (hf : ∀ x ∈ L, Room x.2 f) : ∃ f', runOps (L.map Prod.fst) f = (f', none) ∧
      (L ≠ [] → f'.time = some time ∧ f'.dt = some dt) ∧
      (∀ p d, latest (L.map Prod.snd) p = some d → ∃ d', f'.mesh p = some d' ∧ SameMesh d d') ∧
      ∀ p, latest (L.map Prod.snd) p = none → f'.mesh p = f.mesh p := by
  have from_ : ∀ (L : List (Op × (Loc → Option Dataset))) (p : Loc) (d : Dataset), latest (L.map Prod.snd) p = some d →
      ∃ x ∈ L, x.2 p = some d := by
    intro L
    induction L using List.reverseRecOn with
    | nil => intro p d h; cases h
    | append_singleton L x ih =>
      intro p d h
      rw [List.map_append, List.map_singleton, latest_append] at h
      cases hx : x.2 p with
      | some d' => rw [hx] at h; cases h; exact ⟨x, by simp, hx⟩
      | none =>
        rw [hx] at h
        obtain ⟨y, hy, h⟩ := ih p d h
        exact ⟨y, by simp [hy], h⟩
  induction L using List.reverseRecOn with
  | nil => exact ⟨f, rfl, fun h => absurd rfl h, fun p d h => (nomatch h), fun _ _ => rfl⟩
  | append_singleton L x ih =>
    obtain ⟨f₁, a1, -, a3, a4⟩ := ih (fun y hy => hL y (by simp [hy]))
      (fun y hy z hz => hs y (by simp [hy]) z (by simp [hz])) fun y hy => hf y (by simp [hy])
    have room : Room x.2 f₁ := by
      intro p d d₀ h1 h2
      cases hl : latest (L.map Prod.snd) p with
      | none => rw [a4 p hl] at h2; exact hf x (by simp) p d d₀ h1 h2
      | some e =>
        obtain ⟨d', g1, g2⟩ := a3 p e hl
        rw [g1] at h2
        cases h2
        obtain ⟨y, hy, hy'⟩ := from_ L p e hl
        have := hs x (by simp) y (by simp [hy]) p d e h1 hy'
        rw [this, g2.1]
    obtain ⟨f', b1, b2, b3, b4, b5⟩ := hL x (by simp) f₁ room
    refine ⟨f', ?_, fun _ => ⟨b2, b3⟩, ?_, ?_⟩
    · rw [List.map_append, runOps_append a1]
      exact runOps_cons b1
    · intro p d h
      rw [List.map_append, List.map_singleton, latest_append] at h
      cases hx : x.2 p with
      | some d' => rw [hx] at h; cases h; exact b4 p _ hx
      | none => rw [hx] at h; rw [b5 p hx]; exact a3 p d h
    · intro p h
      rw [List.map_append, List.map_singleton, latest_append] at h
      cases hx : x.2 p with
      | some d' => rw [hx] at h; cases h
      | none => rw [hx] at h; rw [b5 p hx]; exact a4 p h

/-- A field whose dataset exists with another shape: `TypeError`. The time in the file is the new one already. -/
theorem C118_shape (s s' : Sim) (gather : Bool) (k : ℕ) (t : FieldType) (types : List FieldType) (it : ℕ) (zmin : ℝ) (Nz Nr : ℕ)
    (hb : bring s gather (t :: types) = .ok s') (he : extent s' gather k = .ok (zmin, Nz, Nr)) (ht : t.Documented) (f : Disk)
    (p : Loc) (hp : (pathsOf t).head? = some p) (d : Dataset) (hd : f.mesh p = some d)
    (hs : d.shape ≠ (2 * s'.Nm - 1, Nr, Nz)) : fieldFile s gather k (t :: types) it f
      = ({ f with time := some (it * s'.dt), dt := some s'.dt }, some (.typeError "Shapes do not match")) := by
  unfold fieldFile
  simp only [hb, he]
  rw [List.cons_append, runOps_cons (f₁ := { f with time := some (it * s'.dt), dt := some s'.dt }) rfl, List.flatMap_cons,
    createOps_eq fun n h => by subst h; exact ht]
  cases hl : pathsOf t with
  | nil => rw [hl] at hp; cases hp
  | cons q l =>
    rw [hl] at hp
    cases hp
    have e : require p (2 * s'.Nm - 1, Nr, Nz) { f with time := some (it * s'.dt), dt := some s'.dt }
        = ({ f with time := some (it * s'.dt), dt := some s'.dt }, some (.typeError "Shapes do not match")) := by
      unfold require
      simp only [hd, if_neg hs]
    simp only [List.map_cons, List.cons_append]
    conv_lhs => unfold runOps
    rw [e]

/-- An operation that keeps the shape and the data of every dataset. -/
private def Keeps (o : Op) : Prop :=
  ∀ f p d, f.mesh p = some d → ∃ d', (o f).1.mesh p = some d' ∧ d'.shape = d.shape ∧ d'.data = d.data

private theorem require_keeps (q : Loc) (shape : ℕ × ℕ × ℕ) : Keeps (require q shape) := by
  intro f p d h
  unfold require
  cases hq : f.mesh q with
  | none =>
    refine ⟨d, ?_, rfl, rfl⟩
    simp only [Disk.set]
    rw [if_neg (by rintro rfl; rw [h] at hq; cases hq), h]
  | some d₀ => simp only; split <;> exact ⟨d, h, rfl, rfl⟩

private theorem setup_keeps (s : Sim) (zmin : ℝ) (t : FieldType) (q : Loc) : Keeps (setup s zmin t q) := by
  intro f p d h
  unfold setup
  split
  · rename_i d₀ u hq hu
    simp only [Disk.set]
    by_cases e : p = q
    · subst e
      rw [h] at hq
      cases hq
      rw [if_pos rfl]
      exact ⟨_, rfl, rfl, rfl⟩
    · rw [if_neg e]
      exact ⟨d, h, rfl, rfl⟩
  · exact ⟨d, h, rfl, rfl⟩

private theorem create_keeps (s : Sim) (zmin : ℝ) (Nz Nr : ℕ) (t : FieldType) : ∀ o ∈ createOps s zmin Nz Nr t, Keeps o := by
  intro o ho
  by_cases ht : ∃ n, t = .other n
  · obtain ⟨n, rfl⟩ := ht
    simp only [createOps, List.mem_singleton] at ho
    subst ho
    exact fun f p d h => ⟨d, h, rfl, rfl⟩
  · rw [createOps_eq fun n e => ht ⟨n, e⟩, List.mem_append] at ho
    rcases ho with ho | ho
    · obtain ⟨q, -, rfl⟩ := List.mem_map.1 ho
      exact require_keeps q _
    · obtain ⟨q, -, rfl⟩ := List.mem_map.1 ho
      exact setup_keeps s zmin t q

private theorem raise_keeps (e₀ : PyErr) (b : List Op) : ∀ (a : List Op) (f : Disk), (∀ o ∈ a, Keeps o) →
    (∃ e, (runOps (a ++ raise e₀ :: b) f).2 = some e) ∧
      ∀ p d, f.mesh p = some d → ∃ d', (runOps (a ++ raise e₀ :: b) f).1.mesh p = some d' ∧ d'.shape = d.shape ∧ d'.data = d.data
  | [], f, _ => ⟨⟨e₀, rfl⟩, fun _ d h => ⟨d, h, rfl, rfl⟩⟩
  | o :: a, f, h => by
    rw [List.cons_append]
    have ho := h o (by simp)
    rcases e : o f with ⟨f₁, _ | e₁⟩
    · rw [runOps_cons e]
      obtain ⟨i1, i2⟩ := raise_keeps e₀ b a f₁ fun o ho => h o (by simp [ho])
      refine ⟨i1, fun p d hp => ?_⟩
      obtain ⟨d₁, g1, g2, g3⟩ := ho f p d hp
      rw [e] at g1
      obtain ⟨d₂, k1, k2, k3⟩ := i2 p d₁ g1
      exact ⟨d₂, k1, k2.trans g2, k3.trans g3⟩
    · have e' : runOps (o :: (a ++ raise e₀ :: b)) f = (f₁, some e₁) := by
        conv_lhs => unfold runOps
        rw [e]
      rw [e']
      refine ⟨⟨e₁, rfl⟩, fun p d hp => ?_⟩
      have := ho f p d hp
      rw [e] at this
      exact this

/-- A name that is not a field raises an exception before any data are written: all datasets in the file keep their data. The exception is
`ValueError` if the names before are fields and fit into the file. -/
theorem C118_unknown (s s' : Sim) (gather : Bool) (k : ℕ) (a b : List FieldType) (n : String) (it : ℕ) (zmin : ℝ) (Nz Nr : ℕ)
    (hb : bring s gather (a ++ .other n :: b) = .ok s') (he : extent s' gather k = .ok (zmin, Nz, Nr)) (f : Disk) :
    (∃ e, (fieldFile s gather k (a ++ .other n :: b) it f).2 = some e) ∧
      (∀ p d, f.mesh p = some d → ∃ d', (fieldFile s gather k (a ++ .other n :: b) it f).1.mesh p = some d' ∧
        d'.shape = d.shape ∧ d'.data = d.data) ∧
      ((∀ t ∈ a, t.Documented ∧ ∀ p ∈ pathsOf t, ∀ d, f.mesh p = some d → d.shape = (2 * s'.Nm - 1, Nr, Nz)) →
        ∃ m, (fieldFile s gather k (a ++ .other n :: b) it f).2 = some (.valueError m)) := by
  have hf : fieldFile s gather k (a ++ .other n :: b) it f = runOps ((setTime (it * s'.dt) s'.dt :: a.flatMap (createOps s' zmin Nz Nr))
      ++ raise (.valueError "Invalid string in fieldtypes")
        :: (b.flatMap (createOps s' zmin Nz Nr) ++ (a ++ .other n :: b).flatMap (writeOps s' gather k))) f := by
    unfold fieldFile
    simp only [hb, he, List.flatMap_append, List.flatMap_cons, List.cons_append, List.append_assoc]
    rfl
  rw [hf]
  obtain ⟨h1, h2⟩ := raise_keeps (.valueError "Invalid string in fieldtypes")
    (b.flatMap (createOps s' zmin Nz Nr) ++ (a ++ .other n :: b).flatMap (writeOps s' gather k))
    (setTime (it * s'.dt) s'.dt :: a.flatMap (createOps s' zmin Nz Nr)) f (by
      intro o ho
      rcases List.mem_cons.1 ho with rfl | ho
      · exact fun f p d h => ⟨d, h, rfl, rfl⟩
      · obtain ⟨t, -, ho⟩ := List.mem_flatMap.1 ho
        exact create_keeps _ _ _ _ _ _ ho)
  refine ⟨h1, h2, fun ha => ⟨"Invalid string in fieldtypes", ?_⟩⟩
  obtain ⟨f', e, -⟩ := create_all s' zmin Nz Nr (fun t => (unitDimension t.record).getD 0) a
    { f with time := some (it * s'.dt), dt := some s'.dt }
    (fun t ht => ⟨fun n e => by subst e; exact (ha _ ht).1, by
      obtain ⟨u, hu⟩ := documented_dim (ha t ht).1
      rw [hu]; rfl⟩)
    (fun t ht p hp d hd => (ha t ht).2 p hp d hd)
  rw [List.cons_append, runOps_cons (f₁ := { f with time := some (it * s'.dt), dt := some s'.dt }) rfl, runOps_append e]
  rfl

/-- A run with the grid of `exSim`, or with fewer radial cells, and with some time step. -/
noncomputable def rerun (Nr : ℕ) (dt : ℝ) : Sim := { exSim with NrPhys := Nr, Nr := Nr, dt := dt }

private theorem rerun_ok (Nr : ℕ) (dt : ℝ) (types : List FieldType) (h : ∀ t ∈ types, t = .E ∨ t = .B ∨ t = .rho) (it : ℕ) :
    ∃ F, writeHdf5 (rerun Nr dt) true 0 types it = .ok F := by
  refine (C77_written_iff _ _ _ _ _).2 ⟨fun t ht => ?_, fun _ _ h => absurd (show exSim.comm.nGuard = 0 from h) (by decide)⟩
  rcases h t ht with rfl | rfl | rfl <;> trivial

private theorem room_none (F : Loc → Option Dataset) : Room F Disk.none := fun p d d₀ _ h => by cases h

/-- **C118, not true if the grid was another one in the earlier run.** A run that writes into the directory of an earlier
run with another number of cells stops with `TypeError` at its first output (although it could write into an empty
directory); and the file, which still holds the fields of the earlier run, has got the time of the new run. -/
theorem C118_shape_violated : ∃ (s₁ s₂ : Sim) (F₁ F₂ : File) (f₁ f₂ : Disk) (d : Dataset),
    writeHdf5 s₁ true 0 [.E] 5 = .ok F₁ ∧ writeHdf5 s₂ true 0 [.E] 5 = .ok F₂ ∧
    fieldFile s₁ true 0 [.E] 5 Disk.none = (f₁, none) ∧ f₁.mesh (.E, some .r) = some d ∧
    fieldFile s₂ true 0 [.E] 5 f₁ = (f₂, some (.typeError "Shapes do not match")) ∧
    f₂.mesh (.E, some .r) = some d ∧ f₁.time = some 5 ∧ f₂.time = some (5 / 2) := by
  obtain ⟨F₁, h1⟩ := rerun_ok 3 1 [.E] (by simp) 5
  obtain ⟨F₂, h2⟩ := rerun_ok 2 (1 / 2) [.E] (by simp) 5
  obtain ⟨f₁, a1, a2, -, a4, -⟩ := C118_field (rerun 3 1) true 0 [.E] 5 F₁ (by decide) h1 Disk.none (room_none _)
  obtain ⟨s', zmin, Nz, Nr, hb, he, ht, -, hget⟩ := file_get h1
  obtain ⟨u, -, hg⟩ := hget .E (by simp) (.E, some .r) (by simp [pathsOf])
  obtain ⟨d, hd, hd', -⟩ := a4 _ _ hg
  obtain ⟨s'', zmin', Nz', Nr', hb', he', -, -, -⟩ := file_get h2
  have e1 : s' = rerun 3 1 := by
    have : bring (rerun 3 1) true [.E] = .ok (rerun 3 1) := by simp [bring, Except.bind]
    rw [this] at hb; cases hb; rfl
  have e2 : s'' = rerun 2 (1 / 2) := by
    have : bring (rerun 2 (1 / 2)) true [.E] = .ok (rerun 2 (1 / 2)) := by simp [bring, Except.bind]
    rw [this] at hb'; cases hb'; rfl
  subst e1 e2
  have hNr : Nr = 3 := by
    simp [extent, Comm.getZminZmax, Comm.getNzIz_global, bind, Except.bind, pure, Except.pure] at he
    exact he.2.2.symm
  have hNr' : Nr' = 2 := by
    simp [extent, Comm.getZminZmax, Comm.getNzIz_global, bind, Except.bind, pure, Except.pure] at he'
    exact he'.2.2.symm
  refine ⟨_, _, F₁, F₂, f₁, _, d, h1, h2, a1, hd, C118_shape _ _ true 0 .E [] 5 zmin' Nz' Nr' hb' he' trivial f₁ _ rfl d hd ?_,
    hd, ?_, ?_⟩
  · rw [hd', hNr, hNr']
    intro h
    cases h
  · rw [a2, ht]
    norm_num [rerun]
  · norm_num [rerun]

/-- **C118, not true of the density of a species.** If the name of such a density is given to the diagnostic of the fields, the exception
comes after the dataset has been created: the file of the iteration holds a charge density of this species, with all its attributes,
that is zero everywhere. -/
theorem C118_name_violated (s : Sim) (gather : Bool) (k : ℕ) (n : String) (it : ℕ) (zmin : ℝ) (Nz Nr : ℕ)
    (he : extent s gather k = .ok (zmin, Nz, Nr)) :
    ∃ (f : Disk) (d : Dataset) (m : String), fieldFile s gather k [.rhoOf n] it Disk.none = (f, some (.valueError m)) ∧
      f.time = some (it * s.dt) ∧ f.mesh (.rhoOf n, none) = some d ∧ d.shape = (2 * s.Nm - 1, Nr, Nz) ∧ d.offset = (s.rmin, zmin) ∧
      ∀ i ir iz, d.data i ir iz = 0 := by
  have hb : bring s gather [.rhoOf n] = .ok s := by simp [bring, Except.bind]
  refine ⟨(fieldFile s gather k [.rhoOf n] it Disk.none).1,
    { modes := s.Nm, shape := (2 * s.Nm - 1, Nr, Nz), spacing := (s.dr, s.dz), offset := (s.rmin, zmin), gridUnitSI := 1
      position := (0.5, 0.5), unitSI := 1, unitDimension := (unitDimension (FieldType.rhoOf n).record).getD 0, timeOffset := 0
      data := fun _ _ _ => 0 }, "Invalid string in fieldtypes", Prod.ext rfl ?_, ?_, ?_, rfl, rfl, fun _ _ _ => rfl⟩
  all_goals
    simp [fieldFile, hb, he, runOps, setTime, createOps, writeOps, require, setup, Disk.set, Disk.none, raise, FieldType.record,
      unitDimension]

/-- **C118, not true: a file of a run holds the fields of that run.** A run that writes fewer fields into the directory of
an earlier run leaves the others: the file has the time of the new run, and the magnetic field of the earlier one. -/
theorem C118_stale_violated : ∃ (s₁ s₂ : Sim) (F₁ F₂ : File) (f₁ f₂ : Disk) (d d' : Dataset),
    writeHdf5 s₁ true 0 [.E, .B] 5 = .ok F₁ ∧ writeHdf5 s₂ true 0 [.E] 5 = .ok F₂ ∧
    fieldFile s₁ true 0 [.E, .B] 5 Disk.none = (f₁, none) ∧ fieldFile s₂ true 0 [.E] 5 f₁ = (f₂, none) ∧
    F₁.time ≠ F₂.time ∧ f₂.time = some F₂.time ∧ F₂.get (.B, some .r) = none ∧
    F₁.get (.B, some .r) = some d ∧ f₂.mesh (.B, some .r) = some d' ∧ SameMesh d d' := by
  obtain ⟨F₁, h1⟩ := rerun_ok 3 1 [.E, .B] (by simp) 5
  obtain ⟨F₂, h2⟩ := rerun_ok 3 (1 / 2) [.E] (by simp) 5
  obtain ⟨f₁, a1, a2, -, a4, a5⟩ := C118_field (rerun 3 1) true 0 [.E, .B] 5 F₁ (by decide) h1 Disk.none (room_none _)
  obtain ⟨s', zmin, Nz, Nr, hb, he, ht, -, hget⟩ := file_get h1
  obtain ⟨s'', zmin', Nz', Nr', hb', he', ht', -, hget'⟩ := file_get h2
  have e1 : s' = rerun 3 1 := by
    have : bring (rerun 3 1) true [.E, .B] = .ok (rerun 3 1) := by simp [bring, Except.bind]
    rw [this] at hb; cases hb; rfl
  have e2 : s'' = rerun 3 (1 / 2) := by
    have : bring (rerun 3 (1 / 2)) true [.E] = .ok (rerun 3 (1 / 2)) := by simp [bring, Except.bind]
    rw [this] at hb'; cases hb'; rfl
  subst e1 e2
  have ee : (zmin', Nz', Nr') = (zmin, Nz, Nr) := by
    have : extent (rerun 3 (1 / 2)) true 0 = extent (rerun 3 1) true 0 := rfl
    rw [this, he] at he'
    cases he'
    rfl
  cases ee
  have hB : F₂.get (.B, some .r) = none := file_keys h2 _ (by simp [pathsOf])
  obtain ⟨u, -, hg⟩ := hget .B (by simp) (.B, some .r) (by simp [pathsOf])
  obtain ⟨d', hd, hd'⟩ := a4 _ _ hg
  have room : Room F₂.get f₁ := by
    intro p d d₀ g1 g2
    by_cases hp : p ∈ pathsOf .E
    · obtain ⟨u₁, hu₁, g3⟩ := hget .E (by simp) p hp
      obtain ⟨u₂, hu₂, g4⟩ := hget' .E (by simp) p hp
      obtain ⟨d₁, g5, g6⟩ := a4 _ _ g3
      rw [g4] at g1
      rw [g5] at g2
      cases g1
      cases g2
      rw [g6.1]
      rfl
    · rw [file_keys h2 p (by simpa using hp)] at g1
      cases g1
  obtain ⟨f₂, b1, b2, -, -, b5⟩ := C118_field (rerun 3 (1 / 2)) true 0 [.E] 5 F₂ (by decide) h2 f₁ room
  refine ⟨_, _, F₁, F₂, f₁, f₂, _, d', h1, h2, a1, b1, ?_, b2, hB, hg, (b5 _ hB).trans hd, hd'⟩
  rw [ht, ht']
  norm_num [rerun]

/-- The hypotheses of `C118_share` are met by a field diagnostic and the diagnostic of the densities, on a new file. -/
example (R : String → ℕ → ℕ → ℕ → ℕ → ℂ) : ∃ (F : File) (f : Disk), writeHdf5 (rerun 3 1) true 0 [.E, .rho] 5 = .ok F ∧
    runOps [fieldFile (rerun 3 1) true 0 [.E, .rho] 5, densityFile (rerun 3 1) ["electrons", "ions"] R 5] Disk.none = (f, none) ∧
    (f.mesh (.rho, none)).isSome ∧ (f.mesh (.rhoOf "ions", none)).isSome ∧ (f.mesh (.B, some .r)) = none := by
  obtain ⟨F, h⟩ := rerun_ok 3 1 [.E, .rho] (by simp) 5
  have hno : ∀ n, F.get (.rhoOf n, none) = none := fun n => file_keys h _ (by simp [pathsOf])
  obtain ⟨s', zmin, Nz, Nr, hb, -, ht, hdt, hget⟩ := file_get h
  have htime : F.time = ((5 : ℕ) : ℝ) * (rerun 3 1).dt ∧ F.dt = (rerun 3 1).dt := by
    obtain ⟨I, e, -⟩ := bring_spec hb
    rw [ht, hdt, e]
    exact ⟨rfl, rfl⟩
  obtain ⟨f, a1, -, a3, a4⟩ := C118_share [(fieldFile (rerun 3 1) true 0 [.E, .rho] 5, F.get),
    (densityFile (rerun 3 1) ["electrons", "ions"] R 5, densities (rerun 3 1) ["electrons", "ions"] R)]
    (((5 : ℕ) : ℝ) * (rerun 3 1).dt) (rerun 3 1).dt
    (by
      intro x hx
      simp only [List.mem_cons, List.not_mem_nil, or_false] at hx
      rcases hx with rfl | rfl
      · rw [← htime.1, ← htime.2]
        exact C118_field _ _ _ _ _ F (by decide) h
      · exact C118_density _ _ R 5 (by decide))
    (by
      have key : ∀ p d d', F.get p = some d → densities (rerun 3 1) ["electrons", "ions"] R p = some d' → False := by
        rintro ⟨t, c⟩ d d' g1 g2
        unfold densities at g2
        split at g2
        · rename_i e
          cases e
          rw [hno] at g1
          cases g1
        · cases g2
      intro x hx y hy p d d' g1 g2
      simp only [List.mem_cons, List.not_mem_nil, or_false] at hx hy
      rcases hx with rfl | rfl <;> rcases hy with rfl | rfl
      · rw [g1] at g2; cases g2; rfl
      · exact (key p _ _ g1 g2).elim
      · exact (key p _ _ g2 g1).elim
      · rw [g1] at g2; cases g2; rfl)
    Disk.none (fun x _ => room_none _)
  obtain ⟨u, -, hg⟩ := hget .rho (by simp) (.rho, none) (by simp [pathsOf])
  refine ⟨F, f, h, a1, ?_, ?_, ?_⟩
  · obtain ⟨d, hd, -⟩ := a3 (.rho, none) _ (by
      simp only [List.map_cons, List.map_nil, latest, densities, List.foldl_cons, List.foldl_nil]
      rw [hg]
      rfl)
    rw [hd]; rfl
  · obtain ⟨d, hd, -⟩ := a3 (.rhoOf "ions", none) _ (by
      simp only [List.map_cons, List.map_nil, latest, densities, List.foldl_cons, List.foldl_nil]
      rw [if_pos (by simp)]
      rfl)
    rw [hd]; rfl
  · rw [a4 (.B, some .r) (by
      simp only [List.map_cons, List.map_nil, latest, densities, List.foldl_cons, List.foldl_nil]
      rw [file_keys h (.B, some .r) (by simp [pathsOf])]
      rfl)]
    rfl

/-- A misspelt name after `E`, over a file that exists. -/
example : ∃ (f : Disk) (d : Dataset) (m : String), fieldFile (rerun 3 1) true 0 [.E] 5 Disk.none = (f, none) ∧
    f.mesh (.E, some .r) = some d ∧ (fieldFile (rerun 3 1) true 0 [.E, .other "e"] 5 f).2 = some (.valueError m) ∧
    ∃ d', (fieldFile (rerun 3 1) true 0 [.E, .other "e"] 5 f).1.mesh (.E, some .r) = some d' ∧ d'.data = d.data := by
  obtain ⟨F, h⟩ := rerun_ok 3 1 [.E] (by simp) 5
  obtain ⟨f, a1, -, -, a4, -⟩ := C118_field (rerun 3 1) true 0 [.E] 5 F (by decide) h Disk.none (room_none _)
  obtain ⟨s', zmin, Nz, Nr, hb, he, -, -, hget⟩ := file_get h
  have e1 : s' = rerun 3 1 := by
    have : bring (rerun 3 1) true [.E] = .ok (rerun 3 1) := by simp [bring, Except.bind]
    rw [this] at hb; cases hb; rfl
  subst e1
  have hb' : bring (rerun 3 1) true ([.E] ++ .other "e" :: []) = .ok (rerun 3 1) := by simp [bring, Except.bind]
  obtain ⟨u, -, hg⟩ := hget .E (by simp) (.E, some .r) (by simp [pathsOf])
  obtain ⟨d, hd, -⟩ := a4 _ _ hg
  obtain ⟨-, h2, h3⟩ := C118_unknown _ _ true 0 [.E] [] "e" 5 zmin Nz Nr hb' he f
  obtain ⟨m, hm⟩ := h3 fun t ht => by
    obtain rfl := List.mem_singleton.1 ht
    refine ⟨trivial, fun p hp d₀ hd₀ => ?_⟩
    obtain ⟨v, -, hv⟩ := hget .E (by simp) p hp
    obtain ⟨d₁, hd₁, hs₁, -⟩ := a4 _ _ hv
    rw [hd₁] at hd₀
    cases hd₀
    rw [hs₁]
  obtain ⟨d', k1, -, k3⟩ := h2 _ d hd
  exact ⟨f, d, m, a1, hd, hm, d', k1, k3⟩

/-- There are such runs. -/
example : ∃ zmin Nz Nr, extent (rerun 3 1) true 0 = .ok (zmin, Nz, Nr) := by
  obtain ⟨F, h⟩ := rerun_ok 3 1 [.E] (by simp) 5
  obtain ⟨s', zmin, Nz, Nr, hb, he, -⟩ := file_get h
  have e1 : s' = rerun 3 1 := by
    have : bring (rerun 3 1) true [.E] = .ok (rerun 3 1) := by simp [bring, Except.bind]
    rw [this] at hb; cases hb; rfl
  subst e1
  exact ⟨zmin, Nz, Nr, he⟩

end Fbpic.FFile
