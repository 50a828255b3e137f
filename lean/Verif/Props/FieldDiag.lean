import Verif.Model.FieldDiag
import Verif.Spec.FieldDiag
import Verif.Props.Gather
import Verif.Props.FieldExchange
import Verif.Lemmas.Tactics

/-!
# C77: what a reader finds in a field output file
-/

namespace Fbpic.FieldDiag

open Complex

/-! ### Closed form of the file -/

/-- The attribute that goes to a path. -/
def attrOf : FieldType × Option Coord → Attr
  | (.E, some c) => .E c
  | (.B, some c) => .B c
  | (.J, some c) => .J c
  | (.Epml c, _) => .Epml c
  | (.Bpml c, _) => .Bpml c
  | _ => .rho

/-- The paths of a field type. -/
def pathsOf : FieldType → List (FieldType × Option Coord)
  | .E => [(.E, some .r), (.E, some .t), (.E, some .z)]
  | .B => [(.B, some .r), (.B, some .t), (.B, some .z)]
  | .J => [(.J, some .r), (.J, some .t), (.J, some .z)]
  | t => [(t, none)]

theorem pathsOf_fst {t : FieldType} {p : FieldType × Option Coord} (h : p ∈ pathsOf t) :
    p.1 = t := by
  cases t <;> simp [pathsOf] at h <;> aesop

private theorem createPaths_ok {t : FieldType} {l} (h : createPaths t = .ok l) : l = pathsOf t := by
  cases t <;> simp [createPaths, pathsOf] at h ⊢ <;> exact h.symm

private theorem writePaths_ok {t : FieldType} {l} (h : writePaths t = .ok l) :
    l = (pathsOf t).map fun p => (p, attrOf p) := by
  cases t <;> simp [writePaths, pathsOf, attrOf] at h ⊢ <;> exact h.symm

private theorem fills (l : List (FieldType × Option Coord)) (D : Attr → ℕ → ℕ → ℕ → ℝ) (f : File) :
    (l.map fun p => (p, attrOf p)).foldl (fun f p => f.fill p.1 (D p.2)) f
      = { f with dsets := f.dsets.map fun e =>
          if e.1 ∈ l then (e.1, { e.2 with data := D (attrOf e.1) }) else e } := by
  induction l generalizing f with
  | nil => simp
  | cons p l ih =>
    rw [List.map_cons, List.foldl_cons, ih]
    simp only [File.fill, List.map_map, File.mk.injEq, true_and]
    congr 1
    funext e
    simp only [Function.comp_apply]
    by_cases h1 : e.1 = p
    · rw [if_pos h1]
      by_cases h2 : e.1 ∈ l
      · simp [h1 ▸ h2, h1]
      · simp [h1 ▸ h2, h1]
    · rw [if_neg h1]
      simp [h1]

private theorem writes {s : Sim} {gather : Bool} {k : ℕ} (types : List FieldType) (f f' : File)
    (hf : ∀ e ∈ f.dsets, e.1 ∈ pathsOf e.1.1)
    (h : types.foldlM (writeType s gather k) f = Except.ok f') :
    f' = { f with dsets := f.dsets.map fun e =>
      if e.1.1 ∈ types then (e.1, { e.2 with data := writeDataset s gather k (attrOf e.1) }) else e } := by
  induction types generalizing f with
  | nil =>
    simp [pure, Except.pure] at h
    simp [h]
  | cons t types ih =>
    rw [List.foldlM_cons] at h
    cases hp : writePaths t with
    | error e => simp [writeType, hp, bind, Except.bind] at h
    | ok ps =>
      simp only [writeType, hp, bind, Except.bind] at h
      rw [writePaths_ok hp, fills] at h
      have := ih _ (by
        intro e he
        simp only [List.mem_map] at he
        obtain ⟨a, ha, rfl⟩ := he
        split_ifs <;> exact hf a ha) h
      rw [this]
      simp only [List.map_map, File.mk.injEq, true_and]
      apply List.map_congr_left
      intro e he
      have hmem : e.1 ∈ pathsOf t ↔ e.1.1 = t := ⟨pathsOf_fst, fun hh => hh ▸ hf e he⟩
      simp only [Function.comp_apply, hmem, List.mem_cons]
      by_cases h1 : e.1.1 = t
      · simp only [h1, if_true, true_or]
        split_ifs <;> rfl
      · simp only [h1, if_false, false_or]

private theorem mapM_ok' {A B : Type} {g : A → Except PyErr B} {l : List A} {r : List B}
    (h : l.mapM g = .ok r) :
    (∀ a ∈ l, ∃ b ∈ r, g a = .ok b) ∧ ∀ b ∈ r, ∃ a ∈ l, g a = .ok b := by
  induction l generalizing r with
  | nil => simp [pure, Except.pure] at h; subst h; simp
  | cons a l ih =>
    rw [List.mapM_cons] at h
    cases h1 : g a with
    | error e => simp [h1, bind, Except.bind] at h
    | ok b =>
      cases h2 : l.mapM g with
      | error e => simp [h1, h2, bind, Except.bind] at h
      | ok r' =>
        simp [h1, h2, bind, Except.bind, pure, Except.pure] at h
        subst h
        obtain ⟨i1, i2⟩ := ih h2
        constructor
        · intro x hx
          rcases List.mem_cons.1 hx with rfl | hx
          · exact ⟨b, by simp, h1⟩
          · obtain ⟨y, hy, e⟩ := i1 x hx
            exact ⟨y, by simp [hy], e⟩
        · intro y hy
          rcases List.mem_cons.1 hy with rfl | hy
          · exact ⟨a, by simp, h1⟩
          · obtain ⟨x, hx, e⟩ := i2 y hy
            exact ⟨x, by simp [hx], e⟩

/-- The dataset found at a path of the file. -/
def File.get (f : File) (p : FieldType × Option Coord) : Option Dataset :=
  (f.dsets.find? fun e => e.1 = p).map (·.2)

/-- What a reader finds (a view of the dataset with its attributes). -/
def Dataset.mesh (d : Dataset) : Spec.ThetaMesh where
  modes := d.modes
  nr := d.shape.2.1
  nz := d.shape.2.2
  spacing := d.spacing
  offset := d.offset
  gridUnitSI := d.gridUnitSI
  position := d.position
  unitSI := d.unitSI
  data := d.data

theorem file_get {s : Sim} {gather : Bool} {k : ℕ} {types : List FieldType} {it : ℕ} {f : File}
    (h : writeHdf5 s gather k types it = .ok f) :
    ∃ s' zmin Nz Nr, bring s gather types = .ok s' ∧ extent s' gather k = .ok (zmin, Nz, Nr) ∧
      f.time = it * s'.dt ∧ f.dt = s'.dt ∧
      ∀ t ∈ types, ∀ p ∈ pathsOf t, ∃ u, unitDimension t.record = some u ∧ f.get p = some
        { modes := s'.Nm, shape := (2 * s'.Nm - 1, Nr, Nz), spacing := (s'.dr, s'.dz)
          offset := (s'.rmin, zmin), gridUnitSI := 1, position := (0.5, 0.5), unitSI := 1
          unitDimension := u, timeOffset := 0, data := writeDataset s' gather k (attrOf p) } := by
  unfold writeHdf5 at h
  simp only [bind, Except.bind] at h
  cases h2 : bring s gather types with
    | error e => rw [h2] at h; cases h
    | ok s' =>
      rw [h2] at h
      simp only at h
      cases h3 : extent s' gather k with
      | error e => rw [h3] at h; cases h
      | ok x =>
        obtain ⟨zmin, Nz, Nr⟩ := x
        rw [h3] at h
        simp only at h
        cases h4 : createFile s' types it zmin Nz Nr with
        | error e => rw [h4] at h; cases h
        | ok f0 =>
          rw [h4] at h
          simp only at h
          refine ⟨s', zmin, Nz, Nr, rfl, h3, ?_⟩
          unfold createFile at h4
          simp only [bind, Except.bind] at h4
          split at h4
          · cases h4
          rename_i ds hds
          simp only [Except.ok.injEq] at h4
          subst h4
          have hall := mapM_ok' hds
          -- every block of datasets
          have hb : ∀ t b, createBlock s' zmin Nz Nr t = .ok b →
              ∃ u, unitDimension t.record = some u ∧ b = (pathsOf t).map fun p => (p,
                { modes := s'.Nm, shape := (2 * s'.Nm - 1, Nr, Nz), spacing := (s'.dr, s'.dz)
                  offset := (s'.rmin, zmin), gridUnitSI := 1, position := (0.5, 0.5), unitSI := 1
                  unitDimension := u, timeOffset := 0, data := fun _ _ _ => 0 }) := by
            intro t b hb
            simp only [createBlock, bind, Except.bind] at hb
            cases hc : createPaths t with
            | error e => rw [hc] at hb; cases hb
            | ok ps =>
              rw [hc] at hb
              simp only [emptyDataset] at hb
              cases hu : unitDimension t.record with
              | none => rw [hu] at hb; cases hb
              | some u =>
                rw [hu] at hb
                simp only [Except.ok.injEq] at hb
                refine ⟨u, rfl, ?_⟩
                rw [← hb, createPaths_ok hc]
          have hmemall : ∀ e ∈ ds.flatten, e.1.1 ∈ types ∧ e.1 ∈ pathsOf e.1.1 ∧
              ∃ u, unitDimension e.1.1.record = some u ∧ e.2 =
                { modes := s'.Nm, shape := (2 * s'.Nm - 1, Nr, Nz), spacing := (s'.dr, s'.dz)
                  offset := (s'.rmin, zmin), gridUnitSI := 1, position := (0.5, 0.5), unitSI := 1
                  unitDimension := u, timeOffset := 0, data := fun _ _ _ => 0 } := by
            intro e he
            rw [List.mem_flatten] at he
            obtain ⟨b, hb1, he⟩ := he
            obtain ⟨t, ht, htb⟩ := hall.2 b hb1
            obtain ⟨u, hu, rfl⟩ := hb t b htb
            rw [List.mem_map] at he
            obtain ⟨p, hp, rfl⟩ := he
            have := pathsOf_fst hp
            subst this
            exact ⟨ht, hp, u, hu, rfl⟩
          have hw := writes types _ f (fun e he => (hmemall e he).2.1) h
          subst hw
          refine ⟨rfl, rfl, ?_⟩
          intro t ht p hp
          obtain ⟨b, hb1, htb⟩ := hall.1 t ht
          obtain ⟨u, hu, rfl⟩ := hb t b htb
          refine ⟨u, hu, ?_⟩
          have hpt := pathsOf_fst hp
          unfold File.get
          simp only [List.find?_map, Option.map_map]
          -- the first entry with this path
          have hex : ∃ e, (ds.flatten.find? ((fun e => decide (e.1 = p)) ∘ fun e : (FieldType × Option Coord) × Dataset =>
              if e.1.1 ∈ types then (e.1, { e.2 with data := writeDataset s' gather k (attrOf e.1) }) else e)) = some e := by
            rw [← Option.isSome_iff_exists, List.find?_isSome]
            refine ⟨(p, _), List.mem_flatten.2 ⟨_, hb1, List.mem_map.2 ⟨p, hp, rfl⟩⟩, ?_⟩
            simp [hpt, ht]
          obtain ⟨e, he⟩ := hex
          rw [he]
          have h5 := List.find?_some he
          have h6 := List.mem_of_find?_eq_some he
          obtain ⟨h7, h8, u', hu', h9⟩ := hmemall e h6
          have h10 : e.1 = p := by simpa [h7] using h5
          have h11 : u' = u := by
            rw [h10, hpt, hu] at hu'
            exact (Option.some.inj hu').symm
          obtain ⟨e1, e2⟩ := e
          simp only at h7 h9 h10
          subst h9
          subst h11
          subst h10
          simp only [Option.map_some, Function.comp_apply, h7, if_true]

/-! ### The dataset and the field it describes -/

private theorem loop_entries (A : ℕ → ℕ → ℕ → ℂ) (first : ℕ → ℕ → ℕ → ℝ) (n : ℕ) :
    let D := (List.range' 1 n).foldl (fun (d : ℕ → ℕ → ℕ → ℝ) m i ir iz =>
      if i = 2 * m - 1 then 2 * (A m iz ir).re
      else if i = 2 * m then 2 * (A m iz ir).im
      else d i ir iz) first
    D 0 = first 0 ∧ ∀ m, 1 ≤ m → m < n + 1 → ∀ ir iz,
      D (2 * m - 1) ir iz = 2 * (A m iz ir).re ∧ D (2 * m) ir iz = 2 * (A m iz ir).im := by
  induction n with
  | zero => exact ⟨rfl, fun m h1 h2 => by omega⟩
  | succ n ih =>
    rw [List.range'_1_concat, List.foldl_append]
    simp only [List.foldl_cons, List.foldl_nil]
    obtain ⟨i0, i1⟩ := ih
    refine ⟨?_, ?_⟩
    · funext ir iz
      rw [if_neg (by omega), if_neg (by omega)]
      exact congrFun (congrFun i0 ir) iz
    · intro m h1 h2 ir iz
      by_cases hm : m = 1 + n
      · subst hm
        refine ⟨by rw [if_pos rfl], ?_⟩
        rw [if_neg (by omega), if_pos rfl]
      · have := i1 m h1 (by omega) ir iz
        refine ⟨?_, ?_⟩
        · rw [if_neg (by omega), if_neg (by omega)]; exact this.1
        · rw [if_neg (by omega), if_neg (by omega)]; exact this.2

private theorem writeDataset_entries (s : Sim) (gather : Bool) (k : ℕ) (a : Attr) (ir iz : ℕ) :
    writeDataset s gather k a 0 ir iz = (getDataset s gather k a 0 iz ir).re ∧
    ∀ m, 1 ≤ m → m < s.Nm →
      writeDataset s gather k a (2 * m - 1) ir iz = 2 * (getDataset s gather k a m iz ir).re ∧
      writeDataset s gather k a (2 * m) ir iz = 2 * (getDataset s gather k a m iz ir).im := by
  have := loop_entries (getDataset s gather k a)
    (fun (i ir iz : ℕ) => if i = 0 then (getDataset s gather k a 0 iz ir).re else 0) (s.Nm - 1)
  refine ⟨?_, fun m h1 h2 => this.2 m h1 (by omega) ir iz⟩
  have h := congrFun (congrFun this.1 ir) iz
  simpa [writeDataset] using h

private theorem mode_term (F : ℂ) (m : ℕ) (θ : ℝ) :
    (F * exp (-(I * m * θ)) + (starRingEnd ℂ) F * exp (I * m * θ)).re
      = 2 * F.re * Real.cos (m * θ) + 2 * F.im * Real.sin (m * θ) := by
  have e1 : exp (-(I * m * θ)) = (Real.cos (m * θ) : ℂ) - Real.sin (m * θ) * I := by
    rw [show -(I * m * θ) = ((-(m * θ) : ℝ) : ℂ) * I by push_cast; ring, exp_mul_I, ← ofReal_cos,
      ← ofReal_sin, Real.cos_neg, Real.sin_neg]
    push_cast; ring
  have e2 : exp (I * m * θ) = (Real.cos (m * θ) : ℂ) + Real.sin (m * θ) * I := by
    rw [show I * m * θ = ((m * θ : ℝ) : ℂ) * I by push_cast; ring, exp_mul_I, ← ofReal_cos,
      ← ofReal_sin]
  rw [e1, e2]
  simp only [add_re, mul_re, sub_re, sub_im, add_im, mul_im, ofReal_re, ofReal_im, I_re, I_im,
    conj_re, conj_im]
  ring

private theorem value_eq (d : Dataset) (s : Sim) (gather : Bool) (k : ℕ) (a : Attr)
    (hd : d.data = writeDataset s gather k a) (hm : d.modes = s.Nm) (hu : d.unitSI = 1) (θ : ℝ)
    (ir iz : ℕ) :
    d.mesh.value θ ir iz
      = Spec.fourierField s.Nm (fun m => getDataset s gather k a m iz ir) θ := by
  obtain ⟨h0, h1⟩ := writeDataset_entries s gather k a ir iz
  unfold Spec.ThetaMesh.value Spec.fourierField Dataset.mesh
  simp only [hd, hm, hu, mul_one, h0]
  congr 1
  apply Finset.sum_congr rfl
  intro m hmem
  rw [Finset.mem_Ico] at hmem
  rw [(h1 m hmem.1 hmem.2).1, (h1 m hmem.1 hmem.2).2, mode_term]

/-! ### rho and J -/

private theorem bringRho_spec {s s' : Sim} {g : Bool} (h : bringRho s g = .ok s') :
    ∃ I, s' = { s with interp := I } ∧ (∀ k m a, a ≠ .rho → I k m a = s.interp k m a) ∧
      (¬ (g ∧ s.comm.size > 1 ∧ s.exRho = false) → ∀ k m, I k m .rho = s.s2iRho k m) ∧
      ((g ∧ s.comm.size > 1 ∧ s.exRho = false) → ∃ F,
        exchangeFields s.comm .add 1 s.Nm s.Nz (fun k m _ iz ir => s.s2iRho k m iz ir) = .ok F ∧
        ∀ k m, I k m .rho = F k m 0) := by
  unfold bringRho at h
  by_cases hc : g ∧ s.comm.size > 1 ∧ s.exRho = false
  · dsimp only at h
    rw [if_pos hc] at h
    simp only [bind, Except.bind] at h
    split at h
    · cases h
    rename_i F hF
    simp only [Except.ok.injEq] at h
    subst h
    refine ⟨_, rfl, fun k m a ha => ?_, fun hn => absurd hc hn, fun _ => ⟨F, ?_, fun k m => ?_⟩⟩
    · funext iz ir; simp [ha]
    · simpa using hF
    · funext iz ir; simp
  · simp only [if_neg hc, Except.ok.injEq] at h
    subst h
    refine ⟨_, rfl, fun k m a ha => ?_, fun _ k m => ?_, fun h => absurd h hc⟩
    · funext iz ir; simp [ha]
    · funext iz ir; simp

private theorem coordOf_idx (c : Coord) : coordOf c.idx = c := by cases c <;> rfl

private theorem bringJ_spec {s s' : Sim} {g : Bool} (h : bringJ s g = .ok s') :
    ∃ I, s' = { s with interp := I } ∧ (∀ k m a, (∀ c, a ≠ .J c) → I k m a = s.interp k m a) ∧
      (¬ (g ∧ s.comm.size > 1 ∧ s.exJ = false) → ∀ k m c, I k m (.J c) = s.s2iJ c k m) ∧
      ((g ∧ s.comm.size > 1 ∧ s.exJ = false) → ∃ F,
        exchangeFields s.comm .add 3 s.Nm s.Nz (fun k m i iz ir => s.s2iJ (coordOf i) k m iz ir) = .ok F ∧
        ∀ k m c, I k m (.J c) = F k m c.idx) := by
  unfold bringJ at h
  by_cases hc : g ∧ s.comm.size > 1 ∧ s.exJ = false
  · dsimp only at h
    rw [if_pos hc] at h
    simp only [bind, Except.bind] at h
    split at h
    · cases h
    rename_i F hF
    simp only [Except.ok.injEq] at h
    subst h
    refine ⟨_, rfl, fun k m a ha => ?_, fun hn => absurd hc hn, fun _ => ⟨F, hF, fun k m c => rfl⟩⟩
    cases a <;> first | rfl | exact absurd rfl (ha _)
  · simp only [if_neg hc, Except.ok.injEq] at h
    subst h
    refine ⟨_, rfl, fun k m a ha => ?_, fun _ k m c => rfl, fun h => absurd h hc⟩
    cases a <;> first | rfl | exact absurd rfl (ha _)

theorem bring_spec {s s' : Sim} {g : Bool} {types : List FieldType}
    (h : bring s g types = .ok s') :
    ∃ I, s' = { s with interp := I } ∧
      (∀ k m a, a ≠ .rho → (∀ c, a ≠ .J c) → I k m a = s.interp k m a) ∧
      (FieldType.rho ∈ types →
        (¬ (g ∧ s.comm.size > 1 ∧ s.exRho = false) → ∀ k m, I k m .rho = s.s2iRho k m) ∧
        ((g ∧ s.comm.size > 1 ∧ s.exRho = false) → ∃ F,
          exchangeFields s.comm .add 1 s.Nm s.Nz (fun k m _ iz ir => s.s2iRho k m iz ir) = .ok F ∧
          ∀ k m, I k m .rho = F k m 0)) ∧
      (FieldType.J ∈ types →
        (¬ (g ∧ s.comm.size > 1 ∧ s.exJ = false) → ∀ k m c, I k m (.J c) = s.s2iJ c k m) ∧
        ((g ∧ s.comm.size > 1 ∧ s.exJ = false) → ∃ F,
          exchangeFields s.comm .add 3 s.Nm s.Nz (fun k m i iz ir => s.s2iJ (coordOf i) k m iz ir) = .ok F ∧
          ∀ k m c, I k m (.J c) = F k m c.idx)) := by
  unfold bring at h
  have key : ∃ s1, (if FieldType.rho ∈ types then bringRho s g else .ok s) = .ok s1 ∧
      (if FieldType.J ∈ types then bringJ s1 g else .ok s1) = .ok s' := by
    cases hr : (if FieldType.rho ∈ types then bringRho s g else .ok s) with
    | error e => rw [hr] at h; cases h
    | ok s1 => rw [hr] at h; exact ⟨s1, rfl, h⟩
  obtain ⟨s1, h1, h2⟩ := key
  have k1 : ∃ I, s1 = { s with interp := I } ∧ (∀ k m a, a ≠ .rho → I k m a = s.interp k m a) ∧
      (FieldType.rho ∈ types →
        (¬ (g ∧ s.comm.size > 1 ∧ s.exRho = false) → ∀ k m, I k m .rho = s.s2iRho k m) ∧
        ((g ∧ s.comm.size > 1 ∧ s.exRho = false) → ∃ F,
          exchangeFields s.comm .add 1 s.Nm s.Nz (fun k m _ iz ir => s.s2iRho k m iz ir) = .ok F ∧
          ∀ k m, I k m .rho = F k m 0)) := by
    by_cases hr : FieldType.rho ∈ types
    · rw [if_pos hr] at h1
      obtain ⟨I, e, a, b, c⟩ := bringRho_spec h1
      exact ⟨I, e, a, fun _ => ⟨b, c⟩⟩
    · rw [if_neg hr, Except.ok.injEq] at h1
      subst h1
      exact ⟨_, rfl, fun _ _ _ _ => rfl, fun h => absurd h hr⟩
  obtain ⟨I, e, a, b⟩ := k1
  subst e
  by_cases hj : FieldType.J ∈ types
  · rw [if_pos hj] at h2
    obtain ⟨I', e', a', b', c'⟩ := bringJ_spec h2
    refine ⟨I', e', fun k m x hx hx' => ?_, fun hr => ?_, fun _ => ⟨b', c'⟩⟩
    · rw [a' k m x hx']; exact a k m x hx
    · have er : ∀ k m, I' k m .rho = I k m .rho := fun k m => a' k m .rho (by intro c; simp)
      obtain ⟨b1, b2⟩ := b hr
      refine ⟨fun hn k m => by rw [er, b1 hn], fun hc => ?_⟩
      obtain ⟨F, hF, hI⟩ := b2 hc
      exact ⟨F, hF, fun k m => by rw [er, hI]⟩
  · rw [if_neg hj, Except.ok.injEq] at h2
    subst h2
    exact ⟨I, rfl, fun k m x hx _ => a k m x hx, b, fun h => absurd h hj⟩

/-! ### Theorems -/

/-- The records of the file and the arrays of the simulation they are meant for: `E/r` shows `Er`,
and so on; `rho` and the PML records have one component. -/
inductive Shows : FieldType × Option Coord → Attr → Prop
  | rho : Shows (.rho, none) .rho
  | E (c : Coord) : Shows (.E, some c) (.E c)
  | B (c : Coord) : Shows (.B, some c) (.B c)
  | J (c : Coord) : Shows (.J, some c) (.J c)
  | Epml (c : Coord) : Shows (.Epml c, none) (.Epml c)
  | Bpml (c : Coord) : Shows (.Bpml c, none) (.Bpml c)

private theorem Shows.path {p : FieldType × Option Coord} {a : Attr} (h : Shows p a) :
    p ∈ pathsOf p.1 ∧ attrOf p = a := by
  cases h with
  | rho => simp [pathsOf, attrOf]
  | E c => cases c <;> simp [pathsOf, attrOf]
  | B c => cases c <;> simp [pathsOf, attrOf]
  | J c => cases c <;> simp [pathsOf, attrOf]
  | Epml c => simp [pathsOf, attrOf]
  | Bpml c => simp [pathsOf, attrOf]

/-- The local arrays are where the communicator says they are: true at the start and after any
number of moves of the window (C02). -/
def Placed (s : Sim) : Prop :=
  ∀ k < s.comm.size, ∀ Narr first, s.comm.getNzIz true true true (some k) = .ok (Narr, first) →
    s.Nz k = Narr ∧ ∃ zmax,
      s.comm.getZminZmax s.zminGlobal s.dz true true true (some k) = .ok (s.zmin k, zmax)

/-- The value of the array that the file shows in terms of the state after `bring`. -/
private theorem gathered {s s' : Sim} {types : List FieldType} {it : ℕ} {f : File} (hp : Placed s)
    (h : writeHdf5 s true 0 types it = .ok f) (hb : bring s true types = .ok s')
    {p : FieldType × Option Coord} {a : Attr} (hs : Shows p a) (hmem : p.1 ∈ types) :
    ∃ d, f.get p = some d ∧ f.time = it * s.dt ∧ f.dt = s.dt ∧ d.mesh.modes = s.Nm ∧
      d.shape.1 = 2 * s.Nm - 1 ∧ d.mesh.nz = s.comm.NzGlobal ∧ d.mesh.nr = s.NrPhys ∧
      (∀ ir, d.mesh.r ir = s.rmin + (ir + 1 / 2) * s.dr) ∧
      ∀ k < s.comm.size, ∀ N iz Narr first,
        s.comm.getNzIz true false false (some k) = .ok (N, iz) →
        s.comm.getNzIz true true true (some k) = .ok (Narr, first) →
        ∀ g : ℤ, iz ≤ g → g < iz + N → ∀ ir < s.NrPhys,
          (0 ≤ g ∧ g < s.comm.NzGlobal ∧ 0 ≤ g - first ∧ g - first < s.Nz k) ∧
          d.mesh.z g.toNat = s.zmin k + (((g - first).toNat : ℝ) + 1 / 2) * s.dz ∧
          ∀ θ, d.mesh.value θ ir g.toNat
            = Spec.fourierField s.Nm (fun m => s'.interp k m a (g - first).toNat ir) θ := by
  obtain ⟨hpath, hattr⟩ := hs.path
  obtain ⟨s2, zmin, Nz, Nr, hb2, hext, ht, hdt, hget⟩ := file_get h
  rw [hb] at hb2
  cases hb2
  obtain ⟨I, hs', -⟩ := bring_spec hb
  obtain ⟨u, -, hg⟩ := hget p.1 hmem p hpath
  rw [hattr] at hg
  have hext' : zmin = s.zminGlobal ∧ Nz = s.comm.NzGlobal ∧ Nr = s.NrPhys := by
    rw [hs'] at hext
    simp only [extent, if_true, Comm.getZminZmax, Comm.getNzIz_global, bind, Except.bind, pure,
      Except.pure] at hext
    simpa [eq_comm] using hext
  obtain ⟨rfl, rfl, rfl⟩ := hext'
  have hc : s'.comm = s.comm := by rw [hs']
  have hNm : s'.Nm = s.Nm := by rw [hs']
  have hNr : s'.NrPhys = s.NrPhys := by rw [hs']
  have hrmin : s'.rmin = s.rmin := by rw [hs']
  have hdr : s'.dr = s.dr := by rw [hs']
  have hdz : s'.dz = s.dz := by rw [hs']
  have hdt' : s'.dt = s.dt := by rw [hs']
  refine ⟨_, hg, by rw [ht, hdt'], by rw [hdt, hdt'], hNm, by simp [hNm], rfl, rfl, ?_, ?_⟩
  · intro ir
    simp only [Spec.ThetaMesh.r, Dataset.mesh, hrmin, hdr]
    norm_num
  · intro k hk N iz Narr first hloc harr g h1 h2 ir hir
    obtain ⟨hNz, zmax, hz⟩ := hp k hk Narr first harr
    have hglob : s.comm.getNzIz false false false none = .ok (s.comm.NzGlobal, 0) := by
      rw [Comm.getNzIz_global]; simp
    have hgath : ∀ m, _ := fun m => C06_gather s.comm false s.NrPhys
      (fun r iz ir => s'.interp r m a iz ir) _ N Narr 0 iz first k hk hglob hloc harr g h1 h2 ir hir
    obtain ⟨start, len, N', lo, p1, p2, p3, -⟩ := C01_partition s.comm (by omega) false
    have e1 := p1 k hk
    rw [hloc] at e1
    cases e1
    have e2 := p2 none
    rw [hglob] at e2
    cases e2
    have hin := p3.2.1 k hk
    have hg0 : 0 ≤ g := by have := hin.1; omega
    have hg1 : g < s.comm.NzGlobal := by have := hin.2; omega
    have hf0 := (hgath 0).2.1
    refine ⟨⟨hg0, hg1, hf0, by rw [hNz]; exact (hgath 0).2.2⟩, ?_, ?_⟩
    · simp only [Comm.getZminZmax, harr, bind, Except.bind, pure, Except.pure, Except.ok.injEq,
        Prod.mk.injEq] at hz
      have c1 : ((g.toNat : ℕ) : ℝ) = (g : ℝ) := by
        have := Int.toNat_of_nonneg hg0
        exact_mod_cast congrArg (Int.cast : ℤ → ℝ) this
      have c2 : (((g - first).toNat : ℕ) : ℝ) = (g : ℝ) - first := by
        have := Int.toNat_of_nonneg hf0
        have h3 : (((g - first).toNat : ℤ) : ℝ) = ((g - first : ℤ) : ℝ) := by rw [this]
        push_cast at h3
        exact_mod_cast h3
      simp only [Spec.ThetaMesh.z, Dataset.mesh, hdz, c1, c2, ← hz.1]
      ring
    · intro θ
      rw [value_eq _ s' true 0 a rfl rfl rfl, hNm]
      congr 1
      funext m
      have := (hgath m).1
      simp only [sub_zero] at this
      simp only [getDataset, if_true, hc, hNr, this]

/-- **C77** (fields of the solver). A gathered file, whatever is written with it: every record of E,
B or the PML layers is an array over the whole physical domain of the simulation, with the
documented number of entries per mode; the time is that of the iteration. Row `g` of the file
belongs to global cell `g`: a reader that follows the openPMD standard finds for it the
longitudinal position of the centre of that cell on the rank that holds it, the radius of the centre
of column `ir`, and at every angle the real field whose modes that rank holds there. -/
theorem C77_fields (s : Sim) (types : List FieldType) (it : ℕ) (f : File) (hp : Placed s)
    (h : writeHdf5 s true 0 types it = .ok f)
    (p : FieldType × Option Coord) (a : Attr) (hs : Shows p a) (hmem : p.1 ∈ types)
    (hrho : p.1 ≠ .rho) (hJ : p.1 ≠ .J) :
    ∃ d, f.get p = some d ∧ f.time = it * s.dt ∧ f.dt = s.dt ∧ d.mesh.modes = s.Nm ∧
      d.shape.1 = 2 * s.Nm - 1 ∧ d.mesh.nz = s.comm.NzGlobal ∧ d.mesh.nr = s.NrPhys ∧
      (∀ ir, d.mesh.r ir = s.rmin + (ir + 1 / 2) * s.dr) ∧
      ∀ k < s.comm.size, ∀ N iz Narr first,
        s.comm.getNzIz true false false (some k) = .ok (N, iz) →
        s.comm.getNzIz true true true (some k) = .ok (Narr, first) →
        ∀ g : ℤ, iz ≤ g → g < iz + N → ∀ ir < s.NrPhys,
          (0 ≤ g ∧ g < s.comm.NzGlobal ∧ 0 ≤ g - first ∧ g - first < s.Nz k) ∧
          d.mesh.z g.toNat = s.zmin k + (((g - first).toNat : ℝ) + 1 / 2) * s.dz ∧
          ∀ θ, d.mesh.value θ ir g.toNat
            = Spec.fourierField s.Nm (fun m => s.interp k m a (g - first).toNat ir) θ := by
  obtain ⟨s', -, -, -, hb, -⟩ := file_get h
  obtain ⟨d, g1, g2, g3, g4, g5, g6, g7, g8, g9⟩ := gathered hp h hb hs hmem
  obtain ⟨I, e, hI, -⟩ := bring_spec hb
  refine ⟨d, g1, g2, g3, g4, g5, g6, g7, g8, ?_⟩
  intro k hk N iz Narr first hl ha g h1 h2 ir hir
  obtain ⟨q1, q2, q3⟩ := g9 k hk N iz Narr first hl ha g h1 h2 ir hir
  refine ⟨q1, q2, fun θ => ?_⟩
  have hi : ∀ m, s'.interp k m a = s.interp k m a := by
    intro m
    rw [e]
    apply hI
    · rintro rfl; cases hs; exact hrho rfl
    · rintro c rfl; cases hs; exact hJ rfl
  rw [q3 θ]
  simp only [hi]

private theorem fourierField_congr {Nm : ℕ} {F G : ℕ → ℂ} (h0 : 0 < Nm) (h : ∀ m < Nm, F m = G m)
    (θ : ℝ) : Spec.fourierField Nm F θ = Spec.fourierField Nm G θ := by
  unfold Spec.fourierField
  rw [h 0 h0]
  congr 1
  apply Finset.sum_congr rfl
  intro m hm
  rw [Finset.mem_Ico] at hm
  rw [h m hm.2]

private theorem total_apply {lay : _root_.Spec.Layout} (F : ℕ → ℕ → ℕ → ℂ) (r j ir : ℕ) :
    lay.total F r j ir = lay.total (fun q i => F q i ir) r j := by
  unfold _root_.Spec.Layout.total
  rw [Finset.sum_apply]

/-- **C77** (charge density). In a simulation that was accepted, with the guard cells of rho not yet
exchanged: the file shows the sum of what all ranks have deposited for that cell, also for a cell
that is stored by several ranks. With one rank, or once the guard cells have been exchanged, it
shows the density held by the owner of the cell. -/
theorem C77_rho {K : Type} [Field K] [LinearOrder K] [IsStrictOrderedRing K] [FloorRing K]
    (args : CommArgs K) (lay : _root_.Spec.Layout)
    (s : Sim) (types : List FieldType) (it : ℕ) (f : File) (hp : Placed s) (hNm : 0 < s.Nm)
    (hacc : Accepted args s.comm lay) (hlay : s.Nz = lay.N)
    (h : writeHdf5 s true 0 types it = .ok f) (hmem : FieldType.rho ∈ types) :
    ∃ d, f.get (.rho, none) = some d ∧
      ∀ k < s.comm.size, ∀ N iz Narr first,
        s.comm.getNzIz true false false (some k) = .ok (N, iz) →
        s.comm.getNzIz true true true (some k) = .ok (Narr, first) →
        ∀ g : ℤ, iz ≤ g → g < iz + N → ∀ ir < s.NrPhys, ∀ θ,
          (1 < s.comm.size → s.exRho = false → d.mesh.value θ ir g.toNat
            = Spec.fourierField s.Nm
                (fun m => lay.total (fun q i => s.s2iRho q m i ir) k (g - first).toNat) θ) ∧
          (s.comm.size = 1 ∨ s.exRho = true → d.mesh.value θ ir g.toNat
            = Spec.fourierField s.Nm (fun m => s.s2iRho k m (g - first).toNat ir) θ) := by
  obtain ⟨s', -, -, -, hb, -⟩ := file_get h
  obtain ⟨d, g1, -, -, -, -, -, -, -, g9⟩ := gathered hp h hb .rho hmem
  obtain ⟨I, e, -, hI, -⟩ := bring_spec hb
  obtain ⟨i1, i2⟩ := hI hmem
  refine ⟨d, g1, ?_⟩
  intro k hk N iz Narr first hl ha g h1 h2 ir hir θ
  obtain ⟨q1, -, q3⟩ := g9 k hk N iz Narr first hl ha g h1 h2 ir hir
  rw [q3 θ]
  constructor
  · intro hsz hex
    obtain ⟨F, hF, hFI⟩ := i2 ⟨rfl, hsz, hex⟩
    apply fourierField_congr hNm
    intro m hm
    rw [e]
    simp only [hFI]
    rw [hlay] at hF
    rw [C05_add hacc 1 s.Nm _ F hF k m 0 (g - first).toNat (by rw [hacc.geo.desc.1]; exact hk) hm
      (by omega) (by rw [← hlay]; omega)]
    rw [total_apply]
  · intro hx
    rw [e]
    simp only [i1 (by rintro ⟨-, hs1, hs2⟩; rcases hx with hx | hx <;> simp_all)]

/-- **C77** (current density): the same for the three components of J. -/
theorem C77_J {K : Type} [Field K] [LinearOrder K] [IsStrictOrderedRing K] [FloorRing K]
    (args : CommArgs K) (lay : _root_.Spec.Layout)
    (s : Sim) (types : List FieldType) (it : ℕ) (f : File) (hp : Placed s) (hNm : 0 < s.Nm)
    (hacc : Accepted args s.comm lay) (hlay : s.Nz = lay.N)
    (h : writeHdf5 s true 0 types it = .ok f) (hmem : FieldType.J ∈ types) (c : Coord) :
    ∃ d, f.get (.J, some c) = some d ∧
      ∀ k < s.comm.size, ∀ N iz Narr first,
        s.comm.getNzIz true false false (some k) = .ok (N, iz) →
        s.comm.getNzIz true true true (some k) = .ok (Narr, first) →
        ∀ g : ℤ, iz ≤ g → g < iz + N → ∀ ir < s.NrPhys, ∀ θ,
          (1 < s.comm.size → s.exJ = false → d.mesh.value θ ir g.toNat
            = Spec.fourierField s.Nm
                (fun m => lay.total (fun q i => s.s2iJ c q m i ir) k (g - first).toNat) θ) ∧
          (s.comm.size = 1 ∨ s.exJ = true → d.mesh.value θ ir g.toNat
            = Spec.fourierField s.Nm (fun m => s.s2iJ c k m (g - first).toNat ir) θ) := by
  obtain ⟨s', -, -, -, hb, -⟩ := file_get h
  obtain ⟨d, g1, -, -, -, -, -, -, -, g9⟩ := gathered hp h hb (.J c) hmem
  obtain ⟨I, e, -, -, hI⟩ := bring_spec hb
  obtain ⟨i1, i2⟩ := hI hmem
  refine ⟨d, g1, ?_⟩
  intro k hk N iz Narr first hl ha g h1 h2 ir hir θ
  obtain ⟨q1, -, q3⟩ := g9 k hk N iz Narr first hl ha g h1 h2 ir hir
  rw [q3 θ]
  constructor
  · intro hsz hex
    obtain ⟨F, hF, hFI⟩ := i2 ⟨rfl, hsz, hex⟩
    apply fourierField_congr hNm
    intro m hm
    rw [e]
    simp only [hFI]
    rw [hlay] at hF
    rw [C05_add hacc 3 s.Nm _ F hF k m c.idx (g - first).toNat (by rw [hacc.geo.desc.1]; exact hk) hm
      (by cases c <;> simp [Coord.idx]) (by rw [← hlay]; omega)]
    rw [total_apply]
    simp only [coordOf_idx]
  · intro hx
    rw [e]
    simp only [i1 (by rintro ⟨-, hs1, hs2⟩; rcases hx with hx | hx <;> simp_all)]

/-- **C77** (no row is left out): every row of the file belongs to exactly one rank. -/
theorem C77_all_cells (s : Sim) (hsz : 0 < s.comm.size) (g : ℕ) (hg : g < s.comm.NzGlobal) :
    ∃! k, k < s.comm.size ∧ ∃ N iz, s.comm.getNzIz true false false (some k) = .ok (N, iz) ∧
      iz ≤ g ∧ (g : ℤ) < iz + N := by
  obtain ⟨start, len, N, lo, p1, p2, p3, e1, e2⟩ := C01_partition s.comm hsz false
  simp only [Bool.false_eq_true, if_false, add_zero, neg_zero] at e1 e2
  subst e1 e2
  obtain ⟨k, ⟨hk, h1, h2⟩, hu⟩ := p3.1 g (by omega) (by omega)
  refine ⟨k, ⟨hk, len k, start k, p1 k hk, h1, h2⟩, ?_⟩
  rintro k' ⟨hk', N', iz', e, h1', h2'⟩
  rw [p1 k' hk'] at e
  cases e
  exact hu k' ⟨hk', h1', h2'⟩

/-- **C77** (without a communicator): each rank writes its own array, guard and damping cells
included, at the positions of its own grid. -/
theorem C77_local (s : Sim) (k : ℕ) (types : List FieldType) (it : ℕ) (f : File)
    (h : writeHdf5 s false k types it = .ok f)
    (p : FieldType × Option Coord) (a : Attr) (hs : Shows p a) (hmem : p.1 ∈ types) :
    ∃ d, f.get p = some d ∧ f.time = it * s.dt ∧ d.mesh.nz = s.Nz k ∧ d.mesh.nr = s.Nr ∧
      (∀ ir, d.mesh.r ir = s.rmin + (ir + 1 / 2) * s.dr) ∧
      (∀ iz, d.mesh.z iz = s.zmin k + (iz + 1 / 2) * s.dz) ∧
      ∀ iz ir θ, d.mesh.value θ ir iz = Spec.fourierField s.Nm (fun m =>
        match a with
        | .rho => s.s2iRho k m iz ir
        | .J c => s.s2iJ c k m iz ir
        | a => s.interp k m a iz ir) θ := by
  obtain ⟨hpath, hattr⟩ := hs.path
  obtain ⟨s', zmin, Nz, Nr, hb, hext, ht, hdt, hget⟩ := file_get h
  obtain ⟨I, hs', hI, hIr, hIJ⟩ := bring_spec hb
  obtain ⟨u, -, hg⟩ := hget p.1 hmem p hpath
  rw [hattr] at hg
  subst hs'
  simp only [extent, Bool.false_eq_true, if_false, Except.ok.injEq, Prod.mk.injEq] at hext
  obtain ⟨rfl, rfl, rfl⟩ := hext
  refine ⟨_, hg, ht, rfl, rfl, ?_, ?_, ?_⟩
  · intro ir
    simp only [Spec.ThetaMesh.r, Dataset.mesh]
    norm_num
  · intro iz
    simp only [Spec.ThetaMesh.z, Dataset.mesh]
    norm_num
  · intro iz ir θ
    rw [value_eq _ _ false k a rfl rfl rfl]
    congr 1
    funext m
    simp only [getDataset, Bool.false_eq_true, if_false]
    cases hs with
    | rho => simp only [(hIr hmem).1 (by simp)]
    | J c => simp only [(hIJ hmem).1 (by simp)]
    | E c => simp only [hI k m (.E c) (by simp) (by simp)]
    | B c => simp only [hI k m (.B c) (by simp) (by simp)]
    | Epml c => simp only [hI k m (.Epml c) (by simp) (by simp)]
    | Bpml c => simp only [hI k m (.Bpml c) (by simp) (by simp)]

/-! ### Which requests are served -/

/-- The names that the documentation of `FieldDiagnostic` allows. -/
def FieldType.Documented : FieldType → Prop
  | .rho | .E | .B | .J => True
  | .Epml c | .Bpml c => c = .r ∨ c = .t
  | .rhoOf _ | .other _ => False

theorem documented_dim {t : FieldType} (h : t.Documented) : ∃ u, unitDimension t.record = some u := by
  cases t with
  | rho => exact ⟨_, rfl⟩
  | E => exact ⟨_, rfl⟩
  | B => exact ⟨_, rfl⟩
  | J => exact ⟨_, rfl⟩
  | rhoOf x => exact h.elim
  | other x => exact h.elim
  | Epml c => rcases h with rfl | rfl <;> exact ⟨_, rfl⟩
  | Bpml c => rcases h with rfl | rfl <;> exact ⟨_, rfl⟩

private theorem documented_ok (s : Sim) (zmin : ℝ) (Nz Nr : ℕ) (gather : Bool) (k : ℕ) (f : File)
    {t : FieldType} (h : t.Documented) :
    (∃ b, createBlock s zmin Nz Nr t = .ok b) ∧ ∃ f', writeType s gather k f t = .ok f' := by
  obtain ⟨u, hu⟩ := documented_dim h
  cases t with
  | rhoOf x => exact h.elim
  | other x => exact h.elim
  | _ => simp only [createBlock, createPaths, emptyDataset, hu, bind, Except.bind, writeType, writePaths]
         exact ⟨⟨_, rfl⟩, _, rfl⟩

private theorem undocumented {s : Sim} {zmin : ℝ} {Nz Nr : ℕ} {gather : Bool} {k : ℕ} {f f' : File}
    {t : FieldType} {b} (h1 : createBlock s zmin Nz Nr t = .ok b)
    (h2 : writeType s gather k f t = .ok f') : t.Documented := by
  cases t with
  | rho => trivial
  | E => trivial
  | B => trivial
  | J => trivial
  | rhoOf x => simp [writeType, writePaths, bind, Except.bind] at h2
  | other x => simp [createBlock, createPaths, bind, Except.bind] at h1
  | Epml c =>
    cases c
    · left; rfl
    · right; rfl
    · have : unitDimension (FieldType.record (.Epml .z)) = none := by decide
      simp [createBlock, createPaths, emptyDataset, this, bind, Except.bind] at h1
  | Bpml c =>
    cases c
    · left; rfl
    · right; rfl
    · have : unitDimension (FieldType.record (.Bpml .z)) = none := by decide
      simp [createBlock, createPaths, emptyDataset, this, bind, Except.bind] at h1

private theorem mapM_all {A B : Type} {g : A → Except PyErr B} {l : List A}
    (h : ∀ a ∈ l, ∃ b, g a = .ok b) : ∃ r, l.mapM g = .ok r := by
  induction l with
  | nil => exact ⟨[], rfl⟩
  | cons a l ih =>
    obtain ⟨b, hb⟩ := h a (by simp)
    obtain ⟨r, hr⟩ := ih (fun x hx => h x (by simp [hx]))
    exact ⟨b :: r, by rw [List.mapM_cons, hb, hr]; rfl⟩

private theorem foldlM_all {A B : Type} {g : B → A → Except PyErr B} {l : List A}
    (h : ∀ a ∈ l, ∀ b, ∃ b', g b a = .ok b') (b : B) : ∃ r, l.foldlM g b = .ok r := by
  induction l generalizing b with
  | nil => exact ⟨b, rfl⟩
  | cons a l ih =>
    obtain ⟨b', hb⟩ := h a (by simp) b
    obtain ⟨r, hr⟩ := ih (fun x hx => h x (by simp [hx])) b'
    exact ⟨r, by rw [List.foldlM_cons, hb]; exact hr⟩

private theorem foldlM_each {A B : Type} {g : B → A → Except PyErr B} {l : List A} {b r : B}
    (h : l.foldlM g b = .ok r) : ∀ a ∈ l, ∃ b1 b2, g b1 a = .ok b2 := by
  induction l generalizing b with
  | nil => simp
  | cons a l ih =>
    rw [List.foldlM_cons] at h
    cases hg : g b a with
    | error e => rw [hg] at h; cases h
    | ok b' =>
      rw [hg] at h
      intro x hx
      rcases List.mem_cons.1 hx with rfl | hx
      · exact ⟨b, b', hg⟩
      · exact ih h x hx

private theorem bring_ok_iff (s : Sim) (gather : Bool) (types : List FieldType) :
    (∃ s', bring s gather types = .ok s') ↔
      (gather = true → 1 < s.comm.size → s.comm.nGuard = 0 →
        (FieldType.rho ∈ types → s.exRho = true) ∧ (FieldType.J ∈ types → s.exJ = true)) := by
  have hR : ∀ s : Sim, (∃ s', bringRho s gather = .ok s') ↔
      (gather = true → 1 < s.comm.size → s.comm.nGuard = 0 → s.exRho = true) := by
    intro s
    unfold bringRho
    by_cases hc : gather ∧ s.comm.size > 1 ∧ s.exRho = false
    · dsimp only
      rw [if_pos hc]
      have := (C04_ok_iff s.comm .add 1 s.Nm s.Nz (fun k m _ iz ir => if Attr.rho = Attr.rho then
        s.s2iRho k m iz ir else s.interp k m .rho iz ir))
      obtain ⟨h1, h2, h3⟩ := hc
      constructor
      · rintro ⟨s', hs'⟩ - - h0
        simp only [bind, Except.bind] at hs'
        split at hs'
        · cases hs'
        · rename_i F hF
          have := this.1 ⟨F, hF⟩
          omega
      · intro h0
        obtain ⟨F, hF⟩ := this.2 (by
          right
          by_contra hn
          have := h0 h1 h2 (by omega)
          rw [h3] at this; cases this)
        exact ⟨_, by simp only [bind, Except.bind]; erw [hF]⟩
    · dsimp only
      rw [if_neg hc]
      refine ⟨fun _ h1 h2 _ => ?_, fun _ => ⟨_, rfl⟩⟩
      by_contra h3
      exact hc ⟨h1, h2, by simpa using h3⟩
  have hJ : ∀ s : Sim, (∃ s', bringJ s gather = .ok s') ↔
      (gather = true → 1 < s.comm.size → s.comm.nGuard = 0 → s.exJ = true) := by
    intro s
    unfold bringJ
    by_cases hc : gather ∧ s.comm.size > 1 ∧ s.exJ = false
    · dsimp only
      rw [if_pos hc]
      have := (C04_ok_iff s.comm .add 3 s.Nm s.Nz (fun k m i iz ir => s.s2iJ (coordOf i) k m iz ir))
      obtain ⟨h1, h2, h3⟩ := hc
      constructor
      · rintro ⟨s', hs'⟩ - - h0
        simp only [bind, Except.bind] at hs'
        split at hs'
        · cases hs'
        · rename_i F hF
          have := this.1 ⟨F, hF⟩
          omega
      · intro h0
        obtain ⟨F, hF⟩ := this.2 (by
          right
          by_contra hn
          have := h0 h1 h2 (by omega)
          rw [h3] at this; cases this)
        simp only [bind, Except.bind, hF]
        exact ⟨_, rfl⟩
    · dsimp only
      rw [if_neg hc]
      refine ⟨fun _ h1 h2 _ => ?_, fun _ => ⟨_, rfl⟩⟩
      by_contra h3
      exact hc ⟨h1, h2, by simpa using h3⟩
  unfold bring
  by_cases hr : FieldType.rho ∈ types
  · rw [if_pos hr]
    cases hb : bringRho s gather with
    | error e =>
      simp only [Except.bind]
      constructor
      · rintro ⟨_, h⟩; cases h
      intro h
      obtain ⟨s', hs'⟩ := (hR s).2 fun h1 h2 h3 => (h h1 h2 h3).1 hr
      rw [hb] at hs'; cases hs'
    | ok s1 =>
      obtain ⟨I, e, -⟩ := bringRho_spec hb
      have hr1 := (hR s).1 ⟨s1, hb⟩
      simp only [Except.bind]
      by_cases hj : FieldType.J ∈ types
      · rw [if_pos hj, hJ s1, e]
        exact ⟨fun h h1 h2 h3 => ⟨fun _ => hr1 h1 h2 h3, fun _ => h h1 h2 h3⟩,
          fun h h1 h2 h3 => (h h1 h2 h3).2 hj⟩
      · rw [if_neg hj]
        exact ⟨fun _ h1 h2 h3 => ⟨fun _ => hr1 h1 h2 h3, fun h => absurd h hj⟩, fun _ => ⟨_, rfl⟩⟩
  · rw [if_neg hr]
    simp only [Except.bind]
    by_cases hj : FieldType.J ∈ types
    · rw [if_pos hj, hJ s]
      exact ⟨fun h h1 h2 h3 => ⟨fun h => absurd h hr, fun _ => h h1 h2 h3⟩,
        fun h h1 h2 h3 => (h h1 h2 h3).2 hj⟩
    · rw [if_neg hj]
      exact ⟨fun _ h1 h2 h3 => ⟨fun h => absurd h hr, fun h => absurd h hj⟩, fun _ => ⟨_, rfl⟩⟩

/-- **C77** (which requests are served): the file is written exactly if every requested name is a
documented one; with several ranks without guard cells there must moreover be nothing to exchange.
Any other request ends in an exception, not in a file with something else in it. -/
theorem C77_written_iff (s : Sim) (gather : Bool) (k : ℕ) (types : List FieldType) (it : ℕ) :
    (∃ f, writeHdf5 s gather k types it = .ok f) ↔
      (∀ t ∈ types, t.Documented) ∧ (gather = true → 1 < s.comm.size → s.comm.nGuard = 0 →
        (FieldType.rho ∈ types → s.exRho = true) ∧ (FieldType.J ∈ types → s.exJ = true)) := by
  rw [← bring_ok_iff s gather types]
  unfold writeHdf5
  constructor
  · rintro ⟨f, h⟩
    simp only [bind, Except.bind] at h
    cases h1 : bring s gather types with
    | error e => rw [h1] at h; cases h
    | ok s' =>
      refine ⟨?_, _, rfl⟩
      rw [h1] at h
      simp only at h
      cases h2 : extent s' gather k with
      | error e => rw [h2] at h; cases h
      | ok x =>
        rw [h2] at h
        simp only at h
        cases h3 : createFile s' types it x.1 x.2.1 x.2.2 with
        | error e => rw [h3] at h; cases h
        | ok f0 =>
          rw [h3] at h
          simp only at h
          intro t ht
          obtain ⟨b1, b2, hb⟩ := foldlM_each h t ht
          unfold createFile at h3
          simp only [bind, Except.bind] at h3
          split at h3
          · cases h3
          rename_i ds hds
          obtain ⟨b, -, hb'⟩ := (mapM_ok' hds).1 t ht
          exact undocumented hb' hb
  · rintro ⟨hd, s', hs'⟩
    rw [hs']
    have hx : ∃ x, extent s' gather k = .ok x := by
      unfold extent
      cases gather
      · exact ⟨_, rfl⟩
      · simp only [if_true, Comm.getZminZmax, Comm.getNzIz_global, bind, Except.bind, pure, Except.pure]
        exact ⟨_, rfl⟩
    obtain ⟨x, hx⟩ := hx
    simp only [bind, Except.bind, hx]
    obtain ⟨ds, hds⟩ := mapM_all (g := createBlock s' x.1 x.2.1 x.2.2)
      fun t ht => (documented_ok s' x.1 x.2.1 x.2.2 gather k ⟨0, 0, []⟩ (hd t ht)).1
    simp only [createFile, hds, bind, Except.bind]
    exact foldlM_all (fun t ht f => (documented_ok s' 0 0 0 gather k f (hd t ht)).2) _

/-! ### Physical dimensions -/

/-- **C77** (dimensions): the dimensions written with the records of field and particle files are
those of the quantities; those of the particle mass excepted. -/
theorem C77_dimensions :
    unitDimension "rho" = some Spec.Dim.chargeDensity ∧
    unitDimension "J" = some Spec.Dim.currentDensity ∧
    unitDimension "E" = some Spec.Dim.electricField ∧
    unitDimension "Er_pml" = some Spec.Dim.electricField ∧
    unitDimension "Et_pml" = some Spec.Dim.electricField ∧
    unitDimension "B" = some Spec.Dim.magneticField ∧
    unitDimension "Br_pml" = some Spec.Dim.magneticField ∧
    unitDimension "Bt_pml" = some Spec.Dim.magneticField ∧
    unitDimension "charge" = some Spec.Dim.charge ∧
    unitDimension "position" = some Spec.Dim.length ∧
    unitDimension "positionOffset" = some Spec.Dim.length ∧
    unitDimension "momentum" = some Spec.Dim.momentum ∧
    unitDimension "weighting" = some 0 ∧ unitDimension "gamma" = some 0 ∧
    unitDimension "id" = some 0 := by
  refine ⟨?_, ?_, ?_, ?_, ?_, ?_, ?_, ?_, ?_, ?_, ?_, ?_, ?_, ?_, ?_⟩ <;>
    (simp only [unitDimension]; decide)

/-- **C77** (violated): the mass of the particles is written with the dimension of a length. -/
theorem C77_mass_violated :
    unitDimension "mass" = some Spec.Dim.length ∧ unitDimension "mass" ≠ some Spec.Dim.mass := by
  constructor <;> (simp only [unitDimension]; decide)

/-- The dimension that goes with a record is the one of its name. -/
theorem C77_record_dimension (s : Sim) (gather : Bool) (k : ℕ) (types : List FieldType) (it : ℕ)
    (f : File) (h : writeHdf5 s gather k types it = .ok f)
    (p : FieldType × Option Coord) (a : Attr) (hs : Shows p a) (hmem : p.1 ∈ types) :
    ∃ d, f.get p = some d ∧ d.unitDimension =
      match a with
      | .rho => Spec.Dim.chargeDensity
      | .J _ => Spec.Dim.currentDensity
      | .E _ | .Epml _ => Spec.Dim.electricField
      | .B _ | .Bpml _ => Spec.Dim.magneticField := by
  obtain ⟨s', zmin, Nz, Nr, hb, hext, ht, hdt, hget⟩ := file_get h
  obtain ⟨u, hu, hg⟩ := hget p.1 hmem p hs.path.1
  refine ⟨_, hg, ?_⟩
  have hdoc := ((C77_written_iff s gather k types it).1 ⟨f, h⟩).1 _ hmem
  obtain ⟨d1, d2, d3, d4, d5, d6, d7, d8, -⟩ := C77_dimensions
  cases hs with
  | rho => exact (Option.some.inj (hu.symm.trans d1))
  | E c => exact (Option.some.inj (hu.symm.trans d3))
  | B c => exact (Option.some.inj (hu.symm.trans d6))
  | J c => exact (Option.some.inj (hu.symm.trans d2))
  | Epml c =>
    rcases hdoc with rfl | rfl
    · exact (Option.some.inj (hu.symm.trans d4))
    · exact (Option.some.inj (hu.symm.trans d5))
  | Bpml c =>
    rcases hdoc with rfl | rfl
    · exact (Option.some.inj (hu.symm.trans d7))
    · exact (Option.some.inj (hu.symm.trans d8))

/-! ### Non-vacuity -/

/-- Two ranks of 4 cells with 2 guard cells, two modes. -/
noncomputable def exSim : Sim where
  comm := exComm2
  zminGlobal := 5
  dz := 1
  NrPhys := 3
  Nr := 3
  rmin := 0
  dr := 1
  dt := 1
  Nm := 2
  Nz := exLayout.N
  zmin := fun k => 5 + (4 * k - 2)
  interp := fun k m _ iz ir => k + 2 * m * I + iz + ir
  s2iRho := fun k m iz ir => k + m + iz * I + ir
  s2iJ := fun _ _ _ _ _ => 1
  exRho := false
  exJ := true

theorem exSim_placed : Placed exSim := by
  intro k hk Narr first h
  have hk' : k < 2 := hk
  have key : exComm2.getNzIz true true true (some k) = .ok (8, 4 * k - 2) := by
    interval_cases k <;> decide
  have h' : exComm2.getNzIz true true true (some k) = .ok (Narr, first) := h
  rw [key] at h'
  cases h'
  refine ⟨rfl, ?_⟩
  simp only [exSim, Comm.getZminZmax, key, bind, Except.bind, pure, Except.pure]
  refine ⟨5 + ((4 * k - 2 : ℤ) : ℝ) * 1 + ((8 : ℕ) : ℝ) * 1, ?_⟩
  simp only [Except.ok.injEq, Prod.mk.injEq]
  exact ⟨by push_cast; ring, trivial⟩

/-- The hypotheses of C77_fields, C77_rho and C77_J are met by `exSim` with all the documented
quantities. -/
example : Placed exSim ∧ Accepted exArgs exSim.comm exLayout ∧ exSim.Nz = exLayout.N ∧
    0 < exSim.Nm ∧ ∃ f, writeHdf5 exSim true 0 [.rho, .E, .B, .J, .Epml .r, .Bpml .t] 7 = .ok f := by
  refine ⟨exSim_placed, exAccepted, rfl, by decide, (C77_written_iff _ _ _ _ _).2 ⟨?_, ?_⟩⟩
  · intro t ht
    fin_cases ht <;> simp [FieldType.Documented]
  · intro _ _ h
    exact absurd h (by decide)

/-- Row 6 of that file is cell 4 of the array of rank 1. -/
example : exSim.comm.getNzIz true false false (some 1) = .ok (4, 4) ∧
    exSim.comm.getNzIz true true true (some 1) = .ok (8, 2) := by decide

/-- A species name is refused (the density of a species has its own diagnostic). -/
example : ¬ ∃ f, writeHdf5 exSim true 0 [.E, .rhoOf "electrons"] 7 = .ok f := by
  rw [C77_written_iff]
  rintro ⟨h, -⟩
  exact h (.rhoOf "electrons") (by simp)

end Fbpic.FieldDiag
