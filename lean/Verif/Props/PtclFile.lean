import Verif.Lemmas.PtclFile

/-!
# C116: the particle file has the structure of the standard, and diagnostics share files
-/

namespace Fbpic.PFile

open Fbpic.Spec.PFile

variable {K : Type} [Zero K] [One K] [NatCast K] [Mul K]

private theorem setupFile_eq (d : Diag K) (it : ℕ) (f : H5Tree K) (a : Attrs K) (h0 : f [] = some (.group a))
    (h1 : isDset (f [.data]) = false) (h2 : isDset (f [.data, .iter it]) = false) :
    ∃ f', setupFile d it f = .ok f' ∧ f' [] = some (.group (Attrs.put a (fileList d))) ∧
      f' [.data] = some ((f [.data]).getD .empty) ∧
      f' [.data, .iter it] = some (((f [.data, .iter it]).getD .empty).put (iterList d it)) ∧
      ∀ q, q ≠ [] → q ≠ [.data] → q ≠ [.data, .iter it] → f' q = f q := by
  have hs : setAttrs f [] (fileList d) = .ok (place f [] (.group (Attrs.put a (fileList d)))) := by
    simp only [setAttrs, h0, Node.put]
    rfl
  have hr : requireGroup (place f [] (.group (Attrs.put a (fileList d)))) [.data, .iter it]
      = .ok (way (place f [] (.group (Attrs.put a (fileList d)))) [.data, .iter it]) := by
    refine requireGroup_way fun q hq => ?_
    rcases q with _ | ⟨k, _ | ⟨k2, _ | ⟨k3, q⟩⟩⟩ <;> simp at hq
    · rfl
    · subst hq; simpa [place] using h1
    · rw [hq.1, hq.2]; simpa [place] using h2
  unfold setupFile
  simp only [hs, hr, bind, Except.bind]
  refine ⟨place (way (place f [] (.group (Attrs.put a (fileList d)))) [.data, .iter it]) [.data, .iter it]
    (((f [.data, .iter it]).getD .empty).put (iterList d it)), ?_, ?_, ?_, ?_, ?_⟩
  · simp only [setAttrs, way, place]
    simp
    rfl
  · simp [way, place]
  · simp [way, place]
  · simp [place]
  · intro q q0 q1 q2
    have : ¬ q <+: [Key.data, .iter it] := by
      intro hq
      rcases q with _ | ⟨k, _ | ⟨k2, _ | ⟨k3, q⟩⟩⟩ <;> simp at hq
      · exact q0 rfl
      · exact q1 (by rw [hq])
      · exact q2 (by rw [hq.1, hq.2])
    simp [way, place, q0, q2, this]

private theorem put_get (a : Attrs K) (l : List (String × Val K)) (h : (l.map Prod.fst).Nodup)
    (x : String × Val K) (hx : x ∈ l) : Attrs.put a l x.1 = some x.2 := by
  induction l generalizing a with
  | nil => simp at hx
  | cons y l ih =>
    rw [List.map_cons, List.nodup_cons] at h
    rcases List.mem_cons.1 hx with rfl | hx
    · show Attrs.put (fun k => if k = x.1 then some x.2 else a k) l x.1 = _
      have hn : x.1 ∉ l.map Prod.fst := h.1
      clear ih hx h
      generalize hb : (fun k => if k = x.1 then some x.2 else a k) = b
      have hbx : b x.1 = some x.2 := by rw [← hb]; simp
      clear hb
      induction l generalizing b with
      | nil => exact hbx
      | cons z l ih =>
        rw [List.map_cons, List.mem_cons, not_or] at hn
        exact ih hn.2 _ (by simp [hn.1, hbx])
    · exact ih _ h.2 hx

/-- General form: the groups of the species may hold something already. -/
private theorem write_over (d : Diag K) (it : ℕ) (f : H5Tree K) (D : String → Qty → Data K)
    (hn : (d.species.map Spc.name).Nodup) (hp : Documented d.particleData)
    (hd : ∀ s ∈ d.species, Gives d.particleData s (D s.name)) (h0 : ∃ a, f [] = some (.group a))
    (h1 : ∀ p ∈ [[Key.data], [.data, .iter it], [.data, .iter it, .particles]], ∀ x a, f p ≠ some (.dset x a))
    (hf : ∀ s ∈ d.species, Fits s (before f (speciesPath it s.name))) :
    ∃ f', writeHdf5 d it f = .ok f' ∧
      (∀ s ∈ d.species, ∀ r, f' (speciesPath it s.name ++ r)
        = over (speciesTree d.particleData s (D s.name)) (before f (speciesPath it s.name)) r) ∧
      HasAttrs (f' []) (fileTable d) ∧
      HasAttrs (f' [.data, .iter it]) [("time", .num (it * d.dt)), ("dt", .num d.dt), ("timeUnitSI", .num 1)] ∧
      (∀ p ∈ [[Key.data], [.data, .iter it], [.data, .iter it, .particles]], ∀ x a, f' p ≠ some (.dset x a)) ∧
      ∀ q, q ∉ [[], [Key.data], [.data, .iter it], [.data, .iter it, .particles]] →
        (∀ s ∈ d.species, ¬ speciesPath it s.name <+: q) → f' q = f q := by
  obtain ⟨a, ha⟩ := h0
  have nd : ∀ p ∈ [[Key.data], [.data, .iter it], [.data, .iter it, .particles]], isDset (f p) = false := by
    intro p hp'
    rcases hfp : f p with _ | n
    · rfl
    · cases n with
      | group b => rfl
      | dset x b => exact absurd hfp (h1 p hp' x b)
  obtain ⟨f1, e0, e1, e2, e3, e4⟩ := setupFile_eq d it f a ha (nd _ (by simp)) (nd _ (by simp))
  have pre : ∀ q : Path, q <+: [Key.data, .iter it, .particles] →
      q = [] ∨ q = [.data] ∨ q = [.data, .iter it] ∨ q = [.data, .iter it, .particles] := by
    intro q hq
    rcases q with _ | ⟨k, _ | ⟨k2, _ | ⟨k3, _ | ⟨k4, q⟩⟩⟩⟩ <;> simp at hq ⊢
    · exact hq
    · exact hq
    · exact hq
  have hgrp : ∀ (o : Option (Node K)) l, isDset o = false →
      ∃ b, (o.getD .empty).put l = .group (Attrs.put b l) := by
    intro o l ho
    rcases o with _ | n
    · exact ⟨_, rfl⟩
    · cases n with
      | group b => exact ⟨b, rfl⟩
      | dset x b => simp [isDset] at ho
  have e5 : ∀ s, ∀ r, f1 (speciesPath it s ++ r) = f (speciesPath it s ++ r) := by
    intro s r
    exact e4 _ (by simp [speciesPath]) (by simp [speciesPath]) (by simp [speciesPath])
  have hbf : ∀ s, before f1 (speciesPath it s) = before f (speciesPath it s) := by
    intro s
    funext r
    have := e5 s []
    rw [List.append_nil] at this
    simp only [before, e5 s r, this]
  have hparts : f1 [.data, .iter it, .particles] = f [.data, .iter it, .particles] :=
    e4 _ (by simp) (by simp) (by simp)
  obtain ⟨b, hb⟩ := hgrp (f [.data, .iter it]) (iterList d it) (nd _ (by simp))
  have hdat : isDset (f1 [.data]) = false := by
    rw [e2]
    have := nd [.data] (by simp)
    rcases hq' : f [.data] with _ | n
    · rfl
    · rw [hq'] at this; exact this
  have nd1 : ∀ q, q <+: [Key.data, .iter it, .particles] → isDset (f1 q) = false := by
    intro q hq
    rcases pre q hq with rfl | rfl | rfl | rfl
    · rw [e1]; rfl
    · exact hdat
    · rw [e3, hb]; rfl
    · rw [hparts]; exact nd _ (by simp)
  obtain ⟨f', g0, g1, g2, g3⟩ := species_loop hp d.species hn D f1 nd1
    (fun s hs => by rw [hbf]; exact hf s hs) hd
  refine ⟨f', ?_, ?_, ?_, ?_, ?_, ?_⟩
  · unfold writeHdf5
    simp only [e0, bind, Except.bind]
    exact g0
  · intro s hs r
    rw [g1 s hs r, hbf]
  · refine ⟨Attrs.put a (fileList d), ?_, fun x hx => put_get _ _ (by simp [fileList]) x ?_⟩
    · rw [g2 [] (by simp), e1]
      split_ifs <;> rfl
    · simp only [fileTable, fileList, List.mem_cons, List.not_mem_nil, or_false] at hx ⊢
      rcases hx with h | h | h | h | h | h | h | h | h <;> simp [h]
  · refine ⟨Attrs.put b (iterList d it), ?_, fun x hx => put_get _ _ (by simp [iterList]) x hx⟩
    rw [g2 _ (by simp), e3, hb]
    split_ifs <;> rfl
  · intro p hp' x c hc
    have hpp : p <+: [Key.data, .iter it, .particles] := by
      simp only [List.mem_cons, List.not_mem_nil, or_false] at hp'
      rcases hp' with rfl | rfl | rfl <;> simp
    have h2 := g2 p hpp
    have h3 := nd1 p hpp
    rw [hc] at h2
    split_ifs at h2
    · rw [← h2] at h3; simp [isDset] at h3
    · rcases hq : f1 p with _ | n
      · rw [hq] at h2; simp [Node.empty] at h2
      · rw [hq] at h2 h3
        simp only [Option.getD_some, Option.some.injEq] at h2
        rw [← h2] at h3
        simp [isDset] at h3
  · intro q hq hs
    simp only [List.mem_cons, List.not_mem_nil, or_false, not_or] at hq
    rw [g3 q (fun hc => ?_) hs, e4 q hq.1 hq.2.1 hq.2.2.1]
    rcases pre q hc with h | h | h | h
    · exact hq.1 h
    · exact hq.2.1 h
    · exact hq.2.2.1 h
    · exact hq.2.2.2 h

private theorem fits_clean (s : Spc K) (f : H5Tree K) (g : Path) (h : ∀ r, f (g ++ r) = none) :
    before f g = newFile ∧ Fits s (before f g) := by
  have h0 := h []
  rw [List.append_nil] at h0
  have e : before f g = newFile := by
    funext r
    unfold before newFile
    by_cases hr : r = []
    · simp [hr, h0]
    · simp [hr, h]
  refine ⟨e, ?_⟩
  rw [e]
  constructor <;> simp [newFile, isDset, Node.empty]

private theorem over_new (W : H5Tree K) (a : Attrs K) (h : W [] = some (.group a)) : over W newFile = W := by
  funext r
  by_cases hr : r = []
  · subst hr
    have : Attrs.over a (fun _ => none) = a := by
      funext k
      simp only [Attrs.over]
      cases a k <;> rfl
    simp [over, newFile, h, Node.empty, attrsAt, this]
  · exact over_eq (by simp [newFile, hr])

/-- **C116** (structure): in a file that holds nothing about its species (a new file, or one in which
other diagnostics have written), a particle diagnostic with documented quantities writes for each
species exactly the tree of the standard, marks file and iteration, and changes nothing else: what
field diagnostics, or particle diagnostics with other species, have written there stays as it is. -/
theorem C116_file (d : Diag K) (it : ℕ) (f : H5Tree K) (D : String → Qty → Data K)
    (hn : (d.species.map Spc.name).Nodup) (hp : Documented d.particleData)
    (hd : ∀ s ∈ d.species, Gives d.particleData s (D s.name)) (hc : Clean d it f) :
    ∃ f', writeHdf5 d it f = .ok f' ∧
      (∀ s ∈ d.species, ∀ r, f' (speciesPath it s.name ++ r) = speciesTree d.particleData s (D s.name) r) ∧
      HasAttrs (f' []) (fileTable d) ∧
      HasAttrs (f' [.data, .iter it]) [("time", .num (it * d.dt)), ("dt", .num d.dt), ("timeUnitSI", .num 1)] ∧
      (∀ p ∈ [[Key.data], [.data, .iter it], [.data, .iter it, .particles]], ∀ x a, f' p ≠ some (.dset x a)) ∧
      ∀ q, q ∉ [[], [Key.data], [.data, .iter it], [.data, .iter it, .particles]] →
        (∀ s ∈ d.species, ¬ speciesPath it s.name <+: q) → f' q = f q := by
  obtain ⟨f', h0, h1, h2, h3, h4, h5⟩ := write_over d it f D hn hp hd hc.1 hc.2.1
    fun s hs => (fits_clean s f _ (hc.2.2 s hs)).2
  refine ⟨f', h0, fun s hs r => ?_, h2, h3, h4, h5⟩
  rw [h1 s hs r, (fits_clean s f _ (hc.2.2 s hs)).1, over_new _ _ rfl]

/-! ### Files that exist already -/

private theorem fits_written {pd : List PData} {s₁ s₂ : Spc K} {D : Qty → Data K}
    (hi : s₁.ionizable → s₂.ionizable) : Fits s₂ (speciesTree pd s₁ D) := by
  constructor
  · exact ⟨_, rfl⟩
  · rfl
  · rfl
  · intro c; rfl
  · intro v
    simp only [speciesTree]
    split_ifs <;> rfl
  · intro h
    have h1 : s₁.ionizable = false := by
      cases hs : s₁.ionizable
      · rfl
      · rw [hi hs] at h; exact absurd h (by simp)
    simp [speciesTree, listed, h1, isDset]
  · intros; rfl
  · intro q k r
    rcases r with _ | ⟨k3, r⟩
    · cases k <;> simp [speciesTree]
    · simp [speciesTree]

private theorem before_written {pd : List PData} {s : Spc K} {D : Qty → Data K} {f : H5Tree K} {g : Path}
    (h : ∀ r, f (g ++ r) = speciesTree pd s D r) : before f g = speciesTree pd s D := by
  funext r
  have h0 := h []
  rw [List.append_nil] at h0
  unfold before
  by_cases hr : r = []
  · subst hr
    simp [h0, speciesTree]
  · rw [if_neg hr, h]

private theorem over_table (l : List (String × Val K)) (b : Attrs K)
    (h : ∀ k, (l.lookup k) = none → b k = none) : Attrs.over (table l) b = table l := by
  funext k
  simp only [Attrs.over, table]
  cases hk : l.lookup k with
  | none => simp [h k hk]
  | some v => simp

private theorem lookup_cong {l l' : List (String × Val K)} (h : l.map Prod.fst = l'.map Prod.fst) (k : String)
    (hk : l.lookup k = none) : l'.lookup k = none := by
  rw [List.lookup_eq_none_iff] at hk ⊢
  intro p hp
  have : p.1 ∈ l.map Prod.fst := h ▸ List.mem_map_of_mem hp
  obtain ⟨q, hq, he⟩ := List.mem_map.1 this
  rw [← he]
  exact hk q hq

private theorem over_covered {pd₁ pd₂ : List PData} {s₁ s₂ : Spc K} {D₁ D₂ : Qty → Data K}
    (hcov : Covers pd₁ pd₂ s₁ s₂) :
    over (speciesTree pd₂ s₂ D₂) (speciesTree pd₁ s₁ D₁) = speciesTree pd₂ s₂ D₂ := by
  obtain ⟨c1, c2, c3⟩ := hcov
  have self : ∀ (l : List (String × Val K)), Attrs.over (table l) (table l) = table l :=
    fun l => over_table l _ fun k hk => hk
  have none_over : ∀ (l : List (String × Val K)), Attrs.over (table l) (fun _ => none) = table l :=
    fun l => over_table l _ fun k _ => rfl
  have const_over : ∀ (r : Record) (v w : K),
      Attrs.over (table (recordTable r ++ constant v)) (table (recordTable r ++ constant w))
        = table (recordTable r ++ constant v) :=
    fun r v w => over_table _ _ fun k hk => lookup_cong (by simp [constant]) k hk
  funext r
  rcases r with _ | ⟨k, _ | ⟨k2, _ | ⟨k3, r⟩⟩⟩
  · simp [over, speciesTree, attrsAt, self]
  · rcases k with _ | _ | _ | _ | _ | (v | q | _ | _) | _
    · rfl
    · rfl
    · rfl
    · rfl
    · rfl
    · by_cases h2 : PData.vec v ∈ pd₂
      · by_cases h1 : PData.vec v ∈ pd₁ <;> simp [over, speciesTree, h1, h2, attrsAt, self, none_over]
      · have h1 : PData.vec v ∉ pd₁ := fun h => h2 (c1 _ h)
        simp [over, speciesTree, h1, h2]
    · by_cases h2 : listed pd₂ s₂ q = true
      · simp [over, speciesTree, h2]
      · have h1 : listed pd₁ s₁ q = false := by
          cases h : listed pd₁ s₁ q
          · rfl
          · exfalso
            apply h2
            cases q <;> simp [listed] at h ⊢
            · exact c1 _ h
            · exact c2 h
            · exact c3 h
            · exact c1 _ h
        have h2' : listed pd₂ s₂ q = false := by simpa using h2
        by_cases hq : q = .charge
        · subst hq
          simp [over, speciesTree, h1, h2', attrsAt, const_over]
        · simp [over, speciesTree, h1, h2', hq]
    · simp [over, speciesTree, attrsAt, const_over]
    · simp [over, speciesTree, attrsAt, self]
    · rfl
  · rcases k with _ | _ | _ | _ | _ | (v | q | _ | _) | _ <;>
      rcases k2 with _ | _ | _ | _ | _ | _ | c <;> try rfl
    · by_cases h2 : PData.vec v ∈ pd₂
      · simp [over, speciesTree, h2]
      · have h1 : PData.vec v ∉ pd₁ := fun h => h2 (c1 _ h)
        simp [over, speciesTree, h1, h2]
    · simp [over, speciesTree, attrsAt, self]
  · simp [over, speciesTree]

/-- **C116** (again): if the file holds what an earlier diagnostic (of this run or of an earlier one)
has written for a species of the same name, and that was no more than what is written now, then
afterwards the group of the species is that of the later diagnostic alone: nothing of the earlier
data is left, whatever the numbers of particles. -/
theorem C116_again (d₁ d₂ : Diag K) (it : ℕ) (f f₁ : H5Tree K) (D₁ D₂ : String → Qty → Data K)
    (hn₁ : (d₁.species.map Spc.name).Nodup) (hp₁ : Documented d₁.particleData)
    (hd₁ : ∀ s ∈ d₁.species, Gives d₁.particleData s (D₁ s.name)) (hc₁ : Clean d₁ it f)
    (hn₂ : (d₂.species.map Spc.name).Nodup) (hp₂ : Documented d₂.particleData)
    (hd₂ : ∀ s ∈ d₂.species, Gives d₂.particleData s (D₂ s.name)) (hc₂ : Clean d₂ it f)
    (hcov : ∀ s₁ ∈ d₁.species, ∀ s₂ ∈ d₂.species, s₁.name = s₂.name →
      Covers d₁.particleData d₂.particleData s₁ s₂)
    (h₁ : writeHdf5 d₁ it f = .ok f₁) :
    ∃ f₂, writeHdf5 d₂ it f₁ = .ok f₂ ∧
      (∀ s ∈ d₂.species, ∀ r, f₂ (speciesPath it s.name ++ r) = speciesTree d₂.particleData s (D₂ s.name) r) ∧
      ∀ s ∈ d₁.species, (∀ s₂ ∈ d₂.species, s₂.name ≠ s.name) →
        ∀ r, f₂ (speciesPath it s.name ++ r) = speciesTree d₁.particleData s (D₁ s.name) r := by
  obtain ⟨f', w, a1, a2, a3, a4, a5⟩ := C116_file d₁ it f D₁ hn₁ hp₁ hd₁ hc₁
  rw [h₁] at w
  obtain rfl : f₁ = f' := Except.ok.inj w
  have long : ∀ (n : String) r, speciesPath it n ++ r ∉
      [[], [Key.data], [.data, .iter it], [.data, .iter it, .particles]] := by
    intro n r
    simp [speciesPath]
  have hsame : ∀ s ∈ d₂.species, (∃ s₁ ∈ d₁.species, s₁.name = s.name) ∨
      ∀ r, f₁ (speciesPath it s.name ++ r) = none := by
    intro s hs
    by_cases h : ∃ s₁ ∈ d₁.species, s₁.name = s.name
    · exact Or.inl h
    · refine Or.inr fun r => ?_
      rw [a5 _ (long _ _) (fun s₁ hs₁ => ?_), hc₂.2.2 s hs r]
      rw [species_prefix]
      exact fun e => h ⟨s₁, hs₁, e⟩
  have hfit : ∀ s ∈ d₂.species, Fits s (before f₁ (speciesPath it s.name)) := by
    intro s hs
    rcases hsame s hs with ⟨s₁, hs₁, e⟩ | h
    · have := a1 s₁ hs₁
      rw [e] at this
      rw [before_written this]
      exact fits_written (hcov s₁ hs₁ s hs e).2.2
    · exact (fits_clean s f₁ _ h).2
  obtain ⟨a, ha, -⟩ := a2
  obtain ⟨f₂, w2, b1, -, -, -, b5⟩ := write_over d₂ it f₁ D₂ hn₂ hp₂ hd₂ ⟨a, ha⟩ a4 hfit
  refine ⟨f₂, w2, fun s hs r => ?_, fun s hs hne r => ?_⟩
  · rw [b1 s hs r]
    rcases hsame s hs with ⟨s₁, hs₁, e⟩ | h
    · have := a1 s₁ hs₁
      rw [e] at this
      rw [before_written this, over_covered (hcov s₁ hs₁ s hs e)]
    · rw [(fits_clean s f₁ _ h).1, over_new _ _ rfl]
  · rw [b5 _ (long _ _) (fun s₂ hs₂ => ?_), a1 s hs r]
    rw [species_prefix]
    exact hne s₂ hs₂

/-- **C116** (left over): what the later diagnostic does not write stays in the file. -/
theorem C116_leftover (d₁ d₂ : Diag K) (it : ℕ) (f f₁ : H5Tree K) (D₁ D₂ : String → Qty → Data K)
    (hn₁ : (d₁.species.map Spc.name).Nodup) (hp₁ : Documented d₁.particleData)
    (hd₁ : ∀ s ∈ d₁.species, Gives d₁.particleData s (D₁ s.name)) (hc₁ : Clean d₁ it f)
    (hn₂ : (d₂.species.map Spc.name).Nodup) (hp₂ : Documented d₂.particleData)
    (hd₂ : ∀ s ∈ d₂.species, Gives d₂.particleData s (D₂ s.name))
    (hsp : ∀ s₂ ∈ d₂.species, ∃ s₁ ∈ d₁.species, s₁.name = s₂.name ∧ (s₁.ionizable → s₂.ionizable))
    (h₁ : writeHdf5 d₁ it f = .ok f₁) :
    ∃ f₂, writeHdf5 d₂ it f₁ = .ok f₂ ∧ ∀ s₁ ∈ d₁.species, ∀ s₂ ∈ d₂.species, s₁.name = s₂.name →
      ∀ v ∈ [Vec.position, .momentum, .E, .B], ∀ c,
        f₂ (speciesPath it s₂.name ++ [.record (.vec v), .comp c]) =
          if .vec v ∈ d₂.particleData then some (.dset (D₂ s₂.name (.vec v c)) (table [("unitSI", .num 1)]))
          else if .vec v ∈ d₁.particleData then some (.dset (D₁ s₁.name (.vec v c)) (table [("unitSI", .num 1)]))
          else none := by
  obtain ⟨f', w, a1, a2, a3, a4, a5⟩ := C116_file d₁ it f D₁ hn₁ hp₁ hd₁ hc₁
  rw [h₁] at w
  obtain rfl : f₁ = f' := Except.ok.inj w
  obtain ⟨a, ha, -⟩ := a2
  have hfit : ∀ s ∈ d₂.species, Fits s (before f₁ (speciesPath it s.name)) := by
    intro s hs
    obtain ⟨s₁, hs₁, e, hi⟩ := hsp s hs
    have := a1 s₁ hs₁
    rw [e] at this
    rw [before_written this]
    exact fits_written hi
  obtain ⟨f₂, w2, b1, -⟩ := write_over d₂ it f₁ D₂ hn₂ hp₂ hd₂ ⟨a, ha⟩ a4 hfit
  refine ⟨f₂, w2, fun s₁ hs₁ s₂ hs₂ e v _ c => ?_⟩
  have := a1 s₁ hs₁
  rw [e] at this
  rw [b1 s₂ hs₂, before_written this, e]
  by_cases h2 : PData.vec v ∈ d₂.particleData
  · simp [over, speciesTree, h2]
  · by_cases h1 : PData.vec v ∈ d₁.particleData <;> simp [over, speciesTree, h1, h2]

/-! ### Violations -/

private theorem constants_error {s : Spc K} {T : H5Tree K} {a : Attrs K} (h0 : T [] = some (.group a))
    (hm : isDset (T [.record .mass]) = false) (hc : isDset (T [.record (.scal .charge)]) = true)
    (hi : s.ionizable = false) :
    setupConstants T s (constantQuantities s)
      = .error (.typeError "Incompatible object (Dataset) already exists") := by
  have t0 : isDset (T []) = false := by rw [h0]; rfl
  have hs : setAttrs T [] speciesList
      = .ok (over (place (fun _ => none) [] (.group (Attrs.put (fun _ => none) speciesList))) T) := by
    conv_lhs => rw [← over_root h0]
    rw [setAttrs_over (place_self _ _ _), place_place, put_empty]
  unfold setupConstants
  rw [hs]
  simp only [constantQuantities, hi, Bool.false_eq_true, if_false, List.cons_append, List.nil_append,
    List.foldlM_cons, List.foldlM_nil, bind, Except.bind, pure, Except.pure]
  rw [setupConstant_over (a := Attrs.put (fun _ => none) speciesList) (by simp [place]) (by simp [place]) t0 hm]
  simp only [setupConstant, requireGroup, bind, Except.bind]
  rw [blocked_eq (fun q hq hne => ?_)]
  · have : isDset (over (place (place (fun _ => none) [] (.group (Attrs.put (fun _ => none) speciesList)))
        [.record .mass] (.group (Attrs.put (fun _ => none) (recordTable .mass ++ [("unitSI", .num 1)]
          ++ [("shape", .shape [1])])))) T [.record (.scal .charge)]) = true := by
      simpa [over, place] using hc
    simp only [Bool.false_eq_true, if_false, this, if_true]
  · rcases q with _ | ⟨k, q⟩
    · simp [over, place, isDset]
    · simp at hq
      exact absurd (by rw [hq.1, hq.2]) hne

/-- **C116** (violated): a file from an earlier run in which a species was ionizable (its charges are
then a dataset) can not be written by a run in which a species of that name is not (its charge is
then a group): the run ends with a `TypeError`, at the first output. -/
theorem C116_ionizable_violated (d₁ d₂ : Diag K) (it : ℕ) (f f₁ : H5Tree K) (D₁ : String → Qty → Data K)
    (hn₁ : (d₁.species.map Spc.name).Nodup) (hp₁ : Documented d₁.particleData)
    (hd₁ : ∀ s ∈ d₁.species, Gives d₁.particleData s (D₁ s.name)) (hc₁ : Clean d₁ it f)
    (h₁ : writeHdf5 d₁ it f = .ok f₁) (s₁ s₂ : Spc K) (hs₁ : s₁ ∈ d₁.species) (l : List (Spc K))
    (hs₂ : d₂.species = s₂ :: l) (hname : s₁.name = s₂.name) (hi₁ : s₁.ionizable = true)
    (hi₂ : s₂.ionizable = false) :
    writeHdf5 d₂ it f₁ = .error (.typeError "Incompatible object (Dataset) already exists") := by
  obtain ⟨f', w, a1, a2, a3, a4, a5⟩ := C116_file d₁ it f D₁ hn₁ hp₁ hd₁ hc₁
  rw [h₁] at w
  obtain rfl : f₁ = f' := Except.ok.inj w
  obtain ⟨a, ha, -⟩ := a2
  have nd : ∀ p ∈ [[Key.data], [.data, .iter it], [.data, .iter it, .particles]], isDset (f₁ p) = false := by
    intro p hp'
    rcases hfp : f₁ p with _ | n
    · rfl
    · cases n with
      | group b => rfl
      | dset x b => exact absurd hfp (a4 p hp' x b)
  obtain ⟨g, e0, e1, e2, e3, e4⟩ := setupFile_eq d₂ it f₁ a ha (nd _ (by simp)) (nd _ (by simp))
  have hg : ∀ r, g (speciesPath it s₂.name ++ r) = speciesTree d₁.particleData s₁ (D₁ s₁.name) r := by
    intro r
    rw [e4 _ (by simp [speciesPath]) (by simp [speciesPath]) (by simp [speciesPath]), ← hname, a1 s₁ hs₁]
  have hput : ∀ (o : Option (Node K)) l, isDset o = false → isDset (some ((o.getD .empty).put l)) = false := by
    intro o l ho
    rcases o with _ | n
    · rfl
    · cases n with
      | group b => rfl
      | dset x b => simp [isDset] at ho
  have hpre : ∀ q, q <+: speciesPath it s₂.name → isDset (g q) = false := by
    intro q hq
    rcases prefix_species hq with h | rfl
    · rcases q with _ | ⟨k, _ | ⟨k2, _ | ⟨k3, _ | ⟨k4, q⟩⟩⟩⟩ <;> simp at h
      · rw [e1]; rfl
      · subst h
        have hd := nd [.data] (by simp)
        rw [e2]
        rcases hq' : f₁ [.data] with _ | n
        · rfl
        · rw [hq'] at hd; exact hd
      · rw [h.1, h.2, e3]
        exact hput _ _ (nd _ (by simp))
      · rw [h.1, h.2.1, h.2.2, e4 _ (by simp) (by simp) (by simp)]
        exact nd _ (by simp)
    · have := hg []
      rw [List.append_nil] at this
      rw [this]; rfl
  have hbef : before g (speciesPath it s₂.name) = speciesTree d₁.particleData s₁ (D₁ s₁.name) := before_written hg
  unfold writeHdf5
  simp only [e0, bind, Except.bind, hs₂, List.foldlM_cons]
  unfold writeSpecies
  rw [requireGroup_way hpre]
  simp only [bind, Except.bind, inGroup, way_before, hbef, fillSpecies, setupSpeciesGroup]
  rw [constants_error (a := table speciesTable) rfl rfl (by simp [speciesTree, listed, hi₁, isDset]) hi₂]

/-! ### Examples -/

/-- A species of `n` particles. -/
def exPtcl (name : String) (tracked ionizable : Bool) (n : ℕ) : Spc ℤ where
  name := name
  mass := 9
  charge := -1
  tracked := tracked
  ionizable := ionizable
  content q := if q = .scal .id then .ok (.ints (List.range n)) else .ok (.floats (List.replicate n 1))

def exDiag (species : List (Spc ℤ)) (pd : List PData) : Diag ℤ where
  species := species
  particleData := pd
  dt := 2
  now := "2026-11-15"
  version := "0.26"

/-- What the datasets of a species of `n` particles hold. -/
def exData (n : ℕ) (q : Qty) : Data ℤ :=
  if q = .scal .id then .ints (List.range n) else .floats (List.replicate n 1)

theorem exPtcl_gives (name : String) (tracked ionizable : Bool) (n : ℕ) (pd : List PData) :
    Gives pd (exPtcl name tracked ionizable n) (exData n) := by
  constructor
  · intro v c _
    simp [exPtcl, exData]
  · intro r _
    by_cases h : r = .id <;> simp [exPtcl, exData, h]

theorem clean_new (d : Diag K) (it : ℕ) : Clean d it (newFile : H5Tree K) := by
  refine ⟨⟨_, rfl⟩, ?_, ?_⟩
  · intro p hp x a
    simp at hp
    rcases hp with rfl | rfl | rfl <;> simp [newFile]
  · intro s _ r
    simp [newFile, speciesPath]

/-- The hypotheses of `C116_file`: tracked electrons and ionizable atoms in a new file. -/
example : ∃ f, writeHdf5 (exDiag [exPtcl "atoms" false true 3, exPtcl "electrons" true false 3]
    [.vec .position, .vec .momentum, .weighting, .other (.scal .gamma)]) 40 newFile = .ok f ∧
    f (speciesPath 40 "electrons" ++ [.record (.scal .id)])
      = some (.dset (.ints [0, 1, 2]) (table (("unitSI", .num 1) :: recordTable (.scal .id)))) ∧
    f (speciesPath 40 "electrons" ++ [.record (.vec .E), .comp .x]) = none := by
  obtain ⟨f, h, h1, -⟩ := C116_file (exDiag [exPtcl "atoms" false true 3, exPtcl "electrons" true false 3]
    [.vec .position, .vec .momentum, .weighting, .other (.scal .gamma)]) 40 newFile (fun _ => exData 3)
    (by simp [exDiag, exPtcl]) (by simp [exDiag, Documented])
    (by
      intro s hs
      simp [exDiag] at hs
      rcases hs with rfl | rfl <;> exact exPtcl_gives _ _ _ _ _) (clean_new _ _)
  have he := h1 (exPtcl "electrons" true false 3) (by simp [exDiag])
  exact ⟨f, h, (he _).trans (by simp [speciesTree, listed, exPtcl, exData, List.range_succ]),
    (he _).trans (by simp [speciesTree, exDiag])⟩

private theorem ex_gives (name : String) (tracked ionizable : Bool) (n : ℕ) (pd : List PData) :
    ∀ s ∈ (exDiag [exPtcl name tracked ionizable n] pd).species,
      Gives (exDiag [exPtcl name tracked ionizable n] pd).particleData s (exData n) := by
  intro s hs
  simp [exDiag] at hs
  subst hs
  exact exPtcl_gives _ _ _ _ _

/-- The hypotheses of `C116_again`: three particles, then two, with one more quantity. -/
example : ∃ f₁ f₂, writeHdf5 (exDiag [exPtcl "e" true false 3] [.vec .position]) 7 newFile = .ok f₁ ∧
    writeHdf5 (exDiag [exPtcl "e" true false 2] [.vec .position, .vec .E]) 7 f₁ = .ok f₂ ∧
    f₂ (speciesPath 7 "e" ++ [.record (.scal .id)])
      = some (.dset (.ints [0, 1]) (table (("unitSI", .num 1) :: recordTable (.scal .id)))) := by
  have p1 : Documented (exDiag [exPtcl "e" true false 3] [.vec .position]).particleData := by simp [exDiag, Documented]
  have p2 : Documented (exDiag [exPtcl "e" true false 2] [.vec .position, .vec .E]).particleData := by
    simp [exDiag, Documented]
  obtain ⟨f₁, h₁, -⟩ := C116_file (exDiag [exPtcl "e" true false 3] [.vec .position]) 7 newFile (fun _ => exData 3)
    (by simp [exDiag]) p1 (ex_gives _ _ _ _ _) (clean_new _ _)
  obtain ⟨f₂, h₂, h, -⟩ := C116_again _ (exDiag [exPtcl "e" true false 2] [.vec .position, .vec .E]) 7 newFile f₁
    (fun _ => exData 3) (fun _ => exData 2) (by simp [exDiag]) p1 (ex_gives _ _ _ _ _) (clean_new _ _)
    (by simp [exDiag]) p2 (ex_gives _ _ _ _ _) (clean_new _ _) (by simp [exDiag, exPtcl, Covers]) h₁
  exact ⟨f₁, f₂, h₁, h₂, (h (exPtcl "e" true false 2) (by simp [exDiag]) _).trans
    (by simp [speciesTree, listed, exPtcl, exData, List.range_succ])⟩

/-- The hypotheses of `C116_ionizable_violated`: nitrogen, ionizable in the first run only. -/
example : ∃ f₁, writeHdf5 (exDiag [exPtcl "N" false true 1] [.vec .position]) 0 newFile = .ok f₁ ∧
    writeHdf5 (exDiag [exPtcl "N" false false 1] [.vec .position]) 0 f₁
      = .error (.typeError "Incompatible object (Dataset) already exists") := by
  have p1 : Documented (exDiag [exPtcl "N" false true 1] [.vec .position]).particleData := by simp [exDiag, Documented]
  obtain ⟨f₁, h₁, -⟩ := C116_file (exDiag [exPtcl "N" false true 1] [.vec .position]) 0 newFile (fun _ => exData 1)
    (by simp [exDiag]) p1 (ex_gives _ _ _ _ _) (clean_new _ _)
  exact ⟨f₁, h₁, C116_ionizable_violated _ _ 0 newFile f₁ (fun _ => exData 1) (by simp [exDiag]) p1
    (ex_gives _ _ _ _ _) (clean_new _ _) h₁ (exPtcl "N" false true 1) (exPtcl "N" false false 1) (by simp [exDiag]) []
    rfl rfl rfl rfl⟩

/-- **C116** (violated): two diagnostics for the same species, with different selections and
quantities, or a second run in the same directory: the file holds the positions of one particle and
the momenta of two. -/
theorem C116_mixed_violated :
    ∃ d₁ d₂ : Diag ℤ, Documented d₁.particleData ∧ Documented d₂.particleData ∧
      ∃ f₁ f₂, writeHdf5 d₁ 0 newFile = .ok f₁ ∧ writeHdf5 d₂ 0 f₁ = .ok f₂ ∧
        ∃ x y a b, f₂ (speciesPath 0 "electrons" ++ [.record (.vec .position), .comp .x]) = some (.dset x a) ∧
          f₂ (speciesPath 0 "electrons" ++ [.record (.vec .momentum), .comp .x]) = some (.dset y b) ∧
          x.length = 1 ∧ y.length = 2 := by
  have g := ex_gives "electrons" false false
  have p1 : Documented (exDiag [exPtcl "electrons" false false 2] [.vec .position, .vec .momentum]).particleData := by
    simp [exDiag, Documented]
  have p2 : Documented (exDiag [exPtcl "electrons" false false 1] [.vec .position]).particleData := by
    simp [exDiag, Documented]
  obtain ⟨f₁, h₁, -⟩ := C116_file (exDiag [exPtcl "electrons" false false 2] [.vec .position, .vec .momentum]) 0
    newFile (fun _ => exData 2) (by simp [exDiag]) p1 (g 2 _) (clean_new _ _)
  obtain ⟨f₂, h₂, h⟩ := C116_leftover (exDiag [exPtcl "electrons" false false 2] [.vec .position, .vec .momentum])
    (exDiag [exPtcl "electrons" false false 1] [.vec .position]) 0 newFile f₁ (fun _ => exData 2) (fun _ => exData 1)
    (by simp [exDiag]) p1 (g 2 _) (clean_new _ _) (by simp [exDiag]) p2 (g 1 _)
    (by simp [exDiag, exPtcl]) h₁
  have hp := h (exPtcl "electrons" false false 2) (by simp [exDiag]) (exPtcl "electrons" false false 1)
    (by simp [exDiag]) rfl .position (by simp) .x
  have hm := h (exPtcl "electrons" false false 2) (by simp [exDiag]) (exPtcl "electrons" false false 1)
    (by simp [exDiag]) rfl .momentum (by simp) .x
  rw [if_pos (by simp [exDiag])] at hp
  rw [if_neg (by simp [exDiag]), if_pos (by simp [exDiag])] at hm
  exact ⟨_, _, p1, p2, f₁, f₂, h₁, h₂, _, _, _, _, hp, hm, by simp [exData, Data.length], by simp [exData, Data.length]⟩

/-- **C116** (violated): a single component (`particle_data=["y"]`) is accepted, but the record then
has no dimension. -/
theorem C116_component_violated :
    (match writeHdf5 (exDiag [exPtcl "electrons" false false 1] [.other (.vec .position .y)]) 0 newFile with
      | .ok f =>
        (match f (speciesPath 0 "electrons" ++ [.record (.vec .position), .comp .y]) with
          | some (.dset x _) => x.length
          | _ => 0) = 1 ∧
        (match f (speciesPath 0 "electrons" ++ [.record (.vec .position)]) with
          | some (.group a) => (a "unitDimension").isNone
          | _ => false) = true
      | .error _ => False) := by
  have : ((match writeHdf5 (exDiag [exPtcl "electrons" false false 1] [.other (.vec .position .y)]) 0 newFile with
      | .ok f =>
        decide ((match f (speciesPath 0 "electrons" ++ [.record (.vec .position), .comp .y]) with
          | some (.dset x _) => x.length
          | _ => 0) = 1) &&
        (match f (speciesPath 0 "electrons" ++ [.record (.vec .position)]) with
          | some (.group a) => (a "unitDimension").isNone
          | _ => false)
      | .error _ => false) : Bool) = true := by
    decide +kernel
  split at this
  · next f hf => simpa using this
  · simp at this

end Fbpic.PFile
