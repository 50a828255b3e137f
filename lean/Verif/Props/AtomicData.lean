import Verif.Spec.Adk
import Verif.Lemmas.Tactics

/-!
# C82: the table of ionization energies

The whole shipped table is checked by kernel evaluation (it is a finite constant of the program);
the statements are for every string a user may pass and every history of the cache.
-/

namespace Fbpic

open Spec Adk

/-- First ionization energy of hydrogen in the table (eV). -/
def uH : ℚ := 13.598434005136

/-- Everything that is needed about the lines of the table that concern `s`. -/
def tableOk (s : String) : Bool :=
  match readEnergies atomicData s with
  | .ok (some ev) =>
    decide ((∀ i (h : i < ev.length), (⟨ev.length, s, i, ev[i]⟩ : Row) ∈ atomicData) ∧
    (∀ r ∈ atomicData, r.symbol = s →
      r.atomicNumber = ev.length ∧ ev[r.charge]? = some r.energy) ∧
    (∀ u ∈ ev, 0 < u) ∧ ev.Pairwise (· < ·) ∧ ev ≠ [] ∧
    (∀ i (h : i < ev.length), uH / ev.headD 0 <
      ((i : ℚ) + 1) ^ 2 * (uH / ev[i]) + 1 + 2 * min (((i : ℚ) + 1) ^ 2 * (uH / ev[i])) 1))
  | _ => false

private theorem tableOk_elements : elements.all tableOk = true := by decide +kernel

private theorem symbols_elements : atomicData.all (fun r => decide (r.symbol ∈ elements)) = true := by
  decide +kernel

theorem energies_H : readEnergies atomicData "H" = .ok (some [uH]) := by decide +kernel

/-- The table gives well-formed energies for every element, and the arguments of the gamma functions
of the ADK formula will be positive. -/
theorem energies_of_mem {s : String} (hs : s ∈ elements) : ∃ ev,
    readEnergies atomicData s = .ok (some ev) ∧ EnergiesOf atomicData s ev ∧
    ∀ i (h : i < ev.length), uH / ev.headD 0 <
      ((i : ℚ) + 1) ^ 2 * (uH / ev[i]) + 1 + 2 * min (((i : ℚ) + 1) ^ 2 * (uH / ev[i])) 1 := by
  have h := List.all_eq_true.1 tableOk_elements s hs
  unfold tableOk at h
  split at h
  · rename_i ev hev
    obtain ⟨h1, h2, h3, h4, h5, h6⟩ := of_decide_eq_true h
    exact ⟨ev, hev, ⟨h1, h2, h3, h4, h5⟩, h6⟩
  · cases h

theorem energies_of_not_mem {s : String} (hs : s ∉ elements) :
    readEnergies atomicData s = .ok none := by
  have : atomicData.filter (fun r => r.symbol = s) = [] := by
    rw [List.filter_eq_nil_iff]
    intro r hr h
    have := of_decide_eq_true (List.all_eq_true.1 symbols_elements r hr)
    rw [of_decide_eq_true h] at this
    exact hs this
  unfold readEnergies
  rw [this]

/-- **C82** (table). For every string, the reader either returns the energies of that element, exactly
the ones listed in the table, as many as the element has electrons, positive and increasing with the
charge; or, if the string is not one of the shipped elements, it returns `None`. It never fails. -/
theorem C82_table (s : String) :
    (s ∈ elements → ∃ ev, readEnergies atomicData s = .ok (some ev) ∧ EnergiesOf atomicData s ev) ∧
    (s ∉ elements → readEnergies atomicData s = .ok none) :=
  ⟨fun h => let ⟨ev, h1, h2, _⟩ := energies_of_mem h; ⟨ev, h1, h2⟩, energies_of_not_mem⟩

example : "N" ∈ elements ∧ "Helium" ∉ elements := by decide

example : readEnergies atomicData "N" = .ok (some
    [14.534130, 29.601250, 47.4453, 77.47350, 97.89013, 552.067310, 667.046090]) := by decide +kernel

private theorem mapM_range_ok {α : Type} (f : ℕ → Except PyErr α) (n : ℕ) (en : List α) :
    (List.range n).mapM f = .ok en ↔ en.length = n ∧ ∀ i (hi : i < en.length), f i = .ok en[i] := by
  have key : ∀ (l : List ℕ) (en : List α), l.mapM f = .ok en ↔ List.Forall₂ (fun i e => f i = .ok e) l en := by
    intro l
    induction l with
    | nil =>
      intro en
      simp only [List.mapM_nil, pure, Except.pure, Except.ok.injEq, List.forall₂_nil_left_iff]
      exact eq_comm
    | cons a l ih =>
      intro en
      rw [List.mapM_cons]
      cases ha : f a with
      | error e =>
        constructor
        · intro h; cases h
        · intro h; cases h with | cons h _ => rw [ha] at h; cases h
      | ok b =>
        cases hl : l.mapM f with
        | error e =>
          constructor
          · intro h; cases h
          · intro h; cases h with | cons _ h => rw [(ih _).2 h] at hl; cases hl
        | ok bs =>
          constructor
          · intro h; cases h; exact List.Forall₂.cons ha ((ih _).1 hl)
          · intro h
            cases h with
            | cons h1 h2 =>
              rw [ha] at h1; cases h1
              have := (ih _).2 h2
              rw [hl] at this; cases this; rfl
  rw [key, List.forall₂_iff_get]
  simp only [List.length_range, List.get_eq_getElem, List.getElem_range]
  constructor
  · rintro ⟨h1, h2⟩; exact ⟨h1.symm, fun i hi => h2 i (by omega) hi⟩
  · rintro ⟨h1, h2⟩; exact ⟨h1.symm, fun i _ hi => h2 i hi⟩

/-- **C82** (any table). Whatever the table, if the reader returns energies then they are those that the table
lists: the energy number `i` is in a row with this symbol and the charge `i`, and their number is the atomic number
of the element. -/
theorem C82_any_table (data : List Row) (s : String) (ev : List ℚ) (h : readEnergies data s = .ok (some ev)) :
    (∃ r ∈ data, r.symbol = s ∧ r.atomicNumber = ev.length) ∧
    ∀ i (hi : i < ev.length), ∃ r ∈ data, r.symbol = s ∧ r.charge = i ∧ r.energy = ev[i] := by
  unfold readEnergies at h
  have hmem : ∀ r ∈ data.filter (fun r => r.symbol = s), r ∈ data ∧ r.symbol = s := by
    intro r hr
    have := List.mem_filter.1 hr
    exact ⟨this.1, of_decide_eq_true this.2⟩
  generalize hl : data.filter (fun r => r.symbol = s) = l at h hmem
  match l, hmem, h with
  | r :: l, hmem, h =>
    simp only at h
    split_ifs at h
    cases hm : (List.range r.atomicNumber).mapM (energyAt (r :: l)) with
    | error e => rw [hm] at h; cases h
    | ok en =>
      rw [hm] at h
      cases h
      have hf := (mapM_range_ok (energyAt (r :: l)) r.atomicNumber ev).1 hm
      refine ⟨⟨r, (hmem r (by simp)).1, (hmem r (by simp)).2, hf.1.symm⟩, fun i hi => ?_⟩
      have := hf.2 i hi
      unfold energyAt at this
      cases hr : (r :: l)[i]? with
      | none => rw [hr] at this; cases this
      | some r' =>
        rw [hr] at this
        have hm' := hmem r' (List.mem_of_getElem? hr)
        by_cases hc : i = r'.charge
        · simp only [if_pos hc] at this
          exact ⟨r', hm'.1, hm'.2, hc.symm, by injection this⟩
        · simp only [if_neg hc] at this
          cases this

/-- A table with a missing level is refused. -/
example : readEnergies [⟨2, "X", 0, 1⟩, ⟨2, "X", 2, 5⟩] "X" = .error (.assertionError "ion_level") := by decide +kernel

/-- The cache holds only what the reader returned. -/
def CacheOk (cache : Cache) : Prop := ∀ s v, cache s = some v → readEnergies atomicData s = .ok v

/-- The state of the cache after any sequence of requests. -/
def requests (cache : Cache) : List String → Except PyErr Cache
  | [] => .ok cache
  | s :: l => do
    let (_, cache) ← getEnergies atomicData cache s
    requests cache l

theorem getEnergies_ok {cache : Cache} (h : CacheOk cache) (s : String) :
    ∃ v cache', getEnergies atomicData cache s = .ok (v, cache') ∧
      readEnergies atomicData s = .ok v ∧ CacheOk cache' := by
  unfold getEnergies
  cases hc : cache s with
  | some v => exact ⟨v, cache, rfl, h s v hc, h⟩
  | none =>
    obtain ⟨v, hv⟩ : ∃ v, readEnergies atomicData s = .ok v := by
      by_cases hs : s ∈ elements
      · obtain ⟨ev, h1, -⟩ := energies_of_mem hs
        exact ⟨_, h1⟩
      · exact ⟨_, energies_of_not_mem hs⟩
    refine ⟨v, Function.update cache s (some v), ?_, hv, ?_⟩
    · simp only [hv]; rfl
    · intro t w hw
      by_cases ht : t = s
      · subst ht
        rw [Function.update_self] at hw
        cases hw
        exact hv
      · rw [Function.update_of_ne ht] at hw
        exact h t w hw

/-- **C82** (cache). The energies returned do not depend on which elements were requested before. -/
theorem C82_cache (l : List String) (s : String) : ∃ cache v cache',
    requests (fun _ => none) l = .ok cache ∧ getEnergies atomicData cache s = .ok (v, cache') ∧
    readEnergies atomicData s = .ok v := by
  have key : ∀ (l : List String) (cache : Cache), CacheOk cache →
      ∃ cache', requests cache l = .ok cache' ∧ CacheOk cache' := by
    intro l
    induction l with
    | nil => exact fun cache h => ⟨cache, rfl, h⟩
    | cons t l ih =>
      intro cache h
      obtain ⟨v, c', h1, -, h3⟩ := getEnergies_ok h t
      obtain ⟨c'', h4, h5⟩ := ih c' h3
      refine ⟨c'', ?_, h5⟩
      unfold requests
      rw [h1]
      exact h4
  obtain ⟨c, h1, h2⟩ := key l (fun _ => none) (fun s v h => by cases h)
  obtain ⟨v, c', h3, h4, -⟩ := getEnergies_ok h2 s
  exact ⟨c, v, c', h1, h3, h4⟩

end Fbpic
