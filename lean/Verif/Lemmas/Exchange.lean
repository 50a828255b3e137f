import Verif.Model.Exchange
import Verif.Lemmas.Comm
import Verif.Lemmas.Tactics
import Mathlib.Data.List.Nodup
import Mathlib.Data.List.Perm.Basic

namespace Fbpic.Comm

/-- Neighbour ranks as naturals. -/
theorem leftProc_nat {c : Comm} {r : ℕ} (hr : r < c.size) {l : ℤ} (h : c.leftProc r = some l) :
    ∃ l' : ℕ, l = l' ∧ l' < c.size ∧ ((r = 0 ∧ l' + 1 = c.size ∧ c.bz = .periodic) ∨ l' + 1 = r) := by
  unfold leftProc at h
  cases hb : c.bz <;> simp only [hb] at h <;> split at h
  · cases h; exact ⟨c.size - 1, by omega, by omega, Or.inl ⟨by assumption, by omega, rfl⟩⟩
  · cases h; exact ⟨r - 1, by omega, by omega, Or.inr (by omega)⟩
  · cases h
  · cases h; exact ⟨r - 1, by omega, by omega, Or.inr (by omega)⟩

theorem rightProc_nat {c : Comm} {r : ℕ} (hr : r < c.size) {p : ℤ} (h : c.rightProc r = some p) :
    ∃ p' : ℕ, p = p' ∧ p' < c.size ∧ ((p' = 0 ∧ r + 1 = c.size ∧ c.bz = .periodic) ∨ p' = r + 1) := by
  unfold rightProc at h
  cases hb : c.bz <;> simp only [hb] at h <;> split at h
  · cases h; exact ⟨0, by omega, by omega, Or.inl ⟨by rfl, by assumption, rfl⟩⟩
  · cases h; exact ⟨r + 1, by omega, by omega, Or.inr (by omega)⟩
  · cases h
  · cases h; exact ⟨r + 1, by omega, by omega, Or.inr (by omega)⟩

theorem right_of_left {c : Comm} {r l : ℕ} (hr : r < c.size) (h : c.leftProc r = some (l : ℤ)) :
    l < c.size ∧ c.rightProc l = some (r : ℤ) := by
  obtain ⟨l', e, hl, hc⟩ := leftProc_nat hr h
  have : l = l' := by exact_mod_cast e
  subst this
  refine ⟨hl, ?_⟩
  rcases hc with ⟨h0, h1, h2⟩ | h1
  · simp [rightProc, h2, h0, h1]
  · have : l + 1 ≠ c.size := by omega
    unfold rightProc
    cases c.bz <;> simp [this, ← h1]

theorem left_of_right {c : Comm} {r p : ℕ} (hr : r < c.size) (h : c.rightProc r = some (p : ℤ)) :
    p < c.size ∧ c.leftProc p = some (r : ℤ) := by
  obtain ⟨p', e, hl, hc⟩ := rightProc_nat hr h
  have : p = p' := by exact_mod_cast e
  subst this
  refine ⟨hl, ?_⟩
  rcases hc with ⟨h0, h1, h2⟩ | h1
  · simp [leftProc, h2, h0]; omega
  · have : p ≠ 0 := by omega
    unfold leftProc
    cases c.bz <;> simp [this] <;> omega

/-- (source, destination, tag) of a message. -/
def key {B : Type} (m : Msg B) : ℤ × ℤ × ℕ := (m.src, m.dst, m.tag)

theorem mem_keys_iff {B : Type} (c : Comm) (r : ℕ) (a b : B) (k : ℤ × ℤ × ℕ) :
    k ∈ (c.postedSends r a b).map key ↔
      (∃ l, c.leftProc r = some l ∧ k = ((r : ℤ), l, 1)) ∨
      (∃ p, c.rightProc r = some p ∧ k = ((r : ℤ), p, 2)) := by
  unfold postedSends
  cases hl : c.leftProc r <;> cases hp : c.rightProc r <;> simp [key]

theorem mem_recvs_iff (c : Comm) (r : ℕ) (k : ℤ × ℤ × ℕ) :
    k ∈ c.postedRecvs r ↔
      (∃ l, c.leftProc r = some l ∧ k = (l, (r : ℤ), 2)) ∨
      (∃ p, c.rightProc r = some p ∧ k = (p, (r : ℤ), 1)) := by
  unfold postedRecvs
  cases hl : c.leftProc r <;> cases hp : c.rightProc r <;> simp

theorem map_network {B : Type} (c : Comm) (a b : ℕ → B) :
    (c.network a b).map key =
      (List.range c.size).flatMap fun r => (c.postedSends r (a r) (b r)).map key := by
  simp [network, List.map_flatMap]

theorem nodup_network_keys {B : Type} (c : Comm) (a b : ℕ → B) :
    ((c.network a b).map key).Nodup := by
  rw [map_network, List.nodup_flatMap]
  refine ⟨fun r _ => ?_, ?_⟩
  · unfold postedSends
    cases hl : c.leftProc r <;> cases hp : c.rightProc r <;> simp [key]
  · apply List.Nodup.pairwise_of_forall_ne List.nodup_range
    intro x _ y _ hxy
    rw [Function.onFun, List.disjoint_left]
    intro k hk1 hk2
    rw [mem_keys_iff] at hk1 hk2
    apply hxy
    have e1 : k.1 = (x : ℤ) := by
      rcases hk1 with ⟨_, _, rfl⟩ | ⟨_, _, rfl⟩ <;> rfl
    have e2 : k.1 = (y : ℤ) := by
      rcases hk2 with ⟨_, _, rfl⟩ | ⟨_, _, rfl⟩ <;> rfl
    rw [e1] at e2; exact_mod_cast e2

theorem nodup_recvs (c : Comm) : ((List.range c.size).flatMap c.postedRecvs).Nodup := by
  rw [List.nodup_flatMap]
  refine ⟨fun r _ => ?_, ?_⟩
  · unfold postedRecvs
    cases hl : c.leftProc r <;> cases hp : c.rightProc r <;> simp
  · apply List.Nodup.pairwise_of_forall_ne List.nodup_range
    intro x _ y _ hxy
    rw [Function.onFun, List.disjoint_left]
    intro k hk1 hk2
    rw [mem_recvs_iff] at hk1 hk2
    apply hxy
    have e1 : k.2.1 = (x : ℤ) := by
      rcases hk1 with ⟨_, _, rfl⟩ | ⟨_, _, rfl⟩ <;> rfl
    have e2 : k.2.1 = (y : ℤ) := by
      rcases hk2 with ⟨_, _, rfl⟩ | ⟨_, _, rfl⟩ <;> rfl
    rw [e1] at e2; exact_mod_cast e2

theorem mem_network_keys_iff_recvs {B : Type} (c : Comm) (a b : ℕ → B) (k : ℤ × ℤ × ℕ) :
    k ∈ (c.network a b).map key ↔ k ∈ (List.range c.size).flatMap c.postedRecvs := by
  rw [map_network]
  simp only [List.mem_flatMap, List.mem_range, mem_keys_iff, mem_recvs_iff]
  constructor
  · rintro ⟨r, hr, ⟨l, hl, rfl⟩ | ⟨p, hp, rfl⟩⟩
    · obtain ⟨l', rfl, h1, -⟩ := leftProc_nat hr hl
      exact ⟨l', h1, Or.inr ⟨r, (right_of_left hr hl).2, rfl⟩⟩
    · obtain ⟨p', rfl, h1, -⟩ := rightProc_nat hr hp
      exact ⟨p', h1, Or.inl ⟨r, (left_of_right hr hp).2, rfl⟩⟩
  · rintro ⟨r, hr, ⟨l, hl, rfl⟩ | ⟨p, hp, rfl⟩⟩
    · obtain ⟨l', rfl, h1, -⟩ := leftProc_nat hr hl
      exact ⟨l', h1, Or.inr ⟨r, (right_of_left hr hl).2, rfl⟩⟩
    · obtain ⟨p', rfl, h1, -⟩ := rightProc_nat hr hp
      exact ⟨p', h1, Or.inl ⟨r, (left_of_right hr hp).2, rfl⟩⟩

/-- A message of the network is found by its key. -/
theorem matchRecv_of_mem {B : Type} {net : List (Msg B)} (hn : (net.map key).Nodup) {m : Msg B}
    (hm : m ∈ net) : matchRecv net m.src m.dst m.tag = some m.payload := by
  unfold matchRecv
  have hsome : (net.find? fun x => x.src = m.src ∧ x.dst = m.dst ∧ x.tag = m.tag).isSome := by
    rw [List.find?_isSome]; exact ⟨m, hm, by simp⟩
  obtain ⟨x, hx⟩ := Option.isSome_iff_exists.mp hsome
  have hxm := List.mem_of_find?_eq_some hx
  have hxp := List.find?_some hx
  simp only [decide_eq_true_eq] at hxp
  have : x = m := by
    apply List.inj_on_of_nodup_map hn hxm hm
    simp [key, hxp.1, hxp.2.1, hxp.2.2]
  rw [hx, this]; rfl

theorem exchangeDomains_left {B : Type} {c : Comm} {r l : ℕ} (a b : ℕ → B) (hr : r < c.size)
    (h : c.leftProc r = some (l : ℤ)) : (c.exchangeDomains a b r).1 = some (b l) := by
  obtain ⟨hl, hrl⟩ := right_of_left hr h
  have hm : (⟨l, r, 2, b l⟩ : Msg B) ∈ c.network a b := by
    simp only [network, List.mem_flatMap, List.mem_range]
    exact ⟨l, hl, by simp [postedSends, hrl]⟩
  have := matchRecv_of_mem (nodup_network_keys c a b) hm
  simp [exchangeDomains, h, this]

theorem exchangeDomains_right {B : Type} {c : Comm} {r p : ℕ} (a b : ℕ → B) (hr : r < c.size)
    (h : c.rightProc r = some (p : ℤ)) : (c.exchangeDomains a b r).2 = some (a p) := by
  obtain ⟨hl, hrl⟩ := left_of_right hr h
  have hm : (⟨p, r, 1, a p⟩ : Msg B) ∈ c.network a b := by
    simp only [network, List.mem_flatMap, List.mem_range]
    exact ⟨p, hl, by simp [postedSends, hrl]⟩
  have := matchRecv_of_mem (nodup_network_keys c a b) hm
  simp [exchangeDomains, h, this]

end Fbpic.Comm
