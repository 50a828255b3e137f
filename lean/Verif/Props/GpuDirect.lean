import Verif.Spec.GpuDirect
import Verif.Props.FieldExchange

/-!
# C128: exchange of fields with GPUDirect
-/

namespace Fbpic

open GpuDirect Spec.GpuDirect

/-- **C128** (activation): GPUDirect is used exactly if MPI is installed, the environment variable has the value 1 and mpi4py is at least
version 3.1; with an older version, the import ends with an exception. -/
theorem C128_enabled_iff (inst : Bool) (var : Option (Option ℤ)) (major minor : ℕ) :
    (gpudirectEnabled inst var major minor = .ok true ↔ inst = true ∧ var = some (some 1) ∧ RecentMpi4py major minor) ∧
    ((∃ msg, gpudirectEnabled inst var major minor = .error (.runtimeError msg)) ↔
      inst = true ∧ var = some (some 1) ∧ ¬ RecentMpi4py major minor) ∧
    ((∃ msg, gpudirectEnabled inst var major minor = .error (.valueError msg)) ↔ inst = true ∧ var = some none) := by
  unfold gpudirectEnabled RecentMpi4py
  cases inst with
  | false => simp
  | true =>
    match var with
    | none => simp
    | some none => simp
    | some (some v) =>
      by_cases hv : v = 1
      · subst hv
        by_cases h1 : major < 4
        · by_cases h2 : major < 3 ∨ minor < 1
          · have hr : ¬ (3 < major ∨ (major = 3 ∧ 1 ≤ minor)) := by omega
            simp only [if_true, if_pos h1, if_pos h2, hr]
            simp
          · have hr : 3 < major ∨ (major = 3 ∧ 1 ≤ minor) := by omega
            simp only [if_true, if_pos h1, if_neg h2, hr]
            simp
        · have hr : 3 < major ∨ (major = 3 ∧ 1 ≤ minor) := by omega
          simp only [if_true, if_neg h1, hr]
          simp
      · simp [hv]

/-- Versions 3.0 (exception), 3.1 and 4.0. -/
example : gpudirectEnabled true (some (some 1)) 3 1 = .ok true ∧ gpudirectEnabled true (some (some 1)) 4 0 = .ok true ∧
    gpudirectEnabled true (some (some 0)) 3 0 = .ok false ∧ RecentMpi4py 4 0 ∧ ¬ RecentMpi4py 3 0 := by
  refine ⟨rfl, rfl, rfl, ?_, ?_⟩ <;> unfold RecentMpi4py <;> omega

variable {A : Type} [Inhabited A] [Add A]

omit [Inhabited A] in
private theorem recv_congr (meth : XMethod) (w nf N : ℕ) (a a' b b' : Option (ℕ → ℕ → A)) (f : ℕ → ℕ → ℕ → A) (m k row : ℕ)
    (ha : a.map (· (nf * m + k)) = a'.map (· (nf * m + k))) (hb : b.map (· (nf * m + k)) = b'.map (· (nf * m + k))) :
    recvRight meth w nf N b (recvLeft meth w nf a f) m k row = recvRight meth w nf N b' (recvLeft meth w nf a' f) m k row := by
  have h1 : recvLeft meth w nf a f m k row = recvLeft meth w nf a' f m k row := by
    cases a <;> cases a' <;> simp only [Option.map_none, Option.map_some, Option.some.injEq, reduceCtorEq] at ha
    · rfl
    · simp only [recvLeft, ha]
  cases b <;> cases b' <;> simp only [Option.map_none, Option.map_some, Option.some.injEq, reduceCtorEq] at hb
  · exact h1
  · simp only [recvRight, hb, h1]

private theorem left_nat (c : Comm) (r : ℕ) (hr : r < c.size) :
    c.leftProc r = none ∨ ∃ l : ℕ, c.leftProc r = some (l : ℤ) ∧ (c.rightProc l).isSome = true := by
  unfold Comm.leftProc Comm.rightProc
  cases c.bz with
  | periodic =>
    right
    by_cases h : r = 0
    · refine ⟨c.size - 1, ?_, ?_⟩
      · simp only [if_pos h]; congr 1; omega
      · simp only; split <;> rfl
    · refine ⟨r - 1, ?_, ?_⟩
      · simp only [if_neg h]; congr 1; omega
      · simp only; split <;> rfl
  | opened =>
    by_cases h : r = 0
    · left; simp [h]
    · right
      refine ⟨r - 1, ?_, ?_⟩
      · simp only [if_neg h]; congr 1; omega
      · simp only [if_neg (show ¬ r - 1 + 1 = c.size by omega)]; rfl

private theorem right_nat (c : Comm) (r : ℕ) (hr : r < c.size) :
    c.rightProc r = none ∨ ∃ p : ℕ, c.rightProc r = some (p : ℤ) ∧ (c.leftProc p).isSome = true := by
  unfold Comm.leftProc Comm.rightProc
  cases c.bz with
  | periodic =>
    right
    by_cases h : r + 1 = c.size
    · exact ⟨0, by simp [h], by simp⟩
    · refine ⟨r + 1, ?_, ?_⟩
      · simp only [if_neg h]; push_cast; rfl
      · simp
  | opened =>
    by_cases h : r + 1 = c.size
    · left; simp [h]
    · right
      refine ⟨r + 1, ?_, ?_⟩
      · simp only [if_neg h]; push_cast; rfl
      · simp

/-- **C128** (same result): the exchange gives the same fields with and without GPUDirect on the GPU, and without GPUDirect on the CPU,
whatever earlier exchanges left in the buffers. -/
theorem C128_same (M : Machine) (hM : M.useCuda = true → M.cuda = true) (hd : M.direct = true → M.useCuda = true) (c : Comm)
    (meth : XMethod) (nf Nm : ℕ) (N : ℕ → ℕ) (hg : c.size = 1 ∨ 0 < c.nGuard) (F : RankFields A) (s : ℕ → Mem (ℕ → ℕ → A)) :
    SameAsCpu M c meth nf Nm N F s := by
  unfold SameAsCpu exchange exchangeFields
  by_cases h1 : c.size = 1
  · rw [if_pos h1, if_pos h1]
    exact ⟨F, s, F, rfl, rfl, fun _ _ _ _ _ _ _ => rfl⟩
  have hg0 : c.nGuard ≠ 0 := by omega
  have hcuda : (M.direct && !M.cuda) = false := by
    cases h : M.direct with
    | false => rfl
    | true => simp [hM (hd h)]
  rw [if_neg h1, if_neg h1]
  simp only [hcuda, Bool.false_eq_true, if_false, if_neg hg0]
  refine ⟨_, _, _, rfl, rfl, fun r hr m hm k hk row => ?_⟩
  apply recv_congr
  · rcases left_nat c r hr with h | ⟨l, h, hl⟩
    · simp [h, Comm.exchangeDomains]
    · rw [Comm.exchangeDomains_left _ _ hr h]
      have e : ∀ old, packR c meth nf Nm N F l old (nf * m + k) = sendR c meth nf Nm N F l (nf * m + k) := by
        intro old
        unfold packR sendR
        rw [packBuf_apply nf _ _ k hk Nm m hm, packBuf_apply nf _ _ k hk Nm m hm]
      obtain ⟨cu, u, d⟩ := M
      cases u <;> cases d <;> simp [h, hl, used, afterReceiving, receive, pointers, beforeSending, copySend, copyRecv, Bufs.fill,
        Comm.exchangeDomains_left _ _ hr h, e] at hd ⊢
  · rcases right_nat c r hr with h | ⟨p, h, hp⟩
    · simp [h, Comm.exchangeDomains]
    · rw [Comm.exchangeDomains_right _ _ hr h]
      have e : ∀ old, packL c meth nf Nm F p old (nf * m + k) = sendL c meth nf Nm F p (nf * m + k) := by
        intro old
        unfold packL sendL
        rw [packBuf_apply nf _ _ k hk Nm m hm, packBuf_apply nf _ _ k hk Nm m hm]
      obtain ⟨cu, u, d⟩ := M
      cases u <;> cases d <;> simp [h, hp, used, afterReceiving, receive, pointers, beforeSending, copySend, copyRecv, Bufs.fill,
        Comm.exchangeDomains_right _ _ hr h, e] at hd ⊢

omit [Inhabited A] in
/-- **C128** (CPU without CUDA): if GPUDirect is enabled and CUDA is not installed, every exchange between several ranks ends with
`NameError`. -/
theorem C128_nocuda_violated (M : Machine) (hd : M.direct = true) (hc : M.cuda = false) (c : Comm) (hs : c.size ≠ 1)
    (meth : XMethod) (nf Nm : ℕ) (N : ℕ → ℕ) (F : RankFields A) (s : ℕ → Mem (ℕ → ℕ → A)) :
    exchange M c meth nf Nm N F s = .error (.nameError "cuda") := by
  unfold exchange
  rw [if_neg hs]
  simp [hd, hc]

omit [Inhabited A] in
/-- **C128** (CPU with CUDA installed): if GPUDirect is enabled and the simulation runs on the CPU, the guard cells at the side of a
neighbour are replaced by what is in the receiving buffers of the CPU, which no exchange ever writes; nothing of the neighbour arrives. -/
theorem C128_stale_violated (M : Machine) (hd : M.direct = true) (hu : M.useCuda = false) (hc : M.cuda = true) (c : Comm)
    (hs : c.size ≠ 1) (hg : 0 < c.nGuard) (nf Nm : ℕ) (N : ℕ → ℕ) (F : RankFields A) (s : ℕ → Mem (ℕ → ℕ → A)) :
    ∃ F' s', exchange M c .replace nf Nm N F s = .ok (F', s') ∧
      (∀ r, (s' r).cpu.recvL = (s r).cpu.recvL ∧ (s' r).cpu.recvR = (s r).cpu.recvR) ∧
      (∀ r m k row, (c.leftProc r).isSome = true → row < c.nGuard → 2 * c.nGuard ≤ N r →
        F' r m k row = (s r).cpu.recvL (nf * m + k) row) ∧
      ∀ r m k row, (c.rightProc r).isSome = true → N r - c.nGuard ≤ row → row < N r →
        F' r m k row = (s r).cpu.recvR (nf * m + k) (row - (N r - c.nGuard)) := by
  unfold exchange
  have hg0 : c.nGuard ≠ 0 := by omega
  have hw : (XMethod.replace.zone c.nGuard).2 - (XMethod.replace.zone c.nGuard).1 = c.nGuard := by
    simp [XMethod.zone]; omega
  rw [if_neg hs]
  simp only [hd, hc, hw, Bool.not_true, Bool.and_false, Bool.false_eq_true, if_false, if_neg hg0]
  refine ⟨_, _, rfl, fun r => ?_, fun r m k row hl hrow hN => ?_, fun r m k row hp h1 h2 => ?_⟩
  · simp [afterReceiving, receive, beforeSending, Bufs.fill, hd, hu]
  · rw [recvRight_of_not _ _ (by omega)]
    simp [recvLeft, hl, hrow, used, afterReceiving, receive, beforeSending, Bufs.fill, hd, hu]
  · simp [recvRight, hp, h1, h2, used, afterReceiving, receive, beforeSending, Bufs.fill, hd, hu]

/-- **C128** (condition): with several ranks, the exchange is right for all fields and all contents of the buffers if and only if GPUDirect is
disabled or the simulation runs on the GPU. -/
theorem C128_iff [Nontrivial A] (M : Machine) (hM : M.useCuda = true → M.cuda = true) (c : Comm) (hs : 1 < c.size)
    (hg : 0 < c.nGuard) (nf Nm : ℕ) (hnf : 0 < nf) (hNm : 0 < Nm) (N : ℕ → ℕ) (hN : ∀ r < c.size, 4 * c.nGuard ≤ N r) :
    (∀ (F : RankFields A) s, SameAsCpu M c .replace nf Nm N F s) ↔ (M.direct = true → M.useCuda = true) := by
  refine ⟨fun h hd => ?_, fun hd F s => C128_same M hM hd c .replace nf Nm N (Or.inr hg) F s⟩
  by_contra hu
  rw [Bool.not_eq_true] at hu
  obtain ⟨x, y, hxy⟩ := exists_pair_ne A
  let b : Bufs (ℕ → ℕ → A) := ⟨fun _ _ => y, fun _ _ => y, fun _ _ => y, fun _ _ => y⟩
  obtain ⟨F', s', G, h1, h2, h3⟩ := h (fun _ _ _ _ => x) (fun _ => ⟨b, b⟩)
  cases hc : M.cuda with
  | false =>
    rw [C128_nocuda_violated M hd hc c (by omega)] at h1
    cases h1
  | true =>
    obtain ⟨F2, s2, g1, -, g2, -⟩ := C128_stale_violated M hd hu hc c (by omega) hg nf Nm N (fun _ _ _ _ => x) (fun _ => ⟨b, b⟩)
    rw [h1] at g1
    cases g1
    have hl : c.leftProc 1 = some ((0 : ℕ) : ℤ) := by
      unfold Comm.leftProc
      cases c.bz <;> simp
    have e1 := g2 1 0 0 0 (by rw [hl]; rfl) hg (by have := hN 1 hs; omega)
    have e2 := (exchange_replace_eq h2 (by omega) hs hNm hnf (hN 1 hs) (j := 0) (by have := hN 1 hs; omega)).1 0 hl hg
    rw [h3 1 hs 0 hNm 0 hnf 0, e2] at e1
    exact hxy e1

/-- Two ranks with two guard cells, fields `10*rank + row`, buffers full of `77`: on the GPU with GPUDirect the first guard cell of rank 0 holds
the value of rank 1, on the CPU it holds `77`. -/
example : (let b : Bufs (ℕ → ℕ → ℤ) := ⟨fun _ _ => 77, fun _ _ => 77, fun _ _ => 77, fun _ _ => 77⟩
    let f (M : Machine) := (exchange M exComm2 .replace 3 1 exLayout.N (fun r _ _ j => 10 * (r : ℤ) + j) fun _ => ⟨b, b⟩)
    ((f ⟨true, true, true⟩).toOption.map fun x => (x.1 0 0 2 0, x.1 0 0 2 7), (f ⟨true, false, true⟩).toOption.map fun x => (x.1 0 0 2 0, x.1 0 0 2 2))) =
      (some (14, 13), some (77, 2)) := by decide +kernel

end Fbpic
