import Verif.Spec.KernelCache
import Mathlib.Data.List.Nodup

/-!
# C115: compiled kernels and their arguments
-/

namespace Fbpic

open KCache Spec

variable {κ : Type}

/-! ### The types of the arguments -/

/-- The list of which the hash is taken tells apart exactly the calls whose arguments differ in kind, dtype
or number of dimensions: putting all in one flat list loses nothing. -/
theorem C115_types : ∀ args args' : List Arg, types args = types args' ↔ sameTypes args args'
  | [], [] => by simp [types, sameTypes]
  | [], .array b :: r' => by simp [types, sameTypes]
  | [], .scalar d v :: r' => by simp [types, sameTypes]
  | .array a :: r, [] => by simp [types, sameTypes]
  | .scalar d v :: r, [] => by simp [types, sameTypes]
  | .array a :: r, .array b :: r' => by
    simp [types, sameTypes, C115_types r r']
  | .scalar d v :: r, .scalar d' v' :: r' => by
    simp [types, sameTypes, C115_types r r']
  | .array a :: r, .scalar d v :: r' => by
    cases r' with
    | nil => simp [types, sameTypes]
    | cons x r' => cases x <;> simp [types, sameTypes]
  | .scalar d v :: r, .array b :: r' => by
    cases r with
    | nil => simp [types, sameTypes]
    | cons x r => cases x <;> simp [types, sameTypes]

/-- Calls with arguments of the same kinds, dtypes and numbers of dimensions, and contiguous arrays, have the
same types for numba. -/
private theorem numba_of_same : ∀ args args' : List Arg, sameTypes args args' → Contiguous args → Contiguous args' →
    args.map numbaType = args'.map numbaType
  | [], [], _, _, _ => rfl
  | [], .array b :: r', h, _, _ => by simp [sameTypes] at h
  | [], .scalar d v :: r', h, _, _ => by simp [sameTypes] at h
  | .array a :: r, [], h, _, _ => by simp [sameTypes] at h
  | .scalar d v :: r, [], h, _, _ => by simp [sameTypes] at h
  | .array a :: r, .array b :: r', h, hc, hc' => by
    obtain ⟨h1, h2, h3⟩ := h
    have ih := numba_of_same r r' h3 (fun x hx => hc x (by simp [hx])) (fun x hx => hc' x (by simp [hx]))
    have ha := hc a (by simp)
    have hb := hc' b (by simp)
    simp only [List.map_cons, ih, numbaType, h1, h2, ha, hb]
  | .scalar d v :: r, .scalar d' v' :: r', h, hc, hc' => by
    obtain ⟨h1, h3⟩ := h
    have ih := numba_of_same r r' h3 (fun x hx => hc x (by simp [hx])) (fun x hx => hc' x (by simp [hx]))
    simp only [List.map_cons, ih, numbaType, h1]
  | .array a :: r, .scalar d v :: r', h, _, _ => by simp [sameTypes] at h
  | .scalar d v :: r, .array b :: r', h, _, _ => by simp [sameTypes] at h

/-! ### The dictionary of the compiled kernels -/

/-- What the dictionary holds: for each key the kernel of a call of the history; no key twice. -/
private structure Cached (hash : List Atom → ℤ) (compile : List NumbaType → κ) (hist : List (List Arg))
    (D : Deco κ) : Prop where
  spec : D.specialized = none
  dict : ∀ h k, D.dict.lookup h = some k → ∃ c ∈ hist, hash (types c) = h ∧ k = compile (c.map numbaType)
  keys : D.dict.map Prod.fst ⊆ hist.map fun c => hash (types c)
  nodup : (D.dict.map Prod.fst).Nodup

private theorem lookup_append {l : List (ℤ × κ)} {h h' : ℤ} {k k' : κ}
    (hl : (l ++ [(h', k')]).lookup h = some k) : l.lookup h = some k ∨ (h = h' ∧ k = k') := by
  induction l with
  | nil =>
    simp only [List.nil_append, List.lookup_cons] at hl
    by_cases hh : h = h'
    · right; simp [hh] at hl; exact ⟨hh, hl.symm⟩
    · have : (h == h') = false := by simpa using hh
      rw [this] at hl; simp at hl
  | cons x l ih =>
    obtain ⟨a, b⟩ := x
    rw [List.cons_append, List.lookup_cons] at hl
    rw [List.lookup_cons]
    by_cases hh : h = a
    · subst hh; left; simpa using hl
    · have : (h == a) = false := by simpa using hh
      rw [this] at hl ⊢
      exact ih hl

private theorem lookup_none {l : List (ℤ × κ)} {h : ℤ} (hl : l.lookup h = none) : h ∉ l.map Prod.fst := by
  induction l with
  | nil => simp
  | cons x l ih =>
    obtain ⟨a, b⟩ := x
    rw [List.lookup_cons] at hl
    by_cases hh : h = a
    · subst hh; simp at hl
    · have : (h == a) = false := by simpa using hh
      rw [this] at hl
      simp only [List.map_cons, List.mem_cons, not_or]
      exact ⟨hh, ih hl⟩

private theorem cached_call {hash : List Atom → ℤ} {compile : List NumbaType → κ} {hist : List (List Arg)}
    {D : Deco κ} (h : Cached hash compile hist D) (args : List Arg) :
    Cached hash compile (hist ++ [args]) (D.call hash compile args).1 := by
  unfold Deco.call
  rw [h.spec]
  rcases hl : D.dict.lookup (hash (types args)) with _ | k
  · refine ⟨rfl, fun h' k' hk => ?_, ?_, ?_⟩
    · rcases lookup_append hk with hk | ⟨rfl, rfl⟩
      · obtain ⟨c, hc, h1, h2⟩ := h.dict _ _ hk
        exact ⟨c, by simp [hc], h1, h2⟩
      · exact ⟨args, by simp, rfl, rfl⟩
    · simp only [List.map_append, List.map_cons, List.map_nil]
      intro x hx
      rcases List.mem_append.1 hx with hx | hx
      · exact List.mem_append_left _ (h.keys hx)
      · exact List.mem_append_right _ hx
    · simp only [List.map_append, List.map_cons, List.map_nil]
      refine List.Nodup.append h.nodup (by simp) ?_
      intro x hx hy
      simp only [List.mem_cons, List.not_mem_nil, or_false] at hy
      subst hy
      exact lookup_none hl hx
  · refine ⟨h.spec, fun h' k' hk => ?_, ?_, h.nodup⟩
    · obtain ⟨c, hc, h1, h2⟩ := h.dict _ _ hk
      exact ⟨c, by simp [hc], h1, h2⟩
    · intro x hx
      simp only [List.map_append]
      exact List.mem_append_left _ (h.keys hx)

private theorem cached_after (hash : List Atom → ℤ) (compile : List NumbaType → κ) : ∀ (cs hist : List (List Arg))
    (D : Deco κ), Cached hash compile hist D → Cached hash compile (hist ++ cs) (Deco.after hash compile cs D)
  | [], hist, D, h => by simpa [Deco.after] using h
  | c :: cs, hist, D, h => by
    have := cached_after hash compile cs (hist ++ [c]) _ (cached_call h c)
    simpa [Deco.after] using this

private theorem cached_init (hash : List Atom → ℤ) (compile : List NumbaType → κ) :
    Cached hash compile [] (Deco.init : Deco κ) :=
  ⟨rfl, fun h k hk => by simp [Deco.init] at hk, by simp [Deco.init], by simp [Deco.init]⟩

/-- After any sequence of calls, a call launches the kernel that numba compiles for the types of its own
arguments, provided that all arrays are contiguous and that the hash tells apart the types of the call from
other types that were used. It is launched with the arguments of the call. -/
theorem C115_kernel (hash : List Atom → ℤ) (compile : List NumbaType → κ) (hist : List (List Arg))
    (args : List Arg) (hc : ∀ c ∈ hist, Contiguous c) (ha : Contiguous args)
    (hh : ∀ c ∈ hist, hash (types c) = hash (types args) → types c = types args) :
    ((Deco.after hash compile hist Deco.init).call hash compile args).2
      = (compile (args.map numbaType), kernelArgs args) := by
  have h := cached_after hash compile hist [] _ (cached_init hash compile)
  rw [List.nil_append] at h
  unfold Deco.call
  rw [h.spec]
  rcases hl : (Deco.after hash compile hist Deco.init).dict.lookup (hash (types args)) with _ | k
  · rfl
  · obtain ⟨c, hcm, h1, h2⟩ := h.dict _ _ hl
    have := numba_of_same c args ((C115_types c args).1 (hh c hcm h1)) (hc c hcm) ha
    show (k, kernelArgs args) = _
    rw [h2, this]

/-- No two kernels are compiled for the same hash, so for arguments of the same types only one. -/
theorem C115_once (hash : List Atom → ℤ) (compile : List NumbaType → κ) (hist : List (List Arg)) :
    ((Deco.after hash compile hist (Deco.init : Deco κ)).dict.map Prod.fst).Nodup ∧
    (Deco.after hash compile hist (Deco.init : Deco κ)).dict.map Prod.fst ⊆ hist.map fun c => hash (types c) := by
  have h := cached_after hash compile hist [] _ (cached_init hash compile)
  rw [List.nil_append] at h
  exact ⟨h.nodup, h.keys⟩

/-- A kernel with an explicit signature is used for all calls. -/
theorem C115_specialized (hash : List Atom → ℤ) (compile : List NumbaType → κ) (k : κ) (hist : List (List Arg))
    (args : List Arg) (D : Deco κ) :
    ((Deco.after hash compile hist (D.specialize k)).call hash compile args).2 = (k, kernelArgs args) := by
  have : ∀ (cs : List (List Arg)) (D : Deco κ), D.specialized = some k →
      (Deco.after hash compile cs D).specialized = some k := by
    intro cs
    induction cs with
    | nil => intro D h; exact h
    | cons c cs ih =>
      intro D h
      refine ih _ ?_
      unfold Deco.call
      rw [h]
      exact h
  unfold Deco.call
  rw [this hist (D.specialize k) rfl]

/-! ### The arguments of the compiled kernel -/

/-- What a compiled kernel gets determines the arrays (address, shape, strides, size of the items) and the
scalars of the call: for given types nothing is lost or confused. -/
theorem C115_arguments : ∀ args args' : List Arg, WellFormed args → WellFormed args' → sameTypes args args' →
    kernelArgs args = kernelArgs args' → args = args'
  | [], [], _, _, _, _ => rfl
  | [], .array b :: r', _, _, h, _ => by simp [sameTypes] at h
  | [], .scalar d v :: r', _, _, h, _ => by simp [sameTypes] at h
  | .array a :: r, [], _, _, h, _ => by simp [sameTypes] at h
  | .scalar d v :: r, [], _, _, h, _ => by simp [sameTypes] at h
  | .array a :: r, .array b :: r', hw, hw', h, hk => by
    obtain ⟨h1, h2, h3⟩ := h
    have la := hw a (by simp)
    have lb := hw' b (by simp)
    simp only [kernelArgs, List.cons_append, List.nil_append, List.cons.injEq, KArg.int.injEq, KArg.ptr.injEq,
      true_and, List.append_assoc] at hk
    obtain ⟨-, hi, hp, hrest⟩ := hk
    have e1 := List.append_inj hrest (by simp [h2])
    have e2 := List.append_inj e1.2 (by simp [la, lb, h2])
    have es : a.shape = b.shape := by
      refine List.map_injective_iff.2 ?_ e1.1
      intro x y hxy
      have hxy' : KArg.int (x : ℤ) = KArg.int (y : ℤ) := hxy
      have := KArg.int.inj hxy'
      exact_mod_cast this
    have et : a.strides = b.strides := List.map_injective_iff.2 (fun x y hxy => KArg.int.inj hxy) e2.1
    have er := C115_arguments r r' (fun x hx => hw x (by simp [hx])) (fun x hx => hw' x (by simp [hx])) h3 e2.2
    have ea : a = b := by
      cases a; cases b
      simp only [CArr.mk.injEq]
      exact ⟨h1, by exact_mod_cast hi, hp, es, et⟩
    rw [ea, er]
  | .scalar d v :: r, .scalar d' v' :: r', hw, hw', h, hk => by
    obtain ⟨h1, h3⟩ := h
    simp only [kernelArgs, List.cons_append, List.nil_append, List.cons.injEq, KArg.value.injEq] at hk
    have er := C115_arguments r r' (fun x hx => hw x (by simp [hx])) (fun x hx => hw' x (by simp [hx])) h3 hk.2
    rw [h1, hk.1, er]
  | .array a :: r, .scalar d v :: r', _, _, h, _ => by simp [sameTypes] at h
  | .scalar d v :: r, .array b :: r', _, _, h, _ => by simp [sameTypes] at h

/-! ### Arrays that are not contiguous -/

/-- A contiguous array of four numbers of 8 bytes. -/
def rowArr : CArr := ⟨1, 8, 1000, [4], [8]⟩

/-- Every second item of an array of eight: the same dtype and number of dimensions. -/
def viewArr : CArr := ⟨1, 8, 2000, [4], [16]⟩

/-- **Violation.** The hash does not contain the layout of the arrays. If the first call has a contiguous
array and a later one a view with another stride, the kernel that was compiled for contiguous arrays is
launched, and it reads the items at wrong addresses; after a call with the view alone it would read the right
ones. (A kernel is represented by the types for which it was compiled.) -/
theorem C115_layout_violated (hash : List Atom → ℤ) :
    let k := ((Deco.after hash id [[.array rowArr]] Deco.init).call hash id [.array viewArr]).2.1
    let k0 := ((Deco.init : Deco (List NumbaType)).call hash id [.array viewArr]).2.1
    k ≠ k0 ∧ (k.map fun t => address t viewArr 1) = [2008] ∧ (k0.map fun t => address t viewArr 1) = [2016] := by
  have ht : types [.array viewArr] = types [.array rowArr] := rfl
  have e : ((Deco.after hash id [[.array rowArr]] Deco.init).call hash id [.array viewArr]).2.1
      = [numbaType (.array rowArr)] := by
    simp [Deco.after, Deco.call, Deco.init, ht]
  have e0 : ((Deco.init : Deco (List NumbaType)).call hash id [.array viewArr]).2.1 = [numbaType (.array viewArr)] := by
    simp [Deco.call, Deco.init]
  simp only [e, e0]
  decide

example : Contiguous [.array rowArr, .scalar 2 7] ∧ WellFormed [.array rowArr, .array viewArr] ∧
    ¬ Contiguous [.array viewArr] := by
  refine ⟨?_, ?_, ?_⟩
  · intro a ha
    simp at ha
    subst ha
    decide
  · intro a ha
    simp at ha
    rcases ha with rfl | rfl <;> decide
  · intro h
    exact absurd (h viewArr (by simp)) (by decide)

/-- A call with one array after a call with a scalar of the same dtype: another kernel. -/
example : types [.array rowArr] ≠ types [.scalar 1 3] := by decide

end Fbpic
