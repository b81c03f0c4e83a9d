import Verif.Proofs.Cache
import Verif.Packing
import Verif.Einsum

/-!
# Caches

`afterCalls rmax smax Caches.empty hist` is the state of the two caches, with `rmax` and `smax` entries at most (256 and
1024 in einops), after the calls `hist`, and `cachedCall` the outcome of a further call.  `runSchedule` is the state
after an interleaving of atomic actions of any number of threads.
-/

namespace Einops

universe u

section
variable {α : Type u} [PyUnicode]

/-! ### C20 -/

/-- **C20** If a call would return `y` without caches, it returns `y` after any history of calls. -/
theorem C20_success (rmax smax : Nat) (hist : List (Call α)) (c : Call α) (hell : '…' ∉ c.pattern)
    (hnd : (c.kw.map Prod.fst).Nodup) {so : SetOrder} {y : Tensor α}
    (h : reduce c.backend so c.input c.pattern c.red c.kw = .ok y) :
    (cachedCall rmax smax (afterCalls rmax smax .empty hist) c).1 = .ok y :=
  (cachedCall_good (ints := False) (afterCalls_good .empty (fun h => h.elim)) (fun h => h.elim)).2.ok hell hnd h

/-- **C20**, partial: the outcome, including exceptions, is the same after any history of calls, provided the sizes passed
in the history and now are Python ints (or unhashable, like symbols of some frameworks).  `C20_numpy_size` shows what
happens otherwise; by `C20_success` it can only happen to calls that would fail. -/
theorem C20_outcome_partial (rmax smax : Nat) (hist : List (Call α)) (hh : ∀ c ∈ hist, c.Ints) (c : Call α) (hc : c.Ints)
    (hell : '…' ∉ c.pattern) (hnd : (c.kw.map Prod.fst).Nodup) (so : SetOrder) :
    (cachedCall rmax smax (afterCalls rmax smax .empty hist) c).1 =
      reduce c.backend so c.input c.pattern c.red c.kw :=
  (cachedCall_good (ints := True) (afterCalls_good .empty (fun _ => hh)) (fun _ => hc)).2.eq trivial hell hnd so

/-- After any history the caches hold no more entries than allowed. -/
theorem C20_bounded (rmax smax : Nat) (hist : List (Call α)) :
    (afterCalls rmax smax .empty hist).recipes.length ≤ rmax ∧ (afterCalls rmax smax .empty hist).shapes.length ≤ smax :=
  afterCalls_bounded ⟨by simp [Caches.empty], by simp [Caches.empty]⟩ hist

omit [PyUnicode] in
/-- A function of one argument through `lru_cache` returns what it returns without, after any history of arguments. -/
theorem C20_lru {κ ν : Type} [DecidableEq κ] (max : Nat) (f : κ → Py ν) (hist : List κ) (k : κ) :
    (lruCall max f (hist.foldl (fun d k => (lruCall max f d k).2) []) k).1 = f k := by
  have : ∀ (hist : List κ) (d : List (κ × ν)), (∀ p ∈ d, f p.1 = .ok p.2) →
      ∀ p ∈ hist.foldl (fun d k => (lruCall max f d k).2) d, f p.1 = .ok p.2 := by
    intro hist
    induction hist with
    | nil => exact fun d h => h
    | cons k hist ih => exact fun d h => ih _ (lruCall_correct h k).2
  exact (lruCall_correct (this hist [] (fun p hp => by cases hp)) k).1

/-- `analyze_pattern` and `_compactify_pattern_for_einsum`, with their caches of 128 and 256 entries. -/
theorem C20_pattern_caches (hist : List (Str × Str)) (pattern opname : Str) (hist' : List Str) :
    (lruCall 128 (fun k : Str × Str => analyzePattern k.1)
        (hist.foldl (fun d k => (lruCall 128 (fun k : Str × Str => analyzePattern k.1) d k).2) []) (pattern, opname)).1 =
      analyzePattern pattern ∧
    (lruCall 256 compactify (hist'.foldl (fun d k => (lruCall 256 compactify d k).2) []) pattern).1 = compactify pattern :=
  ⟨C20_lru 128 _ hist (pattern, opname), C20_lru 256 _ hist' pattern⟩

/-! ### C21 -/

/-- **C21** Whatever the schedule: if a thread's call would return `y` alone and without caches, then it finishes with
`y`, if it has finished. -/
theorem C21_success (rmax smax : Nat) (s : List (Action α)) (i : Nat) (c : Call α) (o : Py (Tensor α))
    (hi : (runSchedule rmax smax Machine.start s).task i = some (.finished c o)) (hell : '…' ∉ c.pattern)
    (hnd : (c.kw.map Prod.fst).Nodup) {so : SetOrder} {y : Tensor α}
    (h : reduce c.backend so c.input c.pattern c.red c.kw = .ok y) : o = .ok y :=
  Right.ok (ints := False) ((runSchedule_good .start (fun h => h.elim)).tasks i _ hi) hell hnd h

/-- **C21**, partial: if all sizes are Python ints, every finished call has the outcome, including exceptions, it has
alone and without caches.  (`C21_numpy_size`: calls that fail alone, and sizes that are not ints.) -/
theorem C21_outcome_partial (rmax smax : Nat) (s : List (Action α)) (hs : ∀ i c, Action.call i c ∈ s → c.Ints) (i : Nat)
    (c : Call α) (o : Py (Tensor α)) (hi : (runSchedule rmax smax Machine.start s).task i = some (.finished c o))
    (hell : '…' ∉ c.pattern) (hnd : (c.kw.map Prod.fst).Nodup) (so : SetOrder) :
    o = reduce c.backend so c.input c.pattern c.red c.kw :=
  Right.eq (ints := True) ((runSchedule_good .start (fun _ => hs)).tasks i _ hi) trivial hell hnd so

/-- **C21** The caches never hold more entries than allowed. -/
theorem C21_bounded (rmax smax : Nat) (s : List (Action α)) :
    (runSchedule rmax smax Machine.start s).caches.recipes.length ≤ rmax ∧
      (runSchedule rmax smax Machine.start s).caches.shapes.length ≤ smax :=
  runSchedule_bounded ⟨by simp [Machine.start, Caches.empty], by simp [Machine.start, Caches.empty]⟩ s

/-- A thread that is not inside a call can enter one, and has finished it after three more actions of its own, whatever
the others do. -/
theorem C21_progress (rmax smax : Nat) (before s : List (Action α)) (i : Nat) (c : Call α)
    (hfree : ∀ t, (runSchedule rmax smax Machine.start before).task i = some t → ∃ c o, t = .finished c o)
    (hs : ∀ c, Action.call i c ∉ s) (h3 : 3 ≤ s.countP (Action.isGo i)) :
    ∃ o, (runSchedule rmax smax Machine.start (before ++ .call i c :: s)).task i = some (.finished c o) := by
  have hidle : idle ((runSchedule rmax smax Machine.start before).task i) = true := by
    cases ht : (runSchedule rmax smax Machine.start before).task i with
    | none => rfl
    | some t =>
      obtain ⟨c, o, rfl⟩ := hfree t ht
      rfl
  have e : runSchedule rmax smax Machine.start (before ++ .call i c :: s) =
      runSchedule rmax smax (enter (runSchedule rmax smax Machine.start before) i c) s := by
    unfold runSchedule at *
    rw [List.foldl_append, List.foldl_cons]
    simp only [act, hidle, if_true]
  rw [e]
  obtain ⟨t, h1, h2, h4⟩ := enter_self (runSchedule rmax smax Machine.start before) i c
  obtain ⟨t', h5, h6, h7⟩ := runSchedule_progress (rmax := rmax) (smax := smax) hs h1
  have h8 : t'.left = 0 := by omega
  cases t' with
  | finished c' o =>
    have : c' = c := h6.trans h2
    exact ⟨o, by rw [h5, this]⟩
  | preparing c' x => cases h8
  | prepared c' x id => cases h8
  | cooking c' x id => cases h8

end

/-! ### Examples and witnesses -/

section
attribute [local instance] asciiUnicode

/-- six numbers -/
def x6 : Tensor Int := ⟨[6], [0, 1, 2, 3, 4, 5], rfl⟩

/-- `rearrange(x, pattern, **kw)` -/
def callRearrange (x : Tensor Int) (pattern : String) (kw : List (Str × Size)) : Call Int :=
  ⟨numpyBackend intOps true, idOrder, .one x, pattern.toList, .name "rearrange".toList, 0, kw, true⟩

-- caches of one entry each: the second call evicts the entries of the first one, and the third computes anew
example : (cachedCall 1 1 (afterCalls 1 1 .empty [callRearrange t23 "a b -> b a" [], callRearrange x6 "(a b) -> b a" [kwInt "a" 2]])
      (callRearrange t23 "a b -> b a" [])).1 = .ok ⟨[3, 2], [0, 3, 1, 4, 2, 5], rfl⟩ := by rfl
-- a hit in both caches
example : (afterCalls 256 1024 .empty [callRearrange t23 "a b -> b a" [], callRearrange t23 "a b -> b a" []]).heap.length = 1 := by
  decide
example : (callRearrange x6 "(a b) -> b a" [kwInt "a" 2]).Ints := by
  intro _ p hp
  simp only [callRearrange, List.mem_singleton] at hp
  subst hp
  rfl

/-- **C20** is false for sizes that are numpy integers: `rearrange(x, 'a -> a', a=np.int64(4))` on a tensor of length 6
is not checked and returns `x`; afterwards `rearrange(x, 'a -> a', a=4)` finds this in the cache and returns `x` as well,
although it raises EinopsError otherwise. -/
theorem C20_numpy_size :
    (cachedCall 256 1024 (afterCalls 256 1024 .empty [callRearrange x6 "a -> a" [("a".toList, ⟨4, false⟩)]])
      (callRearrange x6 "a -> a" [("a".toList, ⟨4, true⟩)])).1 = .ok x6 ∧
    (cachedCall 256 1024 .empty (callRearrange x6 "a -> a" [("a".toList, ⟨4, true⟩)])).1 = .error .einops := by
  constructor <;> rfl

/-- the same with two threads -/
theorem C21_numpy_size :
    ((runSchedule 256 1024 Machine.start [.call 0 (callRearrange x6 "a -> a" [("a".toList, ⟨4, false⟩)]), .go 0, .go 0, .go 0,
      .call 1 (callRearrange x6 "a -> a" [("a".toList, ⟨4, true⟩)]), .go 1]).task 1).map
        (fun t => match t with | .finished _ o => o | _ => .error .runtime) = some (.ok x6) := by rfl

-- two threads that both miss both caches with the same call: both finish, one recipe is in the cache
example :
    let m := runSchedule 256 1024 Machine.start [.call 0 (callRearrange t23 "a b -> b a" []),
      .call 1 (callRearrange t23 "a b -> b a" []), .go 0, .go 1, .go 0, .go 1, .go 0, .go 1]
    m.caches.heap.length = 2 ∧ m.caches.recipes.length = 1 ∧ m.caches.shapes.length = 2 := by decide
example :
    ((runSchedule 256 1024 Machine.start [.call 0 (callRearrange t23 "a b -> b a" []),
      .call 1 (callRearrange t23 "a b -> b a" []), .go 0, .go 1, .go 0, .go 1, .go 0, .go 1]).task 1).map
        (fun t => match t with | .finished _ o => o | _ => .error .runtime) =
      some (.ok ⟨[3, 2], [0, 3, 1, 4, 2, 5], rfl⟩) := by rfl
-- the same thread makes a second call
example :
    ((runSchedule 256 1024 Machine.start [.call 0 (callRearrange t23 "a b -> b a" []), .go 0, .go 0, .go 0,
      .call 0 (callRearrange x6 "(a b) -> b a" [kwInt "a" 2]), .go 0, .go 0, .go 0]).task 0).map
        (fun t => match t with | .finished _ o => o | _ => .error .runtime) =
      some (.ok ⟨[3, 2], [0, 3, 1, 4, 2, 5], rfl⟩) := by rfl

end

end Einops
