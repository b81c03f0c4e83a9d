import Verif.Proofs.GraphCache
import Verif.Props.Graph

/-!
# The caches in graph mode

`afterTraces noneHash rmax smax GCaches.empty hist` is the state of the caches after the calls `hist`, eager or while
building graphs, and `gCall` the outcome of a further call.
-/

namespace Einops

universe u

section
variable {α : Type u} [PyUnicode] {σ : Nat → Int} {noneHash : Int}

/-- whether a graph is refused, and with which exception, does not depend on the order of sets -/
theorem trace_error_order {pattern : Str} (hell : '…' ∉ pattern) {op : OpKind} {shape : List GSize} {kw : List (Str × GSize)}
    (hnd : (kw.map Prod.fst).Nodup) (hs : .unknown ∉ shape) (hk : ∀ p ∈ kw, p.2 ≠ .unknown) (so so' : SetOrder) {e : PyErr}
    (h : traceCall so pattern op shape kw = .error e) : traceCall so' pattern op shape kw = .error e := by
  unfold traceCall at h ⊢
  by_cases hp : ∃ GL GR, IsPattern pattern GL GR
  swap
  · rcases prepare_bad hell hp op (kw.map Prod.fst) shape.length with ⟨_, heq⟩ | ⟨_, heq⟩ <;>
    · rw [heq] at h ⊢; exact h
  obtain ⟨GL, GR, hp⟩ := hp
  rcases prepare_cases hp op (kw.map Prod.fst) shape.length with ⟨ex, wf, hpr, hn, heq⟩ | ⟨_, heq⟩
  swap
  · rw [heq] at h ⊢; exact h
  rw [heq] at h ⊢
  simp only at h ⊢
  have hsS : List.Forall₂ (GSize.Exact fun _ => 0) (shape.map (GSize.size fun _ => 0)) shape := by
    rw [List.forall₂_map_left_iff, List.forall₂_same]
    exact fun g hg => GSize.exact_size fun e => hs (e ▸ hg)
  have hkS : List.Forall₂ (fun p q => p.1 = q.1 ∧ GSize.Exact (fun _ => 0) p.2 q.2)
      (kw.map fun p => (p.1, GSize.size (fun _ => 0) p.2)) kw := by
    rw [List.forall₂_map_left_iff, List.forall₂_same]
    exact fun p hp => ⟨rfl, GSize.exact_size (hk p hp)⟩
  have hnames : (kw.map fun p => (p.1, GSize.size (fun _ => 0) p.2)).map Prod.fst = kw.map Prod.fst := by
    rw [List.map_map]; rfl
  obtain ⟨_, _, _, _, hlen⟩ := hpr.groups
  have key : ∃ o, ∀ so, reconstruct (recipeOf so ex (kw.map Prod.fst)) (shape.map (GSize.size fun _ => 0))
        (kw.map fun p => (p.1, GSize.size (fun _ => 0) p.2)) = o := by
    refine ⟨match firstErr (kw.map fun p => (p.1, GSize.size (fun _ => 0) p.2)) ex.left (shape.map (GSize.size fun _ => 0)) with
      | some e => .error e
      | none => .ok (cookedOf ex (kw.map fun p => (p.1, GSize.size (fun _ => 0) p.2)) (shape.map (GSize.size fun _ => 0))),
      fun so => ?_⟩
    have := reconstruct_recipeOf so ex wf (kw.map fun p => (p.1, GSize.size (fun _ => 0) p.2))
      (shape.map (GSize.size fun _ => 0)) (by rw [hnames]; exact hnd) (by rw [hnames]; exact hn)
      (by rw [hnames]; exact hpr.unknowns) (by rw [List.length_map, hlen])
    rw [hnames] at this
    exact this
  obtain ⟨o, key⟩ := key
  have b1 := reconstruct_both (recipeOf so ex (kw.map Prod.fst)) hsS hkS
  have b2 := reconstruct_both (recipeOf so' ex (kw.map Prod.fst)) hsS hkS
  rw [key, h] at b1
  rw [key] at b2
  generalize reconstructG (recipeOf so' ex (kw.map Prod.fst)) shape kw = o' at b2 ⊢
  cases b1
  cases b2
  rfl

/-! ### C62 -/

/-- **C62** After any history of calls, building a graph gives what it gives without caches (for some order of sets). -/
theorem C62_history (rmax smax : Nat) (hist : List GCall) (c : GCall) (hn : ∀ c' ∈ c :: hist, c'.Apart noneHash)
    (ho : OneObject (c :: hist)) :
    ∃ so, (gCall noneHash rmax smax (afterTraces noneHash rmax smax .empty hist) c).1 =
      traceCall so c.pattern c.kind c.shape.sizes c.kw :=
  (gCall_good (afterTraces_good .empty hn ho fun c hc => List.mem_cons_of_mem _ hc) hn ho List.mem_cons_self).2

/-- **C62** After any history of calls: a graph is built for every call that returns for some tensor, and it computes the
result for this tensor, whatever symbols the earlier graphs had. -/
theorem C62_graph (rmax smax : Nat) (hist : List GCall) (c : GCall) (hn : ∀ c' ∈ c :: hist, c'.Apart noneHash)
    (ho : OneObject (c :: hist)) (hell : '…' ∉ c.pattern) {kw : List (Str × Size)} (hkw : IntKw kw) {x y : Tensor α}
    (hs : Reports σ x.shape c.shape.sizes) (hk : Denotes σ kw c.kw) {b : Backend α} {red : Reduction α}
    (hred : red.kind = c.kind) {so : SetOrder} (h : reduce b so (.one x) c.pattern red kw = .ok y) :
    ∃ g, (gCall noneHash rmax smax (afterTraces noneHash rmax smax .empty hist) c).1 = .ok g ∧
      runGraph b g red σ x = .ok y := by
  obtain ⟨so', he⟩ := C62_history rmax smax hist c hn ho
  rw [C08_hash_order hell hkw.nodup b _ red so so'] at h
  obtain ⟨g, h1, h2⟩ := graph_of_ok so' hkw.int hs hk h
  exact ⟨g, by rw [he, ← hred, h1], h2⟩

/-- **C62** After any history of calls: a graph is refused with the exception with which it is refused without caches. -/
theorem C62_exceptions (rmax smax : Nat) (hist : List GCall) (c : GCall) (hn : ∀ c' ∈ c :: hist, c'.Apart noneHash)
    (ho : OneObject (c :: hist)) (hell : '…' ∉ c.pattern) (hnd : (c.kw.map Prod.fst).Nodup)
    (hs : .unknown ∉ c.shape.sizes) (hk : ∀ p ∈ c.kw, p.2 ≠ .unknown) (so : SetOrder) (e : PyErr) :
    (gCall noneHash rmax smax (afterTraces noneHash rmax smax .empty hist) c).1 = .error e ↔
      traceCall so c.pattern c.kind c.shape.sizes c.kw = .error e := by
  obtain ⟨so', he⟩ := C62_history rmax smax hist c hn ho
  rw [he]
  exact ⟨trace_error_order hell hnd hs hk so' so, trace_error_order hell hnd hs hk so so'⟩

/-- **C62** Sizes with a symbol that cannot be hashed never enter the cache of shapes, neither as sizes of the tensor nor as
keyword sizes. -/
theorem C62_unhashable (rmax smax : Nat) (st : GCaches) (c : GCall) (hs : c.symHash = false)
    (h : (∃ l s, c.shape = .tuple l ∧ .sym s ∈ l) ∨ ∃ n s, (n, .sym s) ∈ c.kw) :
    (gCall noneHash rmax smax st c).2.shapes = st.shapes := by
  have hh : c.hashable = false := by
    unfold GCall.hashable
    rw [Bool.and_eq_false_iff]
    rcases h with ⟨l, s, hl, hm⟩ | ⟨n, s, hm⟩
    · left; rw [hl]; exact List.all_eq_false.2 ⟨_, hm, by simp [GSize.hashable, hs]⟩
    · right; exact List.all_eq_false.2 ⟨_, hm, by simp [GSize.hashable, hs]⟩
  have hp : (gPrepare rmax st c).2.shapes = st.shapes := by
    unfold gPrepare
    simp only
    split
    · rfl
    · split <;> rfl
  unfold gCall
  generalize gPrepare rmax st c = p at hp
  rcases p with ⟨_ | id, st'⟩
  · exact hp
  · simp only [gCook, hh]
    rw [← hp]
    split <;> rfl

end

/-! ### Examples -/

section
attribute [local instance] asciiUnicode

/-- `rearrange` while a graph is built -/
def traceOf (pattern : String) (shape : GShape) (kw : List (Str × GSize)) (symHash : Bool) : GCall :=
  ⟨idOrder, pattern.toList, .name "rearrange".toList, shape, kw, symHash⟩

/-- the hash of `None` in CPython since 3.12 -/
def hashNone : Int := 4238894112

-- tensorflow: the shapes of two tensors are two objects; the second graph has its own symbols
example : (gCall hashNone 256 1024
      (afterTraces hashNone 256 1024 .empty [traceOf "(a b) -> a b" (.wrapped 0 [.sym (.var 0)]) [("a".toList, .int 2)] false])
      (traceOf "(a b) -> a b" (.wrapped 1 [.sym (.var 1)]) [("a".toList, .int 2)] false)).1 =
    .ok ⟨some [.int 2, .sym (.fdiv (.var 1) (.int 2))], none, [], [], none, 2⟩ := by decide +kernel
-- pytensor: tuples of symbols that are compared by identity; the recipe is shared, the sizes are not
example :
    let st := afterTraces hashNone 256 1024 .empty
      [traceOf "(a b) -> a b" (.tuple [.sym (.var 0)]) [("a".toList, .int 2)] true,
        traceOf "(a b) -> a b" (.tuple [.sym (.var 1)]) [("a".toList, .int 2)] true,
        traceOf "(a b) -> a b" (.tuple [.sym (.var 0)]) [("a".toList, .int 2)] true]
    st.heap.length = 1 ∧ st.shapes.length = 2 := by decide +kernel
-- a symbol as a keyword size that cannot be hashed: the cache of shapes is not used
example :
    let st := afterTraces hashNone 256 1024 .empty
      [traceOf "(a b) -> a b" (.tuple [.int 6]) [("a".toList, .sym (.var 0))] false]
    st.recipes.length = 1 ∧ st.shapes.length = 0 := by decide +kernel
example :
    let st := afterTraces hashNone 256 1024 .empty
      [traceOf "(a b) -> a b" (.tuple [.sym (.var 0)]) [("a".toList, .int 2)] false]
    st.recipes.length = 1 ∧ st.shapes.length = 0 := by decide +kernel
-- all `UnknownSize`s are the same key
example : (afterTraces hashNone 256 1024 .empty [traceOf "a b -> b a" (.tuple [.unknown, .int 3]) [] false,
    traceOf "a b -> b a" (.tuple [.unknown, .int 3]) [] false]).shapes.length = 1 := by decide +kernel
-- the hypotheses
example : OneObject [traceOf "(a b) -> a b" (.wrapped 0 [.sym (.var 0)]) [("a".toList, .int 2)] false,
    traceOf "(a b) -> a b" (.wrapped 1 [.sym (.var 1)]) [("a".toList, .int 2)] false] := by
  intro c hc c' hc' id l l' h h'
  simp only [List.mem_cons, List.not_mem_nil, or_false] at hc hc'
  rcases hc with rfl | rfl <;> rcases hc' with rfl | rfl <;> simp only [traceOf, GShape.wrapped.injEq] at h h' <;>
    obtain ⟨rfl, rfl⟩ := h <;> obtain ⟨h1, rfl⟩ := h' <;> first | rfl | cases h1
example : (traceOf "(a b) -> a b" (.wrapped 0 [.sym (.var 0)]) [("a".toList, .int 2)] false).Apart hashNone := by
  unfold GCall.Apart; decide

/-- **C62** Why no size may be the hash of `None`: an `UnknownSize` is equal to every int and has this hash, so after a graph
for a tensor of unknown length, a tensor of this length is given the sizes of that graph, which no framework can use. -/
theorem C62_none_hash :
    (gCall hashNone 256 1024
        (afterTraces hashNone 256 1024 .empty [traceOf "(a b) -> a b" (.tuple [.unknown]) [("a".toList, .int 2)] false])
        (traceOf "(a b) -> a b" (.tuple [.int 4238894112]) [("a".toList, .int 2)] false)).1 =
      .ok ⟨some [.int 2, .unknown], none, [], [], none, 2⟩ ∧
    traceCall idOrder "(a b) -> a b".toList (.name "rearrange".toList) [.int 4238894112] [("a".toList, .int 2)] =
      .ok ⟨some [.int 2, .int 2119447056], none, [], [], none, 2⟩ := by decide +kernel

end

end Einops
