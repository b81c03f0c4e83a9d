import Verif.Apply

/-!
# Caches shared between calls

`functools.lru_cache(256)` around `_prepare_transformation_recipe` (einops.py:289) and `functools.lru_cache(1024)` around
`_reconstruct_from_shape_uncached` (einops.py:227), and calls going through them, one after the other or from several
threads.

`lru_cache` follows CPython's C implementation: looking up a key and moving its entry to the front is one atomic step;
on a miss the function runs without any lock; afterwards, in another atomic step, the result is stored unless the key has
been added meanwhile, and the oldest entry is dropped if there are too many.  A raised exception is not stored.  Keys are
compared with Python's `==`, under which an `int` and a numpy integer (or float) of the same value are equal.

Not modelled: reductions whose `==` identifies them with a string or with another callable that is not the same object,
unhashable callables (TypeError), and code that modifies the lists inside a cached result (einops itself never does).
The layers and `einops.array_api` pass through the same caches; the latter is the case of its backend.
-/

namespace Einops

universe u v

/-! ### `functools.lru_cache` -/

/-- Look up a key.  On a hit the entry becomes the most recent one (the head of the list). -/
def lruGet {κ : Type} {ν : Type} [DecidableEq κ] (d : List (κ × ν)) (k : κ) : Option ν × List (κ × ν) :=
  match dictGet d k with
  | some v => (some v, (k, v) :: d.filter (fun p => p.1 ≠ k))
  | none => (none, d)

/-- Store a computed result: nothing happens if the key has been added in the meantime; otherwise it becomes the most
recent entry, and the oldest entries are dropped if there are more than `max`. -/
def lruPut {κ : Type} {ν : Type} [DecidableEq κ] (max : Nat) (d : List (κ × ν)) (k : κ) (v : ν) : List (κ × ν) :=
  match dictGet d k with
  | some _ => d
  | none => ((k, v) :: d).take max

/-- A function of one key through its cache.  (`analyze_pattern` of packing.py:14 and `_compactify_pattern_for_einsum` of
einops.py:771 are cached like this.) -/
def lruCall {κ : Type} {ν : Type} [DecidableEq κ] (max : Nat) (f : κ → Py ν) (d : List (κ × ν)) (k : κ) :
    Py ν × List (κ × ν) :=
  let (hit, d) := lruGet d k
  match hit with
  | some v => (.ok v, d)
  | none =>
    match f k with
    | .error e => (.error e, d)
    | .ok v => (.ok v, lruPut max d k v)

/-! ### Keys and states -/

/-- The `operation` in a key: strings compare by content, callables by identity. -/
inductive OpKey
  | name (s : Str)
  | callable (id : Nat)
  deriving DecidableEq, Repr

/-- Arguments of `_prepare_transformation_recipe` (einops.py:290-295). -/
structure RecipeKey where
  pattern : Str
  op : OpKey
  names : List Str
  ndim : Nat
  deriving DecidableEq, Repr

/-- Arguments of `_reconstruct_from_shape` (einops.py:155-157) as `==` sees them: recipe objects by identity, sizes by
value. -/
structure ShapeKey where
  recipe : Nat
  shape : List Int
  dims : List (Str × Int)
  deriving DecidableEq, Repr

/-- The two caches, and the recipe objects created so far (an object's identity is its index). -/
structure Caches where
  heap : List TransformRecipe
  recipes : List (RecipeKey × Nat)
  shapes : List (ShapeKey × CookedRecipe)
  deriving DecidableEq, Repr

/-- state after import -/
def Caches.empty : Caches := ⟨[], [], []⟩

/-- einops.py:289 -/
def recipeCacheSize : Nat := 256
/-- einops.py:227 -/
def shapeCacheSize : Nat := 1024

/-- One call of `reduce`, `rearrange` or `repeat` (einops.py:460), on a backend.  `opId` is the identity of a callable
reduction; `hashable` says whether the shape and the sizes are hashable (framework symbols are not, einops.py:238-241). -/
structure Call (α : Type u) where
  backend : Backend α
  so : SetOrder
  input : Input α
  pattern : Str
  red : Reduction α
  opId : Nat
  kw : List (Str × Size)
  hashable : Bool

variable {α : Type u}

/-- `reduction` as part of a key -/
def Call.opKey (c : Call α) : OpKey :=
  match c.red with
  | .name s => .name s
  | .callable _ => .callable c.opId

/-- key of the recipe cache (einops.py:531) -/
def Call.recipeKey (c : Call α) (x : Tensor α) : RecipeKey := ⟨c.pattern, c.opKey, c.kw.map Prod.fst, x.ndim⟩

/-- key of the shape cache (einops.py:235-237) -/
def Call.shapeKey (c : Call α) (x : Tensor α) (id : Nat) : ShapeKey :=
  ⟨id, x.shape.map Int.ofNat, c.kw.map (fun p => (p.1, p.2.val))⟩

/-! ### One call after the other -/

section
variable [PyUnicode] (rmax smax : Nat)

/-- `_prepare_transformation_recipe` through its cache: the identity of a recipe object, and the new caches. -/
def cachedPrepare (st : Caches) (c : Call α) (x : Tensor α) : Py Nat × Caches :=
  let (hit, recipes) := lruGet st.recipes (c.recipeKey x)
  let st := { st with recipes := recipes }
  match hit with
  | some id => (.ok id, st)
  | none =>
    match prepareRecipe c.so c.pattern c.red.kind (c.kw.map Prod.fst) x.ndim with
    | .error e => (.error e, st)
    | .ok r =>
      (.ok st.heap.length,
        { st with heap := st.heap ++ [r], recipes := lruPut rmax st.recipes (c.recipeKey x) st.heap.length })

/-- `_reconstruct_from_shape` through its cache; unhashable sizes bypass it (einops.py:234-241). -/
def cachedCook (st : Caches) (c : Call α) (x : Tensor α) (id : Nat) : Py CookedRecipe × Caches :=
  match getE st.heap id with
  | .error e => (.error e, st)
  | .ok r =>
    if c.hashable then
      let (hit, shapes) := lruGet st.shapes (c.shapeKey x id)
      let st := { st with shapes := shapes }
      match hit with
      | some k => (.ok k, st)
      | none =>
        match reconstruct r (x.shape.map Size.ofNat) c.kw with
        | .error e => (.error e, st)
        | .ok k => (.ok k, { st with shapes := lruPut smax st.shapes (c.shapeKey x id) k })
    else (reconstruct r (x.shape.map Size.ofNat) c.kw, st)

/-- A call with the caches in state `st` (einops.py:520-534, 230-252): its outcome and the new state. -/
def cachedCall (st : Caches) (c : Call α) : Py (Tensor α) × Caches :=
  match resolveInput c.backend c.input with
  | .error e => (.error e, st)
  | .ok x =>
    match cachedPrepare rmax st c x with
    | (.error e, st) => (.error e, st)
    | (.ok id, st) =>
      match cachedCook smax st c x id with
      | (.error e, st) => (.error e, st)
      | (.ok k, st) => (applyCooked c.backend k x c.red, st)

/-- the state after a history of calls -/
def afterCalls (st : Caches) (h : List (Call α)) : Caches := h.foldl (fun st c => (cachedCall rmax smax st c).2) st

/-! ### Threads -/

/-- Where a thread is in its call. -/
inductive Task (α : Type u)
  /-- the recipe was not in the cache; `_prepare_transformation_recipe` runs -/
  | preparing (c : Call α) (x : Tensor α)
  /-- the thread holds a recipe object -/
  | prepared (c : Call α) (x : Tensor α) (id : Nat)
  /-- the shape was not in the cache; `_reconstruct_from_shape_uncached` runs -/
  | cooking (c : Call α) (x : Tensor α) (id : Nat)
  | finished (c : Call α) (y : Py (Tensor α))

/-- The shared caches and what the threads do. -/
structure Machine (α : Type u) where
  caches : Caches
  task : Nat → Option (Task α)

/-- all threads idle, caches empty -/
def Machine.start : Machine α := ⟨Caches.empty, fun _ => none⟩

/-- One atomic action: thread `i` enters a call, or continues with the call it is in. -/
inductive Action (α : Type u)
  | call (i : Nat) (c : Call α)
  | go (i : Nat)

def Machine.set (m : Machine α) (i : Nat) (st : Caches) (t : Task α) : Machine α :=
  ⟨st, fun j => if j = i then some t else m.task j⟩

/-- entering a call: input resolved, recipe cache looked up -/
def enter (m : Machine α) (i : Nat) (c : Call α) : Machine α :=
  match resolveInput c.backend c.input with
  | .error e => m.set i m.caches (.finished c (.error e))
  | .ok x =>
    match lruGet m.caches.recipes (c.recipeKey x) with
    | (some id, recipes) => m.set i { m.caches with recipes := recipes } (.prepared c x id)
    | (none, recipes) => m.set i { m.caches with recipes := recipes } (.preparing c x)

/-- The next atomic action of a thread. -/
def advance (m : Machine α) (i : Nat) : Machine α :=
  match m.task i with
  | none => m
  | some (.finished _ _) => m
  | some (.preparing c x) =>
    match prepareRecipe c.so c.pattern c.red.kind (c.kw.map Prod.fst) x.ndim with
    | .error e => m.set i m.caches (.finished c (.error e))
    | .ok r =>
      m.set i { m.caches with
          heap := m.caches.heap ++ [r]
          recipes := lruPut rmax m.caches.recipes (c.recipeKey x) m.caches.heap.length }
        (.prepared c x m.caches.heap.length)
  | some (.prepared c x id) =>
    match getE m.caches.heap id with
    | .error e => m.set i m.caches (.finished c (.error e))
    | .ok r =>
      if c.hashable then
        match lruGet m.caches.shapes (c.shapeKey x id) with
        | (some k, shapes) => m.set i { m.caches with shapes := shapes } (.finished c (applyCooked c.backend k x c.red))
        | (none, shapes) => m.set i { m.caches with shapes := shapes } (.cooking c x id)
      else m.set i m.caches (.finished c (applyRecipe c.backend r x c.red c.kw))
  | some (.cooking c x id) =>
    match getE m.caches.heap id with
    | .error e => m.set i m.caches (.finished c (.error e))
    | .ok r =>
      match reconstruct r (x.shape.map Size.ofNat) c.kw with
      | .error e => m.set i m.caches (.finished c (.error e))
      | .ok k =>
        m.set i { m.caches with shapes := lruPut smax m.caches.shapes (c.shapeKey x id) k }
          (.finished c (applyCooked c.backend k x c.red))

/-- a thread cannot enter a call while it is inside another one -/
def idle : Option (Task α) → Bool
  | none => true
  | some (.finished _ _) => true
  | _ => false

def act (m : Machine α) : Action α → Machine α
  | .call i c => if idle (m.task i) then enter m i c else m
  | .go i => advance rmax smax m i

/-- the machine after a schedule -/
def runSchedule (m : Machine α) (s : List (Action α)) : Machine α := s.foldl (act rmax smax) m

end

end Einops
