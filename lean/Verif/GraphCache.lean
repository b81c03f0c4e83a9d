import Verif.Cache
import Verif.Graph

/-!
# The caches in graph mode

The two caches of `Cache.lean`, used while graphs are built: shapes may then contain symbols, `UnknownSize`s and may be
wrapped in a `HashableTuple`.  Eager calls are the case that all sizes are ints.

An object that is compared by identity (a symbol, a `HashableTuple`, a recipe) is represented by what it is (an
expression) or by a number.
-/

namespace Einops

/-- What `backend.shape` returns: a tuple, or (_backends.py:379-384, 442-444) a `HashableTuple`, number `id`, which is equal
to itself only (_backends.py:330-346). -/
inductive GShape
  | tuple (l : List GSize)
  | wrapped (id : Nat) (l : List GSize)
  deriving DecidableEq, Repr

/-- `len`, iteration and indexing see the elements in both cases (_backends.py:336-344) -/
def GShape.sizes : GShape → List GSize
  | .tuple l => l
  | .wrapped _ l => l

/-- A size as part of a key: ints by value, symbols by identity. -/
inductive SizeKey
  | num (n : Int)
  | obj (e : SymExpr)
  deriving DecidableEq, Repr

/-- An `UnknownSize` is equal to everything and has the hash of `None` (_backends.py:144-154); a dictionary compares the
hashes first and the hash of an int is the int, so as a key it is the number `noneHash`. -/
def GSize.key (noneHash : Int) : GSize → SizeKey
  | .int n => .num n
  | .sym e => .obj e
  | .unknown => .num noneHash

/-- a shape as part of a key -/
inductive GShapePart
  | tuple (l : List SizeKey)
  | object (id : Nat)
  deriving DecidableEq, Repr

def GShape.part (noneHash : Int) : GShape → GShapePart
  | .tuple l => .tuple (l.map (GSize.key noneHash))
  | .wrapped id _ => .object id

/-- arguments of `_reconstruct_from_shape` (einops.py:155-157) as the cache sees them -/
structure GShapeKey where
  recipe : Nat
  shape : GShapePart
  dims : List (Str × SizeKey)
  deriving DecidableEq, Repr

/-- the two caches, and the recipe objects created so far -/
structure GCaches where
  heap : List TransformRecipe
  recipes : List (RecipeKey × Nat)
  shapes : List (GShapeKey × CookedG)
  deriving DecidableEq, Repr

def GCaches.empty : GCaches := ⟨[], [], []⟩

/-- One call while a graph is built.  `symHash` says whether the symbols of the framework can be hashed (those of
tensorflow 2 cannot). -/
structure GCall where
  so : SetOrder
  pattern : Str
  op : OpKey
  shape : GShape
  kw : List (Str × GSize)
  symHash : Bool

/-- the reduction of the key as the recipe sees it -/
def GCall.kind (c : GCall) : OpKind :=
  match c.op with
  | .name s => .name s
  | .callable _ => .callable

/-- hash of a size: only symbols may lack one -/
def GSize.hashable (symHash : Bool) : GSize → Bool
  | .sym _ => symHash
  | _ => true

/-- whether the arguments of `_reconstruct_from_shape` can be hashed (otherwise TypeError, einops.py:238) -/
def GCall.hashable (c : GCall) : Bool :=
  (match c.shape with
    | .tuple l => l.all (GSize.hashable c.symHash)
    | .wrapped _ _ => true) && c.kw.all (fun p => p.2.hashable c.symHash)

def GCall.recipeKey (c : GCall) : RecipeKey := ⟨c.pattern, c.op, c.kw.map Prod.fst, c.shape.sizes.length⟩

def GCall.shapeKey (noneHash : Int) (c : GCall) (id : Nat) : GShapeKey :=
  ⟨id, c.shape.part noneHash, c.kw.map (fun p => (p.1, p.2.key noneHash))⟩

section
variable [PyUnicode] (noneHash : Int) (rmax smax : Nat)

/-- `_prepare_transformation_recipe` through its cache (einops.py:289, 531) -/
def gPrepare (st : GCaches) (c : GCall) : Py Nat × GCaches :=
  let (hit, recipes) := lruGet st.recipes c.recipeKey
  let st := { st with recipes := recipes }
  match hit with
  | some id => (.ok id, st)
  | none =>
    match prepareRecipe c.so c.pattern c.kind (c.kw.map Prod.fst) c.shape.sizes.length with
    | .error e => (.error e, st)
    | .ok r =>
      (.ok st.heap.length,
        { st with heap := st.heap ++ [r], recipes := lruPut rmax st.recipes c.recipeKey st.heap.length })

/-- `_reconstruct_from_shape` through its cache (einops.py:227, 234-241).  A TypeError, also one raised by the computation
itself, leads to a second computation without the cache. -/
def gCook (st : GCaches) (c : GCall) (id : Nat) : Py CookedG × GCaches :=
  match getE st.heap id with
  | .error e => (.error e, st)
  | .ok r =>
    if c.hashable then
      let (hit, shapes) := lruGet st.shapes (c.shapeKey noneHash id)
      let st := { st with shapes := shapes }
      match hit with
      | some k => (.ok k, st)
      | none =>
        match reconstructG r c.shape.sizes c.kw with
        | .error .type => (reconstructG r c.shape.sizes c.kw, st)
        | .error e => (.error e, st)
        | .ok k => (.ok k, { st with shapes := lruPut smax st.shapes (c.shapeKey noneHash id) k })
    else (reconstructG r c.shape.sizes c.kw, st)

/-- building a graph with the caches in state `st` -/
def gCall (st : GCaches) (c : GCall) : Py CookedG × GCaches :=
  match gPrepare rmax st c with
  | (.error e, st) => (.error e, st)
  | (.ok id, st) => gCook noneHash smax st c id

/-- the state after a history of calls -/
def afterTraces (st : GCaches) (h : List GCall) : GCaches := h.foldl (fun st c => (gCall noneHash rmax smax st c).2) st

end

end Einops
