import Verif.Tensor
import Mathlib.Data.List.Sort

/-!
# Backends, `_apply_recipe` and the public operations

`einops/_backends.py` (the methods used by the operations), `_apply_recipe`, `_apply_recipe_array_api`, `reduce`,
`rearrange`, `repeat` of `einops/einops.py`, and the scripted torch path of `einops/_torch_specific.py`.
-/

namespace Einops

universe u

/-- Element-level meaning of the built-in reductions for an element type: what a framework computes from the list of
the elements it reduces (an error for e.g. the maximum of no elements). -/
structure ElemOps (α : Type u) where
  op : Str → List α → Py α

/-- The methods of `AbstractBackend` used by the operations (_backends.py:62-135). -/
structure Backend (α : Type u) where
  /-- `is_float_type`; tensors with different dtypes are tensors over different element types -/
  isFloat : Tensor α → Bool
  reshape : Tensor α → List Int → Py (Tensor α)
  transpose : Tensor α → List Nat → Py (Tensor α)
  reduce : Str → Tensor α → List Nat → Py (Tensor α)
  /-- `add_axes(x, n_axes, pos2len)` -/
  addAxes : Tensor α → Nat → List (Nat × Int) → Py (Tensor α)
  /-- `stack_on_zeroth_dimension` -/
  stack : List (Tensor α) → Py (Tensor α)

variable {α : Type u}

/-- The loop shared by the `add_axes` methods (_backends.py:107-112, 263-268): insert unit axes, collect the
repetitions. -/
def addAxesLoop (addAxis : Tensor α → Nat → Py (Tensor α)) :
    Tensor α → List Int → List (Nat × Int) → Py (Tensor α × List Int)
  | x, reps, [] => .ok (x, reps)
  | x, reps, (pos, len) :: rest =>
    match addAxis x pos with
    | .error e => .error e
    | .ok x =>
      match setE reps pos len with
      | .error e => .error e
      | .ok reps => addAxesLoop addAxis x reps rest

/-- `AbstractBackend.add_axes` (_backends.py:107-112): `tile` with repetition 1 for old axes. -/
def addAxesTile (x : Tensor α) (n : Nat) (pos2len : List (Nat × Int)) : Py (Tensor α) :=
  match addAxesLoop Tensor.expandDims x (List.replicate n 1) pos2len with
  | .error e => .error e
  | .ok (x, reps) => x.tile reps

/-- `TorchBackend.add_axes` (_backends.py:263-268; the same in OneFlow 518-523, Paddle 578-583 and
_torch_specific.py:55-61): `expand` with -1 for old axes. -/
def addAxesExpand (x : Tensor α) (n : Nat) (pos2len : List (Nat × Int)) : Py (Tensor α) :=
  match addAxesLoop Tensor.expandDims x (List.replicate n (-1)) pos2len with
  | .error e => .error e
  | .ok (x, reps) => x.expand reps

/-- axes in descending order, `sorted(axes, reverse=True)` -/
def sortDesc (axes : List Nat) : List Nat := (axes.insertionSort (· ≤ ·)).reverse

/-- Reducing one axis after the other (_backends.py:249-253, 500-510, 644-647). -/
def reduceIter (op : List α → Py α) : Tensor α → List Nat → Py (Tensor α)
  | x, [] => .ok x
  | x, a :: as =>
    match x.reduceAxes op [a] with
    | .error e => .error e
    | .ok x => reduceIter op x as

/-- `reshape` of torch-like frameworks: only -1 may stand for an unknown dimension. -/
def Tensor.reshapeStrict (x : Tensor α) (s : List Int) : Py (Tensor α) :=
  if ∃ d ∈ s, d < -1 then .error .backend else x.reshape s

section
variable (E : ElemOps α) (isFloat : Bool)

/-- `NumpyBackend` (_backends.py:157-193); `JaxBackend`, `CupyBackend`, `TensorflowBackend` and `PyTensorBackend` call
functions of the same meaning. -/
def numpyBackend : Backend α where
  isFloat _ := isFloat
  reshape x s := x.reshape s
  transpose x p := x.transpose p
  reduce o x axes := x.reduceAxes (E.op o) axes
  addAxes := addAxesTile
  stack := Tensor.stack

/-- `TorchBackend` (_backends.py:214-288). -/
def torchBackend : Backend α where
  isFloat _ := isFloat
  reshape x s := x.reshapeStrict s
  transpose x p := x.transpose p
  reduce o x axes :=
    if o ∈ ["min".toList, "max".toList, "sum".toList, "mean".toList] then x.reduceAxes (E.op o) axes
    else if o ∈ ["any".toList, "all".toList, "prod".toList] then reduceIter (E.op o) x (sortDesc axes)
    else .error .notImplemented
  addAxes := addAxesExpand
  stack := Tensor.stack

/-- `TorchJitBackend` (_torch_specific.py:20-73). -/
def torchJitBackend : Backend α where
  isFloat _ := isFloat
  reshape x s := x.reshapeStrict s
  transpose x p := x.transpose p
  reduce o x axes :=
    if o ∈ ["min".toList, "max".toList, "sum".toList, "mean".toList] then x.reduceAxes (E.op o) axes
    else if o = "prod".toList then reduceIter (E.op o) x (sortDesc axes)
    else .error .notImplemented
  addAxes := addAxesExpand
  stack := Tensor.stack

/-- `OneFlowBackend` (_backends.py:476-543): every reduction one axis at a time. -/
def oneflowBackend : Backend α where
  isFloat _ := isFloat
  reshape x s := x.reshapeStrict s
  transpose x p := x.transpose p
  reduce o x axes :=
    if o ∈ reductionNames then reduceIter (E.op o) x (sortDesc axes) else .error .notImplemented
  addAxes := addAxesExpand
  stack := Tensor.stack

/-- paddle's reductions: a full reduction gives a tensor of shape [1] (comment in _backends.py:570). -/
def paddleReduce (op : List α → Py α) (x : Tensor α) (axes : List Nat) : Py (Tensor α) :=
  match x.reduceAxes op axes with
  | .error e => .error e
  | .ok y => if y.shape = [] then y.withShape [1] else .ok y

/-- `squeeze(0)` -/
def Tensor.squeeze0 (x : Tensor α) : Py (Tensor α) :=
  match x.shape with
  | 1 :: s => x.withShape s
  | _ :: _ => .ok x
  | [] => .error .backend

/-- `PaddleBackend` (_backends.py:546-612). -/
def paddleBackend : Backend α where
  isFloat _ := isFloat
  reshape x s := x.reshapeStrict s
  transpose x p := x.transpose p
  reduce o x axes :=
    if axes.length = x.ndim then
      match paddleReduce (E.op o) x axes with
      | .error e => .error e
      | .ok y => y.squeeze0
    else paddleReduce (E.op o) x axes
  addAxes := addAxesExpand
  stack := Tensor.stack

/-- `TinygradBackend` (_backends.py:615-665): iterated reductions, `add_axes` inherited (unsqueeze and repeat). -/
def tinygradBackend : Backend α where
  isFloat _ := isFloat
  reshape x s := x.reshapeStrict s
  transpose x p := x.transpose p
  reduce o x axes := reduceIter (E.op o) x (sortDesc axes)
  addAxes := addAxesTile
  stack := Tensor.stack

end

/-- The `reduction` argument: a string, or a callable `f(tensor, reduced_axes)`. -/
inductive Reduction (α : Type u)
  | name (s : Str)
  | callable (f : Tensor α → List Nat → Py (Tensor α))

def Reduction.kind : Reduction α → OpKind
  | .name s => .name s
  | .callable _ => .callable

/-- `_reduce_axes` (einops.py:37-47). -/
def reduceAxesE (b : Backend α) (x : Tensor α) (red : Reduction α) (axes : List Nat) : Py (Tensor α) :=
  match red with
  | .callable f => f x axes
  | .name s =>
    if s ∉ reductionNames then .error .assertion
    else if s = "mean".toList ∧ b.isFloat x = false then .error .notImplemented
    else b.reduce s x axes

/-- `if shapes is not None: tensor = reshape(tensor, shapes)` -/
def optReshape (reshape : Tensor α → List Int → Py (Tensor α)) (s : Option (List Size)) (x : Tensor α) :
    Py (Tensor α) :=
  match s with
  | none => .ok x
  | some s => reshape x (s.map Size.val)

/-- `if axes_reordering is not None: tensor = transpose(tensor, axes_reordering)` -/
def optTranspose (transpose : Tensor α → List Nat → Py (Tensor α)) (p : Option (List Nat)) (x : Tensor α) :
    Py (Tensor α) :=
  match p with
  | none => .ok x
  | some p => transpose x p

/-- `if len(reduced_axes) > 0: tensor = reduce(tensor, reduced_axes)` -/
def optReduce (red : Tensor α → List Nat → Py (Tensor α)) (axes : List Nat) (x : Tensor α) : Py (Tensor α) :=
  if axes.length > 0 then red x axes else .ok x

/-- `if len(added_axes) > 0: tensor = add_axes(tensor, n_axes, added_axes)` -/
def optAddAxes (add : Tensor α → Nat → List (Nat × Int) → Py (Tensor α)) (n : Nat) (added : List (Nat × Size))
    (x : Tensor α) : Py (Tensor α) :=
  if added.length > 0 then add x n (added.map (fun p => (p.1, p.2.val))) else .ok x

/-- The five stages common to `_apply_recipe` (einops.py:242-252), `_apply_recipe_array_api` (einops.py:262-286) and
`apply_for_scriptable_torch` (_torch_specific.py:89-99). -/
def applyStages (reshape : Tensor α → List Int → Py (Tensor α)) (transpose : Tensor α → List Nat → Py (Tensor α))
    (red : Tensor α → List Nat → Py (Tensor α)) (add : Tensor α → Nat → List (Nat × Int) → Py (Tensor α))
    (c : CookedRecipe) (x : Tensor α) : Py (Tensor α) :=
  (optReshape reshape c.initShapes x).bind fun x =>
  (optTranspose transpose c.axesReordering x).bind fun x =>
  (optReduce red c.reducedAxes x).bind fun x =>
  (optAddAxes add c.nAxesWithAdded c.addedAxes x).bind fun x =>
  optReshape reshape c.finalShapes x

/-- Second part of `_apply_recipe` (einops.py:242-252). -/
def applyCooked (b : Backend α) (c : CookedRecipe) (x : Tensor α) (red : Reduction α) : Py (Tensor α) :=
  applyStages b.reshape b.transpose (fun x axes => reduceAxesE b x red axes) b.addAxes c x

/-- `_apply_recipe` (einops.py:230-252) without the shape cache. -/
def applyRecipe (b : Backend α) (r : TransformRecipe) (x : Tensor α) (red : Reduction α) (kw : List (Str × Size)) :
    Py (Tensor α) :=
  match reconstruct r (x.shape.map Size.ofNat) kw with
  | .error e => .error e
  | .ok c => applyCooked b c x red

/-- The tensor argument of the operations: a tensor or a list of tensors. -/
inductive Input (α : Type u)
  | one (x : Tensor α)
  | many (xs : List (Tensor α))

/-- Resolution of the input (einops.py:521-527). -/
def resolveInput (b : Backend α) : Input α → Py (Tensor α)
  | .one x => .ok x
  | .many [] => .error .type
  | .many (x :: xs) => b.stack (x :: xs)

section
variable [PyUnicode]

/-- `reduce(tensor, pattern, reduction, **axes_lengths)` (einops.py:460-542), without caches.  An `EinopsError` is
re-raised as an `EinopsError` with a longer message, other exceptions pass through. -/
def reduce (b : Backend α) (so : SetOrder) (t : Input α) (pattern : Str) (red : Reduction α)
    (kw : List (Str × Size)) : Py (Tensor α) :=
  match resolveInput b t with
  | .error e => .error e
  | .ok x =>
    match prepareRecipe so pattern red.kind (kw.map Prod.fst) x.ndim with
    | .error e => .error e
    | .ok r => applyRecipe b r x red kw

/-- `rearrange` (einops.py:545-600). -/
def rearrange (b : Backend α) (so : SetOrder) (t : Input α) (pattern : Str) (kw : List (Str × Size)) :
    Py (Tensor α) := reduce b so t pattern (.name "rearrange".toList) kw

/-- `repeat` (einops.py:603-650). -/
def repeat_ (b : Backend α) (so : SetOrder) (t : Input α) (pattern : Str) (kw : List (Str × Size)) :
    Py (Tensor α) := reduce b so t pattern (.name "repeat".toList) kw

end

/-! ### The array-API path -/

/-- write the added lengths into the shape (einops.py:279-281) -/
def setAll : List Int → List (Nat × Int) → Py (List Int)
  | s, [] => .ok s
  | s, (pos, len) :: rest =>
    match setE s pos len with
    | .error e => .error e
    | .ok s => setAll s rest

/-- insert the unit axes (einops.py:276-277) -/
def expandAll : Tensor α → List (Nat × Int) → Py (Tensor α)
  | x, [] => .ok x
  | x, (pos, _) :: rest =>
    match x.expandDims pos with
    | .error e => .error e
    | .ok x => expandAll x rest

/-- Adding axes on the array-API path (einops.py:274-283): unit axes first, then one `broadcast_to`. -/
def broadcastAxes (x : Tensor α) (_n : Nat) (added : List (Nat × Int)) : Py (Tensor α) :=
  (expandAll x added).bind fun y =>
  (setAll (y.shape.map Int.ofNat) added).bind fun s =>
  y.broadcastTo s

/-- The reduction on the array-API path (einops.py:266-273).  There is no test for non-floating `mean` here. -/
def arrayApiReduceAxes (E : ElemOps α) (red : Reduction α) (x : Tensor α) (axes : List Nat) : Py (Tensor α) :=
  match red with
  | .callable f => f x axes
  | .name s => if s ∉ reductionNames then .error .assertion else x.reduceAxes (E.op s) axes

/-- `_apply_recipe_array_api` (einops.py:255-286), without the shape cache. -/
def applyArrayApi (E : ElemOps α) (r : TransformRecipe) (x : Tensor α) (red : Reduction α)
    (kw : List (Str × Size)) : Py (Tensor α) :=
  match reconstruct r (x.shape.map Size.ofNat) kw with
  | .error e => .error e
  | .ok c => applyStages Tensor.reshapeStrict Tensor.transpose (arrayApiReduceAxes E red) broadcastAxes c x

/-- Resolution of the input (array_api.py:7-13). -/
def arrayApiInput : Input α → Py (Tensor α)
  | .one x => .ok x
  | .many [] => .error .type
  | .many (x :: xs) => Tensor.stack (x :: xs)

/-- `einops.array_api.reduce` (array_api.py:6-31). -/
def arrayApiReduce [PyUnicode] (E : ElemOps α) (so : SetOrder) (t : Input α) (pattern : Str) (red : Reduction α)
    (kw : List (Str × Size)) : Py (Tensor α) :=
  match arrayApiInput t with
  | .error e => .error e
  | .ok x =>
    match prepareRecipe so pattern red.kind (kw.map Prod.fst) x.ndim with
    | .error e => .error e
    | .ok r => applyArrayApi E r x red kw

/-! ### Scripted torch -/

/-- `apply_for_scriptable_torch` (_torch_specific.py:77-99): mirrors `_apply_recipe`, with `TorchJitBackend.reduce`
called directly (no test for non-floating `mean`). -/
def applyScripted (E : ElemOps α) (r : TransformRecipe) (x : Tensor α) (op : Str) (kw : List (Str × Size)) :
    Py (Tensor α) :=
  let b := torchJitBackend E true
  match reconstruct r (x.shape.map Size.ofNat) kw with
  | .error e => .error e
  | .ok c => applyStages b.reshape b.transpose (b.reduce op) b.addAxes c x

end Einops
