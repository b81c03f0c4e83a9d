import Verif.Apply

/-!
# `Rearrange` and `Reduce` layers

`einops/layers/__init__.py`, `_prepare_recipes_for_all_dims` of `einops/einops.py`, and the `forward` methods of the
framework layers.  `repr` is in `Repr.lean`.
-/

namespace Einops

universe u

/-- The numbers of dimensions a layer has recipes for (einops.py:454-456). -/
def layerDims (left : ParsedExpression) : List Nat :=
  if left.hasEllipsis then (List.range 8).map (fun e => left.composition.length - 1 + e)
  else [left.composition.length]

/-- `_prepare_recipes_for_all_dims(pattern, operation, axes_names)` (einops.py:445-457).  Every preparation may iterate
sets in its own order. -/
def prepareAllDims [PyUnicode] (so : Nat → SetOrder) (pattern : Str) (op : OpKind) (names : List Str) :
    Py (List (Nat × TransformRecipe)) :=
  match splitArrow pattern with
  | .error e => .error e
  | .ok (l, _) =>
    match parseExpression 0 false false l with
    | .error e => .error e
    | .ok left =>
      mapE (fun d =>
        match prepareRecipe (so d) pattern op names d with
        | .error e => .error e
        | .ok r => .ok (d, r)) (layerDims left)

/-- Attributes of a layer (layers/__init__.py:20-26, 70-76).  For `Rearrange` the reduction is "rearrange". -/
structure Layer (α : Type u) where
  pattern : Str
  reduction : Reduction α
  axesLengths : List (Str × Size)
  multirecipe : List (Nat × TransformRecipe)

variable {α : Type u}

/-- `ReduceMixin.__init__` (layers/__init__.py:70-76, 84-90) -/
def reduceLayer [PyUnicode] (so : Nat → SetOrder) (pattern : Str) (red : Reduction α) (kw : List (Str × Size)) :
    Py (Layer α) :=
  match prepareAllDims so pattern red.kind (kw.map Prod.fst) with
  | .error e => .error e
  | .ok m => .ok ⟨pattern, red, kw, m⟩

/-- `RearrangeMixin.__init__` (layers/__init__.py:20-26, 34-40) -/
def rearrangeLayer [PyUnicode] (so : Nat → SetOrder) (pattern : Str) (kw : List (Str × Size)) : Py (Layer α) :=
  reduceLayer so pattern (.name "rearrange".toList) kw

/-- `_apply_recipe` of the mixins (layers/__init__.py:42-50, 92-100); used by the layers for tensorflow, keras, flax,
paddle and oneflow.  A number of dimensions without a recipe raises KeyError. -/
def Layer.apply (b : Backend α) (l : Layer α) (x : Tensor α) : Py (Tensor α) :=
  match dictGetE l.multirecipe x.ndim with
  | .error e => .error e
  | .ok r => applyRecipe b r x l.reduction l.axesLengths

/-- `forward` of the torch layers (layers/torch.py:13-15, 23-25).  A callable is not equal to any of the names that
`TorchJitBackend.reduce` knows, like the empty name. -/
def Layer.forwardTorch (E : ElemOps α) (l : Layer α) (x : Tensor α) : Py (Tensor α) :=
  match dictGetE l.multirecipe x.ndim with
  | .error e => .error e
  | .ok r =>
    match l.reduction with
    | .name s => applyScripted E r x s l.axesLengths
    | .callable _ => applyScripted E r x [] l.axesLengths

/-- What `__getstate__` returns (layers/__init__.py:52-53, 102-103) -/
structure LayerState (α : Type u) where
  pattern : Str
  reduction : Reduction α
  axesLengths : List (Str × Size)

/-- `__getstate__` (layers/__init__.py:52-53, 102-103) -/
def Layer.getState (l : Layer α) : LayerState α := ⟨l.pattern, l.reduction, l.axesLengths⟩

/-- `__setstate__` (layers/__init__.py:55-56, 105-106): runs `__init__` again, in another process with other set orders. -/
def LayerState.setState [PyUnicode] (so : Nat → SetOrder) (s : LayerState α) : Py (Layer α) :=
  reduceLayer so s.pattern s.reduction s.axesLengths

end Einops
