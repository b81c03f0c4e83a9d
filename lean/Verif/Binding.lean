import Verif.EinMix

/-!
# Calls as written in Python

`rearrange`, `reduce`, `repeat_`, `rearrangeLayer`, `reduceLayer` and `makeEinMix` describe the bodies of the functions:
parameters are bound and `axes_lengths` is the dictionary of the remaining keywords.  Here is what Python does before:
a keyword that names a parameter which already has a value raises TypeError.  Also the configurations of the layers for
tensorflow/keras.
-/

namespace Einops

universe u v

/-- `f(..., **kw)` when the parameters `given` of `f` have values already; the rest is `f`'s `**axes_lengths` -/
def bindRest {ν : Type v} (given : List Str) (kw : List (Str × ν)) : Py (List (Str × ν)) :=
  if kw.any (fun p => decide (p.1 ∈ given)) then .error .type else .ok kw

variable {α : Type u}

section
variable [PyUnicode]

/-- `reduce(tensor, pattern, reduction, **kw)` (einops.py:460) -/
def pyReduce (b : Backend α) (so : SetOrder) (t : Input α) (pattern : Str) (red : Reduction α) (kw : List (Str × Size)) :
    Py (Tensor α) :=
  match bindRest ["tensor".toList, "pattern".toList, "reduction".toList] kw with
  | .error e => .error e
  | .ok kw => reduce b so t pattern red kw

/-- `rearrange(tensor, pattern, **kw)` (einops.py:545); the body is
`reduce(tensor, pattern, reduction="rearrange", **axes_lengths)` (einops.py:600), where a keyword may not occur twice -/
def pyRearrange (b : Backend α) (so : SetOrder) (t : Input α) (pattern : Str) (kw : List (Str × Size)) : Py (Tensor α) :=
  match bindRest ["tensor".toList, "pattern".toList] kw with
  | .error e => .error e
  | .ok kw =>
    match bindRest ["reduction".toList] kw with
    | .error e => .error e
    | .ok kw => pyReduce b so t pattern (.name "rearrange".toList) kw

/-- `repeat(tensor, pattern, **kw)` (einops.py:603, 650) -/
def pyRepeat (b : Backend α) (so : SetOrder) (t : Input α) (pattern : Str) (kw : List (Str × Size)) : Py (Tensor α) :=
  match bindRest ["tensor".toList, "pattern".toList] kw with
  | .error e => .error e
  | .ok kw =>
    match bindRest ["reduction".toList] kw with
    | .error e => .error e
    | .ok kw => pyReduce b so t pattern (.name "repeat".toList) kw

/-- `einops.array_api.reduce(tensor, pattern, reduction, **kw)` (array_api.py:6) -/
def pyArrayApiReduce (E : ElemOps α) (so : SetOrder) (t : Input α) (pattern : Str) (red : Reduction α)
    (kw : List (Str × Size)) : Py (Tensor α) :=
  match bindRest ["tensor".toList, "pattern".toList, "reduction".toList] kw with
  | .error e => .error e
  | .ok kw => arrayApiReduce E so t pattern red kw

/-- `einops.array_api.rearrange` and `repeat` (array_api.py:34-39); `op` is "rearrange" or "repeat" -/
def pyArrayApiMove (op : Str) (E : ElemOps α) (so : SetOrder) (t : Input α) (pattern : Str) (kw : List (Str × Size)) :
    Py (Tensor α) :=
  match bindRest ["tensor".toList, "pattern".toList] kw with
  | .error e => .error e
  | .ok kw =>
    match bindRest ["reduction".toList] kw with
    | .error e => .error e
    | .ok kw => pyArrayApiReduce E so t pattern (.name op) kw

/-- `Rearrange(pattern, **kw)` (layers/__init__.py:20); also `RearrangeMixin(self.pattern, **self.sizes)` (flax.py:31) -/
def pyRearrangeLayer (so : Nat → SetOrder) (pattern : Str) (kw : List (Str × Size)) : Py (Layer α) :=
  match bindRest ["self".toList, "pattern".toList] kw with
  | .error e => .error e
  | .ok kw => rearrangeLayer so pattern kw

/-- `Reduce(pattern, reduction, **kw)` (layers/__init__.py:70); also flax.py:20 -/
def pyReduceLayer (so : Nat → SetOrder) (pattern : Str) (red : Reduction α) (kw : List (Str × Size)) : Py (Layer α) :=
  match bindRest ["self".toList, "pattern".toList, "reduction".toList] kw with
  | .error e => .error e
  | .ok kw => reduceLayer so pattern red kw

end

/-- An `EinMix` layer with the arguments it keeps (_einmix.py:59-62) -/
structure EinMixLayer (α : Type u) where
  pattern : Str
  weightShape : Str
  biasShape : Option Str
  axesLengths : List (Str × Size)
  mix : EinMix α

/-- `EinMix(pattern, weight_shape, bias_shape, **kw)` (_einmix.py:16, 59-65).  The layer for tensorflow creates the
parameters in `build` (tensorflow.py:70-85), at the first call; here construction includes `build`.  (The layers for the
two rearrangements get part of `kw`, whose keywords were bound here already.) -/
def pyEinMix [PyUnicode] (so : Nat → SetOrder) (pattern weightShape : Str) (biasShape : Option Str)
    (kw : List (Str × Size)) : Py (EinMixLayer α) :=
  match bindRest ["self".toList, "pattern".toList, "weight_shape".toList, "bias_shape".toList] kw with
  | .error e => .error e
  | .ok kw =>
    match makeEinMix so pattern weightShape biasShape kw with
    | .error e => .error e
    | .ok m => .ok ⟨pattern, weightShape, biasShape, kw, m⟩

/-! ### Configurations of keras layers -/

/-- A value in a configuration -/
inductive ConfigValue (α : Type u)
  | str (s : Str)
  | none
  | reduction (r : Reduction α)
  | size (s : Size)

/-- `d[k] = v`, an existing key keeps its place -/
def configSet : List (Str × ConfigValue α) → Str → ConfigValue α → List (Str × ConfigValue α)
  | [], k, v => [(k, v)]
  | (k', v') :: d, k, v => if k' = k then (k', v) :: d else (k', v') :: configSet d k v

/-- `{..., **axes_lengths}`: later keys replace earlier ones -/
def withSizes (cfg : List (Str × ConfigValue α)) (kw : List (Str × Size)) : List (Str × ConfigValue α) :=
  kw.foldl (fun d p => configSet d p.1 (.size p.2)) cfg

/-- `Rearrange.get_config` (tensorflow.py:34-35) -/
def Layer.rearrangeConfig (l : Layer α) : List (Str × ConfigValue α) :=
  withSizes [("pattern".toList, .str l.pattern)] l.axesLengths

/-- `Reduce.get_config` (tensorflow.py:45-46) -/
def Layer.reduceConfig (l : Layer α) : List (Str × ConfigValue α) :=
  withSizes [("pattern".toList, .str l.pattern), ("reduction".toList, .reduction l.reduction)] l.axesLengths

/-- `EinMix.get_config` (tensorflow.py:97-103) -/
def EinMixLayer.config (l : EinMixLayer α) : List (Str × ConfigValue α) :=
  withSizes [("pattern".toList, .str l.pattern), ("weight_shape".toList, .str l.weightShape),
    ("bias_shape".toList, match l.biasShape with | .none => .none | .some s => .str s)] l.axesLengths

/-- the value a keyword gives to a parameter -/
def configGet : List (Str × ConfigValue α) → Str → Option (ConfigValue α)
  | [], _ => .none
  | (k', v') :: d, k => if k' = k then some v' else configGet d k

/-- `**axes_lengths` of `cls(**config)`: the keywords that are no parameters.  Sizes that are not numbers do not occur in
the configurations above; TypeError stands for what happens then. -/
def configRest (params : List Str) : List (Str × ConfigValue α) → Py (List (Str × Size))
  | [] => .ok []
  | (k, v) :: d =>
    match configRest params d with
    | .error e => .error e
    | .ok r =>
      if k ∈ params then .ok r
      else
        match v with
        | .size s => .ok ((k, s) :: r)
        | _ => .error .type

section
variable [PyUnicode]

/-- `Rearrange.from_config(config)`, which is keras' `cls(**config)`.  A missing argument, or one for `self`, raises
TypeError. -/
def rearrangeFromConfig (so : Nat → SetOrder) (cfg : List (Str × ConfigValue α)) : Py (Layer α) :=
  if "self".toList ∈ cfg.map Prod.fst then .error .type
  else
    match configGet cfg "pattern".toList, configRest ["pattern".toList] cfg with
    | some (.str p), .ok kw => pyRearrangeLayer so p kw
    | _, _ => .error .type

/-- `Reduce.from_config(config)` -/
def reduceFromConfig (so : Nat → SetOrder) (cfg : List (Str × ConfigValue α)) : Py (Layer α) :=
  if "self".toList ∈ cfg.map Prod.fst then .error .type
  else
    match configGet cfg "pattern".toList, configGet cfg "reduction".toList,
        configRest ["pattern".toList, "reduction".toList] cfg with
    | some (.str p), some (.reduction r), .ok kw => pyReduceLayer so p r kw
    | _, _, _ => .error .type

/-- `EinMix.from_config(config)`; `bias_shape` is optional -/
def einMixFromConfig (so : Nat → SetOrder) (cfg : List (Str × ConfigValue α)) : Py (EinMixLayer α) :=
  if "self".toList ∈ cfg.map Prod.fst then .error .type
  else
    match configGet cfg "pattern".toList, configGet cfg "weight_shape".toList,
        configRest ["pattern".toList, "weight_shape".toList, "bias_shape".toList] cfg with
    | some (.str p), some (.str w), .ok kw =>
      match configGet cfg "bias_shape".toList with
      | some (.str s) => pyEinMix so p w (some s) kw
      | some .none => pyEinMix so p w Option.none kw
      | Option.none => pyEinMix so p w Option.none kw
      | _ => .error .type
    | _, _, _ => .error .type

end

end Einops
