import Verif.Layers
import Verif.Einsum
import Mathlib.Data.List.Sort

/-!
# `EinMix` layers

`einops/layers/_einmix.py` and `EinMix` of `einops/layers/torch.py`; the layers for oneflow, paddle, tensorflow and flax
have the same `forward` up to names.  The warnings are in `EinMixWarnings.lean`, `repr` is in `Repr.lean`, and
parameters are any tensors of the shapes computed by the constructor (their starting values are in `EinMixParams.lean`).
-/

namespace Einops

universe u

/-- `string.ascii_lowercase` -/
def asciiLowercase : Str := "abcdefghijklmnopqrstuvwxyz".toList

/-- `a <= b` for strings: comparison of code points -/
def strLe : Str → Str → Bool
  | [], _ => true
  | _ :: _, [] => false
  | a :: as, b :: bs => if a = b then strLe as bs else decide (a.toNat < b.toNat)

/-- `names` (_einmix.py:92-95, 101-104).  Numbers do not occur: they were refused before (_einmix.py:83-84), and 1
belongs to no list. -/
def flatNames (c : List CompAxis) : List Str :=
  (c.flatMap CompAxis.axes).map (fun a =>
    match a with
    | .str s => if s = ellipsisStr then ['.', '.', '.'] else s
    | .anon .. => [])

/-- `any(len(group) != 1 for group in composition)`; the ellipsis is a string of length 1 (_einmix.py:91, 100) -/
def hasNonSingle (c : List CompAxis) : Bool := c.any (fun g => decide (g.axes.length ≠ 1))

/-- What is known before the layers are created (_einmix.py:68-106). -/
structure EinmixPlan where
  left : ParsedExpression
  right : ParsedExpression
  weight : ParsedExpression
  pre : Option (Str × List (Str × Size))
  post : Option Str

/-- `pre_reshape_pattern` and `pre_reshape_lengths` (_einmix.py:91-98) -/
def preReshape (leftPattern : Str) (left : ParsedExpression) (kw : List (Str × Size)) :
    Option (Str × List (Str × Size)) :=
  if hasNonSingle left.composition then
    let names := flatNames left.composition
    some (leftPattern ++ ['-', '>', ' '] ++ List.intercalate [' '] names, kw.filter (fun p => decide (p.1 ∈ names)))
  else none

/-- `post_reshape_pattern` (_einmix.py:100-106) -/
def postReshape (rightPattern : Str) (right : ParsedExpression) : Option Str :=
  if hasNonSingle right.composition = true ∨ right.ellParen = some true then
    some (List.intercalate [' '] (flatNames right.composition) ++ [' ', '-', '>'] ++ rightPattern)
  else none

/-- The checks on the parsed pattern and weight (_einmix.py:72-86) -/
def einmixChecks (left right weight : ParsedExpression) (weightShape : Str) : Py Unit :=
  if right.identifiers.any (fun a => decide (a ∉ left.identifiers ++ weight.identifiers)) then .error .einops
  else if weight.hasEllipsis then .error .einops
  else if (left.hasEllipsis || right.hasEllipsis) && !(left.hasEllipsis && right.hasEllipsis) then .error .einops
  else if (left.hasEllipsis || right.hasEllipsis) && decide (left.ellParen = some true) then .error .einops
  else if left.nonUnitary || right.nonUnitary || weight.nonUnitary then .error .einops
  else if '(' ∈ weightShape ∨ ')' ∈ weightShape then .error .einops
  else .ok ()

section
variable [PyUnicode]

/-- The first part of `initialize_einmix` (_einmix.py:68-106) -/
def einmixPlan (pattern weightShape : Str) (kw : List (Str × Size)) : Py EinmixPlan :=
  match splitArrow pattern with
  | .error e => .error e
  | .ok (l, r) =>
    match parseExpression 0 false false l with
    | .error e => .error e
    | .ok left =>
      match parseExpression 1 false false r with
      | .error e => .error e
      | .ok right =>
        match parseExpression 2 false false weightShape with
        | .error e => .error e
        | .ok weight =>
          match einmixChecks left right weight weightShape with
          | .error e => .error e
          | .ok () => .ok ⟨left, right, weight, preReshape l left kw, postReshape r right⟩

end

/-- `axis in axes_lengths`, for a string or an `AnonymousAxis` -/
def hasSize (kw : List (Str × Size)) : Axis → Bool
  | .str s => decide (s ∈ kw.map Prod.fst)
  | .anon .. => false

/-- `axes_lengths[axis]` -/
def sizeOf (kw : List (Str × Size)) : Axis → Py Size
  | .str s => dictGetE kw s
  | .anon .. => .error .key

/-- `for (axis,) in composition` (_einmix.py:123): a list that has not exactly one element raises ValueError, the
ellipsis is a string of one character -/
def soleAxis (c : CompAxis) : Py Axis :=
  match c.axes with
  | [a] => .ok a
  | _ => .error .value

/-- Checks of the sizes (_einmix.py:110-119) -/
def einmixSizes (left right weight : ParsedExpression) (kw : List (Str × Size)) : Py Unit :=
  if weight.identifiers.any (fun a => !hasSize kw a) then .error .einops
  else if (kw.map Prod.fst).any (fun n => decide (Axis.str n ∉ left.identifiers ++ weight.identifiers)) then
    .error .einops
  else if weight.identifiers.any (fun a => decide (a ∉ left.identifiers ++ right.identifiers)) then .error .einops
  else .ok ()

/-- `_weight_shape` and `_fan_in` (_einmix.py:123-125) -/
def einmixWeight (right weight : ParsedExpression) (kw : List (Str × Size)) : Py (List Size × Size) :=
  match mapE soleAxis weight.composition with
  | .error e => .error e
  | .ok axes =>
    match mapE (sizeOf kw) axes with
    | .error e => .error e
    | .ok shape =>
      match mapE (sizeOf kw) (axes.filter (fun a => decide (a ∉ right.identifiers))) with
      | .error e => .error e
      | .ok fan => .ok (shape, sizeProd fan)

/-- Body of the loop over the output axes for the shape of the bias (_einmix.py:142-156).  State: `_bias_shape`,
`used_non_trivial_size`.  A bare ellipsis (143-145) is handled like an ellipsis in parentheses (149-151). -/
def biasStep (bias : List Axis) (kw : List (Str × Size)) (st : List Size × Bool) (a : Axis) : Py (List Size × Bool) :=
  if a = .str ellipsisStr then if st.2 then .error .einops else .ok st
  else if a ∈ bias then
    match sizeOf kw a with
    | .error e => .error e
    | .ok s => .ok (st.1 ++ [s], true)
  else .ok (st.1 ++ [⟨1, true⟩], st.2)

/-- The loop over the output axes for the shape of the bias (_einmix.py:142-156) -/
def biasLoop (bias : List Axis) (kw : List (Str × Size)) : List Size × Bool → List Axis → Py (List Size × Bool)
  | st, [] => .ok st
  | st, a :: as =>
    match biasStep bias kw st a with
    | .error e => .error e
    | .ok st => biasLoop bias kw st as

/-- `_bias_shape` (_einmix.py:126-158); a bias shape that is not a string: `makeEinMixArg` in `EinMixWarnings` -/
def einmixBias [PyUnicode] (right : ParsedExpression) (kw : List (Str × Size)) : Option Str → Py (Option (List Size))
  | none => .ok none
  | some s =>
    match parseExpression 3 false false s with
    | .error e => .error e
    | .ok bias =>
      if bias.identifiers.any (fun a => decide (a ∉ right.identifiers)) then .error .einops
      else if bias.identifiers.any (fun a => !hasSize kw a) then .error .einops
      else
        match biasLoop bias.identifiers kw ([], false) (right.composition.flatMap CompAxis.axes) with
        | .error e => .error e
        | .ok st => .ok (some st.1)

/-- `mapped_identifiers` (_einmix.py:166-169) -/
def mappedIdentifiers (left right weight : ParsedExpression) : List Str :=
  List.insertionSort (fun a b => strLe a b = true)
    (((left.identifiers ++ right.identifiers ++ weight.identifiers).filterMap (fun a =>
      match a with
      | .str s => if s = ellipsisStr then none else some s
      | .anon .. => none)).dedup)

/-- `mapping2letters` (_einmix.py:170-171): `zip` stops after the 26 letters -/
def mapping2letters (ids : List Str) : List (Str × Str) :=
  dictSet (ids.zip (asciiLowercase.map (fun c => [c]))) ellipsisStr ['.', '.', '.']

/-- what `write_flat_remapped` writes for one element (_einmix.py:175-180) -/
def writeGroup (m : List (Str × Str)) : CompAxis → Py Str
  | .ell => .ok ['.', '.', '.']
  | .group g =>
    match mapE (fun a =>
      match a with
      | Axis.str s => dictGetE m s
      | .anon .. => .error .key) g with
    | .error e => .error e
    | .ok ss => .ok ss.flatten

/-- `write_flat_remapped` (_einmix.py:173-181) -/
def writeFlat (m : List (Str × Str)) (c : List CompAxis) : Py Str :=
  match mapE (writeGroup m) c with
  | .error e => .error e
  | .ok ss => .ok ss.flatten

/-- `einsum_pattern` (_einmix.py:166-187) -/
def einmixEinsum (left right weight : ParsedExpression) : Py Str :=
  let m := mapping2letters (mappedIdentifiers left right weight)
  match writeFlat m left.composition with
  | .error e => .error e
  | .ok l =>
    match writeFlat m weight.composition with
    | .error e => .error e
    | .ok w =>
      match writeFlat m right.composition with
      | .error e => .error e
      | .ok r => .ok (l ++ [','] ++ w ++ ['-', '>'] ++ r)

/-- `torch.zeros(shape)` refuses negative lengths; its shape -/
def zerosShape (s : List Size) : Py (List Nat) :=
  if s.all (fun d => decide (0 ≤ d.val)) then .ok (s.map (fun d => d.val.toNat)) else .error .backend

/-- The attributes of an `EinMix` layer; of the parameters only the shapes and the number `_fan_in` (_einmix.py:125) that
the range of their starting values depends on (see `EinMixParams`) -/
structure EinMix (α : Type u) where
  pre : Option (Layer α)
  post : Option (Layer α)
  weightShape : List Nat
  biasShape : Option (List Nat)
  einsumPattern : Str
  fanIn : Int

variable {α : Type u}

/-- `_create_rearrange_layers` (layers/torch.py:44-57) for one of the two layers -/
def makeRearrange [PyUnicode] (so : Nat → SetOrder) : Option (Str × List (Str × Size)) → Py (Option (Layer α))
  | none => .ok none
  | some (p, kw) =>
    match rearrangeLayer so p kw with
    | .error e => .error e
    | .ok l => .ok (some l)

/-- `_create_parameters` (layers/torch.py:33-42) -/
def createParameters (weight : List Size) (bias : Option (List Size)) : Py (List Nat × Option (List Nat)) :=
  match zerosShape weight with
  | .error e => .error e
  | .ok w =>
    match bias with
    | none => .ok (w, none)
    | some b =>
      match zerosShape b with
      | .error e => .error e
      | .ok b => .ok (w, some b)

/-- `EinMix(pattern, weight_shape, bias_shape, **axes_lengths)` (_einmix.py:67-187, layers/torch.py:32-57).  Sets are
iterated in any order while the two layers are prepared.  `3 / _fan_in` (_einmix.py:160) raises ZeroDivisionError; for
a negative `_fan_in` the weight has a negative length, which `torch.zeros` refuses. -/
def makeEinMix [PyUnicode] (so : Nat → SetOrder) (pattern weightShape : Str) (biasShape : Option Str)
    (kw : List (Str × Size)) : Py (EinMix α) :=
  match einmixPlan pattern weightShape kw with
  | .error e => .error e
  | .ok p =>
    match makeRearrange so p.pre with
    | .error e => .error e
    | .ok pre =>
      match makeRearrange so (p.post.map (fun s => (s, []))) with
      | .error e => .error e
      | .ok post =>
        match einmixSizes p.left p.right p.weight kw with
        | .error e => .error e
        | .ok () =>
          match einmixWeight p.right p.weight kw with
          | .error e => .error e
          | .ok (w, fan) =>
            match einmixBias p.right kw biasShape with
            | .error e => .error e
            | .ok b =>
              if fan.val = 0 then .error .zeroDivision
              else
                match createParameters w b with
                | .error e => .error e
                | .ok (w, b) =>
                  match einmixEinsum p.left p.right p.weight with
                  | .error e => .error e
                  | .ok s => .ok ⟨pre, post, w, b, s, fan.val⟩

/-- `x += b` of torch: the dimensions of `b` are the last ones of `x`, or have length 1.  (Belongs to the trusted
base.) -/
def Tensor.addBias [Add α] (x b : Tensor α) : Py (Tensor α) :=
  let k := x.ndim - b.ndim
  if b.ndim ≤ x.ndim ∧ ∀ p ∈ b.shape.zip (x.shape.drop k), p.1 = 1 ∨ p.1 = p.2 then
    Tensor.build x.shape (fun i =>
      (x.getE i).bind (fun u =>
        (b.getE (List.zipWith (fun j d => if d = 1 then 0 else j) (i.drop k) b.shape)).bind (fun v => .ok (u + v))))
  else .error .backend

/-- `if layer is not None: x = layer(x)`, `call` being the layer's `forward` -/
def callOpt (call : Layer α → Tensor α → Py (Tensor α)) : Option (Layer α) → Tensor α → Py (Tensor α)
  | none, x => .ok x
  | some l, x => call l x

/-- `if bias is not None: result += bias` (layers/torch.py:63-64) -/
def addOptBias [Add α] (y : Tensor α) : Option (Tensor α) → Py (Tensor α)
  | none => .ok y
  | some b => y.addBias b

/-- `EinMix.forward` (layers/torch.py:59-67, oneflow.py:46-54, paddle.py:49-58) with the framework's `einsum` and the
`forward` of its `Rearrange` layer; the bias is added in place.  (`EinMix.forwardNew` in `EinMixSizes` is that of
tensorflow.py:87-95 and flax.py:74-82; it has the same result where this one succeeds.) -/
def EinMix.forward [Add α] (call : Layer α → Tensor α → Py (Tensor α)) (f : Str → List (Tensor α) → Py (Tensor α))
    (m : EinMix α) (weight : Tensor α) (bias : Option (Tensor α)) (x : Tensor α) : Py (Tensor α) :=
  match callOpt call m.pre x with
  | .error e => .error e
  | .ok x =>
    match f m.einsumPattern [x, weight] with
    | .error e => .error e
    | .ok y =>
      match addOptBias y bias with
      | .error e => .error e
      | .ok y => callOpt call m.post y

end Einops
