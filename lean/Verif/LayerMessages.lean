import Verif.OtherMessages
import Verif.EinMix

/-!
# Messages of layers

The constructors of `Rearrange`, `Reduce` and `EinMix` once more, with the messages of `EinopsError`.  Forgetting the messages
gives the functions of `Layers` and `EinMix` (`Proofs/LayerMessages.lean`).
-/

namespace Einops

universe u

/-! ### `Rearrange` and `Reduce` -/

/-- What a layer says when it cannot be prepared (layers/__init__.py:40, 90): itself (`reduction` is absent for `Rearrange`) and
the message of the preparation. -/
structure LayerMessage where
  pattern : Str
  reduction : Option OpKind
  kw : List (Str × Size)
  inner : Message
  deriving DecidableEq, Repr

/-- the class of the exception -/
def LayerMessage.kind : LayerMessage → PyErr := fun _ => .einops

abbrev PyLayer (α : Type u) := Except (Told LayerMessage) α

section
variable [PyUnicode] {α : Type u}

/-- `_prepare_recipes_for_all_dims(pattern, operation, axes_names)` (einops.py:445-457) -/
def prepareAllDimsM (so : Nat → SetOrder) (pattern : Str) (op : OpKind) (names : List Str) :
    PyM (List (Nat × TransformRecipe)) :=
  match splitArrow pattern with
  | .error e => .error (.other e)
  | .ok (l, _) =>
    match parseExpressionM 0 false false l with
    | .error m => .error (.einops (.side m))
    | .ok left =>
      mapE (fun d =>
        match prepareRecipeM (so d) pattern op names d with
        | .error e => .error e
        | .ok r => .ok (d, r)) (layerDims left)

/-- `__init__` with `multirecipe` (layers/__init__.py:20-26, 34-40, 70-76, 84-90); `shown` is the reduction as `repr` shows it -/
def layerM (so : Nat → SetOrder) (shown : Option OpKind) (pattern : Str) (red : Reduction α) (kw : List (Str × Size)) :
    PyLayer (Layer α) :=
  match prepareAllDimsM so pattern red.kind (kw.map Prod.fst) with
  | .error (.einops m) => .error (.said ⟨pattern, shown, kw, m⟩)
  | .error (.other e) => .error (.other e)
  | .ok m => .ok ⟨pattern, red, kw, m⟩

/-- `ReduceMixin.__init__` (layers/__init__.py:70-76, 84-90) -/
def reduceLayerM (so : Nat → SetOrder) (pattern : Str) (red : Reduction α) (kw : List (Str × Size)) : PyLayer (Layer α) :=
  layerM so (some red.kind) pattern red kw

/-- `RearrangeMixin.__init__` (layers/__init__.py:20-26, 34-40) -/
def rearrangeLayerM (so : Nat → SetOrder) (pattern : Str) (kw : List (Str × Size)) : PyLayer (Layer α) :=
  layerM so none pattern (.name "rearrange".toList) kw

end

/-! ### `EinMix` -/

/-- What the messages of the constructor of `EinMix` say (_einmix.py:72-156). -/
inductive MixMessage
  | side (m : SideMessage)
  | unrecognized (axes : List Axis)
  | weightEllipsis
  | ellipsisBoth (pattern : Str)
  | ellipsisParen (pattern : Str)
  | anonymous
  | parenthesis (weightShape : Str)
  | layer (m : LayerMessage)
  | weightSize (axis : Axis)
  | unusedSizes (axes : List Axis)
  | redundant (axes : List Axis)
  | biasNotOutput (axes : List Axis)
  | biasSizes (axes : List Axis)
  | biasAfterEllipsis
  deriving DecidableEq, Repr

/-- the class of the exception -/
def MixMessage.kind : MixMessage → PyErr := fun _ => .einops

abbrev PyMix (α : Type u) := Except (Told MixMessage) α

/-- `_report_axes(axes, report_message)` (_einmix.py:10-12), followed by the rest; the set is printed in the order of its
iteration -/
def reportAxes {α : Type u} (po : SetOrder) (l : List Axis) (m : List Axis → MixMessage) (rest : PyMix α) : PyMix α :=
  if l ≠ [] then .error (.said (m (po.order 0 l))) else rest

/-- The checks on the parsed pattern and weight (_einmix.py:72-86) -/
def einmixChecksM (po : SetOrder) (pattern : Str) (left right weight : ParsedExpression) (weightShape : Str) : PyMix Unit :=
  reportAxes po (right.identifiers.filter (fun a => decide (a ∉ left.identifiers ++ weight.identifiers))) .unrecognized
    (if weight.hasEllipsis then .error (.said .weightEllipsis)
    else if (left.hasEllipsis || right.hasEllipsis) && !(left.hasEllipsis && right.hasEllipsis) then
      .error (.said (.ellipsisBoth pattern))
    else if (left.hasEllipsis || right.hasEllipsis) && decide (left.ellParen = some true) then
      .error (.said (.ellipsisParen pattern))
    else if left.nonUnitary || right.nonUnitary || weight.nonUnitary then .error (.said .anonymous)
    else if '(' ∈ weightShape ∨ ')' ∈ weightShape then .error (.said (.parenthesis weightShape))
    else .ok ())

/-- Checks of the sizes (_einmix.py:110-119).  The loop over `weight.identifiers`, a set, stops at the first axis without
size. -/
def einmixSizesM (po : SetOrder) (left right weight : ParsedExpression) (kw : List (Str × Size)) : PyMix Unit :=
  match (po.order 1 weight.identifiers).find? (fun a => !hasSize kw a) with
  | some a => .error (.said (.weightSize a))
  | none =>
    reportAxes po (((kw.map Prod.fst).dedup.map Axis.str).filter
        (fun a => decide (a ∉ left.identifiers ++ weight.identifiers))) .unusedSizes
      (reportAxes po (weight.identifiers.filter (fun a => decide (a ∉ left.identifiers ++ right.identifiers))) .redundant
        (.ok ()))

/-- Body of the loop over the output axes for the shape of the bias (_einmix.py:142-156) -/
def biasStepM (bias : List Axis) (kw : List (Str × Size)) (st : List Size × Bool) (a : Axis) : PyMix (List Size × Bool) :=
  if a = .str ellipsisStr then if st.2 then .error (.said .biasAfterEllipsis) else .ok st
  else if a ∈ bias then
    match sizeOf kw a with
    | .error e => .error (.other e)
    | .ok s => .ok (st.1 ++ [s], true)
  else .ok (st.1 ++ [⟨1, true⟩], st.2)

/-- The loop over the output axes for the shape of the bias (_einmix.py:142-156) -/
def biasLoopM (bias : List Axis) (kw : List (Str × Size)) : List Size × Bool → List Axis → PyMix (List Size × Bool)
  | st, [] => .ok st
  | st, a :: as =>
    match biasStepM bias kw st a with
    | .error e => .error e
    | .ok st => biasLoopM bias kw st as

section
variable [PyUnicode] {α : Type u}

/-- `_bias_shape` (_einmix.py:126-158); a bias shape that is not a string is not modelled -/
def einmixBiasM (po : SetOrder) (right : ParsedExpression) (kw : List (Str × Size)) : Option Str → PyMix (Option (List Size))
  | none => .ok none
  | some s =>
    match tellingSide .side (parseExpressionM 3 false false s) with
    | .error e => .error e
    | .ok bias =>
      reportAxes po (bias.identifiers.filter (fun a => decide (a ∉ right.identifiers))) .biasNotOutput
        (reportAxes po (bias.identifiers.filter (fun a => !hasSize kw a)) .biasSizes
          (match biasLoopM bias.identifiers kw ([], false) (right.composition.flatMap CompAxis.axes) with
          | .error e => .error e
          | .ok st => .ok (some st.1)))

/-- The first part of `initialize_einmix` (_einmix.py:68-106) -/
def einmixPlanM (po : SetOrder) (pattern weightShape : Str) (kw : List (Str × Size)) : PyMix EinmixPlan :=
  match splitArrow pattern with
  | .error e => .error (.other e)
  | .ok (l, r) =>
    match tellingSide .side (parseExpressionM 0 false false l) with
    | .error e => .error e
    | .ok left =>
      match tellingSide .side (parseExpressionM 1 false false r) with
      | .error e => .error e
      | .ok right =>
        match tellingSide .side (parseExpressionM 2 false false weightShape) with
        | .error e => .error e
        | .ok weight =>
          match einmixChecksM po pattern left right weight weightShape with
          | .error e => .error e
          | .ok () => .ok ⟨left, right, weight, preReshape l left kw, postReshape r right⟩

/-- `_create_rearrange_layers` (layers/torch.py:44-57) for one of the two layers -/
def makeRearrangeM (so : Nat → SetOrder) : Option (Str × List (Str × Size)) → PyMix (Option (Layer α))
  | none => .ok none
  | some (p, kw) =>
    match rearrangeLayerM so p kw with
    | .error (.said m) => .error (.said (.layer m))
    | .error (.other e) => .error (.other e)
    | .ok l => .ok (some l)

/-- `EinMix(pattern, weight_shape, bias_shape, **axes_lengths)` (_einmix.py:67-187, layers/torch.py:32-57); sets are printed in
the order `po` and iterated in the orders `so` while the two layers are prepared. -/
def makeEinMixM (so : Nat → SetOrder) (po : SetOrder) (pattern weightShape : Str) (biasShape : Option Str)
    (kw : List (Str × Size)) : PyMix (EinMix α) :=
  match einmixPlanM po pattern weightShape kw with
  | .error e => .error e
  | .ok p =>
    match makeRearrangeM so p.pre with
    | .error e => .error e
    | .ok pre =>
      match makeRearrangeM so (p.post.map (fun s => (s, []))) with
      | .error e => .error e
      | .ok post =>
        match einmixSizesM po p.left p.right p.weight kw with
        | .error e => .error e
        | .ok () =>
          match telling (einmixWeight p.right p.weight kw) with
          | .error e => .error e
          | .ok (w, fan) =>
            match einmixBiasM po p.right kw biasShape with
            | .error e => .error e
            | .ok b =>
              if fan.val = 0 then .error (.other .zeroDivision)
              else
                match telling (createParameters w b) with
                | .error e => .error e
                | .ok (w, b) =>
                  match telling (einmixEinsum p.left p.right p.weight) with
                  | .error e => .error e
                  | .ok s => .ok ⟨pre, post, w, b, s, fan.val⟩

end

/-! ### The texts -/

/-- `repr` of a layer that is being prepared (layers/__init__.py:28-32, 78-82) -/
def LayerMessage.shown (F : Format) (m : LayerMessage) : Str :=
  match m.reduction with
  | none => reprRearrange F.printable "Rearrange".toList m.pattern m.kw
  | some (.name s) => reprReduce F.printable "Reduce".toList m.pattern s m.kw
  | some .callable =>
    "Reduce".toList ++ ['('] ++ (reprStr F.printable m.pattern ++ [',', ' '] ++ F.callable ++ reprSizes m.kw) ++ [')']

/-- layers/__init__.py:40, 90 -/
def LayerMessage.text (F : Format) (m : LayerMessage) : Str :=
  " Error while preparing ".toList ++ m.shown F ++ "\n ".toList ++ m.inner.text F

/-- `str` of an axis -/
def Axis.text : Axis → Str
  | .str s => s
  | .anon _ _ v => natStr v ++ "-axis".toList

/-- the messages of _einmix.py -/
def MixMessage.text (F : Format) : MixMessage → Str
  | .side m => m.text
  | .unrecognized l => "Unrecognized identifiers on the right side of EinMix ".toList ++ setText F l
  | .weightEllipsis => "Ellipsis is not supported in weight, as its shape should be fully specified".toList
  | .ellipsisBoth p => "Ellipsis in EinMix should be on both sides, ".toList ++ p
  | .ellipsisParen p => "Ellipsis on left side can't be in parenthesis, got ".toList ++ p
  | .anonymous => "Anonymous axes (numbers) are not allowed in EinMix".toList
  | .parenthesis s => "Parenthesis is not allowed in weight shape: ".toList ++ s
  | .layer m => m.text F
  | .weightSize a => "Dimension ".toList ++ a.text ++ " of weight should be specified".toList
  | .unusedSizes l => "Axes ".toList ++ setText F l ++ " are not used in pattern".toList
  | .redundant l => "Weight axes ".toList ++ setText F l ++ " are redundant".toList
  | .biasNotOutput l => "Bias axes ".toList ++ setText F l ++ " not present in output".toList
  | .biasSizes l => "Sizes not provided for bias axes ".toList ++ setText F l
  | .biasAfterEllipsis => "all bias dimensions should go after ellipsis in the output".toList

end Einops
