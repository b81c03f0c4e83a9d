import Verif.Warnings
import Verif.EinMix

/-!
# Warnings of the constructor of `EinMix`

The constructor once more, with the warnings about names and the one about a weight without dimensions, and with a bias shape that
may be anything.
-/

namespace Einops

universe u

/-- The argument `bias_shape`: None, a string or another object -/
inductive BiasShape
  | absent
  | text (s : Str)
  | other
  deriving DecidableEq, Repr

variable {α : Type u}

/-- `EinMix(pattern, weight_shape, bias_shape, **axes_lengths)` (_einmix.py:67-187) with any `bias_shape`: an object that is not a
string is refused after the shape of the weight was computed (_einmix.py:128-129). -/
def makeEinMixArg [PyUnicode] (so : Nat → SetOrder) (pattern weightShape : Str) (biasShape : BiasShape)
    (kw : List (Str × Size)) : Py (EinMix α) :=
  match biasShape with
  | .absent => makeEinMix so pattern weightShape none kw
  | .text s => makeEinMix so pattern weightShape (some s) kw
  | .other =>
    match einmixPlan pattern weightShape kw with
    | .error e => .error e
    | .ok p =>
      match (makeRearrange so p.pre : Py (Option (Layer α))) with
      | .error e => .error e
      | .ok _ =>
        match (makeRearrange so (p.post.map (fun s => (s, []))) : Py (Option (Layer α))) with
        | .error e => .error e
        | .ok _ =>
          match einmixSizes p.left p.right p.weight kw with
          | .error e => .error e
          | .ok () =>
            match einmixWeight p.right p.weight kw with
            | .error e => .error e
            | .ok _ => .error .einops

section
variable [PyUnicode] (raises : NameWarning → Bool)

/-- _einmix.py:68-106 -/
def einmixPlanW (pattern weightShape : Str) (kw : List (Str × Size)) : Warned EinmixPlan :=
  (silent (splitArrow pattern)).andThen fun p =>
    (parseExpressionW raises 0 false false p.1).andThen fun left =>
      (parseExpressionW raises 1 false false p.2).andThen fun right =>
        (parseExpressionW raises 2 false false weightShape).andThen fun weight =>
          (silent (einmixChecks left right weight weightShape)).andThen fun _ =>
            silent (.ok ⟨left, right, weight, preReshape p.1 left kw, postReshape p.2 right⟩)

/-- `_create_rearrange_layers` (layers/torch.py:44-57) for one of the two layers (layers/__init__.py:20-26), no recipe being in the
cache -/
def makeRearrangeW (so : Nat → SetOrder) : Option (Str × List (Str × Size)) → Warned (Option (Layer α))
  | none => silent (.ok none)
  | some (p, kw) =>
    (prepareAllDimsW raises so p (Reduction.name "rearrange".toList : Reduction α).kind (kw.map Prod.fst)).andThen fun m =>
      silent (.ok (some ⟨p, .name "rearrange".toList, kw, m⟩))

/-- what follows after the bias shape was parsed (_einmix.py:131-156) -/
def biasRest (right : ParsedExpression) (kw : List (Str × Size)) (bias : ParsedExpression) : Py (Option (List Size)) :=
  if bias.identifiers.any (fun a => decide (a ∉ right.identifiers)) then .error .einops
  else if bias.identifiers.any (fun a => !hasSize kw a) then .error .einops
  else
    match biasLoop bias.identifiers kw ([], false) (right.composition.flatMap CompAxis.axes) with
    | .error e => .error e
    | .ok st => .ok (some st.1)

/-- _einmix.py:126-158 -/
def einmixBiasW (right : ParsedExpression) (kw : List (Str × Size)) : BiasShape → Warned (Option (List Size))
  | .absent => silent (.ok none)
  | .other => silent (.error .einops)
  | .text s => (parseExpressionW raises 3 false false s).andThen fun bias => silent (biasRest right kw bias)

/-- _einmix.py:160-187, layers/torch.py:33-42 -/
def einmixFinish (p : EinmixPlan) (pre post : Option (Layer α)) (w : List Size) (fan : Size) (b : Option (List Size)) :
    Py (EinMix α) :=
  if fan.val = 0 then .error .zeroDivision
  else
    match createParameters w b with
    | .error e => .error e
    | .ok (w, b) =>
      match einmixEinsum p.left p.right p.weight with
      | .error e => .error e
      | .ok s => .ok ⟨pre, post, w, b, s, fan.val⟩

/-- `EinMix(pattern, weight_shape, bias_shape, **axes_lengths)` (_einmix.py:67-187, layers/torch.py:32-57), no recipe being in the
cache.  (The patterns of the two layers are different, and each has one recipe for a number of dimensions.) -/
def makeEinMixW (so : Nat → SetOrder) (pattern weightShape : Str) (biasShape : BiasShape) (kw : List (Str × Size)) :
    Warned (EinMix α) :=
  (einmixPlanW raises pattern weightShape kw).andThen fun p =>
    (makeRearrangeW raises so p.pre).andThen fun pre =>
      (makeRearrangeW raises so (p.post.map (fun s => (s, [])))).andThen fun post =>
        (silent (einmixSizes p.left p.right p.weight kw)).andThen fun _ =>
          (if p.weight.identifiers = [] then warn raises .noDimensions else silent (.ok ())).andThen fun _ =>
            (silent (einmixWeight p.right p.weight kw)).andThen fun w =>
              (einmixBiasW raises p.right kw biasShape).andThen fun b =>
                silent (einmixFinish p pre post w.1 w.2 b)

end

/-! ### Specification -/

/-- the text of the bias shape -/
def BiasShape.str : BiasShape → Str
  | .text s => s
  | _ => []

/-- The warnings of one of the layers for the reshapes, whose pattern has the words of the text `s` on both sides: those for the
left side, and then those for the whole pattern and the keyword arguments, for each of `n` numbers of dimensions. -/
def reshapeWarnings (n : Nat) (s : Str) (names : List Str) : List NameWarning :=
  warningsFor (wordsOf s) ++ (List.replicate n (warningsFor (wordsOf s ++ wordsOf s ++ names))).flatten

/-- All warnings of the constructor in their order.  `pre` and `post`: is there a layer for the reshape before and after the product;
`bare`: has the weight no dimensions. -/
def mixWarnings (l r weight : Str) (bias : BiasShape) (names : List Str) (pre post bare : Bool) : List NameWarning :=
  warningsFor (wordsOf l ++ wordsOf r ++ wordsOf weight) ++
    ((if pre then reshapeWarnings (if '.' ∈ l then 8 else 1) l (names.filter (fun n => decide (n ∈ wordsOf l))) else []) ++
      ((if post then reshapeWarnings (if '.' ∈ r ∨ '…' ∈ r then 8 else 1) r [] else []) ++
        ((if bare then [.noDimensions] else []) ++ warningsFor (wordsOf bias.str))))

end Einops
