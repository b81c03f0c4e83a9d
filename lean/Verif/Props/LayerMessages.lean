import Verif.Proofs.MixMessages
import Verif.Props.OtherMessages

/-!
# The messages of layers say what is wrong (C84)
-/

namespace Einops

universe u

section
variable {α : Type u} [PyUnicode] {pattern weightShape : Str} {bias : Option Str} {kw : List (Str × Size)}

/-! ### the constructors with messages are the constructors -/

/-- **C84** Forgetting the messages gives the constructors of the model. -/
theorem C84_erase (so : Nat → SetOrder) (po : SetOrder) (red : Reduction α) :
    untold LayerMessage.kind (reduceLayerM so pattern red kw) = reduceLayer so pattern red kw ∧
    untold LayerMessage.kind (rearrangeLayerM so pattern kw : PyLayer (Layer α)) = rearrangeLayer so pattern kw ∧
    untold MixMessage.kind (makeEinMixM so po pattern weightShape bias kw : PyMix (EinMix α)) =
      makeEinMix so pattern weightShape bias kw :=
  ⟨untold_layerM _ _ _ _ _, untold_layerM _ _ _ _ _, untold_makeEinMixM _ _ _ _ _ _⟩

/-! ### `Rearrange` and `Reduce` -/

/-- **C84** A message of `Reduce(pattern, reduction, **kw)` shows the layer.  What it says besides is so for every tensor of some
number of dimensions that the layer is meant for; it never is about lengths or the number of dimensions. -/
theorem C84_reduce (hell : '…' ∉ pattern) {so : Nat → SetOrder} {red : Reduction α} {m : LayerMessage}
    (h : reduceLayerM so pattern red kw = .error (.said m)) :
    m.pattern = pattern ∧ m.reduction = some red.kind ∧ m.kw = kw ∧ ¬ m.inner.AboutShape ∧
      ∃ d, (∀ GL GR, IsPattern pattern GL GR → LayerRank GL d) ∧
        ∀ shape : List Nat, shape.length = d → m.inner.Says red.kind pattern kw shape := by
  obtain ⟨h0, h1, h2⟩ := layerM_says hell h
  rw [h0]
  exact ⟨rfl, rfl, rfl, h1, h2⟩

/-- **C84** The same for `Rearrange(pattern, **kw)`. -/
theorem C84_rearrange (hell : '…' ∉ pattern) {so : Nat → SetOrder} {m : LayerMessage}
    (h : (rearrangeLayerM so pattern kw : PyLayer (Layer α)) = .error (.said m)) :
    m.pattern = pattern ∧ m.reduction = none ∧ m.kw = kw ∧ ¬ m.inner.AboutShape ∧
      ∃ d, (∀ GL GR, IsPattern pattern GL GR → LayerRank GL d) ∧
        ∀ shape : List Nat, shape.length = d → m.inner.Says (.name "rearrange".toList) pattern kw shape := by
  obtain ⟨h0, h1, h2⟩ := layerM_says hell h
  rw [h0]
  exact ⟨rfl, rfl, rfl, h1, h2⟩

theorem untold_message {M : Type} {β : Type u} {k : M → PyErr} (hk : ∀ m, k m = .einops) {x : Except (Told M) β}
    (hx : x ≠ .error (.other .einops)) : untold k x = .error .einops ↔ ∃ m, x = .error (.said m) := by
  constructor
  · intro h
    cases x with
    | ok a => cases h
    | error f =>
      cases f with
      | said m => exact ⟨m, rfl⟩
      | other e =>
        cases h
        exact absurd rfl hx
  · rintro ⟨m, rfl⟩
    simp [untold, Told.kind, hk]

/-- **C84** The exceptions with such a message are the EinopsErrors. -/
theorem C84_layer_message (so : Nat → SetOrder) (red : Reduction α) :
    (reduceLayer so pattern red kw = .error .einops ↔ ∃ m, reduceLayerM so pattern red kw = .error (.said m)) ∧
    ((rearrangeLayer so pattern kw : Py (Layer α)) = .error .einops ↔
      ∃ m, (rearrangeLayerM so pattern kw : PyLayer (Layer α)) = .error (.said m)) := by
  rw [show reduceLayer so pattern red kw = untold LayerMessage.kind (reduceLayerM so pattern red kw) from
    (untold_layerM _ _ _ _ _).symm, show rearrangeLayer so pattern kw =
      untold LayerMessage.kind (rearrangeLayerM so pattern kw : PyLayer (Layer α)) from (untold_layerM _ _ _ _ _).symm]
  exact ⟨untold_message (fun _ => rfl) layerM_other, untold_message (fun _ => rfl) layerM_other⟩

/-! ### `EinMix` -/

/-- **C84** What a message of the constructor of `EinMix` says is so, and everything checked before is in order. -/
theorem C84_einmix (hp : '…' ∉ pattern) (hw : '…' ∉ weightShape) (hb : ∀ s, bias = some s → '…' ∉ s)
    (hk : ellipsisStr ∉ kw.map Prod.fst ∧ dots ∉ kw.map Prod.fst) {so : Nat → SetOrder} {po : SetOrder} {m : MixMessage}
    (h : (makeEinMixM so po pattern weightShape bias kw : PyMix (EinMix α)) = .error (.said m)) :
    m.Says pattern weightShape bias kw := makeEinMixM_says hp hw hb hk.1 hk.2 h

/-- **C84** The exceptions with such a message are the EinopsErrors. -/
theorem C84_einmix_message (so : Nat → SetOrder) (po : SetOrder) :
    (makeEinMix so pattern weightShape bias kw : Py (EinMix α)) = .error .einops ↔
      ∃ m, (makeEinMixM so po pattern weightShape bias kw : PyMix (EinMix α)) = .error (.said m) := by
  rw [show makeEinMix so pattern weightShape bias kw =
    untold MixMessage.kind (makeEinMixM so po pattern weightShape bias kw : PyMix (EinMix α)) from
      (untold_makeEinMixM _ _ _ _ _ _).symm]
  exact untold_message (fun _ => rfl) makeEinMixM_other

/-- **C84** A number other than 1 in the output is reported as an identifier that is not recognized, never with the message
about anonymous axes. -/
theorem C84_number_in_output {GL GR GW : List Elem} (hp : IsPattern pattern GL GR) (hw : IsSide false false weightShape GW)
    (hn : ¬ OnlyUnits GR) (so : Nat → SetOrder) (po : SetOrder) :
    ∃ A, (makeEinMixM so po pattern weightShape bias kw : PyMix (EinMix α)) = .error (.said (.unrecognized A)) ∧
      ∃ i v, Axis.anon 1 i v ∈ A := by
  obtain ⟨hell, l, r, hs, hl, hr⟩ := isPattern_split hp
  have hparse : ∀ (side : Nat) {s : Str} {G : List Elem}, IsSide false false s G →
      tellingSide MixMessage.side (parseExpressionM side false false s) = .ok (describe side G) := by
    intro side s G hG
    have h1 := erase_parseExpressionM side false false s
    rw [(parseExpression_iff side false false s (isSide_no_special hG (by simp)) _).2 ⟨G, hG, rfl⟩] at h1
    cases hq : parseExpressionM side false false s with
    | error m => rw [hq] at h1; cases h1
    | ok pe => rw [hq] at h1; cases h1; rfl
  unfold OnlyUnits at hn
  push Not at hn
  obtain ⟨w, hw', hnum, hval⟩ := hn
  obtain ⟨i, hi, rfl⟩ := List.mem_iff_getElem.1 hw'
  have hax : Axis.anon 1 (0 + i) (decimalValue (sideWords GR)[i]) ∈ (describe 1 GR).identifiers.filter
      (fun a => decide (a ∉ (describe 0 GL).identifiers ++ (describe 2 GW).identifiers)) := by
    rw [List.mem_filter, decide_eq_true_eq, List.mem_append, not_or]
    refine ⟨mem_ids.2 (mem_wordsAxes.2 ⟨i, hi, anon_mem_wordAxes.2 ⟨rfl, rfl, hnum, hval, rfl⟩⟩), ?_, ?_⟩
    · exact fun h => absurd (anon_mem_ids h).1 (by decide)
    · exact fun h => absurd (anon_mem_ids h).1 (by decide)
  refine ⟨po.order 0 ((describe 1 GR).identifiers.filter
      (fun a => decide (a ∉ (describe 0 GL).identifiers ++ (describe 2 GW).identifiers))), ?_, _, _,
    (po.perm 0 _).mem_iff.2 hax⟩
  unfold makeEinMixM einmixPlanM
  rw [hs]
  simp only
  rw [hparse 0 hl]
  simp only
  rw [hparse 1 hr]
  simp only
  rw [hparse 2 hw]
  simp only
  unfold einmixChecksM reportAxes
  rw [if_pos (List.ne_nil_of_mem hax)]

/-! ### the texts -/

/-- **C84** The text of a layer's exception shows the layer as `repr` does and ends with the message of the preparation. -/
theorem C84_text (F : Format) (m : LayerMessage) :
    ∃ a b, m.text F = a ++ m.shown F ++ b ++ m.inner.text F ∧ ∃ c d, m.shown F = c ++ reprStr F.printable m.pattern ++ d := by
  refine ⟨_, _, rfl, ?_⟩
  unfold LayerMessage.shown
  split
  · exact ⟨"Rearrange".toList ++ ['('], reprSizes m.kw ++ [')'], by simp [reprRearrange]⟩
  · exact ⟨"Reduce".toList ++ ['('], _, by simp only [reprReduce, List.append_assoc]; rfl⟩
  · exact ⟨"Reduce".toList ++ ['('], _, by simp only [List.append_assoc]; rfl⟩

end

/-! ### Examples -/

section
attribute [local instance] asciiUnicode

/-- what is said when a layer is created -/
def saidLayer (x : PyLayer (Layer ℤ)) : String :=
  match x with
  | .ok _ => "a layer"
  | .error (.other _) => "another exception"
  | .error (.said m) => String.ofList (m.text asciiFormat)

/-- what is said when an `EinMix` is created -/
def saidMix (po : SetOrder) (p w : String) (b : Option String) (kw : List (Str × Size)) : String :=
  match (makeEinMixM (fun _ => idOrder) po p.toList w.toList (b.map String.toList) kw : PyMix (EinMix ℤ)) with
  | .ok _ => "a layer"
  | .error (.other _) => "another exception"
  | .error (.said m) => String.ofList (m.text asciiFormat)

example : saidLayer (rearrangeLayerM (fun _ => idOrder) "a b -> a".toList [kwInt "b" 2]) =
    " Error while preparing Rearrange('a b -> a', b=2)\n Identifiers only on one side of expression (should be on both): {'b'}" := by
  decide +kernel
example : saidLayer (reduceLayerM (fun _ => idOrder) "(a b) -> a".toList (.name "max".toList) []) =
    " Error while preparing Reduce('(a b) -> a', 'max')\n Could not infer sizes for {'a', 'b'}" := by decide +kernel
example : saidLayer (reduceLayerM (fun _ => idOrder) "a ( -> a".toList (.callable (fun x _ => .ok x)) []) =
    " Error while preparing Reduce('a ( -> a', <function>)\n Imbalanced parentheses in expression: \"a ( \"" := by decide +kernel
example : saidLayer (rearrangeLayerM (fun _ => idOrder) "a b".toList []) = "another exception" := by decide +kernel
example : saidLayer (rearrangeLayerM (fun _ => idOrder) "... (a b) -> a ... b".toList [kwInt "b" 2]) = "a layer" := by
  decide +kernel

example : saidMix idOrder "b c -> b d" "c" none [kwInt "c" 3] =
    "Unrecognized identifiers on the right side of EinMix {'d'}" := by decide +kernel
example : saidMix idOrder "b c -> b 2" "c" none [kwInt "c" 3] =
    "Unrecognized identifiers on the right side of EinMix {2-axis}" := by decide +kernel
example : saidMix idOrder "b ... -> b ..." "b ..." none [kwInt "b" 3] =
    "Ellipsis is not supported in weight, as its shape should be fully specified" := by decide +kernel
example : saidMix idOrder "b ... -> b" "b" none [kwInt "b" 3] = "Ellipsis in EinMix should be on both sides, b ... -> b" := by
  decide +kernel
example : saidMix idOrder "(b ...) -> ..." "b" none [kwInt "b" 3] =
    "Ellipsis on left side can't be in parenthesis, got (b ...) -> ..." := by decide +kernel
example : saidMix idOrder "b 3 -> b" "b" none [kwInt "b" 3] = "Anonymous axes (numbers) are not allowed in EinMix" := by
  decide +kernel
example : saidMix idOrder "b c -> b" "(b c)" none [kwInt "b" 3] = "Parenthesis is not allowed in weight shape: (b c)" := by
  decide +kernel
example : saidMix idOrder "(b c) d -> b" "d" none [kwInt "d" 3] =
    " Error while preparing Rearrange('(b c) d -> b c d', d=3)\n Could not infer sizes for {'b', 'c'}" := by decide +kernel
-- which axis of the weight is named depends on the order of a set
example : saidMix idOrder "b c -> b" "b c" none [] = "Dimension b of weight should be specified" := by decide +kernel
example : saidMix revOrder "b c -> b" "b c" none [] = "Dimension c of weight should be specified" := by decide +kernel
example : saidMix idOrder "b c -> b" "c" none [kwInt "c" 3, kwInt "x" 3, kwInt "y" 2] = "Axes {'x', 'y'} are not used in pattern" := by
  decide +kernel
example : saidMix idOrder "b c -> b" "c d" none [kwInt "c" 3, kwInt "d" 2] = "Weight axes {'d'} are redundant" := by decide +kernel
example : saidMix idOrder "b c -> b d" "c d" (some "e d") [kwInt "c" 3, kwInt "d" 2] =
    "Bias axes {'e'} not present in output" := by decide +kernel
example : saidMix idOrder "b c -> b d" "c d" (some "b d") [kwInt "c" 3, kwInt "d" 2] =
    "Sizes not provided for bias axes {'b'}" := by decide +kernel
example : saidMix idOrder "b ... c -> b ... d" "c d" (some "b d") [kwInt "b" 4, kwInt "c" 3, kwInt "d" 2] =
    "all bias dimensions should go after ellipsis in the output" := by decide +kernel
-- an ellipsis in the shape of the bias is said to lack a size
example : saidMix idOrder "b ... c -> b ... d" "c d" (some "... d") [kwInt "c" 3, kwInt "d" 2] =
    String.ofList ("Sizes not provided for bias axes {".toList ++ reprStr asciiFormat.printable ellipsisStr ++ "}".toList) := by
  decide +kernel
example : saidMix idOrder "b c -> b d" "c d" (some "d d") [kwInt "c" 3, kwInt "d" 2] =
    "Indexing expression contains duplicate dimension \"d\"" := by decide +kernel
example : saidMix idOrder "b c" "c d" none [] = "another exception" := by decide +kernel
example : saidMix idOrder "b c -> b d" "c d" (some "d") [kwInt "c" 3, kwInt "d" 2] = "a layer" := by decide +kernel

/-- `C84_einmix`: the axes of `b c -> b d` with weight `c d` and bias `b d` without sizes -/
example : (MixMessage.biasSizes [.str "b".toList]).Says "b c -> b d".toList "c d".toList (some "b d".toList)
    [kwInt "c" 3, kwInt "d" 2] :=
  C84_einmix (α := ℤ) (by decide) (by decide) (by rintro s ⟨⟩; decide) (by decide) (so := fun _ => idOrder) (po := idOrder) (by rfl)

end

end Einops
