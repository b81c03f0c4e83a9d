import Verif.LayerMessages
import Verif.MessageSpec
import Verif.EinMixSpec

/-!
# What the messages of layers claim (specification)
-/

namespace Einops

section
variable [PyUnicode]

/-- messages about the number of dimensions or about lengths, which a layer does not know when it is created -/
def Message.AboutShape : Message → Prop
  | .tooFewDims .. => True
  | .wrongDims .. => True
  | .mismatch .. => True
  | .notDivisible .. => True
  | _ => False

/-- The rules for pattern and weight, in the order in which they are checked. -/
structure PlanRules (GL GR GW : List Elem) : Prop where
  right_known : ∀ a ∈ sideAxes 1 GR, a ∈ sideAxes 0 GL ∨ a ∈ sideAxes 2 GW
  weight_fixed : dots ∉ sideWords GW
  ellipsis_both : dots ∈ sideWords GL ↔ dots ∈ sideWords GR
  ellipsis_left : ∀ ws, Elem.paren ws ∈ GL → dots ∉ ws
  units : OnlyUnits GL ∧ OnlyUnits GR ∧ OnlyUnits GW
  weight_flat : ∀ ws, Elem.paren ws ∉ GW

/-- The meaning of a message of the constructor of `EinMix` with input `GL`, output `GR` and weight `GW`.  All rules checked
before the one that the message is about are met. -/
def MixMessage.SaysOf (pattern weightShape : Str) (bias : Option Str) (kw : List (Str × Size)) (GL GR GW : List Elem) :
    MixMessage → Prop
  | .side _ => False
  -- these axes of the output are in neither the input nor the weight
  | .unrecognized A => Lists A (fun a => a ∈ sideAxes 1 GR ∧ a ∉ sideAxes 0 GL ∧ a ∉ sideAxes 2 GW)
  | .weightEllipsis => (∀ a ∈ sideAxes 1 GR, a ∈ sideAxes 0 GL ∨ a ∈ sideAxes 2 GW) ∧ dots ∈ sideWords GW
  -- there is an ellipsis in the input, none in the output
  | .ellipsisBoth p => p = pattern ∧ (∀ a ∈ sideAxes 1 GR, a ∈ sideAxes 0 GL ∨ a ∈ sideAxes 2 GW) ∧
      dots ∉ sideWords GW ∧ dots ∈ sideWords GL ∧ dots ∉ sideWords GR
  | .ellipsisParen p => p = pattern ∧ (∀ a ∈ sideAxes 1 GR, a ∈ sideAxes 0 GL ∨ a ∈ sideAxes 2 GW) ∧
      dots ∉ sideWords GW ∧ dots ∈ sideWords GR ∧ ∃ ws, Elem.paren ws ∈ GL ∧ dots ∈ ws
  -- there is a number other than 1 in the input or the weight (one in the output is reported as unrecognized)
  | .anonymous => (∀ a ∈ sideAxes 1 GR, a ∈ sideAxes 0 GL ∨ a ∈ sideAxes 2 GW) ∧ dots ∉ sideWords GW ∧
      (dots ∈ sideWords GL ↔ dots ∈ sideWords GR) ∧ (∀ ws, Elem.paren ws ∈ GL → dots ∉ ws) ∧ OnlyUnits GR ∧
      ∃ w ∈ sideWords GL ++ sideWords GW, IsNumber w ∧ decimalValue w ≠ 1
  | .parenthesis s => s = weightShape ∧ (∀ a ∈ sideAxes 1 GR, a ∈ sideAxes 0 GL ∨ a ∈ sideAxes 2 GW) ∧
      dots ∉ sideWords GW ∧ (dots ∈ sideWords GL ↔ dots ∈ sideWords GR) ∧ (∀ ws, Elem.paren ws ∈ GL → dots ∉ ws) ∧
      OnlyUnits GL ∧ OnlyUnits GR ∧ OnlyUnits GW ∧ ∃ ws, Elem.paren ws ∈ GW
  -- the layer shown takes the input apart with the given sizes, and the axes listed are the axes of a group of the input
  -- without sizes, at least two
  | .layer m => PlanRules GL GR GW ∧ m.reduction = none ∧
      (∃ l r, pattern = l ++ ['-', '>'] ++ r ∧ IsSide false false l GL ∧
        m.pattern = l ++ ['-', '>', ' '] ++ List.intercalate [' '] (axisWords GL)) ∧
      m.kw = kw.filter (fun p => decide (p.1 ∈ axisWords GL)) ∧
      ∃ A ws, m.inner = .cannotInfer A ∧ 2 ≤ A.length ∧ Elem.paren ws ∈ GL ∧
        Lists A (fun a => ∃ w ∈ ws, ¬ IsNumber w ∧ w ∉ kw.map Prod.fst ∧ a = .str w)
  -- this axis of the weight has no size
  | .weightSize a => PlanRules GL GR GW ∧ ∃ w ∈ axisWords GW, w ∉ kw.map Prod.fst ∧ a = .str w
  -- these are the names with sizes that are in neither the input nor the weight
  | .unusedSizes A => PlanRules GL GR GW ∧ (∀ w ∈ axisWords GW, w ∈ kw.map Prod.fst) ∧
      Lists A (fun a => ∃ n ∈ kw.map Prod.fst, n ∉ nameWords GL ∧ n ∉ nameWords GW ∧ a = .str n)
  -- these are the axes of the weight that are in neither the input nor the output
  | .redundant A => PlanRules GL GR GW ∧ (∀ w ∈ axisWords GW, w ∈ kw.map Prod.fst) ∧
      (∀ n ∈ kw.map Prod.fst, n ∈ nameWords GL ∨ n ∈ nameWords GW) ∧
      Lists A (fun a => ∃ w ∈ axisWords GW, w ∉ sideWords GL ∧ w ∉ sideWords GR ∧ a = .str w)
  -- these are the axes of the bias that are not in the output
  | .biasNotOutput A => EinmixSides GL GR GW (kw.map Prod.fst) ∧ NoUnits GW ∧ ∃ s GB, bias = some s ∧ IsSide false false s GB ∧
      Lists A (fun a => a ∈ sideAxes 3 GB ∧ a ∉ sideAxes 1 GR)
  -- these are the axes of the bias without sizes, the ellipsis among them if there is one
  | .biasSizes A => EinmixSides GL GR GW (kw.map Prod.fst) ∧ NoUnits GW ∧ ∃ s GB, bias = some s ∧ IsSide false false s GB ∧
      OnlyUnits GB ∧ (∀ w ∈ axisWords GB, w ∈ sideWords GR) ∧
      Lists A (fun a => ∃ w ∈ axisWords GB, w ∉ kw.map Prod.fst ∧ a = if w = dots then .str ellipsisStr else .str w)
  -- an axis of the bias stands before the ellipsis in the output
  | .biasAfterEllipsis => EinmixSides GL GR GW (kw.map Prod.fst) ∧ NoUnits GW ∧ ∃ s GB, bias = some s ∧
      IsSide false false s GB ∧ OnlyUnits GB ∧ (∀ w ∈ axisWords GB, w ∈ sideWords GR ∧ w ∈ kw.map Prod.fst) ∧
      ∃ p q, sideWords GR = p ++ dots :: q ∧ ∃ w ∈ axisWords GB, w ∈ p

/-- The meaning of a message of the constructor of `EinMix`. -/
def MixMessage.Says (pattern weightShape : Str) (bias : Option Str) (kw : List (Str × Size)) : MixMessage → Prop
  -- one of the four texts is not a side for the reason given, and those read before are sides
  | .side m =>
      (∃ l r, pattern = l ++ ['-', '>'] ++ r ∧ ¬ ['-', '>'] <:+: l ∧ ¬ ['-', '>'] <:+: r ∧
        (m.Says false false l ∨ ((∃ G, IsSide false false l G) ∧ m.Says false false r))) ∨
      ((∃ GL GR, IsPattern pattern GL GR) ∧ m.Says false false weightShape) ∨
      ∃ GL GR GW s, IsPattern pattern GL GR ∧ IsSide false false weightShape GW ∧
        EinmixSides GL GR GW (kw.map Prod.fst) ∧ NoUnits GW ∧ bias = some s ∧ m.Says false false s
  | m => ∃ GL GR GW, IsPattern pattern GL GR ∧ IsSide false false weightShape GW ∧
      m.SaysOf pattern weightShape bias kw GL GR GW

end

end Einops
