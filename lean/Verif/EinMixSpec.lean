import Verif.EinMix
import Verif.EinsumSpec
import Verif.Legal

/-!
# Specification of `EinMix`
-/

namespace Einops

universe u

section
variable [PyUnicode]

/-- the axes of a side in the order of writing: names, and the ellipsis; numbers are left out -/
def axisWords (G : List Elem) : List Str := (sideWords G).filter (fun w => decide (¬ IsNumber w))

/-- the names of a side in the order of writing -/
def nameWords (G : List Elem) : List Str := (axisWords G).filter (fun w => decide (w ≠ dots))

/-- Rules for the pattern, the weight and the names with sizes. -/
structure EinmixSides (GL GR GW : List Elem) (names : List Str) : Prop where
  /-- output axes are in the input or the weight -/
  right_known : ∀ w ∈ axisWords GR, w ∈ sideWords GL ∨ w ∈ sideWords GW
  weight_fixed : dots ∉ sideWords GW
  ellipsis_both : dots ∈ sideWords GL ↔ dots ∈ sideWords GR
  ellipsis_left : ∀ ws, Elem.paren ws ∈ GL → dots ∉ ws
  units_left : OnlyUnits GL
  units_right : OnlyUnits GR
  units_weight : OnlyUnits GW
  weight_flat : ∀ ws, Elem.paren ws ∉ GW
  /-- at most one axis of an input group has no size -/
  unknowns : ∀ ws, Elem.paren ws ∈ GL → (ws.filter (fun w => decide (¬ IsNumber w ∧ w ∉ names))).length ≤ 1
  weight_sized : ∀ w ∈ axisWords GW, w ∈ names
  sizes_used : ∀ n ∈ names, n ∈ nameWords GL ∨ n ∈ nameWords GW
  weight_used : ∀ w ∈ axisWords GW, w ∈ sideWords GL ∨ w ∈ sideWords GR

/-- the weight is written without `1` -/
def NoUnits (GW : List Elem) : Prop := ∀ w ∈ sideWords GW, ¬ IsNumber w

/-- Rules for the bias. -/
structure BiasOK (GR GB : List Elem) (names : List Str) : Prop where
  units : OnlyUnits GB
  in_output : ∀ w ∈ axisWords GB, w ∈ sideWords GR
  sized : ∀ w ∈ axisWords GB, w ∈ names
  /-- in the output, bias axes come after the ellipsis -/
  after : ∀ p q, sideWords GR = p ++ dots :: q → ∀ w ∈ axisWords GB, w ∉ p

/-- the bias shape, if there is one, is a legal side obeying the rules -/
def BiasLegal (GR : List Elem) (names : List Str) (bias : Option Str) : Prop :=
  ∀ s, bias = some s → ∃ GB, IsSide false false s GB ∧ BiasOK GR GB names

/-- the lengths of the weight axes that are summed over are not 0 -/
def FanInOK (GR GW : List Elem) (kw : List (Str × Size)) : Prop :=
  ∀ w s, w ∈ sideWords GW → w ∉ sideWords GR → (w, s) ∈ kw → s.val ≠ 0

/-- the lengths of weight and bias axes are not negative -/
def LengthsOK (GW : List Elem) (bias : Option Str) (kw : List (Str × Size)) : Prop :=
  ∀ w s, (w, s) ∈ kw → (w ∈ sideWords GW ∨ ∃ t GB, bias = some t ∧ IsSide false false t GB ∧ w ∈ sideWords GB) →
    0 ≤ s.val

/-- there is a letter for every name -/
def LettersOK (GL GR GW : List Elem) : Prop := distinct (nameWords GL ++ nameWords GR ++ nameWords GW) ≤ 26

/-- The length of an axis of the weight. -/
def WeightDim (kw : List (Str × Size)) (w : Str) (d : Nat) : Prop := ∃ s, (w, s) ∈ kw ∧ (d : Int) = s.val

/-- The length of a dimension of the bias: that of the axis if it is a bias axis, else 1. -/
def BiasDim (GB : List Elem) (kw : List (Str × Size)) (w : Str) (d : Nat) : Prop :=
  (w ∈ sideWords GB ∧ WeightDim kw w d) ∨ (w ∉ sideWords GB ∧ d = 1)

/-- shapes of the parameters -/
structure ParamShapes (GR GW : List Elem) (bias : Option Str) (kw : List (Str × Size)) (ws : List Nat)
    (bs : Option (List Nat)) : Prop where
  weight : List.Forall₂ (WeightDim kw) (sideWords GW) ws
  no_bias : bias = none → bs = none
  bias : ∀ t GB, bias = some t → IsSide false false t GB → ∃ b, bs = some b ∧
    List.Forall₂ (BiasDim GB kw) (nameWords GR) b

end

section
variable [PyUnicode] {α : Type u} [CommSemiring α]

/-- what the bias adds at given coordinates: its entry at the coordinates of the bias axes (its other dimensions have
length 1) -/
def biasAt (GR GB : List Elem) (bias : Option (Tensor α)) (env : AxisMap) : α :=
  match bias with
  | none => 0
  | some b => entry b ((nameWords GR).map (fun w => if w ∈ sideWords GB then env (.str w) else 0))

end

/-- The documented linear map: at the coordinates of the output axes, the sum over the coordinates of all other axes of
input times weight, plus `c`. -/
def Mixes {α : Type u} [CommSemiring α] (len : AxisMap) (L : List (List Axis)) (W : List Axis) (R : List (List Axis))
    (x w : Tensor α) (c : AxisMap → α) (y : Tensor α) : Prop :=
  y.shape = R.map (groupSize len) ∧
  ∀ S : List Axis, S.Nodup → (∀ a, a ∈ S ↔ (a ∈ L.flatten ∨ a ∈ W) ∧ a ∉ R.flatten) →
    ∀ env, InRange len R.flatten env → y.atAxes R len env =
      some (((loops len S env).map (fun e => (x.atAxes L len e).getD 0 * entry w (W.map e))).sum + c env)

/-- the `forward` of `Rearrange` layers of a framework: of torch, or of frameworks whose layers apply the recipe with a
modelled backend -/
def LayerCall {α : Type u} (call : Layer α → Tensor α → Py (Tensor α)) : Prop :=
  (∃ E b, Modelled E b ∧ call = Layer.apply b) ∨ ∃ E : ElemOps α, call = Layer.forwardTorch E

end Einops
