import Verif.Spec
import Verif.Apply

/-!
# Legal calls, and what is assumed of reductions and backends
-/

namespace Einops

universe u
variable {α : Type u}

section
variable [PyUnicode]

/-- the seven built-in reductions -/
def builtins : List Str :=
  ["min".toList, "max".toList, "sum".toList, "mean".toList, "prod".toList, "any".toList, "all".toList]

/-- Rules for the two sides, by operation.  A named reduction must be one of the seven built-in ones. -/
def SidesOK (op : OpKind) (GL GR : List Elem) (names : List Str) : Prop :=
  if op = .name "rearrange".toList then RearrangeSides GL GR
  else if op = .name "repeat".toList then RepeatSides GL GR names
  else (∀ s, op = .name s → s ∈ builtins) ∧ ReduceSides GL GR

/-- Everything that can be checked without the lengths: the rules for the sides, the keywords, the number of dimensions,
at most one axis of unknown length per input group. -/
structure Prepared (op : OpKind) (GL GR : List Elem) (names : List Str) (ndim : Nat) (L R : List (List Axis)) : Prop where
  sides : SidesOK op GL GR names
  keywords : KeywordsUsed GL GR names
  groups : Groups GL GR ndim L R
  unknowns : OneUnknown L names

/-- A legal call: the pattern has two legal sides `GL`, `GR` obeying the rules of the operation, for a tensor of this
shape they are the groups of axes `L`, `R`, and the lengths `len` fit and are determined. -/
structure Accepted (op : OpKind) (pattern : Str) (kw : List (Str × Size)) (shape : List Nat)
    (GL GR : List Elem) (L R : List (List Axis)) (len : AxisMap) : Prop where
  pattern : IsPattern pattern GL GR
  prepared : Prepared op GL GR (kw.map Prod.fst) shape.length L R
  fits : Fits L R kw shape len
  determinate : Determinate L (kw.map Prod.fst) len

end

/-- neither `rearrange` nor `repeat` -/
def isRed (op : OpKind) : Prop := op ≠ .name "rearrange".toList ∧ op ≠ .name "repeat".toList

/-- some axis of the left is not on the right -/
def Drops (L R : List (List Axis)) : Prop := ∃ a ∈ L.flatten, a ∉ R.flatten

/-- Reducing a table of values row by row and then the results is reducing all its values; failures are failures of the
framework.  (True of exact sums, products, minima, maxima, any, all and of means of non-empty rows.) -/
structure FoldLaw (op : List α → Py α) : Prop where
  stages : ∀ (vss : List (List α)) (n : Nat), (∀ vs ∈ vss, vs.length = n) →
    (mapE op vss).bind op = op vss.flatten
  error : ∀ vs e, op vs = .error e → e = .backend

/-- The array-API path as a backend: strict `reshape`, reductions at once, `broadcast_to` for new axes, no test for
non-floating `mean`.  `arrayApi_eq` shows that `arrayApiReduce` is `reduce` with this record. -/
def arrayApiBackend (E : ElemOps α) : Backend α where
  isFloat _ := true
  reshape := Tensor.reshapeStrict
  transpose := Tensor.transpose
  reduce o x axes := x.reduceAxes (E.op o) axes
  addAxes := broadcastAxes
  stack := Tensor.stack

/-- the modelled backends -/
inductive Modelled (E : ElemOps α) : Backend α → Prop
  | numpy (fl : Bool) : Modelled E (numpyBackend E fl)
  | torch (fl : Bool) : Modelled E (torchBackend E fl)
  | oneflow (fl : Bool) : Modelled E (oneflowBackend E fl)
  | paddle (fl : Bool) : Modelled E (paddleBackend E fl)
  | tinygrad (fl : Bool) : Modelled E (tinygradBackend E fl)
  | arrayApi : Modelled E (arrayApiBackend E)

/-- The backend computes the reduction `o` at once, or one axis at a time and this makes no difference for `o`. -/
inductive Computes (E : ElemOps α) (o : Str) : Backend α → Prop
  | numpy (fl : Bool) : Computes E o (numpyBackend E fl)
  | paddle (fl : Bool) : Computes E o (paddleBackend E fl)
  | arrayApi : Computes E o (arrayApiBackend E)
  | torch (fl : Bool) : o ∈ ["min".toList, "max".toList, "sum".toList, "mean".toList] ∨ FoldLaw (E.op o) →
      Computes E o (torchBackend E fl)
  | oneflow (fl : Bool) : FoldLaw (E.op o) → Computes E o (oneflowBackend E fl)
  | tinygrad (fl : Bool) : FoldLaw (E.op o) → Computes E o (tinygradBackend E fl)

/-- The modelled backends that refuse a new axis of negative length.  (Torch-like `expand` reads -1 as "keep".) -/
inductive RefusesNegative (E : ElemOps α) : Backend α → Prop
  | numpy (fl : Bool) : RefusesNegative E (numpyBackend E fl)
  | tinygrad (fl : Bool) : RefusesNegative E (tinygradBackend E fl)
  | arrayApi : RefusesNegative E (arrayApiBackend E)

end Einops
