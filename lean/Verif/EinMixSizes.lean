import Verif.EinMixSpec
import Verif.EinsumRef

/-!
# `EinMix` and inputs of unexpected lengths

Frameworks differ for inputs whose lengths are not the declared ones: in `einsum`, where some stretch dimensions of length
1, and in adding the bias, in place or to a new tensor.
-/

namespace Einops

universe u
variable {α : Type u}

/-! ### adding the bias to a new tensor -/

/-- the common length of two dimensions -/
def castDim (a b : Nat) : Option Nat := if a = b then some a else if a = 1 then some b else if b = 1 then some a else none

/-- `castDim` for all dimensions -/
def castDims : List Nat → List Nat → Option (List Nat)
  | [], [] => some []
  | a :: as, b :: bs =>
    match castDim a b, castDims as bs with
    | some d, some ds => some (d :: ds)
    | _, _ => none
  | _, _ => none

/-- the shape with dimensions of length 1 in front, up to `n` dimensions -/
def padShape (n : Nat) (s : List Nat) : List Nat := List.replicate (n - s.length) 1 ++ s

/-- the entry of a tensor whose dimensions of length 1 are stretched, and which has further dimensions in front -/
def Tensor.castGet (x : Tensor α) (i : List Nat) : Py α :=
  x.getE (List.zipWith (fun j d => if d = 1 then 0 else j) (i.drop (i.length - x.ndim)) x.shape)

/-- `x + b` of tensorflow, jax and others: dimensions are aligned from the last one, those of length 1 are stretched, in
both tensors.  (Belongs to the trusted base.) -/
def Tensor.addNew [Add α] (x b : Tensor α) : Py (Tensor α) :=
  let n := max x.ndim b.ndim
  match castDims (padShape n x.shape) (padShape n b.shape) with
  | none => .error .backend
  | some s => Tensor.build s (fun i => (x.castGet i).bind (fun u => (b.castGet i).bind (fun v => .ok (u + v))))

/-- `if bias is not None: result = result + bias` (layers/tensorflow.py:91-92); `result += bias` (layers/flax.py:78-79) is
the same for immutable tensors -/
def addOptNew [Add α] (y : Tensor α) : Option (Tensor α) → Py (Tensor α)
  | none => .ok y
  | some b => y.addNew b

/-- `EinMix.call` of tensorflow (layers/tensorflow.py:87-95), `EinMix.__call__` of flax (layers/flax.py:74-82) -/
def EinMix.forwardNew [Add α] (call : Layer α → Tensor α → Py (Tensor α)) (f : Str → List (Tensor α) → Py (Tensor α))
    (m : EinMix α) (weight : Tensor α) (bias : Option (Tensor α)) (x : Tensor α) : Py (Tensor α) :=
  match callOpt call m.pre x with
  | .error e => .error e
  | .ok x =>
    match f m.einsumPattern [x, weight] with
    | .error e => .error e
    | .ok y =>
      match addOptNew y bias with
      | .error e => .error e
      | .ok y => callOpt call m.post y

/-! ### `einsum` and lengths that do not agree -/

/-- `einsum` raises for lengths that do not agree. -/
def EinsumStrict (f : Str → List (Tensor α) → Py (Tensor α)) : Prop :=
  ∀ (terms : List (List ESym)) (out : List ESym) (xs : List (Tensor α)) (y : Tensor α), terms ≠ [] →
    (∀ t ∈ out :: terms, ∀ w ∈ symNames t, ∃ c, c.isAlpha = true ∧ w = [c]) → (∀ t ∈ out :: terms, t.count .ell ≤ 1) →
    f (writeEinsum (fun w => w.headD 'a') terms out) xs = .ok y →
    ∃ (len : AxisMap) (n : Nat), List.Forall₂ (fun t x => x.shape = (symAxes n t).map len) terms xs

/-- `einsum` raises for lengths that do not agree, unless they are 1 (as documented by torch). -/
def EinsumCasts (f : Str → List (Tensor α) → Py (Tensor α)) : Prop :=
  ∀ (terms : List (List ESym)) (out : List ESym) (xs : List (Tensor α)) (y : Tensor α), terms ≠ [] →
    (∀ t ∈ out :: terms, ∀ w ∈ symNames t, ∃ c, c.isAlpha = true ∧ w = [c]) → (∀ t ∈ out :: terms, t.count .ell ≤ 1) →
    f (writeEinsum (fun w => w.headD 'a') terms out) xs = .ok y →
    ∃ len : AxisMap, List.Forall₂ (fun t x => ∃ n, x.ndim = (symAxes n t).length ∧
      ∀ p ∈ (symAxes n t).zip x.shape, p.1 ∉ ellAxes n → p.2 = 1 ∨ p.2 = len p.1) terms xs

section
variable [CommSemiring α]

/-- the common length of an axis: the first that is not 1 -/
def castLen : List (List Axis) → List (Tensor α) → AxisMap
  | A :: As, x :: xs, a =>
    if a ∈ A ∧ nth x.shape (A.idxOf a) ≠ 1 then nth x.shape (A.idxOf a) else castLen As xs a
  | _, _, _ => 1

/-- a tensor with dimensions of length 1 stretched to a shape -/
def Tensor.stretch (x : Tensor α) (s : List Nat) : Py (Tensor α) :=
  if x.ndim = s.length ∧ ∀ p ∈ x.shape.zip s, p.1 = 1 ∨ p.1 = p.2 then
    Tensor.build s (fun i => x.getE (List.zipWith (fun j d => if d = 1 then 0 else j) i x.shape))
  else .error .backend

def stretchAll (len : AxisMap) : List (List Axis) → List (Tensor α) → Py (List (Tensor α))
  | A :: As, x :: xs =>
    match x.stretch (A.map len), stretchAll len As xs with
    | .ok y, .ok ys => .ok (y :: ys)
    | _, _ => .error .backend
  | [], [] => .ok []
  | _, _ => .error .backend

/-- `einsum` that stretches dimensions of length 1: an example of `EinsumCasts`.  (Simplified: the ellipsis stands for the
same number of dimensions in all inputs.) -/
def castEinsum (s : Str) (xs : List (Tensor α)) : Py (Tensor α) :=
  match splitArrow s with
  | .error _ => .error .backend
  | .ok (l, _) =>
    match readTerms (splitOn [','] l) with
    | none => .error .backend
    | some terms =>
      let As := terms.map (symAxes (ellRank terms xs))
      match stretchAll (castLen As xs) As xs with
      | .error e => .error e
      | .ok ys => refEinsum s ys

end

section
variable [PyUnicode]

/-- The declared size of an axis is compared with the input: some element of the left side is not one axis, or the axis is
one of the weight, or of the bias with a size other than 1. -/
def SizeCompared (GL GW : List Elem) (bias : Option Str) (n : Str) (s : Size) : Prop :=
  (∃ e ∈ GL, (e.words.filter (fun w => decide (¬ IsNumber w))).length ≠ 1) ∨ n ∈ sideWords GW ∨
    s.val ≠ 1 ∧ ∃ t GB, bias = some t ∧ IsSide false false t GB ∧ n ∈ sideWords GB

/-- what the bias adds at given coordinates, its dimensions of length 1 being stretched -/
def biasCast [CommSemiring α] (GR : List Elem) (bias : Option (Tensor α)) (env : AxisMap) : α :=
  match bias with
  | none => 0
  | some b => entry b (List.zipWith (fun w d => if d = 1 then 0 else env (.str w)) (nameWords GR) b.shape)

end

end Einops
