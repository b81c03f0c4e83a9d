import Verif.Tensor
import Mathlib.Data.List.Sort

/-!
# `_optimize_transformation` (einops/einops.py:50-102)

Merges neighbouring axes of a plan "reshape to `init_shapes`, reduce `reduced_axes`, transpose by `axes_reordering`,
reshape to `final_shapes`".  Not called by the operations of this version of einops, but part of the module and tested
(tests/test_other.py:42-72, which also fixes the order reduce-then-transpose used here).  Axis numbers and lengths are
natural numbers; Python's negative axis numbers and negative (unknown) lengths are not modelled.
-/

namespace Einops

universe u

/-- The four arguments, and the four results, of `_optimize_transformation` (einops.py:50, 102). -/
structure MovePlan where
  initShapes : List Nat
  reducedAxes : List Nat
  axesReordering : List Nat
  finalShapes : List Int
  deriving DecidableEq, Repr

/-- `for i in l: state = f(state, i)` -/
def loopE {σ ι : Type} (f : σ → ι → Py σ) : σ → List ι → Py σ
  | s, [] => .ok s
  | s, i :: is =>
    match f s i with
    | .error e => .error e
    | .ok s' => loopE f s' is

/-- `removed_length = init_shapes[r]`, `init_shapes = init_shapes[:r] + init_shapes[r + 1:]`,
`init_shapes[r - 1] *= removed_length` (einops.py:60-62 and 85, 89-90); `r ≥ 1` in both places. -/
def absorbAxis (s : List Nat) (r : Nat) : Py (List Nat) :=
  match getE s r with
  | .error e => .error e
  | .ok n =>
    match getE (s.take r ++ s.drop (r + 1)) (r - 1) with
    | .error e => .error e
    | .ok m => setE (s.take r ++ s.drop (r + 1)) (r - 1) (m * n)

/-- One round of the first loop (einops.py:57-63); the state is `(init_shapes, reduced_axes)`. -/
def joinReduced (st : List Nat × List Nat) (i : Nat) : Py (List Nat × List Nat) :=
  match getE st.2 i with
  | .error e => .error e
  | .ok a =>
    match getE st.2 (i + 1) with
    | .error e => .error e
    | .ok b =>
      if a + 1 = b then
        match absorbAxis st.1 b with
        | .error e => .error e
        | .ok s => .ok (s, st.2.take (i + 1) ++ (st.2.drop (i + 2)).map (· - 1))
      else .ok st

/-- One round of the loop of `build_mapping` (einops.py:68-73). -/
def mapAxis (red order : List Nat) (d : List (Nat × Option Nat)) (axis : Nat) : Py (List (Nat × Option Nat)) :=
  if axis ∈ red then .ok (dictSet d axis none)
  else
    match indexE order ((d.filter (fun p => p.2.isSome)).length) with
    | .error e => .error e
    | .ok k => .ok (dictSet d axis (some k))

/-- `build_mapping` (einops.py:66-74). -/
def buildMapping (init red order : List Nat) : Py (List (Nat × Option Nat)) :=
  loopE (mapAxis red order) [] (List.range init.length)

/-- `axes_reordering` without `r`, the axes behind it renumbered (einops.py:91-99). -/
def dropFromOrder (order : List Nat) (r : Nat) : List Nat :=
  order.flatMap (fun a => if a = r then [] else if a < r then [a] else [a - 1])

/-- State of the second loop (einops.py:76-100). -/
structure JoinState where
  init : List Nat
  red : List Nat
  order : List Nat
  mapping : List (Nat × Option Nat)
  deriving DecidableEq, Repr

/-- One round of the second loop (einops.py:78-100). -/
def joinKept (st : JoinState) (axis : Nat) : Py JoinState :=
  match dictGetE st.mapping axis with
  | .error e => .error e
  | .ok none => .ok st
  | .ok (some f) =>
    match dictGetE st.mapping (axis + 1) with
    | .error e => .error e
    | .ok none => .ok st
    | .ok (some g) =>
      if f + 1 = g then
        let removed := axis + 1
        let after := ((List.range removed).filter (fun x => x ∉ st.red)).length
        match absorbAxis st.init removed with
        | .error e => .error e
        | .ok s =>
          let red := st.red.map (fun a => if a < removed then a else a - 1)
          let order := dropFromOrder st.order after
          match buildMapping s red order with
          | .error e => .error e
          | .ok m => .ok ⟨s, red, order, m⟩
      else .ok st

/-- `_optimize_transformation` (einops.py:50-102). -/
def optimizeTransformation (p : MovePlan) : Py MovePlan :=
  if p.axesReordering.length + p.reducedAxes.length ≠ p.initShapes.length then .error .assertion
  else
    let sorted := p.reducedAxes.insertionSort (· ≤ ·)
    match loopE joinReduced (p.initShapes, sorted) (List.range (sorted.length - 1)).reverse with
    | .error e => .error e
    | .ok (init, red) =>
      match buildMapping init red p.axesReordering with
      | .error e => .error e
      | .ok m =>
        match loopE joinKept ⟨init, red, p.axesReordering, m⟩ (List.range (init.length - 1)).reverse with
        | .error e => .error e
        | .ok st => .ok ⟨st.init, st.red, st.order, p.finalShapes⟩

/-! ### What a plan means (specification) -/

/-- A plan that can be run: distinct existing reduced axes and an order of the remaining ones. -/
structure MovePlan.Valid (p : MovePlan) : Prop where
  nodup : p.reducedAxes.Nodup
  lt : ∀ a ∈ p.reducedAxes, a < p.initShapes.length
  order : p.axesReordering.Perm (List.range (p.initShapes.length - p.reducedAxes.length))

/-- What the plan computes: reshape, reduce (skipped when there is nothing to reduce), transpose. -/
def runMoves {α : Type u} (op : List α → Py α) (init red order : List Nat) (x : Tensor α) : Py (Tensor α) :=
  match x.withShape init with
  | .error e => .error e
  | .ok y =>
    match (if red = [] then .ok y else y.reduceAxes op red) with
    | .error e => .error e
    | .ok z => z.transpose order

/-- The whole plan, with the final reshape. -/
def MovePlan.apply {α : Type u} (op : List α → Py α) (p : MovePlan) (x : Tensor α) : Py (Tensor α) :=
  match runMoves op p.initShapes p.reducedAxes p.axesReordering x with
  | .error e => .error e
  | .ok y => y.reshape p.finalShapes

/-- The elements, in C order, after reshape, reduction and transposition. -/
def MovePlan.flat {α : Type u} (op : List α → Py α) (p : MovePlan) (x : Tensor α) : Py (List α) :=
  match runMoves op p.initShapes p.reducedAxes p.axesReordering x with
  | .error e => .error e
  | .ok y => .ok y.data

end Einops
