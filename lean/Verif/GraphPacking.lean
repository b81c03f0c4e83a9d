import Verif.Graph
import Verif.Packing
import Verif.ParseShape

/-!
# `parse_shape`, `pack` and `unpack` with sizes that are not numbers yet

`einops/einops.py:653-712` and `einops/packing.py` on the shapes that tensorflow, keras and pytensor report while a graph
is built (`HashableTuple`, _backends.py:330-346, has the length, the items and the slices of the tuple inside).
-/

namespace Einops

universe u

/-- What `==` between a symbol and a number does.  pytensor variables (and tensorflow 1 tensors) are compared by identity,
so the answer is no; in tensorflow 2 the result is a symbol, and asking for its truth value is refused with a TypeError. -/
inductive SymEq
  | identity
  | refuses
  deriving DecidableEq, Repr

/-- `bool(g == n)` for a number `n`; an `UnknownSize` is equal to everything (_backends.py:144-145) -/
def GSize.eqInt (f : SymEq) (n : Int) : GSize → Py Bool
  | .int m => .ok (decide (m = n))
  | .sym _ =>
    match f with
    | .identity => .ok false
    | .refuses => .error .type
  | .unknown => .ok true

/-- `a + b`: `UnknownSize` has no `__add__` -/
def GSize.add : GSize → GSize → Py GSize
  | .unknown, _ => .error .type
  | _, .unknown => .error .type
  | .int a, .int b => .ok (.int (a + b))
  | .int a, .sym b => .ok (.sym (.add (.int a) b))
  | .sym a, .int b => .ok (.sym (.add a (.int b)))
  | .sym a, .sym b => .ok (.sym (.add a b))

/-- `a - b`: `UnknownSize` has no `__sub__` -/
def GSize.sub : GSize → GSize → Py GSize
  | .unknown, _ => .error .type
  | _, .unknown => .error .type
  | .int a, .int b => .ok (.int (a - b))
  | .int a, .sym b => .ok (.sym (.sub (.int a) b))
  | .sym a, .int b => .ok (.sym (.sub a (.int b)))
  | .sym a, .sym b => .ok (.sym (.sub a b))

/-! ### `parse_shape` -/

/-- Body of the loop of `parse_shape` (einops.py:699-711); `!=` is the negation of `==` (for an `UnknownSize` as well:
Python derives `__ne__`). -/
def shapeStepG (f : SymEq) (result : List (Str × GSize)) (axes : CompAxis) (length : GSize) : Py (List (Str × GSize)) :=
  match axes.axes with
  | [] =>
    match length.eqInt f 1 with
    | .error e => .error e
    | .ok same => if !same then .error .runtime else .ok result
  | [.str w] => if w ≠ ['_'] then .ok (dictSet result w length) else .ok result
  | [.anon _ _ v] =>
    match length.eqInt f v with
    | .error e => .error e
    | .ok same => if !same then .error .runtime else .ok result
  | _ => .error .value

/-- The loop (einops.py:698-712) -/
def shapeLoopG (f : SymEq) : List (Str × GSize) → List CompAxis → List GSize → Py (List (Str × GSize))
  | result, a :: as, n :: ns =>
    match shapeStepG f result a n with
    | .error e => .error e
    | .ok result => shapeLoopG f result as ns
  | result, _, _ => .ok result

/-- `parse_shape(x, pattern)` (einops.py:653-712) for a tensor of which the framework reports this shape -/
def parseShapeG [PyUnicode] (f : SymEq) (shape : List GSize) (pattern : Str) : Py (List (Str × GSize)) :=
  match parseExpression 0 true false pattern with
  | .error e => .error e
  | .ok e =>
    if e.hasComposedAxes then .error .runtime
    else if !shapeRankOK e shape.length then .error .runtime
    else
      match shapeComposition e shape.length with
      | .error er => .error er
      | .ok c => shapeLoopG f [] c shape

/-! ### `pack` -/

/-- the operations that `pack` puts into the graph: a reshape of every tensor, and a concatenation -/
structure PackGraph where
  targets : List (List GSize)
  axis : Nat
  deriving DecidableEq, Repr

/-- The loop of `pack` (packing.py:77-86): new shapes and packed shapes. -/
def packLoopG (before after minAxes : Nat) : List (List GSize) → Py (List (List GSize) × List (List GSize))
  | [] => .ok ([], [])
  | s :: shapes =>
    if s.length < minAxes then .error .einops
    else
      let k := s.length - after
      match packLoopG before after minAxes shapes with
      | .error e => .error e
      | .ok (ts, ps) => .ok ((s.take before ++ .int (-1) :: s.drop k) :: ts, (s.take k).drop before :: ps)

/-- The part of `pack(tensors, pattern)` (packing.py:34-88) that happens while the graph is built -/
def tracePack [PyUnicode] (shapes : List (List GSize)) (pattern : Str) : Py (PackGraph × List (List GSize)) :=
  match analyzePattern pattern with
  | .error e => .error e
  | .ok (before, after, minAxes) =>
    match shapes with
    | [] => .error .index
    | _ :: _ =>
      match packLoopG before after minAxes shapes with
      | .error e => .error e
      | .ok (ts, ps) => .ok (⟨ts, before⟩, ps)

variable {α : Type u}

/-- a reshape in the graph -/
def reshapeG (ops : PackOps α) (σ : Nat → Int) (x : Tensor α) (s : List GSize) : Py (Tensor α) :=
  match mapE (GSize.value σ) s with
  | .error e => .error e
  | .ok s => ops.reshape x s

/-- the graph of `pack`, for tensors and values of the symbols -/
def runPack (ops : PackOps α) (g : PackGraph) (σ : Nat → Int) (xs : List (Tensor α)) : Py (Tensor α) :=
  match mapE (fun p : Tensor α × List GSize => reshapeG ops σ p.1 p.2) (xs.zip g.targets) with
  | .error e => .error e
  | .ok ys => ops.concat ys g.axis

/-! ### `unpack` -/

/-- `-1 in p_shape` (packing.py:148): compares from the left and stops at the first match -/
def hasMinusOne (f : SymEq) : List GSize → Py Bool
  | [] => .ok false
  | g :: gs =>
    match g.eqInt f (-1) with
    | .error e => .error e
    | .ok true => .ok true
    | .ok false => hasMinusOne f gs

/-- an entry of `lengths_of_composed_axes` (packing.py:148) -/
def composedLengthG (f : SymEq) (s : List GSize) : Py GSize :=
  match hasMinusOne f s with
  | .error e => .error e
  | .ok true => .ok (.int (-1))
  | .ok false => .ok (gsizeProd s)

/-- `split_positions[i] = split_positions[j] + d` -/
def putSum (i j : Nat) (d : GSize) (sp : List GSize) : Py (List GSize) :=
  match (sp.getD j (.int 0)).add d with
  | .error e => .error e
  | .ok v => .ok (sp.set i v)

/-- `split_positions[i] = split_positions[j] - d` -/
def putDiff (i j : Nat) (d : GSize) (sp : List GSize) : Py (List GSize) :=
  match (sp.getD j (.int 0)).sub d with
  | .error e => .error e
  | .ok v => .ok (sp.set i v)

/-- a loop whose body may raise -/
def runLoop {β γ : Type} (step : β → γ → Py γ) : γ → List β → Py γ
  | st, [] => .ok st
  | st, b :: bs =>
    match step b st with
    | .error e => .error e
    | .ok st => runLoop step st bs

/-- `split_positions` (packing.py:162-171); `flags` are the results of `x == -1` for the lengths (packing.py:150), which
`lengths_of_composed_axes.index(-1)` computes again -/
def splitPositionsG (n : GSize) (lengths : List GSize) (flags : List Bool) : Py (List GSize) :=
  let init := List.replicate lengths.length (GSize.int 0) ++ [n]
  if flags.count true = 0 then
    runLoop (fun p sp => putSum (p.2 + 1) p.2 p.1 sp) init lengths.dropLast.zipIdx
  else
    let u := flags.idxOf true
    match runLoop (fun i sp => putSum (i + 1) i (lengths.getD i (.int 0)) sp) init (List.range u) with
    | .error e => .error e
    | .ok sp =>
      runLoop (fun j sp => putDiff j (j + 1) (lengths.getD j (.int 0)) sp) sp
        (List.range' (u + 1) (lengths.length - (u + 1))).reverse

/-- the operations that `unpack` puts into the graph: for every output a slice between two positions and a reshape -/
structure UnpackGraph where
  axis : Nat
  pieces : List (GSize × GSize × List GSize)
  deriving DecidableEq, Repr

/-- The part of `unpack(tensor, packed_shapes, pattern)` (packing.py:98-190) that happens while the graph is built.  (A
framework that refuses a slice or a reshape already at this time makes `unpack` raise a RuntimeError; here this is an error
when the graph runs.) -/
def traceUnpack [PyUnicode] (f : SymEq) (shape : List GSize) (ps : List (List GSize)) (pattern : Str) : Py UnpackGraph :=
  match analyzePattern pattern with
  | .error e => .error e
  | .ok (before, after, _) =>
    if shape.length ≠ before + 1 + after then .error .einops
    else
      match mapE (composedLengthG f) ps with
      | .error e => .error e
      | .ok lengths =>
        match mapE (GSize.eqInt f (-1)) lengths with
        | .error e => .error e
        | .ok flags =>
          if flags.count true > 1 then .error .einops
          else
            match splitPositionsG (shape.getD before (.int 0)) lengths flags with
            | .error e => .error e
            | .ok sp =>
              .ok ⟨before, ps.zipIdx.map fun p =>
                (sp.getD p.2 (.int 0), sp.getD (p.2 + 1) (.int 0), shape.take before ++ p.1 ++ shape.drop (before + 1))⟩

/-- one output in the graph of `unpack` -/
def runPiece (ops : PackOps α) (axis : Nat) (σ : Nat → Int) (x : Tensor α) (p : GSize × GSize × List GSize) :
    Py (Tensor α) :=
  match p.1.value σ with
  | .error e => .error e
  | .ok lo =>
    match p.2.1.value σ with
    | .error e => .error e
    | .ok hi =>
      match ops.slice x axis lo hi with
      | .error e => .error e
      | .ok y => reshapeG ops σ y p.2.2

/-- the graph of `unpack`, for a tensor and values of the symbols -/
def runUnpack (ops : PackOps α) (g : UnpackGraph) (σ : Nat → Int) (x : Tensor α) : Py (List (Tensor α)) :=
  mapE (runPiece ops g.axis σ x) g.pieces

end Einops
