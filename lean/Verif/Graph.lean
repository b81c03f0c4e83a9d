import Verif.Apply

/-!
# Sizes that are not numbers yet

In graph mode a dimension may be a symbol whose value is only known when the graph runs.  einops then computes with
expressions, once, and the framework evaluates them for every tensor.  `_backends.py`: the `shape` methods of tensorflow,
keras and pytensor, `UnknownSize`; `einops.py`: `_reconstruct_from_shape_uncached` and `_apply_recipe` on such sizes.
-/

namespace Einops

universe u

/-- An expression that the framework builds from symbols: what `*`, `//`, `+` and `-` on symbols return (the last two in
`unpack` only). -/
inductive SymExpr
  /-- a symbol; number `k` is `tf.shape(x)[k]`, `x.shape[k]` for the dimensions of the tensor -/
  | var (k : Nat)
  | int (n : Int)
  | mul (a b : SymExpr)
  | fdiv (a b : SymExpr)
  | add (a b : SymExpr)
  | sub (a b : SymExpr)
  deriving DecidableEq, Repr

/-- the value when the graph runs -/
def SymExpr.eval (σ : Nat → Int) : SymExpr → Int
  | .var k => σ k
  | .int n => n
  | .mul a b => a.eval σ * b.eval σ
  | .fdiv a b => Int.fdiv (a.eval σ) (b.eval σ)
  | .add a b => a.eval σ + b.eval σ
  | .sub a b => a.eval σ - b.eval σ

/-- A dimension or size: a Python `int`, a symbolic expression of the framework, or an `UnknownSize`
(_backends.py:138-154). -/
inductive GSize
  | int (n : Int)
  | sym (e : SymExpr)
  | unknown
  deriving DecidableEq, Repr

/-- `isinstance(_, int)` -/
def GSize.asInt : GSize → Option Int
  | .int n => some n
  | _ => none

/-- `a * b`: an `UnknownSize` stays (`__mul__`, `__rmul__`, _backends.py:147-151), symbols give expressions -/
def GSize.mul : GSize → GSize → GSize
  | .unknown, _ => .unknown
  | _, .unknown => .unknown
  | .int a, .int b => .int (a * b)
  | .int a, .sym b => .sym (.mul (.int a) b)
  | .sym a, .int b => .sym (.mul a (.int b))
  | .sym a, .sym b => .sym (.mul a b)

/-- `a // b`: `UnknownSize` has `__floordiv__` (_backends.py:141) but no `__rfloordiv__`, so dividing by it is a
TypeError -/
def GSize.fdiv : GSize → GSize → Py GSize
  | .unknown, _ => .ok .unknown
  | _, .unknown => .error .type
  | .int a, .int b => .ok (.int (Int.fdiv a b))
  | .int a, .sym b => .ok (.sym (.fdiv (.int a) b))
  | .sym a, .int b => .ok (.sym (.fdiv a (.int b)))
  | .sym a, .sym b => .ok (.sym (.fdiv a b))

/-- `_product` (einops.py:29-34) -/
def gsizeProd (l : List GSize) : GSize := l.foldl GSize.mul (.int 1)

/-- einops.py:168-169 -/
def setDimsG (m : List (Str × Nat)) : List GSize → List (Str × GSize) → Py (List GSize)
  | ls, [] => .ok ls
  | ls, (n, s) :: ds =>
    match dictGetE m n with
    | .error e => .error e
    | .ok k =>
      match setE ls k s with
      | .error e => .error e
      | .ok ls => setDimsG m ls ds

/-- `isinstance(length, int) and isinstance(known_product, int) and length != known_product` (einops.py:183) -/
def mismatchG (length product : GSize) : Bool :=
  match length.asInt, product.asInt with
  | some a, some b => decide (a ≠ b)
  | _, _ => false

/-- the test of the remainder (einops.py:187-188) and the division (einops.py:191) -/
def divideG (length product : GSize) : Py GSize :=
  match length.asInt, product.asInt with
  | some a, some b =>
    if b = 0 then .error .zeroDivision else if Int.fmod a b ≠ 0 then .error .einops else length.fdiv product
  | _, _ => length.fdiv product

/-- Body of the loop over input dimensions (einops.py:171-195) -/
def inferAxisG (st : List GSize × Bool) (length : GSize) (ku : List Nat × List Nat) : Py (List GSize × Bool) :=
  match ku.1, ku.2 with
  | [], [u] =>
    match setE st.1 u length with
    | .error e => .error e
    | .ok ls => .ok (ls, st.2)
  | known, unknown =>
    match mapE (getE st.1) known with
    | .error e => .error e
    | .ok vs =>
      match unknown with
      | [] =>
        if mismatchG length (gsizeProd vs) then .error .einops
        else .ok (st.1, st.2 || decide (known.length + unknown.length ≠ 1))
      | u :: _ =>
        match divideG length (gsizeProd vs) with
        | .error e => .error e
        | .ok v =>
          match setE st.1 u v with
          | .error e => .error e
          | .ok ls => .ok (ls, st.2 || decide (known.length + unknown.length ≠ 1))

/-- The loop (einops.py:171-195) -/
def inferAllG (shape : List GSize) : List GSize × Bool → List ((List Nat × List Nat) × Nat) → Py (List GSize × Bool)
  | st, [] => .ok st
  | st, (ku, i) :: rest =>
    match getE shape i with
    | .error e => .error e
    | .ok length =>
      match inferAxisG st length ku with
      | .error e => .error e
      | .ok st => inferAllG shape st rest

/-- `CookedRecipe` with such sizes -/
structure CookedG where
  initShapes : Option (List GSize)
  axesReordering : Option (List Nat)
  reducedAxes : List Nat
  addedAxes : List (Nat × GSize)
  finalShapes : Option (List GSize)
  nAxesWithAdded : Nat
  deriving DecidableEq, Repr

/-- an entry of `added_axes` with its length (einops.py:210-212) -/
def addedSizeG (ls : List GSize) (p : Nat × Nat) : Py (Nat × GSize) :=
  match getE ls p.2 with
  | .error e => .error e
  | .ok s => .ok (p.1, s)

/-- `_reconstruct_from_shape_uncached` (einops.py:155-224) -/
def reconstructG (r : TransformRecipe) (shape : List GSize) (axesDims : List (Str × GSize)) : Py CookedG :=
  match setDimsG r.axisName2elementary (r.elementaryAxesLengths.map GSize.int) axesDims with
  | .error e => .error e
  | .ok ls0 =>
    match inferAllG shape (ls0, false) r.inputComposition.zipIdx with
    | .error e => .error e
    | .ok (ls, need) =>
      match mapE (fun g => mapE (getE ls) g) r.outputCompositeAxes with
      | .error e => .error e
      | .ok groups =>
        match mapE (addedSizeG ls) r.addedAxes with
        | .error e => .error e
        | .ok added =>
          let n := r.axesPermutation.length
          .ok {
            initShapes := if need then some (ls.take n) else none
            axesReordering := if r.axesPermutation = List.range n then none else some r.axesPermutation
            reducedAxes := (List.range n).drop r.firstReducedAxis
            addedAxes := added
            finalShapes := if groups.any (fun g => g.length ≠ 1) then some (groups.map gsizeProd) else none
            nAxesWithAdded := added.length + n }

/-- The part of a call of `reduce` that happens while the graph is built; it sees the shape that the backend reports, not
the tensor. -/
def traceCall [PyUnicode] (so : SetOrder) (pattern : Str) (op : OpKind) (shape : List GSize) (kw : List (Str × GSize)) :
    Py CookedG :=
  match prepareRecipe so pattern op (kw.map Prod.fst) shape.length with
  | .error e => .error e
  | .ok r => reconstructG r shape kw

/-! ### What the backends report -/

/-- `TensorflowBackend.shape` in graph mode (_backends.py:375-378): `s or tf_shape[dim]`, so a static 0 becomes a symbol
as well -/
def tensorflowShape (static : List (Option Nat)) : List GSize :=
  static.zipIdx.map fun p =>
    match p.1 with
    | some (n + 1) => .int (n + 1)
    | some 0 => .sym (.var p.2)
    | none => .sym (.var p.2)

/-- `TensorflowBackend.shape` in eager mode (_backends.py:372-373) -/
def tensorflowEagerShape (static : List (Option Nat)) : List GSize :=
  static.map fun s =>
    match s with
    | some n => .int n
    | none => .unknown

/-- `TFKerasBackend.shape` (_backends.py:442-444): all dimensions are symbols -/
def kerasShape (static : List (Option Nat)) : List GSize := static.zipIdx.map fun p => .sym (.var p.2)

/-- `PyTensorBackend.shape` (_backends.py:699-704) -/
def pytensorShape (static : List (Option Nat)) : List GSize :=
  static.zipIdx.map fun p =>
    match p.1 with
    | some n => .int n
    | none => .sym (.var p.2)

/-! ### Running the graph -/

variable {α : Type u}

/-- the number a framework receives for a size; it does not know what an `UnknownSize` is -/
def GSize.value (σ : Nat → Int) : GSize → Py Int
  | .int n => .ok n
  | .sym e => .ok (e.eval σ)
  | .unknown => .error .backend

/-- a reshape in the graph -/
def optReshapeG (reshape : Tensor α → List Int → Py (Tensor α)) (σ : Nat → Int) (s : Option (List GSize)) (x : Tensor α) :
    Py (Tensor α) :=
  match s with
  | none => .ok x
  | some s =>
    match mapE (GSize.value σ) s with
    | .error e => .error e
    | .ok s => reshape x s

/-- a new axis in the graph -/
def addedValue (σ : Nat → Int) (p : Nat × GSize) : Py (Nat × Int) :=
  match p.2.value σ with
  | .error e => .error e
  | .ok n => .ok (p.1, n)

/-- new axes in the graph -/
def optAddAxesG (add : Tensor α → Nat → List (Nat × Int) → Py (Tensor α)) (n : Nat) (σ : Nat → Int)
    (added : List (Nat × GSize)) (x : Tensor α) : Py (Tensor α) :=
  if added.length > 0 then
    match mapE (addedValue σ) added with
    | .error e => .error e
    | .ok added => add x n added
  else .ok x

/-- Second part of `_apply_recipe` (einops.py:242-252): the operations in the graph, for a tensor and values of the
symbols -/
def runGraph (b : Backend α) (c : CookedG) (red : Reduction α) (σ : Nat → Int) (x : Tensor α) : Py (Tensor α) :=
  (optReshapeG b.reshape σ c.initShapes x).bind fun x =>
  (optTranspose b.transpose c.axesReordering x).bind fun x =>
  (optReduce (fun x axes => reduceAxesE b x red axes) c.reducedAxes x).bind fun x =>
  (optAddAxesG b.addAxes c.nAxesWithAdded σ c.addedAxes x).bind fun x =>
  optReshapeG b.reshape σ c.finalShapes x

end Einops
