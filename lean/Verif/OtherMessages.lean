import Verif.Messages
import Verif.Packing
import Verif.ParseShape
import Verif.Einsum

/-!
# Messages of the other functions

`pack`, `unpack`, `parse_shape` and `einsum` once more, with the message of every exception raised by einops itself, of
whatever class.  Forgetting the messages gives the functions of `Packing`, `ParseShape` and `Einsum`
(`Proofs/OtherMessages.lean`).
-/

namespace Einops

universe u

/-- An exception together with its message if it is raised by a `raise` statement of einops. -/
inductive Told (M : Type)
  | said (m : M)
  | other (e : PyErr)
  deriving DecidableEq, Repr

/-- the exception without its message; `k` is the class of the exceptions with a message -/
def Told.kind {M : Type} (k : M → PyErr) : Told M → PyErr
  | .said m => k m
  | .other e => e

/-- a computation without the messages -/
def untold {M : Type} {α : Type u} (k : M → PyErr) : Except (Told M) α → Py α
  | .error f => .error (f.kind k)
  | .ok a => .ok a

/-- a computation that raises nothing with a message of einops -/
def telling {M : Type} {α : Type u} : Py α → Except (Told M) α
  | .error e => .error (.other e)
  | .ok a => .ok a

/-- a computation that raises messages about a side -/
def tellingSide {M : Type} {α : Type u} (f : SideMessage → M) : PySide α → Except (Told M) α
  | .error m => .error (.said (f m))
  | .ok a => .ok a

/-! ### `pack` and `unpack` -/

/-- What the messages of `pack` and `unpack` say (packing.py:19-27, 80-83, 144, 152-154, 187-190; array_api.py has the same
sentences).  The texts also show the pattern. -/
inductive PackMessage
  | duplicates
  | noStar
  | invalid (axis : Str)
  | tooFewAxes (i : Nat) (shape : List Nat) (minAxes : Nat)
  | wrongDim (shape : List Nat)
  | moreThanOne (packedShapes : List (List Int))
  | couldNotSplit (size : Int) (packedShapes : List (List Int))
  deriving DecidableEq, Repr

/-- the class of the exception -/
def PackMessage.kind : PackMessage → PyErr
  | .couldNotSplit .. => .runtime
  | _ => .einops

abbrev PyPack (α : Type u) := Except (Told PackMessage) α

section
variable [PyUnicode]

/-- `analyze_pattern(pattern, opname)` (packing.py:14-31) -/
def analyzePatternO (pattern : Str) : PyPack (Nat × Nat × Nat) :=
  let axes := splitWs pattern
  if axes.length ≠ axes.dedup.length then .error (.said .duplicates)
  else if ['*'] ∉ axes then .error (.said .noStar)
  else
    match axes.find? (fun a => decide (a ≠ ['*']) && (nameReason false a).isSome) with
    | some a => .error (.said (.invalid a))
    | none =>
      let before := axes.idxOf ['*']
      let after := axes.length - before - 1
      .ok (before, after, before + after)

variable {α : Type u}

omit [PyUnicode] in
/-- The loop of `pack` (packing.py:77-86), from tensor number `i` on -/
def packLoopO (ops : PackOps α) (before after minAxes : Nat) : Nat → List (Tensor α) → PyPack (List (Tensor α) × List (List Nat))
  | _, [] => .ok ([], [])
  | i, x :: xs =>
    if x.shape.length < minAxes then .error (.said (.tooFewAxes i x.shape minAxes))
    else
      let k := x.shape.length - after
      match ops.reshape x ((x.shape.take before).map Int.ofNat ++ (-1) :: (x.shape.drop k).map Int.ofNat) with
      | .error e => .error (.other e)
      | .ok y =>
        match packLoopO ops before after minAxes (i + 1) xs with
        | .error e => .error e
        | .ok (ys, ps) => .ok (y :: ys, (x.shape.take k).drop before :: ps)

/-- `pack(tensors, pattern)` (packing.py:34-88) -/
def packO (ops : PackOps α) (xs : List (Tensor α)) (pattern : Str) : PyPack (Tensor α × List (List Nat)) :=
  match analyzePatternO pattern with
  | .error e => .error e
  | .ok (before, after, minAxes) =>
    match xs with
    | [] => .error (.other .index)
    | _ :: _ =>
      match packLoopO ops before after minAxes 0 xs with
      | .error e => .error e
      | .ok (ys, ps) =>
        match ops.concat ys before with
        | .error e => .error (.other e)
        | .ok y => .ok (y, ps)

/-- `unpack(tensor, packed_shapes, pattern)` (packing.py:98-190); `except Exception` replaces whatever the framework raised. -/
def unpackO (ops : PackOps α) (x : Tensor α) (ps : List (List Int)) (pattern : Str) : PyPack (List (Tensor α)) :=
  match analyzePatternO pattern with
  | .error e => .error e
  | .ok (before, after, _) =>
    if x.shape.length ≠ before + 1 + after then .error (.said (.wrongDim x.shape))
    else
      let lengths := composedLengths ps
      if lengths.count (-1) > 1 then .error (.said (.moreThanOne ps))
      else
        let sp := splitPositions (nth x.shape before) lengths
        match mapE (fun p : List Int × Nat => unpackPiece ops x before sp p.1 p.2) ps.zipIdx with
        | .error _ => .error (.said (.couldNotSplit (sp.getLastD 0) ps))
        | .ok ys => .ok ys

/-! ### `parse_shape` -/

/-- What the messages of `parse_shape` say (einops.py:680-710).  The texts also show the pattern and the shape. -/
inductive ShapeMessage
  | side (m : SideMessage)
  | composite
  | thisNumber
  | differentNumber
  | notOne
  | anonymous
  deriving DecidableEq, Repr

/-- the class of the exception -/
def ShapeMessage.kind : ShapeMessage → PyErr
  | .side _ => .einops
  | _ => .runtime

abbrev PyShape (α : Type u) := Except (Told ShapeMessage) α

/-- The numbers of dimensions (einops.py:683-688): `none` if they fit -/
def shapeRankO (e : ParsedExpression) (ndim : Nat) : Option ShapeMessage :=
  if ndim ≠ e.composition.length then
    if e.hasEllipsis then
      if (ndim : Int) < e.composition.length - 1 then some .thisNumber else none
    else some .differentNumber
  else none

/-- Body of the loop of `parse_shape` (einops.py:699-711) -/
def shapeStepO (result : List (Str × Nat)) (axes : CompAxis) (length : Nat) : PyShape (List (Str × Nat)) :=
  match axes.axes with
  | [] => if length ≠ 1 then .error (.said .notOne) else .ok result
  | [.str w] => if w ≠ ['_'] then .ok (dictSet result w length) else .ok result
  | [.anon _ _ v] => if v ≠ length then .error (.said .anonymous) else .ok result
  | _ => .error (.other .value)

/-- The loop (einops.py:698-712) -/
def shapeLoopO : List (Str × Nat) → List CompAxis → List Nat → PyShape (List (Str × Nat))
  | result, a :: as, n :: ns =>
    match shapeStepO result a n with
    | .error e => .error e
    | .ok result => shapeLoopO result as ns
  | result, _, _ => .ok result

/-- `parse_shape(x, pattern)` (einops.py:653-712) -/
def parseShapeO (shape : List Nat) (pattern : Str) : PyShape (List (Str × Nat)) :=
  match tellingSide .side (parseExpressionM 0 true false pattern) with
  | .error e => .error e
  | .ok e =>
    if e.hasComposedAxes then .error (.said .composite)
    else
      match shapeRankO e shape.length with
      | some m => .error (.said m)
      | none =>
        match telling (shapeComposition e shape.length) with
        | .error er => .error er
        | .ok c => shapeLoopO [] c shape

/-! ### `einsum` -/

/-- What the messages of `einsum` say (einops.py:755-768, 773-776, 800-801, 818, 906-912).  The text of `unknownAxis` also shows
the pattern. -/
inductive EinsumMessage
  | atLeastTwo
  | lastString
  | noArrow
  | side (m : SideMessage)
  | singleton
  | rearrangement
  | anonymous
  | emptyName
  | tooMany
  | unknownAxis (w : Str)
  deriving DecidableEq, Repr

/-- the class of the exception -/
def EinsumMessage.kind : EinsumMessage → PyErr
  | .atLeastTwo => .value
  | .lastString => .value
  | .noArrow => .value
  | .side _ => .einops
  | .singleton => .notImplemented
  | .rearrangement => .notImplemented
  | .anonymous => .notImplemented
  | .emptyName => .runtime
  | .tooMany => .runtime
  | .unknownAxis _ => .einops

abbrev PyEinsum (α : Type u) := Except (Told EinsumMessage) α

/-- `_validate_einsum_axis_name(axis_name)` and `axis_name[0]` (einops.py:755-768, 796-797) -/
def einsumAxisNameO : List Axis → PyEinsum Str
  | [] => .error (.said .singleton)
  | [.anon ..] => .error (.said .anonymous)
  | [.str s] => if s = [] then .error (.said .emptyName) else .ok s
  | _ => .error (.said .rearrangement)

/-- Body of the loop over the axes of one input (einops.py:791-804) -/
def einsumLeftStepO (m : List (Str × Char)) (i : Nat) (c : CompAxis) : PyEinsum (Str × List (Str × Char) × Nat) :=
  match c with
  | .ell => .ok (['.', '.', '.'], m, i)
  | .group g =>
    match einsumAxisNameO g with
    | .error e => .error e
    | .ok w =>
      match dictGet m w with
      | some l => .ok ([l], m, i)
      | none =>
        match asciiLetters[i]? with
        | none => .error (.said .tooMany)
        | some l => .ok ([l], dictSet m w l, i + 1)

/-- The axes of one input (einops.py:790-804) -/
def einsumLeftO : List (Str × Char) → Nat → List CompAxis → PyEinsum (Str × List (Str × Char) × Nat)
  | m, i, [] => .ok ([], m, i)
  | m, i, c :: cs =>
    match einsumLeftStepO m i c with
    | .error e => .error e
    | .ok (s, m, i) =>
      match einsumLeftO m i cs with
      | .error e => .error e
      | .ok (t, m, i) => .ok (s ++ t, m, i)

/-- The loop over the inputs (einops.py:789-805) -/
def einsumLeftsO : List (Str × Char) → Nat → List ParsedExpression → PyEinsum (List Str × List (Str × Char))
  | m, _, [] => .ok ([], m)
  | m, i, p :: ps =>
    match einsumLeftO m i p.composition with
    | .error e => .error e
    | .ok (s, m, i) =>
      match einsumLeftsO m i ps with
      | .error e => .error e
      | .ok (ss, m) => .ok (s :: ss, m)

/-- The loop over the output axes (einops.py:809-820) -/
def einsumRightO (m : List (Str × Char)) : List CompAxis → PyEinsum Str
  | [] => .ok []
  | .ell :: cs =>
    match einsumRightO m cs with
    | .error e => .error e
    | .ok t => .ok (['.', '.', '.'] ++ t)
  | .group g :: cs =>
    match einsumAxisNameO g with
    | .error e => .error e
    | .ok w =>
      match dictGet m w with
      | none => .error (.said (.unknownAxis w))
      | some l =>
        match einsumRightO m cs with
        | .error e => .error e
        | .ok t => .ok (l :: t)

/-- `_compactify_pattern_for_einsum(pattern)` (einops.py:771-822) -/
def compactifyO (pattern : Str) : PyEinsum Str :=
  if !containsSub ['-', '>'] pattern then .error (.said .noArrow)
  else
    match splitArrow pattern with
    | .error e => .error (.other e)
    | .ok (leftsStr, rightStr) =>
      match mapE (fun s => tellingSide .side (parseExpressionM 0 true true s)) (splitOn [','] leftsStr) with
      | .error e => .error e
      | .ok lefts =>
        match tellingSide .side (parseExpressionM 1 true false rightStr) with
        | .error e => .error e
        | .ok right =>
          match einsumLeftsO [] 0 lefts with
          | .error e => .error e
          | .ok (ss, m) =>
            match einsumRightO m right.composition with
            | .error e => .error e
            | .ok t => .ok (List.intercalate [','] ss ++ ['-', '>'] ++ t)

/-- `einsum(*tensors_and_pattern)` (einops.py:841-916) -/
def einsumO (f : Str → List (Tensor α) → Py (Tensor α)) (args : List (EinsumArg α)) : PyEinsum (Tensor α) :=
  if args.length ≤ 1 then .error (.said .atLeastTwo)
  else
    match args.getLast? with
    | some (.str pattern) =>
      match compactifyO pattern with
      | .error e => .error e
      | .ok s =>
        match args.dropLast with
        | .str _ :: _ => .error (.other .runtime)
        | ts =>
          match telling (einsumTensors ts) with
          | .error e => .error e
          | .ok xs => telling (f s xs)
    | _ => .error (.said .lastString)

end

/-! ### The texts -/

/-- `str` of a list of lists of ints -/
def shapesText (ps : List (List Int)) : Str :=
  "[".toList ++ List.intercalate ", ".toList (ps.map fun s =>
    "[".toList ++ List.intercalate ", ".toList (s.map intStr) ++ "]".toList) ++ "]".toList

/-- the messages of packing.py; packed shapes are given as lists -/
def PackMessage.text (F : Format) (opname pattern : Str) : PackMessage → Str
  | .duplicates => "Duplicates in axes names in ".toList ++ opname ++ "(..., \"".toList ++ pattern ++ "\")".toList
  | .noStar => "No *-axis in ".toList ++ opname ++ "(..., \"".toList ++ pattern ++ "\")".toList
  | .invalid a => "Invalid axis name ".toList ++ a ++ " in ".toList ++ opname ++ "(..., \"".toList ++ pattern ++ "\")".toList
  | .tooFewAxes i shape n =>
    "packed tensor #".toList ++ natStr i ++ " (enumeration starts with 0) has shape ".toList ++ F.shape shape ++
      ", while pattern ".toList ++ pattern ++ " assumes at least ".toList ++ natStr n ++ " axes".toList
  | .wrongDim shape => "unpack(..., ".toList ++ pattern ++ ") received input of wrong dim with shape ".toList ++ F.shape shape
  | .moreThanOne ps =>
    "unpack(..., ".toList ++ pattern ++ ") received more than one -1 in ".toList ++ shapesText ps ++
      " and can't infer dimensions".toList
  | .couldNotSplit n ps =>
    "Error during unpack(..., \"".toList ++ pattern ++ "\"): could not split axis of size ".toList ++ intStr n ++
      " into requested ".toList ++ shapesText ps

/-- the messages of `parse_shape` -/
def ShapeMessage.text (F : Format) (pattern : Str) (shape : List Nat) : ShapeMessage → Str
  | .side m => m.text
  | .composite => "Can't parse shape with composite axes: ".toList ++ pattern ++ " ".toList ++ F.shape shape
  | .thisNumber => "Can't parse shape with this number of dimensions: ".toList ++ pattern ++ " ".toList ++ F.shape shape
  | .differentNumber => "Can't parse shape with different number of dimensions: ".toList ++ pattern ++ " ".toList ++ F.shape shape
  | .notOne => "Length of axis is not 1: ".toList ++ pattern ++ " ".toList ++ F.shape shape
  | .anonymous => "Length of anonymous axis does not match: ".toList ++ pattern ++ " ".toList ++ F.shape shape

/-- the messages of `einsum` -/
def EinsumMessage.text (pattern : Str) : EinsumMessage → Str
  | .atLeastTwo =>
    "`einops.einsum` takes at minimum two arguments: the tensors (at least one), followed by the pattern.".toList
  | .lastString =>
    "The last argument passed to `einops.einsum` must be a string, representing the einsum pattern.".toList
  | .noArrow => "Einsum pattern must contain '->'.".toList
  | .side m => m.text
  | .singleton => "Singleton () axes are not yet supported in einsum.".toList
  | .rearrangement => "Shape rearrangement is not yet supported in einsum.".toList
  | .anonymous => "Anonymous axes are not yet supported in einsum.".toList
  | .emptyName => "Encountered empty axis name in einsum.".toList
  | .tooMany => "Too many axes in einsum.".toList
  | .unknownAxis w => "Unknown axis ".toList ++ w ++ " on right side of einsum ".toList ++ pattern ++ ".".toList

end Einops
