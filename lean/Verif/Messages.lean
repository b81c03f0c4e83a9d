import Verif.Apply
import Verif.Repr

/-!
# Messages of `EinopsError`

The functions of `Parsing`, `Recipe` and `Apply` once more, with the message of every `EinopsError` they raise.  Forgetting
the messages gives the functions there (`Proofs/Messages.lean`: `erase_reduceM`).
-/

namespace Einops

universe u

/-- the reasons of `check_axis_name_return_reason` (parsing.py:127-143) -/
inductive Reason
  | notIdentifier
  | underscore
  deriving DecidableEq, Repr

/-- What the messages of `ParsedExpression` say about one side of a pattern (parsing.py:12-18, 38-44, 50-76, 84-108). -/
inductive SideMessage
  | dotsOutside
  | secondEllipsis
  | duplicate (x : Str)
  | invalid (x : Str) (r : Reason)
  | lengthOne
  | notPositive (v : Nat)
  | nested
  | unbalanced
  | unknownChar (c : Char)
  | imbalanced (expression : Str)
  deriving DecidableEq, Repr

/-- What the messages of an operation say (einops.py:181-188, 303-334, 365-366, 393-406).  Sets are lists in the order in which
they are printed. -/
inductive Message
  | side (m : SideMessage)
  | ellipsisRight (pattern : Str)
  | ellipsisParen (pattern : Str)
  | nonUnitary
  | oneSide (axes : List Axis)
  | leftOfRepeat (axes : List Axis)
  | withoutSize (axes : List Axis)
  | rightOfReduce (op : OpKind) (axes : List Axis)
  | unknownReduction (op : OpKind)
  | tooFewDims (expected received : Nat)
  | wrongDims (expected received : Nat)
  | invalidName (n : Str)
  | unused (n : Str)
  | cannotInfer (axes : List Axis)
  | mismatch (length product : Int)
  | notDivisible (length product : Int)
  deriving DecidableEq, Repr

/-- An exception together with its message if it is an `EinopsError` of einops itself. -/
inductive Fault
  | einops (m : Message)
  | other (e : PyErr)
  deriving DecidableEq, Repr

/-- the exception without its message -/
def Fault.kind : Fault → PyErr
  | .einops _ => .einops
  | .other e => e

abbrev PyM (α : Type u) := Except Fault α

/-- a computation without the messages -/
def erase {α : Type u} : PyM α → Py α
  | .error f => .error f.kind
  | .ok a => .ok a

/-- a computation that raises no `EinopsError` of its own -/
def quiet {α : Type u} : Py α → PyM α
  | .error e => .error (.other e)
  | .ok a => .ok a

/-! ### Parsing -/

abbrev PySide (α : Type u) := Except SideMessage α

section
variable [PyUnicode]

/-- `check_axis_name_return_reason` (parsing.py:127-143), warnings left out; `none` is `True, ""`. -/
def nameReason (allowUnderscore : Bool) (name : Str) : Option Reason :=
  if !isIdentifier name then some .notIdentifier
  else if name.head? = some '_' ∨ name.getLast? = some '_' then
    if name == ['_'] && allowUnderscore then none else some .underscore
  else none

/-- `AnonymousAxis(x)` (parsing.py:12-18) -/
def mkAnonM (side idx : Nat) (x : Str) : PySide Axis :=
  if decimalValue x ≤ 1 then
    if decimalValue x = 1 then .error .lengthOne else .error (.notPositive (decimalValue x))
  else .ok (.anon side idx (decimalValue x))

/-- `add_axis_name` (parsing.py:50-82) -/
def addAxisNameM (side : Nat) (allowUnderscore allowDuplicates : Bool) (st : PState) (x : Str) : PySide PState :=
  if Axis.str x ∈ st.identifiers ∧ ¬ ((allowUnderscore = true ∧ x = ['_']) ∨ allowDuplicates = true) then
    .error (.duplicate x)
  else
    let st := { st with fresh := st.fresh + 1 }
    if x = ellipsisStr then
      .ok ({ st with
              identifiers := setAdd st.identifiers (.str ellipsisStr)
              ellParen := some st.bracket.isSome }.push (.str ellipsisStr) .ell)
    else if isDecimal x = true ∧ decimalValue x = 1 then
      match st.bracket with
      | none => .ok { st with composition := st.composition ++ [.group []] }
      | some _ => .ok st
    else
      match isDecimal x, nameReason allowUnderscore x with
      | false, some r => .error (.invalid x r)
      | true, _ =>
        match mkAnonM side (st.fresh - 1) x with
        | .error e => .error e
        | .ok a =>
          .ok ({ st with identifiers := setAdd st.identifiers a, nonUnitary := true }.push a (.group [a]))
      | false, none =>
        .ok ({ st with identifiers := setAdd st.identifiers (.str x) }.push (.str x) (.group [.str x]))

/-- parsing.py:87-89, 109-110 -/
def flushCurM (side : Nat) (allowUnderscore allowDuplicates : Bool) (st : PState) : PySide PState :=
  match st.cur with
  | none => .ok st
  | some x => addAxisNameM side allowUnderscore allowDuplicates { st with cur := none } x

/-- parsing.py:90-93 -/
def openBracketM (st : PState) : PySide PState :=
  match st.bracket with
  | some _ => .error .nested
  | none => .ok { st with bracket := some [] }

/-- parsing.py:94-98 -/
def closeBracketM (st : PState) : PySide PState :=
  match st.bracket with
  | none => .error .unbalanced
  | some g => .ok { st with composition := st.composition ++ [.group g], bracket := none }

/-- body of the loop over characters (parsing.py:84-105) -/
def stepCharM (side : Nat) (allowUnderscore allowDuplicates : Bool) (st : PState) (c : Char) : PySide PState :=
  if c = '(' ∨ c = ')' ∨ c = ' ' then
    match flushCurM side allowUnderscore allowDuplicates st with
    | .error e => .error e
    | .ok st =>
      if c = '(' then openBracketM st
      else if c = ')' then closeBracketM st
      else .ok st
  else if PyUnicode.isAlnum c = true ∨ c = '_' ∨ c = '…' then
    .ok { st with cur := some (st.cur.getD [] ++ [c]) }
  else .error (.unknownChar c)

/-- the loop (parsing.py:84-105) -/
def runCharsM (side : Nat) (allowUnderscore allowDuplicates : Bool) : PState → Str → PySide PState
  | st, [] => .ok st
  | st, c :: cs =>
    match stepCharM side allowUnderscore allowDuplicates st c with
    | .error e => .error e
    | .ok st => runCharsM side allowUnderscore allowDuplicates st cs

/-- after the loop (parsing.py:107-110) -/
def finishParseM (side : Nat) (allowUnderscore allowDuplicates : Bool) (expression : Str) (st : PState) : PySide PState :=
  if st.bracket.isSome then .error (.imbalanced expression)
  else flushCurM side allowUnderscore allowDuplicates st

/-- parsing.py:38-46 -/
def prepareDotsM (expression : Str) : PySide (Bool × Str) :=
  if containsSub ['.'] expression then
    if !containsSub ['.', '.', '.'] expression then .error .dotsOutside
    else if countSub ['.', '.', '.'] expression ≠ 1 ∨ countSub ['.'] expression ≠ 3 then .error .secondEllipsis
    else .ok (true, replaceSub ['.', '.', '.'] ellipsisStr expression)
  else .ok (false, expression)

/-- `ParsedExpression(expression, ..)` (parsing.py:30-110) -/
def parseExpressionM (side : Nat) (allowUnderscore allowDuplicates : Bool) (expression : Str) : PySide ParsedExpression :=
  match prepareDotsM expression with
  | .error e => .error e
  | .ok (hasEllipsis, expression) =>
    match runCharsM side allowUnderscore allowDuplicates PState.init expression with
    | .error e => .error e
    | .ok st =>
      match finishParseM side allowUnderscore allowDuplicates expression st with
      | .error e => .error e
      | .ok st =>
        .ok ⟨hasEllipsis, st.ellParen, st.identifiers, st.nonUnitary, st.composition⟩

end

/-! ### Preparation of the recipe -/

/-- `raise EinopsError(...)` with message `m` if the printed set is not empty -/
def raiseFor (so : SetOrder) (l : List Axis) (m : List Axis → Message) (rest : PyM Unit) : PyM Unit :=
  if l ≠ [] then .error (.einops (m (so.order 0 l))) else rest

/-- einops.py:303-329.  A set that is printed is printed in the order of its iteration. -/
def checkSidesM (so : SetOrder) (pattern : Str) (left rght : ParsedExpression) (op : OpKind) (axesNames : List Str) : PyM Unit :=
  if !left.hasEllipsis && rght.hasEllipsis then .error (.einops (.ellipsisRight pattern))
  else if left.hasEllipsis && left.ellParen == some true then .error (.einops (.ellipsisParen pattern))
  else if op = .name "rearrange".toList then
    if left.nonUnitary || rght.nonUnitary then .error (.einops .nonUnitary)
    else raiseFor so ((left.identifiers.filter (fun a => a ∉ rght.identifiers)) ++
        (rght.identifiers.filter (fun a => a ∉ left.identifiers))) .oneSide (.ok ())
  else if op = .name "repeat".toList then
    raiseFor so (left.identifiers.filter (fun a => a ∉ rght.identifiers)) .leftOfRepeat
      (raiseFor so (rght.identifiers.filter
        (fun a => !a.isAnon && decide (a ∉ left.identifiers) && decide (a ∉ axesNames.map Axis.str))) .withoutSize (.ok ()))
  else
    match op with
    | .callable =>
      raiseFor so (rght.identifiers.filter (fun a => a ∉ left.identifiers)) (.rightOfReduce op) (.ok ())
    | .name s =>
      if s ∈ reductionNames then
        raiseFor so (rght.identifiers.filter (fun a => a ∉ left.identifiers)) (.rightOfReduce op) (.ok ())
      else .error (.einops (.unknownReduction op))

/-- einops.py:331-368 -/
def expandSidesM (left rght : ParsedExpression) (ndim : Nat) : PyM Expanded :=
  if left.hasEllipsis then
    if ndim < left.composition.length - 1 then .error (.einops (.tooFewDims (left.composition.length - 1) ndim))
    else
      let ell := ellAxes (ndim - (left.composition.length - 1))
      .ok {
        left := expandLeft ell left.composition
        rght := expandRight ell rght.composition
        leftIds := expandIds ell left.identifiers
        rghtIds := if rght.hasEllipsis then expandIds ell rght.identifiers else rght.identifiers }
  else if ndim ≠ left.composition.length then .error (.einops (.wrongDims left.composition.length ndim))
  else .ok ⟨left.composition.map CompAxis.axes, rght.composition.map CompAxis.axes,
      left.identifiers, rght.identifiers⟩

section
variable [PyUnicode]

/-- einops.py:392-398 -/
def markExpectedM : List (Axis × Int) → List Str → PyM (List (Axis × Int))
  | d, [] => .ok d
  | d, n :: ns =>
    if !checkAxisName false n then .error (.einops (.invalidName n))
    else match dictGet d (.str n) with
      | none => .error (.einops (.unused n))
      | some _ => markExpectedM (dictSet d (.str n) expectedAxisLength) ns

/-- einops.py:402-410 -/
def knownUnknownM (so : SetOrder) (keys : List Axis) (d : List (Axis × Int)) (i : Nat) (g : List Axis) :
    PyM (List Nat × List Nat) :=
  match mapE (fun a => dictGetE d a) g with
  | .error e => .error (.other e)
  | .ok lens =>
    let known := setOf (((g.zip lens).filter (fun p => p.2 ≠ unknownAxisLength)).map Prod.fst)
    let unknown := setOf (((g.zip lens).filter (fun p => p.2 = unknownAxisLength)).map Prod.fst)
    if 1 < unknown.length then .error (.einops (.cannotInfer (so.order (2 * i + 2) unknown)))
    else if unknown.length + known.length ≠ g.length then .error (.other .assertion)
    else
      match mapE (positionE keys) (so.order (2 * i + 1) known) with
      | .error e => .error (.other e)
      | .ok ks =>
        match mapE (positionE keys) (so.order (2 * i + 2) unknown) with
        | .error e => .error (.other e)
        | .ok us => .ok (ks, us)

/-- einops.py:370-442 -/
def buildRecipeM (so : SetOrder) (ex : Expanded) (axesNames : List Str) : PyM TransformRecipe :=
  let d0 := knownAll so ex.left ex.rghtIds
  let keys := d0.map Prod.fst
  match markExpectedM d0 axesNames with
  | .error e => .error e
  | .ok d =>
    match mapE (fun p => knownUnknownM so keys d p.2 p.1) ex.left.zipIdx with
    | .error e => .error e
    | .ok inputComposition =>
      match mapE (fun g => mapE (positionE keys) g) ex.rght with
      | .error e => .error (.other e)
      | .ok outputComposite =>
        let orderedLeft := ex.left.flatten
        let orderedRght := ex.rght.flatten
        let reduced := orderedLeft.filter (fun a => a ∉ ex.rghtIds)
        let orderAfter := orderedRght.filter (fun a => a ∈ ex.leftIds) ++ reduced
        match mapE (indexE orderedLeft) orderAfter with
        | .error e => .error (.other e)
        | .ok permutation =>
          match mapE (fun p : Axis × Nat =>
              match positionE keys p.1 with
              | .error e => .error e
              | .ok k => .ok (p.2, k)) (orderedRght.zipIdx.filter (fun p => p.1 ∉ ex.leftIds)) with
          | .error e => .error (.other e)
          | .ok added =>
            match mapE (fun n => match positionE keys (.str n) with
                | .error e => .error e
                | .ok k => .ok (n, k)) axesNames with
            | .error e => .error (.other e)
            | .ok name2elementary =>
              .ok {
                elementaryAxesLengths := d.map Prod.snd
                axisName2elementary := name2elementary
                inputComposition := inputComposition
                axesPermutation := permutation
                firstReducedAxis := orderAfter.length - reduced.length
                addedAxes := added
                outputCompositeAxes := outputComposite }

/-- `_prepare_transformation_recipe` (einops.py:289-442) -/
def prepareRecipeM (so : SetOrder) (pattern : Str) (op : OpKind) (axesNames : List Str) (ndim : Nat) :
    PyM TransformRecipe :=
  match splitArrow pattern with
  | .error e => .error (.other e)
  | .ok (l, r) =>
    match parseExpressionM 0 false false l with
    | .error m => .error (.einops (.side m))
    | .ok left =>
      match parseExpressionM 1 false false r with
      | .error m => .error (.einops (.side m))
      | .ok rght =>
        match checkSidesM so pattern left rght op axesNames with
        | .error e => .error e
        | .ok () =>
          match expandSidesM left rght ndim with
          | .error e => .error e
          | .ok ex => buildRecipeM so ex axesNames

end

/-! ### Using the shape -/

/-- einops.py:171-195 -/
def inferAxisM (st : List Size × Bool) (length : Size) (ku : List Nat × List Nat) : PyM (List Size × Bool) :=
  let (ls, need) := st
  let (known, unknown) := ku
  match known, unknown with
  | [], [u] =>
    match setE ls u length with
    | .error e => .error (.other e)
    | .ok ls => .ok (ls, need)
  | _, _ =>
    match mapE (getE ls) known with
    | .error e => .error (.other e)
    | .ok vs =>
      let knownProduct := sizeProd vs
      match unknown with
      | [] =>
        if length.isInt && knownProduct.isInt && decide (length.val ≠ knownProduct.val) then
          .error (.einops (.mismatch length.val knownProduct.val))
        else .ok (ls, need || decide (known.length + unknown.length ≠ 1))
      | u :: _ =>
        if length.isInt && knownProduct.isInt && decide (knownProduct.val = 0) then .error (.other .zeroDivision)
        else if length.isInt && knownProduct.isInt && decide (Int.fmod length.val knownProduct.val ≠ 0) then
          .error (.einops (.notDivisible length.val knownProduct.val))
        else
          match setE ls u (length.fdiv knownProduct) with
          | .error e => .error (.other e)
          | .ok ls => .ok (ls, need || decide (known.length + unknown.length ≠ 1))

/-- the loop (einops.py:171-195) -/
def inferAllM (shape : List Size) : List Size × Bool → List ((List Nat × List Nat) × Nat) → PyM (List Size × Bool)
  | st, [] => .ok st
  | st, (ku, i) :: rest =>
    match getE shape i with
    | .error e => .error (.other e)
    | .ok length =>
      match inferAxisM st length ku with
      | .error e => .error e
      | .ok st => inferAllM shape st rest

/-- `_reconstruct_from_shape_uncached` (einops.py:155-224) -/
def reconstructM (r : TransformRecipe) (shape : List Size) (axesDims : List (Str × Size)) : PyM CookedRecipe :=
  match setDims r.axisName2elementary (r.elementaryAxesLengths.map Size.ofInt) axesDims with
  | .error e => .error (.other e)
  | .ok ls0 =>
    match inferAllM shape (ls0, false) r.inputComposition.zipIdx with
    | .error e => .error e
    | .ok (ls, need) =>
      match mapE (fun g => mapE (getE ls) g) r.outputCompositeAxes with
      | .error e => .error (.other e)
      | .ok groups =>
        match mapE (addedSize ls) r.addedAxes with
        | .error e => .error (.other e)
        | .ok added =>
          let n := r.axesPermutation.length
          .ok {
            initShapes := if need then some (ls.take n) else none
            axesReordering := if r.axesPermutation = List.range n then none else some r.axesPermutation
            reducedAxes := (List.range n).drop r.firstReducedAxis
            addedAxes := added
            finalShapes := if groups.any (fun g => g.length ≠ 1) then some (groups.map sizeProd) else none
            nAxesWithAdded := added.length + n }

section
variable {α : Type u} [PyUnicode]

/-- `reduce` (einops.py:520-542) up to the sentence around the message: what is raised inside the `try` block, for the tensor
the call is about.  A callable or a framework may raise an `EinopsError` of its own (`Fault.other .einops`). -/
def reduceM (b : Backend α) (so : SetOrder) (t : Input α) (pattern : Str) (red : Reduction α) (kw : List (Str × Size)) :
    PyM (Tensor α) :=
  match resolveInput b t with
  | .error e => .error (.other e)
  | .ok x =>
    match prepareRecipeM so pattern red.kind (kw.map Prod.fst) x.ndim with
    | .error e => .error e
    | .ok r =>
      match reconstructM r (x.shape.map Size.ofNat) kw with
      | .error e => .error e
      | .ok c => quiet (applyCooked b c x red)

end

/-! ### The text -/

/-- Texts that einops leaves to others: which characters Python prints, a callable, the shape of a tensor, a size. -/
structure Format where
  printable : Char → Bool
  callable : Str
  shape : List Nat → Str
  size : Size → Str

/-- `str(reason)` (parsing.py:129-133) -/
def Reason.text : Reason → Str
  | .notIdentifier => "not a valid python identifier".toList
  | .underscore => "axis name should should not start or end with underscore".toList

/-- the messages of parsing.py -/
def SideMessage.text : SideMessage → Str
  | .dotsOutside => "Expression may contain dots only inside ellipsis (...)".toList
  | .secondEllipsis => "Expression may contain dots only inside ellipsis (...); only one ellipsis for tensor ".toList
  | .duplicate x => "Indexing expression contains duplicate dimension \"".toList ++ x ++ "\"".toList
  | .invalid x r => "Invalid axis identifier: ".toList ++ x ++ "\n".toList ++ r.text
  | .lengthOne => "No need to create anonymous axis of length 1. Report this as an issue".toList
  | .notPositive v => "Anonymous axis should have positive length, not ".toList ++ natStr v
  | .nested => "Axis composition is one-level (brackets inside brackets not allowed)".toList
  | .unbalanced => "Brackets are not balanced".toList
  | .unknownChar c => "Unknown character '".toList ++ [c] ++ "'".toList
  | .imbalanced e => "Imbalanced parentheses in expression: \"".toList ++ e ++ "\"".toList

/-- `repr` of an axis (parsing.py:20-21 for `AnonymousAxis`) -/
def Axis.repr (F : Format) : Axis → Str
  | .str s => reprStr F.printable s
  | .anon _ _ v => natStr v ++ "-axis".toList

/-- `str` of a set that is not empty -/
def setText (F : Format) (l : List Axis) : Str :=
  "{".toList ++ List.intercalate ", ".toList (l.map (Axis.repr F)) ++ "}".toList

/-- `str(reduction)` -/
def OpKind.text (F : Format) : OpKind → Str
  | .name s => s
  | .callable => F.callable

/-- the messages of einops.py.  (`EinopsError("Invalid name for an axis", n)` has two arguments, `str` shows the tuple of
them.) -/
def Message.text (F : Format) : Message → Str
  | .side m => m.text
  | .ellipsisRight p => "Ellipsis found in right side, but not left side of a pattern ".toList ++ p
  | .ellipsisParen p => "Ellipsis inside parenthesis in the left side is not allowed: ".toList ++ p
  | .nonUnitary => "Non-unitary anonymous axes are not supported in rearrange (exception is length 1)".toList
  | .oneSide l => "Identifiers only on one side of expression (should be on both): ".toList ++ setText F l
  | .leftOfRepeat l => "Unexpected identifiers on the left side of repeat: ".toList ++ setText F l
  | .withoutSize l => "Specify sizes for new axes in repeat: ".toList ++ setText F l
  | .rightOfReduce op l => "Unexpected identifiers on the right side of reduce ".toList ++ op.text F ++ ": ".toList ++ setText F l
  | .unknownReduction op =>
    "Unknown reduction ".toList ++ op.text F ++
      ". Expect one of ('min', 'max', 'sum', 'mean', 'prod', 'any', 'all').".toList
  | .tooFewDims n k => "Wrong shape: expected >=".toList ++ natStr n ++ " dims. Received ".toList ++ natStr k ++ "-dim tensor.".toList
  | .wrongDims n k => "Wrong shape: expected ".toList ++ natStr n ++ " dims. Received ".toList ++ natStr k ++ "-dim tensor.".toList
  | .invalidName n => "('Invalid name for an axis', ".toList ++ reprStr F.printable n ++ ")".toList
  | .unused n => "Axis ".toList ++ n ++ " is not used in transform".toList
  | .cannotInfer l => "Could not infer sizes for ".toList ++ setText F l
  | .mismatch n p => "Shape mismatch, ".toList ++ intStr n ++ " != ".toList ++ intStr p
  | .notDivisible n p =>
    "Shape mismatch, can't divide axis of length ".toList ++ intStr n ++ " in chunks of ".toList ++ intStr p

/-- `str` of the dictionary of sizes -/
def sizesText (F : Format) (kw : List (Str × Size)) : Str :=
  "{".toList ++ List.intercalate ", ".toList (kw.map fun p => reprStr F.printable p.1 ++ ": ".toList ++ F.size p.2) ++ "}".toList

/-- The message of the exception a call ends with (einops.py:535-542).  When an `EinopsError` is raised a list of tensors has
been stacked already, so the shape is printed (einops.py:525, 537). -/
def callText (F : Format) (op : OpKind) (pattern : Str) (shape : List Nat) (kw : List (Str × Size)) (m : Message) : Str :=
  " Error while processing ".toList ++ op.text F ++ "-reduction pattern \"".toList ++ pattern ++ "\".".toList ++
    "\n Input tensor shape: ".toList ++ F.shape shape ++ ". ".toList ++
    "Additional info: ".toList ++ sizesText F kw ++ ".".toList ++ "\n ".toList ++ m.text F

end Einops
