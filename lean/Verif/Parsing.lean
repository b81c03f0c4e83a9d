import Verif.PyStr

/-!
# Model of `einops/parsing.py`
-/

namespace Einops

/-- The single-character ellipsis marker (parsing.py:6). -/
def ellipsisStr : Str := ['…']

/-- An element of `ParsedExpression.identifiers`: a Python string, or an `AnonymousAxis` (parsing.py:9-21).
Instances of `AnonymousAxis` compare by object identity; an instance is modelled by the expression that created it
(`side`) and the running number of the word in that expression, together with its `value`. -/
inductive Axis
  | str (s : Str)
  | anon (side idx value : Nat)
  deriving DecidableEq, Repr

/-- An element of `ParsedExpression.composition`: the string '…' or a list of axes (parsing.py:37). -/
inductive CompAxis
  | ell
  | group (axes : List Axis)
  deriving DecidableEq, Repr

/-- `for axis in composite_axis`: iterating over the string '…' yields that one character. -/
def CompAxis.axes : CompAxis → List Axis
  | .ell => [.str ellipsisStr]
  | .group g => g

/-- `isinstance(axis, AnonymousAxis)` -/
def Axis.isAnon : Axis → Bool
  | .str _ => false
  | .anon .. => true

/-- The attributes of `ParsedExpression` (parsing.py:31-37).  `identifiers` is a set: only membership and (through an
arbitrary iteration order) its elements are ever used; the list holds the elements in order of insertion. -/
structure ParsedExpression where
  hasEllipsis : Bool
  ellParen : Option Bool
  identifiers : List Axis
  nonUnitary : Bool
  composition : List CompAxis
  deriving DecidableEq, Repr

/-- Local variables of `ParsedExpression.__init__` (parsing.py:30-110). -/
structure PState where
  ellParen : Option Bool
  identifiers : List Axis
  nonUnitary : Bool
  composition : List CompAxis
  bracket : Option (List Axis)
  cur : Option Str
  /-- number of words handled so far; tags fresh `AnonymousAxis` objects -/
  fresh : Nat
  deriving DecidableEq, Repr

def PState.init : PState := ⟨none, [], false, [], none, none, 0⟩

/-- `set.add` -/
def setAdd (l : List Axis) (a : Axis) : List Axis := if a ∈ l then l else l ++ [a]

section
variable [PyUnicode]

/-- `check_axis_name_return_reason(name, allow_underscore)[0]` (parsing.py:127-143).  The warnings for keywords and for
`axis` are in `Warnings.lean`. -/
def checkAxisName (allowUnderscore : Bool) (name : Str) : Bool :=
  if !isIdentifier name then false
  else if name.head? = some '_' ∨ name.getLast? = some '_' then name == ['_'] && allowUnderscore
  else true

/-- `AnonymousAxis(x)` for a decimal string (parsing.py:12-18). -/
def mkAnon (side idx : Nat) (x : Str) : Py Axis :=
  if decimalValue x ≤ 1 then .error .einops else .ok (.anon side idx (decimalValue x))

/-- Append to the composition or to the open bracket group (parsing.py:55-61, 79-82). -/
def PState.push (st : PState) (a : Axis) (top : CompAxis) : PState :=
  match st.bracket with
  | none => { st with composition := st.composition ++ [top] }
  | some g => { st with bracket := some (g ++ [a]) }

/-- The local function `add_axis_name` (parsing.py:50-82). -/
def addAxisName (side : Nat) (allowUnderscore allowDuplicates : Bool) (st : PState) (x : Str) : Py PState :=
  if Axis.str x ∈ st.identifiers ∧ ¬ ((allowUnderscore = true ∧ x = ['_']) ∨ allowDuplicates = true) then
    .error .einops
  else
    let st := { st with fresh := st.fresh + 1 }
    if x = ellipsisStr then
      .ok ({ st with
              identifiers := setAdd st.identifiers (.str ellipsisStr)
              ellParen := some st.bracket.isSome }.push (.str ellipsisStr) .ell)
    else if isDecimal x = true ∧ decimalValue x = 1 then
      match st.bracket with
      | none => .ok { st with composition := st.composition ++ [.group []] }
      | some _ => .ok st
    else if !(isDecimal x || checkAxisName allowUnderscore x) then .error .einops
    else if isDecimal x then
      match mkAnon side (st.fresh - 1) x with
      | .error e => .error e
      | .ok a =>
        .ok ({ st with identifiers := setAdd st.identifiers a, nonUnitary := true }.push a (.group [a]))
    else
      .ok ({ st with identifiers := setAdd st.identifiers (.str x) }.push (.str x) (.group [.str x]))

/-- `if current_identifier is not None: add_axis_name(current_identifier); current_identifier = None`
(parsing.py:87-89, 109-110). -/
def flushCur (side : Nat) (allowUnderscore allowDuplicates : Bool) (st : PState) : Py PState :=
  match st.cur with
  | none => .ok st
  | some x => addAxisName side allowUnderscore allowDuplicates { st with cur := none } x

/-- Handling of an opening bracket (parsing.py:90-93). -/
def openBracket (st : PState) : Py PState :=
  match st.bracket with
  | some _ => .error .einops
  | none => .ok { st with bracket := some [] }

/-- Handling of a closing bracket (parsing.py:94-98). -/
def closeBracket (st : PState) : Py PState :=
  match st.bracket with
  | none => .error .einops
  | some g => .ok { st with composition := st.composition ++ [.group g], bracket := none }

/-- Body of the loop over characters (parsing.py:84-105). -/
def stepChar (side : Nat) (allowUnderscore allowDuplicates : Bool) (st : PState) (c : Char) : Py PState :=
  if c = '(' ∨ c = ')' ∨ c = ' ' then
    match flushCur side allowUnderscore allowDuplicates st with
    | .error e => .error e
    | .ok st =>
      if c = '(' then openBracket st
      else if c = ')' then closeBracket st
      else .ok st
  else if PyUnicode.isAlnum c = true ∨ c = '_' ∨ c = '…' then
    .ok { st with cur := some (st.cur.getD [] ++ [c]) }
  else .error .einops

/-- `for char in expression` (parsing.py:84-105). -/
def runChars (side : Nat) (allowUnderscore allowDuplicates : Bool) : PState → Str → Py PState
  | st, [] => .ok st
  | st, c :: cs =>
    match stepChar side allowUnderscore allowDuplicates st c with
    | .error e => .error e
    | .ok st => runChars side allowUnderscore allowDuplicates st cs

/-- After the loop (parsing.py:107-110). -/
def finishParse (side : Nat) (allowUnderscore allowDuplicates : Bool) (st : PState) : Py PState :=
  if st.bracket.isSome then .error .einops
  else flushCur side allowUnderscore allowDuplicates st

/-- Dots are only allowed as one ellipsis, which is replaced by the marker (parsing.py:38-46).  The result says whether
there was one. -/
def prepareDots (expression : Str) : Py (Bool × Str) :=
  if containsSub ['.'] expression then
    if !containsSub ['.', '.', '.'] expression then .error .einops
    else if countSub ['.', '.', '.'] expression ≠ 1 ∨ countSub ['.'] expression ≠ 3 then .error .einops
    else .ok (true, replaceSub ['.', '.', '.'] ellipsisStr expression)
  else .ok (false, expression)

/-- `ParsedExpression(expression, allow_underscore=.., allow_duplicates=..)` (parsing.py:30-110). -/
def parseExpression (side : Nat) (allowUnderscore allowDuplicates : Bool) (expression : Str) : Py ParsedExpression :=
  match prepareDots expression with
  | .error e => .error e
  | .ok (hasEllipsis, expression) =>
    match runChars side allowUnderscore allowDuplicates PState.init expression with
    | .error e => .error e
    | .ok st =>
      match finishParse side allowUnderscore allowDuplicates st with
      | .error e => .error e
      | .ok st =>
        .ok ⟨hasEllipsis, st.ellParen, st.identifiers, st.nonUnitary, st.composition⟩

end

/-- `has_composed_axes` (parsing.py:120-125). -/
def ParsedExpression.hasComposedAxes (e : ParsedExpression) : Bool :=
  e.composition.any (fun c => match c with
    | .ell => false
    | .group g => decide (1 < g.length))

/-- `flat_axes_order` (parsing.py:112-118). -/
def ParsedExpression.flatAxesOrder (e : ParsedExpression) : Py (List Axis) :=
  e.composition.foldl (fun acc c =>
    match acc, c with
    | .error x, _ => .error x
    | .ok _, .ell => .error .assertion
    | .ok r, .group g => .ok (r ++ g)) (.ok [])

end Einops
