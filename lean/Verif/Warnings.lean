import Verif.Cache
import Verif.ParseShape
import Verif.Packing
import Verif.Einsum
import Verif.Layers

/-!
# Warnings

The functions that read patterns once more, with the warnings of `check_axis_name_return_reason` (parsing.py:135-143).

`warnings.warn` looks at the filters of the process: a filter may turn a warning into an exception, otherwise the program goes
on, whether anything is printed or not.  `raises` says for which warnings there is such a filter.  The first component of a
`Warned` computation are the warnings it issues, the one that is raised included.
-/

namespace Einops

universe u v

/-- The two warnings about names (parsing.py:137-142): a `RuntimeWarning` with the name, and a `FutureWarning`; and the
`UserWarning` of `EinMix` about a weight without dimensions (_einmix.py:120-121). -/
inductive NameWarning
  | keyword (name : Str)
  | axis
  | noDimensions
  deriving DecidableEq, Repr

/-- An exception: one of the others, or a warning.  A warning is no `EinopsError`, so nothing in einops catches it
(einops.py:535, layers/__init__.py:40). -/
inductive Raised
  | error (e : PyErr)
  | warning (w : NameWarning)
  deriving DecidableEq, Repr

abbrev Warned (α : Type u) := List NameWarning × Except Raised α

/-- a computation that issues no warnings -/
def silent {α : Type u} : Py α → Warned α
  | .ok a => ([], .ok a)
  | .error e => ([], .error (.error e))

/-- one computation after the other -/
def Warned.andThen {α : Type u} {β : Type v} (c : Warned α) (f : α → Warned β) : Warned β :=
  match c with
  | (ws, .error e) => (ws, .error e)
  | (ws, .ok a) => (ws ++ (f a).1, (f a).2)

/-- `warnings.warn(..)` -/
def warn (raises : NameWarning → Bool) (w : NameWarning) : Warned Unit :=
  ([w], if raises w then .error (.warning w) else .ok ())

/-- `keyword.kwlist`.  (Python 3.9 has `__peg_parser__` in addition, which starts with an underscore.) -/
def pyKeywords : List Str :=
  ["False", "None", "True", "and", "as", "assert", "async", "await", "break", "class", "continue", "def", "del", "elif", "else",
    "except", "finally", "for", "from", "global", "if", "import", "in", "is", "lambda", "nonlocal", "not", "or", "pass", "raise",
    "return", "try", "while", "with", "yield"].map String.toList

section
variable [PyUnicode] (raises : NameWarning → Bool)

/-- `check_axis_name_return_reason(name, allow_underscore)[0]` (parsing.py:127-143) -/
def checkAxisNameW (allowUnderscore : Bool) (name : Str) : Warned Bool :=
  if !isIdentifier name then silent (.ok false)
  else if name.head? = some '_' ∨ name.getLast? = some '_' then silent (.ok (name == ['_'] && allowUnderscore))
  else
    (if name ∈ pyKeywords then warn raises (.keyword name) else silent (.ok ())).andThen fun _ =>
      (if name = "axis".toList then warn raises .axis else silent (.ok ())).andThen fun _ =>
        silent (.ok true)

/-! ### Parsing -/

/-- `add_axis_name` (parsing.py:50-82) -/
def addAxisNameW (side : Nat) (allowUnderscore allowDuplicates : Bool) (st : PState) (x : Str) : Warned PState :=
  if Axis.str x ∈ st.identifiers ∧ ¬ ((allowUnderscore = true ∧ x = ['_']) ∨ allowDuplicates = true) then
    silent (.error .einops)
  else
    let st := { st with fresh := st.fresh + 1 }
    if x = ellipsisStr then
      silent (.ok ({ st with
              identifiers := setAdd st.identifiers (.str ellipsisStr)
              ellParen := some st.bracket.isSome }.push (.str ellipsisStr) .ell))
    else if isDecimal x = true ∧ decimalValue x = 1 then
      match st.bracket with
      | none => silent (.ok { st with composition := st.composition ++ [.group []] })
      | some _ => silent (.ok st)
    else
      (checkAxisNameW raises allowUnderscore x).andThen fun isAxisName =>
        if !(isDecimal x || isAxisName) then silent (.error .einops)
        else if isDecimal x then
          (silent (mkAnon side (st.fresh - 1) x)).andThen fun a =>
            silent (.ok ({ st with identifiers := setAdd st.identifiers a, nonUnitary := true }.push a (.group [a])))
        else
          silent (.ok ({ st with identifiers := setAdd st.identifiers (.str x) }.push (.str x) (.group [.str x])))

/-- parsing.py:87-89, 109-110 -/
def flushCurW (side : Nat) (allowUnderscore allowDuplicates : Bool) (st : PState) : Warned PState :=
  match st.cur with
  | none => silent (.ok st)
  | some x => addAxisNameW raises side allowUnderscore allowDuplicates { st with cur := none } x

/-- body of the loop over characters (parsing.py:84-105) -/
def stepCharW (side : Nat) (allowUnderscore allowDuplicates : Bool) (st : PState) (c : Char) : Warned PState :=
  if c = '(' ∨ c = ')' ∨ c = ' ' then
    (flushCurW raises side allowUnderscore allowDuplicates st).andThen fun st =>
      if c = '(' then silent (openBracket st)
      else if c = ')' then silent (closeBracket st)
      else silent (.ok st)
  else if PyUnicode.isAlnum c = true ∨ c = '_' ∨ c = '…' then
    silent (.ok { st with cur := some (st.cur.getD [] ++ [c]) })
  else silent (.error .einops)

/-- the loop (parsing.py:84-105) -/
def runCharsW (side : Nat) (allowUnderscore allowDuplicates : Bool) : PState → Str → Warned PState
  | st, [] => silent (.ok st)
  | st, c :: cs =>
    (stepCharW raises side allowUnderscore allowDuplicates st c).andThen fun st =>
      runCharsW side allowUnderscore allowDuplicates st cs

/-- after the loop (parsing.py:107-110) -/
def finishParseW (side : Nat) (allowUnderscore allowDuplicates : Bool) (st : PState) : Warned PState :=
  if st.bracket.isSome then silent (.error .einops)
  else flushCurW raises side allowUnderscore allowDuplicates st

/-- `ParsedExpression(expression, ..)` (parsing.py:30-110) -/
def parseExpressionW (side : Nat) (allowUnderscore allowDuplicates : Bool) (expression : Str) : Warned ParsedExpression :=
  (silent (prepareDots expression)).andThen fun p =>
    (runCharsW raises side allowUnderscore allowDuplicates PState.init p.2).andThen fun st =>
      (finishParseW raises side allowUnderscore allowDuplicates st).andThen fun st =>
        silent (.ok ⟨p.1, st.ellParen, st.identifiers, st.nonUnitary, st.composition⟩)

/-! ### Operations -/

/-- loop over the keyword names (einops.py:392-398) -/
def markExpectedW : List (Axis × Int) → List Str → Warned (List (Axis × Int))
  | d, [] => silent (.ok d)
  | d, n :: ns =>
    (checkAxisNameW raises false n).andThen fun isValid =>
      if !isValid then silent (.error .einops)
      else match dictGet d (.str n) with
        | none => silent (.error .einops)
        | some _ => markExpectedW (dictSet d (.str n) expectedAxisLength) ns

/-- einops.py:370-442.  The loop over the names is the only part with warnings, and the first one that can fail. -/
def buildRecipeW (so : SetOrder) (ex : Expanded) (axesNames : List Str) : Warned TransformRecipe :=
  (markExpectedW raises (knownAll so ex.left ex.rghtIds) axesNames).andThen fun _ => silent (buildRecipe so ex axesNames)

/-- `_prepare_transformation_recipe` (einops.py:289-442), without its cache -/
def prepareRecipeW (so : SetOrder) (pattern : Str) (op : OpKind) (axesNames : List Str) (ndim : Nat) : Warned TransformRecipe :=
  (silent (splitArrow pattern)).andThen fun p =>
    (parseExpressionW raises 0 false false p.1).andThen fun left =>
      (parseExpressionW raises 1 false false p.2).andThen fun rght =>
        (silent (checkSides left rght op axesNames)).andThen fun _ =>
          (silent (expandSides left rght ndim)).andThen fun ex =>
            buildRecipeW raises so ex axesNames

/-- `reduce` (einops.py:460-542), the recipe not being in the cache -/
def reduceW {α : Type u} (b : Backend α) (so : SetOrder) (t : Input α) (pattern : Str) (red : Reduction α) (kw : List (Str × Size)) :
    Warned (Tensor α) :=
  (silent (resolveInput b t)).andThen fun x =>
    (prepareRecipeW raises so pattern red.kind (kw.map Prod.fst) x.ndim).andThen fun r =>
      silent (applyRecipe b r x red kw)

/-- `_prepare_transformation_recipe` through its cache.  An exception, be it a warning, is not stored. -/
def cachedPrepareW {α : Type u} (rmax : Nat) (st : Caches) (c : Call α) (x : Tensor α) : Warned Nat × Caches :=
  let (hit, recipes) := lruGet st.recipes (c.recipeKey x)
  let st := { st with recipes := recipes }
  match hit with
  | some id => (silent (.ok id), st)
  | none =>
    match prepareRecipeW raises c.so c.pattern c.red.kind (c.kw.map Prod.fst) x.ndim with
    | (ws, .error e) => ((ws, .error e), st)
    | (ws, .ok r) =>
      ((ws, .ok st.heap.length),
        { st with heap := st.heap ++ [r], recipes := lruPut rmax st.recipes (c.recipeKey x) st.heap.length })

/-- A call with the caches in state `st` (`cachedCall`) -/
def cachedCallW {α : Type u} (rmax smax : Nat) (st : Caches) (c : Call α) : Warned (Tensor α) × Caches :=
  match resolveInput c.backend c.input with
  | .error e => (silent (.error e), st)
  | .ok x =>
    match cachedPrepareW raises rmax st c x with
    | ((ws, .error e), st) => ((ws, .error e), st)
    | ((ws, .ok id), st) =>
      match cachedCook smax st c x id with
      | (.error e, st) => ((ws, .error (.error e)), st)
      | (.ok k, st) => ((ws, (silent (applyCooked c.backend k x c.red)).2), st)

/-- A history of calls, each with the filters that were active then. -/
def afterCallsW {α : Type u} (rmax smax : Nat) (st : Caches) (h : List ((NameWarning → Bool) × Call α)) : Caches :=
  h.foldl (fun st c => (cachedCallW c.1 rmax smax st c.2).2) st

/-! ### The other functions with patterns -/

/-- `parse_shape(x, pattern)` (einops.py:653-712) -/
def parseShapeW (shape : List Nat) (pattern : Str) : Warned (List (Str × Nat)) :=
  (parseExpressionW raises 0 true false pattern).andThen fun e =>
    if e.hasComposedAxes then silent (.error .runtime)
    else if !shapeRankOK e shape.length then silent (.error .runtime)
    else (silent (shapeComposition e shape.length)).andThen fun c => silent (shapeLoop [] c shape)

/-- the loop of `analyze_pattern` (packing.py:22-26) -/
def packNamesW : List Str → Warned Unit
  | [] => silent (.ok ())
  | a :: as =>
    if a ≠ ['*'] then
      (checkAxisNameW raises false a).andThen fun isValid =>
        if !isValid then silent (.error .einops) else packNamesW as
    else packNamesW as

/-- `analyze_pattern(pattern, opname)` (packing.py:14-31), without its cache -/
def analyzePatternW (pattern : Str) : Warned (Nat × Nat × Nat) :=
  let axes := splitWs pattern
  if axes.length ≠ axes.dedup.length then silent (.error .einops)
  else if ['*'] ∉ axes then silent (.error .einops)
  else
    (packNamesW raises axes).andThen fun _ =>
      let before := axes.idxOf ['*']
      let after := axes.length - before - 1
      silent (.ok (before, after, before + after))

/-- `[f(x) for x in l]` -/
def mapW {α : Type u} {β : Type v} (f : α → Warned β) : List α → Warned (List β)
  | [] => silent (.ok [])
  | a :: as => (f a).andThen fun b => (mapW f as).andThen fun bs => silent (.ok (b :: bs))

/-- `_compactify_pattern_for_einsum(pattern)` (einops.py:771-822), without its cache -/
def compactifyW (pattern : Str) : Warned Str :=
  if !containsSub ['-', '>'] pattern then silent (.error .value)
  else
    (silent (splitArrow pattern)).andThen fun p =>
      (mapW (parseExpressionW raises 0 true true) (splitOn [','] p.1)).andThen fun lefts =>
        (parseExpressionW raises 1 true false p.2).andThen fun right =>
          (silent (einsumLefts [] 0 lefts)).andThen fun q =>
            (silent (einsumRight q.2 right.composition)).andThen fun t =>
              silent (.ok (List.intercalate [','] q.1 ++ ['-', '>'] ++ t))

/-- `_prepare_recipes_for_all_dims` (einops.py:445-457), no recipe being in the cache -/
def prepareAllDimsW (so : Nat → SetOrder) (pattern : Str) (op : OpKind) (names : List Str) :
    Warned (List (Nat × TransformRecipe)) :=
  (silent (splitArrow pattern)).andThen fun p =>
    (parseExpressionW raises 0 false false p.1).andThen fun left =>
      mapW (fun d => (prepareRecipeW raises (so d) pattern op names d).andThen fun r => silent (.ok (d, r))) (layerDims left)

end

/-! ### Specification -/

/-- characters that are not part of a name -/
def notInName (c : Char) : Bool := c ∈ ['(', ')', ' ', '-', '>', ',', '.', '…']

/-- the words of a pattern, as a reader finds them -/
def wordsOf (s : Str) : List Str := (s.splitOnP notInName).filter (· ≠ [])

/-- the warning a name deserves -/
def warningOf (n : Str) : List NameWarning :=
  if n ∈ pyKeywords then [.keyword n] else if n = "axis".toList then [.axis] else []

/-- The warnings about a sequence of names: one for each that deserves it, in order. -/
def warningsFor (names : List Str) : List NameWarning := names.flatMap warningOf

/-- What becomes of a computation with outcome `r` that issues the warnings `ws`, depending on the filters: if none of the
warnings is raised, nothing; otherwise it ends with the first one that is. -/
structure Heard {α : Type u} (raises : NameWarning → Bool) (ws : List NameWarning) (r : Py α) (o : Warned α) : Prop where
  quiet : (∀ w ∈ ws, raises w = false) → o.1 = ws ∧ (∀ a, o.2 = .ok a ↔ r = .ok a) ∧ (∀ e, o.2 = .error (.error e) ↔ r = .error e)
  raised : ∀ before w after, ws = before ++ w :: after → (∀ v ∈ before, raises v = false) → raises w = true →
    o = (before ++ [w], .error (.warning w))

end Einops
