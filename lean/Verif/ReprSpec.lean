import Verif.Binding

/-!
# Reading a call written in Python

What Python makes of an expression `f('text', ..., name=number, ...)`: the part of its lexer and grammar that C67 is
about.  Whatever is not covered (other escapes, other kinds of arguments) is not read.
-/

namespace Einops

/-- What the language adds to the character tables: keywords, the normal form of identifiers (NFKC, applied by the
parser), printable characters; and that some characters with a meaning of their own are not part of words. -/
structure PyLang [PyUnicode] where
  /-- `keyword.iskeyword` -/
  keyword : Str → Bool
  /-- `unicodedata.normalize("NFKC", _)` -/
  nfkc : Str → Str
  /-- `str.isprintable` on a character outside ASCII -/
  printable : Char → Bool
  alnum : ∀ c ∈ ['\'', '\\', '\n', '\r'], PyUnicode.isAlnum c = false
  start_continue : ∀ c, PyUnicode.xidStart c = true → PyUnicode.xidContinue c = true
  xid : ∀ c ∈ ['\'', '"', '='], PyUnicode.xidStart c = false ∧ PyUnicode.xidContinue c = false

/-- A call: the function, the positional arguments (strings) and the keyword arguments (numbers) -/
structure PyCall where
  func : Str
  args : List Str
  kwargs : List (Str × Int)
  deriving DecidableEq, Repr

/-- value of a hexadecimal digit -/
def hexVal (c : Char) : Option Nat :=
  if c.isDigit then some (c.toNat - 48)
  else if 97 ≤ c.toNat ∧ c.toNat ≤ 102 then some (c.toNat - 87)
  else if 65 ≤ c.toNat ∧ c.toNat ≤ 70 then some (c.toNat - 55)
  else none

/-- the character with a code, unless it is a surrogate or out of range -/
def charOf (n : Nat) : Option Char := if h : n.isValidChar then some (Char.ofNatAux n h) else none

/-- `w` hexadecimal digits: their value (`n` is the value of those already read), and the rest -/
def readHex : Nat → Nat → Str → Option (Nat × Str)
  | 0, n, s => some (n, s)
  | _ + 1, _, [] => none
  | w + 1, n, c :: s =>
    match hexVal c with
    | none => none
    | some d => readHex w (n * 16 + d) s

/-- an escape, after the backslash: the character, and the rest -/
def readEscape : Str → Option (Char × Str)
  | [] => none
  | c :: s =>
    if c = '\\' ∨ c = '\'' ∨ c = '"' then some (c, s)
    else if c = 't' then some ('\t', s)
    else if c = 'n' then some ('\n', s)
    else if c = 'r' then some ('\r', s)
    else
      match readHex (if c = 'x' then 2 else if c = 'u' then 4 else 8) 0 s with
      | none => none
      | some (n, r) =>
        if c = 'x' ∨ c = 'u' ∨ c = 'U' then (charOf n).map (fun d => (d, r)) else none

/-- The rest of a string literal after the opening quote `q`: the string, and what follows the closing quote.  The first
argument bounds the number of characters. -/
def readLiteral (q : Char) : Nat → Str → Option (Str × Str)
  | 0, _ => none
  | _ + 1, [] => none
  | n + 1, c :: s =>
    if c = q then some ([], s)
    else if c = '\n' ∨ c = '\r' then none
    else if c = '\\' then
      match readEscape s with
      | none => none
      | some (d, r) => (readLiteral q n r).map (fun p => (d :: p.1, p.2))
    else (readLiteral q n s).map (fun p => (c :: p.1, p.2))

/-- an identifier: as many characters as possible, not a keyword; the parser takes its normal form -/
def readName [PyUnicode] (L : PyLang) (s : Str) : Option (Str × Str) :=
  let w := s.takeWhile PyUnicode.xidContinue
  if isIdentifier w && !L.keyword w then some (L.nfkc w, s.dropWhile PyUnicode.xidContinue) else none

/-- A decimal number without superfluous zeros -/
def readNat (s : Str) : Option (Nat × Str) :=
  let w := s.takeWhile Char.isDigit
  if w = [] ∨ (w.head? = some '0' ∧ w ≠ ['0']) then none
  else some (w.foldl (fun n c => n * 10 + (c.toNat - 48)) 0, s.dropWhile Char.isDigit)

/-- A number, possibly with a minus sign -/
def readInt : Str → Option (Int × Str)
  | '-' :: s => (readNat s).map (fun p => (-(p.1 : Int), p.2))
  | s => (readNat s).map (fun p => ((p.1 : Int), p.2))

/-- Keyword arguments up to the closing parenthesis, `seen` are the keywords before; a repeated one is a SyntaxError. -/
def readKeywords [PyUnicode] (L : PyLang) : Nat → List Str → Str → Option (List (Str × Int))
  | 0, _, _ => none
  | n + 1, seen, s =>
    match readName L s with
    | some (k, '=' :: r) =>
      if k ∈ seen then none
      else
        match readInt r with
        | some (v, [')']) => some [(k, v)]
        | some (v, ',' :: ' ' :: r) => (readKeywords L n (k :: seen) r).map ((k, v) :: ·)
        | _ => none
    | _ => none

/-- Arguments: string literals first, then keywords. -/
def readArgs [PyUnicode] (L : PyLang) : Nat → Str → Option (List Str × List (Str × Int))
  | 0, _ => none
  | _ + 1, [] => none
  | n + 1, c :: s =>
    if c = '\'' ∨ c = '"' then
      match readLiteral c s.length s with
      | some (v, [')']) => some ([v], [])
      | some (v, ',' :: ' ' :: r) => (readArgs L n r).map (fun p => (v :: p.1, p.2))
      | _ => none
    else (readKeywords L (s.length + 1) [] (c :: s)).map (fun k => ([], k))

/-- The call an expression denotes -/
def readCall [PyUnicode] (L : PyLang) (s : Str) : Option PyCall :=
  match readName L s with
  | some (f, '(' :: r) => (readArgs L r.length r).map (fun p => ⟨f, p.1, p.2⟩)
  | _ => none

/-- A name that the parser reads as it is: an identifier in normal form that is not a keyword -/
def PlainName [PyUnicode] (L : PyLang) (w : Str) : Prop := isIdentifier w = true ∧ L.keyword w = false ∧ L.nfkc w = w

universe u

section
variable {α : Type u} [PyUnicode]

/-- Evaluating an expression where `cls` is bound to the class `Rearrange`; numbers in a source text are `int`s. -/
def evalRearrange (L : PyLang) (cls : Str) (so : Nat → SetOrder) (text : Str) : Option (Py (Layer α)) :=
  match readCall L text with
  | some ⟨f, [p], k⟩ => if f = cls then some (pyRearrangeLayer so p (k.map (fun q => (q.1, ⟨q.2, true⟩)))) else none
  | _ => none

/-- Evaluating an expression where `cls` is bound to the class `Reduce` -/
def evalReduce (L : PyLang) (cls : Str) (so : Nat → SetOrder) (text : Str) : Option (Py (Layer α)) :=
  match readCall L text with
  | some ⟨f, [p, r], k⟩ =>
    if f = cls then some (pyReduceLayer so p (.name r) (k.map (fun q => (q.1, ⟨q.2, true⟩)))) else none
  | _ => none

/-- Evaluating an expression where `cls` is bound to the class `EinMix`; the third argument is optional. -/
def evalEinMix (L : PyLang) (cls : Str) (so : Nat → SetOrder) (text : Str) : Option (Py (EinMixLayer α)) :=
  match readCall L text with
  | some ⟨f, [p, w], k⟩ =>
    if f = cls then some (pyEinMix so p w none (k.map (fun q => (q.1, ⟨q.2, true⟩)))) else none
  | some ⟨f, [p, w, b], k⟩ =>
    if f = cls then some (pyEinMix so p w (some b) (k.map (fun q => (q.1, ⟨q.2, true⟩)))) else none
  | _ => none

end

end Einops
