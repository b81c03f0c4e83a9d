import Verif.Parsing

/-!
# Specification of the pattern language

Independent of the parser: a side of a pattern is a sequence of words and parentheses separated by spaces; its structure
is a list of elements, each a bare word or a parenthesised list of words.
-/

namespace Einops

inductive Tok
  | lp | rp | word (w : Str)
  deriving DecidableEq, Repr

/-- characters that end a word -/
def isSep (c : Char) : Prop := c = '(' ∨ c = ')' ∨ c = ' '

instance : DecidablePred isSep := fun c => by unfold isSep; infer_instance

/-- `Lexes s ts`: the string `s` is the token sequence `ts` with any amount of space between tokens. -/
inductive Lexes : Str → List Tok → Prop
  | nil : Lexes [] []
  | space {s ts} : Lexes s ts → Lexes (' ' :: s) ts
  | lp {s ts} : Lexes s ts → Lexes ('(' :: s) (.lp :: ts)
  | rp {s ts} : Lexes s ts → Lexes (')' :: s) (.rp :: ts)
  | word {w s ts} : w ≠ [] → (∀ c ∈ w, ¬ isSep c) → (∀ c ∈ s.head?, isSep c) → Lexes s ts →
      Lexes (w ++ s) (.word w :: ts)

/-- One element of a side. -/
inductive Elem
  | bare (w : Str)
  | paren (ws : List Str)
  deriving DecidableEq, Repr

/-- the tokens an element is written with -/
def Elem.toks : Elem → List Tok
  | .bare w => [.word w]
  | .paren ws => .lp :: ws.map .word ++ [.rp]

/-- the words in an element -/
def Elem.words : Elem → List Str
  | .bare w => [w]
  | .paren ws => ws

def dots : Str := ['.', '.', '.']

section
variable [PyUnicode]

/-- a decimal number -/
def IsNumber (w : Str) : Prop := w ≠ [] ∧ ∀ c ∈ w, ∃ d, PyUnicode.decimal c = some d

instance (w : Str) : Decidable (IsNumber w) :=
  decidable_of_iff (w ≠ [] ∧ ∀ c ∈ w, (PyUnicode.decimal c).isSome = true) (by
    unfold IsNumber; simp only [Option.isSome_iff_exists])

/-- a Python identifier -/
def IsIdentifier (w : Str) : Prop :=
  ∃ c cs, w = c :: cs ∧ (PyUnicode.xidStart c = true ∨ c = '_') ∧ ∀ d ∈ cs, PyUnicode.xidContinue d = true

theorem isIdentifier_iff {w : Str} : isIdentifier w = true ↔ IsIdentifier w := by
  cases w with
  | nil => simp [isIdentifier, IsIdentifier]
  | cons c cs =>
    simp only [isIdentifier, IsIdentifier, Bool.and_eq_true, Bool.or_eq_true, beq_iff_eq, List.all_eq_true]
    constructor
    · rintro ⟨h1, h2⟩; exact ⟨c, cs, rfl, h1, h2⟩
    · rintro ⟨_, _, h, h1, h2⟩; cases h; exact ⟨h1, h2⟩

instance (w : Str) : Decidable (IsIdentifier w) := decidable_of_iff _ isIdentifier_iff

/-- An axis name: a Python identifier consisting of letters, digits and underscores that neither starts nor ends with
an underscore (or just `_`, where that is allowed). -/
def IsName (allowUnderscore : Bool) (w : Str) : Prop :=
  (∀ c ∈ w, PyUnicode.isAlnum c = true ∨ c = '_') ∧ IsIdentifier w ∧
    ((w.head? ≠ some '_' ∧ w.getLast? ≠ some '_') ∨ (allowUnderscore = true ∧ w = ['_']))

instance (u : Bool) (w : Str) : Decidable (IsName u w) := by unfold IsName; infer_instance

/-- A legal word: the ellipsis, a positive number or a name. -/
def WordOK (allowUnderscore : Bool) (w : Str) : Prop :=
  w = dots ∨ (IsNumber w ∧ decimalValue w ≠ 0) ∨ IsName allowUnderscore w

instance (u : Bool) (w : Str) : Decidable (WordOK u w) := by unfold WordOK; infer_instance

/-- Words that must not be repeated: names and the ellipsis (but `_` may be repeated where it is allowed). -/
def unrepeatable (allowUnderscore : Bool) (w : Str) : Bool :=
  decide (¬ IsNumber w) && !(allowUnderscore && w == ['_'])

/-- `s` is a legal side of a pattern with structure `G`. -/
structure IsSide (allowUnderscore allowDuplicates : Bool) (s : Str) (G : List Elem) : Prop where
  lexes : Lexes s (G.flatMap Elem.toks)
  words_ok : ∀ w ∈ G.flatMap Elem.words, WordOK allowUnderscore w
  one_ellipsis : (G.flatMap Elem.words).count dots ≤ 1
  nodup : allowDuplicates = false → ((G.flatMap Elem.words).filter (unrepeatable allowUnderscore)).Nodup

/-- The axes a word stands for: none for `1`; a number is an axis of its own (identified by the side and the number of
the word), a name is that axis, the ellipsis is kept as a marker. -/
def wordAxes (side k : Nat) (w : Str) : List Axis :=
  if w = dots then [.str ellipsisStr]
  else if IsNumber w then (if decimalValue w = 1 then [] else [.anon side k (decimalValue w)])
  else [.str w]

/-- axes of a list of words, numbered from `k` -/
def wordsAxes (side : Nat) : Nat → List Str → List Axis
  | _, [] => []
  | k, w :: ws => wordAxes side k w ++ wordsAxes side (k + 1) ws

/-- The composition of a side, words numbered from `k`. -/
def denote (side : Nat) : Nat → List Elem → List CompAxis
  | _, [] => []
  | k, .bare w :: G =>
    (if w = dots then CompAxis.ell else .group (wordAxes side k w)) :: denote side (k + 1) G
  | k, .paren ws :: G => .group (wordsAxes side k ws) :: denote side (k + ws.length) G

end

end Einops
