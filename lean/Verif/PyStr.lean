import Verif.Prelude

/-!
# Python primitives used by einops

Strings are lists of Unicode scalar values (Python strings may in addition contain lone surrogates; those are neither
alphanumeric nor identifier characters, so every einops entry point rejects them exactly like any other unknown
character).  The Unicode tables of the interpreter are a parameter.
-/

namespace Einops

/-- Python `str` as the list of its characters. -/
abbrev Str := List Char

/-- Exceptions, as values.  `einops` is `EinopsError` (einops/__init__.py:8-11); `backend` stands for whatever exception
the tensor framework raises; the others are the Python built-in exceptions of that name. -/
inductive PyErr
  | einops | value | runtime | notImplemented | key | zeroDivision | type | index | assertion | backend
  deriving DecidableEq, Repr

abbrev Py (α : Type u) := Except PyErr α

/-- The character tables behind `str.isalnum`, `str.isidentifier`, `str.isdecimal`/`int` and `str.split()`
(CPython `unicodetype_db.h`), with the few facts about them that einops depends on. -/
class PyUnicode where
  /-- `str.isalnum` on one character -/
  isAlnum : Char → Bool
  /-- XID_Start (first character of an identifier; `_` is handled separately, as in CPython) -/
  xidStart : Char → Bool
  /-- XID_Continue -/
  xidContinue : Char → Bool
  /-- value of a decimal digit (category Nd); `none` when `str.isdecimal` is false on the character -/
  decimal : Char → Option Nat
  /-- `str.isspace` on one character, used by `str.split()` -/
  isSpace : Char → Bool
  decimal_alnum : ∀ c d, decimal c = some d → isAlnum c = true
  decimal_not_start : ∀ c d, decimal c = some d → xidStart c = false
  alnum_not_space : ∀ c, isAlnum c = true → isSpace c = false
  special_not_alnum : ∀ c ∈ ['(', ')', ' ', '.', ',', '-', '>', '*', '_', '…'], isAlnum c = false
  special_not_xid : ∀ c ∈ ['(', ')', ' ', '.', ',', '-', '>', '*', '…'], xidStart c = false ∧ xidContinue c = false
  underscore_xid : xidStart '_' = false ∧ xidContinue '_' = true
  space_space : isSpace ' ' = true
  special_not_space : ∀ c ∈ ['(', ')', '.', ',', '-', '>', '*', '_', '…'], isSpace c = false
  xid_not_space : ∀ c, (xidStart c = true ∨ xidContinue c = true) → isSpace c = false
  ascii_letter : ∀ c : Char, c.isAlpha = true → isAlnum c = true ∧ xidStart c = true ∧ xidContinue c = true
  ascii_digit : ∀ c : Char, c.isDigit = true →
    isAlnum c = true ∧ decimal c = some (c.toNat - 48) ∧ xidContinue c = true

/-- The tables restricted to ASCII; used for concrete examples (and shows the laws are satisfiable). -/
@[reducible] def asciiUnicode : PyUnicode where
  isAlnum c := c.isAlphanum
  xidStart c := c.isAlpha
  xidContinue c := c.isAlphanum || c == '_'
  decimal c := if c.isDigit then some (c.toNat - 48) else none
  isSpace c := c.isWhitespace
  decimal_alnum c d h := by
    by_cases hc : c.isDigit <;> simp_all [Char.isAlphanum]
  decimal_not_start c d h := by
    by_cases hc : c.isDigit
    · simp only [Char.isDigit, Char.isAlpha, Char.isUpper, Char.isLower, Bool.and_eq_true, decide_eq_true_eq,
        Bool.or_eq_false_iff, Bool.and_eq_false_iff, decide_eq_false_iff_not] at *
      have h1 : ∀ a b : Char, a.val ≤ b.val ↔ a.toNat ≤ b.toNat := fun a b => Iff.rfl
      simp only [ge_iff_le, UInt32.le_iff_toNat_le] at *
      simp at *
      omega
    · simp_all
  alnum_not_space c h := by
    rcases hw : c.isWhitespace with _ | _
    · rfl
    · simp only [Char.isWhitespace, Bool.or_eq_true, decide_eq_true_eq] at hw
      rcases hw with ((rfl | rfl) | rfl) | rfl <;> exact absurd h (by decide)
  special_not_alnum := by decide
  special_not_xid := by decide
  underscore_xid := by decide
  space_space := by decide
  special_not_space := by decide
  xid_not_space c h := by
    rcases hw : c.isWhitespace with _ | _
    · rfl
    · simp only [Char.isWhitespace, Bool.or_eq_true, decide_eq_true_eq] at hw
      rcases hw with ((rfl | rfl) | rfl) | rfl <;> exact absurd h (by decide)
  ascii_letter c h := by simp [Char.isAlphanum, h]
  ascii_digit c h := by simp [Char.isAlphanum, h]

/-- Worker of `splitOn`: `skip` counts the characters of a matched separator still to be dropped. -/
def splitGo (sep : Str) : Nat → Str → Str → List Str
  | _, [], acc => [acc.reverse]
  | skip + 1, _ :: cs, acc => splitGo sep skip cs acc
  | 0, c :: cs, acc =>
    if sep.isPrefixOf (c :: cs) then acc.reverse :: splitGo sep (sep.length - 1) cs []
    else splitGo sep 0 cs (c :: acc)

/-- `s.split(sep)` for non-empty `sep`: leftmost non-overlapping occurrences. -/
def splitOn (sep s : Str) : List Str := splitGo sep 0 s []

/-- `str.count(s, sep)`: number of non-overlapping occurrences. -/
def countSub (sep s : Str) : Nat := (splitOn sep s).length - 1

/-- `s.replace(sep, new)`. -/
def replaceSub (sep new s : Str) : Str := List.intercalate new (splitOn sep s)

/-- `sep in s` for strings. -/
def containsSub (sep s : Str) : Bool := s.tails.any (fun t => sep.isPrefixOf t)

/-- Worker of `splitWs`. -/
def splitWsGo [PyUnicode] : Str → Str → List Str
  | [], cur => if cur = [] then [] else [cur.reverse]
  | c :: cs, cur =>
    if PyUnicode.isSpace c then (if cur = [] then splitWsGo cs [] else cur.reverse :: splitWsGo cs [])
    else splitWsGo cs (c :: cur)

/-- `s.split()`: split at runs of whitespace, dropping empty pieces. -/
def splitWs [PyUnicode] (s : Str) : List Str := splitWsGo s []

/-- `str.isidentifier(s)` (CPython `PyUnicode_IsIdentifier`). -/
def isIdentifier [PyUnicode] : Str → Bool
  | [] => false
  | c :: cs => (PyUnicode.xidStart c || c == '_') && cs.all PyUnicode.xidContinue

/-- `str.isdecimal(s)`. -/
def isDecimal [PyUnicode] (s : Str) : Bool := s ≠ [] && s.all (fun c => (PyUnicode.decimal c).isSome)

/-- `int(s)` for a string with `str.isdecimal(s)` (CPython's 4300 digit limit is not modelled). -/
def decimalValue [PyUnicode] (s : Str) : Nat := s.foldl (fun n c => n * 10 + (PyUnicode.decimal c).getD 0) 0

/-- `str(n)` for a non-negative int. -/
def natStr (n : Nat) : Str := Nat.toDigits 10 n

end Einops
