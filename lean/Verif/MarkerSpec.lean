import Verif.PatternSpec

/-!
# The character '…' in a pattern

The parser replaces the three dots by the character '…', so that a pattern may also contain the character itself.
-/

namespace Einops

/-- the word consisting of the character '…' -/
def mark : Str := ['…']

/-- the same token with `n` in place of the word '…' -/
def Tok.put (n : Str) : Tok → Tok
  | .word w => .word (if w = mark then n else w)
  | .lp => .lp
  | .rp => .rp

/-- In these tokens the character '…' is always a word of its own. -/
def Alone (T : List Tok) : Prop := ∀ w, Tok.word w ∈ T → '…' ∈ w → w = mark

/-- `s` and `s'` are the same text, except that one '…' of `s`, which has no dots, may be written `...` in `s'`. -/
def Respells (s s' : Str) : Prop :=
  s = s' ∨ ∃ p q, '.' ∉ p ∧ '.' ∉ q ∧ s = p ++ mark ++ q ∧ s' = p ++ dots ++ q

/-- every token is a word and not a number -/
def Flat [PyUnicode] (T : List Tok) : Prop := ∀ t ∈ T, ∃ w, t = Tok.word w ∧ ¬ IsNumber w

end Einops
