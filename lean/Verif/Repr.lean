import Verif.Binding

/-!
# `repr` of layers

`__repr__` of the layers (layers/__init__.py:28-32, 78-82 and layers/_einmix.py:202-210), and Python's `repr` of a string
and `format` of an int, which they call.
-/

namespace Einops

/-- `digits` lower case hexadecimal digits of `n` -/
def hexDigits : Nat → Nat → Str
  | 0, _ => []
  | w + 1, n => hexDigits w (n / 16) ++ [Nat.digitChar (n % 16)]

/-- The quote `repr` uses: `'`, unless the string contains `'` and not `"` (CPython `unicode_repr`). -/
def reprQuote (s : Str) : Char := if '\'' ∈ s ∧ '"' ∉ s then '"' else '\''

/-- One character in `repr` of a string (CPython `unicode_repr`).  `printable` is `str.isprintable` for characters outside
ASCII. -/
def escapeChar (printable : Char → Bool) (q c : Char) : Str :=
  if c = q ∨ c = '\\' then ['\\', c]
  else if c = '\t' then ['\\', 't']
  else if c = '\n' then ['\\', 'n']
  else if c = '\r' then ['\\', 'r']
  else if c.toNat < 32 ∨ c.toNat = 127 then '\\' :: 'x' :: hexDigits 2 c.toNat
  else if c.toNat < 127 then [c]
  else if printable c then [c]
  else if c.toNat < 256 then '\\' :: 'x' :: hexDigits 2 c.toNat
  else if c.toNat < 65536 then '\\' :: 'u' :: hexDigits 4 c.toNat
  else '\\' :: 'U' :: hexDigits 8 c.toNat

/-- `repr(s)` for a string -/
def reprStr (printable : Char → Bool) (s : Str) : Str :=
  reprQuote s :: (s.flatMap (escapeChar printable (reprQuote s)) ++ [reprQuote s])

/-- `"{}".format(n)` for an int (numpy integers give the same) -/
def intStr (n : Int) : Str := if n < 0 then '-' :: natStr n.natAbs else natStr n.natAbs

/-- `for axis, length in self.axes_lengths.items(): params += ", {}={}".format(axis, length)` (layers/__init__.py:30-31,
80-81, _einmix.py:207-208) -/
def reprSizes (kw : List (Str × Size)) : Str :=
  kw.flatMap (fun p => [',', ' '] ++ p.1 ++ ['='] ++ intStr p.2.val)

/-- `RearrangeMixin.__repr__` (layers/__init__.py:28-32); `cls` is `self.__class__.__name__`. -/
def reprRearrange (printable : Char → Bool) (cls pattern : Str) (kw : List (Str × Size)) : Str :=
  cls ++ ['('] ++ (reprStr printable pattern ++ reprSizes kw) ++ [')']

/-- `ReduceMixin.__repr__` (layers/__init__.py:78-82), for a reduction given by name.  (`repr` of a callable is left to
the callable.) -/
def reprReduce (printable : Char → Bool) (cls pattern reduction : Str) (kw : List (Str × Size)) : Str :=
  cls ++ ['('] ++ (reprStr printable pattern ++ [',', ' '] ++ reprStr printable reduction ++ reprSizes kw) ++ [')']

/-- `_EinmixMixin.__repr__` (_einmix.py:202-210): the shapes are put between quotes as they are. -/
def reprEinMix (printable : Char → Bool) (cls pattern weightShape : Str) (biasShape : Option Str)
    (kw : List (Str × Size)) : Str :=
  cls ++ ['('] ++
    (reprStr printable pattern ++ ([',', ' ', '\''] ++ weightShape ++ ['\'']) ++
      (match biasShape with
        | none => []
        | some s => [',', ' ', '\''] ++ s ++ ['\'']) ++
      reprSizes kw) ++ [')']

end Einops
