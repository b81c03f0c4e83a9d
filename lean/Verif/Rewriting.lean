import Verif.Legal
import Mathlib.Data.List.Dedup

/-!
# Changes of a pattern that do not change its meaning
-/

namespace Einops

/-- change every word -/
def Elem.mapWords (f : Str → Str) : Elem → Elem
  | .bare w => .bare (f w)
  | .paren ws => .paren (ws.map f)

/-- write names for the ellipsis -/
def fillEllipsis (es : List Str) (G : List Elem) : List Elem :=
  G.flatMap (fun
    | .bare w => if w = dots then es.map Elem.bare else [.bare w]
    | .paren ws => [.paren (ws.flatMap (fun w => if w = dots then es else [w]))])

section
variable [PyUnicode]

/-- rename names, keep numbers and the ellipsis -/
def renameWord (ρ : Str → Str) (w : Str) : Str := if IsName false w then ρ w else w

/-- written `1` -/
def isUnit (w : Str) : Bool := decide (IsNumber w) && decimalValue w == 1

/-- a number other than 1 -/
def isCount (w : Str) : Bool := decide (IsNumber w) && decimalValue w != 1

/-- write `()` for `1` and leave out `1` in parentheses -/
def Elem.dropUnits : Elem → Elem
  | .bare w => if isUnit w then .paren [] else .bare w
  | .paren ws => .paren (ws.filter (fun w => !isUnit w))

/-- write the names `nm k, nm (k+1), ...` for the words that are numbers other than 1, where `k` counts the words -/
def nameCounts (nm : Nat → Str) : Nat → List Str → List Str
  | _, [] => []
  | k, w :: ws => (if isCount w then nm k else w) :: nameCounts nm (k + 1) ws

/-- the same in a side -/
def nameCountsSide (nm : Nat → Str) : Nat → List Elem → List Elem
  | _, [] => []
  | k, .bare w :: G => .bare (if isCount w then nm k else w) :: nameCountsSide nm (k + 1) G
  | k, .paren ws :: G => .paren (nameCounts nm k ws) :: nameCountsSide nm (k + ws.length) G

/-- the sizes of these names -/
def countSizes (nm : Nat → Str) : Nat → List Str → List (Str × Size)
  | _, [] => []
  | k, w :: ws => (if isCount w then [(nm k, ⟨decimalValue w, true⟩)] else []) ++ countSizes nm (k + 1) ws

/-- `kw` gives, as Python ints, the length of every named axis of the two sides and nothing else -/
structure GivesLengths (GL GR : List Elem) (len : AxisMap) (kw : List (Str × Size)) : Prop where
  int : IntKw kw
  names : ∀ w, w ∈ kw.map Prod.fst ↔ IsName false w ∧ w ∈ sideWords GL ++ sideWords GR
  value : ∀ p ∈ kw, (len (.str p.1) : Int) = p.2.val

end

/-- no parentheses -/
def Elementary (G : List Elem) : Prop := ∀ e ∈ G, ∃ w, e = .bare w

end Einops
