import Verif.Tensor
import Verif.PatternSpec

/-! # Specification of `numpy.transpose` with a list of dimensions, by coordinates; reading a side without parentheses -/

namespace Einops

universe u

/-- `numpy.transpose(x, p)`: dimension `k` of the result is dimension `p[k]` of the operand, and so are the coordinates -/
def IsTranspose {α : Type u} (p : List Nat) (x t : Tensor α) : Prop :=
  t.shape = p.map (fun k => x.shape.getD k 0) ∧
    ∀ i, i.length = x.shape.length → t.at? (p.map fun k => i.getD k 0) = x.at? i

/-- numbers for the words of a side: `e` for the ellipsis, `c w` for the name `w` -/
def readWords (ws : List Str) (c : Str → Nat) (e : List Nat) : List Nat :=
  ws.flatMap fun w => if w = dots then e else [c w]

end Einops
