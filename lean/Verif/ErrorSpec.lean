import Verif.Legal
import Mathlib.Data.List.Forall2

/-!
# When the given lengths do not agree with the shape (specification)
-/

namespace Einops

universe u

/-- the pattern has exactly one arrow -/
def OneArrow (pattern : Str) : Prop :=
  ∃ l r, pattern = l ++ ['-', '>'] ++ r ∧ ¬ ['-', '>'] <:+: l ∧ ¬ ['-', '>'] <:+: r

/-- the length a number denotes, or a keyword gives to a name -/
inductive GivenLength (kw : List (Str × Size)) : Axis → Int → Prop
  | number (side i v : Nat) : GivenLength kw (.anon side i v) v
  | keyword {n : Str} {s : Size} : (n, s) ∈ kw → GivenLength kw (.str n) s.val

/-- `p` is the product of the lengths given to axes of the group -/
def GivenProduct (kw : List (Str × Size)) (g : List Axis) (p : Int) : Prop :=
  ∃ vs, List.Forall₂ (GivenLength kw) (g.filter (isKnown (kw.map Prod.fst))) vs ∧ p = vs.prod

/-- A group agrees with a dimension: the given lengths multiply to it or, when one axis has no given length, they have a
non-zero product that divides it. -/
def Agrees (kw : List (Str × Size)) (g : List Axis) (d : Nat) : Prop :=
  ∃ p, GivenProduct kw g p ∧ ((∀ a ∈ g, isKnown (kw.map Prod.fst) a = true) → p = d) ∧
    ((∃ a ∈ g, isKnown (kw.map Prod.fst) a = false) → p ≠ 0 ∧ p ∣ (d : Int))

/-- The missing length would have to be found by a division by 0. -/
def DividesByZero (kw : List (Str × Size)) (g : List Axis) : Prop :=
  (∃ a ∈ g, isKnown (kw.map Prod.fst) a = false) ∧ GivenProduct kw g 0

/-- `g` is the first group, from the left, that does not agree with its dimension. -/
def FirstBad (kw : List (Str × Size)) (L : List (List Axis)) (shape : List Nat) (g : List Axis) : Prop :=
  ∃ (k d : Nat), L[k]? = some g ∧ shape[k]? = some d ∧ ¬ Agrees kw g d ∧
    ∀ j < k, ∀ g' d', L[j]? = some g' → shape[j]? = some d' → Agrees kw g' d'

/-- all groups agree with their dimensions -/
def AllAgree (kw : List (Str × Size)) (L : List (List Axis)) (shape : List Nat) : Prop :=
  ∀ (k : Nat) (g : List Axis) (d : Nat), L[k]? = some g → shape[k]? = some d → Agrees kw g d

/-- The pattern obeys the rules of the operation for a tensor of this rank and these keywords, sizes aside; `L` are the
groups of its left side. -/
def Parses [PyUnicode] (op : OpKind) (pattern : Str) (kw : List (Str × Size)) (ndim : Nat) (L : List (List Axis)) : Prop :=
  ∃ GL GR R, IsPattern pattern GL GR ∧ Prepared op GL GR (kw.map Prod.fst) ndim L R

/-- The reduction is not defined on one of the lists of elements it is given. -/
def Undefined {α : Type u} (op : List α → Py α) (x : Tensor α) (L R : List (List Axis)) (len : AxisMap) : Prop :=
  ∃ env vs e, InRange len R.flatten env ∧
    (loops len (L.flatten.filter (fun a => a ∉ R.flatten)) env).map (x.atAxes L len) = vs.map some ∧ op vs = .error e

end Einops
