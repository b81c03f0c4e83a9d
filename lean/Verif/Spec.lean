import Verif.PatternSpec
import Verif.Tensor

/-!
# Specification of the operations

What a pattern means for a tensor, stated without recipes: every axis has a length, a choice of a coordinate for every
axis picks one place in a tensor whose dimensions are groups of axes.
-/

namespace Einops

universe u

/-- a number (length or coordinate) for every axis -/
abbrev AxisMap := Axis → Nat

/-- number of elements in a group of axes -/
def groupSize (len : AxisMap) (g : List Axis) : Nat := (g.map len).prod

/-- position, in C order, of the coordinates `env` in a group of axes with lengths `len` -/
def groupPos (len env : AxisMap) (g : List Axis) : Nat := g.foldl (fun acc a => acc * len a + env a) 0

/-- every axis in the list has a coordinate below its length -/
def InRange (len : AxisMap) (axes : List Axis) (env : AxisMap) : Prop := ∀ a ∈ axes, env a < len a

/-- change one coordinate -/
def setCoord (env : AxisMap) (a : Axis) (i : Nat) : AxisMap := fun b => if b = a then i else env b

/-- nested loops over the coordinates of the listed axes, the last axis innermost; the other coordinates stay -/
def loops (len : AxisMap) : List Axis → AxisMap → List AxisMap
  | [], env => [env]
  | a :: as, env => (List.range (len a)).flatMap (fun i => loops len as (setCoord env a i))

/-- element of a tensor whose dimensions are the groups `gs`, at given coordinates of the axes -/
def Tensor.atAxes {α : Type u} (x : Tensor α) (gs : List (List Axis)) (len env : AxisMap) : Option α :=
  x.at? (gs.map (groupPos len env))

/-- Replace the ellipsis by axes: a bare ellipsis by one dimension per axis, an ellipsis in a group by the axes. -/
def spread (ell : List Axis) : List CompAxis → List (List Axis)
  | [] => []
  | .ell :: c => ell.map (fun a => [a]) ++ spread ell c
  | .group g :: c => g.flatMap (fun a => if a = .str ellipsisStr then ell else [a]) :: spread ell c

/-- all words of a side -/
def sideWords (G : List Elem) : List Str := G.flatMap Elem.words

section
variable [PyUnicode]

/-- A pattern of the operations: two legal sides joined by an arrow. -/
def IsPattern (pattern : Str) (GL GR : List Elem) : Prop :=
  ∃ l r, pattern = l ++ ['-', '>'] ++ r ∧ IsSide false false l GL ∧ IsSide false false r GR

/-- For a tensor with `ndim` dimensions the two sides are the groups of axes `L` and `R`: the ellipsis stands for the
`n` unnamed dimensions, in order. -/
def Groups (GL GR : List Elem) (ndim : Nat) (L R : List (List Axis)) : Prop :=
  ∃ n, (dots ∉ sideWords GL → n = 0) ∧ L = spread (ellAxes n) (denote 0 0 GL) ∧
    R = spread (ellAxes n) (denote 1 0 GR) ∧ L.length = ndim

/-- The lengths fit: input dimensions are products over their groups, keyword sizes and numbers are lengths. -/
structure Fits (L R : List (List Axis)) (kw : List (Str × Size)) (shape : List Nat) (len : AxisMap) : Prop where
  shape_eq : shape = L.map (groupSize len)
  kw_eq : ∀ n s, (n, s) ∈ kw → (len (.str n) : Int) = s.val
  number_eq : ∀ side i v, Axis.anon side i v ∈ L.flatten ++ R.flatten → len (.anon side i v) = v

end

/-! ### Which calls are legal -/

/-- an axis whose length is given: by a number in the pattern or by a keyword -/
def isKnown (names : List Str) : Axis → Bool
  | .anon .. => true
  | .str n => decide (n ∈ names)

/-- at most one axis of every input group has no given length -/
def OneUnknown (L : List (List Axis)) (names : List Str) : Prop :=
  ∀ g ∈ L, (g.filter (fun a => !isKnown names a)).length ≤ 1

/-- in a group with an axis of unknown length the given lengths have a non-zero product -/
def Determinate (L : List (List Axis)) (names : List Str) (len : AxisMap) : Prop :=
  ∀ g ∈ L, (∃ a ∈ g, isKnown names a = false) → groupSize len (g.filter (isKnown names)) ≠ 0

/-- Rules for the ellipsis: only if there is one on the left may there be one on the right, and on the left it is not in
parentheses. -/
def EllipsisOK (GL GR : List Elem) : Prop :=
  (dots ∈ sideWords GR → dots ∈ sideWords GL) ∧ ∀ ws, Elem.paren ws ∈ GL → dots ∉ ws

section
variable [PyUnicode]

/-- the only number in the side is 1 -/
def OnlyUnits (G : List Elem) : Prop := ∀ w ∈ sideWords G, IsNumber w → decimalValue w = 1

/-- every name (or ellipsis) of the first side occurs in the second -/
def NamesWithin (G G' : List Elem) : Prop := ∀ w ∈ sideWords G, ¬ IsNumber w → w ∈ sideWords G'

/-- keywords are legal names used in the pattern -/
def KeywordsUsed (GL GR : List Elem) (names : List Str) : Prop :=
  ∀ n ∈ names, IsName false n ∧ n ∈ sideWords GL ++ sideWords GR

/-- Sides of a `rearrange` pattern: the same axes on both sides, no numbers but 1. -/
structure RearrangeSides (GL GR : List Elem) : Prop where
  ellipsis : EllipsisOK GL GR
  units_left : OnlyUnits GL
  units_right : OnlyUnits GR
  left_in_right : NamesWithin GL GR
  right_in_left : NamesWithin GR GL

/-- Sides of a `repeat` pattern: nothing disappears, new names have a size. -/
structure RepeatSides (GL GR : List Elem) (names : List Str) : Prop where
  ellipsis : EllipsisOK GL GR
  units_left : OnlyUnits GL
  left_in_right : NamesWithin GL GR
  new_sized : ∀ w ∈ sideWords GR, ¬ IsNumber w → w ∈ sideWords GL ∨ w ∈ names

/-- Sides of a `reduce` pattern: nothing appears. -/
structure ReduceSides (GL GR : List Elem) : Prop where
  ellipsis : EllipsisOK GL GR
  units_right : OnlyUnits GR
  right_in_left : NamesWithin GR GL

end

/-- `y` holds at the places named by `R` what `x` holds at the places named by `L`. -/
def Moves {α : Type u} (len : AxisMap) (L R : List (List Axis)) (x y : Tensor α) : Prop :=
  y.shape = R.map (groupSize len) ∧
  ∀ env, InRange len (L.flatten ++ R.flatten) env →
    ∃ v, x.atAxes L len env = some v ∧ y.atAxes R len env = some v

/-- `y` holds at the places named by `R` the result of `op` on the elements of `x` with the same coordinates, the axes
that only occur in `L` running through all their values. -/
def Reduces {α : Type u} (op : List α → Py α) (len : AxisMap) (L R : List (List Axis)) (x y : Tensor α) : Prop :=
  y.shape = R.map (groupSize len) ∧
  ∀ env, InRange len R.flatten env →
    ∃ vs v, (loops len (L.flatten.filter (fun a => a ∉ R.flatten)) env).map (x.atAxes L len) = vs.map some ∧
      op vs = .ok v ∧ y.atAxes R len env = some v

/-- What is assumed of the keyword arguments: distinct keys (they come from a Python call or dict) and Python ints. -/
structure IntKw (kw : List (Str × Size)) : Prop where
  nodup : (kw.map Prod.fst).Nodup
  int : ∀ p ∈ kw, p.2.isInt = true

end Einops
