import Verif.Spec
import Verif.Einsum
import Mathlib.Algebra.BigOperators.Group.List.Basic
import Mathlib.Algebra.Ring.Defs

/-!
# Specification of `einsum`
-/

namespace Einops

universe u

/-- a symbol in the description of one tensor -/
inductive ESym
  | ell
  | name (w : Str)
  deriving DecidableEq, Repr

/-- The axis names in a list of symbols, in order. -/
def symNames : List ESym → List Str
  | [] => []
  | .ell :: t => symNames t
  | .name w :: t => w :: symNames t

/-- rename the axis of a symbol -/
def renameSym (g : Str → Str) : ESym → ESym
  | .ell => .ell
  | .name w => .name (g w)

/-- The axes of a list of symbols, the ellipsis standing for `n` dimensions. -/
def symAxes (n : Nat) : List ESym → List Axis
  | [] => []
  | .ell :: t => ellAxes n ++ symAxes n t
  | .name w :: t => .str w :: symAxes n t

/-- how a list of symbols is written for a framework, when axis `w` is the letter `f w` -/
def writeSyms (f : Str → Char) : List ESym → Str
  | [] => []
  | .ell :: t => '.' :: '.' :: '.' :: writeSyms f t
  | .name w :: t => f w :: writeSyms f t

/-- how a whole contraction is written for a framework -/
def writeEinsum (f : Str → Char) (terms : List (List ESym)) (out : List ESym) : Str :=
  List.intercalate [','] (terms.map (writeSyms f)) ++ ['-', '>'] ++ writeSyms f out

section
variable [PyUnicode]

/-- What a word means in `einsum`: numbers mean nothing. -/
def readWord (w : Str) (dotted : ESym) : Option ESym :=
  if w = dots then some dotted else if IsNumber w then none else some (.name w)

/-- What an element means in `einsum`: an ellipsis or a name; a name may be in parentheses, also together with units.
(An ellipsis in parentheses is an axis called '…' for the code.)  Other elements mean nothing. -/
def readElem : Elem → Option ESym
  | .bare w => readWord w .ell
  | .paren ws =>
    match ws.filter (fun w => decide (¬ (IsNumber w ∧ decimalValue w = 1))) with
    | [w] => readWord w (.name ellipsisStr)
    | _ => none

/-- The pattern is well formed: inputs separated by commas and the output after the arrow, all of them legal sides. -/
structure EinsumSides (pattern : Str) (Gs : List (List Elem)) (G : List Elem) : Prop where
  written : ∃ parts r, parts ≠ [] ∧ pattern = List.intercalate [','] parts ++ ['-', '>'] ++ r ∧
    List.Forall₂ (IsSide true true) parts Gs ∧ IsSide true false r G

/-- a well formed pattern whose inputs and output are lists of names and ellipses -/
def IsEinsum (pattern : Str) (terms : List (List ESym)) (out : List ESym) : Prop :=
  ∃ Gs G, EinsumSides pattern Gs G ∧ List.Forall₂ (fun (G : List Elem) t => G.map readElem = t.map some) Gs terms ∧
    G.map readElem = out.map some

end

/-- number of different strings in a list -/
def distinct (l : List Str) : Nat := l.dedup.length

variable {α : Type u} [CommSemiring α]

/-- entry of a tensor; 0 outside (never used for coordinates in range) -/
def entry (x : Tensor α) (i : List Nat) : α := (x.at? i).getD 0

/-- product of the entries of the tensors at given coordinates of the axes -/
def termProd (As : List (List Axis)) (xs : List (Tensor α)) (e : AxisMap) : α :=
  (List.zipWith (fun A x => entry x (A.map e)) As xs).prod

/-- The named-axis formula: at coordinates of the axes `B`, the sum over the coordinates of all other axes of the
products of the entries of the inputs. -/
def Contracts (len : AxisMap) (As : List (List Axis)) (B : List Axis) (xs : List (Tensor α)) (y : Tensor α) : Prop :=
  y.shape = B.map len ∧
  ∀ S : List Axis, S.Nodup → (∀ a, a ∈ S ↔ (∃ A ∈ As, a ∈ A) ∧ a ∉ B) →
    ∀ env, InRange len B env → y.at? (B.map env) = some (((loops len S env).map (termProd As xs)).sum)

/-- Legal inputs of a contraction: the shapes are the lengths of the axes, output axes are different and occur in the
inputs, the ellipsis is in the output if it is in an input. -/
structure EinsumFits (len : AxisMap) (n : Nat) (terms : List (List ESym)) (out : List ESym) (xs : List (Tensor α)) :
    Prop where
  some_input : xs ≠ []
  shapes : List.Forall₂ (fun t x => x.shape = (symAxes n t).map len) terms xs
  nodup : (symAxes n out).Nodup
  within : ∀ w ∈ symNames out, ∃ t ∈ terms, w ∈ symNames t
  ellipsis : .ell ∈ out ↔ ∃ t ∈ terms, .ell ∈ t

/-- What is assumed of the framework: with letters for axes, its `einsum` computes the formula for legal inputs.
(Nothing is assumed for other inputs.  Arithmetic is exact.) -/
def EinsumLawful (f : Str → List (Tensor α) → Py (Tensor α)) : Prop :=
  ∀ (terms : List (List ESym)) (out : List ESym) (len : AxisMap) (n : Nat) (xs : List (Tensor α)),
    (∀ t ∈ out :: terms, ∀ w ∈ symNames t, ∃ c, c.isAlpha = true ∧ w = [c]) → (∀ t ∈ out :: terms, t.count .ell ≤ 1) →
    EinsumFits len n terms out xs →
    ∃ y, f (writeEinsum (fun w => w.headD 'a') terms out) xs = .ok y ∧
      Contracts len (terms.map (symAxes n)) (symAxes n out) xs y

end Einops
