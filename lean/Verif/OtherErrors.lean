import Verif.EinsumSpec
import Verif.PackSpec
import Verif.ErrorSpec

/-!
# Which exception: `einsum`, `pack`, `unpack`

Stated with patterns, shapes and positions only.  The first trouble in reading order decides.
-/

namespace Einops

universe u

section
variable [PyUnicode]

/-- What is wrong with the elements `A` of the inputs (of all inputs, in order) and `B` of the output, and the exception
that reports it. -/
inductive EinsumTrouble (A B : List Elem) : PyErr → Prop
  /-- an element of an input means nothing, and there are not yet too many names before it -/
  | input (A₁ : List Elem) (e : Elem) (A₂ : List Elem) (t : List ESym) : A = A₁ ++ e :: A₂ → A₁.map readElem = t.map some →
      distinct (symNames t) ≤ 52 → readElem e = none → EinsumTrouble A B .notImplemented
  /-- more than 52 names, before any element that means nothing -/
  | letters (A₁ A₂ : List Elem) (t : List ESym) : A = A₁ ++ A₂ → A₁.map readElem = t.map some →
      52 < distinct (symNames t) → EinsumTrouble A B .runtime
  /-- the inputs are fine; an element of the output means nothing, and all names before it are names of inputs -/
  | output (t u : List ESym) (B₁ : List Elem) (e : Elem) (B₂ : List Elem) : A.map readElem = t.map some →
      distinct (symNames t) ≤ 52 → B = B₁ ++ e :: B₂ → B₁.map readElem = u.map some →
      (∀ w ∈ symNames u, w ∈ symNames t) → readElem e = none → EinsumTrouble A B .notImplemented
  /-- the inputs are fine; an axis of the output is no axis of an input, and everything before it is fine -/
  | unknown (t u : List ESym) (B₁ : List Elem) (e : Elem) (B₂ : List Elem) (w : Str) : A.map readElem = t.map some →
      distinct (symNames t) ≤ 52 → B = B₁ ++ e :: B₂ → B₁.map readElem = u.map some →
      (∀ w ∈ symNames u, w ∈ symNames t) → readElem e = some (.name w) → w ∉ symNames t → EinsumTrouble A B .einops

end

/-- a shape has the dimensions around the star, none of them zero -/
def PackableShape (before after : Nat) (s : List Nat) : Prop :=
  ∃ pre r post, s = pre ++ r ++ post ∧ pre.length = before ∧ post.length = after ∧ 0 ∉ pre ∧ 0 ∉ post

/-- What is wrong with the shapes of the tensors to be packed, and the exception that reports it; `backend` stands for
the exception of the framework. -/
inductive PackTrouble (before after : Nat) (shapes : List (List Nat)) : PyErr → Prop
  /-- too few dimensions, and nothing wrong with the tensors before it -/
  | rank (S₁ : List (List Nat)) (s : List Nat) (S₂ : List (List Nat)) : shapes = S₁ ++ s :: S₂ →
      (∀ s ∈ S₁, PackableShape before after s) → s.length < before + after → PackTrouble before after shapes .einops
  /-- a dimension around the star is zero, and nothing wrong with the tensors before it -/
  | zero (S₁ : List (List Nat)) (pre r post : List Nat) (S₂ : List (List Nat)) : shapes = S₁ ++ (pre ++ r ++ post) :: S₂ →
      (∀ s ∈ S₁, PackableShape before after s) → pre.length = before → post.length = after → 0 ∈ pre ∨ 0 ∈ post →
      PackTrouble before after shapes .backend
  /-- two tensors differ in the dimensions around the star -/
  | differ (pre r post pre' r' post' : List Nat) : (∀ s ∈ shapes, PackableShape before after s) →
      pre ++ r ++ post ∈ shapes → pre' ++ r' ++ post' ∈ shapes → pre.length = before → post.length = after →
      pre'.length = before → post'.length = after → (pre, post) ≠ (pre', post') → PackTrouble before after shapes .backend

end Einops
