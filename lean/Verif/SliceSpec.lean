import Verif.Spec

/-!
# Slices along one dimension
-/

namespace Einops

universe u

/-- `xs 0`, …, `xs (n - 1)` are the slices of `x` along dimension number `p`, whose length is `n`: in numpy terms
`xs i` is `x.take(i, axis=p)`. -/
def SlicesAre {α : Type u} (x : Tensor α) (p n : Nat) (xs : Nat → Tensor α) : Prop :=
  ∃ pre post, x.shape = pre ++ n :: post ∧ pre.length = p ∧
    ∀ i < n, (xs i).shape = pre ++ post ∧ ∀ u v, u.length = p → (xs i).at? (u ++ v) = x.at? (u ++ i :: v)

/-- Number of the dimension of a tensor with `ndim` dimensions that a bare word stands for, if the parts `A` of the side
are before it and `B` after it: counted from the end when the ellipsis is before it. -/
def placeBetween (A B : List Elem) (ndim : Nat) : Nat :=
  if Elem.bare dots ∈ A then ndim - (B.length + 1) else A.length

end Einops
