import Verif.SliceSpec
import Verif.EinsumSpec

/-!
# A new axis in the tensors of an `einsum`
-/

namespace Einops

universe u

/-- An input of two `einsum` calls: how it is described without and with the new axis, the tensor with the axis, and the
tensors without. -/
structure BatchInput (α : Type u) where
  term : List ESym
  term' : List ESym
  whole : Tensor α
  parts : Nat → Tensor α

/-- The new axis is called `w` and has length `N`.  Either the input does not have it and is the same in all calls, or
the name is written at one place of the description, and the tensors without the axis are the slices along it.  (The
ellipsis stands for `n` dimensions.) -/
inductive Batched {α : Type u} (w : Str) (n N : Nat) : BatchInput α → Prop
  | shared {t : List ESym} {x : Tensor α} : w ∉ symNames t → Batched w n N ⟨t, t, x, fun _ => x⟩
  | sliced {A B : List ESym} {x : Tensor α} {xs : Nat → Tensor α} : w ∉ symNames (A ++ B) →
      SlicesAre x (symAxes n A).length N xs → Batched w n N ⟨A ++ B, A ++ .name w :: B, x, xs⟩

end Einops
