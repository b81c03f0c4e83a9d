import Mathlib.Algebra.BigOperators.Group.List.Basic
import Mathlib.Algebra.Ring.Defs
import Verif.Tensor

/-!
# Inner product of tensors

Specification vocabulary only: nothing here models code.
-/

namespace Einops

universe u
variable {α : Type u}

/-- the sum of the products of the elements at the same places (meant for tensors of the same shape) -/
def Tensor.dot [CommSemiring α] (x y : Tensor α) : α := (List.zipWith (· * ·) x.data y.data).sum

end Einops
