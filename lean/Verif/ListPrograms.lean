import Verif.PixelPrograms

/-!
# Lists of items

`test10` and `test11` of `test_rearrange_examples` (einops/tests/test_examples.py:71-83): a tensor is cut into the list of its items, and
the list is given to `rearrange`.
-/

namespace Einops

universe u
variable {α : Type u}

/-- `list(x)` of a tensor: the items along the first axis; a tensor without axes is not iterable (TypeError) -/
def Tensor.items (x : Tensor α) : Py (List (Tensor α)) :=
  match x.shape with
  | [] => .error .type
  | n :: _ => mapE (fun k : Nat => x.select 0 k) (List.range n)

variable [PyUnicode]

/-- `test10` (test_examples.py:71-76); `x + 0`, a workaround for another library, has the elements of `x` -/
def stackItems (b : Backend α) (so : SetOrder) (x : Tensor α) : Py (Tensor α) :=
  x.items.bind fun tensors => rearrange b so (.many tensors) "b c h w -> b h w c".toList []

/-- `test11` (test_examples.py:78-83) -/
def concatItems (b : Backend α) (so : SetOrder) (x : Tensor α) : Py (Tensor α) :=
  x.items.bind fun tensors => rearrange b so (.many tensors) "b c h w -> h (b w) c".toList []

end Einops
