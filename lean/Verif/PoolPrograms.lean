import Verif.ListPrograms

/-!
# Pooling in the examples

`test8` and `test9` of `test_rearrange_examples` (einops/tests/test_examples.py:57-69).
-/

namespace Einops

universe u
variable {α : Type u} [PyUnicode]

/-- `test8` (test_examples.py:57-61), with windows of any size in place of 2 by 2 -/
def maxPool (b : Backend α) (so : SetOrder) (x : Tensor α) (k l : Nat) : Py (Tensor α) :=
  reduce b so (.one x) "b c (h h1) (w w1) -> b c h w".toList (.name "max".toList) [("h1".toList, ⟨k, true⟩), ("w1".toList, ⟨l, true⟩)]

/-- `test9` (test_examples.py:63-69) -/
def globalMax (b : Backend α) (so : SetOrder) (x : Tensor α) : Py (Tensor α) :=
  (reduce b so (.one x) "b c h w -> b c () ()".toList (.name "max".toList) []).bind fun y =>
  rearrange b so (.one y) "b c () () -> c b".toList []

end Einops
