import Verif.StridedPrograms
import Verif.ParseShape

/-!
# Two more programs of the examples

`test6` and `test7` of `test_rearrange_examples` (einops/tests/test_examples.py:40-55): an operation on the channels of every pixel, with
sizes from `parse_shape`, and the sum of two groups of channels.
-/

namespace Einops

universe u
variable {α : Type u}

/-- `t[:, ::2]` of a matrix (test_examples.py:43) -/
def Tensor.evenColumns (t : Tensor α) : Py (Tensor α) :=
  match t.shape with
  | [N, C] => Tensor.build [N, (C + 1) / 2] (fun i => t.getE [nth i 0, nth i 1 * 2])
  | _ => .error .index

variable [PyUnicode]

/-- `test6` (test_examples.py:40-48); the slice `t[:, ::2]`, there a "replacement for dot-product", is any operation `op` -/
def pixelwise (b : Backend α) (so : SetOrder) (x : Tensor α) (op : Tensor α → Py (Tensor α)) : Py (Tensor α) :=
  (rearrange b so (.one x) "b c h w -> (b h w) c".toList []).bind fun t =>
  (op t).bind fun t =>
  match parseShape x.shape "b _ h w".toList with
  | .error e => .error e
  | .ok d => rearrange b so (.one t) "(b h w) c2 -> b c2 h w".toList (d.map fun p => (p.1, ⟨p.2, true⟩))

/-- `test7` (test_examples.py:50-55); `y1, y2 = …` takes the two parts along the first axis -/
def twoGroups [Add α] (b : Backend α) (so : SetOrder) (x : Tensor α) : Py (Tensor α) :=
  (rearrange b so (.one x) "b (c g) h w -> g b c h w".toList [("g".toList, ⟨2, true⟩)]).bind fun y =>
  if nth y.shape 0 = 2 then
    (y.select 0 0).bind fun y1 => (y.select 0 1).bind fun y2 => y1.zipT (· + ·) y2
  else .error .value

end Einops
