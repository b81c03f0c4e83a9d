import Verif.TorchPrograms
import Verif.Apply
import Verif.LawSpec
import Verif.TensorTrain
import Verif.Yolo

/-!
# The strided convolutions of the examples

`convolve_strided_1d`, `convolve_strided_2d`, `shufflenet` and `unet_like_1d` of `test_rearrange_examples`
(einops/tests/test_examples.py:85-111) get a convolution as argument; the test gives the identity.  Here is what these programs compute for any operation.
-/

namespace Einops

universe u
variable {α : Type u}

section
variable [PyUnicode]

/-- `convolve_strided_1d` (test_examples.py:92-97) -/
def strided1d (b : Backend α) (so : SetOrder) (x : Tensor α) (stride : Nat) (conv : Tensor α → Py (Tensor α)) : Py (Tensor α) :=
  (rearrange b so (.one x) "b c t1 t2 -> b c (t1 t2)".toList []).bind fun x =>
  (rearrange b so (.one x) "b c (t stride) -> (stride b) c t".toList [("stride".toList, ⟨stride, true⟩)]).bind fun x =>
  (conv x).bind fun x =>
  rearrange b so (.one x) "(stride b) c t -> b c (t stride)".toList [("stride".toList, ⟨stride, true⟩)]

/-- `convolve_strided_2d` (test_examples.py:99-103) -/
def strided2d (b : Backend α) (so : SetOrder) (x : Tensor α) (hs ws : Nat) (conv : Tensor α → Py (Tensor α)) : Py (Tensor α) :=
  (rearrange b so (.one x) "b c (h hs) (w ws) -> (hs ws b) c h w".toList
    [("hs".toList, ⟨hs, true⟩), ("ws".toList, ⟨ws, true⟩)]).bind fun x =>
  (conv x).bind fun x =>
  rearrange b so (.one x) "(hs ws b) c h w -> b c (h hs) (w ws)".toList [("hs".toList, ⟨hs, true⟩), ("ws".toList, ⟨ws, true⟩)]

/-- `shufflenet` (test_examples.py:85-90) -/
def shufflenet (b : Backend α) (so : SetOrder) (x : Tensor α) (conv : Tensor α → Py (Tensor α)) (c1 c2 : Nat) : Py (Tensor α) :=
  (conv x).bind fun x =>
  (rearrange b so (.one x) "b (c1 c2) h w-> b (c2 c1) h w".toList [("c1".toList, ⟨c1, true⟩), ("c2".toList, ⟨c2, true⟩)]).bind fun x =>
  conv x

/-- `unet_like_1d` (test_examples.py:105-111) -/
def unetLike [Add α] (b : Backend α) (so : SetOrder) (x : Tensor α) (conv : Tensor α → Py (Tensor α)) : Py (Tensor α) :=
  (rearrange b so (.one x) "b c t1 t2 -> b c (t1 t2)".toList []).bind fun x =>
  (rearrange b so (.one x) "b c (t dt) -> b (dt c) t".toList [("dt".toList, ⟨2, true⟩)]).bind fun y =>
  (conv y).bind fun y =>
  (rearrange b so (.one y) "b (dt c) t -> b c (t dt)".toList [("dt".toList, ⟨2, true⟩)]).bind fun y =>
  x.zipT (· + ·) y

end

/-! ### Specification -/

/-- An operation that treats the items of a batch alike and apart: for every number of items of shape `s` it returns as many items of
shape `s'`, and what it returns for an item is computed by `Φ` from the elements of this item. -/
def ActsOnItems (conv : Tensor α → Py (Tensor α)) (s s' : List Nat) (Φ : (List Nat → Option α) → List Nat → Option α) : Prop :=
  ∀ (N : Nat) (x : Tensor α), x.shape = N :: s → ∃ y, conv x = .ok y ∧ y.shape = N :: s' ∧
    ∀ n i, n < N → inBounds i s' = true → y.at? (n :: i) = Φ (fun j => x.at? (n :: j)) i

/-- A convolution with a kernel `K` of shape `[C', C, k]` and steps of length `step` after `pad` zeros: element `[c, t]` is the sum over
the channels `e` and the places `m` of the kernel of `K[c, e, m]` times element `[e, t + m * step - pad]` of the item, or 0 if there
is none. -/
def convFormula [CommSemiring α] (K : Tensor α) (pad step : Nat) (item : List Nat → Option α) (c t : Nat) : α :=
  ∑ e ∈ Finset.range (nth K.shape 1), ∑ m ∈ Finset.range (nth K.shape 2),
    entry K [c, e, m] * (if pad ≤ t + m * step then (item [e, t + m * step - pad]).getD 0 else 0)

/-- `torch.nn.functional.conv1d(x, K, padding=pad, dilation=step)` for three dimensions, exactly; empty axes other than the batch are
refused -/
def Tensor.conv1d [CommSemiring α] (K : Tensor α) (pad step : Nat) (x : Tensor α) : Py (Tensor α) :=
  match K.shape, x.shape with
  | [C', C, k], [N, D, T] =>
    if D = C ∧ 0 < C ∧ 0 < C' ∧ 0 < k ∧ 0 < T ∧ 0 < step ∧ (k - 1) * step < T + 2 * pad then
      Tensor.build [N, C', T + 2 * pad - (k - 1) * step] (fun i =>
        .ok (convFormula K pad step (fun j => x.at? (nth i 0 :: j)) (nth i 1) (nth i 2)))
    else .error .backend
  | _, _ => .error .backend

/-- The same in two directions: the kernel `K` has shape `[C', C, k, l]`. -/
def convFormula2 [CommSemiring α] (K : Tensor α) (ph pw sh sw : Nat) (item : List Nat → Option α) (c i j : Nat) : α :=
  ∑ e ∈ Finset.range (nth K.shape 1), ∑ m ∈ Finset.range (nth K.shape 2), ∑ l ∈ Finset.range (nth K.shape 3),
    entry K [c, e, m, l] * (if ph ≤ i + m * sh ∧ pw ≤ j + l * sw then (item [e, i + m * sh - ph, j + l * sw - pw]).getD 0 else 0)

/-- `torch.nn.functional.conv2d(x, K, padding=(ph, pw), dilation=(sh, sw))` for four dimensions, exactly; empty axes other than the batch
are refused -/
def Tensor.conv2d [CommSemiring α] (K : Tensor α) (ph pw sh sw : Nat) (x : Tensor α) : Py (Tensor α) :=
  match K.shape, x.shape with
  | [C', C, k, l], [N, D, H, W] =>
    if D = C ∧ 0 < C ∧ 0 < C' ∧ 0 < k ∧ 0 < l ∧ 0 < H ∧ 0 < W ∧ 0 < sh ∧ 0 < sw ∧ (k - 1) * sh < H + 2 * ph ∧ (l - 1) * sw < W + 2 * pw then
      Tensor.build [N, C', H + 2 * ph - (k - 1) * sh, W + 2 * pw - (l - 1) * sw] (fun i =>
        .ok (convFormula2 K ph pw sh sw (fun j => x.at? (nth i 0 :: j)) (nth i 1) (nth i 2) (nth i 3)))
    else .error .backend
  | _, _ => .error .backend

end Einops
