import Verif.Apply

/-!
# Programs written with the operations of PyTorch

The left column of scripts/pytorch_examples_source/Pytorch.ipynb ("Writing better code with pytorch and einops"): programs
without einops, that the right column rewrites with einops.  The lines given below are lines of this file.  Operations of PyTorch are modelled by what their documentation
says; memory layout (`contiguous`) plays no role in the model.
-/

namespace Einops

universe u
variable {α : Type u}

/-! ### Operations -/

/-- `x.view(*s)` -/
def Tensor.view (x : Tensor α) (s : List Int) : Py (Tensor α) := x.reshape s

/-- `x.select(axis, k)`, or `x[:, …, :, k]`; negative numbers count from the end -/
def Tensor.select (x : Tensor α) (axis : Nat) (k : Int) : Py (Tensor α) :=
  if axis < x.ndim then
    let n := nth x.shape axis
    let j := if k < 0 then k + n else k
    if 0 ≤ j ∧ j < n then
      Tensor.build (x.shape.eraseIdx axis) (fun i => x.getE (i.take axis ++ j.toNat :: i.drop axis))
    else .error .index
  else .error .index

/-- `x.chunk(k, axis)`: pieces of equal length, the last may be shorter; there may be less than `k`. -/
def Tensor.chunk (x : Tensor α) (k axis : Nat) : Py (List (Tensor α)) :=
  if k = 0 then .error .backend
  else if axis < x.ndim then
    let n := nth x.shape axis
    let c := (n + k - 1) / k
    let pieces := if c = 0 then k else (n + c - 1) / c
    mapE (fun j : Nat => x.slice axis (j * c : Nat) ((j + 1) * c : Nat)) (List.range pieces)
  else .error .index

/-- the tensors in `for t in x` or `a, b = x` -/
def Tensor.unbind (x : Tensor α) : Py (List (Tensor α)) :=
  match x.shape with
  | [] => .error .type
  | n :: _ => mapE (fun j : Nat => x.select 0 j) (List.range n)

/-- `x.squeeze(axis)`: the dimension is removed if its length is 1 -/
def Tensor.squeeze (x : Tensor α) (axis : Nat) : Py (Tensor α) :=
  if axis < x.ndim then
    if nth x.shape axis = 1 then x.withShape (x.shape.eraseIdx axis) else .ok x
  else .error .index

/-- `torch.stack(xs, axis)` -/
def Tensor.stackAt (xs : List (Tensor α)) (axis : Nat) : Py (Tensor α) :=
  match mapE (fun x : Tensor α => x.expandDims axis) xs with
  | .error e => .error e
  | .ok ys => Tensor.concat ys axis

/-- `F.avg_pool2d(x, (kh, kw))` of a tensor with three dimensions: means of blocks -/
def Tensor.avgPool2d (mean : List α → Py α) (x : Tensor α) (kh kw : Nat) : Py (Tensor α) :=
  match x.shape with
  | [n, h, w] =>
    if kh = 0 ∨ kw = 0 ∨ h < kh ∨ w < kw then .error .backend
    else Tensor.build [n, h / kh, w / kw] (fun i =>
      (mapE (fun r => x.getE [nth i 0, nth i 1 * kh + nth r 0, nth i 2 * kw + nth r 1]) (indices [kh, kw])).bind mean)
  | _ => .error .backend

/-- `nn.PixelShuffle(r)`: `(N, C * r², H, W)` to `(N, C, H * r, W * r)`, element `(n, c, h * r + i, w * r + j)` being element
`(n, c * r² + i * r + j, h, w)` -/
def Tensor.pixelShuffle (x : Tensor α) (r : Nat) : Py (Tensor α) :=
  match x.shape with
  | [n, c, h, w] =>
    if r = 0 ∨ c % (r * r) ≠ 0 then .error .backend
    else Tensor.build [n, c / (r * r), h * r, w * r] (fun i =>
      x.getE [nth i 0, nth i 1 * (r * r) + nth i 2 % r * r + nth i 3 % r, nth i 2 / r, nth i 3 / r])
  | _ => .error .backend

/-! ### Programs -/

/-- `channel_shuffle_old(x, groups)` (lines 491-508) -/
def channelShuffleOld (x : Tensor α) (groups : Nat) : Py (Tensor α) :=
  match x.shape with
  | [batchsize, numChannels, height, width] =>
    if groups = 0 then .error .zeroDivision
    else
      (x.view [batchsize, groups, (numChannels / groups : Nat), height, width]).bind fun x =>
      (x.transpose [0, 2, 1, 3, 4]).bind fun x =>
      x.view [batchsize, -1, height, width]
  | _ => .error .value

/-- `unsqueeze2d_old(input, factor)` (lines 2179-2193) -/
def unsqueeze2dOld (x : Tensor α) (factor : Nat) : Py (Tensor α) :=
  if factor < 1 then .error .assertion
  else if factor = 1 then .ok x
  else
    match x.shape with
    | B :: C :: H :: W :: _ =>
      if C % (factor ^ 2) ≠ 0 then .error .assertion
      else
        (x.view [B, (C / factor ^ 2 : Nat), factor, factor, H, W]).bind fun x =>
        (x.transpose [0, 1, 4, 2, 5, 3]).bind fun x =>
        x.view [B, (C / factor ^ 2 : Nat), (H * factor : Nat), (W * factor : Nat)]
    | _ => .error .index

/-- `squeeze2d_old(input, factor)` (lines 2195-2208) -/
def squeeze2dOld (x : Tensor α) (factor : Nat) : Py (Tensor α) :=
  if factor < 1 then .error .assertion
  else if factor = 1 then .ok x
  else
    match x.shape with
    | B :: C :: H :: W :: _ =>
      if H % factor ≠ 0 ∨ W % factor ≠ 0 then .error .assertion
      else
        (x.view [B, C, (H / factor : Nat), factor, (W / factor : Nat), factor]).bind fun x =>
        (x.transpose [0, 1, 3, 5, 2, 4]).bind fun x =>
        x.view [B, (C * factor * factor : Nat), (H / factor : Nat), (W / factor : Nat)]
    | _ => .error .index

/-- the decoding in `RNNModelOld.forward` (lines 447-448), `dec` being the layer `self.decoder` -/
def decodeOld (dec : Tensor α → Py (Tensor α)) (output : Tensor α) : Py (Tensor α) :=
  match output.shape with
  | t :: b :: nhid :: _ =>
    (output.view [(t * b : Nat), nhid]).bind fun x =>
    (dec x).bind fun decoded =>
    if 1 < decoded.ndim then decoded.view [t, b, (nth decoded.shape 1 : Nat)] else .error .index
  | _ => .error .index

/-- `torch.cat((hidden[-2,:,:], hidden[-1,:,:]), dim=1)` in `RNNOld.forward` (line 1057) -/
def lastHiddenOld (hidden : Tensor α) : Py (Tensor α) :=
  (hidden.select 0 (-2)).bind fun f =>
  (hidden.select 0 (-1)).bind fun g =>
  Tensor.concat [f, g] 1

/-- what the last layer of `RNNOld.forward` is applied to (line 1061): `hidden.squeeze(0)` -/
def rnnHiddenOld (hidden : Tensor α) : Py (Tensor α) :=
  (lastHiddenOld hidden).bind fun h => h.squeeze 0

/-- the pooling in `FastTextOld.forward` (lines 1160-1164) -/
def fastTextOld (mean : List α → Py α) (embedded : Tensor α) : Py (Tensor α) :=
  (embedded.transpose [1, 0, 2]).bind fun x =>
  (x.avgPool2d mean (nth x.shape 1) 1).bind fun x =>
  x.squeeze 1

/-- `torch.stack(outputs, 1).squeeze(2)` in `SequencePredictionOld.forward` (line 1998) -/
def outputsOld (outputs : List (Tensor α)) : Py (Tensor α) :=
  (Tensor.stackAt outputs 1).bind fun x => x.squeeze 2

/-- one head tensor in `MultiHeadAttentionOld.forward` (lines 1647-1653):
`.view(b, l, n, k).permute(2, 0, 1, 3).contiguous().view(-1, l, k)` -/
def splitHeadsOld (x : Tensor α) (n k : Nat) : Py (Tensor α) :=
  match x.shape with
  | [b, l, _] =>
    (x.view [b, l, n, k]).bind fun x =>
    (x.transpose [2, 0, 1, 3]).bind fun x =>
    x.view [-1, l, k]
  | _ => .error .value

/-- the output in `MultiHeadAttentionOld.forward` (lines 1658-1659):
`.view(n, b, l, v).permute(1, 2, 0, 3).contiguous().view(b, l, -1)` -/
def joinHeadsOld (x : Tensor α) (n b l v : Nat) : Py (Tensor α) :=
  (x.view [n, b, l, v]).bind fun x =>
  (x.transpose [1, 2, 0, 3]).bind fun x =>
  x.view [b, l, -1]

end Einops
