import Verif.TorchPrograms
import Verif.Apply
import Verif.LawSpec
import Verif.ParseShape
import Mathlib.Algebra.Field.Defs

/-!
# The detection layer of the examples

`test_pytorch_yolo_fragment` (einops/tests/test_examples.py:194-296) compares a program of others, `old_way`, with its form with
einops, `new_way`, for pictures of one pixel.  Here are both programs for all sizes.  Arithmetic is exact; the sigmoid and the
exponential are parameters, the same in both programs.
-/

namespace Einops

universe u
variable {α : Type u}

/-! ### Operations -/

/-- the place in a tensor of shape `s` that is used for the place `i` of a result, when dimensions of length 1 are stretched -/
def stretch (s i : List Nat) : List Nat := List.zipWith (fun d j => if d = 1 then 0 else j) s i

/-- a binary operation of torch on tensors with the same number of dimensions, dimensions of length 1 are stretched -/
def Tensor.zipT (g : α → α → α) (x y : Tensor α) : Py (Tensor α) :=
  if x.ndim = y.ndim ∧ ∀ k < x.ndim, nth x.shape k = nth y.shape k ∨ nth x.shape k = 1 ∨ nth y.shape k = 1 then
    Tensor.build (List.zipWith (fun m n => if m = 1 then n else m) x.shape y.shape) (fun i =>
      match x.getE (stretch x.shape i), y.getE (stretch y.shape i) with
      | .ok a, .ok b => .ok (g a b)
      | _, _ => .error .index)
  else .error .backend

/-- `x.repeat(*reps)` of torch: dimensions of length 1 are added in front -/
def Tensor.repeatT (x : Tensor α) (reps : List Nat) : Py (Tensor α) :=
  (x.withShape (List.replicate (reps.length - x.ndim) 1 ++ x.shape)).bind fun x => x.tile (reps.map Int.ofNat)

/-- `torch.arange(n).float()`; also `torch.linspace(0, n - 1, n)` -/
def arangeT [NatCast α] (n : Nat) : Tensor α := ⟨[n], (List.range n).map Nat.cast, by simp⟩

/-- `torch.FloatTensor(anchors)` for a list of pairs -/
def pairTable (anchors : List (α × α)) : Tensor α :=
  ⟨[anchors.length, 2], anchors.flatMap (fun p => [p.1, p.2]), by induction anchors <;> simp_all [Nat.add_mul]⟩

/-! ### Programs -/

section
variable [Field α] [DecidableEq α]

/-- `old_way` (lines 200-251).  Filling the parts `pred_boxes[..., k]` of a new tensor is written as stacking them; the vector
`_scale` has dimensions of length 1 added, as broadcasting does. -/
def yoloOld (sig exp : α → α) (input : Tensor α) (nc na : Nat) (anchors : List (α × α)) (sh sw : α) : Py (Tensor α) :=
  match input.shape with
  | bs :: _ :: in_h :: in_w :: _ =>
    if anchors ≠ [] ∧ (sw = 0 ∨ sh = 0) then .error .zeroDivision
    else if anchors = [] then .error .index
    else
    let scaled := pairTable (anchors.map fun p => (p.1 / sw, p.2 / sh))
    (input.view [bs, na, (5 + nc : Nat), in_h, in_w]).bind fun p =>
    (p.transpose [0, 1, 3, 4, 2]).bind fun prediction =>
    (prediction.select 4 0).bind fun x =>
    (prediction.select 4 1).bind fun y =>
    (prediction.select 4 2).bind fun w =>
    (prediction.select 4 3).bind fun h =>
    (prediction.select 4 4).bind fun conf =>
    (prediction.slice 4 5 (5 + nc : Nat)).bind fun pred_cls =>
    ((arangeT in_w).repeatT [in_w, 1]).bind fun g =>
    (g.repeatT [bs * na, 1, 1]).bind fun g =>
    (g.view (x.shape.map Int.ofNat)).bind fun grid_x =>
    ((arangeT in_h).repeatT [in_h, 1]).bind fun g =>
    (g.transpose [1, 0]).bind fun g =>
    (g.repeatT [bs * na, 1, 1]).bind fun g =>
    (g.view (y.shape.map Int.ofNat)).bind fun grid_y =>
    (scaled.slice 1 0 1).bind fun a =>
    (a.repeatT [bs, 1]).bind fun a =>
    (a.repeatT [1, 1, in_h * in_w]).bind fun a =>
    (a.view (w.shape.map Int.ofNat)).bind fun anchor_w =>
    (scaled.slice 1 1 2).bind fun a =>
    (a.repeatT [bs, 1]).bind fun a =>
    (a.repeatT [1, 1, in_h * in_w]).bind fun a =>
    (a.view (h.shape.map Int.ofNat)).bind fun anchor_h =>
    ((x.map sig).zipT (· + ·) grid_x).bind fun b0 =>
    ((y.map sig).zipT (· + ·) grid_y).bind fun b1 =>
    ((w.map exp).zipT (· * ·) anchor_w).bind fun b2 =>
    ((h.map exp).zipT (· * ·) anchor_h).bind fun b3 =>
    (Tensor.stackAt [b0, b1, b2, b3] 4).bind fun pred_boxes =>
    (pred_boxes.view [bs, -1, 4]).bind fun pred_boxes =>
    (pred_boxes.zipT (· * ·) ⟨[1, 1, 4], [sw, sh, sw, sh], rfl⟩).bind fun boxes =>
    ((conf.map sig).view [bs, -1, 1]).bind fun conf =>
    ((pred_cls.map sig).view [bs, -1, nc]).bind fun cls =>
    Tensor.concat [boxes, conf, cls] 2
  | _ => .error .index

variable [PyUnicode]

/-- `new_way` (lines 253-270).  Filling the parts of `predicted_bboxes` is written as joining them. -/
def yoloNew (b : Backend α) (so : SetOrder) (sig exp : α → α) (input : Tensor α) (na : Nat) (anchors : List (α × α)) (sh sw : α) :
    Py (Tensor α) :=
  (rearrange b so (.one input) " b (anchor prediction) h w -> prediction b anchor h w".toList [("anchor".toList, ⟨na, true⟩)]).bind fun raw =>
  (rearrange b so (.one (pairTable anchors)) "anchor dim -> dim () anchor () ()".toList []).bind fun anchor_sizes =>
  match raw.shape with
  | [_, _, _, in_h, in_w] =>
    (rearrange b so (.one (arangeT in_h)) "h -> () () h ()".toList []).bind fun grid_h =>
    (rearrange b so (.one (arangeT in_w)) "w -> () () () w".toList []).bind fun grid_w =>
    (raw.select 0 0).bind fun r0 =>
    ((r0.map sig).zipT (· + ·) grid_h).bind fun r0 =>
    (raw.select 0 1).bind fun r1 =>
    ((r1.map sig).zipT (· + ·) grid_w).bind fun r1 =>
    (raw.slice 0 2 4).bind fun r2 =>
    ((r2.map exp).zipT (· * ·) anchor_sizes).bind fun r2 =>
    (raw.select 0 4).bind fun r4 =>
    (raw.slice 0 5 (nth raw.shape 0)).bind fun r5 =>
    ((r0.map (· * sh)).expandDims 0).bind fun r0 =>
    ((r1.map (· * sw)).expandDims 0).bind fun r1 =>
    ((r4.map sig).expandDims 0).bind fun r4 =>
    (Tensor.concat [r0, r1, r2, r4, r5.map sig] 0).bind fun predicted =>
    rearrange b so (.one predicted) "prediction b anchor h w -> b anchor h w prediction".toList []
  | _ => .error .value

end

/-! ### Specification -/

section
variable [Field α]

/-- element `(b, a * P + p, i, j)` of the input: prediction `p` of anchor `a`, `P` being the number of predictions -/
def rawPrediction (input : Tensor α) (P b a p i j : Nat) : α := (input.at? [b, a * P + p, i, j]).getD 0

/-- what `old_way` computes as prediction `p` at row `i` and column `j`: the centre is (column, row) -/
def oldPrediction (sig exp : α → α) (anchor : α × α) (sh sw : α) (i j p : Nat) (v : α) : α :=
  match p with
  | 0 => (sig v + j) * sw
  | 1 => (sig v + i) * sh
  | 2 => exp v * anchor.1
  | 3 => exp v * anchor.2
  | _ => sig v

/-- what `new_way` computes: the centre is (row, column) -/
def newPrediction (sig exp : α → α) (anchor : α × α) (sh sw : α) (i j p : Nat) (v : α) : α :=
  match p with
  | 0 => (sig v + i) * sh
  | 1 => (sig v + j) * sw
  | 2 => exp v * anchor.1
  | 3 => exp v * anchor.2
  | _ => sig v

end

end Einops
