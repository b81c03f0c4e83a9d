import Verif.TorchPrograms
import Verif.Apply
import Verif.LawSpec
import Verif.ParseShape
import Mathlib.Algebra.BigOperators.Group.List.Basic
import Mathlib.Algebra.Field.Defs

/-!
# Programs with products written with the operations of PyTorch

The programs of scripts/pytorch_examples_source/Pytorch.ipynb with matrix products: Gram matrix, attention, multi-head attention,
self-attention.  Lines are lines of this file.  Linear layers and convolutions are outside: the programs below get their
outputs.  `softmax`, the scaling of products and the value filled in are parameters: the same in the old and in the new program.
-/

namespace Einops

universe u
variable {α : Type u}

/-! ### Operations -/

/-- `torch.bmm(x, y)` -/
def Tensor.bmm [Mul α] [Add α] [Zero α] (x y : Tensor α) : Py (Tensor α) :=
  match x.shape, y.shape with
  | [b, n, k], [b', k', m] =>
    if b = b' ∧ k = k' then
      Tensor.build [b, n, m] (fun i =>
        match mapE (fun t => x.getE [nth i 0, nth i 1, t]) (List.range k), mapE (fun t => y.getE [nth i 0, t, nth i 2]) (List.range k) with
        | .ok r, .ok c => .ok (List.zipWith (· * ·) r c).sum
        | _, _ => .error .index)
    else .error .backend
  | _, _ => .error .backend

/-- a function of the rows of the last axis, such as `softmax(x, dim=-1)`: `g row t` is the element number `t` of the new row -/
def Tensor.lastAxis (g : List α → Nat → α) (x : Tensor α) : Py (Tensor α) :=
  if x.ndim = 0 then .error .index
  else Tensor.build x.shape (fun i =>
    match mapE (fun t => x.getE (i.dropLast ++ [t])) (List.range (nth x.shape (x.ndim - 1))) with
    | .ok row => .ok (g row (nth i (x.ndim - 1)))
    | .error e => .error e)

/-- `x.masked_fill(mask, v)` for a mask with as many dimensions as `x`, some of them of length 1 -/
def Tensor.maskedFill (x : Tensor α) (mask : Tensor Bool) (v : α) : Py (Tensor α) :=
  if mask.ndim = x.ndim ∧ ∀ k < x.ndim, nth mask.shape k = nth x.shape k ∨ nth mask.shape k = 1 then
    Tensor.build x.shape (fun i =>
      match mask.getE (List.zipWith (fun d j => if d = 1 then 0 else j) mask.shape i) with
      | .ok true => .ok v
      | .ok false => x.getE i
      | .error e => .error e)
  else .error .backend

/-! ### Programs -/

/-- `gram_matrix_old(y)` (lines 341-346) -/
def gramOld [Field α] (y : Tensor α) : Py (Tensor α) :=
  match y.shape with
  | [b, ch, h, w] =>
    (y.view [b, ch, (w * h : Nat)]).bind fun features =>
    (features.transpose [0, 2, 1]).bind fun features_t =>
    (features.bmm features_t).bind fun gram =>
    .ok (gram.map fun a => a / ((ch * h * w : Nat) : α))
  | _ => .error .value

/-- `gram_matrix_new(y)` (lines 356-358), `f` being `torch.einsum` -/
def gramNew [Field α] (f : Str → List (Tensor α) → Py (Tensor α)) (y : Tensor α) : Py (Tensor α) :=
  match y.shape with
  | [_, _, h, w] => (f "bchw,bdhw->bcd".toList [y, y]).bind fun gram => .ok (gram.map fun a => a / ((h * w : Nat) : α))
  | _ => .error .value

/-- `Attention.forward` (lines 1514-1518), `scale c` being the division by the square root of the number of channels, `soft` the
`softmax` -/
def attentionOld [CommSemiring α] (scale : Nat → α → α) (soft : Tensor α → Py (Tensor α)) (K V Q : Tensor α) : Py (Tensor α) :=
  (K.transpose [0, 2, 1]).bind fun Kt =>
  (Kt.bmm Q).bind fun A =>
  if 1 < Q.ndim then
    (soft (A.map (scale (nth Q.shape 1)))).bind fun A =>
    (V.bmm A).bind fun R =>
    Tensor.concat [R, Q] 1
  else .error .index

/-- `attention(K, V, Q)` (lines 1528-1533) -/
def attentionNew [CommSemiring α] (f : Str → List (Tensor α) → Py (Tensor α)) (scale : Nat → α → α)
    (soft : Tensor α → Py (Tensor α)) (K V Q : Tensor α) : Py (Tensor α) :=
  match K.shape with
  | [_, n_channels, _] =>
    (f "bct,bcl->btl".toList [K, Q]).bind fun A =>
    (soft (A.map (scale n_channels))).bind fun A =>
    (f "bct,btl->bcl".toList [V, A]).bind fun R =>
    Tensor.concat [R, Q] 1
  | _ => .error .value

/-- `ScaledDotProductAttention.forward` (lines 1595-1607), without dropout -/
def scaledAttentionOld [CommSemiring α] (scale : α → α) (inf : α) (sm : List α → Nat → α) (q k v : Tensor α) (mask : Tensor Bool) :
    Py (Tensor α × Tensor α) :=
  match (k.transpose [0, 2, 1]).bind fun kt =>
      (q.bmm kt).bind fun attn =>
      ((attn.map scale).maskedFill mask inf).bind fun attn =>
      attn.lastAxis sm with
  | .error e => .error e
  | .ok attn =>
    match attn.bmm v with
    | .error e => .error e
    | .ok output => .ok (output, attn)

/-- `MultiHeadAttentionOld.forward` (lines 1637-1659), from the outputs of the three linear layers to the input of the last one.
Without a mask `mask.repeat` is an AttributeError. -/
def multiHeadOld [CommSemiring α] (scale : Nat → α → α) (inf : α) (sm : List α → Nat → α) (n d_k d_v : Nat) (q k v : Tensor α)
    (mask : Option (Tensor Bool)) : Py (Tensor α × Tensor α) :=
  match splitHeadsOld q n d_k, splitHeadsOld k n d_k, splitHeadsOld v n d_v with
  | .ok q', .ok k', .ok v' =>
    match mask with
    | none => .error .type
    | some mask =>
      match mask.tile [n, 1, 1] with
      | .error e => .error e
      | .ok mask =>
        match scaledAttentionOld (scale d_k) inf sm q' k' v' mask with
        | .error e => .error e
        | .ok (output, attn) =>
          match joinHeadsOld output n (nth q.shape 0) (nth q.shape 1) d_v with
          | .error e => .error e
          | .ok output => .ok (output, attn)
  | .error e, _, _ => .error e
  | _, .error e, _ => .error e
  | _, _, .error e => .error e

/-- `MultiHeadAttentionNew.forward` (lines 1692-1702), between the linear layers, without dropout -/
def multiHeadNew [CommSemiring α] [PyUnicode] (b : Backend α) (so : SetOrder) (f : Str → List (Tensor α) → Py (Tensor α))
    (scale : Nat → α → α) (inf : α) (sm : List α → Nat → α) (n : Nat) (q k v : Tensor α) (mask : Option (Tensor Bool)) :
    Py (Tensor α × Tensor α) :=
  match rearrange b so (.one q) "b l (head k) -> head b l k".toList [("head".toList, ⟨(n : Nat), true⟩)] with
  | .error e => .error e
  | .ok q =>
    match rearrange b so (.one k) "b t (head k) -> head b t k".toList [("head".toList, ⟨(n : Nat), true⟩)] with
    | .error e => .error e
    | .ok k =>
      match rearrange b so (.one v) "b t (head v) -> head b t v".toList [("head".toList, ⟨(n : Nat), true⟩)] with
      | .error e => .error e
      | .ok v =>
        match f "hblk,hbtk->hblt".toList [q, k] with
        | .error e => .error e
        | .ok attn =>
          let attn := attn.map (scale (nth q.shape (q.ndim - 1)))
          match (match mask with
            | none => .ok attn
            | some mask =>
              match mask.expandDims 0 with
              | .error e => .error e
              | .ok mask => attn.maskedFill mask inf : Py (Tensor α)) with
          | .error e => .error e
          | .ok attn =>
            match attn.lastAxis sm with
            | .error e => .error e
            | .ok attn =>
              match f "hblt,hbtv->hblv".toList [attn, v] with
              | .error e => .error e
              | .ok output =>
                match rearrange b so (.one output) "head b l v -> b l (head v)".toList [] with
                | .error e => .error e
                | .ok output => .ok (output, attn)

/-- `Self_Attn_Old.forward` (lines 1868-1876) from the outputs of the three convolutions to `out` and `attention`; `x` is the
input -/
def selfAttentionOld [CommSemiring α] (sm : List α → Nat → α) (x query key value : Tensor α) : Py (Tensor α × Tensor α) :=
  match x.shape with
  | [m_batchsize, C, width, height] =>
    match (query.view [m_batchsize, -1, (width * height : Nat)]).bind fun q => q.transpose [0, 2, 1] with
    | .error e => .error e
    | .ok proj_query =>
      match (key.view [m_batchsize, -1, (width * height : Nat)]).bind fun proj_key =>
          (proj_query.bmm proj_key).bind fun energy => energy.lastAxis sm with
      | .error e => .error e
      | .ok attention =>
        match (value.view [m_batchsize, -1, (width * height : Nat)]).bind fun proj_value =>
            (attention.transpose [0, 2, 1]).bind fun a =>
            (proj_value.bmm a).bind fun out => out.view [m_batchsize, C, width, height] with
        | .error e => .error e
        | .ok out => .ok (out, attention)
  | _ => .error .value

/-- `Self_Attn_New.forward` (lines 1899-1907), between the convolutions and the sum with `x` -/
def selfAttentionNew [CommSemiring α] [PyUnicode] (b : Backend α) (so : SetOrder) (sm : List α → Nat → α)
    (x query key value : Tensor α) : Py (Tensor α × Tensor α) :=
  match rearrange b so (.one query) "b c h w -> b (h w) c".toList [] with
  | .error e => .error e
  | .ok proj_query =>
    match rearrange b so (.one key) "b c h w -> b c (h w)".toList [] with
    | .error e => .error e
    | .ok proj_key =>
      match rearrange b so (.one value) "b c h w -> b (h w) c".toList [] with
      | .error e => .error e
      | .ok proj_value =>
        match (proj_query.bmm proj_key).bind fun energy => energy.lastAxis sm with
        | .error e => .error e
        | .ok attention =>
          match attention.bmm proj_value, parseShape x.shape "b c h w".toList with
          | .ok out, .ok sizes =>
            match rearrange b so (.one out) "b (h w) c -> b c h w".toList (sizes.map fun p => (p.1, ⟨p.2, true⟩)) with
            | .error e => .error e
            | .ok out => .ok (out, attention)
          | .error e, _ => .error e
          | _, .error e => .error e

end Einops
