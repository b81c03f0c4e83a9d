import Verif.Proofs.Strided
import Verif.Props.Examples
import Verif.EinsumRef

/-!
# C92: strided convolutions

The functions `convolve_strided_1d`, `convolve_strided_2d`, `shufflenet` and `unet_like_1d` of `test_rearrange_examples`
(einops/tests/test_examples.py:85-111) are tested with the identity in place of the convolution.  Here is what they compute for every
operation that treats the items of a batch alike and apart, and that with a convolution `convolve_strided_1d` is a dilated one.
-/

namespace Einops

universe u
variable {α : Type u}

section
variable [PyUnicode] {E : ElemOps α} {b : Backend α} {x : Tensor α} {conv : Tensor α → Py (Tensor α)}
  {Φ Ψ : (List Nat → Option α) → List Nat → Option α} {B C H W C' H' W' R S T : Nat}

/-- **C92** `convolve_strided_1d`: the two last axes are joined, and the operation is applied to the places `s`, `stride + s`,
`2 * stride + s`, … of every item, for each `s` apart. -/
theorem C92_one_dim (hb : Modelled E b) {stride : Nat} (hs : 0 < stride) (hx : x.shape = [B, C, H, W]) (hT : H * W = T * stride)
    (hc : ActsOnItems conv [C, T] [C', R] Φ) :
    ∃ y, (∀ so, strided1d b so x stride conv = .ok y) ∧ y.shape = [B, C', R * stride] ∧
      ∀ n c t s, n < B → c < C' → t < R → s < stride → y.at? [n, c, t * stride + s] =
        Φ (fun i => match i with
          | [e, v] => x.at? [n, e, (v * stride + s) / W, (v * stride + s) % W]
          | _ => none) [c, t] :=
  Strided.one_dim hb hs hx hT hc

/-- **C92** `convolve_strided_2d` -/
theorem C92_two_dim (hb : Modelled E b) (hR : 0 < R) (hS : 0 < S) (hx : x.shape = [B, C, H * R, W * S])
    (hc : ActsOnItems conv [C, H, W] [C', H', W'] Φ) :
    ∃ y, (∀ so, strided2d b so x R S conv = .ok y) ∧ y.shape = [B, C', H' * R, W' * S] ∧
      ∀ n c i j r s, n < B → c < C' → i < H' → j < W' → r < R → s < S → y.at? [n, c, i * R + r, j * S + s] =
        Φ (fun k => match k with
          | [e, u, v] => x.at? [n, e, u * R + r, v * S + s]
          | _ => none) [c, i, j] :=
  Strided.two_dim hb hR hS hx hc

/-- **C92** `shufflenet`: between the two operations, channel `q` of an item is channel `(q % c1) * c2 + q / c1` of what the first
operation returned. -/
theorem C92_shufflenet (hb : Modelled E b) {c1 c2 : Nat} {s s' : List Nat} (h1 : 0 < c1) (h2 : 0 < c2) (hx : x.shape = B :: s)
    (hc : ActsOnItems conv s [c1 * c2, H, W] Φ) (hc' : ActsOnItems conv [c2 * c1, H, W] s' Ψ) :
    ∃ y, (∀ so, shufflenet b so x conv c1 c2 = .ok y) ∧ y.shape = B :: s' ∧
      ∀ n i, n < B → inBounds i s' = true → y.at? (n :: i) =
        Ψ (fun k => match k with
          | [q, u, v] => if q < c2 * c1 ∧ u < H ∧ v < W then Φ (fun j => x.at? (n :: j)) [q % c1 * c2 + q / c1, u, v] else none
          | _ => none) i :=
  Strided.shuffled hb h1 h2 hx hc hc'

/-- **C92** `unet_like_1d`: the operation sees pairs of neighbours as channels, the first half of the channels being the even places;
what it returns is added to the joined axes. -/
theorem C92_unet [CommSemiring α] (hb : Modelled E b) (hx : x.shape = [B, C, H, W]) (hT : H * W = T * 2)
    (hc : ActsOnItems conv [2 * C, T] [2 * C, T] Φ) :
    ∃ y, (∀ so, unetLike b so x conv = .ok y) ∧ y.shape = [B, C, T * 2] ∧
      ∀ n c t d, n < B → c < C → t < T → d < 2 → y.at? [n, c, t * 2 + d] =
        some (entry x [n, c, (t * 2 + d) / W, (t * 2 + d) % W] + (Φ (fun i => match i with
          | [m, v] => if m < 2 * C ∧ v < T then x.at? [n, m % C, (v * 2 + m / C) / W, (v * 2 + m / C) % W] else none
          | _ => none) [d * C + c, t]).getD 0) :=
  Strided.unet hb hx hT hc

/-- **C92** With a convolution, `convolve_strided_1d` is the dilated convolution of the joined axes, with `stride` times the padding. -/
theorem C92_dilated [CommSemiring α] (hb : Modelled E b) (so : SetOrder) {K : Tensor α} {k pad stride : Nat} (hs : 0 < stride)
    (hx : x.shape = [B, C, H, W]) (hT : H * W = T * stride) (hK : K.shape = [C', C, k]) (hC : 0 < C) (hC' : 0 < C') (hk : 0 < k)
    (hT0 : 0 < T) (hl : k - 1 < T + 2 * pad) :
    ∃ y, strided1d b so x stride (Tensor.conv1d K pad 1) = .ok y ∧
      (rearrange b so (.one x) "b c t1 t2 -> b c (t1 t2)".toList []).bind (Tensor.conv1d K (pad * stride) stride) = .ok y ∧
      y.shape = [B, C', (T + 2 * pad - (k - 1)) * stride] :=
  Strided.dilated hb so hs hx hT hK hC hC' hk hT0 hl

/-- **C92** With a convolution, `convolve_strided_2d` is the dilated convolution. -/
theorem C92_dilated_2d [CommSemiring α] (hb : Modelled E b) (so : SetOrder) {K : Tensor α} {k l ph pw : Nat} (hR : 0 < R) (hS : 0 < S)
    (hx : x.shape = [B, C, H * R, W * S]) (hK : K.shape = [C', C, k, l]) (hC : 0 < C) (hC' : 0 < C') (hk : 0 < k) (hl : 0 < l)
    (hH : 0 < H) (hW : 0 < W) (h1 : k - 1 < H + 2 * ph) (h2 : l - 1 < W + 2 * pw) :
    ∃ y, strided2d b so x R S (Tensor.conv2d K ph pw 1 1) = .ok y ∧ Tensor.conv2d K (ph * R) (pw * S) R S x = .ok y ∧
      y.shape = [B, C', (H + 2 * ph - (k - 1)) * R, (W + 2 * pw - (l - 1)) * S] :=
  Strided.dilated2 hb so hR hS hx hK hC hC' hk hl hH hW h1 h2

omit [PyUnicode] in
/-- the mock of the test acts on the items of a batch -/
theorem mock_acts (s : List Nat) : ActsOnItems (α := α) (fun x => .ok x) s s (fun item i => item i) :=
  fun _ x hx => ⟨x, rfl, hx, fun _ _ _ _ => rfl⟩

/-- **C92** What the test samples: with the mock, `convolve_strided_2d` returns its input. -/
theorem C92_mock (hb : Modelled E b) (so : SetOrder) (hR : 0 < R) (hS : 0 < S) (hx : x.shape = [B, C, H * R, W * S]) :
    strided2d b so x R S (fun x => .ok x) = .ok x := by
  obtain ⟨y, h1, h2, h3⟩ := C92_two_dim hb hR hS hx (mock_acts [C, H, W])
  rw [h1]
  congr 1
  refine ext_four h2 hx fun n c i j hn hc hi hj => ?_
  have := h3 n c (i / R) (j / S) (i % R) (j % S) hn hc ((Nat.div_lt_iff_lt_mul hR).2 hi) ((Nat.div_lt_iff_lt_mul hS).2 hj)
    (Nat.mod_lt _ hR) (Nat.mod_lt _ hS)
  simpa [Nat.div_add_mod'] using this

end

section
attribute [local instance] asciiUnicode

/-- one item, one channel, six places -/
def stridedInput : Tensor Int := ⟨[1, 1, 2, 3], [1, 2, 3, 4, 5, 6], rfl⟩

/-- a kernel with two places -/
def stridedKernel : Tensor Int := ⟨[1, 1, 2], [10, 1], rfl⟩

example : strided1d (numpyBackend intOps true) idOrder stridedInput 2 (Tensor.conv1d stridedKernel 0 1) =
    .ok ⟨[1, 1, 4], [13, 24, 35, 46], rfl⟩ := by decide +kernel

example : (rearrange (numpyBackend intOps true) idOrder (.one stridedInput) "b c t1 t2 -> b c (t1 t2)".toList []).bind
    (Tensor.conv1d stridedKernel 0 2) = .ok ⟨[1, 1, 4], [13, 24, 35, 46], rfl⟩ := by decide +kernel

/-- without the stride the result is another one -/
example : (rearrange (numpyBackend intOps true) idOrder (.one stridedInput) "b c t1 t2 -> b c (t1 t2)".toList []).bind
    (Tensor.conv1d stridedKernel 0 1) = .ok ⟨[1, 1, 5], [12, 23, 34, 45, 56], rfl⟩ := by decide +kernel

/-- the hypotheses of `C92_dilated` for this case -/
example : stridedInput.shape = [1, 1, 2, 3] ∧ 2 * 3 = 3 * 2 ∧ stridedKernel.shape = [1, 1, 2] ∧ 2 - 1 < 3 + 2 * 0 := by decide

/-- a picture of two times four pixels, a kernel of one row with two places, padding of one column, and a stride of columns -/
example : strided2d (numpyBackend intOps true) idOrder ⟨[1, 1, 2, 4], [1, 2, 3, 4, 5, 6, 7, 8], rfl⟩ 1 2
    (Tensor.conv2d ⟨[1, 1, 1, 2], [10, 1], rfl⟩ 0 1 1 1) =
      .ok ⟨[1, 1, 2, 6], [1, 2, 13, 24, 30, 40, 5, 6, 57, 68, 70, 80], rfl⟩ ∧
    Tensor.conv2d (⟨[1, 1, 1, 2], [10, 1], rfl⟩ : Tensor Int) 0 2 1 2 ⟨[1, 1, 2, 4], [1, 2, 3, 4, 5, 6, 7, 8], rfl⟩ =
      .ok ⟨[1, 1, 2, 6], [1, 2, 13, 24, 30, 40, 5, 6, 57, 68, 70, 80], rfl⟩ := by decide +kernel

/-- an operation on channels: the first two channels are exchanged -/
example : unetLike (numpyBackend intOps true) idOrder ⟨[1, 1, 2, 2], [1, 2, 3, 4], rfl⟩
    (fun y => y.timesMatrix ⟨[2, 2], [0, 1, 1, 0], rfl⟩) = .ok ⟨[1, 1, 4], [4, 6, 4, 6], rfl⟩ := by decide +kernel

example : shufflenet (numpyBackend intOps true) idOrder ⟨[1, 6, 1, 1], [0, 1, 2, 3, 4, 5], rfl⟩ (fun x => .ok x) 2 3 =
    .ok ⟨[1, 6, 1, 1], [0, 3, 1, 4, 2, 5], rfl⟩ := by decide +kernel

example : strided2d (numpyBackend intOps true) idOrder ⟨[1, 1, 2, 4], [0, 1, 2, 3, 4, 5, 6, 7], rfl⟩ 2 2
    (fun x => .ok (x.map (· * 2))) = .ok ⟨[1, 1, 2, 4], [0, 2, 4, 6, 8, 10, 12, 14], rfl⟩ := by decide +kernel

end

end Einops
