import Verif.Proofs.Pixels
import Verif.Props.Examples

/-!
# C93: operations on pixels

`test6` and `test7` of `test_rearrange_examples` (einops/tests/test_examples.py:40-55), for all sizes.
-/

namespace Einops

universe u

section
variable {α : Type u} [PyUnicode] {E : ElemOps α} {b : Backend α} {x : Tensor α} {op : Tensor α → Py (Tensor α)}
  {Φ : (List Nat → Option α) → List Nat → Option α} {B C C' H W : Nat}

/-- **C93** The program of `test6` with any operation on the rows of a matrix: it is applied to the channels of every pixel, the sizes
given by `parse_shape` put the pixels back, also when some are 0. -/
theorem C93_pixels (hb : Modelled E b) (hx : x.shape = [B, C, H, W]) (hop : ActsOnItems op [C] [C'] Φ) :
    ∃ y, (∀ so, pixelwise b so x op = .ok y) ∧ y.shape = [B, C', H, W] ∧
      ∀ n c i j, n < B → c < C' → i < H → j < W → y.at? [n, c, i, j] =
        Φ (fun k => match k with
          | [e] => x.at? [n, e, i, j]
          | _ => none) [c] :=
  Pixels.pixels hb hx hop

/-- **C93** What the test samples: with `t[:, ::2]` the result has the channels 0, 2, 4, … -/
theorem C93_even (hb : Modelled E b) (hx : x.shape = [B, C, H, W]) :
    ∃ y, (∀ so, pixelwise b so x Tensor.evenColumns = .ok y) ∧ y.shape = [B, (C + 1) / 2, H, W] ∧
      ∀ n c i j, n < B → c < (C + 1) / 2 → i < H → j < W → y.at? [n, c, i, j] = x.at? [n, c * 2, i, j] :=
  Pixels.pixels hb hx (Pixels.even_acts C)

/-- **C93** `test7`: neighbouring channels are added. -/
theorem C93_groups [CommSemiring α] (hb : Modelled E b) (hx : x.shape = [B, C * 2, H, W]) :
    ∃ y, (∀ so, twoGroups b so x = .ok y) ∧ y.shape = [B, C, H, W] ∧
      ∀ n c i j, n < B → c < C → i < H → j < W → y.at? [n, c, i, j] = some (entry x [n, c * 2, i, j] + entry x [n, c * 2 + 1, i, j]) :=
  Pixels.groups hb hx

end

section
attribute [local instance] asciiUnicode

/-- two pixels with four channels -/
def pixelInput : Tensor Int := ⟨[1, 4, 1, 2], [1, 2, 3, 4, 5, 6, 7, 8], rfl⟩

example : pixelwise (numpyBackend intOps true) idOrder pixelInput Tensor.evenColumns = .ok ⟨[1, 2, 1, 2], [1, 2, 5, 6], rfl⟩ := by
  decide +kernel

/-- a product with a matrix: the channels of every pixel are added -/
example : pixelwise (numpyBackend intOps true) idOrder pixelInput (fun t => t.timesMatrix ⟨[4, 1], [1, 1, 1, 1], rfl⟩) =
    .ok ⟨[1, 1, 1, 2], [16, 20], rfl⟩ := by decide +kernel

example : pixelwise (numpyBackend intOps true) idOrder ⟨[1, 4, 0, 2], [], rfl⟩ Tensor.evenColumns = .ok ⟨[1, 2, 0, 2], [], rfl⟩ := by
  decide +kernel

example : twoGroups (numpyBackend intOps true) idOrder pixelInput = .ok ⟨[1, 2, 1, 2], [4, 6, 12, 14], rfl⟩ := by decide +kernel

/-- an odd number of channels is refused -/
example : twoGroups (numpyBackend intOps true) idOrder ⟨[1, 3, 1, 1], [1, 2, 3], rfl⟩ = .error .einops := by decide +kernel

end

end Einops
