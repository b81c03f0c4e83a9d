import Verif.Proofs.Lists
import Verif.Props.Examples

/-!
# C94: a tensor and the list of its items

`einops.reduce` on `list(x)` (einops/einops.py:521-527) and the programs `test10` and `test11` of the examples
(einops/tests/test_examples.py:71-83), for all sizes.
-/

namespace Einops

universe u

section
variable {α : Type u} [PyUnicode] {E : ElemOps α} {b : Backend α} {x : Tensor α} {B C H W n : Nat} {s : List Nat}

/-- **C94** Cutting a tensor into its items makes no difference: every call on `list(x)` gives what it gives on `x`, failures included, for
every `x` with at least one item. -/
theorem C94_list (hb : Modelled E b) (hx : x.shape = n :: s) (hn : 0 < n) :
    ∃ xs, x.items = .ok xs ∧ xs.length = n ∧ ∀ so q red kw, reduce b so (.many xs) q red kw = reduce b so (.one x) q red kw :=
  Lists.list_same hb hx hn

/-- **C94** Without items the list is empty, and every call on it is a TypeError, whatever the call on `x` does. -/
theorem C94_no_items (hx : x.shape = 0 :: s) :
    x.items = .ok [] ∧ ∀ so q red kw, reduce b so (.many []) q red kw = .error .type := by
  refine ⟨?_, fun so q red kw => rfl⟩
  unfold Tensor.items
  rw [hx]
  rfl

/-- **C94** `test10`: the items are stacked along the first axis, channels come last. -/
theorem C94_stack (hb : Modelled E b) (hx : x.shape = [B, C, H, W]) (hB : 0 < B) :
    ∃ y, (∀ so, stackItems b so x = .ok y) ∧ y.shape = [B, H, W, C] ∧
      ∀ n c i j, n < B → c < C → i < H → j < W → y.at? [n, i, j, c] = x.at? [n, c, i, j] := by
  obtain ⟨xs, h1, -, h2⟩ := Lists.list_same hb hx hB
  obtain ⟨y, y1, y2⟩ := Lists.last_moves hb hx
  refine ⟨y, fun so => ?_, y2⟩
  unfold stackItems
  rw [h1, Strided.ok_bind, rearrange, h2]
  exact y1 so

/-- **C94** `test11`: the items are put side by side. -/
theorem C94_concat (hb : Modelled E b) (hx : x.shape = [B, C, H, W]) (hB : 0 < B) :
    ∃ y, (∀ so, concatItems b so x = .ok y) ∧ y.shape = [H, B * W, C] ∧
      ∀ n c i j, n < B → c < C → i < H → j < W → y.at? [i, n * W + j, c] = x.at? [n, c, i, j] := by
  obtain ⟨xs, h1, -, h2⟩ := Lists.list_same hb hx hB
  obtain ⟨y, y1, y2⟩ := Lists.wide_moves hb hx
  refine ⟨y, fun so => ?_, y2⟩
  unfold concatItems
  rw [h1, Strided.ok_bind, rearrange, h2]
  exact y1 so

end

section
attribute [local instance] asciiUnicode

/-- two pictures of one row and two columns with two channels -/
def listInput : Tensor Int := ⟨[2, 2, 1, 2], [1, 2, 3, 4, 5, 6, 7, 8], rfl⟩

example : listInput.items = .ok [⟨[2, 1, 2], [1, 2, 3, 4], rfl⟩, ⟨[2, 1, 2], [5, 6, 7, 8], rfl⟩] := by decide +kernel

example : stackItems (numpyBackend intOps true) idOrder listInput = .ok ⟨[2, 1, 2, 2], [1, 3, 2, 4, 5, 7, 6, 8], rfl⟩ := by decide +kernel

example : concatItems (numpyBackend intOps true) idOrder listInput = .ok ⟨[1, 4, 2], [1, 3, 2, 4, 5, 7, 6, 8], rfl⟩ := by decide +kernel

/-- no pictures: the tensor is accepted, the list is not -/
example : rearrange (numpyBackend intOps true) idOrder (.one ⟨[0, 2, 1, 2], [], rfl⟩) "b c h w -> h (b w) c".toList [] =
      .ok ⟨[1, 0, 2], [], rfl⟩ ∧
    concatItems (numpyBackend intOps true) idOrder ⟨[0, 2, 1, 2], [], rfl⟩ = .error .type := by decide +kernel

end

end Einops
