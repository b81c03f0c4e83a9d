import Verif.Proofs.TensorTrain
import Verif.EinsumRef
import Verif.Props.Examples

/-!
# C90: the tensor train

`tensor_train_example_numpy` (einops/tests/test_examples.py:153-191) asserts that its three ways have the same result; it runs on
ones only.  For all tensors with at least two dimensions and all cores that fit, the first way and the third way compute the
tensor train.  The second way does not: the assertion in line 182 holds for ones, and for cores of rank 1, and not in general.
-/

namespace Einops

universe u
variable {α : Type u} [CommSemiring α]

section
variable [PyUnicode] {E : ElemOps α} {b : Backend α} {f : Str → List (Tensor α) → Py (Tensor α)} {x : Tensor α} {es : List Nat}
  {Gs : List (Tensor α)}

omit [PyUnicode] in
/-- **C90** The einsum way computes the tensor train, as a flat tensor, for all tensors and cores that fit. -/
theorem C90_einsum (hf : EinsumLawful f) (hG : Cores 1 x.shape es Gs) :
    ∃ w, trainEinsum f x Gs = .ok w ∧ w.shape = [es.prod] ∧
      ∀ js, inBounds js es = true → w.at? [ravel es js] = some (trainFormula x Gs js) :=
  Train.einsum_way hf hG

/-- **C90** The way with dots has the same result for all tensors with two dimensions or more: the assertion of line 191. -/
theorem C90_dots (hf : EinsumLawful f) (hb : Modelled E b) (so : SetOrder) (hG : Cores 1 x.shape es Gs) (hn : 2 ≤ x.ndim) :
    trainDots b so x Gs = trainEinsum f x Gs :=
  Train.dots_way hf hb so hG hn

/-- **C90** The flat way has the same result when all ranks are 1 and no axis is empty.  (For other ranks the assertion of
line 182 is false, see `C90_flat_wrong`; empty axes are refused by `rearrange`, see `C90_flat_empty`.) -/
theorem C90_flat_rank_one (hf : EinsumLawful f) (hb : Modelled E b) (so : SetOrder) (hG : Cores 1 x.shape es Gs)
    (hr : ∀ G ∈ Gs, nth G.shape 2 = 1) (h0 : 0 ∉ x.shape ++ es) : trainFlat b so x Gs = trainEinsum f x Gs :=
  Train.flat_way hf hb so hG hr h0

end

section
attribute [local instance] asciiUnicode

/-- a matrix with one row -/
def trainInput : Tensor Int := ⟨[1, 2], [1, 3], rfl⟩

/-- cores of rank 2 -/
def trainCores : List (Tensor Int) := [⟨[1, 1, 1, 2], [1, 2], rfl⟩, ⟨[2, 1, 2, 1], [1, 3, 5, 7], rfl⟩]

theorem trainCores_fit : Cores 1 trainInput.shape [1, 1] trainCores :=
  .cons rfl (by decide) (.cons rfl (by decide) .nil)

/-- **C90** The full claim of line 182 is false: a tensor and cores of rank 2 that fit, other results. -/
theorem C90_flat_wrong : trainEinsum refEinsum trainInput trainCores = .ok ⟨[1], [64], rfl⟩ ∧
    trainDots (numpyBackend intOps true) idOrder trainInput trainCores = .ok ⟨[1], [64], rfl⟩ ∧
    trainFlat (numpyBackend intOps true) idOrder trainInput trainCores = .ok ⟨[1], [62], rfl⟩ := by
  refine ⟨?_, ?_, ?_⟩ <;> decide +kernel

/-- the formula at the only index of this result -/
example : trainFormula trainInput trainCores [0, 0] = 64 := by decide +kernel

/-- **C90** With an empty axis the flat way is a ZeroDivisionError. -/
theorem C90_flat_empty :
    Cores 1 [1, 0] [1, 1] ([⟨[1, 1, 1, 1], [1], rfl⟩, ⟨[0, 1, 1, 1], [], rfl⟩] : List (Tensor Int)) ∧
    trainEinsum (α := Int) refEinsum ⟨[1, 0], [], rfl⟩ [⟨[1, 1, 1, 1], [1], rfl⟩, ⟨[0, 1, 1, 1], [], rfl⟩] = .ok ⟨[1], [0], rfl⟩ ∧
    trainFlat (numpyBackend intOps true) idOrder ⟨[1, 0], [], rfl⟩ [⟨[1, 1, 1, 1], [1], rfl⟩, ⟨[0, 1, 1, 1], [], rfl⟩] =
      .error .zeroDivision :=
  ⟨.cons rfl (by decide) (.cons rfl (by decide) .nil), by decide +kernel, by decide +kernel⟩

/-- **C90** With one dimension the way with dots is refused, the others are not. -/
theorem C90_dots_vector :
    Cores 1 [2] [2] ([⟨[2, 2, 1, 1], [1, 2, 3, 4], rfl⟩] : List (Tensor Int)) ∧
    trainEinsum (α := Int) refEinsum ⟨[2], [1, 10], rfl⟩ [⟨[2, 2, 1, 1], [1, 2, 3, 4], rfl⟩] = .ok ⟨[2], [31, 42], rfl⟩ ∧
    trainFlat (numpyBackend intOps true) idOrder ⟨[2], [1, 10], rfl⟩ [⟨[2, 2, 1, 1], [1, 2, 3, 4], rfl⟩] = .ok ⟨[2], [31, 42], rfl⟩ ∧
    trainDots (numpyBackend intOps true) idOrder ⟨[2], [1, 10], rfl⟩ [⟨[2, 2, 1, 1], [1, 2, 3, 4], rfl⟩] = .error .einops :=
  ⟨.cons rfl (by decide) .nil, by decide +kernel, by decide +kernel, by decide +kernel⟩

-- three dimensions, cores of ranks 2 and 3, the second output longer than the input
example : Cores 1 [1, 2, 1] [1, 3, 1] ([⟨[1, 1, 1, 2], [1, 2], rfl⟩, ⟨[2, 3, 2, 3], (List.range 36).map (fun n => (n : Int)), rfl⟩,
    ⟨[1, 1, 3, 1], [1, -1, 2], rfl⟩] : List (Tensor Int)) :=
  .cons rfl (by decide) (.cons rfl (by decide) (.cons rfl (by decide) .nil))
-- the hypotheses of the part about the flat way
example : Cores 1 [2, 1] [1, 2] ([⟨[2, 1, 1, 1], [1, 2], rfl⟩, ⟨[1, 2, 1, 1], [5, 7], rfl⟩] : List (Tensor Int)) ∧
    trainFlat (numpyBackend intOps true) idOrder ⟨[2, 1], [1, 3], rfl⟩ [⟨[2, 1, 1, 1], [1, 2], rfl⟩, ⟨[1, 2, 1, 1], [5, 7], rfl⟩] =
      .ok ⟨[2], [35, 49], rfl⟩ :=
  ⟨.cons rfl (by decide) (.cons rfl (by decide) .nil), by decide +kernel⟩
-- the framework's einsum and the backend are as assumed
example : EinsumLawful (refEinsum (α := Int)) ∧ Modelled intOps (numpyBackend intOps true) := ⟨refEinsum_lawful, .numpy true⟩

end

end Einops
