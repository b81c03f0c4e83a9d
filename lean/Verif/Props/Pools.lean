import Verif.Proofs.Pools
import Verif.Props.Apart
import Verif.Props.Examples

/-!
# C95: the pooling programs of the examples

`test8` and `test9` of `test_rearrange_examples` (einops/tests/test_examples.py:57-69), for all sizes.
-/

namespace Einops

universe u

section
variable {α : Type u} [PyUnicode] [LE α] {E : ElemOps α} {b : Backend α} {x : Tensor α} {B C H W k l : Nat}

/-- **C95** `test8` with windows of any size: every element of the result is the largest of its window. -/
theorem C95_max_pool (hb : Computes E "max".toList b) (hmax : Largest (E.op "max".toList))
    (ht : ∀ vs, vs ≠ [] → ∃ v, E.op "max".toList vs = .ok v) (hk : 0 < k) (hl : 0 < l) (hx : x.shape = [B, C, H * k, W * l]) :
    ∃ y, (∀ so, maxPool b so x k l = .ok y) ∧ y.shape = [B, C, H, W] ∧ ∀ n c p r, n < B → c < C → p < H → r < W →
      ∃ v, y.at? [n, c, p, r] = some v ∧ (∃ i j, i < k ∧ j < l ∧ x.at? [n, c, p * k + i, r * l + j] = some v) ∧
        ∀ i j, i < k → j < l → ∃ a, x.at? [n, c, p * k + i, r * l + j] = some a ∧ a ≤ v :=
  Pools.pool_max hb hmax ht hk hl hx

/-- **C95** `test9`: the largest element of every channel of every picture, channels first. -/
theorem C95_global_max (hb : Computes E "max".toList b) (hmax : Largest (E.op "max".toList))
    (ht : ∀ vs, vs ≠ [] → ∃ v, E.op "max".toList vs = .ok v) (hH : 0 < H) (hW : 0 < W) (hx : x.shape = [B, C, H, W]) :
    ∃ y, (∀ so, globalMax b so x = .ok y) ∧ y.shape = [C, B] ∧ ∀ n c, n < B → c < C →
      ∃ v, y.at? [c, n] = some v ∧ (∃ i j, i < H ∧ j < W ∧ x.at? [n, c, i, j] = some v) ∧
        ∀ i j, i < H → j < W → ∃ a, x.at? [n, c, i, j] = some a ∧ a ≤ v :=
  Pools.global_max hb hmax ht hH hW hx

end

section
attribute [local instance] asciiUnicode

/-- the hypotheses hold for integers -/
example : Largest (intOps.op "max".toList) ∧ ∀ vs, vs ≠ [] → ∃ v, intOps.op "max".toList vs = .ok v := by
  refine ⟨largest_int, fun vs h => ?_⟩
  cases vs with
  | nil => exact absurd rfl h
  | cons a l => exact ⟨_, rfl⟩

/-- a picture of two rows and four columns -/
def poolInput : Tensor Int := ⟨[1, 1, 2, 4], [1, 7, -3, -5, 2, 4, -4, -9], rfl⟩

example : maxPool (numpyBackend intOps true) idOrder poolInput 2 2 = .ok ⟨[1, 1, 1, 2], [7, -3], rfl⟩ := by decide +kernel

example : maxPool (numpyBackend intOps true) idOrder poolInput 1 4 = .ok ⟨[1, 1, 2, 1], [7, 4], rfl⟩ := by decide +kernel

example : globalMax (numpyBackend intOps true) idOrder ⟨[2, 2, 1, 2], [1, 2, 4, 3, 5, 6, 8, 7], rfl⟩ = .ok ⟨[2, 2], [2, 6, 4, 8], rfl⟩ := by
  decide +kernel

/-- no columns: there is nothing to take the largest of -/
example : globalMax (numpyBackend intOps true) idOrder ⟨[1, 1, 2, 0], [], rfl⟩ = .error .backend := by decide +kernel

end

end Einops
