import Verif.TorchProducts
import Verif.EinsumSpec
import Mathlib.Algebra.BigOperators.Group.Finset.Basic

/-!
# The tensor train of the examples

`tensor_train_example_numpy` (einops/tests/test_examples.py:153-191) multiplies a tensor by a matrix given by small tensors, its
cores, in three ways, and asserts that the results are equal.  The function runs on one tensor and one list of cores, all of
whose elements are 1.  Here are the three programs for all tensors and cores.
-/

namespace Einops

universe u
variable {α : Type u}

/-! ### Operations -/

/-- `y @ g` for a matrix `g` (numpy): the rows of the last axis of `y` are multiplied by `g`.  Anything else is an error. -/
def Tensor.timesMatrix [Mul α] [Add α] [Zero α] (y g : Tensor α) : Py (Tensor α) :=
  match g.shape with
  | [k, m] =>
    if y.ndim ≠ 0 ∧ nth y.shape (y.ndim - 1) = k then
      Tensor.build (y.shape.dropLast ++ [m]) (fun i =>
        match mapE (fun t => y.getE (i.dropLast ++ [t])) (List.range k), mapE (fun t => g.getE [t, nth i (y.ndim - 1)]) (List.range k) with
        | .ok r, .ok c => .ok (List.zipWith (· * ·) r c).sum
        | _, _ => .error .index)
    else .error .backend
  | _ => .error .backend

/-! ### Programs -/

/-- one round of "einsum way" (test_examples.py:168-171), `f` being `numpy.einsum`, which does not look at spaces -/
def trainEinsumStep (f : Str → List (Tensor α) → Py (Tensor α)) (G y : Tensor α) : Py (Tensor α) :=
  f "ijab,ai...->b...j".toList [G, y]

/-- "einsum way" (test_examples.py:166-172) -/
def trainEinsum (f : Str → List (Tensor α) → Py (Tensor α)) (x : Tensor α) (Gs : List (Tensor α)) : Py (Tensor α) :=
  (x.reshape (((1 :: x.shape : List Nat)).map Int.ofNat)).bind fun y =>
  (Gs.foldlM (fun y G => trainEinsumStep f G y) y).bind fun y =>
  y.reshape [-1]

section
variable [PyUnicode]

/-- `rearrange(G, "i j alpha beta -> (alpha i) (j beta)")` (test_examples.py:179, 189) -/
def coreMatrix (b : Backend α) (so : SetOrder) (G : Tensor α) : Py (Tensor α) :=
  rearrange b so (.one G) "i j alpha beta -> (alpha i) (j beta)".toList []

/-- one round of "alternative way" (test_examples.py:176-180) -/
def trainFlatStep [Mul α] [Add α] [Zero α] (b : Backend α) (so : SetOrder) (y G : Tensor α) : Py (Tensor α) :=
  match G.shape with
  | [i, j, alpha, beta] =>
    (rearrange b so (.one y) "(i rest alpha) -> rest (alpha i)".toList
      [("alpha".toList, ⟨alpha, true⟩), ("i".toList, ⟨i, true⟩)]).bind fun y =>
    (coreMatrix b so G).bind fun g =>
    (y.timesMatrix g).bind fun y =>
    rearrange b so (.one y) "rest (beta j) -> (beta rest j)".toList [("beta".toList, ⟨beta, true⟩), ("j".toList, ⟨j, true⟩)]
  | _ => .error .value

/-- "alternative way" (test_examples.py:174-181) -/
def trainFlat [Mul α] [Add α] [Zero α] (b : Backend α) (so : SetOrder) (x : Tensor α) (Gs : List (Tensor α)) : Py (Tensor α) :=
  (x.reshape [-1]).bind fun y => Gs.foldlM (trainFlatStep b so) y

/-- one round of "yet another way" (test_examples.py:186-189) -/
def trainDotsStep [Mul α] [Add α] [Zero α] (b : Backend α) (so : SetOrder) (y G : Tensor α) : Py (Tensor α) :=
  match G.shape with
  | [i, _, alpha, _] =>
    (rearrange b so (.one y) "i ... (j alpha) -> ... j (alpha i)".toList
      [("alpha".toList, ⟨alpha, true⟩), ("i".toList, ⟨i, true⟩)]).bind fun y =>
    (coreMatrix b so G).bind fun g =>
    y.timesMatrix g
  | _ => .error .value

/-- "yet another way" (test_examples.py:184-190) -/
def trainDots [Mul α] [Add α] [Zero α] (b : Backend α) (so : SetOrder) (x : Tensor α) (Gs : List (Tensor α)) : Py (Tensor α) :=
  (Gs.foldlM (trainDotsStep b so) x).bind fun y => y.reshape [-1]

end

/-! ### Specification -/

/-- Cores for inputs of lengths `ds` and outputs of lengths `es`, the first of rank `r`, the last one giving rank 1: the ranks of
neighbours fit and are not 0. -/
inductive Cores : Nat → List Nat → List Nat → List (Tensor α) → Prop
  | nil : Cores 1 [] [] []
  | cons {d e r r' : Nat} {ds es : List Nat} {G : Tensor α} {Gs : List (Tensor α)} :
      G.shape = [d, e, r, r'] → 0 < r → Cores r' ds es Gs → Cores r (d :: ds) (e :: es) (G :: Gs)

/-- sum over all multi-indices -/
def pathSum [AddCommMonoid α] : List Nat → (List Nat → α) → α
  | [], F => F []
  | d :: ds, F => ∑ i ∈ Finset.range d, pathSum ds (fun is => F (i :: is))

/-- Element number `a` of the only column of the product of matrices `G₁[i₁, j₁] ⋯ Gₙ[iₙ, jₙ]`. -/
def coreProduct [CommSemiring α] : List (Tensor α) → List Nat → List Nat → Nat → α
  | G :: Gs, i :: is, j :: js, a => ∑ b ∈ Finset.range (nth G.shape 3), entry G [i, j, a, b] * coreProduct Gs is js b
  | _, _, _, _ => 1

/-- The tensor train (https://arxiv.org/pdf/1509.06569.pdf, formula 5): at the multi-index `js`, the sum over the multi-indices
`is` of the element of `x` and the product of the matrices. -/
def trainFormula [CommSemiring α] (x : Tensor α) (Gs : List (Tensor α)) (js : List Nat) : α :=
  pathSum x.shape (fun is => entry x is * coreProduct Gs is js 0)

end Einops
