import Verif.Proofs.Symbolic
import Verif.Props.Examples

/-!
# Symbolic sizes
-/

namespace Einops

universe u

/-! ### C33 -/

/-- **C33** Replacing any dimensions and keyword sizes by symbols of the same value (`Size.Hides`) changes nothing in the
cooked recipe, provided the call with ints was accepted. -/
theorem C33_symbolic {r : TransformRecipe} {shape shape' : List Size} {kw kw' : List (Str × Size)} {c : CookedRecipe}
    (hs : List.Forall₂ Size.Hides shape shape') (hk : List.Forall₂ (fun p q => p.1 = q.1 ∧ Size.Hides p.2 q.2) kw kw')
    (h : reconstruct r shape kw = .ok c) : ∃ c', reconstruct r shape' kw' = .ok c' ∧ c.SameValues c' :=
  reconstruct_hides hs hk h

/-- **C33** ... and the tensor computed is the same: `shape'` is what the framework reports for the shape of `x`. -/
theorem C33_symbolic_call {α : Type u} (b : Backend α) {r : TransformRecipe} {x y : Tensor α} {red : Reduction α}
    {kw kw' : List (Str × Size)} {shape' : List Size} (hs : List.Forall₂ Size.Hides (x.shape.map Size.ofNat) shape')
    (hk : List.Forall₂ (fun p q => p.1 = q.1 ∧ Size.Hides p.2 q.2) kw kw') (h : applyRecipe b r x red kw = .ok y) :
    ∃ c', reconstruct r shape' kw' = .ok c' ∧ applyCooked b c' x red = .ok y := by
  unfold applyRecipe at h
  cases hc : reconstruct r (x.shape.map Size.ofNat) kw with
  | error e => rw [hc] at h; cases h
  | ok c =>
    rw [hc] at h
    obtain ⟨c', h1, h2⟩ := reconstruct_hides hs hk hc
    exact ⟨c', h1, by rw [← h]; exact (applyStages_values h2 x).symm⟩

section
attribute [local instance] asciiUnicode

/-- a symbol with value `n` -/
def sym (n : Int) : Size := ⟨n, false⟩

-- the first dimension and the size of "a" are symbols; the length of "b" is then a symbol with value 2
example : (prepareRecipe idOrder "(a b) c -> b (c a)".toList (.name "rearrange".toList) ["a".toList] 2).bind
      (fun r => reconstruct r [sym 4, Size.ofNat 3] [("a".toList, sym 2)]) =
    .ok ⟨some [sym 2, sym 2, Size.ofNat 3], some [1, 2, 0], [], [], some [sym 2, sym 6], 3⟩ := by rfl
example : (prepareRecipe idOrder "(a b) c -> b (c a)".toList (.name "rearrange".toList) ["a".toList] 2).bind
      (fun r => reconstruct r [Size.ofNat 4, Size.ofNat 3] [("a".toList, Size.ofNat 2)]) =
    .ok ⟨some [Size.ofNat 2, Size.ofNat 2, Size.ofNat 3], some [1, 2, 0], [], [], some [Size.ofNat 2, Size.ofNat 6], 3⟩ := by rfl
example : List.Forall₂ Size.Hides [Size.ofNat 4, Size.ofNat 3] [sym 4, Size.ofNat 3] := by
  refine .cons ⟨rfl, fun h => by cases h⟩ (.cons (.refl _) .nil)

/-- The converse fails: a symbol of the wrong value is accepted here (frameworks complain later, when they do). -/
theorem C33_unchecked :
    (prepareRecipe idOrder "a -> a".toList (.name "rearrange".toList) ["a".toList] 1).bind
      (fun r => reconstruct r [Size.ofNat 6] [("a".toList, sym 4)]) = .ok ⟨none, none, [], [], none, 1⟩ ∧
    (prepareRecipe idOrder "a -> a".toList (.name "rearrange".toList) ["a".toList] 1).bind
      (fun r => reconstruct r [Size.ofNat 6] [("a".toList, Size.ofNat 4)]) = .error .einops := by
  constructor <;> rfl

end

end Einops
