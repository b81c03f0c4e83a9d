import Verif.Spec

/-!
# Specification: when two patterns do the same
-/

namespace Einops

universe u
variable {α : Type u}

/-- The axis is in dimension `j`, and `w` is the product of the lengths of the axes after it in this dimension: how far
apart neighbours along the axis are. -/
def PlacedAt (len : AxisMap) (R : List (List Axis)) (a : Axis) (j w : Nat) : Prop :=
  ∃ g h, R[j]? = some (g ++ a :: h) ∧ w = groupSize len h

/-- The reduction tells sets of elements of the list apart.  (Sums do for different powers of two, products for different
primes.) -/
def TellsSets (op : List α → Py α) (l : List α) : Prop :=
  ∀ vs ws v, vs.Nodup → ws.Nodup → (∀ a ∈ vs, a ∈ l) → (∀ a ∈ ws, a ∈ l) → op vs = .ok v → op ws = .ok v →
    ∀ a ∈ vs, a ∈ ws

/-- the reduction gives the largest element -/
def Largest [LE α] (op : List α → Py α) : Prop := ∀ vs v, op vs = .ok v → v ∈ vs ∧ ∀ a ∈ vs, a ≤ v

/-- the reduction gives the smallest element -/
def Smallest [LE α] (op : List α → Py α) : Prop := ∀ vs v, op vs = .ok v → v ∈ vs ∧ ∀ a ∈ vs, v ≤ a

end Einops
