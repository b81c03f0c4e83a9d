import Verif.Proofs.Optimize

/-!
# Properties of the transformation optimiser (C36, C37)
-/

namespace Einops

universe u

variable {α : Type u}

theorem optimize_flat {p q : MovePlan} (h : p.Valid) (hq : optimizeTransformation p = .ok q) (op : List α → Py α)
    (x : Tensor α) :
    (runMoves op q.initShapes q.reducedAxes q.axesReordering x).map Tensor.data =
      (runMoves op p.initShapes p.reducedAxes p.axesReordering x).map Tensor.data := by
  obtain ⟨q', h1, _, h3, _⟩ := optimize_spec h
  rw [hq] at h1; cases h1
  rw [h3.run op x, runMoves_perm op _ _ x (List.perm_insertionSort (· ≤ ·) p.reducedAxes)]

/-- C36: for every valid plan the optimiser succeeds, and for every tensor, every element type and every reduction — even
one that depends on the order of the elements, or fails for some — the optimised plan gives the same sequence of elements
(or the same failure), and with the final reshape the same tensor. -/
theorem C36_same_elements (p : MovePlan) (h : p.Valid) :
    ∃ q, optimizeTransformation p = .ok q ∧ q.Valid ∧ q.finalShapes = p.finalShapes ∧
      ∀ (α : Type u) (op : List α → Py α) (x : Tensor α), q.flat op x = p.flat op x ∧ q.apply op x = p.apply op x := by
  obtain ⟨q, h1, h2, h3, h4⟩ := optimize_spec h
  refine ⟨q, h1, h3.wf.valid, h2, fun α op x => ?_⟩
  have hf := optimize_flat h h1 op x
  unfold MovePlan.flat MovePlan.apply
  cases hp : runMoves op p.initShapes p.reducedAxes p.axesReordering x with
  | error e =>
    cases hq : runMoves op q.initShapes q.reducedAxes q.axesReordering x with
    | error e' => rw [hp, hq] at hf; simp [Except.map] at hf; simp [hf]
    | ok y' => rw [hp, hq] at hf; simp [Except.map] at hf
  | ok y =>
    cases hq : runMoves op q.initShapes q.reducedAxes q.axesReordering x with
    | error e' => rw [hp, hq] at hf; simp [Except.map] at hf
    | ok y' =>
      rw [hp, hq] at hf
      simp only [Except.map, Except.ok.injEq] at hf
      simp only [hf, true_and]
      rw [h2]
      exact reshape_congr hf _

/-- C36: the optimiser never adds axes. -/
theorem C36_not_longer (p q : MovePlan) (h : p.Valid) (hq : optimizeTransformation p = .ok q) :
    q.initShapes.length ≤ p.initShapes.length := by
  obtain ⟨q', h1, _, h3, _⟩ := optimize_spec h
  rw [hq] at h1; cases h1
  have key : ∀ {i r o i' r' o' : List Nat}, Joins i r o i' r' o' → i'.length ≤ i.length := by
    intro i r o i' r' o' j
    induction j with
    | refl => exact le_rfl
    | step j m w ih =>
      obtain ⟨S, a, b, T, _, e1, e2⟩ := m.init
      rw [e1] at ih; rw [e2]
      simp only [List.length_append, List.length_cons] at ih ⊢
      omega
  exact key h3

/-- C36: a plan whose orders and reduced axes do not add up is refused. -/
theorem C36_refused (p : MovePlan) (h : p.axesReordering.length + p.reducedAxes.length ≠ p.initShapes.length) :
    optimizeTransformation p = .error .assertion := by
  unfold optimizeTransformation; rw [if_pos h]

/-- C37: optimising an optimised plan returns it unchanged. -/
theorem C37_idempotent (p q : MovePlan) (h : p.Valid) (hq : optimizeTransformation p = .ok q) :
    optimizeTransformation q = .ok q := by
  obtain ⟨q', h1, _, h3, h4⟩ := optimize_spec h
  rw [hq] at h1; cases h1
  exact optimize_settled h3.wf h4

/-- C37: in an optimised plan no two neighbouring axes are both reduced, and of two neighbouring kept axes the second does
not directly follow the first in the result. -/
theorem C37_nothing_left (p q : MovePlan) (h : p.Valid) (hq : optimizeTransformation p = .ok q) :
    (∀ a ∈ q.reducedAxes, a + 1 ∉ q.reducedAxes) ∧
      ∀ a, a + 1 < q.initShapes.length → a ∉ q.reducedAxes → a + 1 ∉ q.reducedAxes →
        ∀ P Q, q.axesReordering ≠
          P ++ ((List.range a).filter (fun x => x ∉ q.reducedAxes)).length ::
            ((List.range (a + 1)).filter (fun x => x ∉ q.reducedAxes)).length :: Q := by
  obtain ⟨q', h1, _, h3, h4⟩ := optimize_spec h
  rw [hq] at h1; cases h1
  refine ⟨h4.lonely, fun a ha h5 h6 P Q he => h4.apart a ha h5 h6 ⟨P, Q, ?_⟩⟩
  have := rankOf_succ q.reducedAxes a
  rw [if_neg h5] at this
  rw [he]
  show P ++ rankOf q.reducedAxes a :: rankOf q.reducedAxes (a + 1) :: Q = _
  rw [this]

/-! ### Examples -/

section Examples

/-- a b c d e f with c, d reduced and the rest in order e f a b -/
def plan6 : MovePlan := ⟨[2, 3, 2, 2, 1, 2], [3, 2], [2, 3, 0, 1], [12]⟩

theorem plan6_valid : plan6.Valid := ⟨by decide, by decide, by decide⟩

example : optimizeTransformation plan6 = .ok ⟨[6, 4, 2], [1], [1, 0], [12]⟩ := by rfl

example : optimizeTransformation ⟨[6, 4, 2], [1], [1, 0], [12]⟩ = .ok ⟨[6, 4, 2], [1], [1, 0], [12]⟩ := by rfl

/-- the first of the reduced elements: depends on the order of the elements -/
def firstOp (l : List Nat) : Py Nat := match l with | [] => .error .value | a :: _ => .ok a

def iota48 : Tensor Nat := ⟨[48], List.range 48, by decide⟩

example : plan6.flat firstOp iota48 = .ok [0, 8, 16, 24, 32, 40, 1, 9, 17, 25, 33, 41] := by rfl

-- with the final reshape
example : ({ plan6 with finalShapes := [2, 6] } : MovePlan).apply firstOp iota48 =
    .ok ⟨[2, 6], [0, 8, 16, 24, 32, 40, 1, 9, 17, 25, 33, 41], by decide⟩ := by rfl

/-- a plan that does not fit the tensor fails before and after -/
example : plan6.flat firstOp ⟨[2], [0, 1], by decide⟩ = .error .backend := by rfl

example : optimizeTransformation ⟨[2, 3], [0], [1, 0], []⟩ = .error .assertion := by rfl

end Examples

end Einops
