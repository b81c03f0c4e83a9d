import Verif.Legal

/-!
# Which operations of the framework a call needs
-/

namespace Einops

universe u
variable {α : Type u}

/-- an operation of the framework -/
inductive Step
  /-- change the shape -/
  | reshape (shape : List Nat)
  /-- permute the dimensions -/
  | transpose (axes : List Nat)
  /-- reduce over dimensions -/
  | reduce (axes : List Nat)
  /-- insert dimensions: number of dimensions afterwards, place and length of the new ones -/
  | addAxes (n : Nat) (lengths : List (Nat × Nat))
  deriving DecidableEq

/-- calling the operation; a mean is refused for tensors that do not contain floating-point numbers -/
def Step.run (b : Backend α) (red : Reduction α) : Step → Tensor α → Py (Tensor α)
  | .reshape s, x => b.reshape x (s.map Int.ofNat)
  | .transpose p, x => b.transpose x p
  | .reduce axes, x =>
    match red with
    | .callable f => f x axes
    | .name s => if s = "mean".toList ∧ b.isFloat x = false then .error .notImplemented else b.reduce s x axes
  | .addAxes n l, x => b.addAxes x n (l.map (fun p => (p.1, Int.ofNat p.2)))

/-- calling operations one after the other -/
def runSteps (b : Backend α) (red : Reduction α) : List Step → Tensor α → Py (Tensor α)
  | [], x => .ok x
  | s :: ss, x => (s.run b red x).bind (runSteps b red ss)

/-- the step, if it is needed -/
def when (p : Prop) [Decidable p] (s : Step) : List Step := if p then [s] else []

/-- axes of the left side that are kept, in the order of the right side -/
def keptOf (L R : List (List Axis)) : List Axis := R.flatten.filter (fun a => a ∈ L.flatten)

/-- axes of the left side that are dropped -/
def droppedOf (L R : List (List Axis)) : List Axis := L.flatten.filter (fun a => a ∉ R.flatten)

/-- places and lengths of the axes of the right side that are new -/
def newOf (len : AxisMap) (L R : List (List Axis)) : List (Nat × Nat) :=
  (R.flatten.zipIdx.filter (fun p => p.1 ∉ L.flatten)).map (fun p => (p.2, len p.1))

/-- The operations that a pattern needs: split the dimensions that are several axes, bring the kept axes into the order of
the right side and the dropped ones to the end, reduce over the dropped ones, insert the new ones, join the dimensions
that are several axes; none of these if there is nothing to do. -/
def stepsOf (len : AxisMap) (L R : List (List Axis)) : List Step :=
  when (∃ g ∈ L, g.length ≠ 1) (.reshape (L.flatten.map len)) ++
  when (keptOf L R ++ droppedOf L R ≠ L.flatten)
    (.transpose ((keptOf L R ++ droppedOf L R).map (fun a => L.flatten.idxOf a))) ++
  when (droppedOf L R ≠ []) (.reduce (List.range' (keptOf L R).length (droppedOf L R).length)) ++
  when (∃ a ∈ R.flatten, a ∉ L.flatten) (.addAxes R.flatten.length (newOf len L R)) ++
  when (∃ g ∈ R, g.length ≠ 1) (.reshape (R.map (groupSize len)))

end Einops
