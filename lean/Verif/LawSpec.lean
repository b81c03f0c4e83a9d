import Verif.Legal
import Verif.Packing

/-!
# Notions used to state laws relating several calls
-/

namespace Einops

universe u
variable {α β : Type u}

/-- apply a function to every element -/
def Tensor.map (f : α → β) (x : Tensor α) : Tensor β := ⟨x.shape, x.data.map f, by rw [List.length_map, x.wf]⟩

/-- apply a function to every element of the tensor or of all tensors in the list -/
def Input.map (f : α → β) : Input α → Input β
  | .one x => .one (x.map f)
  | .many xs => .many (xs.map (Tensor.map f))

/-- combine two tensors of the same shape element by element -/
def Tensor.zipWith {γ : Type u} (f : α → β → γ) (x : Tensor α) (y : Tensor β) (h : y.shape = x.shape) : Tensor γ :=
  ⟨x.shape, List.zipWith f x.data y.data, by rw [List.length_zipWith, x.wf, y.wf, h, Nat.min_self]⟩

/-- The same backend, once for tensors of `α` and once for tensors of `β`; both kinds of tensors are floating or both are
not. -/
inductive SameBackend (E : ElemOps α) (E' : ElemOps β) : Backend α → Backend β → Prop
  | numpy (fl : Bool) : SameBackend E E' (numpyBackend E fl) (numpyBackend E' fl)
  | torch (fl : Bool) : SameBackend E E' (torchBackend E fl) (torchBackend E' fl)
  | oneflow (fl : Bool) : SameBackend E E' (oneflowBackend E fl) (oneflowBackend E' fl)
  | paddle (fl : Bool) : SameBackend E E' (paddleBackend E fl) (paddleBackend E' fl)
  | tinygrad (fl : Bool) : SameBackend E E' (tinygradBackend E fl) (tinygradBackend E' fl)
  | arrayApi : SameBackend E E' (arrayApiBackend E) (arrayApiBackend E')

/-- the modelled frameworks -/
inductive Framework
  | numpy | torch | oneflow | paddle | tinygrad | arrayApi

/-- the backend of a framework, for elements with the reductions `E`, floating or not -/
def Framework.backend (E : ElemOps α) (fl : Bool) : Framework → Backend α
  | .numpy => numpyBackend E fl
  | .torch => torchBackend E fl
  | .oneflow => oneflowBackend E fl
  | .paddle => paddleBackend E fl
  | .tinygrad => tinygradBackend E fl
  | .arrayApi => arrayApiBackend E

/-- The reductions commute with `f`: reducing images of elements gives the image of the reduced elements (or both fail
in the same way).  Nothing is asked for `rearrange` and `repeat`. -/
inductive Commutes (f : α → β) (E : ElemOps α) (E' : ElemOps β) : Reduction α → Reduction β → Prop
  | move (o : Str) : o ∉ builtins → Commutes f E E' (.name o) (.name o)
  | name (o : Str) : (∀ vs, E'.op o (vs.map f) = (E.op o vs).map f) → Commutes f E E' (.name o) (.name o)
  | callable (g : Tensor α → List Nat → Py (Tensor α)) (g' : Tensor β → List Nat → Py (Tensor β)) :
      (∀ x axes, g' (x.map f) axes = (g x axes).map (Tensor.map f)) → Commutes f E E' (.callable g) (.callable g')

end Einops
