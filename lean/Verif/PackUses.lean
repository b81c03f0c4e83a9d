import Verif.PackSpec

/-!
# Programs of the tutorial on `pack` and `unpack`

docs/4-pack-and-unpack.ipynb: a model is applied to packed inputs and its output is unpacked.
-/

namespace Einops

universe u

variable {α β : Type u}

/-- `packed, ps = pack(xs, p); return unpack(model(packed), ps, p')`: the cells "Auto-batching" (with one tensor), "Class
token in VIT", "Packing data coming from different sources together". -/
def throughModel [PyUnicode] (ops : PackOps α) (ops' : PackOps β) (model : Tensor α → Py (Tensor β)) (p p' : Str)
    (xs : List (Tensor α)) : Py (List (Tensor β)) :=
  match pack ops xs p with
  | .error e => .error e
  | .ok (packed, ps) =>
    match model packed with
    | .error e => .error e
    | .ok out => unpack ops' out (ps.map fun r => r.map Int.ofNat) p'

/-- `universal_predict(x)`, the cell "Auto-batching": `[predictions] = unpack(...)` raises ValueError unless there is one
tensor. -/
def universalPredict [PyUnicode] (ops : PackOps α) (ops' : PackOps β) (model : Tensor α → Py (Tensor β)) (p p' : Str)
    (x : Tensor α) : Py (Tensor β) :=
  match throughModel ops ops' model p p' [x] with
  | .error e => .error e
  | .ok [y] => .ok y
  | .ok _ => .error .value

/-- The model handles each item of a batch on its own: for a batch of items of shape `item` it returns as many items of
shape `out`, and the entries of the n-th one are `g` of the entries of the n-th item of the input. -/
def PerItem (model : Tensor α → Py (Tensor β)) (item out : List Nat) (g : (List Nat → Option α) → List Nat → Option β) : Prop :=
  ∀ (N : Nat) (x : Tensor α), x.shape = N :: item → ∃ y, model x = .ok y ∧ y.shape = N :: out ∧
    ∀ n k, n < N → inBounds k out = true → y.at? (n :: k) = g (fun i => x.at? (n :: i)) k

end Einops
