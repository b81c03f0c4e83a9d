import Verif.Packing
import Verif.StepSpec
import Verif.LawSpec

/-!
# Memory: which results are views

The docstrings promise views: "If possible, a view to the original tensor is returned" (`rearrange` einops.py:597,
`repeat` einops.py:647), "If framework supports views, results are views to the original tensor" (`unpack`
packing.py:113).  einops itself does nothing about memory; it calls `reshape`, `transpose`, `add_axes`, slices and so on.
So memory is in the elements here: the model of the operations is the one of the other files, run on tensors whose
elements are places in memory.
-/

namespace Einops

/-- A place in memory: an address, and whether it is in memory allocated during the call.  The addresses of copies are
those of the originals, they only say which element it was. -/
structure Cell where
  addr : Int
  copied : Bool
  deriving DecidableEq

/-- the copy of an element -/
def Cell.copy (c : Cell) : Cell := ⟨c.addr, true⟩

/-- steps through memory: coordinates times strides -/
def offset (i : List Nat) (strides : List Int) : Int := (List.zipWith (fun (k : Nat) s => (k : Int) * s) i strides).sum

/-- The tensor is a view of the original memory: there are a start and a stride for every dimension. -/
def IsView (x : Tensor Cell) : Prop :=
  ∃ (start : Int) (strides : List Int), strides.length = x.shape.length ∧
    ∀ i, inBounds i x.shape = true → x.at? i = some ⟨start + offset i strides, false⟩

/-- a copy of a tensor -/
def copyOf (x : Tensor Cell) : Tensor Cell := x.map Cell.copy

open Classical in
/-- "a view if possible; otherwise, a copy" (documentation of `numpy.reshape`, `torch.reshape`) -/
noncomputable def asView (x : Tensor Cell) : Tensor Cell := if IsView x then x else copyOf x

/-- A framework with views: reshaping gives a view if there is one, transposition gives a view, results of reductions and
stacked tensors are new memory.  New axes are views if `add_axes` is `expand` (torch, _backends.py:263-268), not if it is
`tile` (numpy, _backends.py:107-112, which "always makes a copy"). -/
noncomputable def Backend.withViews (b : Backend Cell) (expands : Bool) : Backend Cell where
  isFloat := b.isFloat
  reshape x s := (b.reshape x s).map asView
  transpose := b.transpose
  reduce o x axes := (b.reduce o x axes).map copyOf
  addAxes x n l := if expands then b.addAxes x n l else (b.addAxes x n l).map copyOf
  stack xs := (b.stack xs).map copyOf

/-- numpy (_backends.py:157-193) -/
noncomputable def numpyViews (E : ElemOps Cell) (fl : Bool) : Backend Cell := (numpyBackend E fl).withViews false

/-- torch (_backends.py:214-288) -/
noncomputable def torchViews (E : ElemOps Cell) (fl : Bool) : Backend Cell := (torchBackend E fl).withViews true

/-- the operations of `pack` and `unpack`: slices are views, concatenation copies -/
noncomputable def PackOps.withViews (ops : PackOps Cell) : PackOps Cell where
  reshape x s := (ops.reshape x s).map asView
  concat xs axis := (ops.concat xs axis).map copyOf
  slice := ops.slice

/-! ### Specification: which results are views -/

/-- the elements of `x`, whose dimensions are the groups `gs`, lie in memory with these strides of the axes -/
def Lies (x : Tensor Cell) (gs : List (List Axis)) (len : AxisMap) (start : Int) (st : Axis → Int) : Prop :=
  ∀ env, InRange len gs.flatten env →
    x.atAxes gs len env = some ⟨start + (gs.flatten.map (fun a => (env a : Int) * st a)).sum, false⟩

/-- the elements lie one after the other, in C order -/
def Contiguous (x : Tensor Cell) : Prop :=
  ∃ start : Int, ∀ i, inBounds i x.shape = true → x.at? i = some ⟨start + ravel x.shape i, false⟩

/-- the axes that are not of length 1 -/
def proper (len : AxisMap) (g : List Axis) : List Axis := g.filter (fun a => decide (len a ≠ 1))

/-- The axes of a group can become one dimension without a copy: of two neighbours (leaving out those of length 1) the
first one moves as far as the second one does in all its length. -/
def Mergeable (len : AxisMap) (st : Axis → Int) (g : List Axis) : Prop :=
  (proper len g).IsChain (fun a b => st a = len b * st b)

end Einops
