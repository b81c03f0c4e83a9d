import Verif.Apply
import Mathlib.Data.List.Dedup

/-!
# `pack` and `unpack`

`einops/packing.py` and the functions of the same names in `einops/array_api.py`.  Shapes are lists of concrete
dimensions, packed shapes lists of Python ints.
-/

namespace Einops

universe u

/-- What `pack` and `unpack` use of a framework: `backend.reshape`, `backend.concat` and slicing one axis. -/
structure PackOps (α : Type u) where
  reshape : Tensor α → List Int → Py (Tensor α)
  concat : List (Tensor α) → Nat → Py (Tensor α)
  /-- `tensor[(*(slice(None),) * axis, slice(lo, hi))]` -/
  slice : Tensor α → Nat → Int → Int → Py (Tensor α)

/-- numpy and similar (_backends.py:92-93, 183-184): every negative entry of a new shape means "unknown". -/
def numpyPack {α : Type u} : PackOps α := ⟨Tensor.reshape, Tensor.concat, Tensor.slice⟩

/-- torch (_backends.py:273-274), array API namespaces, oneflow, paddle, tinygrad: only -1 means "unknown". -/
def strictPack {α : Type u} : PackOps α := ⟨Tensor.reshapeStrict, Tensor.concat, Tensor.slice⟩

/-- `analyze_pattern(pattern, opname)` (packing.py:14-31), without its cache. -/
def analyzePattern [PyUnicode] (pattern : Str) : Py (Nat × Nat × Nat) :=
  let axes := splitWs pattern
  if axes.length ≠ axes.dedup.length then .error .einops
  else if ['*'] ∉ axes then .error .einops
  else if axes.any (fun a => decide (a ≠ ['*']) && !checkAxisName false a) then .error .einops
  else
    let before := axes.idxOf ['*']
    let after := axes.length - before - 1
    .ok (before, after, before + after)

variable {α : Type u}

/-- The loop of `pack` (packing.py:77-86): reshaped tensors and packed shapes. -/
def packLoop (ops : PackOps α) (before after minAxes : Nat) : List (Tensor α) → Py (List (Tensor α) × List (List Nat))
  | [] => .ok ([], [])
  | x :: xs =>
    if x.shape.length < minAxes then .error .einops
    else
      let k := x.shape.length - after
      match ops.reshape x ((x.shape.take before).map Int.ofNat ++ (-1) :: (x.shape.drop k).map Int.ofNat) with
      | .error e => .error e
      | .ok y =>
        match packLoop ops before after minAxes xs with
        | .error e => .error e
        | .ok (ys, ps) => .ok (y :: ys, (x.shape.take k).drop before :: ps)

/-- `pack(tensors, pattern)` (packing.py:34-88); `tensors[0]` raises IndexError for an empty sequence. -/
def pack [PyUnicode] (ops : PackOps α) (xs : List (Tensor α)) (pattern : Str) : Py (Tensor α × List (List Nat)) :=
  match analyzePattern pattern with
  | .error e => .error e
  | .ok (before, after, minAxes) =>
    match xs with
    | [] => .error .index
    | _ :: _ =>
      match packLoop ops before after minAxes xs with
      | .error e => .error e
      | .ok (ys, ps) =>
        match ops.concat ys before with
        | .error e => .error e
        | .ok y => .ok (y, ps)

/-- `prod(x)` (packing.py:91-95) -/
def pyProd (x : List Int) : Int := x.foldl (fun r i => r * i) 1

/-- `lengths_of_composed_axes` (packing.py:148) -/
def composedLengths (ps : List (List Int)) : List Int := ps.map (fun s => if -1 ∈ s then -1 else pyProd s)

/-- `split_positions` (packing.py:162-171).  All positions read and written are inside the list. -/
def splitPositions (n : Nat) (lengths : List Int) : List Int :=
  let init := List.replicate lengths.length (0 : Int) ++ [(n : Int)]
  if lengths.count (-1) = 0 then
    lengths.dropLast.zipIdx.foldl (fun sp p => sp.set (p.2 + 1) (sp.getD p.2 0 + p.1)) init
  else
    let u := lengths.idxOf (-1)
    let sp := (List.range u).foldl (fun sp i => sp.set (i + 1) (sp.getD i 0 + lengths.getD i 0)) init
    (List.range' (u + 1) (lengths.length - (u + 1))).reverse.foldl
      (fun sp j => sp.set j (sp.getD (j + 1) 0 - lengths.getD j 0)) sp

/-- One output of `unpack` (packing.py:178-182) -/
def unpackPiece (ops : PackOps α) (x : Tensor α) (axis : Nat) (sp : List Int) (s : List Int) (i : Nat) : Py (Tensor α) :=
  match ops.slice x axis (sp.getD i 0) (sp.getD (i + 1) 0) with
  | .error e => .error e
  | .ok y =>
    ops.reshape y ((x.shape.take axis).map Int.ofNat ++ s ++ (x.shape.drop (axis + 1)).map Int.ofNat)

/-- `unpack(tensor, packed_shapes, pattern)` (packing.py:98-190) -/
def unpack [PyUnicode] (ops : PackOps α) (x : Tensor α) (ps : List (List Int)) (pattern : Str) : Py (List (Tensor α)) :=
  match analyzePattern pattern with
  | .error e => .error e
  | .ok (before, after, _) =>
    if x.shape.length ≠ before + 1 + after then .error .einops
    else
      let lengths := composedLengths ps
      if lengths.count (-1) > 1 then .error .einops
      else
        let sp := splitPositions (nth x.shape before) lengths
        match mapE (fun p : List Int × Nat => unpackPiece ops x before sp p.1 p.2) ps.zipIdx with
        | .error _ => .error .runtime
        | .ok ys => .ok ys

/-! ### `einops.array_api` -/

/-- the loop of `array_api.pack` (array_api.py:57-66) -/
def packLoopArrayApi (xp : PackOps α) (before after minAxes : Nat) :
    List (Tensor α) → Py (List (Tensor α) × List (List Nat))
  | [] => .ok ([], [])
  | x :: xs =>
    if x.shape.length < minAxes then .error .einops
    else
      let k := x.shape.length - after
      match xp.reshape x ((x.shape.take before).map Int.ofNat ++ (-1) :: (x.shape.drop k).map Int.ofNat) with
      | .error e => .error e
      | .ok y =>
        match packLoopArrayApi xp before after minAxes xs with
        | .error e => .error e
        | .ok (ys, ps) => .ok (y :: ys, (x.shape.take k).drop before :: ps)

/-- `array_api.pack` (array_api.py:51-68) -/
def packArrayApi [PyUnicode] (xp : PackOps α) (xs : List (Tensor α)) (pattern : Str) :
    Py (Tensor α × List (List Nat)) :=
  match analyzePattern pattern with
  | .error e => .error e
  | .ok (before, after, minAxes) =>
    match xs with
    | [] => .error .index
    | _ :: _ =>
      match packLoopArrayApi xp before after minAxes xs with
      | .error e => .error e
      | .ok (ys, ps) =>
        match xp.concat ys before with
        | .error e => .error e
        | .ok y => .ok (y, ps)

/-- `array_api.unpack` (array_api.py:71-124); the slice has a trailing `...`, which selects the same elements. -/
def unpackArrayApi [PyUnicode] (xp : PackOps α) (x : Tensor α) (ps : List (List Int)) (pattern : Str) :
    Py (List (Tensor α)) :=
  match analyzePattern pattern with
  | .error e => .error e
  | .ok (before, after, _) =>
    if x.shape.length ≠ before + 1 + after then .error .einops
    else
      let lengths := ps.map (fun s => if -1 ∈ s then -1 else pyProd s)
      if lengths.count (-1) > 1 then .error .einops
      else
        let sp := splitPositions (nth x.shape before) lengths
        match mapE (fun p : List Int × Nat =>
            match xp.slice x before (sp.getD p.2 0) (sp.getD (p.2 + 1) 0) with
            | .error e => .error e
            | .ok y => xp.reshape y ((x.shape.take before).map Int.ofNat ++ p.1 ++ (x.shape.drop (before + 1)).map Int.ofNat))
            ps.zipIdx with
        | .error _ => .error .runtime
        | .ok ys => .ok ys

end Einops
