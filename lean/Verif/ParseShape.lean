import Verif.Apply

/-!
# `parse_shape` and `_enumerate_directions` (`einops/einops.py`)
-/

namespace Einops

/-- Does the number of dimensions fit (einops.py:683-688)? -/
def shapeRankOK (e : ParsedExpression) (ndim : Nat) : Bool :=
  if ndim ≠ e.composition.length then
    if e.hasEllipsis then !decide ((ndim : Int) < e.composition.length - 1)
    else false
  else true

/-- The composition with skipped dimensions for the ellipsis (einops.py:689-697).  `list.index` raises ValueError if the
ellipsis is only inside a list; a negative repetition count gives an empty list. -/
def shapeComposition (e : ParsedExpression) (ndim : Nat) : Py (List CompAxis) :=
  if e.hasEllipsis then
    match indexE e.composition .ell with
    | .error er => .error er
    | .ok k =>
      .ok (e.composition.take k ++
        List.replicate (((ndim : Int) - e.composition.length + 1).toNat) (.group [.str ['_']]) ++
        e.composition.drop (k + 1))
  else .ok e.composition

/-- Body of the loop of `parse_shape` (einops.py:699-711).  `[axis] = axes` raises ValueError unless there is one axis;
iterating over the string '…' yields that character. -/
def shapeStep (result : List (Str × Nat)) (axes : CompAxis) (length : Nat) : Py (List (Str × Nat)) :=
  match axes.axes with
  | [] => if length ≠ 1 then .error .runtime else .ok result
  | [.str w] => if w ≠ ['_'] then .ok (dictSet result w length) else .ok result
  | [.anon _ _ v] => if v ≠ length then .error .runtime else .ok result
  | _ => .error .value

/-- The loop (einops.py:698-712); `zip` stops at the shorter list. -/
def shapeLoop : List (Str × Nat) → List CompAxis → List Nat → Py (List (Str × Nat))
  | result, a :: as, n :: ns =>
    match shapeStep result a n with
    | .error e => .error e
    | .ok result => shapeLoop result as ns
  | result, _, _ => .ok result

/-- `parse_shape(x, pattern)` (einops.py:653-712); the dict in insertion order. -/
def parseShape [PyUnicode] (shape : List Nat) (pattern : Str) : Py (List (Str × Nat)) :=
  match parseExpression 0 true false pattern with
  | .error e => .error e
  | .ok e =>
    if e.hasComposedAxes then .error .runtime
    else if !shapeRankOK e shape.length then .error .runtime
    else
      match shapeComposition e shape.length with
      | .error er => .error er
      | .ok c => shapeLoop [] c shape

/-- `backend.arange(0, n)` (_backends.py:173-174 and the same method of the other backends) -/
def arange (n : Nat) : Tensor Nat := ⟨[n], List.range n, by simp⟩

/-- `_enumerate_directions(x)` (einops.py:716-735) -/
def enumerateDirections (b : Backend Nat) (shape : List Nat) : Py (List (Tensor Nat)) :=
  mapE (fun p : Nat × Nat => b.reshape (arange p.1) ((List.replicate shape.length (1 : Int)).set p.2 p.1)) shape.zipIdx

end Einops
