import Verif.Parsing

/-!
# Model of recipe preparation (`einops/einops.py`)

`_prepare_transformation_recipe` and `_reconstruct_from_shape_uncached`, branch by branch.
-/

namespace Einops

/-! ### Python containers -/

/-- Iteration order of Python sets: an arbitrary permutation at every place of the program where a set is iterated
(`site`).  Covers hash randomisation and insertion history. -/
structure SetOrder where
  order : Nat → List Axis → List Axis
  perm : ∀ site l, (order site l).Perm l

/-- `d[k] = v` for a dict kept in insertion order: an existing key keeps its place. -/
def dictSet {κ ν : Type} [DecidableEq κ] : List (κ × ν) → κ → ν → List (κ × ν)
  | [], k, v => [(k, v)]
  | (k', v') :: d, k, v => if k' = k then (k', v) :: d else (k', v') :: dictSet d k v

/-- `d.get(k)` -/
def dictGet {κ ν : Type} [DecidableEq κ] : List (κ × ν) → κ → Option ν
  | [], _ => none
  | (k', v') :: d, k => if k' = k then some v' else dictGet d k

/-- `d[k]` -/
def dictGetE {κ ν : Type} [DecidableEq κ] (d : List (κ × ν)) (k : κ) : Py ν :=
  match dictGet d k with
  | some v => .ok v
  | none => .error .key

/-- `l.index(a)` -/
def indexE {κ : Type} [DecidableEq κ] (l : List κ) (a : κ) : Py Nat :=
  if a ∈ l then .ok (l.idxOf a) else .error .value

/-- the elements of a set comprehension over a list -/
def setOf (l : List Axis) : List Axis := l.foldl setAdd []

/-- evaluate a list of computations left to right -/
def mapE {ε : Type} {α : Type u} {β : Type v} (f : α → Except ε β) : List α → Except ε (List β)
  | [] => .ok []
  | a :: as =>
    match f a with
    | .error e => .error e
    | .ok b =>
      match mapE f as with
      | .error e => .error e
      | .ok bs => .ok (b :: bs)

/-! ### Recipes -/

/-- What `_prepare_transformation_recipe` sees of the `reduction` argument: a string or a callable
(einops.py:18, 308-329). -/
inductive OpKind
  | name (s : Str)
  | callable
  deriving DecidableEq, Repr

/-- `_reductions` (einops.py:21). -/
def reductionNames : List Str :=
  ["min".toList, "max".toList, "sum".toList, "mean".toList, "prod".toList, "any".toList, "all".toList]

/-- `_unknown_axis_length` (einops.py:25) -/
def unknownAxisLength : Int := -999999
/-- `_expected_axis_length` (einops.py:26) -/
def expectedAxisLength : Int := -99999

/-- `TransformRecipe` (einops.py:114-152). -/
structure TransformRecipe where
  elementaryAxesLengths : List Int
  axisName2elementary : List (Str × Nat)
  inputComposition : List (List Nat × List Nat)
  axesPermutation : List Nat
  firstReducedAxis : Nat
  addedAxes : List (Nat × Nat)
  outputCompositeAxes : List (List Nat)
  deriving DecidableEq, Repr

/-- Check which axes may occur on which side (einops.py:303-329). -/
def checkSides (left rght : ParsedExpression) (op : OpKind) (axesNames : List Str) : Py Unit :=
  if !left.hasEllipsis && rght.hasEllipsis then .error .einops
  else if left.hasEllipsis && left.ellParen == some true then .error .einops
  else if op = .name "rearrange".toList then
    if left.nonUnitary || rght.nonUnitary then .error .einops
    else if (left.identifiers.filter (fun a => a ∉ rght.identifiers)) ++
        (rght.identifiers.filter (fun a => a ∉ left.identifiers)) ≠ [] then .error .einops
    else .ok ()
  else if op = .name "repeat".toList then
    if left.identifiers.filter (fun a => a ∉ rght.identifiers) ≠ [] then .error .einops
    else if rght.identifiers.filter
        (fun a => !a.isAnon && decide (a ∉ left.identifiers) && decide (a ∉ axesNames.map Axis.str)) ≠ [] then
      .error .einops
    else .ok ()
  else
    match op with
    | .callable =>
      if rght.identifiers.filter (fun a => a ∉ left.identifiers) ≠ [] then .error .einops else .ok ()
    | .name s =>
      if s ∈ reductionNames then
        if rght.identifiers.filter (fun a => a ∉ left.identifiers) ≠ [] then .error .einops else .ok ()
      else .error .einops

/-- `[_ellipsis + str(i) for i in range(n)]` (einops.py:336) -/
def ellAxes (n : Nat) : List Axis := (List.range n).map (fun i => Axis.str (ellipsisStr ++ natStr i))

/-- Expanding the ellipsis on the left (einops.py:337-343). -/
def expandLeft (ell : List Axis) (c : List CompAxis) : List (List Axis) :=
  c.flatMap (fun c => match c with
    | .ell => ell.map (fun a => [a])
    | .group g => [g])

/-- Expanding the ellipsis on the right, also inside groups (einops.py:345-357). -/
def expandRight (ell : List Axis) (c : List CompAxis) : List (List Axis) :=
  c.flatMap (fun c => match c with
    | .ell => ell.map (fun a => [a])
    | .group g => [g.flatMap (fun a => if a = .str ellipsisStr then ell else [a])])

/-- `identifiers.update(ell_axes); identifiers.remove(_ellipsis)` (einops.py:359-363) -/
def expandIds (ell ids : List Axis) : List Axis :=
  (ell.foldl setAdd ids).filter (fun a => a ≠ .str ellipsisStr)

/-- Left and right composition and identifiers after treatment of the ellipsis (einops.py:331-368). -/
structure Expanded where
  left : List (List Axis)
  rght : List (List Axis)
  leftIds : List Axis
  rghtIds : List Axis
  deriving DecidableEq, Repr

/-- einops.py:331-368.  `remove` cannot fail: an expression with an ellipsis contains the marker as a word. -/
def expandSides (left rght : ParsedExpression) (ndim : Nat) : Py Expanded :=
  if left.hasEllipsis then
    if ndim < left.composition.length - 1 then .error .einops
    else
      let ell := ellAxes (ndim - (left.composition.length - 1))
      .ok {
        left := expandLeft ell left.composition
        rght := expandRight ell rght.composition
        leftIds := expandIds ell left.identifiers
        rghtIds := if rght.hasEllipsis then expandIds ell rght.identifiers else rght.identifiers }
  else if ndim ≠ left.composition.length then .error .einops
  else .ok ⟨left.composition.map CompAxis.axes, rght.composition.map CompAxis.axes,
      left.identifiers, rght.identifiers⟩

/-- The length recorded for an axis when it is first met (einops.py:374-377, 384-387). -/
def firstLength : Axis → Int
  | .anon _ _ v => v
  | .str _ => unknownAxisLength

/-- `axis_name2known_length` after the loop over the left composition (einops.py:371-377). -/
def knownLeft (left : List (List Axis)) : List (Axis × Int) :=
  left.flatten.foldl (fun d a => dictSet d a (firstLength a)) []

/-- ... and after the loop over the right identifiers, in whatever order the set yields them (einops.py:381-388). -/
def knownAll (so : SetOrder) (left : List (List Axis)) (rghtIds : List Axis) : List (Axis × Int) :=
  (so.order 0 rghtIds).foldl (fun d a => match dictGet d a with
    | some _ => d
    | none => dictSet d a (firstLength a)) (knownLeft left)

section
variable [PyUnicode]

/-- Loop over the keyword names (einops.py:392-398). -/
def markExpected : List (Axis × Int) → List Str → Py (List (Axis × Int))
  | d, [] => .ok d
  | d, n :: ns =>
    if !checkAxisName false n then .error .einops
    else match dictGet d (.str n) with
      | none => .error .einops
      | some _ => markExpected (dictSet d (.str n) expectedAxisLength) ns

/-- `axis_name2position[axis]` where `axis_name2position` enumerates the keys (einops.py:390). -/
def positionE (keys : List Axis) (a : Axis) : Py Nat :=
  if a ∈ keys then .ok (keys.idxOf a) else .error .key

/-- One input dimension (einops.py:402-410): positions of the axes with known and with unknown length. -/
def knownUnknown (so : SetOrder) (keys : List Axis) (d : List (Axis × Int)) (i : Nat) (g : List Axis) :
    Py (List Nat × List Nat) :=
  match mapE (fun a => dictGetE d a) g with
  | .error e => .error e
  | .ok lens =>
    let known := setOf (((g.zip lens).filter (fun p => p.2 ≠ unknownAxisLength)).map Prod.fst)
    let unknown := setOf (((g.zip lens).filter (fun p => p.2 = unknownAxisLength)).map Prod.fst)
    if 1 < unknown.length then .error .einops
    else if unknown.length + known.length ≠ g.length then .error .assertion
    else
      match mapE (positionE keys) (so.order (2 * i + 1) known) with
      | .error e => .error e
      | .ok ks =>
        match mapE (positionE keys) (so.order (2 * i + 2) unknown) with
        | .error e => .error e
        | .ok us => .ok (ks, us)

/-- The rest of the preparation (einops.py:370-442). -/
def buildRecipe (so : SetOrder) (ex : Expanded) (axesNames : List Str) : Py TransformRecipe :=
  let d0 := knownAll so ex.left ex.rghtIds
  let keys := d0.map Prod.fst
  match markExpected d0 axesNames with
  | .error e => .error e
  | .ok d =>
    match mapE (fun p => knownUnknown so keys d p.2 p.1) ex.left.zipIdx with
    | .error e => .error e
    | .ok inputComposition =>
      match mapE (fun g => mapE (positionE keys) g) ex.rght with
      | .error e => .error e
      | .ok outputComposite =>
        let orderedLeft := ex.left.flatten
        let orderedRght := ex.rght.flatten
        let reduced := orderedLeft.filter (fun a => a ∉ ex.rghtIds)
        let orderAfter := orderedRght.filter (fun a => a ∈ ex.leftIds) ++ reduced
        match mapE (indexE orderedLeft) orderAfter with
        | .error e => .error e
        | .ok permutation =>
          match mapE (fun p : Axis × Nat =>
              match positionE keys p.1 with
              | .error e => .error e
              | .ok k => .ok (p.2, k)) (orderedRght.zipIdx.filter (fun p => p.1 ∉ ex.leftIds)) with
          | .error e => .error e
          | .ok added =>
            match mapE (fun n => match positionE keys (.str n) with
                | .error e => .error e
                | .ok k => .ok (n, k)) axesNames with
            | .error e => .error e
            | .ok name2elementary =>
              .ok {
                elementaryAxesLengths := d.map Prod.snd
                axisName2elementary := name2elementary
                inputComposition := inputComposition
                axesPermutation := permutation
                firstReducedAxis := orderAfter.length - reduced.length
                addedAxes := added
                outputCompositeAxes := outputComposite }

/-- `pattern.split("->")` unpacked into two names (einops.py:299): ValueError unless there are exactly two parts. -/
def splitArrow (pattern : Str) : Py (Str × Str) :=
  match splitOn ['-', '>'] pattern with
  | [l, r] => .ok (l, r)
  | _ => .error .value

/-- `_prepare_transformation_recipe` (einops.py:289-442), without its cache. -/
def prepareRecipe (so : SetOrder) (pattern : Str) (op : OpKind) (axesNames : List Str) (ndim : Nat) :
    Py TransformRecipe :=
  match splitArrow pattern with
  | .error e => .error e
  | .ok (l, r) =>
    match parseExpression 0 false false l with
    | .error e => .error e
    | .ok left =>
      match parseExpression 1 false false r with
      | .error e => .error e
      | .ok rght =>
        match checkSides left rght op axesNames with
        | .error e => .error e
        | .ok () =>
          match expandSides left rght ndim with
          | .error e => .error e
          | .ok ex => buildRecipe so ex axesNames

end

/-! ### Using the shape -/

/-- A dimension or requested size: its value, and whether it is a Python `int` (`isinstance(_, int)`); `false` stands
for numpy integers and for framework symbols, whose comparisons are postponed. -/
structure Size where
  val : Int
  isInt : Bool
  deriving DecidableEq, Repr

def Size.ofNat (n : Nat) : Size := ⟨n, true⟩
def Size.ofInt (n : Int) : Size := ⟨n, true⟩
/-- `a * b` -/
def Size.mul (a b : Size) : Size := ⟨a.val * b.val, a.isInt && b.isInt⟩
/-- `a // b` (for `int`s with b = 0 the caller has already failed; numpy integers give 0) -/
def Size.fdiv (a b : Size) : Size := ⟨Int.fdiv a.val b.val, a.isInt && b.isInt⟩

/-- `_product` (einops.py:29-34). -/
def sizeProd (l : List Size) : Size := l.foldl Size.mul ⟨1, true⟩

/-- `CookedRecipe` (einops.py:105). -/
structure CookedRecipe where
  initShapes : Option (List Size)
  axesReordering : Option (List Nat)
  reducedAxes : List Nat
  addedAxes : List (Nat × Size)
  finalShapes : Option (List Size)
  nAxesWithAdded : Nat
  deriving DecidableEq, Repr

/-- `l[k]` -/
def getE {κ : Type} (l : List κ) (k : Nat) : Py κ :=
  match l[k]? with
  | some a => .ok a
  | none => .error .index

/-- `l[k] = v` -/
def setE {κ : Type} (l : List κ) (k : Nat) (v : κ) : Py (List κ) :=
  if k < l.length then .ok (l.set k v) else .error .index

/-- `for axis, dim in axes_dims: axes_lengths[...] = dim` (einops.py:168-169). -/
def setDims (m : List (Str × Nat)) : List Size → List (Str × Size) → Py (List Size)
  | ls, [] => .ok ls
  | ls, (n, s) :: ds =>
    match dictGetE m n with
    | .error e => .error e
    | .ok k =>
      match setE ls k s with
      | .error e => .error e
      | .ok ls => setDims m ls ds

/-- Body of the loop over input dimensions (einops.py:171-195); the Boolean is `need_init_reshape`. -/
def inferAxis (st : List Size × Bool) (length : Size) (ku : List Nat × List Nat) : Py (List Size × Bool) :=
  let (ls, need) := st
  let (known, unknown) := ku
  match known, unknown with
  | [], [u] =>
    match setE ls u length with
    | .error e => .error e
    | .ok ls => .ok (ls, need)
  | _, _ =>
    match mapE (getE ls) known with
    | .error e => .error e
    | .ok vs =>
      let knownProduct := sizeProd vs
      match unknown with
      | [] =>
        if length.isInt && knownProduct.isInt && decide (length.val ≠ knownProduct.val) then .error .einops
        else .ok (ls, need || decide (known.length + unknown.length ≠ 1))
      | u :: _ =>
        if length.isInt && knownProduct.isInt && decide (knownProduct.val = 0) then .error .zeroDivision
        else if length.isInt && knownProduct.isInt && decide (Int.fmod length.val knownProduct.val ≠ 0) then
          .error .einops
        else
          match setE ls u (length.fdiv knownProduct) with
          | .error e => .error e
          | .ok ls => .ok (ls, need || decide (known.length + unknown.length ≠ 1))

/-- The loop (einops.py:171-195). -/
def inferAll (shape : List Size) : List Size × Bool → List ((List Nat × List Nat) × Nat) → Py (List Size × Bool)
  | st, [] => .ok st
  | st, (ku, i) :: rest =>
    match getE shape i with
    | .error e => .error e
    | .ok length =>
      match inferAxis st length ku with
      | .error e => .error e
      | .ok st => inferAll shape st rest

/-- an entry of `added_axes` with its length (einops.py:210-212) -/
def addedSize (ls : List Size) (p : Nat × Nat) : Py (Nat × Size) :=
  match getE ls p.2 with
  | .error e => .error e
  | .ok s => .ok (p.1, s)

/-- `_reconstruct_from_shape_uncached` (einops.py:155-224). -/
def reconstruct (r : TransformRecipe) (shape : List Size) (axesDims : List (Str × Size)) : Py CookedRecipe :=
  match setDims r.axisName2elementary (r.elementaryAxesLengths.map Size.ofInt) axesDims with
  | .error e => .error e
  | .ok ls0 =>
    match inferAll shape (ls0, false) r.inputComposition.zipIdx with
    | .error e => .error e
    | .ok (ls, need) =>
      match mapE (fun g => mapE (getE ls) g) r.outputCompositeAxes with
      | .error e => .error e
      | .ok groups =>
        match mapE (addedSize ls) r.addedAxes with
        | .error e => .error e
        | .ok added =>
          let n := r.axesPermutation.length
          .ok {
            initShapes := if need then some (ls.take n) else none
            axesReordering := if r.axesPermutation = List.range n then none else some r.axesPermutation
            reducedAxes := (List.range n).drop r.firstReducedAxis
            addedAxes := added
            finalShapes := if groups.any (fun g => g.length ≠ 1) then some (groups.map sizeProd) else none
            nAxesWithAdded := added.length + n }

end Einops
