import Verif.Apply

/-!
# `einsum` (`einops/einops.py`)
-/

namespace Einops

universe u

/-- `string.ascii_letters` -/
def asciiLetters : Str := "abcdefghijklmnopqrstuvwxyzABCDEFGHIJKLMNOPQRSTUVWXYZ".toList

/-- `_validate_einsum_axis_name(axis_name)` and `axis_name[0]` (einops.py:755-768, 796-797) -/
def einsumAxisName : List Axis → Py Str
  | [] => .error .notImplemented
  | [.anon ..] => .error .notImplemented
  | [.str s] => if s = [] then .error .runtime else .ok s
  | _ => .error .notImplemented

/-- Body of the loop over the axes of one input (einops.py:791-804).  State: `axis_name_mapping`, `i`. -/
def einsumLeftStep (m : List (Str × Char)) (i : Nat) (c : CompAxis) : Py (Str × List (Str × Char) × Nat) :=
  match c with
  | .ell => .ok (['.', '.', '.'], m, i)
  | .group g =>
    match einsumAxisName g with
    | .error e => .error e
    | .ok w =>
      match dictGet m w with
      | some l => .ok ([l], m, i)
      | none =>
        match asciiLetters[i]? with
        | none => .error .runtime
        | some l => .ok ([l], dictSet m w l, i + 1)

/-- The axes of one input (einops.py:790-804): `left_pattern` and the new state -/
def einsumLeft : List (Str × Char) → Nat → List CompAxis → Py (Str × List (Str × Char) × Nat)
  | m, i, [] => .ok ([], m, i)
  | m, i, c :: cs =>
    match einsumLeftStep m i c with
    | .error e => .error e
    | .ok (s, m, i) =>
      match einsumLeft m i cs with
      | .error e => .error e
      | .ok (t, m, i) => .ok (s ++ t, m, i)

/-- The loop over the inputs (einops.py:789-805): `left_patterns` and `axis_name_mapping` -/
def einsumLefts : List (Str × Char) → Nat → List ParsedExpression → Py (List Str × List (Str × Char))
  | m, _, [] => .ok ([], m)
  | m, i, p :: ps =>
    match einsumLeft m i p.composition with
    | .error e => .error e
    | .ok (s, m, i) =>
      match einsumLefts m i ps with
      | .error e => .error e
      | .ok (ss, m) => .ok (s :: ss, m)

/-- The loop over the output axes (einops.py:809-820) -/
def einsumRight (m : List (Str × Char)) : List CompAxis → Py Str
  | [] => .ok []
  | .ell :: cs =>
    match einsumRight m cs with
    | .error e => .error e
    | .ok t => .ok (['.', '.', '.'] ++ t)
  | .group g :: cs =>
    match einsumAxisName g with
    | .error e => .error e
    | .ok w =>
      match dictGet m w with
      | none => .error .einops
      | some l =>
        match einsumRight m cs with
        | .error e => .error e
        | .ok t => .ok (l :: t)

section
variable [PyUnicode]

/-- `_compactify_pattern_for_einsum(pattern)` (einops.py:771-822), without its cache.  Numbers in different inputs get
equal tags here; they are refused before anything looks at a tag. -/
def compactify (pattern : Str) : Py Str :=
  if !containsSub ['-', '>'] pattern then .error .value
  else
    match splitArrow pattern with
    | .error e => .error e
    | .ok (leftsStr, rightStr) =>
      match mapE (parseExpression 0 true true) (splitOn [','] leftsStr) with
      | .error e => .error e
      | .ok lefts =>
        match parseExpression 1 true false rightStr with
        | .error e => .error e
        | .ok right =>
          match einsumLefts [] 0 lefts with
          | .error e => .error e
          | .ok (ss, m) =>
            match einsumRight m right.composition with
            | .error e => .error e
            | .ok t => .ok (List.intercalate [','] ss ++ ['-', '>'] ++ t)

/-- A positional argument of `einsum`. -/
inductive EinsumArg (α : Type u)
  | tensor (x : Tensor α)
  | str (s : Str)

/-- the tensors among the leading arguments; a string there is not a tensor for any backend or framework -/
def einsumTensors {α : Type u} : List (EinsumArg α) → Py (List (Tensor α))
  | [] => .ok []
  | .str _ :: _ => .error .backend
  | .tensor x :: as =>
    match einsumTensors as with
    | .error e => .error e
    | .ok xs => .ok (x :: xs)

/-- `einsum(*tensors_and_pattern)` (einops.py:841-916) on a framework whose `einsum` is `f`.  `get_backend` raises
RuntimeError if the first argument is a string. -/
def einsum {α : Type u} (f : Str → List (Tensor α) → Py (Tensor α)) (args : List (EinsumArg α)) : Py (Tensor α) :=
  if args.length ≤ 1 then .error .value
  else
    match args.getLast? with
    | some (.str pattern) =>
      match compactify pattern with
      | .error e => .error e
      | .ok s =>
        match args.dropLast with
        | .str _ :: _ => .error .runtime
        | ts =>
          match einsumTensors ts with
          | .error e => .error e
          | .ok xs => f s xs
    | _ => .error .value

end

end Einops
