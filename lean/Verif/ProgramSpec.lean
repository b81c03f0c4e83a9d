import Verif.Einsum
import Verif.LawSpec

/-!
# Programs that use the operations

Specification vocabulary only: Python functions whose tensors are made by calls of `rearrange`, `repeat`, `reduce`,
`pack`, `unpack` and `einsum`.  Everything else in the function - patterns, sizes, packed shapes, which call comes next,
which exception is raised - may depend on the shapes of the tensors, not on their elements.
-/

namespace Einops

universe u
variable {α : Type u}

/-- the first argument of a call: one variable or a list of variables -/
inductive Arg
  | one (i : Nat)
  | many (is : List Nat)

/-- A call.  Variables are numbered: first the arguments of the function, then the results of the calls. -/
inductive Cmd
  | rearrange (t : Arg) (pattern : Str) (kw : List (Str × Size))
  | repeat_ (t : Arg) (pattern : Str) (kw : List (Str × Size))
  | reduce (t : Arg) (pattern : Str) (o : Str) (kw : List (Str × Size))
  | pack (is : List Nat) (pattern : Str)
  | unpack (i : Nat) (ps : List (List Int)) (pattern : Str)
  | einsum (is : List Nat) (pattern : Str)

/-- The rest of a function: return variables, raise an exception, or make a call and go on as the shapes of the variables
tell. -/
inductive Prog
  | ret (is : List Nat)
  | fail (e : PyErr)
  | call (c : Cmd) (next : List (List Nat) → Prog)

/-- The framework: its backend, whether tensors are floating, which of the two packings, the order of sets. -/
structure Setup where
  fw : Framework
  floating : Bool
  loose : Bool
  so : SetOrder

/-- the primitives of `pack` and `unpack` -/
def Setup.pack (s : Setup) : PackOps α := if s.loose then numpyPack else strictPack

/-- the value of a variable -/
def varOf (env : List (Tensor α)) (i : Nat) : Py (Tensor α) :=
  match env[i]? with
  | some x => .ok x
  | none => .error .index

/-- the value of an argument -/
def argOf (env : List (Tensor α)) : Arg → Py (Input α)
  | .one i => (varOf env i).map .one
  | .many is => (mapE (varOf env) is).map .many

section
variable [PyUnicode] (s : Setup) (E : ElemOps α) (ein : Str → List (Tensor α) → Py (Tensor α))

/-- the tensors that a call returns -/
def Cmd.run (env : List (Tensor α)) : Cmd → Py (List (Tensor α))
  | .rearrange t pattern kw =>
    (argOf env t).bind fun x => (Einops.rearrange (s.fw.backend E s.floating) s.so x pattern kw).map ([·])
  | .repeat_ t pattern kw =>
    (argOf env t).bind fun x => (Einops.repeat_ (s.fw.backend E s.floating) s.so x pattern kw).map ([·])
  | .reduce t pattern o kw =>
    (argOf env t).bind fun x => (Einops.reduce (s.fw.backend E s.floating) s.so x pattern (.name o) kw).map ([·])
  | .pack is pattern => (mapE (varOf env) is).bind fun xs => (Einops.pack s.pack xs pattern).map fun p => [p.1]
  | .unpack i ps pattern => (varOf env i).bind fun x => Einops.unpack s.pack x ps pattern
  | .einsum is pattern =>
    (mapE (varOf env) is).bind fun xs => (Einops.einsum ein (xs.map .tensor ++ [.str pattern])).map ([·])

/-- run the rest of a function -/
def Prog.run : Prog → List (Tensor α) → Py (List (Tensor α))
  | .ret is, env => mapE (varOf env) is
  | .fail e, _ => .error e
  | .call c next, env =>
    (c.run s E ein env).bind fun ys => (next ((env ++ ys).map Tensor.shape)).run (env ++ ys)

/-- A function: given the shapes of its arguments, what it does. -/
abbrev TensorFunction := List (List Nat) → Prog

/-- call the function -/
def runFunction (P : TensorFunction) (xs : List (Tensor α)) : Py (List (Tensor α)) := (P (xs.map Tensor.shape)).run s E ein xs

end

/-- the reductions a call uses are among `S`, and it is not a call of `einsum` unless `e` -/
def Cmd.Uses (S : List Str) (e : Prop) : Cmd → Prop
  | .reduce _ _ o _ => o ∈ S
  | .einsum _ _ => e
  | _ => True

/-- so do all calls -/
inductive Prog.Uses (S : List Str) (e : Prop) : Prog → Prop
  | ret (is : List Nat) : Prog.Uses S e (.ret is)
  | fail (err : PyErr) : Prog.Uses S e (.fail err)
  | call {c : Cmd} {next : List (List Nat) → Prog} : c.Uses S e → (∀ shapes, (next shapes).Uses S e) →
      Prog.Uses S e (.call c next)

/-- so do all calls, for arguments of all shapes -/
def FunctionUses (S : List Str) (e : Prop) (P : TensorFunction) : Prop := ∀ shapes, (P shapes).Uses S e

/-- all elements of the tensors are different -/
def AllDifferent (xs : List (Tensor α)) : Prop := (xs.flatMap Tensor.data).Nodup

/-- The reductions in `S`, and `einsum` if `e`, commute with `f`: of images they give the image of the result (or both
fail in the same way). -/
structure SameElems {β : Type u} (S : List Str) (e : Prop) (f : α → β) (E : ElemOps α) (E' : ElemOps β)
    (ein : Str → List (Tensor α) → Py (Tensor α)) (ein' : Str → List (Tensor β) → Py (Tensor β)) : Prop where
  op : ∀ o ∈ S, ∀ vs, E'.op o (vs.map f) = (E.op o vs).map f
  ein : e → ∀ p xs, ein' p (xs.map (Tensor.map f)) = (ein p xs).map (Tensor.map f)

end Einops
