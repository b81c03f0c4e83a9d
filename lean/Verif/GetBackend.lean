import Verif.Recipe

/-!
# `get_backend` (einops/_backends.py:17-59)

The frameworks are not part of the model: what a backend class does when it is instantiated and which tensors an instance
recognises are parameters (`BackendWorld`).  Tensors, tensor types and backend classes are arbitrary types.
-/

namespace Einops

/-- Classes derived from a class, in the order of `__subclasses__()`. -/
inductive ClassTree (C : Type) where
  | node (cls : C) (subs : List (ClassTree C))

/-- the class at the root -/
def ClassTree.cls {C : Type} : ClassTree C → C
  | .node c _ => c

/-- `__subclasses__()` -/
def ClassTree.subs {C : Type} : ClassTree C → List (ClassTree C)
  | .node _ s => s

mutual
/-- number of classes in a tree -/
def ClassTree.count {C : Type} : ClassTree C → Nat
  | .node _ s => 1 + countAll s
/-- number of classes in a list of trees -/
def countAll {C : Type} : List (ClassTree C) → Nat
  | [] => 0
  | t :: ts => t.count + countAll ts
end

/-- The loop `while backends: backend = backends.pop(); backends += backend.__subclasses__(); ...append(backend)`
(_backends.py:38-43).  Every round takes one class off, so the number of classes is enough fuel. -/
def collectLoop {C : Type} : Nat → List (ClassTree C) → List C → List C
  | 0, _, acc => acc
  | n + 1, stack, acc =>
    match stack.getLast? with
    | none => acc
    | some t => collectLoop n (stack.dropLast ++ t.subs) (acc ++ [t.cls])

/-- `backend_subclasses` (_backends.py:38-43); `roots` is `AbstractBackend.__subclasses__()`. -/
def backendSubclasses {C : Type} (roots : List (ClassTree C)) : List C := collectLoop (countAll roots) roots []

/-- A backend object: its class and which construction made it (object identity). -/
structure BackendObj (C : Type) where
  cls : C
  serial : Nat
  deriving DecidableEq, Repr

/-- What is outside einops: `framework_name` of a class, `type(tensor)`, what `is_appropriate_type` answers, and what
instantiating a class does given `sys.modules` — which exception it raises, if any, and `sys.modules` afterwards. -/
structure BackendWorld (C T Ty : Type) where
  framework : C → Str
  typeOf : T → Ty
  appropriate : C → T → Py Bool
  construct : C → List Str → Option PyErr
  imports : C → List Str → List Str

/-- `_loaded_backends`, `_type2backend`, `sys.modules`; `made` is a record, for the statements only, of every
instantiation that was started with the modules imported at that moment. -/
structure BackendState (C Ty : Type) where
  loaded : List (Str × BackendObj C)
  types : List (Ty × BackendObj C)
  modules : List Str
  made : List (C × List Str)

variable {C T Ty : Type}

/-- nothing was called yet -/
def BackendState.start (modules : List Str) : BackendState C Ty := ⟨[], [], modules, []⟩

/-- `for framework_name, backend in list(_loaded_backends.items()): if backend.is_appropriate_type(tensor): ...`
(_backends.py:32-35): the first loaded backend that recognises the tensor. -/
def findLoaded (W : BackendWorld C T Ty) (t : T) : List (Str × BackendObj C) → Py (Option (BackendObj C))
  | [] => .ok none
  | (_, b) :: l =>
    match W.appropriate b.cls t with
    | .error e => .error e
    | .ok true => .ok (some b)
    | .ok false => findLoaded W t l

/-- The second loop (_backends.py:45-57) and the final `raise` (_backends.py:59). -/
def tryClasses [DecidableEq Ty] (W : BackendWorld C T Ty) (t : T) :
    List C → BackendState C Ty → Py (BackendObj C) × BackendState C Ty
  | [], st => (.error .runtime, st)
  | c :: cs, st =>
    match dictGet st.loaded (W.framework c) with
    | some _ => tryClasses W t cs st
    | none =>
      if W.framework c ∈ st.modules then
        let made := st.made ++ [(c, st.modules)]
        let modules := W.imports c st.modules
        match W.construct c st.modules with
        | some e => (.error e, { st with made := made, modules := modules })
        | none =>
          let b : BackendObj C := ⟨c, st.made.length⟩
          let st' := { st with loaded := dictSet st.loaded (W.framework c) b, made := made, modules := modules }
          match W.appropriate c t with
          | .error e => (.error e, st')
          | .ok true => (.ok b, { st' with types := dictSet st'.types (W.typeOf t) b })
          | .ok false => tryClasses W t cs st'
      else tryClasses W t cs st

/-- `get_backend(tensor)` (_backends.py:22-59); `roots` are the direct subclasses of `AbstractBackend` at that time. -/
def getBackend [DecidableEq Ty] (W : BackendWorld C T Ty) (roots : List (ClassTree C)) (t : T) (st : BackendState C Ty) :
    Py (BackendObj C) × BackendState C Ty :=
  match dictGet st.types (W.typeOf t) with
  | some b => (.ok b, st)
  | none =>
    match findLoaded W t st.loaded with
    | .error e => (.error e, st)
    | .ok (some b) => (.ok b, { st with types := dictSet st.types (W.typeOf t) b })
    | .ok none => tryClasses W t (backendSubclasses roots) st

/-- What can happen in a program: `sys.modules` changes (imports, removals), or einops asks for a backend. -/
inductive BackendEvent (C T : Type) where
  | modules (m : List Str)
  | call (roots : List (ClassTree C)) (t : T)

/-- the state after a history -/
def afterEvents [DecidableEq Ty] (W : BackendWorld C T Ty) :
    BackendState C Ty → List (BackendEvent C T) → BackendState C Ty
  | st, [] => st
  | st, .modules m :: es => afterEvents W { st with modules := m } es
  | st, .call roots t :: es => afterEvents W (getBackend W roots t st).2 es

end Einops
