import Verif.GetBackend

/-!
# `get_backend` in several threads (einops/_backends.py:22-59)

Threads share `_loaded_backends`, `_type2backend` and `sys.modules`.  Reading or writing one dictionary entry and
`list(_loaded_backends.items())` are atomic actions (CPython executes each without giving up the interpreter lock); between
two such actions other threads may run.  Instantiating a class touches no dictionary of einops and is one action as well.
-/

namespace Einops

variable {C T Ty : Type}

/-- Where a thread is in a call of `get_backend`, i.e. which action is next. -/
inductive BackendPhase (C T : Type)
  /-- no call yet -/
  | idle
  /-- `_type2backend.get(_type, None)` (_backends.py:28) -/
  | start (roots : List (ClassTree C)) (t : T)
  /-- `list(_loaded_backends.items())` (_backends.py:32) -/
  | list (roots : List (ClassTree C)) (t : T)
  /-- `backend.is_appropriate_type(tensor)` for the rest of that list (_backends.py:33) -/
  | scan (roots : List (ClassTree C)) (t : T) (rest : List (Str × BackendObj C))
  /-- `_type2backend[_type] = backend` (_backends.py:34, 56), then `return` -/
  | store (t : T) (b : BackendObj C)
  /-- `BackendSubclass.framework_name not in _loaded_backends` for the remaining classes (_backends.py:45-48) -/
  | trying (t : T) (cs : List C)
  /-- `framework_name in sys.modules` (_backends.py:50) -/
  | check (t : T) (c : C) (cs : List C)
  /-- `BackendSubclass()` (_backends.py:53) -/
  | make (t : T) (c : C) (cs : List C)
  /-- `_loaded_backends[backend.framework_name] = backend` (_backends.py:54) -/
  | insert (t : T) (b : BackendObj C) (cs : List C)
  /-- `backend.is_appropriate_type(tensor)` (_backends.py:55) -/
  | ask (t : T) (b : BackendObj C) (cs : List C)
  /-- the call for `t` returned or raised -/
  | done (t : T) (r : Py (BackendObj C))

/-- the next action of a thread -/
def stepBackend [DecidableEq Ty] (W : BackendWorld C T Ty) :
    BackendPhase C T → BackendState C Ty → BackendPhase C T × BackendState C Ty
  | .idle, st => (.idle, st)
  | .start roots t, st =>
    match dictGet st.types (W.typeOf t) with
    | some b => (.done t (.ok b), st)
    | none => (.list roots t, st)
  | .list roots t, st => (.scan roots t st.loaded, st)
  | .scan roots t [], st => (.trying t (backendSubclasses roots), st)
  | .scan roots t ((_, b) :: rest), st =>
    match W.appropriate b.cls t with
    | .error e => (.done t (.error e), st)
    | .ok true => (.store t b, st)
    | .ok false => (.scan roots t rest, st)
  | .store t b, st => (.done t (.ok b), { st with types := dictSet st.types (W.typeOf t) b })
  | .trying t [], st => (.done t (.error .runtime), st)
  | .trying t (c :: cs), st =>
    match dictGet st.loaded (W.framework c) with
    | some _ => (.trying t cs, st)
    | none => (.check t c cs, st)
  | .check t c cs, st => if W.framework c ∈ st.modules then (.make t c cs, st) else (.trying t cs, st)
  | .make t c cs, st =>
    let st' := { st with made := st.made ++ [(c, st.modules)], modules := W.imports c st.modules }
    match W.construct c st.modules with
    | some e => (.done t (.error e), st')
    | none => (.insert t ⟨c, st.made.length⟩ cs, st')
  | .insert t b cs, st => (.ask t b cs, { st with loaded := dictSet st.loaded (W.framework b.cls) b })
  | .ask t b cs, st =>
    match W.appropriate b.cls t with
    | .error e => (.done t (.error e), st)
    | .ok true => (.store t b, st)
    | .ok false => (.trying t cs, st)
  | .done t r, st => (.done t r, st)

/-- the shared dictionaries and the threads -/
structure BackendMachine (C T Ty : Type) where
  shared : BackendState C Ty
  thread : Nat → BackendPhase C T

/-- no thread did anything yet -/
def BackendMachine.start (modules : List Str) : BackendMachine C T Ty := ⟨BackendState.start modules, fun _ => .idle⟩

/-- `sys.modules` changes; thread `i` calls `get_backend`; thread `i` continues -/
inductive BackendAction (C T : Type)
  | modules (m : List Str)
  | call (i : Nat) (roots : List (ClassTree C)) (t : T)
  | go (i : Nat)

/-- a thread that is not inside a call -/
def BackendPhase.free : BackendPhase C T → Bool
  | .idle => true
  | .done _ _ => true
  | _ => false

/-- thread `i` is in the given phase now -/
def BackendMachine.set (m : BackendMachine C T Ty) (i : Nat) (p : BackendPhase C T) (st : BackendState C Ty) :
    BackendMachine C T Ty := ⟨st, fun j => if j = i then p else m.thread j⟩

/-- one action; a thread that is inside a call cannot start another one -/
def actBackend [DecidableEq Ty] (W : BackendWorld C T Ty) (m : BackendMachine C T Ty) :
    BackendAction C T → BackendMachine C T Ty
  | .modules l => { m with shared := { m.shared with modules := l } }
  | .call i roots t => if (m.thread i).free then m.set i (.start roots t) m.shared else m
  | .go i => m.set i (stepBackend W (m.thread i) m.shared).1 (stepBackend W (m.thread i) m.shared).2

/-- the machine after a schedule -/
def runBackend [DecidableEq Ty] (W : BackendWorld C T Ty) (m : BackendMachine C T Ty) (s : List (BackendAction C T)) :
    BackendMachine C T Ty := s.foldl (actBackend W) m

end Einops
