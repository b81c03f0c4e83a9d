import Verif.Proofs.GetBackend

/-!
# Choice of the backend (C35)

Histories are arbitrary lists of events: changes of `sys.modules` and calls of `get_backend`, each with its own class tree.
-/

namespace Einops

variable {C T Ty : Type} [DecidableEq Ty]

/-- recognition looks only at the type of the tensor -/
def BackendWorld.ByType (W : BackendWorld C T Ty) : Prop :=
  ∀ c t t', W.typeOf t = W.typeOf t' → W.appropriate c t = W.appropriate c t'

/-- C35: whatever happened before, a backend that `get_backend` returns recognises some tensor of this type that was
passed to `get_backend`; if recognition looks only at the type, it recognises this tensor. -/
theorem C35_recognises (W : BackendWorld C T Ty) (m : List Str) (es : List (BackendEvent C T))
    (roots : List (ClassTree C)) (t : T) (b : BackendObj C)
    (h : (getBackend W roots t (afterEvents W (BackendState.start m) es)).1 = .ok b) :
    (∃ t' ∈ t :: eventTensors es, W.typeOf t' = W.typeOf t ∧ W.appropriate b.cls t' = .ok true) ∧
      (W.ByType → W.appropriate b.cls t = .ok true) := by
  have hi := afterEvents_inv (W := W) es (BackendInv.start W m)
  have hi' := getBackend_inv hi roots t
  generalize hst : afterEvents W (BackendState.start m) es = st at *
  rcases hg : getBackend W roots t st with ⟨r, st'⟩
  rw [hg] at h hi'
  simp only at h
  subst h
  obtain ⟨⟨t', h1, h2, h3⟩, _⟩ := hi'.types _ (dictGet_mem (getBackend_types hg))
  refine ⟨⟨t', ?_, h2, h3⟩, fun hb => (hb _ _ _ h2) ▸ h3⟩
  simpa using h1

/-- C35: once a backend was returned for a tensor, every later call for a tensor of the same type returns the same object
and changes nothing, whatever happened in between. -/
theorem C35_stable (W : BackendWorld C T Ty) (st st' : BackendState C Ty) (roots roots' : List (ClassTree C)) (t t' : T)
    (b : BackendObj C) (h : getBackend W roots t st = (.ok b, st')) (es : List (BackendEvent C T))
    (ht : W.typeOf t' = W.typeOf t) :
    getBackend W roots' t' (afterEvents W st' es) = (.ok b, afterEvents W st' es) := by
  have h1 := afterEvents_keeps (W := W) es st' (getBackend_types h)
  unfold getBackend
  rw [ht, h1]

/-- C35: no backend is ever instantiated unless its framework is in `sys.modules` at that moment. -/
theorem C35_lazy (W : BackendWorld C T Ty) (m : List Str) (es : List (BackendEvent C T)) (c : C) (mods : List Str)
    (h : (c, mods) ∈ (afterEvents W (BackendState.start m) es).made) : W.framework c ∈ mods :=
  (afterEvents_inv (W := W) es (BackendInv.start W m)).made _ h

/-- C35: every backend returned was instantiated, with its framework imported. -/
theorem C35_returned_made (W : BackendWorld C T Ty) (m : List Str) (es : List (BackendEvent C T))
    (roots : List (ClassTree C)) (t : T) (b : BackendObj C) (st : BackendState C Ty)
    (h : getBackend W roots t (afterEvents W (BackendState.start m) es) = (.ok b, st)) :
    ∃ mods, st.made[b.serial]? = some (b.cls, mods) ∧ W.framework b.cls ∈ mods := by
  have hi' := getBackend_inv (afterEvents_inv (W := W) es (BackendInv.start W m)) roots t
  rw [h] at hi'
  obtain ⟨_, h1⟩ := hi'.types _ (dictGet_mem (getBackend_types h))
  obtain ⟨_, mods, h2⟩ := hi'.loaded _ h1
  exact ⟨mods, h2, hi'.made _ (List.mem_of_getElem? h2)⟩

/-- C35: while constructors do not fail, no framework gets two backends. -/
theorem C35_once (W : BackendWorld C T Ty) (hC : ∀ c m, W.construct c m = none) (m : List Str)
    (es : List (BackendEvent C T)) :
    ((afterEvents W (BackendState.start m) es).made.map (fun p => W.framework p.1)).Nodup := by
  rw [afterEvents_made hC es _ (by simp [BackendState.start])]
  exact (afterEvents_inv (W := W) es (BackendInv.start W m)).keys

/-- C35: `get_backend` gives up only when it must.  If frameworks behave (nothing raises, importing removes no module, one
class per framework), a failure is a RuntimeError and no class whose framework is imported recognises the tensor. -/
theorem C35_complete (W : BackendWorld C T Ty) (hA : ∀ c t, ∃ v, W.appropriate c t = .ok v)
    (hC : ∀ c m, W.construct c m = none) (hM : ∀ c m x, x ∈ m → x ∈ W.imports c m)
    (hF : ∀ c c', W.framework c = W.framework c' → c = c') (m : List Str) (es : List (BackendEvent C T))
    (roots : List (ClassTree C)) (t : T) (e : PyErr)
    (h : (getBackend W roots t (afterEvents W (BackendState.start m) es)).1 = .error e) :
    e = .runtime ∧ ∀ c, InTrees c roots → W.framework c ∈ (afterEvents W (BackendState.start m) es).modules →
      W.appropriate c t = .ok false := by
  have hi' := getBackend_inv (afterEvents_inv (W := W) es (BackendInv.start W m)) roots t
  generalize afterEvents W (BackendState.start m) es = st at *
  rcases hg : getBackend W roots t st with ⟨r, st'⟩
  rw [hg] at h hi'
  simp only at h
  subst h
  obtain ⟨h1, h2⟩ := getBackend_fail hA hC hM hg
  refine ⟨h1, fun c hc hm => ?_⟩
  obtain ⟨b, hb, hf⟩ := h2 c hc hm
  have := (hi'.loaded _ (dictGet_mem hb)).1
  rw [hF c b.cls this]; exact hf

/-- C35: if recognition looks only at the type and no type is recognised by two classes, the class of the backend does not
depend on the history. -/
theorem C35_history_independent (W : BackendWorld C T Ty) (hT : W.ByType)
    (hD : ∀ c c' t, W.appropriate c t = .ok true → W.appropriate c' t = .ok true → c = c') (m m' : List Str)
    (es es' : List (BackendEvent C T)) (roots roots' : List (ClassTree C)) (t t' : T) (ht : W.typeOf t = W.typeOf t')
    (b b' : BackendObj C) (h : (getBackend W roots t (afterEvents W (BackendState.start m) es)).1 = .ok b)
    (h' : (getBackend W roots' t' (afterEvents W (BackendState.start m') es')).1 = .ok b') : b.cls = b'.cls := by
  have h1 := (C35_recognises W m es roots t b h).2 hT
  have h2 := (C35_recognises W m' es' roots' t' b' h').2 hT
  exact hD _ _ t h1 (hT _ _ _ ht ▸ h2)

end Einops

namespace Einops

/-! ### Examples, and what is not guaranteed -/

section Examples

/-- The classes of _backends.py in the order of their definitions; JaxBackend derives from NumpyBackend. -/
def backendTree : List (ClassTree Str) :=
  [.node "numpy".toList [.node "jax".toList []], .node "torch".toList [], .node "cupy".toList [],
    .node "tensorflow".toList [], .node "tensorflow.keras".toList [], .node "oneflow".toList [],
    .node "paddle".toList [], .node "tinygrad".toList [], .node "pytensor".toList []]

/-- the order in which classes are tried: last defined first, jax after numpy -/
example : (backendSubclasses backendTree).map String.ofList =
    ["pytensor", "tinygrad", "paddle", "oneflow", "tensorflow.keras", "tensorflow", "cupy", "torch", "numpy", "jax"] := by
  decide +kernel

/-- A tensor is known by the name of its framework; nothing fails. -/
def niceWorld : BackendWorld Str Str Str where
  framework := id
  typeOf := id
  appropriate := fun c t => .ok (c == t)
  construct := fun _ _ => none
  imports := fun _ m => m

def np : Str := "numpy".toList
def tch : Str := "torch".toList

/-- numpy is asked for first, torch imported later -/
def story : List (BackendEvent Str Str) := [.call backendTree np, .modules [np, tch], .call backendTree tch]

example : (afterEvents niceWorld (BackendState.start [np]) story).made = [(np, [np]), (tch, [np, tch])] := by
  decide +kernel

example : (getBackend niceWorld backendTree tch (afterEvents niceWorld (BackendState.start [np]) story)).1 =
    .ok ⟨tch, 1⟩ := by decide +kernel

/-- a framework that was not imported is unknown -/
example : (getBackend niceWorld backendTree tch (afterEvents niceWorld (BackendState.start [np]) [])).1 =
    .error .runtime := by decide +kernel

example : niceWorld.ByType := fun _ _ _ h => by simp only [niceWorld, id] at *; rw [h]

example : ∀ c c' t, niceWorld.appropriate c t = .ok true → niceWorld.appropriate c' t = .ok true → c = c' := by
  intro c c' t h h'
  simp only [niceWorld, Except.ok.injEq, beq_iff_eq] at h h'
  rw [h, h']

/-- Both classes recognise everything. -/
def greedyWorld : BackendWorld Str Unit Unit where
  framework := id
  typeOf := id
  appropriate := fun _ _ => .ok true
  construct := fun _ _ => none
  imports := fun _ m => m

/-- Without disjoint recognisers the class does depend on the history: asking again after more imports in one history and
asking first with everything imported in another gives different backends for the same type. -/
theorem C35_order_matters :
    ∃ (m : List Str) (es es' : List (BackendEvent Str Unit)) (b b' : BackendObj Str),
      greedyWorld.ByType ∧
      (afterEvents greedyWorld (BackendState.start m) es).modules =
        (afterEvents greedyWorld (BackendState.start m) es').modules ∧
      (getBackend greedyWorld backendTree () (afterEvents greedyWorld (BackendState.start m) es)).1 = .ok b ∧
      (getBackend greedyWorld backendTree () (afterEvents greedyWorld (BackendState.start m) es')).1 = .ok b' ∧
      b.cls ≠ b'.cls :=
  ⟨[np], [.call backendTree (), .modules [np, tch]], [.modules [np, tch]], ⟨np, 0⟩, ⟨tch, 0⟩,
    fun _ _ _ _ => rfl, by decide +kernel, by decide +kernel, by decide +kernel, by decide⟩

/-- torch is imported but its backend cannot be instantiated -/
def brokenWorld : BackendWorld Str Str Str :=
  { niceWorld with construct := fun c _ => if c = tch then some .backend else none }

/-- A framework that is imported but broken also breaks calls for tensors of other frameworks: a numpy array is refused
with the exception of torch, although numpy's backend would recognise it. -/
theorem C35_broken_framework :
    brokenWorld.appropriate np np = .ok true ∧ brokenWorld.construct np [np, tch] = none ∧
      (getBackend brokenWorld backendTree np (afterEvents brokenWorld (BackendState.start [np, tch]) [])).1 =
        .error .backend := by
  refine ⟨by decide +kernel, by decide +kernel, by decide +kernel⟩

/-- the order of calls matters for this too: asked before torch is imported, numpy keeps working -/
example : (getBackend brokenWorld backendTree np
    (afterEvents brokenWorld (BackendState.start [np]) [.call backendTree np, .modules [np, tch]])).1 = .ok ⟨np, 0⟩ := by
  decide +kernel

end Examples

end Einops
