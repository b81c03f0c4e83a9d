import Verif.Proofs.BackendThreads
import Verif.Props.GetBackend

/-!
# `get_backend` in several threads (C54)

A schedule is an arbitrary list of actions: changes of `sys.modules`, calls by any thread, single steps of any thread.
-/

namespace Einops

variable {C T Ty : Type} [DecidableEq Ty]

/-- C54: a thread that nobody interrupts gets what the sequential `get_backend` returns and leaves the dictionaries as that
does, and no other thread notices. -/
theorem C54_alone (W : BackendWorld C T Ty) (m : BackendMachine C T Ty) (i : Nat) (hi : (m.thread i).free = true)
    (roots : List (ClassTree C)) (t : T) :
    ∃ n, (runBackend W m (.call i roots t :: List.replicate n (.go i))).shared = (getBackend W roots t m.shared).2 ∧
      (runBackend W m (.call i roots t :: List.replicate n (.go i))).thread i = .done t (getBackend W roots t m.shared).1 ∧
      ∀ j, j ≠ i → (runBackend W m (.call i roots t :: List.replicate n (.go i))).thread j = m.thread j := by
  obtain ⟨n, hn⟩ := solo_call (W := W) roots t m.shared
  have hc : actBackend W m (.call i roots t) = m.set i (.start roots t) m.shared := if_pos hi
  obtain ⟨h1, h2, h3⟩ := solo_run (W := W) i n (m.set i (.start roots t) m.shared)
  rw [machine_set_same] at h1 h2
  rw [show (m.set i (.start roots t) m.shared).shared = m.shared from rfl, hn] at h1 h2
  refine ⟨n, ?_, ?_, fun j hj => ?_⟩
  · rw [runBackend_cons, hc]; exact h1
  · rw [runBackend_cons, hc]; exact h2
  · rw [runBackend_cons, hc, h3 j hj]; exact machine_set_other m hj _ _

/-- C54: in every schedule, a backend that a call returned recognises some tensor of the type asked for that some thread
passed to `get_backend`; if recognition looks only at the type, it recognises the tensor itself. -/
theorem C54_recognises (W : BackendWorld C T Ty) (mods : List Str) (s : List (BackendAction C T)) (i : Nat) (t : T)
    (b : BackendObj C) (h : (runBackend W (BackendMachine.start mods) s).thread i = .done t (.ok b)) :
    (∃ t' ∈ askedTensors s, W.typeOf t' = W.typeOf t ∧ W.appropriate b.cls t' = .ok true) ∧
      (W.ByType → W.appropriate b.cls t = .ok true) := by
  have hm := ((MachineOK.start (W := W) mods).run s).thread i
  rw [h] at hm
  obtain ⟨t', h1, h2, h3⟩ := hm
  exact ⟨⟨t', by simpa using h1, h2, h3⟩, fun hb => hb _ _ _ h2 ▸ h3⟩

/-- C54: if recognition looks only at the type and no type is recognised by two classes, two calls for tensors of one type
that return backends return backends of one class, in whatever schedules they ran. -/
theorem C54_same_class (W : BackendWorld C T Ty) (hT : W.ByType)
    (hD : ∀ c c' t, W.appropriate c t = .ok true → W.appropriate c' t = .ok true → c = c') (mods mods' : List Str)
    (s s' : List (BackendAction C T)) (i i' : Nat) (t t' : T) (ht : W.typeOf t = W.typeOf t') (b b' : BackendObj C)
    (h : (runBackend W (BackendMachine.start mods) s).thread i = .done t (.ok b))
    (h' : (runBackend W (BackendMachine.start mods') s').thread i' = .done t' (.ok b')) : b.cls = b'.cls := by
  have h1 := (C54_recognises W mods s i t b h).2 hT
  have h2 := (C54_recognises W mods' s' i' t' b' h').2 hT
  exact hD _ _ t h1 (hT _ _ _ ht ▸ h2)

/-- C54: while modules are only added to `sys.modules`, no schedule makes a thread instantiate a backend whose framework is
not imported. -/
theorem C54_lazy (W : BackendWorld C T Ty) (hM : ∀ c m x, x ∈ m → x ∈ W.imports c m) (mods : List Str)
    (s : List (BackendAction C T)) (hs : OnlyImports W (BackendMachine.start mods) s) (c : C) (l : List Str)
    (h : (c, l) ∈ (runBackend W (BackendMachine.start mods) s).shared.made) : W.framework c ∈ l :=
  (MadeOK.run hM s hs ⟨fun _ h => by simp [BackendMachine.start, BackendState.start] at h,
    fun _ _ _ _ h => by cases h⟩).made _ h

/-- C54: a call cannot fail if, when it starts, a backend of a class that recognises the tensor is already in
`_loaded_backends`, whatever the other threads do meanwhile. -/
theorem C54_loaded (W : BackendWorld C T Ty) (hA : ∀ c t, ∃ v, W.appropriate c t = .ok v)
    (hF : ∀ c c', W.framework c = W.framework c' → c = c') (mods : List Str) (s : List (BackendAction C T)) (i : Nat)
    (roots : List (ClassTree C)) (t : T) (c : C) (hc : W.appropriate c t = .ok true)
    (hl : (dictGet (runBackend W (BackendMachine.start mods) s).shared.loaded (W.framework c)).isSome)
    (hi : ((runBackend W (BackendMachine.start mods) s).thread i).free = true) (s' : List (BackendAction C T))
    (hs' : NoCall i s') (t' : T) (r : Py (BackendObj C))
    (h : (runBackend W (BackendMachine.start mods) (s ++ .call i roots t :: s')).thread i = .done t' r) :
    t' = t ∧ ∃ b, r = .ok b := by
  have hm := (MachineOK.start (W := W) mods).run s
  have hm' := hm.act (.call i roots t)
  rw [runBackend_append, runBackend_cons] at h
  have hw : WarmShared W t (actBackend W (runBackend W (BackendMachine.start mods) s) (.call i roots t)).shared :=
    WarmShared.act ⟨c, hc, hl⟩ _
  have hp : WarmPhase W t ((actBackend W (runBackend W (BackendMachine.start mods) s) (.call i roots t)).thread i) := by
    simp only [actBackend]
    rw [if_pos hi, machine_set_same]
    rfl
  have := warm_run hA hF s' hs' hm' hw hp
  rw [h] at this
  exact this

/-- C54 (what is left of "`get_backend` gives up only when it must"): if frameworks behave and a call fails although the
framework of a class that recognises the tensor was imported all along, then the failure is a RuntimeError, another thread
has just loaded that backend, and from then on no call for a tensor that it recognises fails.
`C54_race` shows that such failures do occur. -/
theorem C54_complete_partial (W : BackendWorld C T Ty) (hA : ∀ c t, ∃ v, W.appropriate c t = .ok v)
    (hC : ∀ c m, W.construct c m = none) (hM : ∀ c m x, x ∈ m → x ∈ W.imports c m)
    (hF : ∀ c c', W.framework c = W.framework c' → c = c') (mods : List Str) (s s' : List (BackendAction C T)) (i : Nat)
    (hi : ((runBackend W (BackendMachine.start mods) s).thread i).free = true) (roots : List (ClassTree C)) (t t₁ : T)
    (hs' : NoCall i s') (e : PyErr)
    (h : (runBackend W (BackendMachine.start mods) (s ++ .call i roots t :: s')).thread i = .done t₁ (.error e))
    (c : C) (hc : InTrees c roots) (hmod : W.framework c ∈ (runBackend W (BackendMachine.start mods) s).shared.modules)
    (hmods : ∀ l, .modules l ∈ s' → W.framework c ∈ l) (ha : W.appropriate c t = .ok true) :
    t₁ = t ∧ e = .runtime ∧
      dictGet (runBackend W (BackendMachine.start mods) s).shared.loaded (W.framework c) = none ∧
      (∃ b, dictGet (runBackend W (BackendMachine.start mods) (s ++ .call i roots t :: s')).shared.loaded (W.framework c) =
        some b ∧ b.cls = c) ∧
      ∀ (s₁ s₂ : List (BackendAction C T)) (j : Nat) (roots' : List (ClassTree C)) (t' t₂ : T) (r : Py (BackendObj C)),
        W.appropriate c t' = .ok true →
        ((runBackend W (BackendMachine.start mods) ((s ++ .call i roots t :: s') ++ s₁)).thread j).free = true →
        NoCall j s₂ →
        (runBackend W (BackendMachine.start mods) (((s ++ .call i roots t :: s') ++ s₁) ++ .call j roots' t' :: s₂)).thread j
          = .done t₂ r →
        t₂ = t' ∧ ∃ b, r = .ok b := by
  have hsearch : SearchPhase W roots t c (runBackend W (BackendMachine.start mods) (s ++ .call i roots t :: s')).shared
      ((runBackend W (BackendMachine.start mods) (s ++ .call i roots t :: s')).thread i) := by
    rw [runBackend_append, runBackend_cons]
    refine search_run hA hC hM (mem_backendSubclasses.2 hc) s' hs' hmods ?_ ?_
    · simp only [actBackend]; split <;> exact hmod
    · simp only [actBackend]
      rw [if_pos hi, machine_set_same]
      exact ⟨rfl, rfl⟩
  rw [h] at hsearch
  obtain ⟨rfl, hr⟩ := hsearch
  obtain ⟨he, hl⟩ := hr.resolve_left (by rintro ⟨b, hb⟩; cases hb)
  obtain ⟨b, hb⟩ := Option.isSome_iff_exists.1 hl
  refine ⟨rfl, by cases he; rfl, ?_, ⟨b, hb, ?_⟩, ?_⟩
  · by_contra hn
    obtain ⟨_, b', hb'⟩ := C54_loaded W hA hF mods s i roots t₁ c ha (Option.isSome_iff_ne_none.2 hn) hi s' hs' t₁ _ h
    cases hb'
  · exact (hF _ _ (((MachineOK.start (W := W) mods).run (s ++ .call i roots t₁ :: s')).shared.loaded _ (dictGet_mem hb))).symm
  · intro s₁ s₂ j roots' t' t₂ r ha' hj hs₂ h₂
    refine C54_loaded W hA hF mods _ j roots' t' c ha' ?_ hj s₂ hs₂ t₂ r h₂
    rw [runBackend_append]
    exact run_grows s₁ _ hl

end Einops

namespace Einops

/-! ### What threads can see -/

section Examples

/-- `n` steps of thread `i` -/
def goes (i n : Nat) : List (BackendAction Str Str) := List.replicate n (.go i)

/-- Only numpy is imported; two threads make the first calls.  Thread 1 lists the (empty) `_loaded_backends`; then thread 0
runs to the end; then thread 1 continues. -/
def racing : List (BackendAction Str Str) :=
  [.call 0 backendTree np, .call 1 backendTree np] ++ goes 1 3 ++ goes 0 30 ++ goes 1 30

/-- C54: "`get_backend` gives up only when it must" (`C35_complete`) is false in several threads.  Frameworks behave, numpy
is imported from the start and its backend recognises the tensor; one thread gets the backend, the other a RuntimeError
"Tensor type unknown to einops", because it skips the class that is in `_loaded_backends` by now, although it was not there
when the thread looked through `_loaded_backends`. -/
theorem C54_race :
    (∀ c t, ∃ v, niceWorld.appropriate c t = .ok v) ∧ (∀ c m, niceWorld.construct c m = none) ∧
    (∀ c c', niceWorld.framework c = niceWorld.framework c' → c = c') ∧ niceWorld.ByType ∧
    InTrees np backendTree ∧ niceWorld.appropriate np np = .ok true ∧
    (∀ l, .modules l ∉ racing) ∧
    (runBackend niceWorld (BackendMachine.start [np]) racing).shared.modules = [np] ∧
    (runBackend niceWorld (BackendMachine.start [np]) racing).thread 0 = .done np (.ok ⟨np, 0⟩) ∧
    (runBackend niceWorld (BackendMachine.start [np]) racing).thread 1 = .done np (.error .runtime) := by
  refine ⟨fun _ _ => ⟨_, rfl⟩, fun _ _ => rfl, fun _ _ h => h, fun _ _ _ h => ?_, ?_, by decide +kernel, ?_, by decide +kernel,
    rfl, rfl⟩
  · simp only [niceWorld, id] at *; rw [h]
  · exact mem_backendSubclasses.1 (by decide +kernel)
  · intro l h
    simp [racing, goes] at h

/-- both threads look before either loads anything -/
def doubled : List (BackendAction Str Str) :=
  [.call 0 backendTree np, .call 1 backendTree np] ++ goes 1 21 ++ goes 0 30

/-- C54: `C35_once` and `C35_stable` are false in several threads: the backend of a framework can be instantiated twice, and
a call can return another object than an earlier call for the same type did (of the same class, by `C54_same_class`). -/
theorem C54_two_objects :
    (runBackend niceWorld (BackendMachine.start [np]) (doubled ++ goes 1 30)).shared.made = [(np, [np]), (np, [np])] ∧
    (runBackend niceWorld (BackendMachine.start [np]) doubled).thread 0 = .done np (.ok ⟨np, 0⟩) ∧
    (runBackend niceWorld (BackendMachine.start [np]) (doubled ++ goes 1 30 ++ .call 0 backendTree np :: goes 0 1)).thread 0 =
      .done np (.ok ⟨np, 1⟩) := by
  refine ⟨by decide +kernel, rfl, rfl⟩

/-- `C54_complete_partial` applies to the race: afterwards the backend is there, and whoever asks for numpy gets it. -/
example : ∀ (s₁ s₂ : List (BackendAction Str Str)) (j : Nat) (t₂ : Str) (r : Py (BackendObj Str)),
    ((runBackend niceWorld (BackendMachine.start [np]) (racing ++ s₁)).thread j).free = true → NoCall j s₂ →
    (runBackend niceWorld (BackendMachine.start [np]) ((racing ++ s₁) ++ .call j backendTree np :: s₂)).thread j =
      .done t₂ r → t₂ = np ∧ ∃ b, r = .ok b := by
  have h := C54_complete_partial niceWorld (fun _ _ => ⟨_, rfl⟩) (fun _ _ => rfl) (fun _ _ _ h => h) (fun _ _ h => h) [np]
    [.call 0 backendTree np] (goes 1 3 ++ goes 0 30 ++ goes 1 30) 1 rfl backendTree np np
    (fun r t h => by simp [goes] at h) .runtime C54_race.2.2.2.2.2.2.2.2.2 np (mem_backendSubclasses.1 (by decide +kernel)) (by decide +kernel)
    (fun l h => by simp [goes] at h) (by decide +kernel)
  intro s₁ s₂ j t₂ r hj hs hr
  exact h.2.2.2.2 s₁ s₂ j backendTree np t₂ r (by decide +kernel) hj hs hr

set_option maxRecDepth 4000 in
/-- one of them: thread 1 asks again -/
example : (runBackend niceWorld (BackendMachine.start [np]) (racing ++ .call 1 backendTree np :: goes 1 3)).thread 1 =
    .done np (.ok ⟨np, 0⟩) := rfl

/-- `C54_loaded`: torch is imported and thread 2 calls while numpy's backend is loaded -/
example : (dictGet (runBackend niceWorld (BackendMachine.start [np]) (racing ++ [.modules [np, tch]])).shared.loaded
    (niceWorld.framework np)).isSome := by decide +kernel

/-- `C54_lazy`: a schedule in which torch is imported in the middle of a call -/
example : OnlyImports niceWorld (BackendMachine.start [np])
    (.call 0 backendTree np :: goes 0 3 ++ .modules [np, tch] :: goes 0 30) := by
  intro s1 l s2 h
  have h1 : s1 = .call 0 backendTree np :: goes 0 3 ∧ l = [np, tch] := by
    have hs : (.call 0 backendTree np :: goes 0 3 ++ .modules [np, tch] :: goes 0 30 : List (BackendAction Str Str)) =
      [.call 0 backendTree np, .go 0, .go 0, .go 0, .modules [np, tch]] ++ goes 0 30 := rfl
    rw [hs] at h
    match s1, h with
    | [_, _, _, _], h =>
      simp only [List.cons_append, List.nil_append, List.cons.injEq, BackendAction.modules.injEq] at h
      obtain ⟨rfl, rfl, rfl, rfl, rfl, -⟩ := h
      exact ⟨rfl, rfl⟩
    | [], h => simp at h
    | [_], h => simp at h
    | [_, _], h => simp at h
    | [_, _, _], h => simp at h
    | _ :: _ :: _ :: _ :: _ :: s1, h =>
      simp only [List.cons_append, List.cons.injEq] at h
      have : (.modules l : BackendAction Str Str) ∈ goes 0 30 := by
        have h2 := h.2.2.2.2.2
        rw [List.nil_append] at h2
        rw [h2]; simp
      simp [goes] at this
  obtain ⟨rfl, rfl⟩ := h1
  decide +kernel

example : (runBackend niceWorld (BackendMachine.start [np])
    (.call 0 backendTree np :: goes 0 3 ++ .modules [np, tch] :: goes 0 30)).shared.made =
    [(tch, [np, tch]), (np, [np, tch])] := by decide +kernel

end Examples

end Einops
