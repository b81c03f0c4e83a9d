import Verif.BackendThreads
import Verif.Proofs.GetBackend

/-! What holds in every schedule of calls of `get_backend`. -/

namespace Einops

variable {C T Ty : Type} [DecidableEq Ty] {W : BackendWorld C T Ty} {m : BackendMachine C T Ty}

/-- tensors that threads asked for -/
def askedTensors : List (BackendAction C T) → List T
  | [] => []
  | .call _ _ t :: s => t :: askedTensors s
  | _ :: s => askedTensors s

omit [DecidableEq Ty] in
theorem machine_set_same (m : BackendMachine C T Ty) (i : Nat) (p : BackendPhase C T) (st : BackendState C Ty) :
    (m.set i p st).thread i = p := if_pos rfl

omit [DecidableEq Ty] in
theorem machine_set_other (m : BackendMachine C T Ty) {i j : Nat} (h : j ≠ i) (p : BackendPhase C T) (st : BackendState C Ty) :
    (m.set i p st).thread j = m.thread j := if_neg h

theorem runBackend_cons (m : BackendMachine C T Ty) (a : BackendAction C T) (s : List (BackendAction C T)) :
    runBackend W m (a :: s) = runBackend W (actBackend W m a) s := rfl

theorem runBackend_append (m : BackendMachine C T Ty) (s s' : List (BackendAction C T)) :
    runBackend W m (s ++ s') = runBackend W (runBackend W m s) s' := List.foldl_append

/-! ### Backends that are returned -/

/-- what a thread knows -/
def PhaseOK (W : BackendWorld C T Ty) (seen : List T) : BackendPhase C T → Prop
  | .idle => True
  | .start _ t => t ∈ seen
  | .list _ t => t ∈ seen
  | .scan _ t rest => t ∈ seen ∧ ∀ p ∈ rest, p.1 = W.framework p.2.cls
  | .store t b => t ∈ seen ∧ W.appropriate b.cls t = .ok true
  | .trying t _ => t ∈ seen
  | .check t _ _ => t ∈ seen
  | .make t _ _ => t ∈ seen
  | .insert t _ _ => t ∈ seen
  | .ask t _ _ => t ∈ seen
  | .done t (.ok b) => ∃ t' ∈ seen, W.typeOf t' = W.typeOf t ∧ W.appropriate b.cls t' = .ok true
  | .done _ (.error _) => True

/-- what holds of the dictionaries -/
structure SharedOK (W : BackendWorld C T Ty) (seen : List T) (st : BackendState C Ty) : Prop where
  types : ∀ p ∈ st.types, ∃ t ∈ seen, W.typeOf t = p.1 ∧ W.appropriate p.2.cls t = .ok true
  loaded : ∀ p ∈ st.loaded, p.1 = W.framework p.2.cls

theorem stepBackend_ok {seen : List T} {p : BackendPhase C T} {st : BackendState C Ty} (hp : PhaseOK W seen p)
    (hs : SharedOK W seen st) :
    PhaseOK W seen (stepBackend W p st).1 ∧ SharedOK W seen (stepBackend W p st).2 := by
  cases p with
  | idle => exact ⟨hp, hs⟩
  | start roots t =>
    simp only [stepBackend]
    split
    · rename_i b hb
      obtain ⟨t', h1, h2, h3⟩ := hs.types _ (dictGet_mem hb)
      exact ⟨⟨t', h1, h2, h3⟩, hs⟩
    · exact ⟨hp, hs⟩
  | list roots t => exact ⟨⟨hp, hs.loaded⟩, hs⟩
  | scan roots t rest =>
    cases rest with
    | nil => exact ⟨hp.1, hs⟩
    | cons q rest =>
      obtain ⟨n, b⟩ := q
      simp only [stepBackend]
      split
      · exact ⟨trivial, hs⟩
      · rename_i ha; exact ⟨⟨hp.1, ha⟩, hs⟩
      · exact ⟨⟨hp.1, fun p h => hp.2 p (List.mem_cons_of_mem _ h)⟩, hs⟩
  | store t b =>
    refine ⟨⟨t, hp.1, rfl, hp.2⟩, fun p h => ?_, hs.loaded⟩
    rcases mem_dictSet h with rfl | h
    · exact ⟨t, hp.1, rfl, hp.2⟩
    · exact hs.types p h
  | trying t cs =>
    cases cs with
    | nil => exact ⟨trivial, hs⟩
    | cons c cs => simp only [stepBackend]; split <;> exact ⟨hp, hs⟩
  | check t c cs => simp only [stepBackend]; split <;> exact ⟨hp, hs⟩
  | make t c cs =>
    simp only [stepBackend]
    split
    · exact ⟨trivial, hs.types, hs.loaded⟩
    · exact ⟨hp, hs.types, hs.loaded⟩
  | insert t b cs =>
    refine ⟨hp, hs.types, fun p h => ?_⟩
    rcases mem_dictSet h with rfl | h
    · rfl
    · exact hs.loaded p h
  | ask t b cs =>
    simp only [stepBackend]
    split
    · exact ⟨trivial, hs⟩
    · rename_i ha; exact ⟨⟨hp, ha⟩, hs⟩
    · exact ⟨hp, hs⟩
  | done t r => exact ⟨hp, hs⟩

/-- the invariant of the machine -/
structure MachineOK (W : BackendWorld C T Ty) (seen : List T) (m : BackendMachine C T Ty) : Prop where
  shared : SharedOK W seen m.shared
  thread : ∀ i, PhaseOK W seen (m.thread i)

omit [DecidableEq Ty] in
theorem PhaseOK.more {seen seen' : List T} (h : ∀ t ∈ seen, t ∈ seen') {p : BackendPhase C T} (hp : PhaseOK W seen p) :
    PhaseOK W seen' p := by
  cases p with
  | idle => trivial
  | scan => exact ⟨h _ hp.1, hp.2⟩
  | store => exact ⟨h _ hp.1, hp.2⟩
  | done t r =>
    cases r with
    | error => trivial
    | ok b => obtain ⟨t', h1, h2⟩ := hp; exact ⟨t', h t' h1, h2⟩
  | _ => exact h _ hp

omit [DecidableEq Ty] in
theorem MachineOK.more {seen seen' : List T} (h : ∀ t ∈ seen, t ∈ seen') (hm : MachineOK W seen m) : MachineOK W seen' m :=
  ⟨⟨fun p hp => by obtain ⟨t, h1, h2⟩ := hm.shared.types p hp; exact ⟨t, h t h1, h2⟩, hm.shared.loaded⟩,
    fun i => (hm.thread i).more h⟩

theorem MachineOK.act {seen : List T} (hm : MachineOK W seen m) (a : BackendAction C T) :
    MachineOK W (seen ++ askedTensors [a]) (actBackend W m a) := by
  cases a with
  | modules l =>
    refine MachineOK.more (seen := seen) (fun _ h => List.mem_append_left _ h) ?_
    exact ⟨⟨hm.shared.types, hm.shared.loaded⟩, hm.thread⟩
  | call i roots t =>
    have hm' : MachineOK W (seen ++ [t]) m := hm.more (by simp +contextual)
    show MachineOK W (seen ++ [t]) _
    simp only [actBackend]
    split
    · refine ⟨hm'.shared, fun j => ?_⟩
      by_cases h : j = i
      · subst h; rw [machine_set_same]; show t ∈ seen ++ [t]; simp
      · rw [machine_set_other m h]; exact hm'.thread j
    · exact hm'
  | go i =>
    refine MachineOK.more (seen := seen) (fun _ h => List.mem_append_left _ h) ?_
    obtain ⟨h1, h2⟩ := stepBackend_ok (hm.thread i) hm.shared
    refine ⟨h2, fun j => ?_⟩
    by_cases h : j = i
    · subst h; simp only [actBackend]; rw [machine_set_same]; exact h1
    · simp only [actBackend]; rw [machine_set_other m h]; exact hm.thread j

theorem askedTensors_cons (a : BackendAction C T) (s : List (BackendAction C T)) :
    askedTensors (a :: s) = askedTensors [a] ++ askedTensors s := by
  cases a <;> rfl

theorem MachineOK.run (s : List (BackendAction C T)) : ∀ {seen : List T} {m : BackendMachine C T Ty}, MachineOK W seen m →
    MachineOK W (seen ++ askedTensors s) (runBackend W m s) := by
  induction s with
  | nil => intro seen m h; exact h.more (fun _ h => List.mem_append_left _ h)
  | cons a s ih =>
    intro seen m h
    rw [runBackend_cons, askedTensors_cons, ← List.append_assoc]
    exact ih (h.act a)

omit [DecidableEq Ty] in
theorem MachineOK.start (mods : List Str) : MachineOK W [] (BackendMachine.start mods) :=
  ⟨⟨fun _ h => by simp [BackendMachine.start, BackendState.start] at h,
    fun _ h => by simp [BackendMachine.start, BackendState.start] at h⟩, fun _ => trivial⟩

/-! ### Dictionaries only grow -/

theorem dictGet_set_isSome {κ ν : Type} [DecidableEq κ] {d : List (κ × ν)} {k k' : κ} {v : ν}
    (h : (dictGet d k').isSome) : (dictGet (dictSet d k v) k').isSome := by
  by_cases he : k' = k
  · subst he; rw [dictGet_set_same]; rfl
  · rw [dictGet_set_other _ _ he]; exact h

theorem step_grows (p : BackendPhase C T) (st : BackendState C Ty) :
    (∀ n, (dictGet st.loaded n).isSome → (dictGet (stepBackend W p st).2.loaded n).isSome) ∧
    (∀ n, (dictGet st.types n).isSome → (dictGet (stepBackend W p st).2.types n).isSome) := by
  cases p with
  | scan roots t rest =>
    cases rest with
    | nil => exact ⟨fun _ h => h, fun _ h => h⟩
    | cons q rest => simp only [stepBackend]; split <;> exact ⟨fun _ h => h, fun _ h => h⟩
  | trying t cs =>
    cases cs with
    | nil => exact ⟨fun _ h => h, fun _ h => h⟩
    | cons c cs => simp only [stepBackend]; split <;> exact ⟨fun _ h => h, fun _ h => h⟩
  | start => simp only [stepBackend]; split <;> exact ⟨fun _ h => h, fun _ h => h⟩
  | check => simp only [stepBackend]; split <;> exact ⟨fun _ h => h, fun _ h => h⟩
  | make => simp only [stepBackend]; split <;> exact ⟨fun _ h => h, fun _ h => h⟩
  | ask => simp only [stepBackend]; split <;> exact ⟨fun _ h => h, fun _ h => h⟩
  | store => exact ⟨fun _ h => h, fun _ h => dictGet_set_isSome h⟩
  | insert => exact ⟨fun _ h => dictGet_set_isSome h, fun _ h => h⟩
  | _ => exact ⟨fun _ h => h, fun _ h => h⟩

theorem act_grows (m : BackendMachine C T Ty) (a : BackendAction C T) :
    (∀ n, (dictGet m.shared.loaded n).isSome → (dictGet (actBackend W m a).shared.loaded n).isSome) ∧
    (∀ n, (dictGet m.shared.types n).isSome → (dictGet (actBackend W m a).shared.types n).isSome) := by
  cases a with
  | modules l => exact ⟨fun _ h => h, fun _ h => h⟩
  | call i roots t => simp only [actBackend]; split <;> exact ⟨fun _ h => h, fun _ h => h⟩
  | go i => exact step_grows _ _

theorem run_grows (s : List (BackendAction C T)) (m : BackendMachine C T Ty) {n : Str}
    (h : (dictGet m.shared.loaded n).isSome) : (dictGet (runBackend W m s).shared.loaded n).isSome := by
  induction s generalizing m with
  | nil => exact h
  | cons a s ih => exact ih _ ((act_grows m a).1 n h)

/-! ### Calls that cannot fail -/

/-- a call that will succeed -/
def WarmPhase (W : BackendWorld C T Ty) (t : T) : BackendPhase C T → Prop
  | .start _ t' => t' = t
  | .list _ t' => t' = t
  | .scan _ t' rest => t' = t ∧ ∃ p ∈ rest, W.appropriate p.2.cls t = .ok true
  | .store t' _ => t' = t
  | .done t' r => t' = t ∧ ∃ b, r = .ok b
  | _ => False

/-- why it will -/
def WarmShared (W : BackendWorld C T Ty) (t : T) (st : BackendState C Ty) : Prop :=
  ∃ c, W.appropriate c t = .ok true ∧ (dictGet st.loaded (W.framework c)).isSome

theorem warm_step (hA : ∀ c t, ∃ v, W.appropriate c t = .ok v) (hF : ∀ c c', W.framework c = W.framework c' → c = c')
    {t : T} {p : BackendPhase C T} {st : BackendState C Ty} {seen : List T} (hs : SharedOK W seen st)
    (hw : WarmShared W t st) (hp : WarmPhase W t p) : WarmPhase W t (stepBackend W p st).1 := by
  cases p with
  | start roots t' =>
    simp only [stepBackend]
    split
    · exact ⟨hp, _, rfl⟩
    · exact hp
  | list roots t' =>
    refine ⟨hp, ?_⟩
    obtain ⟨c, h1, h2⟩ := hw
    obtain ⟨b, hb⟩ := Option.isSome_iff_exists.1 h2
    have := dictGet_mem hb
    exact ⟨_, this, by rw [← hF _ _ (hs.loaded _ this)]; exact h1⟩
  | scan roots t' rest =>
    obtain ⟨rfl, q, hq, ha⟩ := hp
    cases rest with
    | nil => cases hq
    | cons q' rest =>
      obtain ⟨n, b⟩ := q'
      obtain ⟨v, hv⟩ := hA b.cls t'
      simp only [stepBackend, hv]
      cases v with
      | true => rfl
      | false =>
        refine ⟨rfl, q, ?_, ha⟩
        rcases List.mem_cons.1 hq with rfl | hq
        · rw [hv] at ha; cases ha
        · exact hq
  | store t' b => exact ⟨hp, _, rfl⟩
  | done => exact hp
  | _ => exact hp.elim

/-- a schedule during which thread `i` starts no call -/
def NoCall (i : Nat) (s : List (BackendAction C T)) : Prop := ∀ roots t, .call i roots t ∉ s

theorem warm_act (hA : ∀ c t, ∃ v, W.appropriate c t = .ok v) (hF : ∀ c c', W.framework c = W.framework c' → c = c')
    {t : T} {i : Nat} {seen : List T} (hm : MachineOK W seen m) (hw : WarmShared W t m.shared)
    (hp : WarmPhase W t (m.thread i)) {a : BackendAction C T} (ha : NoCall i [a]) :
    WarmPhase W t ((actBackend W m a).thread i) := by
  cases a with
  | modules l => exact hp
  | call j roots t' =>
    have hj : i ≠ j := by
      rintro rfl
      exact ha roots t' (by simp)
    simp only [actBackend]
    split
    · rw [machine_set_other m hj]; exact hp
    · exact hp
  | go j =>
    simp only [actBackend]
    by_cases hj : i = j
    · subst hj; rw [machine_set_same]; exact warm_step hA hF hm.shared hw hp
    · rw [machine_set_other m hj]; exact hp

theorem WarmShared.act {t : T} (h : WarmShared W t m.shared) (a : BackendAction C T) :
    WarmShared W t (actBackend W m a).shared := by
  obtain ⟨c, h1, h2⟩ := h
  exact ⟨c, h1, (act_grows m a).1 _ h2⟩

theorem warm_run (hA : ∀ c t, ∃ v, W.appropriate c t = .ok v) (hF : ∀ c c', W.framework c = W.framework c' → c = c')
    {t : T} {i : Nat} (s : List (BackendAction C T)) (hs : NoCall i s) : ∀ {seen : List T} {m : BackendMachine C T Ty},
    MachineOK W seen m → WarmShared W t m.shared → WarmPhase W t (m.thread i) →
    WarmPhase W t ((runBackend W m s).thread i) := by
  induction s with
  | nil => intro seen m _ _ h; exact h
  | cons a s ih =>
    intro seen m hm hw hp
    rw [runBackend_cons]
    exact ih (fun r t h => hs r t (List.mem_cons_of_mem _ h)) (hm.act a) (hw.act a)
      (warm_act hA hF hm hw hp (fun r t h => hs r t (by simp only [List.mem_singleton] at h; rw [h]; simp)))

/-! ### Failing calls -/

/-- the class `c` is not forgotten -/
def SearchPhase (W : BackendWorld C T Ty) (roots : List (ClassTree C)) (t : T) (c : C) (st : BackendState C Ty) :
    BackendPhase C T → Prop
  | .start roots' t' => roots' = roots ∧ t' = t
  | .list roots' t' => roots' = roots ∧ t' = t
  | .scan roots' t' _ => roots' = roots ∧ t' = t
  | .store t' _ => t' = t
  | .trying t' cs => t' = t ∧ (c ∈ cs ∨ (dictGet st.loaded (W.framework c)).isSome)
  | .check t' c' cs => t' = t ∧ (c' = c ∨ c ∈ cs ∨ (dictGet st.loaded (W.framework c)).isSome)
  | .make t' c' cs => t' = t ∧ (c' = c ∨ c ∈ cs ∨ (dictGet st.loaded (W.framework c)).isSome)
  | .insert t' b cs => t' = t ∧ (b.cls = c ∨ c ∈ cs ∨ (dictGet st.loaded (W.framework c)).isSome)
  | .ask t' _ cs => t' = t ∧ (c ∈ cs ∨ (dictGet st.loaded (W.framework c)).isSome)
  | .done t' r => t' = t ∧ ((∃ b, r = .ok b) ∨ r = .error .runtime ∧ (dictGet st.loaded (W.framework c)).isSome)
  | .idle => False

omit [DecidableEq Ty] in
theorem SearchPhase.grows {roots : List (ClassTree C)} {t : T} {c : C} {st st' : BackendState C Ty}
    {p : BackendPhase C T} (h : SearchPhase W roots t c st p)
    (hg : (dictGet st.loaded (W.framework c)).isSome → (dictGet st'.loaded (W.framework c)).isSome) :
    SearchPhase W roots t c st' p := by
  cases p with
  | trying => exact ⟨h.1, h.2.imp id hg⟩
  | check => exact ⟨h.1, h.2.imp id (Or.imp id hg)⟩
  | make => exact ⟨h.1, h.2.imp id (Or.imp id hg)⟩
  | insert => exact ⟨h.1, h.2.imp id (Or.imp id hg)⟩
  | ask => exact ⟨h.1, h.2.imp id hg⟩
  | done => exact ⟨h.1, h.2.imp id (And.imp id hg)⟩
  | _ => exact h

theorem search_step (hA : ∀ c t, ∃ v, W.appropriate c t = .ok v) (hC : ∀ c m, W.construct c m = none)
    {roots : List (ClassTree C)} {t : T} {c : C} (hc : c ∈ backendSubclasses roots) {st : BackendState C Ty}
    (hmod : W.framework c ∈ st.modules) {p : BackendPhase C T} (h : SearchPhase W roots t c st p) :
    SearchPhase W roots t c (stepBackend W p st).2 (stepBackend W p st).1 := by
  cases p with
  | idle => exact h
  | start roots' t' =>
    simp only [stepBackend]
    split
    · exact ⟨h.2, .inl ⟨_, rfl⟩⟩
    · exact h
  | list roots' t' => exact h
  | scan roots' t' rest =>
    cases rest with
    | nil => exact ⟨h.2, .inl (h.1 ▸ hc)⟩
    | cons q rest =>
      obtain ⟨n, b⟩ := q
      obtain ⟨v, hv⟩ := hA b.cls t'
      simp only [stepBackend, hv]
      cases v
      · exact h
      · exact h.2
  | store t' b => exact ⟨h, .inl ⟨_, rfl⟩⟩
  | trying t' cs =>
    cases cs with
    | nil => exact ⟨h.1, .inr ⟨rfl, h.2.resolve_left (by simp)⟩⟩
    | cons c' cs =>
      simp only [stepBackend]
      split
      · rename_i b hb
        refine ⟨h.1, ?_⟩
        rcases h.2 with h2 | h2
        · rcases List.mem_cons.1 h2 with rfl | h2
          · exact .inr (by rw [hb]; rfl)
          · exact .inl h2
        · exact .inr h2
      · refine ⟨h.1, ?_⟩
        rcases h.2 with h2 | h2
        · rcases List.mem_cons.1 h2 with rfl | h2
          · exact .inl rfl
          · exact .inr (.inl h2)
        · exact .inr (.inr h2)
  | check t' c' cs =>
    simp only [stepBackend]
    split
    · exact h
    · rename_i hn
      refine ⟨h.1, h.2.resolve_left ?_⟩
      rintro rfl
      exact hn hmod
  | make t' c' cs =>
    simp only [stepBackend, hC]
    exact h
  | insert t' b cs =>
    refine ⟨h.1, ?_⟩
    simp only [stepBackend]
    rcases h.2 with h2 | h2 | h2
    · right; rw [h2, dictGet_set_same]; rfl
    · exact .inl h2
    · exact .inr (dictGet_set_isSome h2)
  | ask t' b cs =>
    obtain ⟨v, hv⟩ := hA b.cls t'
    simp only [stepBackend, hv]
    cases v
    · exact h
    · exact h.1
  | done t' r => exact h

theorem search_run (hA : ∀ c t, ∃ v, W.appropriate c t = .ok v) (hC : ∀ c m, W.construct c m = none)
    (hM : ∀ c m x, x ∈ m → x ∈ W.imports c m) {roots : List (ClassTree C)} {t : T} {c : C}
    (hc : c ∈ backendSubclasses roots) {i : Nat} (s : List (BackendAction C T)) (hs : NoCall i s)
    (hmods : ∀ l, .modules l ∈ s → W.framework c ∈ l) : ∀ {m : BackendMachine C T Ty}, W.framework c ∈ m.shared.modules →
    SearchPhase W roots t c m.shared (m.thread i) →
    SearchPhase W roots t c (runBackend W m s).shared ((runBackend W m s).thread i) := by
  induction s with
  | nil => intro m _ h; exact h
  | cons a s ih =>
    intro m hm hp
    rw [runBackend_cons]
    refine ih (fun r t h => hs r t (List.mem_cons_of_mem _ h)) (fun l h => hmods l (List.mem_cons_of_mem _ h)) ?_ ?_
    · cases a with
      | modules l => exact hmods l (by simp)
      | call j roots' t' => simp only [actBackend]; split <;> exact hm
      | go j =>
        simp only [actBackend, BackendMachine.set]
        cases m.thread j with
        | make t' c' cs =>
          simp only [stepBackend]
          split <;> exact hM _ _ _ hm
        | scan roots' t' rest =>
          cases rest with
          | nil => exact hm
          | cons q rest => simp only [stepBackend]; split <;> exact hm
        | trying t' cs =>
          cases cs with
          | nil => exact hm
          | cons q rest => simp only [stepBackend]; split <;> exact hm
        | start => simp only [stepBackend]; split <;> exact hm
        | check => simp only [stepBackend]; split <;> exact hm
        | ask => simp only [stepBackend]; split <;> exact hm
        | _ => exact hm
    · cases a with
      | modules l => exact hp.grows id
      | call j roots' t' =>
        have hj : i ≠ j := by
          rintro rfl
          exact hs roots' t' (by simp)
        simp only [actBackend]
        split
        · rw [machine_set_other m hj]; exact hp
        · exact hp
      | go j =>
        by_cases hj : i = j
        · subst hj
          simp only [actBackend]
          rw [machine_set_same]
          exact search_step hA hC hc hm hp
        · have := hp.grows ((act_grows (W := W) m (.go j)).1 (W.framework c))
          simp only [actBackend] at this ⊢
          rw [machine_set_other m hj]
          exact this

/-! ### A thread that is not disturbed -/

/-- one action of a thread, with the dictionaries -/
def soloStep (W : BackendWorld C T Ty) (q : BackendPhase C T × BackendState C Ty) :
    BackendPhase C T × BackendState C Ty := stepBackend W q.1 q.2

theorem solo_trans {q q' q'' : BackendPhase C T × BackendState C Ty} (h : ∃ n, (soloStep W)^[n] q = q')
    (h' : ∃ n, (soloStep W)^[n] q' = q'') : ∃ n, (soloStep W)^[n] q = q'' := by
  obtain ⟨n, rfl⟩ := h
  obtain ⟨k, rfl⟩ := h'
  exact ⟨k + n, Function.iterate_add_apply _ _ _ _⟩

theorem solo_step {q q' : BackendPhase C T × BackendState C Ty} (h : ∃ n, (soloStep W)^[n] (soloStep W q) = q') :
    ∃ n, (soloStep W)^[n] q = q' := solo_trans ⟨1, rfl⟩ h

theorem solo_classes (t : T) (cs : List C) : ∀ st : BackendState C Ty,
    ∃ n, (soloStep W)^[n] (.trying t cs, st) = (.done t (tryClasses W t cs st).1, (tryClasses W t cs st).2) := by
  induction cs with
  | nil => intro st; exact ⟨1, rfl⟩
  | cons c cs ih =>
    intro st
    apply solo_step
    simp only [soloStep, stepBackend, tryClasses]
    cases hd : dictGet st.loaded (W.framework c) with
    | some b => exact ih st
    | none =>
      simp only
      apply solo_step
      simp only [soloStep, stepBackend]
      by_cases hm : W.framework c ∈ st.modules
      swap
      · rw [if_neg hm, if_neg hm]; exact ih st
      rw [if_pos hm, if_pos hm]
      apply solo_step
      simp only [soloStep, stepBackend]
      cases hc : W.construct c st.modules with
      | some e => exact ⟨0, rfl⟩
      | none =>
        simp only
        apply solo_step
        apply solo_step
        simp only [soloStep, stepBackend]
        cases ha : W.appropriate c t with
        | error e => exact ⟨0, rfl⟩
        | ok v =>
          cases v with
          | true => exact ⟨1, rfl⟩
          | false => exact ih _

theorem solo_scan (roots : List (ClassTree C)) (t : T) (st : BackendState C Ty) (l : List (Str × BackendObj C)) :
    ∃ n, (soloStep W)^[n] (.scan roots t l, st) =
      match findLoaded W t l with
      | .error e => (.done t (.error e), st)
      | .ok (some b) => (.done t (.ok b), { st with types := dictSet st.types (W.typeOf t) b })
      | .ok none => (.done t (tryClasses W t (backendSubclasses roots) st).1,
          (tryClasses W t (backendSubclasses roots) st).2) := by
  induction l with
  | nil => exact solo_step (solo_classes t _ st)
  | cons q l ih =>
    obtain ⟨n, b⟩ := q
    apply solo_step
    simp only [soloStep, stepBackend, findLoaded]
    cases ha : W.appropriate b.cls t with
    | error e => exact ⟨0, rfl⟩
    | ok v =>
      cases v with
      | true => exact ⟨1, rfl⟩
      | false => exact ih

theorem solo_call (roots : List (ClassTree C)) (t : T) (st : BackendState C Ty) :
    ∃ n, (soloStep W)^[n] (.start roots t, st) = (.done t (getBackend W roots t st).1, (getBackend W roots t st).2) := by
  apply solo_step
  simp only [soloStep, stepBackend, getBackend]
  cases hd : dictGet st.types (W.typeOf t) with
  | some b => exact ⟨0, rfl⟩
  | none =>
    simp only
    apply solo_step
    simp only [soloStep, stepBackend]
    obtain ⟨n, hn⟩ := solo_scan (W := W) roots t st st.loaded
    refine ⟨n, hn.trans ?_⟩
    cases findLoaded W t st.loaded with
    | error e => rfl
    | ok o => cases o <;> rfl

theorem solo_run (i : Nat) (n : Nat) : ∀ m : BackendMachine C T Ty,
    (runBackend W m (List.replicate n (.go i))).shared = ((soloStep W)^[n] (m.thread i, m.shared)).2 ∧
    (runBackend W m (List.replicate n (.go i))).thread i = ((soloStep W)^[n] (m.thread i, m.shared)).1 ∧
    ∀ j, j ≠ i → (runBackend W m (List.replicate n (.go i))).thread j = m.thread j := by
  induction n with
  | zero => intro m; exact ⟨rfl, rfl, fun _ _ => rfl⟩
  | succ n ih =>
    intro m
    rw [List.replicate_succ, runBackend_cons]
    obtain ⟨h1, h2, h3⟩ := ih (actBackend W m (.go i))
    have he : ((actBackend W m (.go i)).thread i, (actBackend W m (.go i)).shared) = soloStep W (m.thread i, m.shared) := by
      simp only [actBackend]
      rw [machine_set_same]
      rfl
    rw [he] at h1 h2
    rw [Function.iterate_succ_apply]
    refine ⟨h1, h2, fun j hj => ?_⟩
    rw [h3 j hj]
    simp only [actBackend]
    exact machine_set_other m hj _ _

end Einops

namespace Einops

variable {C T Ty : Type} [DecidableEq Ty] {W : BackendWorld C T Ty} {m : BackendMachine C T Ty}

/-! ### Imported frameworks -/

/-- modules are imported during the schedule, never removed -/
def OnlyImports (W : BackendWorld C T Ty) (m : BackendMachine C T Ty) (s : List (BackendAction C T)) : Prop :=
  ∀ s1 l s2, s = s1 ++ .modules l :: s2 → ∀ x ∈ (runBackend W m s1).shared.modules, x ∈ l

/-- a class is instantiated only after its framework was seen -/
structure MadeOK (W : BackendWorld C T Ty) (m : BackendMachine C T Ty) : Prop where
  made : ∀ p ∈ m.shared.made, W.framework p.1 ∈ p.2
  thread : ∀ i t c cs, m.thread i = .make t c cs → W.framework c ∈ m.shared.modules

theorem step_modules (hM : ∀ c m x, x ∈ m → x ∈ W.imports c m) (p : BackendPhase C T) (st : BackendState C Ty) :
    ∀ x ∈ st.modules, x ∈ (stepBackend W p st).2.modules := by
  intro x hx
  cases p with
  | make t' c' cs =>
    simp only [stepBackend]
    split <;> exact hM _ _ _ hx
  | scan roots' t' rest =>
    cases rest with
    | nil => exact hx
    | cons q rest => simp only [stepBackend]; split <;> exact hx
  | trying t' cs =>
    cases cs with
    | nil => exact hx
    | cons q rest => simp only [stepBackend]; split <;> exact hx
  | start => simp only [stepBackend]; split <;> exact hx
  | check => simp only [stepBackend]; split <;> exact hx
  | ask => simp only [stepBackend]; split <;> exact hx
  | _ => exact hx

theorem step_made {p : BackendPhase C T} {st : BackendState C Ty} (hmade : ∀ p ∈ st.made, W.framework p.1 ∈ p.2)
    (hp : ∀ t c cs, p = .make t c cs → W.framework c ∈ st.modules) :
    (∀ q ∈ (stepBackend W p st).2.made, W.framework q.1 ∈ q.2) ∧
    (∀ t c cs, (stepBackend W p st).1 = .make t c cs → W.framework c ∈ (stepBackend W p st).2.modules) := by
  cases p with
  | make t' c' cs =>
    have h1 : ∀ p ∈ st.made ++ [(c', st.modules)], W.framework p.1 ∈ p.2 := by
      intro p h
      rcases List.mem_append.1 h with h | h
      · exact hmade p h
      · rw [List.mem_singleton.1 h]; exact hp _ _ _ rfl
    simp only [stepBackend]
    split
    · exact ⟨h1, fun _ _ _ h => by cases h⟩
    · exact ⟨h1, fun _ _ _ h => by cases h⟩
  | scan roots' t' rest =>
    cases rest with
    | nil => exact ⟨hmade, fun _ _ _ h => by cases h⟩
    | cons q rest => simp only [stepBackend]; split <;> exact ⟨hmade, fun _ _ _ h => by cases h⟩
  | trying t' cs =>
    cases cs with
    | nil => exact ⟨hmade, fun _ _ _ h => by cases h⟩
    | cons q rest => simp only [stepBackend]; split <;> exact ⟨hmade, fun _ _ _ h => by cases h⟩
  | start => simp only [stepBackend]; split <;> exact ⟨hmade, fun _ _ _ h => by cases h⟩
  | check =>
    simp only [stepBackend]
    split
    · rename_i hm
      refine ⟨hmade, fun _ _ _ h => ?_⟩
      cases h
      exact hm
    · exact ⟨hmade, fun _ _ _ h => by cases h⟩
  | ask => simp only [stepBackend]; split <;> exact ⟨hmade, fun _ _ _ h => by cases h⟩
  | _ => exact ⟨hmade, fun _ _ _ h => by cases h⟩

theorem MadeOK.run (hM : ∀ c m x, x ∈ m → x ∈ W.imports c m) (s : List (BackendAction C T)) :
    ∀ {m : BackendMachine C T Ty}, OnlyImports W m s → MadeOK W m → MadeOK W (runBackend W m s) := by
  induction s with
  | nil => intro m _ h; exact h
  | cons a s ih =>
    intro m hs hm
    rw [runBackend_cons]
    refine ih (fun s1 l s2 h => ?_) ?_
    · have := hs (a :: s1) l s2 (by rw [h]; rfl)
      rwa [runBackend_cons] at this
    · cases a with
      | modules l =>
        have hl := hs [] l s rfl
        exact ⟨hm.made, fun i t c cs h => hl _ (hm.thread i t c cs h)⟩
      | call j roots t =>
        simp only [actBackend]
        split
        · refine ⟨hm.made, fun i t c cs h => ?_⟩
          by_cases hj : i = j
          · subst hj; rw [machine_set_same] at h; cases h
          · rw [machine_set_other m hj] at h; exact hm.thread i t c cs h
        · exact hm
      | go j =>
        have h1 := step_made (W := W) (p := m.thread j) hm.made (hm.thread j)
        refine ⟨h1.1, fun i t c cs h => ?_⟩
        simp only [actBackend] at h ⊢
        by_cases hj : i = j
        · subst hj; rw [machine_set_same] at h; exact h1.2 t c cs h
        · rw [machine_set_other m hj] at h; exact step_modules hM _ _ _ (hm.thread i t c cs h)

end Einops
