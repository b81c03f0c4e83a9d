import Verif.GetBackend
import Verif.Proofs.Plan

/-! What the backend registry contains after any history. -/

namespace Einops

variable {C T Ty : Type} [DecidableEq Ty]

theorem dictGet_set_same {κ ν : Type} [DecidableEq κ] (d : List (κ × ν)) (k : κ) (v : ν) :
    dictGet (dictSet d k v) k = some v := by
  induction d with
  | nil => simp [dictSet, dictGet]
  | cons p d ih =>
    obtain ⟨k', v'⟩ := p
    simp only [dictSet]
    split
    · rename_i h; simp [dictGet, h]
    · rename_i h; simp [dictGet, h, ih]

theorem dictGet_set_other {κ ν : Type} [DecidableEq κ] (d : List (κ × ν)) {k k' : κ} (v : ν) (h : k' ≠ k) :
    dictGet (dictSet d k v) k' = dictGet d k' := by
  induction d with
  | nil => simp [dictSet, dictGet, h.symm]
  | cons p d ih =>
    obtain ⟨k₁, v₁⟩ := p
    simp only [dictSet]
    split
    · rename_i e; subst e; simp [dictGet, h.symm]
    · simp only [dictGet, ih]

theorem mem_dictSet {κ ν : Type} [DecidableEq κ] {d : List (κ × ν)} {k : κ} {v : ν} {p : κ × ν}
    (h : p ∈ dictSet d k v) : p = (k, v) ∨ p ∈ d := by
  induction d with
  | nil => simpa [dictSet] using h
  | cons q d ih =>
    obtain ⟨k', v'⟩ := q
    simp only [dictSet] at h
    split at h
    · rename_i e; subst e
      rcases List.mem_cons.1 h with h | h
      · exact .inl h
      · exact .inr (List.mem_cons_of_mem _ h)
    · rcases List.mem_cons.1 h with h | h
      · exact .inr (by rw [h]; exact List.mem_cons_self)
      · rcases ih h with h | h
        · exact .inl h
        · exact .inr (List.mem_cons_of_mem _ h)

theorem findLoaded_some {W : BackendWorld C T Ty} {t : T} {l : List (Str × BackendObj C)} {b : BackendObj C}
    (h : findLoaded W t l = .ok (some b)) : (∃ n, (n, b) ∈ l) ∧ W.appropriate b.cls t = .ok true := by
  induction l with
  | nil => cases h
  | cons p l ih =>
    obtain ⟨n, b'⟩ := p
    simp only [findLoaded] at h
    split at h
    · cases h
    · rename_i ha
      cases h
      exact ⟨⟨n, List.mem_cons_self⟩, ha⟩
    · obtain ⟨⟨n, hn⟩, h2⟩ := ih h
      exact ⟨⟨n, List.mem_cons_of_mem _ hn⟩, h2⟩

theorem findLoaded_none {W : BackendWorld C T Ty} {t : T} {l : List (Str × BackendObj C)}
    (h : findLoaded W t l = .ok none) : ∀ p ∈ l, W.appropriate p.2.cls t = .ok false := by
  induction l with
  | nil => simp
  | cons p l ih =>
    obtain ⟨n, b'⟩ := p
    simp only [findLoaded] at h
    split at h
    · cases h
    · cases h
    · rename_i ha
      intro q hq
      rcases List.mem_cons.1 hq with rfl | hq
      · exact ha
      · exact ih h q hq

/-- What holds after every history; `seen` are the tensors `get_backend` was called with. -/
structure BackendInv (W : BackendWorld C T Ty) (seen : List T) (st : BackendState C Ty) : Prop where
  /-- a remembered answer was given for a recognised tensor of that type -/
  types : ∀ p ∈ st.types, (∃ t ∈ seen, W.typeOf t = p.1 ∧ W.appropriate p.2.cls t = .ok true) ∧
    (W.framework p.2.cls, p.2) ∈ st.loaded
  /-- backends are stored under their framework and were made -/
  loaded : ∀ p ∈ st.loaded, p.1 = W.framework p.2.cls ∧ ∃ m, st.made[p.2.serial]? = some (p.2.cls, m)
  /-- the framework was imported whenever a backend was made -/
  made : ∀ p ∈ st.made, W.framework p.1 ∈ p.2
  /-- one backend for every framework -/
  keys : (st.loaded.map Prod.fst).Nodup

theorem BackendInv.start (W : BackendWorld C T Ty) (m : List Str) : BackendInv W [] (BackendState.start m) := by
  constructor <;> simp [BackendState.start]

theorem BackendInv.modules {W : BackendWorld C T Ty} {seen : List T} {st : BackendState C Ty} (h : BackendInv W seen st)
    (m : List Str) : BackendInv W seen { st with modules := m } := ⟨h.types, h.loaded, h.made, h.keys⟩

theorem BackendInv.more {W : BackendWorld C T Ty} {seen seen' : List T} {st : BackendState C Ty}
    (h : BackendInv W seen st) (hs : ∀ t ∈ seen, t ∈ seen') : BackendInv W seen' st where
  types := fun p hp => by
    obtain ⟨⟨t, ht, h1⟩, h2⟩ := h.types p hp
    exact ⟨⟨t, hs t ht, h1⟩, h2⟩
  loaded := h.loaded
  made := h.made
  keys := h.keys

theorem BackendInv.remember {W : BackendWorld C T Ty} {seen : List T} {st : BackendState C Ty}
    (h : BackendInv W seen st) {t : T} (ht : t ∈ seen) {b : BackendObj C} (hb : (W.framework b.cls, b) ∈ st.loaded)
    (ha : W.appropriate b.cls t = .ok true) :
    BackendInv W seen { st with types := dictSet st.types (W.typeOf t) b } where
  types := fun p hp => by
    rcases mem_dictSet hp with rfl | hp
    · exact ⟨⟨t, ht, rfl, ha⟩, hb⟩
    · exact h.types p hp
  loaded := h.loaded
  made := h.made
  keys := h.keys

theorem BackendInv.fail {W : BackendWorld C T Ty} {seen : List T} {st : BackendState C Ty} (h : BackendInv W seen st)
    {c : C} (hc : W.framework c ∈ st.modules) (m : List Str) :
    BackendInv W seen { st with made := st.made ++ [(c, st.modules)], modules := m } where
  types := h.types
  loaded := fun p hp => by
    obtain ⟨h1, m', h2⟩ := h.loaded p hp
    refine ⟨h1, m', ?_⟩
    rw [List.getElem?_append_left (List.getElem?_eq_some_iff.1 h2).1]; exact h2
  made := fun p hp => by
    rcases List.mem_append.1 hp with hp | hp
    · exact h.made p hp
    · simp at hp; subst hp; exact hc
  keys := h.keys

theorem BackendInv.load {W : BackendWorld C T Ty} {seen : List T} {st : BackendState C Ty} (h : BackendInv W seen st)
    {c : C} (hc : W.framework c ∈ st.modules) (hn : dictGet st.loaded (W.framework c) = none) (m : List Str) :
    BackendInv W seen { st with
      loaded := dictSet st.loaded (W.framework c) ⟨c, st.made.length⟩
      made := st.made ++ [(c, st.modules)], modules := m } := by
  have hk := dictGet_none.1 hn
  have hset := dictSet_append_of_not_mem (⟨c, st.made.length⟩ : BackendObj C) hk
  refine ⟨fun p hp => ?_, fun p hp => ?_, (h.fail hc m).made, ?_⟩
  · obtain ⟨h1, h2⟩ := h.types p hp
    refine ⟨h1, ?_⟩
    simp only [hset]
    exact List.mem_append_left _ h2
  · rcases mem_dictSet hp with rfl | hp
    · exact ⟨rfl, st.modules, by simp⟩
    · exact (h.fail hc m).loaded p hp
  · simp only [hset, List.map_append, List.map_cons, List.map_nil]
    rw [List.nodup_append]
    refine ⟨h.keys, by simp, ?_⟩
    intro a ha b hb
    simp at hb; subst hb
    rintro rfl
    exact hk ha

theorem tryClasses_inv {W : BackendWorld C T Ty} {seen : List T} {t : T} (ht : t ∈ seen) (cs : List C)
    (st : BackendState C Ty) (h : BackendInv W seen st) : BackendInv W seen (tryClasses W t cs st).2 := by
  induction cs generalizing st with
  | nil => exact h
  | cons c cs ih =>
    unfold tryClasses
    split
    · exact ih st h
    · rename_i hn
      by_cases hc : W.framework c ∈ st.modules
      · rw [if_pos hc]
        simp only
        split
        · exact h.fail hc _
        · have h' := h.load hc hn (W.imports c st.modules)
          split
          · exact h'
          · rename_i ha
            refine h'.remember ht ?_ ha
            have : dictGet (dictSet st.loaded (W.framework c) (⟨c, st.made.length⟩ : BackendObj C)) (W.framework c) = _ :=
              dictGet_set_same _ _ _
            exact dictGet_mem this
          · exact ih _ h'
      · rw [if_neg hc]; exact ih st h

theorem getBackend_inv {W : BackendWorld C T Ty} {seen : List T} {st : BackendState C Ty} (h : BackendInv W seen st)
    (roots : List (ClassTree C)) (t : T) : BackendInv W (t :: seen) (getBackend W roots t st).2 := by
  have h' : BackendInv W (t :: seen) st := h.more (fun x hx => List.mem_cons_of_mem _ hx)
  unfold getBackend
  split
  · exact h'
  · split
    · exact h'
    · rename_i b hb
      obtain ⟨⟨n, h1⟩, h2⟩ := findLoaded_some hb
      have h3 := (h.loaded _ h1).1
      exact h'.remember List.mem_cons_self (h3 ▸ h1) h2
    · exact tryClasses_inv List.mem_cons_self _ _ h'

/-- tensors a history asks about -/
def eventTensors : List (BackendEvent C T) → List T
  | [] => []
  | .modules _ :: es => eventTensors es
  | .call _ t :: es => t :: eventTensors es

theorem afterEvents_inv {W : BackendWorld C T Ty} (es : List (BackendEvent C T)) {seen : List T}
    {st : BackendState C Ty} (h : BackendInv W seen st) :
    BackendInv W ((eventTensors es).reverse ++ seen) (afterEvents W st es) := by
  induction es generalizing seen st with
  | nil => simpa [eventTensors, afterEvents] using h
  | cons e es ih =>
    cases e with
    | modules m => exact ih (h.modules m)
    | call roots t =>
      have := ih (getBackend_inv h roots t)
      simpa [eventTensors, afterEvents] using this

theorem tryClasses_types {W : BackendWorld C T Ty} {t : T} (cs : List C) (st : BackendState C Ty) :
    (∀ b, (tryClasses W t cs st).1 = .ok b →
      (tryClasses W t cs st).2.types = dictSet st.types (W.typeOf t) b ∧ W.appropriate b.cls t = .ok true) ∧
    (∀ e, (tryClasses W t cs st).1 = .error e → (tryClasses W t cs st).2.types = st.types) := by
  induction cs generalizing st with
  | nil => constructor <;> simp [tryClasses]
  | cons c cs ih =>
    unfold tryClasses
    split
    · exact ih st
    · by_cases hc : W.framework c ∈ st.modules
      · rw [if_pos hc]
        simp only
        split
        · constructor <;> simp
        · split
          · constructor <;> simp
          · rename_i ha
            refine ⟨fun b hb => ?_, by simp⟩
            simp only [Except.ok.injEq] at hb
            subst hb
            exact ⟨rfl, ha⟩
          · exact ih _
      · rw [if_neg hc]; exact ih st

/-- The answer is remembered. -/
theorem getBackend_types {W : BackendWorld C T Ty} {roots : List (ClassTree C)} {t : T} {st st' : BackendState C Ty}
    {b : BackendObj C} (h : getBackend W roots t st = (.ok b, st')) : dictGet st'.types (W.typeOf t) = some b := by
  unfold getBackend at h
  split at h
  · rename_i b' hb; cases h; exact hb
  · split at h
    · cases h
    · cases h; exact dictGet_set_same _ _ _
    · have h1 := (tryClasses_types (W := W) (t := t) (backendSubclasses roots) st).1 b (by rw [h])
      rw [h] at h1
      rw [h1.1]; exact dictGet_set_same _ _ _

/-- Remembered answers stay. -/
theorem getBackend_keeps {W : BackendWorld C T Ty} (roots : List (ClassTree C)) (t : T) (st : BackendState C Ty) {ty : Ty}
    {b : BackendObj C} (h : dictGet st.types ty = some b) : dictGet (getBackend W roots t st).2.types ty = some b := by
  unfold getBackend
  split
  · exact h
  · rename_i hn
    have hne : ty ≠ W.typeOf t := by rintro rfl; rw [h] at hn; cases hn
    split
    · exact h
    · simp only [dictGet_set_other _ _ hne, h]
    · have h1 := tryClasses_types (W := W) (t := t) (backendSubclasses roots) st
      cases hr : (tryClasses W t (backendSubclasses roots) st).1 with
      | ok b' => rw [(h1.1 b' hr).1, dictGet_set_other _ _ hne, h]
      | error e => rw [h1.2 e hr, h]

theorem afterEvents_keeps {W : BackendWorld C T Ty} (es : List (BackendEvent C T)) (st : BackendState C Ty) {ty : Ty}
    {b : BackendObj C} (h : dictGet st.types ty = some b) : dictGet (afterEvents W st es).types ty = some b := by
  induction es generalizing st with
  | nil => exact h
  | cons e es ih =>
    cases e with
    | modules m => exact ih _ h
    | call roots t => exact ih _ (getBackend_keeps roots t st h)

/-! ### Collecting subclasses -/

omit [DecidableEq Ty] in
/-- `c` occurs in one of the trees -/
inductive InTrees (c : C) : List (ClassTree C) → Prop
  | root {ts t} : t ∈ ts → t.cls = c → InTrees c ts
  | sub {ts t} : t ∈ ts → InTrees c t.subs → InTrees c ts

theorem countAll_append (a b : List (ClassTree C)) : countAll (a ++ b) = countAll a + countAll b := by
  induction a with
  | nil => simp [countAll]
  | cons t a ih => simp only [List.cons_append, countAll, ih]; omega

theorem inTrees_append {c : C} {a b : List (ClassTree C)} : InTrees c (a ++ b) ↔ InTrees c a ∨ InTrees c b := by
  constructor
  · intro h
    cases h with
    | root h1 h2 =>
      rcases List.mem_append.1 h1 with h | h
      · exact .inl (.root h h2)
      · exact .inr (.root h h2)
    | sub h1 h2 =>
      rcases List.mem_append.1 h1 with h | h
      · exact .inl (.sub h h2)
      · exact .inr (.sub h h2)
  · rintro (h | h)
    · cases h with
      | root h1 h2 => exact .root (List.mem_append_left _ h1) h2
      | sub h1 h2 => exact .sub (List.mem_append_left _ h1) h2
    · cases h with
      | root h1 h2 => exact .root (List.mem_append_right _ h1) h2
      | sub h1 h2 => exact .sub (List.mem_append_right _ h1) h2

theorem inTrees_singleton {c : C} {t : ClassTree C} : InTrees c [t] ↔ t.cls = c ∨ InTrees c t.subs := by
  constructor
  · intro h
    cases h with
    | root h1 h2 => simp at h1; subst h1; exact .inl h2
    | sub h1 h2 => simp at h1; subst h1; exact .inr h2
  · rintro (h | h)
    · exact .root (by simp) h
    · exact .sub (by simp) h

theorem count_eq (t : ClassTree C) : t.count = 1 + countAll t.subs := by cases t; rfl

theorem mem_collectLoop {c : C} (n : Nat) : ∀ (stack : List (ClassTree C)) (acc : List C), countAll stack ≤ n →
    (c ∈ collectLoop n stack acc ↔ c ∈ acc ∨ InTrees c stack) := by
  induction n with
  | zero =>
    intro stack acc h
    cases stack with
    | nil =>
      simp only [collectLoop]
      exact ⟨.inl, fun h => h.elim id (fun h => by cases h <;> simp_all)⟩
    | cons t ts => simp only [countAll, count_eq] at h; omega
  | succ n ih =>
    intro stack acc h
    simp only [collectLoop]
    cases hl : stack.getLast? with
    | none =>
      rw [List.getLast?_eq_none_iff] at hl
      subst hl
      exact ⟨.inl, fun h => h.elim id (fun h => by cases h <;> simp_all)⟩
    | some t =>
      have hne : stack ≠ [] := by rintro rfl; simp at hl
      have hs : stack = stack.dropLast ++ [t] := by
        rw [List.getLast?_eq_some_getLast hne] at hl
        cases hl
        exact (List.dropLast_append_getLast hne).symm
      generalize stack.dropLast = d at hs
      subst hs
      simp only [List.dropLast_concat] at *
      rw [ih]
      · rw [inTrees_append, inTrees_append, inTrees_singleton, List.mem_append]
        simp only [List.mem_singleton, @eq_comm _ c]
        tauto
      · rw [countAll_append] at h ⊢
        simp only [countAll, count_eq] at h
        omega

/-- All classes are found. -/
theorem mem_backendSubclasses {c : C} {roots : List (ClassTree C)} : c ∈ backendSubclasses roots ↔ InTrees c roots := by
  unfold backendSubclasses
  rw [mem_collectLoop _ _ _ le_rfl]; simp

/-! ### Failing calls -/

theorem tryClasses_loaded {W : BackendWorld C T Ty} {t : T} (cs : List C) (st : BackendState C Ty) {n : Str}
    {b : BackendObj C} (h : dictGet st.loaded n = some b) : dictGet (tryClasses W t cs st).2.loaded n = some b := by
  induction cs generalizing st with
  | nil => exact h
  | cons c cs ih =>
    unfold tryClasses
    split
    · exact ih st h
    · rename_i hn
      have hne : n ≠ W.framework c := by rintro rfl; rw [h] at hn; cases hn
      by_cases hc : W.framework c ∈ st.modules
      · rw [if_pos hc]
        simp only
        split
        · exact h
        · split
          · simp only [dictGet_set_other _ _ hne, h]
          · simp only [dictGet_set_other _ _ hne, h]
          · exact ih _ (by simp only [dictGet_set_other _ _ hne, h])
      · rw [if_neg hc]; exact ih st h

/-- When nothing outside fails, an unsuccessful search has loaded everything it could, and nothing recognises the tensor. -/
theorem tryClasses_fail {W : BackendWorld C T Ty} (hA : ∀ c t, ∃ v, W.appropriate c t = .ok v)
    (hC : ∀ c m, W.construct c m = none) (hM : ∀ c m x, x ∈ m → x ∈ W.imports c m) {t : T} (cs : List C)
    (st : BackendState C Ty) (hl : ∀ n b, dictGet st.loaded n = some b → W.appropriate b.cls t = .ok false) {e : PyErr}
    (h : (tryClasses W t cs st).1 = .error e) :
    e = .runtime ∧ ∀ c ∈ cs, W.framework c ∈ st.modules →
      ∃ b, dictGet (tryClasses W t cs st).2.loaded (W.framework c) = some b ∧ W.appropriate b.cls t = .ok false := by
  induction cs generalizing st with
  | nil => simp [tryClasses] at h; simp [h]
  | cons c cs ih =>
    unfold tryClasses at h ⊢
    split at h
    · rename_i b hb
      obtain ⟨h1, h2⟩ := ih st hl h
      refine ⟨h1, ?_⟩
      intro c' hc' hm
      rcases List.mem_cons.1 hc' with rfl | hc'
      · exact ⟨b, tryClasses_loaded cs st hb, hl _ _ hb⟩
      · exact h2 c' hc' hm
    · rename_i hn
      by_cases hc : W.framework c ∈ st.modules
      · rw [if_pos hc] at h ⊢
        simp only [hC] at h ⊢
        obtain ⟨v, hv⟩ := hA c t
        rw [hv] at h ⊢
        cases v with
        | true => cases h
        | false =>
          simp only at h ⊢
          obtain ⟨h1, h2⟩ := ih _ (by
            intro n b hb
            by_cases hne : n = W.framework c
            · subst hne
              simp only [dictGet_set_same, Option.some.injEq] at hb
              subst hb; exact hv
            · simp only [dictGet_set_other _ _ hne] at hb
              exact hl n b hb) h
          refine ⟨h1, ?_⟩
          intro c' hc' hm
          rcases List.mem_cons.1 hc' with rfl | hc'
          · exact ⟨_, tryClasses_loaded cs _ (dictGet_set_same _ _ _), hv⟩
          · exact h2 c' hc' (hM _ _ _ hm)
      · rw [if_neg hc] at h ⊢
        obtain ⟨h1, h2⟩ := ih st hl h
        refine ⟨h1, ?_⟩
        intro c' hc' hm
        rcases List.mem_cons.1 hc' with rfl | hc'
        · exact absurd hm hc
        · exact h2 c' hc' hm

theorem getBackend_fail {W : BackendWorld C T Ty} (hA : ∀ c t, ∃ v, W.appropriate c t = .ok v)
    (hC : ∀ c m, W.construct c m = none) (hM : ∀ c m x, x ∈ m → x ∈ W.imports c m) {roots : List (ClassTree C)} {t : T}
    {st st' : BackendState C Ty} {e : PyErr} (h : getBackend W roots t st = (.error e, st')) :
    e = .runtime ∧ ∀ c, InTrees c roots → W.framework c ∈ st.modules →
      ∃ b, dictGet st'.loaded (W.framework c) = some b ∧ W.appropriate b.cls t = .ok false := by
  unfold getBackend at h
  split at h
  · cases h
  · split at h
    · rename_i e' he
      exfalso
      have : ∀ l : List (Str × BackendObj C), ∃ o, findLoaded W t l = .ok o := by
        intro l
        induction l with
        | nil => exact ⟨none, rfl⟩
        | cons p l ih =>
          obtain ⟨n, b⟩ := p
          obtain ⟨v, hv⟩ := hA b.cls t
          simp only [findLoaded, hv]
          cases v
          · exact ih
          · exact ⟨_, rfl⟩
      obtain ⟨o, ho⟩ := this st.loaded
      rw [ho] at he; cases he
    · cases h
    · rename_i hn
      have hf := findLoaded_none hn
      obtain ⟨h1, h2⟩ := tryClasses_fail hA hC hM (backendSubclasses roots) st (fun n b hb => hf _ (dictGet_mem hb))
        (e := e) (by rw [h])
      rw [h] at h2
      exact ⟨h1, fun c hc => h2 c (mem_backendSubclasses.2 hc)⟩

/-- When constructors do not fail, what was made is what is loaded. -/
theorem tryClasses_made {W : BackendWorld C T Ty} (hC : ∀ c m, W.construct c m = none) {t : T} (cs : List C)
    (st : BackendState C Ty) (h : st.made.map (fun p => W.framework p.1) = st.loaded.map Prod.fst) :
    (tryClasses W t cs st).2.made.map (fun p => W.framework p.1) = (tryClasses W t cs st).2.loaded.map Prod.fst := by
  induction cs generalizing st with
  | nil => exact h
  | cons c cs ih =>
    unfold tryClasses
    split
    · exact ih st h
    · rename_i hn
      by_cases hc : W.framework c ∈ st.modules
      · rw [if_pos hc]
        simp only [hC]
        have hs := dictSet_append_of_not_mem (⟨c, st.made.length⟩ : BackendObj C) (dictGet_none.1 hn)
        have h' : (st.made ++ [(c, st.modules)]).map (fun p => W.framework p.1) =
            (dictSet st.loaded (W.framework c) (⟨c, st.made.length⟩ : BackendObj C)).map Prod.fst := by
          rw [hs]; simp [h]
        split
        · exact h'
        · exact h'
        · exact ih _ h'
      · rw [if_neg hc]; exact ih st h

theorem afterEvents_made {W : BackendWorld C T Ty} (hC : ∀ c m, W.construct c m = none) (es : List (BackendEvent C T))
    (st : BackendState C Ty) (h : st.made.map (fun p => W.framework p.1) = st.loaded.map Prod.fst) :
    (afterEvents W st es).made.map (fun p => W.framework p.1) = (afterEvents W st es).loaded.map Prod.fst := by
  induction es generalizing st with
  | nil => exact h
  | cons e es ih =>
    cases e with
    | modules m => exact ih _ h
    | call roots t =>
      apply ih
      unfold getBackend
      split
      · exact h
      · split
        · exact h
        · exact h
        · exact tryClasses_made hC _ _ h

end Einops
