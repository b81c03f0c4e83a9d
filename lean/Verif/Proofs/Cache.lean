import Verif.Cache
import Verif.Proofs.Symbolic
import Verif.Props.Operations

/-! What the caches contain. -/

namespace Einops

universe u

/-! ### lru_cache -/

section
variable {κ ν : Type} [DecidableEq κ]

theorem dictGet_pair {d : List (κ × ν)} {k : κ} {v : ν} (h : dictGet d k = some v) : (k, v) ∈ d := by
  induction d with
  | nil => cases h
  | cons p d ih =>
    simp only [dictGet] at h
    split at h
    · rename_i e; cases h; subst e; exact List.mem_cons_self
    · exact List.mem_cons_of_mem _ (ih h)

theorem lruGet_hit {d d' : List (κ × ν)} {k : κ} {v : ν} (h : lruGet d k = (some v, d')) : (k, v) ∈ d := by
  unfold lruGet at h
  split at h
  · rename_i v' h'; cases h; exact dictGet_pair h'
  · cases h

theorem lruGet_sub {d d' : List (κ × ν)} {k : κ} {o : Option ν} (h : lruGet d k = (o, d')) : ∀ p ∈ d', p ∈ d := by
  unfold lruGet at h
  split at h
  · rename_i v' h'
    cases h
    intro p hp
    rcases List.mem_cons.1 hp with rfl | hp
    · exact dictGet_pair h'
    · exact (List.mem_filter.1 hp).1
  · cases h; exact fun p h => h

theorem filter_length_lt {d : List (κ × ν)} {k : κ} {v : ν} (h : (k, v) ∈ d) :
    (d.filter (fun p => p.1 ≠ k)).length < d.length := by
  rw [List.length_filter_lt_length_iff_exists]
  exact ⟨(k, v), h, by simp⟩

theorem lruGet_length {d d' : List (κ × ν)} {k : κ} {o : Option ν} (h : lruGet d k = (o, d')) :
    d'.length ≤ d.length := by
  unfold lruGet at h
  split at h
  · rename_i v' h'
    cases h
    exact filter_length_lt (dictGet_pair h')
  · cases h; exact le_refl _

theorem lruPut_sub {max : Nat} {d : List (κ × ν)} {k : κ} {v : ν} : ∀ p ∈ lruPut max d k v, p ∈ d ∨ p = (k, v) := by
  intro p hp
  unfold lruPut at hp
  split at hp
  · exact .inl hp
  · rcases List.mem_cons.1 (List.mem_of_mem_take hp) with h | h
    · exact .inr h
    · exact .inl h

theorem lruPut_length {max : Nat} {d : List (κ × ν)} {k : κ} {v : ν} (h : d.length ≤ max) :
    (lruPut max d k v).length ≤ max := by
  unfold lruPut
  split
  · exact h
  · simp [List.length_take]

theorem lruCall_correct {max : Nat} {f : κ → Py ν} {d : List (κ × ν)} (hd : ∀ p ∈ d, f p.1 = .ok p.2) (k : κ) :
    (lruCall max f d k).1 = f k ∧ ∀ p ∈ (lruCall max f d k).2, f p.1 = .ok p.2 := by
  unfold lruCall
  rcases hg : lruGet d k with ⟨o, d'⟩
  have hs := lruGet_sub hg
  cases o with
  | some v => exact ⟨(hd _ (lruGet_hit hg)).symm, fun p hp => hd p (hs p hp)⟩
  | none =>
    simp only
    cases hf : f k with
    | error e => exact ⟨rfl, fun p hp => hd p (hs p hp)⟩
    | ok v =>
      refine ⟨rfl, fun p hp => ?_⟩
      rcases lruPut_sub p hp with h | rfl
      · exact hd p (hs p h)
      · exact hf

end

/-! ### The two caches -/

section
variable {α : Type u} [PyUnicode]

/-- what a key says about the reduction -/
def OpKey.kind : OpKey → OpKind
  | .name s => .name s
  | .callable _ => .callable

/-- Everything in the caches was computed from its key; if `ints`, then from Python ints only. -/
structure Caches.Good (ints : Prop) (st : Caches) : Prop where
  recipes : ∀ p ∈ st.recipes, ∃ r so, st.heap[p.2]? = some r ∧
    prepareRecipe so p.1.pattern p.1.op.kind p.1.names p.1.ndim = .ok r
  shapes : ∀ p ∈ st.shapes, ∃ r kw, st.heap[p.1.recipe]? = some r ∧ kw.map (fun q => (q.1, q.2.val)) = p.1.dims ∧
    (ints → ∀ q ∈ kw, q.2.isInt = true) ∧ reconstruct r (p.1.shape.map Size.ofInt) kw = .ok p.2

omit [PyUnicode] in
theorem heap_mono {h : List TransformRecipe} {k : Nat} {r : TransformRecipe} (e : h[k]? = some r) (t : List TransformRecipe) :
    (h ++ t)[k]? = some r := by
  rw [List.getElem?_append_left (List.getElem?_eq_some_iff.1 e).1]
  exact e

variable {ints : Prop}

theorem Caches.Good.empty : Caches.empty.Good ints :=
  ⟨fun p hp => (by cases hp), fun p hp => (by cases hp)⟩

theorem Caches.Good.recipes_sub {st : Caches} (h : st.Good ints) {d : List (RecipeKey × Nat)} (hd : ∀ p ∈ d, p ∈ st.recipes) :
    Caches.Good ints { st with recipes := d } := ⟨fun p hp => h.recipes p (hd p hp), h.shapes⟩

theorem Caches.Good.shapes_sub {st : Caches} (h : st.Good ints) {d : List (ShapeKey × CookedRecipe)}
    (hd : ∀ p ∈ d, p ∈ st.shapes) : Caches.Good ints { st with shapes := d } :=
  ⟨h.recipes, fun p hp => h.shapes p (hd p hp)⟩

omit [PyUnicode] in
theorem opKey_kind (c : Call α) : c.opKey.kind = c.red.kind := by
  unfold Call.opKey
  cases c.red <;> rfl

/-- storing a new recipe -/
theorem Caches.Good.put_recipe {st : Caches} (h : st.Good ints) {c : Call α} {x : Tensor α} {r : TransformRecipe}
    (hr : prepareRecipe c.so c.pattern c.red.kind (c.kw.map Prod.fst) x.ndim = .ok r) (max : Nat) :
    Caches.Good ints { st with
      heap := st.heap ++ [r], recipes := lruPut max st.recipes (c.recipeKey x) st.heap.length } := by
  constructor
  · intro p hp
    rcases lruPut_sub p hp with hp | rfl
    · obtain ⟨r', so, h1, h2⟩ := h.recipes p hp
      exact ⟨r', so, heap_mono h1 _, h2⟩
    · exact ⟨r, c.so, by simp, by rw [← opKey_kind] at hr; exact hr⟩
  · intro p hp
    obtain ⟨r', kw, h1, h2⟩ := h.shapes p hp
    exact ⟨r', kw, heap_mono h1 _, h2⟩

/-- sizes that get into the cache are ints -/
def Call.Ints (c : Call α) : Prop := c.hashable = true → ∀ p ∈ c.kw, p.2.isInt = true

omit [PyUnicode] in
theorem shape_ints (s : List Nat) : (s.map Int.ofNat).map Size.ofInt = s.map Size.ofNat := by
  rw [List.map_map]; rfl

/-- storing a cooked recipe -/
theorem Caches.Good.put_shape {st : Caches} (h : st.Good ints) {c : Call α} (hc : ints → c.Ints) (hh : c.hashable = true)
    {x : Tensor α} {id : Nat} {r : TransformRecipe} (hid : st.heap[id]? = some r) {k : CookedRecipe}
    (hk : reconstruct r (x.shape.map Size.ofNat) c.kw = .ok k) (max : Nat) :
    Caches.Good ints { st with shapes := lruPut max st.shapes (c.shapeKey x id) k } := by
  refine ⟨h.recipes, fun p hp => ?_⟩
  rcases lruPut_sub p hp with hp | rfl
  · exact h.shapes p hp
  · refine ⟨r, c.kw, hid, rfl, fun hi => hc hi hh, ?_⟩
    simp only [Call.shapeKey]
    rw [shape_ints]
    exact hk

omit [PyUnicode] in
/-- the same sizes, all of them symbols -/
theorem hides_symbols {kw kw' : List (Str × Size)}
    (h : kw.map (fun q => (q.1, q.2.val)) = kw'.map (fun q => (q.1, q.2.val))) :
    List.Forall₂ (fun p q : Str × Size => p.1 = q.1 ∧ Size.Hides p.2 q.2) kw
      (kw'.map (fun q => (q.1, (⟨q.2.val, false⟩ : Size)))) := by
  induction kw generalizing kw' with
  | nil =>
    cases kw' with
    | nil => exact .nil
    | cons q kw' => simp at h
  | cons p kw ih =>
    cases kw' with
    | nil => simp at h
    | cons q kw' =>
      simp only [List.map_cons, List.cons.injEq, Prod.mk.injEq] at h
      exact .cons ⟨h.1.1, h.1.2, fun e => by cases e⟩ (ih h.2)

omit [PyUnicode] in
theorem CookedRecipe.SameValues.trans {c c' c'' : CookedRecipe} (h : c.SameValues c'') (h' : c'.SameValues c'') :
    c.SameValues c' :=
  ⟨h.init.trans h'.init.symm, h.perm.trans h'.perm.symm, h.reduced.trans h'.reduced.symm, h.added.trans h'.added.symm,
    h.final.trans h'.final.symm, h.naxes.trans h'.naxes.symm⟩

omit [PyUnicode] in
theorem ints_unique {kw kw' : List (Str × Size)} (h1 : ∀ q ∈ kw, q.2.isInt = true) (h2 : ∀ q ∈ kw', q.2.isInt = true)
    (h : kw.map (fun q => (q.1, q.2.val)) = kw'.map (fun q => (q.1, q.2.val))) : kw = kw' := by
  have e : ∀ kw : List (Str × Size), (∀ q ∈ kw, q.2.isInt = true) →
      (kw.map (fun q => (q.1, q.2.val))).map (fun q => (q.1, Size.ofInt q.2)) = kw := by
    intro kw h
    rw [List.map_map]
    conv_rhs => rw [← List.map_id kw]
    apply List.map_congr_left
    rintro ⟨n, v, b⟩ hp
    have : b = true := h _ hp
    subst this
    rfl
  rw [← e kw h1, ← e kw' h2, h]

/-- The outcome is that of the call without the cache; or the call without the cache fails, and there have been sizes
that are not ints. -/
def Agree (ints : Prop) {β : Type u} (y y0 : Py β) : Prop := y = y0 ∨ (¬ ints ∧ ∃ e, y0 = .error e)

/-- a hit in the shape cache -/
theorem Caches.Good.shape_hit {st : Caches} (h : st.Good ints) {c : Call α} (hc : ints → c.Ints) (hh : c.hashable = true)
    {x : Tensor α} {id : Nat} {r : TransformRecipe} (hid : st.heap[id]? = some r) {k : CookedRecipe}
    (hk : (c.shapeKey x id, k) ∈ st.shapes) :
    Agree ints (applyCooked c.backend k x c.red) (applyRecipe c.backend r x c.red c.kw) := by
  obtain ⟨r', kw, h1, h2, h3, h4⟩ := h.shapes _ hk
  simp only [Call.shapeKey] at h1 h2 h4
  rw [hid] at h1
  cases h1
  rw [shape_ints] at h4
  unfold applyRecipe
  cases hr : reconstruct r (x.shape.map Size.ofNat) c.kw with
  | ok k' =>
    left
    have hs : List.Forall₂ Size.Hides (x.shape.map Size.ofNat) (x.shape.map Size.ofNat) :=
      List.forall₂_same.2 (fun a _ => Size.Hides.refl a)
    obtain ⟨k1, e1, s1⟩ := reconstruct_hides hs (hides_symbols h2) h4
    obtain ⟨k2, e2, s2⟩ := reconstruct_hides hs (hides_symbols rfl) hr
    rw [e1] at e2
    cases e2
    exact applyStages_values (s1.trans s2) x
  | error e =>
    right
    refine ⟨fun hi => ?_, e, rfl⟩
    rw [ints_unique (h3 hi) (hc hi hh) h2, hr] at h4
    cases h4

/-- the recipe object `id` was prepared for this call, for some iteration order of sets -/
def PreparedFor (st : Caches) (c : Call α) (x : Tensor α) (id : Nat) : Prop :=
  ∃ r so, st.heap[id]? = some r ∧ prepareRecipe so c.pattern c.red.kind (c.kw.map Prod.fst) x.ndim = .ok r

theorem Caches.Good.recipe_hit {st : Caches} (h : st.Good ints) {c : Call α} {x : Tensor α} {id : Nat}
    (hk : (c.recipeKey x, id) ∈ st.recipes) : PreparedFor st c x id := by
  obtain ⟨r, so, h1, h2⟩ := h.recipes _ hk
  rw [show (c.recipeKey x).op = c.opKey from rfl, opKey_kind] at h2
  exact ⟨r, so, h1, h2⟩

/-- Outcome of the call without caches, for some iteration order of sets. -/
def Right (ints : Prop) (c : Call α) (y : Py (Tensor α)) : Prop :=
  ∃ so, Agree ints y (reduce c.backend so c.input c.pattern c.red c.kw)

theorem right_of_recipe {c : Call α} {x : Tensor α} (hx : resolveInput c.backend c.input = .ok x) {r : TransformRecipe}
    {so : SetOrder} (hr : prepareRecipe so c.pattern c.red.kind (c.kw.map Prod.fst) x.ndim = .ok r) {y : Py (Tensor α)}
    (h : Agree ints y (applyRecipe c.backend r x c.red c.kw)) : Right ints c y :=
  ⟨so, by simp only [reduce, hx, hr]; exact h⟩

theorem Right.ok {c : Call α} {y : Py (Tensor α)} (h : Right ints c y) (hell : '…' ∉ c.pattern)
    (hnd : (c.kw.map Prod.fst).Nodup) {so : SetOrder} {z : Tensor α}
    (hz : reduce c.backend so c.input c.pattern c.red c.kw = .ok z) : y = .ok z := by
  obtain ⟨so', h | ⟨-, e, h⟩⟩ := h
  · rw [h, ← hz]
    exact C08_hash_order hell hnd _ _ _ _ _
  · rw [C08_hash_order hell hnd _ _ _ so so', h] at hz
    cases hz

theorem Right.eq {c : Call α} {y : Py (Tensor α)} (h : Right ints c y) (hi : ints) (hell : '…' ∉ c.pattern)
    (hnd : (c.kw.map Prod.fst).Nodup) (so : SetOrder) : y = reduce c.backend so c.input c.pattern c.red c.kw := by
  obtain ⟨so', h | ⟨h, -⟩⟩ := h
  · rw [h]; exact C08_hash_order hell hnd _ _ _ _ _
  · exact absurd hi h

/-! ### Sequential calls -/

theorem cachedPrepare_good {rmax : Nat} {st : Caches} (h : st.Good ints) (c : Call α) (x : Tensor α) :
    (cachedPrepare rmax st c x).2.Good ints ∧
      (∀ id, (cachedPrepare rmax st c x).1 = .ok id → PreparedFor (cachedPrepare rmax st c x).2 c x id) ∧
      ∀ e, (cachedPrepare rmax st c x).1 = .error e →
        prepareRecipe c.so c.pattern c.red.kind (c.kw.map Prod.fst) x.ndim = .error e := by
  unfold cachedPrepare
  rcases hg : lruGet st.recipes (c.recipeKey x) with ⟨o, d⟩
  have h' := h.recipes_sub (lruGet_sub hg)
  cases o with
  | some id =>
    refine ⟨h', fun id' e => ?_, fun e he => by cases he⟩
    cases e
    exact h.recipe_hit (lruGet_hit hg)
  | none =>
    simp only
    cases hr : prepareRecipe c.so c.pattern c.red.kind (c.kw.map Prod.fst) x.ndim with
    | error e => exact ⟨h', fun id e => (by cases e), fun e' he => (by cases he; rfl)⟩
    | ok r =>
      refine ⟨h'.put_recipe hr rmax, fun id e => ?_, fun e he => by cases he⟩
      cases e
      exact ⟨r, c.so, by simp, hr⟩

omit [PyUnicode] in
theorem getE_some {β : Type} {l : List β} {k : Nat} {v : β} (h : l[k]? = some v) : getE l k = .ok v := by rw [getE, h]

/-- the last part of a call -/
def finish (c : Call α) (x : Tensor α) (k : Py CookedRecipe) : Py (Tensor α) :=
  k.bind (fun k => applyCooked c.backend k x c.red)

omit [PyUnicode] in
theorem finish_reconstruct (c : Call α) (x : Tensor α) (r : TransformRecipe) :
    finish c x (reconstruct r (x.shape.map Size.ofNat) c.kw) = applyRecipe c.backend r x c.red c.kw := by
  unfold finish applyRecipe
  cases reconstruct r (x.shape.map Size.ofNat) c.kw <;> rfl

theorem cachedCook_good {smax : Nat} {st : Caches} (h : st.Good ints) {c : Call α} (hc : ints → c.Ints) (x : Tensor α)
    {id : Nat} {r : TransformRecipe} (hid : st.heap[id]? = some r) :
    (cachedCook smax st c x id).2.Good ints ∧
      Agree ints (finish c x (cachedCook smax st c x id).1) (applyRecipe c.backend r x c.red c.kw) := by
  have hf := finish_reconstruct c x r
  unfold cachedCook
  rw [getE_some hid]
  simp only
  by_cases hh : c.hashable = true
  · rw [if_pos hh]
    rcases hg : lruGet st.shapes (c.shapeKey x id) with ⟨o, d⟩
    have h' := h.shapes_sub (lruGet_sub hg)
    cases o with
    | some k => exact ⟨h', h.shape_hit hc hh hid (lruGet_hit hg)⟩
    | none =>
      simp only
      cases hr : reconstruct r (x.shape.map Size.ofNat) c.kw with
      | error e => rw [hr] at hf; exact ⟨h', .inl hf⟩
      | ok k => rw [hr] at hf; exact ⟨h'.put_shape hc hh hid hr smax, .inl hf⟩
  · rw [if_neg hh]
    exact ⟨h, .inl hf⟩

theorem cachedCall_good {rmax smax : Nat} {st : Caches} (h : st.Good ints) {c : Call α} (hc : ints → c.Ints) :
    (cachedCall rmax smax st c).2.Good ints ∧ Right ints c (cachedCall rmax smax st c).1 := by
  unfold cachedCall
  cases hx : resolveInput c.backend c.input with
  | error e => exact ⟨h, c.so, .inl (by simp only [reduce, hx])⟩
  | ok x =>
    simp only
    obtain ⟨h1, h2, h3⟩ := cachedPrepare_good (rmax := rmax) h c x
    rcases hp : cachedPrepare rmax st c x with ⟨o, st1⟩
    rw [hp] at h1 h2 h3
    cases o with
    | error e => exact ⟨h1, c.so, .inl (by simp only [reduce, hx, h3 e rfl])⟩
    | ok id =>
      simp only
      obtain ⟨r, so, hid, hr⟩ := h2 id rfl
      obtain ⟨h4, h5⟩ := cachedCook_good (smax := smax) h1 hc x hid
      have hright := right_of_recipe hx hr h5
      rcases hq : cachedCook smax st1 c x id with ⟨o, st2⟩
      rw [hq] at h4 hright
      cases o with
      | error e => exact ⟨h4, hright⟩
      | ok k => exact ⟨h4, hright⟩

theorem afterCalls_good {rmax smax : Nat} {st : Caches} (h : st.Good ints) {hist : List (Call α)}
    (hh : ints → ∀ c ∈ hist, c.Ints) : (afterCalls rmax smax st hist).Good ints := by
  unfold afterCalls
  induction hist generalizing st with
  | nil => exact h
  | cons c hist ih =>
    exact ih (cachedCall_good h (fun hi => hh hi c (by simp))).1 (fun hi c hc => hh hi c (by simp [hc]))

/-! ### Threads -/

/-- what a thread holds agrees with the caches -/
def TaskGood (ints : Prop) (st : Caches) : Task α → Prop
  | .preparing c x => (ints → c.Ints) ∧ resolveInput c.backend c.input = .ok x
  | .prepared c x id => (ints → c.Ints) ∧ resolveInput c.backend c.input = .ok x ∧ PreparedFor st c x id
  | .cooking c x id =>
    ((ints → c.Ints) ∧ c.hashable = true) ∧ resolveInput c.backend c.input = .ok x ∧ PreparedFor st c x id
  | .finished c y => Right ints c y

/-- invariant of the machine -/
structure Machine.Good (ints : Prop) (m : Machine α) : Prop where
  caches : m.caches.Good ints
  tasks : ∀ i t, m.task i = some t → TaskGood ints m.caches t

theorem PreparedFor.mono {st st' : Caches} {c : Call α} {x : Tensor α} {id : Nat} (h : PreparedFor st c x id)
    (hh : ∃ t, st'.heap = st.heap ++ t) : PreparedFor st' c x id := by
  obtain ⟨t, ht⟩ := hh
  obtain ⟨r, so, h1, h2⟩ := h
  exact ⟨r, so, by rw [ht]; exact heap_mono h1 t, h2⟩

theorem TaskGood.mono {st st' : Caches} {t : Task α} (h : TaskGood ints st t) (hh : ∃ t, st'.heap = st.heap ++ t) :
    TaskGood ints st' t := by
  cases t with
  | preparing c x => exact h
  | prepared c x id => exact ⟨h.1, h.2.1, h.2.2.mono hh⟩
  | cooking c x id => exact ⟨h.1, h.2.1, h.2.2.mono hh⟩
  | finished c y => exact h

theorem Machine.Good.set {m : Machine α} (h : m.Good ints) {i : Nat} {st : Caches} {t : Task α} (hs : st.Good ints)
    (hh : ∃ t, st.heap = m.caches.heap ++ t) (ht : TaskGood ints st t) : (m.set i st t).Good ints := by
  refine ⟨hs, fun j t' hj => ?_⟩
  simp only [Machine.set] at hj
  split at hj
  · cases hj; exact ht
  · exact (h.tasks j t' hj).mono hh

theorem Machine.Good.start : (Machine.start : Machine α).Good ints :=
  ⟨.empty, fun i t h => (by cases h)⟩

theorem act_good {rmax smax : Nat} {m : Machine α} (h : m.Good ints) (a : Action α)
    (ha : ints → ∀ i c, a = .call i c → c.Ints) : (act rmax smax m a).Good ints := by
  have same : ∃ t, m.caches.heap = m.caches.heap ++ t := ⟨[], by simp⟩
  cases a with
  | call i c =>
    have hc := fun hi => ha hi i c rfl
    simp only [act]
    split
    swap
    · exact h
    unfold enter
    cases hx : resolveInput c.backend c.input with
    | error e => exact h.set h.caches same ⟨c.so, .inl (by simp only [reduce, hx])⟩
    | ok x =>
      simp only
      rcases hg : lruGet m.caches.recipes (c.recipeKey x) with ⟨o, d⟩
      have h' := h.caches.recipes_sub (lruGet_sub hg)
      cases o with
      | some id => exact h.set h' same ⟨hc, hx, h.caches.recipe_hit (lruGet_hit hg)⟩
      | none => exact h.set h' same ⟨hc, hx⟩
  | go i =>
    simp only [act]
    unfold advance
    rcases ht : m.task i with _ | t
    · exact h
    · have hg := h.tasks i t ht
      cases t with
      | finished c y => exact h
      | preparing c x =>
        obtain ⟨hc, hx⟩ := hg
        simp only
        cases hr : prepareRecipe c.so c.pattern c.red.kind (c.kw.map Prod.fst) x.ndim with
        | error e => exact h.set h.caches same ⟨c.so, .inl (by simp only [reduce, hx, hr])⟩
        | ok r => exact h.set (h.caches.put_recipe hr rmax) ⟨[r], rfl⟩ ⟨hc, hx, r, c.so, by simp, hr⟩
      | prepared c x id =>
        obtain ⟨hc, hx, r, so, hid, hr⟩ := hg
        simp only [getE_some hid]
        by_cases hh : c.hashable = true
        · rw [if_pos hh]
          rcases hl : lruGet m.caches.shapes (c.shapeKey x id) with ⟨o, d⟩
          have h' := h.caches.shapes_sub (lruGet_sub hl)
          cases o with
          | some k => exact h.set h' same (right_of_recipe hx hr (h.caches.shape_hit hc hh hid (lruGet_hit hl)))
          | none => exact h.set h' same ⟨⟨hc, hh⟩, hx, r, so, hid, hr⟩
        · rw [if_neg hh]
          exact h.set h.caches same (right_of_recipe hx hr (.inl rfl))
      | cooking c x id =>
        obtain ⟨⟨hc, hh⟩, hx, r, so, hid, hr⟩ := hg
        simp only [getE_some hid]
        have hf := finish_reconstruct c x r
        cases hk : reconstruct r (x.shape.map Size.ofNat) c.kw with
        | error e => rw [hk] at hf; exact h.set h.caches same (right_of_recipe hx hr (.inl hf))
        | ok k =>
          rw [hk] at hf
          exact h.set (h.caches.put_shape hc hh hid hk smax) same (right_of_recipe hx hr (.inl hf))

theorem runSchedule_good {rmax smax : Nat} {m : Machine α} (h : m.Good ints) {s : List (Action α)}
    (hs : ints → ∀ i c, Action.call i c ∈ s → c.Ints) : (runSchedule rmax smax m s).Good ints := by
  unfold runSchedule
  induction s generalizing m with
  | nil => exact h
  | cons a s ih =>
    exact ih (act_good h a (fun hi i c e => hs hi i c (by simp [e]))) (fun hi i c hc => hs hi i c (by simp [hc]))

/-- the caches are not too large -/
def Caches.Bounded (rmax smax : Nat) (st : Caches) : Prop := st.recipes.length ≤ rmax ∧ st.shapes.length ≤ smax

theorem act_bounded {rmax smax : Nat} {m : Machine α} (h : m.caches.Bounded rmax smax) (a : Action α) :
    (act rmax smax m a).caches.Bounded rmax smax := by
  cases a with
  | call i c =>
    simp only [act]
    split
    swap
    · exact h
    unfold enter
    cases hx : resolveInput c.backend c.input with
    | error e => exact h
    | ok x =>
      simp only
      rcases hg : lruGet m.caches.recipes (c.recipeKey x) with ⟨o, d⟩
      have := (lruGet_length hg).trans h.1
      cases o <;> exact ⟨this, h.2⟩
  | go i =>
    simp only [act]
    unfold advance
    rcases ht : m.task i with _ | t
    · exact h
    · cases t with
      | finished c y => exact h
      | preparing c x =>
        simp only
        cases prepareRecipe c.so c.pattern c.red.kind (c.kw.map Prod.fst) x.ndim with
        | error e => exact h
        | ok r => exact ⟨lruPut_length h.1, h.2⟩
      | prepared c x id =>
        simp only
        cases getE m.caches.heap id with
        | error e => exact h
        | ok r =>
          simp only
          split
          · rcases hl : lruGet m.caches.shapes (c.shapeKey x id) with ⟨o, d⟩
            have := (lruGet_length hl).trans h.2
            cases o <;> exact ⟨h.1, this⟩
          · exact h
      | cooking c x id =>
        simp only
        cases getE m.caches.heap id with
        | error e => exact h
        | ok r =>
          simp only
          cases reconstruct r (x.shape.map Size.ofNat) c.kw with
          | error e => exact h
          | ok k => exact ⟨h.1, lruPut_length h.2⟩

theorem runSchedule_bounded {rmax smax : Nat} {m : Machine α} (h : m.caches.Bounded rmax smax) (s : List (Action α)) :
    (runSchedule rmax smax m s).caches.Bounded rmax smax := by
  unfold runSchedule
  induction s generalizing m with
  | nil => exact h
  | cons a s ih => exact ih (act_bounded h a)

/-! ### Progress -/

/-- the call a thread is in -/
def Task.theCall : Task α → Call α
  | .preparing c _ => c
  | .prepared c _ _ => c
  | .cooking c _ _ => c
  | .finished c _ => c

/-- atomic actions left, at most -/
def Task.left : Task α → Nat
  | .preparing _ _ => 3
  | .prepared _ _ _ => 2
  | .cooking _ _ _ => 1
  | .finished _ _ => 0

omit [PyUnicode] in
theorem set_self (m : Machine α) (i : Nat) (st : Caches) (t : Task α) : (m.set i st t).task i = some t := by
  simp [Machine.set]

omit [PyUnicode] in
theorem set_other (m : Machine α) {i j : Nat} (h : j ≠ i) (st : Caches) (t : Task α) : (m.set i st t).task j = m.task j := by
  simp [Machine.set, h]

theorem advance_other (rmax smax : Nat) (m : Machine α) {i j : Nat} (h : j ≠ i) :
    (advance rmax smax m i).task j = m.task j := by
  unfold advance
  rcases m.task i with _ | t
  · rfl
  · cases t with
    | finished c y => rfl
    | preparing c x =>
      simp only
      cases prepareRecipe c.so c.pattern c.red.kind (c.kw.map Prod.fst) x.ndim <;> exact set_other m h _ _
    | prepared c x id =>
      simp only
      cases getE m.caches.heap id with
      | error e => exact set_other m h _ _
      | ok r =>
        simp only
        split
        · rcases lruGet m.caches.shapes (c.shapeKey x id) with ⟨o, d⟩
          cases o <;> exact set_other m h _ _
        · exact set_other m h _ _
    | cooking c x id =>
      simp only
      cases getE m.caches.heap id with
      | error e => exact set_other m h _ _
      | ok r =>
        simp only
        cases reconstruct r (x.shape.map Size.ofNat) c.kw <;> exact set_other m h _ _

theorem advance_self (rmax smax : Nat) (m : Machine α) {i : Nat} {t : Task α} (ht : m.task i = some t) :
    ∃ t', (advance rmax smax m i).task i = some t' ∧ t'.theCall = t.theCall ∧ t'.left ≤ t.left - 1 := by
  unfold advance
  rw [ht]
  cases t with
  | finished c y => exact ⟨_, ht, rfl, le_refl _⟩
  | preparing c x =>
    simp only
    cases prepareRecipe c.so c.pattern c.red.kind (c.kw.map Prod.fst) x.ndim <;>
      exact ⟨_, set_self m i _ _, rfl, by simp [Task.left]⟩
  | prepared c x id =>
    simp only
    cases getE m.caches.heap id with
    | error e => exact ⟨_, set_self m i _ _, rfl, by simp [Task.left]⟩
    | ok r =>
      simp only
      split
      · rcases lruGet m.caches.shapes (c.shapeKey x id) with ⟨o, d⟩
        cases o <;> exact ⟨_, set_self m i _ _, rfl, by simp [Task.left]⟩
      · exact ⟨_, set_self m i _ _, rfl, by simp [Task.left]⟩
  | cooking c x id =>
    simp only
    cases getE m.caches.heap id with
    | error e => exact ⟨_, set_self m i _ _, rfl, by simp [Task.left]⟩
    | ok r =>
      simp only
      cases reconstruct r (x.shape.map Size.ofNat) c.kw <;> exact ⟨_, set_self m i _ _, rfl, by simp [Task.left]⟩

omit [PyUnicode] in
theorem enter_other (m : Machine α) {i j : Nat} (h : j ≠ i) (c : Call α) : (enter m i c).task j = m.task j := by
  unfold enter
  cases resolveInput c.backend c.input with
  | error e => exact set_other m h _ _
  | ok x =>
    simp only
    rcases lruGet m.caches.recipes (c.recipeKey x) with ⟨o, d⟩
    cases o <;> exact set_other m h _ _

/-- an action of thread `i` -/
def Action.isGo (i : Nat) : Action α → Bool
  | .go j => j == i
  | .call _ _ => false

theorem runSchedule_progress {rmax smax : Nat} {i : Nat} {s : List (Action α)} (hs : ∀ c, Action.call i c ∉ s) {m : Machine α}
    {t : Task α} (ht : m.task i = some t) :
    ∃ t', (runSchedule rmax smax m s).task i = some t' ∧ t'.theCall = t.theCall ∧
      t'.left ≤ t.left - s.countP (Action.isGo i) := by
  unfold runSchedule
  induction s generalizing m t with
  | nil => exact ⟨t, ht, rfl, by simp⟩
  | cons a s ih =>
    have hs' : ∀ c, Action.call i c ∉ s := fun c hc => hs c (by simp [hc])
    rw [List.foldl_cons, List.countP_cons]
    cases a with
    | call j c =>
      have hj : i ≠ j := fun e => hs c (by simp [e])
      have h1 : (act rmax smax m (.call j c)).task i = some t := by
        simp only [act]
        split
        · rw [enter_other m hj, ht]
        · exact ht
      simpa [Action.isGo] using ih hs' h1
    | go j =>
      by_cases hj : i = j
      · subst hj
        obtain ⟨t1, h1, h2, h3⟩ := advance_self rmax smax m ht
        obtain ⟨t', h4, h5, h6⟩ := ih hs' (m := act rmax smax m (.go i)) h1
        refine ⟨t', h4, h5.trans h2, ?_⟩
        simp only [Action.isGo, BEq.rfl, if_true]
        omega
      · have h1 : (act rmax smax m (.go j)).task i = some t := by
          simp only [act]
          rw [advance_other rmax smax m hj, ht]
        have : (j == i) = false := by simpa using fun e => hj e.symm
        simpa [Action.isGo, this] using ih hs' h1

omit [PyUnicode] in
theorem enter_self (m : Machine α) (i : Nat) (c : Call α) :
    ∃ t, (enter m i c).task i = some t ∧ t.theCall = c ∧ t.left ≤ 3 := by
  unfold enter
  cases resolveInput c.backend c.input with
  | error e => exact ⟨_, set_self m i _ _, rfl, by simp [Task.left]⟩
  | ok x =>
    simp only
    rcases lruGet m.caches.recipes (c.recipeKey x) with ⟨o, d⟩
    cases o <;> exact ⟨_, set_self m i _ _, rfl, by simp [Task.left]⟩

theorem cachedCall_bounded {rmax smax : Nat} {st : Caches} (h : st.Bounded rmax smax) (c : Call α) :
    (cachedCall rmax smax st c).2.Bounded rmax smax := by
  have h1 : ∀ x, (cachedPrepare rmax st c x).2.Bounded rmax smax := by
    intro x
    unfold cachedPrepare
    rcases hg : lruGet st.recipes (c.recipeKey x) with ⟨o, d⟩
    have := (lruGet_length hg).trans h.1
    cases o with
    | some id => exact ⟨this, h.2⟩
    | none =>
      simp only
      cases prepareRecipe c.so c.pattern c.red.kind (c.kw.map Prod.fst) x.ndim with
      | error e => exact ⟨this, h.2⟩
      | ok r => exact ⟨lruPut_length this, h.2⟩
  have h2 : ∀ (st : Caches), st.Bounded rmax smax → ∀ x id, (cachedCook smax st c x id).2.Bounded rmax smax := by
    intro st h x id
    unfold cachedCook
    cases getE st.heap id with
    | error e => exact h
    | ok r =>
      simp only
      split
      · rcases hg : lruGet st.shapes (c.shapeKey x id) with ⟨o, d⟩
        have := (lruGet_length hg).trans h.2
        cases o with
        | some k => exact ⟨h.1, this⟩
        | none =>
          simp only
          cases reconstruct r (x.shape.map Size.ofNat) c.kw with
          | error e => exact ⟨h.1, this⟩
          | ok k => exact ⟨h.1, lruPut_length this⟩
      · exact h
  unfold cachedCall
  cases resolveInput c.backend c.input with
  | error e => exact h
  | ok x =>
    simp only
    have h3 := h1 x
    rcases hp : cachedPrepare rmax st c x with ⟨o, st1⟩
    rw [hp] at h3
    cases o with
    | error e => exact h3
    | ok id =>
      have h4 := h2 st1 h3 x id
      simp only
      rcases hq : cachedCook smax st1 c x id with ⟨o, st2⟩
      rw [hq] at h4
      cases o <;> exact h4

theorem afterCalls_bounded {rmax smax : Nat} {st : Caches} (h : st.Bounded rmax smax) (hist : List (Call α)) :
    (afterCalls rmax smax st hist).Bounded rmax smax := by
  unfold afterCalls
  induction hist generalizing st with
  | nil => exact h
  | cons c hist ih => exact ih (cachedCall_bounded h c)

end

end Einops
