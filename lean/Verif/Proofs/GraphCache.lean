import Verif.GraphCache
import Verif.Proofs.Cache

/-! What the caches contain in graph mode. -/

namespace Einops

/-- no size is the hash of `None` -/
def GCall.Apart (noneHash : Int) (c : GCall) : Prop :=
  GSize.int noneHash ∉ c.shape.sizes ∧ ∀ p ∈ c.kw, p.2 ≠ .int noneHash

/-- a number belongs to one `HashableTuple` -/
def OneObject (calls : List GCall) : Prop :=
  ∀ c ∈ calls, ∀ c' ∈ calls, ∀ id l l', c.shape = .wrapped id l → c'.shape = .wrapped id l' → l = l'

theorem GSize.key_inj {n : Int} {a b : GSize} (ha : a ≠ .int n) (hb : b ≠ .int n) (h : a.key n = b.key n) : a = b := by
  cases a with
  | int x =>
    cases b with
    | int y => simpa [GSize.key] using h
    | sym e => simp [GSize.key] at h
    | unknown => simp only [GSize.key, SizeKey.num.injEq] at h; exact absurd (by rw [h]) ha
  | sym e =>
    cases b with
    | int y => simp [GSize.key] at h
    | sym e' => simpa [GSize.key] using h
    | unknown => simp [GSize.key] at h
  | unknown =>
    cases b with
    | int y => simp only [GSize.key, SizeKey.num.injEq] at h; exact absurd (by rw [h]) hb
    | sym e => simp [GSize.key] at h
    | unknown => rfl

theorem keys_inj {n : Int} : ∀ {l l' : List GSize}, GSize.int n ∉ l → GSize.int n ∉ l' →
    l.map (GSize.key n) = l'.map (GSize.key n) → l = l'
  | [], [], _, _, _ => rfl
  | [], _ :: _, _, _, h => by cases h
  | _ :: _, [], _, _, h => by cases h
  | a :: l, b :: l', ha, hb, h => by
    simp only [List.map_cons, List.cons.injEq] at h
    simp only [List.mem_cons, not_or] at ha hb
    rw [GSize.key_inj (fun e => ha.1 e.symm) (fun e => hb.1 e.symm) h.1, keys_inj ha.2 hb.2 h.2]

theorem kwKeys_inj {n : Int} : ∀ {l l' : List (Str × GSize)}, (∀ p ∈ l, p.2 ≠ .int n) → (∀ p ∈ l', p.2 ≠ .int n) →
    l.map (fun p => (p.1, p.2.key n)) = l'.map (fun p => (p.1, p.2.key n)) → l = l'
  | [], [], _, _, _ => rfl
  | [], _ :: _, _, _, h => by cases h
  | _ :: _, [], _, _, h => by cases h
  | a :: l, b :: l', ha, hb, h => by
    simp only [List.map_cons, List.cons.injEq, Prod.mk.injEq] at h
    have : a = b := Prod.ext h.1.1 (GSize.key_inj (ha a (by simp)) (hb b (by simp)) h.1.2)
    rw [this, kwKeys_inj (fun p hp => ha p (by simp [hp])) (fun p hp => hb p (by simp [hp])) h.2]

/-- what two calls with the same key have in common -/
theorem shapeKey_inj {n : Int} {calls : List GCall} (hn : ∀ c ∈ calls, c.Apart n) (ho : OneObject calls) {c c' : GCall}
    (hc : c ∈ calls) (hc' : c' ∈ calls) {id id' : Nat} (h : c.shapeKey n id = c'.shapeKey n id') :
    id = id' ∧ c.shape.sizes = c'.shape.sizes ∧ c.kw = c'.kw := by
  simp only [GCall.shapeKey, GShapeKey.mk.injEq] at h
  obtain ⟨h1, h2, h3⟩ := h
  refine ⟨h1, ?_, kwKeys_inj (hn c hc).2 (hn c' hc').2 h3⟩
  have ha := (hn c hc).1
  have hb := (hn c' hc').1
  have hoo := ho c hc c' hc'
  cases hs : c.shape with
  | tuple l =>
    cases hs' : c'.shape with
    | tuple l' =>
      rw [hs, hs'] at h2
      rw [hs] at ha
      rw [hs'] at hb
      simp only [GShape.part, GShapePart.tuple.injEq] at h2
      exact keys_inj ha hb h2
    | wrapped i l' => rw [hs, hs'] at h2; cases h2
  | wrapped i l =>
    cases hs' : c'.shape with
    | tuple l' => rw [hs, hs'] at h2; cases h2
    | wrapped i' l' =>
      rw [hs, hs'] at h2
      simp only [GShape.part, GShapePart.object.injEq] at h2
      subst h2
      exact hoo i l l' hs hs'

section
variable [PyUnicode] {noneHash : Int} {rmax smax : Nat} {calls : List GCall}

theorem gCall_kind (c : GCall) : c.op.kind = c.kind := by
  unfold GCall.kind
  cases c.op <;> rfl

/-- everything in the caches was computed for some earlier call -/
structure GCaches.Good (noneHash : Int) (calls : List GCall) (st : GCaches) : Prop where
  recipes : ∀ p ∈ st.recipes, ∃ r so, st.heap[p.2]? = some r ∧
    prepareRecipe so p.1.pattern p.1.op.kind p.1.names p.1.ndim = .ok r
  shapes : ∀ p ∈ st.shapes, ∃ r c id, c ∈ calls ∧ st.heap[id]? = some r ∧ p.1 = c.shapeKey noneHash id ∧
    reconstructG r c.shape.sizes c.kw = .ok p.2

theorem GCaches.Good.empty : GCaches.empty.Good noneHash calls :=
  ⟨fun p hp => (by cases hp), fun p hp => (by cases hp)⟩

theorem gPrepare_good {st : GCaches} (h : st.Good noneHash calls) (c : GCall) :
    (gPrepare rmax st c).2.Good noneHash calls ∧
    match (gPrepare rmax st c).1 with
    | .error e => ∃ so, prepareRecipe so c.pattern c.kind (c.kw.map Prod.fst) c.shape.sizes.length = .error e
    | .ok id => ∃ r so, (gPrepare rmax st c).2.heap[id]? = some r ∧
        prepareRecipe so c.pattern c.kind (c.kw.map Prod.fst) c.shape.sizes.length = .ok r := by
  unfold gPrepare
  rcases hg : lruGet st.recipes c.recipeKey with ⟨o, d⟩
  have hs := lruGet_sub hg
  have h' : GCaches.Good noneHash calls { st with recipes := d } := ⟨fun p hp => h.recipes p (hs p hp), h.shapes⟩
  cases o with
  | some id =>
    obtain ⟨r, so, h1, h2⟩ := h.recipes _ (lruGet_hit hg)
    refine ⟨h', r, so, h1, ?_⟩
    rw [← gCall_kind]
    exact h2
  | none =>
    simp only
    cases hr : prepareRecipe c.so c.pattern c.kind (c.kw.map Prod.fst) c.shape.sizes.length with
    | error e => exact ⟨h', c.so, hr⟩
    | ok r =>
      refine ⟨⟨?_, ?_⟩, r, c.so, ?_, hr⟩
      · intro p hp
        rcases lruPut_sub p hp with hp | rfl
        · obtain ⟨r', so, h1, h2⟩ := h'.recipes p hp
          exact ⟨r', so, heap_mono h1 _, h2⟩
        · exact ⟨r, c.so, by simp, by rw [← hr]; simp only [GCall.recipeKey, gCall_kind]⟩
      · intro p hp
        obtain ⟨r', c', id, h0, h1, h2⟩ := h'.shapes p hp
        exact ⟨r', c', id, h0, heap_mono h1 _, h2⟩
      · simp

theorem gCook_good {st : GCaches} (h : st.Good noneHash calls) (hn : ∀ c ∈ calls, c.Apart noneHash)
    (ho : OneObject calls) {c : GCall} (hc : c ∈ calls) {id : Nat} {r : TransformRecipe} (hr : st.heap[id]? = some r) :
    (gCook noneHash smax st c id).2.Good noneHash calls ∧
      (gCook noneHash smax st c id).1 = reconstructG r c.shape.sizes c.kw := by
  unfold gCook
  rw [getE_some hr]
  simp only
  split
  · rcases hg : lruGet st.shapes (c.shapeKey noneHash id) with ⟨o, d⟩
    have hs := lruGet_sub hg
    have h' : GCaches.Good noneHash calls { st with shapes := d } := ⟨h.recipes, fun p hp => h.shapes p (hs p hp)⟩
    cases o with
    | some k =>
      obtain ⟨r', c', id', h0, h1, h2, h3⟩ := h.shapes _ (lruGet_hit hg)
      obtain ⟨rfl, h4, h5⟩ := shapeKey_inj hn ho hc h0 h2
      rw [hr] at h1
      cases h1
      refine ⟨h', ?_⟩
      rw [h4, h5, h3]
    | none =>
      simp only
      cases hk : reconstructG r c.shape.sizes c.kw with
      | error e => cases e <;> exact ⟨h', by first | rfl | exact hk⟩
      | ok k =>
        refine ⟨⟨h'.recipes, ?_⟩, rfl⟩
        intro p hp
        rcases lruPut_sub p hp with hp | rfl
        · exact h'.shapes p hp
        · exact ⟨r, c, id, hc, hr, rfl, hk⟩
  · exact ⟨h, rfl⟩

theorem gCall_good {st : GCaches} (h : st.Good noneHash calls) (hn : ∀ c ∈ calls, c.Apart noneHash)
    (ho : OneObject calls) {c : GCall} (hc : c ∈ calls) :
    (gCall noneHash rmax smax st c).2.Good noneHash calls ∧
      ∃ so, (gCall noneHash rmax smax st c).1 = traceCall so c.pattern c.kind c.shape.sizes c.kw := by
  unfold gCall
  have hp := gPrepare_good (rmax := rmax) h c
  rcases hg : gPrepare rmax st c with ⟨o, st'⟩
  rw [hg] at hp
  cases o with
  | error e =>
    obtain ⟨h1, so, h2⟩ := hp
    exact ⟨h1, so, by unfold traceCall; rw [h2]⟩
  | ok id =>
    obtain ⟨h1, r, so, h2, h3⟩ := hp
    obtain ⟨h4, h5⟩ := gCook_good (smax := smax) h1 hn ho hc h2
    exact ⟨h4, so, by rw [h5]; unfold traceCall; rw [h3]⟩

theorem afterTraces_good {st : GCaches} (h : st.Good noneHash calls) (hn : ∀ c ∈ calls, c.Apart noneHash)
    (ho : OneObject calls) {hist : List GCall} (hh : ∀ c ∈ hist, c ∈ calls) :
    (afterTraces noneHash rmax smax st hist).Good noneHash calls := by
  unfold afterTraces
  induction hist generalizing st with
  | nil => exact h
  | cons c hist ih => exact ih (gCall_good h hn ho (hh c (by simp))).1 (fun c hc => hh c (by simp [hc]))

end

end Einops
