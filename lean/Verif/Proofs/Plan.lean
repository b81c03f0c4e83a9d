import Verif.Spec

/-!
`buildRecipe` followed by `reconstruct` computes a plan that can be written down directly from the two compositions,
the keyword sizes and the shape, without reference to positions, dictionaries or set iteration order.
-/

namespace Einops

/-! ### dictionaries -/

section dict
variable {κ ν : Type} [DecidableEq κ]

theorem dictSet_keys_of_mem {d : List (κ × ν)} {k : κ} (v : ν) (h : k ∈ d.map Prod.fst) :
    (dictSet d k v).map Prod.fst = d.map Prod.fst := by
  induction d with
  | nil => simp at h
  | cons p d ih =>
    obtain ⟨k', v'⟩ := p
    simp only [dictSet]
    split
    · simp
    · rename_i hne
      simp only [List.map_cons, List.mem_cons] at h
      rcases h with h | h
      · exact absurd h.symm hne
      · simp [ih h]

theorem dictSet_append_of_not_mem {d : List (κ × ν)} {k : κ} (v : ν) (h : k ∉ d.map Prod.fst) :
    dictSet d k v = d ++ [(k, v)] := by
  induction d with
  | nil => rfl
  | cons p d ih =>
    obtain ⟨k', v'⟩ := p
    simp only [List.map_cons, List.mem_cons, not_or] at h
    simp [dictSet, Ne.symm h.1, ih h.2]

theorem dictGet_isSome {d : List (κ × ν)} {k : κ} : (dictGet d k).isSome ↔ k ∈ d.map Prod.fst := by
  induction d with
  | nil => simp [dictGet]
  | cons p d ih =>
    obtain ⟨k', v'⟩ := p
    simp only [dictGet]
    split
    · rename_i h; simp [h]
    · rename_i h
      rw [ih]
      simp only [List.map_cons, List.mem_cons]
      exact ⟨fun h' => .inr h', fun h' => h'.resolve_left (fun h'' => h h''.symm)⟩

theorem dictGet_none {d : List (κ × ν)} {k : κ} : dictGet d k = none ↔ k ∉ d.map Prod.fst := by
  rw [← dictGet_isSome]; cases dictGet d k <;> simp

/-- a dictionary that tabulates a function -/
theorem dictGet_map (l : List κ) (f : κ → ν) (k : κ) :
    dictGet (l.map (fun a => (a, f a))) k = if k ∈ l then some (f k) else none := by
  induction l with
  | nil => simp [dictGet]
  | cons a l ih =>
    simp only [List.map_cons, dictGet, List.mem_cons]
    by_cases h : a = k
    · simp [h]
    · simp only [h, if_false, ih]
      have h' : ¬ k = a := fun h' => h h'.symm
      simp [h']

theorem dictSet_map (l : List κ) (f : κ → ν) (k : κ) (v : ν) (h : k ∈ l) (hn : l.Nodup) :
    dictSet (l.map (fun a => (a, f a))) k v = l.map (fun a => (a, if a = k then v else f a)) := by
  induction l with
  | nil => simp at h
  | cons a l ih =>
    simp only [List.map_cons, dictSet]
    by_cases hak : a = k
    · subst hak
      simp only [if_true]
      congr 1
      apply List.map_congr_left
      intro b hb
      have : b ≠ a := fun h => (List.nodup_cons.1 hn).1 (h ▸ hb)
      simp [this]
    · simp only [hak, if_false]
      congr 1
      exact ih ((List.mem_cons.1 h).resolve_left (fun h => hak h.symm)) (List.nodup_cons.1 hn).2

theorem dictGet_of_mem {d : List (κ × ν)} (hn : (d.map Prod.fst).Nodup) {k : κ} {v : ν} (h : (k, v) ∈ d) :
    dictGet d k = some v := by
  induction d with
  | nil => simp at h
  | cons p d ih =>
    obtain ⟨k', v'⟩ := p
    simp only [List.map_cons, List.nodup_cons] at hn
    simp only [dictGet]
    rcases List.mem_cons.1 h with h | h
    · cases h; simp
    · have : k' ≠ k := by
        rintro rfl
        exact hn.1 (List.mem_map.2 ⟨_, h, rfl⟩)
      simp [this, ih hn.2 h]

theorem dictGet_mem {d : List (κ × ν)} {k : κ} {v : ν} (h : dictGet d k = some v) : (k, v) ∈ d := by
  induction d with
  | nil => simp [dictGet] at h
  | cons p d ih =>
    obtain ⟨k', v'⟩ := p
    simp only [dictGet] at h
    split at h
    · rename_i hk; cases h; simp [hk]
    · exact List.mem_cons_of_mem _ (ih h)

end dict

/-! ### lists -/

theorem setOf_nodup {l : List Axis} (h : l.Nodup) : setOf l = l := by
  have : ∀ (l acc : List Axis), (acc ++ l).Nodup → l.foldl setAdd acc = acc ++ l := by
    intro l
    induction l with
    | nil => simp
    | cons a l ih =>
      intro acc hn
      rw [List.foldl_cons]
      have : a ∉ acc := by
        intro h
        rw [List.nodup_append] at hn
        exact hn.2.2 a h a (by simp) rfl
      simp only [setAdd, this, if_false]
      rw [ih (acc ++ [a]) (by simpa using hn)]
      simp
  simpa [setOf] using this l [] (by simpa using h)

theorem SetOrder.mem (so : SetOrder) {k : Nat} {l : List Axis} {a : Axis} : a ∈ so.order k l ↔ a ∈ l :=
  (so.perm k l).mem_iff

theorem SetOrder.small (so : SetOrder) {k : Nat} {l : List Axis} (h : l.length ≤ 1) : so.order k l = l := by
  have hp := so.perm k l
  match l, h with
  | [], _ => exact List.perm_nil.1 hp
  | [a], _ => exact List.perm_singleton.1 hp

theorem getElem?_idxOf_map {κ ν : Type} [DecidableEq κ] (l : List κ) (f : κ → ν) {a : κ} (h : a ∈ l) :
    (l.map f)[l.idxOf a]? = some (f a) := by
  have hlt := List.idxOf_lt_length_of_mem h
  rw [List.getElem?_map, List.getElem?_eq_getElem hlt]
  simp

theorem set_idxOf_map {κ ν : Type} [DecidableEq κ] (l : List κ) (f : κ → ν) {a : κ} (h : a ∈ l) (hn : l.Nodup) (v : ν) :
    (l.map f).set (l.idxOf a) v = l.map (fun b => if b = a then v else f b) := by
  induction l with
  | nil => simp at h
  | cons b l ih =>
    by_cases hab : b = a
    · subst hab
      simp only [List.idxOf_cons_self, List.map_cons, List.set_cons_zero, if_true]
      congr 1
      apply List.map_congr_left
      intro c hc
      have : c ≠ b := fun h => (List.nodup_cons.1 hn).1 (h ▸ hc)
      simp [this]
    · have ha : a ∈ l := (List.mem_cons.1 h).resolve_left (fun h => hab h.symm)
      rw [List.idxOf_cons_ne _ hab]
      simp [hab, ih ha (List.nodup_cons.1 hn).2]

/-! ### sizes -/

theorem sizeProd_eq (l : List Size) :
    sizeProd l = ⟨(l.map Size.val).prod, l.all Size.isInt⟩ := by
  have : ∀ (l : List Size) (acc : Size),
      l.foldl Size.mul acc = ⟨acc.val * (l.map Size.val).prod, acc.isInt && l.all Size.isInt⟩ := by
    intro l
    induction l with
    | nil => simp
    | cons s l ih =>
      intro acc
      rw [List.foldl_cons, ih]
      simp [Size.mul, mul_assoc, Bool.and_assoc]
  simpa [sizeProd] using this l ⟨1, true⟩

theorem sizeProd_perm {l l' : List Size} (h : l.Perm l') : sizeProd l = sizeProd l' := by
  rw [sizeProd_eq, sizeProd_eq, (h.map Size.val).prod_eq]
  congr 1
  rw [Bool.eq_iff_iff, List.all_eq_true, List.all_eq_true]
  constructor
  · intro hh x hx; exact hh x (h.mem_iff.2 hx)
  · intro hh x hx; exact hh x (h.mem_iff.1 hx)

/-! ### the direct description -/

/-- length of an axis known before looking at the shape -/
def knownSize (kw : List (Str × Size)) : Axis → Option Size
  | .anon _ _ v => some ⟨v, true⟩
  | .str n => dictGet kw n

theorem knownSize_isSome {kw : List (Str × Size)} {a : Axis} :
    (knownSize kw a).isSome = isKnown (kw.map Prod.fst) a := by
  cases a with
  | anon => rfl
  | str n =>
    rw [Bool.eq_iff_iff]
    simp [knownSize, isKnown, dictGet_isSome]

/-- product of the known lengths of a group -/
def knownProd (kw : List (Str × Size)) (g : List Axis) : Size := sizeProd (g.filterMap (knownSize kw))

/-- length of an axis -/
def axisSize (kw : List (Str × Size)) (L : List (List Axis)) (shape : List Size) (a : Axis) : Size :=
  match knownSize kw a with
  | some s => s
  | none =>
    match (L.zip shape).find? (fun p => decide (a ∈ p.1)) with
    | some p => p.2.fdiv (knownProd kw p.1)
    | none => ⟨unknownAxisLength, true⟩

/-- the test made for one input dimension -/
def groupErr (kw : List (Str × Size)) (g : List Axis) (s : Size) : Option PyErr :=
  let kp := knownProd kw g
  if s.isInt && kp.isInt then
    if g.all (isKnown (kw.map Prod.fst)) then (if s.val ≠ kp.val then some .einops else none)
    else if kp.val = 0 then some .zeroDivision
    else if Int.fmod s.val kp.val ≠ 0 then some .einops
    else none
  else none

/-- The cooked recipe. -/
def cookedOf (ex : Expanded) (kw : List (Str × Size)) (shape : List Size) : CookedRecipe :=
  let len := axisSize kw ex.left shape
  let order := ex.rght.flatten.filter (fun a => a ∈ ex.leftIds) ++ ex.left.flatten.filter (fun a => a ∉ ex.rghtIds)
  let perm := order.map ex.left.flatten.idxOf
  let added := (ex.rght.flatten.zipIdx.filter (fun p => p.1 ∉ ex.leftIds)).map (fun p => (p.2, len p.1))
  { initShapes := if ex.left.any (fun g => g.length ≠ 1) then some (ex.left.flatten.map len) else none
    axesReordering := if perm = List.range perm.length then none else some perm
    reducedAxes := (List.range perm.length).drop (ex.rght.flatten.filter (fun a => a ∈ ex.leftIds)).length
    addedAxes := added
    finalShapes := if ex.rght.any (fun g => g.length ≠ 1) then
      some (ex.rght.map (fun g => sizeProd (g.map len))) else none
    nAxesWithAdded := added.length + perm.length }

/-- keyword names that are legal and used -/
def namesOK [PyUnicode] (ex : Expanded) (names : List Str) : Prop :=
  ∀ n ∈ names, checkAxisName false n = true ∧ (Axis.str n ∈ ex.left.flatten ∨ Axis.str n ∈ ex.rghtIds)

/-- What parsing guarantees about the expanded sides. -/
structure ExpandedWF (ex : Expanded) : Prop where
  left_nodup : ex.left.flatten.Nodup
  rght_nodup : ex.rght.flatten.Nodup
  leftIds_iff : ∀ a, a ∈ ex.leftIds ↔ a ∈ ex.left.flatten
  rghtIds_iff : ∀ a, a ∈ ex.rghtIds ↔ a ∈ ex.rght.flatten
  rghtIds_nodup : ex.rghtIds.Nodup

/-- The part of it that preparation of a recipe needs. -/
structure PlanWF (ex : Expanded) : Prop where
  left_nodup : ex.left.flatten.Nodup
  leftIds_iff : ∀ a, a ∈ ex.leftIds ↔ a ∈ ex.left.flatten
  rghtIds_nodup : ex.rghtIds.Nodup
  rght_mem : ∀ a ∈ ex.rght.flatten, a ∈ ex.left.flatten ∨ a ∈ ex.rghtIds

theorem ExpandedWF.plan {ex : Expanded} (wf : ExpandedWF ex) : PlanWF ex :=
  ⟨wf.left_nodup, wf.leftIds_iff, wf.rghtIds_nodup, fun a ha => .inr ((wf.rghtIds_iff a).2 ha)⟩

section
variable (so : SetOrder) (ex : Expanded) (wf : PlanWF ex)

/-- all elementary axes: those of the left side in order, then the new ones in some order -/
def elementary : List Axis :=
  ex.left.flatten ++ (so.order 0 ex.rghtIds).filter (fun a => a ∉ ex.left.flatten)

include wf in
theorem elementary_nodup : (elementary so ex).Nodup := by
  unfold elementary
  rw [List.nodup_append]
  refine ⟨wf.left_nodup, ((so.perm 0 _).nodup_iff.2 wf.rghtIds_nodup).filter _, ?_⟩
  intro a ha b hb hab
  subst hab
  simp only [List.mem_filter, decide_eq_true_eq] at hb
  exact hb.2 ha

theorem mem_elementary {a : Axis} : a ∈ elementary so ex ↔ a ∈ ex.left.flatten ∨ a ∈ ex.rghtIds := by
  unfold elementary
  rw [List.mem_append, List.mem_filter, so.mem]
  simp only [decide_eq_true_eq]
  by_cases h : a ∈ ex.left.flatten <;> simp [h]

theorem foldl_dictSet_fresh (l : List Axis) (hl : l.Nodup) (acc : List Axis) (hd : ∀ a ∈ l, a ∉ acc) :
    l.foldl (fun d a => dictSet d a (firstLength a)) (acc.map (fun a => (a, firstLength a))) =
      (acc ++ l).map (fun a => (a, firstLength a)) := by
  induction l generalizing acc with
  | nil => simp
  | cons a l ih =>
    rw [List.foldl_cons, dictSet_append_of_not_mem _ (by simpa [List.map_map, Function.comp_def] using hd a (by simp))]
    have := ih (List.nodup_cons.1 hl).2 (acc ++ [a]) (by
      intro b hb
      simp only [List.mem_append, List.mem_singleton, not_or]
      exact ⟨hd b (by simp [hb]), fun h => (List.nodup_cons.1 hl).1 (h ▸ hb)⟩)
    simpa using this

include wf in
theorem knownAll_eq : knownAll so ex.left ex.rghtIds = (elementary so ex).map (fun a => (a, firstLength a)) := by
  unfold knownAll knownLeft
  have h1 := foldl_dictSet_fresh ex.left.flatten wf.left_nodup [] (by simp)
  simp only [List.map_nil, List.nil_append] at h1
  rw [h1]
  have hn : (so.order 0 ex.rghtIds).Nodup := (so.perm 0 _).nodup_iff.2 wf.rghtIds_nodup
  unfold elementary
  generalize so.order 0 ex.rghtIds = r at hn
  have : ∀ (r acc : List Axis), r.Nodup → (∀ a ∈ r, a ∈ acc → a ∈ ex.left.flatten) → (∀ a ∈ ex.left.flatten, a ∈ acc) →
      r.foldl (fun d a => match dictGet d a with
        | some _ => d
        | none => dictSet d a (firstLength a)) (acc.map (fun a => (a, firstLength a))) =
      (acc ++ r.filter (fun a => a ∉ ex.left.flatten)).map (fun a => (a, firstLength a)) := by
    intro r
    induction r with
    | nil => simp
    | cons a r ih =>
      intro acc hn h1 h2
      rw [List.foldl_cons, dictGet_map]
      by_cases ha : a ∈ ex.left.flatten
      · simp only [h2 a ha, if_true]
        rw [ih acc (List.nodup_cons.1 hn).2 (fun b hb => h1 b (by simp [hb])) h2]
        rw [List.filter_cons_of_neg (by simpa using ha)]
      · have hacc : a ∉ acc := fun h => ha (h1 a (by simp) h)
        simp only [hacc, if_false]
        rw [dictSet_append_of_not_mem _ (by simpa [List.map_map, Function.comp_def] using hacc)]
        have := ih (acc ++ [a]) (List.nodup_cons.1 hn).2 (by
          intro b hb hb'
          rcases List.mem_append.1 hb' with hb' | hb'
          · exact h1 b (by simp [hb]) hb'
          · rw [List.mem_singleton.1 hb'] at hb
            exact absurd hb (List.nodup_cons.1 hn).1) (fun b hb => List.mem_append_left _ (h2 b hb))
        rw [List.filter_cons_of_pos (by simpa using ha)]
        simpa using this
  exact this r ex.left.flatten hn (fun a _ h => h) (fun a h => h)

/-- recorded length after the keyword names have been marked -/
def markedLength (names : List Str) (a : Axis) : Int :=
  if a ∈ names.map Axis.str then expectedAxisLength else firstLength a

theorem markExpected_eq [PyUnicode] (l : List Axis) (hl : l.Nodup) (names : List Str) (f : Axis → Int) :
    markExpected (l.map (fun a => (a, f a))) names =
      if ∀ n ∈ names, checkAxisName false n = true ∧ Axis.str n ∈ l then
        .ok (l.map (fun a => (a, if a ∈ names.map Axis.str then expectedAxisLength else f a)))
      else .error .einops := by
  induction names generalizing f with
  | nil => simp [markExpected]
  | cons n ns ih =>
    simp only [markExpected]
    by_cases h1 : checkAxisName false n = true
    · simp only [h1, Bool.not_true, Bool.false_eq_true, if_false]
      rw [dictGet_map]
      by_cases h2 : Axis.str n ∈ l
      · simp only [h2, if_true]
        rw [dictSet_map _ _ _ _ h2 hl, ih]
        have : (∀ m ∈ n :: ns, checkAxisName false m = true ∧ Axis.str m ∈ l) ↔
            (∀ m ∈ ns, checkAxisName false m = true ∧ Axis.str m ∈ l) := by
          simp [h1, h2]
        by_cases h3 : ∀ m ∈ ns, checkAxisName false m = true ∧ Axis.str m ∈ l
        · rw [if_pos h3, if_pos (this.2 h3)]
          congr 1
          apply List.map_congr_left
          intro a _
          simp only [List.map_cons, List.mem_cons]
          by_cases h4 : a ∈ ns.map Axis.str
          · simp [h4]
          · by_cases h5 : a = .str n <;> simp [h4, h5]
        · rw [if_neg h3, if_neg (fun h => h3 (this.1 h))]
      · simp only [h2, if_false]
        rw [if_neg]
        intro h
        exact h2 (h n (by simp)).2
    · simp only [h1, Bool.not_false, if_true]
      rw [if_neg]
      intro h
      exact h1 (h n (by simp)).1

theorem markedLength_unknown (names : List Str) (a : Axis) :
    markedLength names a = unknownAxisLength ↔ isKnown names a = false := by
  unfold markedLength
  cases a with
  | anon s i v =>
    simp only [List.mem_map, reduceCtorEq, and_false, exists_false, if_false, firstLength, isKnown]
    constructor
    · intro h; unfold unknownAxisLength at h; omega
    · intro h; cases h
  | str n =>
    by_cases h : n ∈ names
    · simp [h, isKnown, expectedAxisLength, unknownAxisLength]
    · simp [h, isKnown, firstLength]

/-- one input group in a recipe -/
def kuOf (names : List Str) (i : Nat) (g : List Axis) : List Nat × List Nat :=
  ((so.order (2 * i + 1) (g.filter (isKnown names))).map (elementary so ex).idxOf,
   (g.filter (fun a => !isKnown names a)).map (elementary so ex).idxOf)

theorem positionE_ok {keys l : List Axis} (h : ∀ a ∈ l, a ∈ keys) :
    mapE (positionE keys) l = .ok (l.map keys.idxOf) :=
  mapE_eq_ok_map (fun a ha => by simp [positionE, h a ha])

theorem knownUnknown_eq (names : List Str) (i : Nat) (g : List Axis) (hg : g.Nodup)
    (hsub : ∀ a ∈ g, a ∈ elementary so ex) :
    knownUnknown so (elementary so ex) ((elementary so ex).map (fun a => (a, markedLength names a))) i g =
      if 1 < (g.filter (fun a => !isKnown names a)).length then .error .einops
      else .ok (kuOf so ex names i g) := by
  unfold knownUnknown
  rw [mapE_eq_ok_map (g := markedLength names) (fun a ha => by
    simp [dictGetE, dictGet_map, hsub a ha])]
  simp only
  have hzip : g.zip (g.map (markedLength names)) = g.map (fun a => (a, markedLength names a)) := by
    rw [List.zip_map_right]
    induction g with
    | nil => rfl
    | cons a g ih => simp_all
  rw [hzip]
  have hk : ((g.map (fun a => (a, markedLength names a))).filter (fun p => decide (p.2 ≠ unknownAxisLength))).map
      Prod.fst = g.filter (isKnown names) := by
    rw [List.filter_map, List.map_map]
    have : (Prod.fst ∘ fun a => (a, markedLength names a)) = (id : Axis → Axis) := rfl
    rw [this, List.map_id]
    congr 1
    funext a
    simp only [Function.comp]
    rw [Bool.eq_iff_iff, decide_eq_true_eq, ne_eq, markedLength_unknown]
    simp
  have hu : ((g.map (fun a => (a, markedLength names a))).filter (fun p => decide (p.2 = unknownAxisLength))).map
      Prod.fst = g.filter (fun a => !isKnown names a) := by
    rw [List.filter_map, List.map_map]
    have : (Prod.fst ∘ fun a => (a, markedLength names a)) = (id : Axis → Axis) := rfl
    rw [this, List.map_id]
    congr 1
    funext a
    simp only [Function.comp]
    rw [Bool.eq_iff_iff, decide_eq_true_eq, markedLength_unknown]
    simp
  rw [hk, hu, setOf_nodup (hg.filter _), setOf_nodup (hg.filter _)]
  by_cases h1 : 1 < (g.filter (fun a => !isKnown names a)).length
  · rw [if_pos h1, if_pos h1]
  · rw [if_neg h1, if_neg h1]
    have hlen : (g.filter (fun a => !isKnown names a)).length + (g.filter (isKnown names)).length = g.length := by
      rw [Nat.add_comm]
      exact (List.length_eq_length_filter_add (isKnown names)).symm
    rw [if_neg (by simpa using hlen)]
    rw [positionE_ok (fun a ha => hsub a (List.mem_of_mem_filter ((so.mem).1 ha))),
      so.small (k := 2 * i + 2) (by omega),
      positionE_ok (fun a ha => hsub a (List.mem_of_mem_filter ha))]
    rfl

/-- The recipe in terms of the two sides. -/
def recipeOf (names : List Str) : TransformRecipe where
  elementaryAxesLengths := (elementary so ex).map (markedLength names)
  axisName2elementary := names.map (fun n => (n, (elementary so ex).idxOf (.str n)))
  inputComposition := ex.left.zipIdx.map (fun p => kuOf so ex names p.2 p.1)
  axesPermutation := (ex.rght.flatten.filter (fun a => a ∈ ex.leftIds) ++
    ex.left.flatten.filter (fun a => a ∉ ex.rghtIds)).map ex.left.flatten.idxOf
  firstReducedAxis := (ex.rght.flatten.filter (fun a => a ∈ ex.leftIds)).length
  addedAxes := (ex.rght.flatten.zipIdx.filter (fun p => p.1 ∉ ex.leftIds)).map
    (fun p => (p.2, (elementary so ex).idxOf p.1))
  outputCompositeAxes := ex.rght.map (fun g => g.map (elementary so ex).idxOf)

theorem mapE_error {ε : Type} {α β : Type} {f : α → Except ε β} {l : List α} {e : ε}
    (hall : ∀ a ∈ l, f a = .error e ∨ ∃ b, f a = .ok b) (hex : ∃ a ∈ l, f a = .error e) :
    mapE f l = .error e := by
  induction l with
  | nil => simp at hex
  | cons a l ih =>
    simp only [mapE]
    rcases hall a (by simp) with h | ⟨b, h⟩
    · simp [h]
    · rw [h]
      obtain ⟨c, hc, hce⟩ := hex
      rcases List.mem_cons.1 hc with rfl | hc
      · rw [hce] at h; cases h
      · rw [ih (fun a ha => hall a (by simp [ha])) ⟨c, hc, hce⟩]

include wf in
theorem buildRecipe_plan [PyUnicode] (names : List Str) :
    (namesOK ex names ∧ OneUnknown ex.left names → buildRecipe so ex names = .ok (recipeOf so ex names)) ∧
    (¬ (namesOK ex names ∧ OneUnknown ex.left names) → buildRecipe so ex names = .error .einops) := by
  have hE := elementary_nodup so ex wf
  have hnames : (∀ n ∈ names, checkAxisName false n = true ∧ Axis.str n ∈ elementary so ex) ↔ namesOK ex names := by
    unfold namesOK
    simp only [mem_elementary]
  unfold buildRecipe
  rw [knownAll_eq so ex wf]
  have hkeys : ((elementary so ex).map (fun a => (a, firstLength a))).map Prod.fst = elementary so ex := by
    rw [List.map_map]; exact List.map_id _
  simp only [hkeys]
  rw [markExpected_eq _ hE]
  by_cases h1 : namesOK ex names
  · rw [if_pos (hnames.2 h1)]
    simp only
    have hm : (elementary so ex).map (fun a => (a, if a ∈ names.map Axis.str then expectedAxisLength else firstLength a)) =
        (elementary so ex).map (fun a => (a, markedLength names a)) := rfl
    rw [hm]
    have hsubg : ∀ g ∈ ex.left, ∀ a ∈ g, a ∈ elementary so ex := fun g hg a ha =>
      (mem_elementary so ex).2 (.inl (List.mem_flatten.2 ⟨g, hg, ha⟩))
    have hnod : ∀ g ∈ ex.left, g.Nodup := fun g hg => (List.nodup_flatten.1 wf.left_nodup).1 g hg
    have hku : ∀ p ∈ ex.left.zipIdx, knownUnknown so (elementary so ex)
        ((elementary so ex).map (fun a => (a, markedLength names a))) p.2 p.1 =
        if 1 < (p.1.filter (fun a => !isKnown names a)).length then .error .einops
        else .ok (kuOf so ex names p.2 p.1) := by
      intro p hp
      have hp1 : p.1 ∈ ex.left := List.fst_mem_of_mem_zipIdx hp
      exact knownUnknown_eq so ex names p.2 p.1 (hnod _ hp1) (hsubg _ hp1)
    by_cases h2 : OneUnknown ex.left names
    · refine ⟨fun _ => ?_, fun h => absurd ⟨h1, h2⟩ h⟩
      rw [mapE_eq_ok_map (g := fun p => kuOf so ex names p.2 p.1) (fun p hp => by
        rw [hku p hp, if_neg]
        have := h2 p.1 (List.fst_mem_of_mem_zipIdx hp)
        omega)]
      simp only
      rw [mapE_eq_ok_map (g := fun g => g.map (elementary so ex).idxOf) (fun g hg => positionE_ok (fun a ha =>
        (mem_elementary so ex).2 (wf.rght_mem a (List.mem_flatten.2 ⟨g, hg, ha⟩))))]
      simp only
      rw [mapE_eq_ok_map (g := ex.left.flatten.idxOf) (fun a ha => by
        have : a ∈ ex.left.flatten := by
          rcases List.mem_append.1 ha with ha | ha
          · have := (List.mem_filter.1 ha).2
            exact (wf.leftIds_iff a).1 (by simpa using this)
          · exact List.mem_of_mem_filter ha
        simp only [indexE]
        rw [if_pos this])]
      simp only
      rw [mapE_eq_ok_map (g := fun p => (p.2, (elementary so ex).idxOf p.1)) (fun p hp => by
        have : p.1 ∈ elementary so ex := by
          have := List.fst_mem_of_mem_zipIdx (List.mem_of_mem_filter hp)
          exact (mem_elementary so ex).2 (wf.rght_mem _ this)
        simp [positionE, this])]
      simp only
      rw [mapE_eq_ok_map (g := fun n => (n, (elementary so ex).idxOf (.str n))) (fun n hn => by
        simp [positionE, ((hnames.2 h1) n hn).2])]
      simp only [recipeOf]
      congr 2
      · rw [List.map_map]; rfl
      · simp
    · refine ⟨fun h => absurd h.2 h2, fun _ => ?_⟩
      rw [mapE_error (e := .einops)]
      · intro p hp
        rw [hku p hp]
        split
        · exact .inl rfl
        · exact .inr ⟨_, rfl⟩
      · unfold OneUnknown at h2
        push Not at h2
        obtain ⟨g, hg, hlen⟩ := h2
        obtain ⟨i, hi, rfl⟩ := List.getElem_of_mem hg
        refine ⟨(ex.left[i], i), by
          rw [List.mem_zipIdx_iff_getElem?]; simp [hi], ?_⟩
        rw [hku _ (by rw [List.mem_zipIdx_iff_getElem?]; simp [hi]), if_pos hlen]
  · rw [if_neg (fun h => h1 (hnames.1 h))]
    exact ⟨fun h => absurd h.1 h1, fun _ => rfl⟩

theorem buildRecipe_eq [PyUnicode] (wf : ExpandedWF ex) (names : List Str) :
    (namesOK ex names ∧ OneUnknown ex.left names → buildRecipe so ex names = .ok (recipeOf so ex names)) ∧
    (¬ (namesOK ex names ∧ OneUnknown ex.left names) → buildRecipe so ex names = .error .einops) :=
  buildRecipe_plan so ex wf.plan names

end

end Einops
