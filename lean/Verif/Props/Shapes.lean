import Verif.ParseShape
import Verif.Rewriting
import Verif.Proofs.Prepare
import Verif.Proofs.Units
import Verif.Props.Examples

/-!
# `parse_shape` and `_enumerate_directions`
-/

namespace Einops

universe u

section
variable [PyUnicode]

/-! ### C22 -/

/-- the words of an element that are not 1 -/
def Elem.core (e : Elem) : List Str := e.words.filter (fun w => !isUnit w)

/-- Reading lengths off a shape: element by element, a name (also in parentheses, possibly with units) names the length,
`_` skips a dimension, a unit fits length 1, a number its own value, the ellipsis any number of dimensions. -/
inductive ShapeMatches : List Elem → List Nat → List (Str × Nat) → Prop
  | nil : ShapeMatches [] [] []
  | name {e w G n s d} : e.core = [w] → IsName false w → ShapeMatches G s d → ShapeMatches (e :: G) (n :: s) ((w, n) :: d)
  | skip {e G n s d} : e.core = [['_']] → ShapeMatches G s d → ShapeMatches (e :: G) (n :: s) d
  | unit {e G s d} : e.core = [] → ShapeMatches G s d → ShapeMatches (e :: G) (1 :: s) d
  | number {e w G s d} : e.core = [w] → IsNumber w → ShapeMatches G s d → ShapeMatches (e :: G) (decimalValue w :: s) d
  | ellipsis {ds G s d} : ShapeMatches G s d → ShapeMatches (.bare dots :: G) (ds ++ s) d

theorem underscore_not_number : ¬ IsNumber ['_'] := by
  rintro ⟨_, h⟩
  obtain ⟨d, hd⟩ := h '_' (by simp)
  have := PyUnicode.decimal_alnum _ _ hd
  rw [PyUnicode.special_not_alnum '_' (by simp)] at this
  cases this

theorem underscore_not_name : ¬ IsName false ['_'] := by
  rintro ⟨_, _, h⟩
  simp at h

omit [PyUnicode] in
theorem underscore_ne_dots : (['_'] : Str) ≠ dots := by decide

theorem isName_of_true {w : Str} (h : IsName true w) (hw : w ≠ ['_']) : IsName false w := by
  obtain ⟨h1, h2, h3⟩ := h
  exact ⟨h1, h2, .inl (h3.resolve_right (fun h => hw h.2))⟩

theorem wordAxes_not_unit {side k : Nat} {w : Str} (h : isUnit w = false) :
    wordAxes side k w = [if w = dots then .str ellipsisStr else if IsNumber w then .anon side k (decimalValue w) else .str w] := by
  unfold wordAxes
  split
  · rfl
  · split
    · rename_i h2
      rw [if_neg]
      simpa [isUnit, h2] using h
    · rfl

/-- the axes of the words of an element come from its words other than 1 -/
theorem wordsAxes_core {side k : Nat} {ws : List Str} :
    ∃ ks : List Nat, ks.length = (ws.filter (fun w => !isUnit w)).length ∧
      wordsAxes side k ws = List.zipWith (fun w k => if w = dots then .str ellipsisStr
        else if IsNumber w then .anon side k (decimalValue w) else .str w) (ws.filter (fun w => !isUnit w)) ks := by
  induction ws generalizing k with
  | nil => exact ⟨[], rfl, rfl⟩
  | cons w ws ih =>
    obtain ⟨ks, h1, h2⟩ := ih (k := k + 1)
    cases hu : isUnit w with
    | true =>
      refine ⟨ks, by simpa [hu] using h1, ?_⟩
      simp only [wordsAxes, wordAxes_unit hu, h2, List.nil_append, hu, Bool.not_true, Bool.false_eq_true, not_false_eq_true,
        List.filter_cons_of_neg]
    | false =>
      refine ⟨k :: ks, by simp [hu, h1], ?_⟩
      simp only [wordsAxes, wordAxes_not_unit hu, h2, hu, Bool.not_false, List.filter_cons_of_pos, List.zipWith_cons_cons]
      rfl

/-- one element of the composition -/
def elemAxes (side k : Nat) : Elem → CompAxis
  | .bare w => if w = dots then .ell else .group (wordAxes side k w)
  | .paren ws => .group (wordsAxes side k ws)

theorem denote_cons (side k : Nat) (e : Elem) (G : List Elem) :
    denote side k (e :: G) = elemAxes side k e :: denote side (k + e.words.length) G := by
  cases e <;> rfl

theorem elemAxes_axes (side k : Nat) (e : Elem) : (elemAxes side k e).axes = wordsAxes side k e.words := by
  have := denote_axes side k [e]
  rw [denote_cons] at this
  simpa [denote, sideWords] using this

/-- the step of the loop on an element with at most one word other than 1 -/
theorem shapeStep_core {side k : Nat} {e : Elem} (acc : List (Str × Nat)) (n : Nat) (hd : dots ∉ e.words) :
    (e.core = [] → shapeStep acc (elemAxes side k e) n = if n ≠ 1 then .error .runtime else .ok acc) ∧
    (∀ w, e.core = [w] → shapeStep acc (elemAxes side k e) n =
      if IsNumber w then (if decimalValue w ≠ n then .error .runtime else .ok acc)
      else if w ≠ ['_'] then .ok (dictSet acc w n) else .ok acc) := by
  obtain ⟨ks, h1, h2⟩ := wordsAxes_core (side := side) (k := k) (ws := e.words)
  constructor
  · intro hc
    unfold Elem.core at hc
    rw [hc] at h2
    unfold shapeStep
    rw [elemAxes_axes, h2]
    rfl
  · intro w hc
    unfold Elem.core at hc
    have hw : w ≠ dots := by
      rintro rfl
      have : dots ∈ e.words.filter (fun w => !isUnit w) := by rw [hc]; simp
      exact hd (List.mem_filter.1 this).1
    rw [hc] at h1 h2
    obtain ⟨i, rfl⟩ := List.length_eq_one_iff.1 h1
    unfold shapeStep
    rw [elemAxes_axes, h2]
    simp only [List.zipWith_cons_cons, List.zipWith_nil_left, if_neg hw]
    by_cases hn : IsNumber w
    · simp only [if_pos hn]
    · simp only [if_neg hn]

omit [PyUnicode] in
theorem dictSet_new {d : List (Str × Nat)} {w : Str} {n : Nat} (h : w ∉ d.map Prod.fst) : dictSet d w n = d ++ [(w, n)] := by
  induction d with
  | nil => rfl
  | cons p d ih =>
    obtain ⟨a, b⟩ := p
    simp only [List.map_cons, List.mem_cons, not_or] at h
    rw [dictSet, if_neg (Ne.symm h.1), ih h.2]
    rfl

theorem core_mem {e : Elem} {w : Str} (h : w ∈ e.core) : w ∈ e.words := (List.mem_filter.1 h).1

/-- keys of the result are words of the pattern -/
theorem ShapeMatches.keys {G : List Elem} {s : List Nat} {d : List (Str × Nat)} (h : ShapeMatches G s d) :
    ∀ w ∈ d.map Prod.fst, w ∈ sideWords G ∧ IsName false w := by
  have up : ∀ {e : Elem} {G : List Elem} {w : Str}, w ∈ sideWords G ∧ IsName false w → w ∈ sideWords (e :: G) ∧ IsName false w :=
    fun h => ⟨by simp only [sideWords, List.flatMap_cons, List.mem_append]; exact .inr h.1, h.2⟩
  induction h with
  | nil => simp
  | @name e v G n s d h1 h2 h3 ih =>
    intro w hw
    simp only [List.map_cons, List.mem_cons] at hw
    rcases hw with rfl | hw
    · exact ⟨by
        simp only [sideWords, List.flatMap_cons, List.mem_append]
        exact .inl (core_mem (by rw [h1]; simp)), h2⟩
    · exact up (ih w hw)
  | skip _ _ ih => exact fun w hw => up (ih w hw)
  | unit _ _ ih => exact fun w hw => up (ih w hw)
  | number _ _ _ ih => exact fun w hw => up (ih w hw)
  | ellipsis _ ih => exact fun w hw => up (ih w hw)

theorem ShapeMatches.inv {e : Elem} {G : List Elem} {s : List Nat} {d : List (Str × Nat)} (h : ShapeMatches (e :: G) s d)
    (hd : dots ∉ e.words) : ∃ n s', s = n :: s' ∧
      ((∃ w d', e.core = [w] ∧ IsName false w ∧ d = (w, n) :: d' ∧ ShapeMatches G s' d') ∨
       (e.core = [['_']] ∧ ShapeMatches G s' d) ∨
       (e.core = [] ∧ n = 1 ∧ ShapeMatches G s' d) ∨
       (∃ w, e.core = [w] ∧ IsNumber w ∧ n = decimalValue w ∧ ShapeMatches G s' d)) := by
  cases h with
  | name h1 h2 h3 => exact ⟨_, _, rfl, .inl ⟨_, _, h1, h2, rfl, h3⟩⟩
  | skip h1 h3 => exact ⟨_, _, rfl, .inr (.inl ⟨h1, h3⟩)⟩
  | unit h1 h3 => exact ⟨_, _, rfl, .inr (.inr (.inl ⟨h1, rfl, h3⟩))⟩
  | number h1 h2 h3 => exact ⟨_, _, rfl, .inr (.inr (.inr ⟨_, h1, h2, rfl, h3⟩))⟩
  | ellipsis => simp [Elem.words] at hd

theorem ShapeMatches.length {G : List Elem} {s : List Nat} {d : List (Str × Nat)} (h : ShapeMatches G s d)
    (hd : Elem.bare dots ∉ G) : s.length = G.length := by
  induction h with
  | nil => rfl
  | name _ _ _ ih => simp [ih (fun h => hd (by simp [h]))]
  | skip _ _ ih => simp [ih (fun h => hd (by simp [h]))]
  | unit _ _ ih => simp [ih (fun h => hd (by simp [h]))]
  | number _ _ _ ih => simp [ih (fun h => hd (by simp [h]))]
  | ellipsis => simp at hd

theorem ShapeMatches.append {A B : List Elem} {s t : List Nat} {d f : List (Str × Nat)} (h : ShapeMatches A s d)
    (h' : ShapeMatches B t f) : ShapeMatches (A ++ B) (s ++ t) (d ++ f) := by
  induction h with
  | nil => exact h'
  | name h1 h2 _ ih => exact .name h1 h2 ih
  | skip h1 _ ih => exact .skip h1 ih
  | unit h1 _ ih => exact .unit h1 ih
  | number h1 h2 _ ih => exact .number h1 h2 ih
  | ellipsis _ ih => rw [List.append_assoc]; exact .ellipsis ih

theorem ShapeMatches.split {A B : List Elem} {s : List Nat} {d : List (Str × Nat)} (h : ShapeMatches (A ++ B) s d) :
    ∃ s₁ s₂ d₁ d₂, s = s₁ ++ s₂ ∧ d = d₁ ++ d₂ ∧ ShapeMatches A s₁ d₁ ∧ ShapeMatches B s₂ d₂ := by
  induction A generalizing s d with
  | nil => exact ⟨[], s, [], d, rfl, rfl, .nil, h⟩
  | cons e A ih =>
    cases h with
    | name h1 h2 h3 =>
      obtain ⟨s₁, s₂, d₁, d₂, rfl, rfl, m1, m2⟩ := ih h3
      exact ⟨_ :: s₁, s₂, _ :: d₁, d₂, rfl, rfl, .name h1 h2 m1, m2⟩
    | skip h1 h3 =>
      obtain ⟨s₁, s₂, d₁, d₂, rfl, rfl, m1, m2⟩ := ih h3
      exact ⟨_ :: s₁, s₂, d₁, d₂, rfl, rfl, .skip h1 m1, m2⟩
    | unit h1 h3 =>
      obtain ⟨s₁, s₂, d₁, d₂, rfl, rfl, m1, m2⟩ := ih h3
      exact ⟨_ :: s₁, s₂, d₁, d₂, rfl, rfl, .unit h1 m1, m2⟩
    | number h1 h2 h3 =>
      obtain ⟨s₁, s₂, d₁, d₂, rfl, rfl, m1, m2⟩ := ih h3
      exact ⟨_ :: s₁, s₂, d₁, d₂, rfl, rfl, .number h1 h2 m1, m2⟩
    | @ellipsis ds _ _ _ h3 =>
      obtain ⟨s₁, s₂, d₁, d₂, rfl, rfl, m1, m2⟩ := ih h3
      exact ⟨ds ++ s₁, s₂, d₁, d₂, by simp, rfl, .ellipsis m1, m2⟩

/-- words that may be keys: no repetition among them -/
def keyWords (G : List Elem) : List Str := (sideWords G).filter (unrepeatable true)

theorem name_unrepeatable {w : Str} (h : IsName false w) : unrepeatable true w = true := by
  have h1 : ¬ IsNumber w := isName_not_number false h
  have h2 : w ≠ ['_'] := fun he => underscore_not_name (he ▸ h)
  simp [unrepeatable, h1, h2]

/-- The loop over the part of the composition that belongs to elements without ellipsis. -/
theorem shapeLoop_elems {G : List Elem} (hok : ∀ w ∈ sideWords G, WordOK true w) (hd : dots ∉ sideWords G)
    (hc : ∀ e ∈ G, e.core.length ≤ 1) (k : Nat) (C : List CompAxis) (s : List Nat) (hs : G.length ≤ s.length)
    (acc : List (Str × Nat)) (hn : (keyWords G).Nodup) (hf : ∀ w ∈ keyWords G, w ∉ acc.map Prod.fst) :
    (∃ d, ShapeMatches G (s.take G.length) d ∧
      shapeLoop acc (denote 0 k G ++ C) s = shapeLoop (acc ++ d) C (s.drop G.length)) ∨
    ((¬ ∃ d, ShapeMatches G (s.take G.length) d) ∧ shapeLoop acc (denote 0 k G ++ C) s = .error .runtime) := by
  induction G generalizing k s acc with
  | nil => exact .inl ⟨[], .nil, by simp [denote]⟩
  | cons e G ih =>
    cases s with
    | nil => simp at hs
    | cons n s =>
      have hsw : sideWords (e :: G) = e.words ++ sideWords G := by simp [sideWords]
      rw [hsw] at hok hd
      have hd1 : dots ∉ e.words := fun h => hd (by simp [h])
      have hk : keyWords (e :: G) = e.words.filter (unrepeatable true) ++ keyWords G := by simp [keyWords, hsw]
      rw [hk] at hn hf
      have step := shapeStep_core (side := 0) (k := k) acc n hd1
      have ih' := fun acc' hf' => ih (fun w hw => hok w (by simp [hw])) (fun h => hd (by simp [h]))
        (fun e he => hc e (by simp [he])) (k + e.words.length) s (by simpa using hs) acc' (List.nodup_append.1 hn).2.1 hf'
      have hf0 : ∀ w ∈ keyWords G, w ∉ acc.map Prod.fst := fun w hw => hf w (by simp [hw])
      rw [denote_cons]
      simp only [List.cons_append, shapeLoop, List.length_cons, List.take_succ_cons, List.drop_succ_cons]
      have hcl := hc e (by simp)
      have hcase : e.core = [] ∨ ∃ w, e.core = [w] := by
        rcases h : e.core with _ | ⟨w, _ | ⟨v, t⟩⟩
        · exact .inl rfl
        · exact .inr ⟨w, rfl⟩
        · rw [h] at hcl; simp at hcl
      rcases hcase with h0 | ⟨w, hw⟩
      · rw [step.1 h0]
        by_cases h1 : n = 1
        · subst h1
          simp only [ne_eq, not_true_eq_false, if_false]
          rcases ih' acc hf0 with ⟨d, hm, hl⟩ | ⟨hm, hl⟩
          · exact .inl ⟨d, .unit h0 hm, hl⟩
          · refine .inr ⟨?_, hl⟩
            rintro ⟨d, hm'⟩
            obtain ⟨n', s', heq, hcs⟩ := hm'.inv hd1
            obtain ⟨hn', hs'⟩ := List.cons.inj heq
            subst hs'
            rcases hcs with ⟨w', d', k1, k2, -, k3⟩ | ⟨k1, k3⟩ | ⟨k1, k0, k3⟩ | ⟨w', k1, k2, k0, k3⟩
            · rw [h0] at k1; cases k1
            · rw [h0] at k1; cases k1
            · exact hm ⟨_, k3⟩
            · rw [h0] at k1; cases k1
        · rw [if_pos h1]
          refine .inr ⟨?_, rfl⟩
          rintro ⟨d, hm'⟩
          obtain ⟨n', s', heq, hcs⟩ := hm'.inv hd1
          obtain ⟨hn', hs'⟩ := List.cons.inj heq
          subst hs'
          rcases hcs with ⟨w', d', k1, k2, -, k3⟩ | ⟨k1, k3⟩ | ⟨k1, k0, k3⟩ | ⟨w', k1, k2, k0, k3⟩
          · rw [h0] at k1; cases k1
          · rw [h0] at k1; cases k1
          · exact h1 (hn'.trans k0)
          · rw [h0] at k1; cases k1
      · rw [step.2 w hw]
        have hwok : WordOK true w := hok w (by simp [core_mem (e := e) (w := w) (by rw [hw]; simp)])
        have hwm : w ∈ e.words := core_mem (by rw [hw]; simp)
        by_cases hnum : IsNumber w
        · rw [if_pos hnum]
          by_cases h1 : decimalValue w = n
          · subst h1
            simp only [ne_eq, not_true_eq_false, if_false]
            rcases ih' acc hf0 with ⟨d, hm, hl⟩ | ⟨hm, hl⟩
            · exact .inl ⟨d, .number hw hnum hm, hl⟩
            · refine .inr ⟨?_, hl⟩
              rintro ⟨d, hm'⟩
              obtain ⟨n', s', heq, hcs⟩ := hm'.inv hd1
              obtain ⟨hn', hs'⟩ := List.cons.inj heq
              subst hs'
              rcases hcs with ⟨w', d', k1, k2, -, k3⟩ | ⟨k1, k3⟩ | ⟨k1, k0, k3⟩ | ⟨w', k1, k2, k0, k3⟩
              · rw [hw] at k1; cases k1
                exact isName_not_number false k2 hnum
              · rw [hw] at k1; cases k1; exact underscore_not_number hnum
              · rw [hw] at k1; cases k1
              · exact hm ⟨_, k3⟩
          · rw [if_pos h1]
            refine .inr ⟨?_, rfl⟩
            rintro ⟨d, hm'⟩
            obtain ⟨n', s', heq, hcs⟩ := hm'.inv hd1
            obtain ⟨hn', hs'⟩ := List.cons.inj heq
            subst hs'
            rcases hcs with ⟨w', d', k1, k2, -, k3⟩ | ⟨k1, k3⟩ | ⟨k1, k0, k3⟩ | ⟨w', k1, k2, k0, k3⟩
            · rw [hw] at k1; cases k1
              exact isName_not_number false k2 hnum
            · rw [hw] at k1; cases k1; exact underscore_not_number hnum
            · rw [hw] at k1; cases k1
            · rw [hw] at k1; cases k1; exact h1 (k0.symm.trans hn'.symm)
        · rw [if_neg hnum]
          by_cases hu : w = ['_']
          · subst hu
            simp only [ne_eq, not_true_eq_false, if_false]
            rcases ih' acc hf0 with ⟨d, hm, hl⟩ | ⟨hm, hl⟩
            · exact .inl ⟨d, .skip hw hm, hl⟩
            · refine .inr ⟨?_, hl⟩
              rintro ⟨d, hm'⟩
              obtain ⟨n', s', heq, hcs⟩ := hm'.inv hd1
              obtain ⟨hn', hs'⟩ := List.cons.inj heq
              subst hs'
              rcases hcs with ⟨w', d', k1, k2, -, k3⟩ | ⟨k1, k3⟩ | ⟨k1, k0, k3⟩ | ⟨w', k1, k2, k0, k3⟩
              · rw [hw] at k1; cases k1; exact underscore_not_name k2
              · exact hm ⟨_, k3⟩
              · rw [hw] at k1; cases k1
              · rw [hw] at k1; cases k1; exact hnum k2
          · rw [if_pos hu]
            have hname : IsName false w := by
              rcases hwok with h | h | h
              · subst h; exact absurd hwm hd1
              · exact absurd h.1 hnum
              · exact isName_of_true h hu
            have hun := name_unrepeatable hname
            have hwe : w ∈ e.words.filter (unrepeatable true) := List.mem_filter.2 ⟨hwm, hun⟩
            have hacc : w ∉ acc.map Prod.fst := hf w (by simp only [List.mem_append]; exact .inl hwe)
            simp only [dictSet_new hacc]
            have hf1 : ∀ v ∈ keyWords G, v ∉ (acc ++ [(w, n)]).map Prod.fst := by
              intro v hv hm
              rw [List.map_append, List.mem_append] at hm
              rcases hm with hm | hm
              · exact hf0 v hv hm
              · simp at hm
                subst hm
                exact (List.nodup_append.1 hn).2.2 _ hwe _ hv rfl
            rcases ih' (acc ++ [(w, n)]) hf1 with ⟨d, hm, hl⟩ | ⟨hm, hl⟩
            · refine .inl ⟨(w, n) :: d, .name hw hname hm, ?_⟩
              rw [hl, List.append_assoc]
              rfl
            · refine .inr ⟨?_, hl⟩
              rintro ⟨d, hm'⟩
              obtain ⟨n', s', heq, hcs⟩ := hm'.inv hd1
              obtain ⟨hn', hs'⟩ := List.cons.inj heq
              subst hs'
              rcases hcs with ⟨w', d', k1, k2, -, k3⟩ | ⟨k1, k3⟩ | ⟨k1, k0, k3⟩ | ⟨w', k1, k2, k0, k3⟩
              · exact hm ⟨_, k3⟩
              · rw [hw] at k1; cases k1; exact hu rfl
              · rw [hw] at k1; cases k1
              · rw [hw] at k1; cases k1; exact hnum k2

omit [PyUnicode] in
theorem shapeLoop_skip (acc : List (Str × Nat)) (C : List CompAxis) (ds s : List Nat) :
    shapeLoop acc (List.replicate ds.length (.group [.str ['_']]) ++ C) (ds ++ s) = shapeLoop acc C s := by
  induction ds with
  | nil => rfl
  | cons n ds ih =>
    simp only [List.length_cons, List.replicate_succ, List.cons_append, shapeLoop]
    have : shapeStep acc (.group [.str ['_']]) n = .ok acc := by simp [shapeStep, CompAxis.axes]
    rw [this]
    exact ih

theorem elemAxes_composed {side k : Nat} {e : Elem} :
    (match elemAxes side k e with | .ell => false | .group g => decide (1 < g.length)) = decide (1 < e.core.length) := by
  obtain ⟨ks, h1, h2⟩ := wordsAxes_core (side := side) (k := k) (ws := e.words)
  have hl : (elemAxes side k e).axes.length = e.core.length := by
    rw [elemAxes_axes, h2, List.length_zipWith, h1]
    unfold Elem.core
    simp
  cases h : elemAxes side k e with
  | ell =>
    rw [h] at hl
    simp only [CompAxis.axes, List.length_singleton] at hl
    simp [← hl]
  | group g =>
    rw [h] at hl
    simp only [CompAxis.axes] at hl
    simp [hl]

theorem composed_iff (side k : Nat) (G : List Elem) :
    ((denote side k G).any (fun c => match c with | .ell => false | .group g => decide (1 < g.length))) = true ↔
      ∃ e ∈ G, 1 < e.core.length := by
  induction G generalizing k with
  | nil => simp [denote]
  | cons e G ih =>
    rw [denote_cons, List.any_cons, Bool.or_eq_true, ih, elemAxes_composed]
    simp

theorem ShapeMatches.core_le {G : List Elem} {s : List Nat} {d : List (Str × Nat)} (h : ShapeMatches G s d) :
    ∀ e ∈ G, e.core.length ≤ 1 := by
  have hdots : (Elem.bare dots).core.length ≤ 1 := by
    unfold Elem.core
    exact (List.length_filter_le _ _).trans (by simp [Elem.words])
  induction h with
  | nil => simp
  | name h1 _ _ ih => intro f hf; rcases List.mem_cons.1 hf with rfl | hf; · simp [h1]
                      · exact ih f hf
  | skip h1 _ ih => intro f hf; rcases List.mem_cons.1 hf with rfl | hf; · simp [h1]
                    · exact ih f hf
  | unit h1 _ ih => intro f hf; rcases List.mem_cons.1 hf with rfl | hf; · simp [h1]
                    · exact ih f hf
  | number h1 _ _ ih => intro f hf; rcases List.mem_cons.1 hf with rfl | hf; · simp [h1]
                        · exact ih f hf
  | ellipsis _ ih => intro f hf; rcases List.mem_cons.1 hf with rfl | hf; · exact hdots
                     · exact ih f hf

theorem ShapeMatches.no_paren {G : List Elem} {s : List Nat} {d : List (Str × Nat)} (h : ShapeMatches G s d) {ws : List Str}
    (hws : Elem.paren ws ∈ G) : dots ∉ ws := by
  have key : ∀ {e : Elem} {w : Str}, e.core = [w] → w ≠ dots → dots ∉ e.words := by
    intro e w h1 h2 hm
    have : dots ∈ e.core := List.mem_filter.2 ⟨hm, by simp [not_unit_dots]⟩
    rw [h1] at this
    exact h2 (List.mem_singleton.1 this).symm
  induction h with
  | nil => simp at hws
  | name h1 h2 _ ih =>
    rcases List.mem_cons.1 hws with rfl | hf
    · exact key h1 (isName_ne_dots h2)
    · exact ih hf
  | skip h1 _ ih =>
    rcases List.mem_cons.1 hws with rfl | hf
    · exact key h1 underscore_ne_dots
    · exact ih hf
  | unit h1 _ ih =>
    rcases List.mem_cons.1 hws with rfl | hf
    · intro hm
      have : dots ∈ (Elem.paren ws).core := List.mem_filter.2 ⟨hm, by simp [not_unit_dots]⟩
      rw [h1] at this
      cases this
    · exact ih hf
  | number h1 h2 _ ih =>
    rcases List.mem_cons.1 hws with rfl | hf
    · exact key h1 (number_ne_dots h2)
    · exact ih hf
  | ellipsis _ ih =>
    rcases List.mem_cons.1 hws with h | hf
    · cases h
    · exact ih hf

theorem denote_append_elems (side k : Nat) (A B : List Elem) :
    denote side k (A ++ B) = denote side k A ++ denote side (k + (sideWords A).length) B := by
  induction A generalizing k with
  | nil => simp [sideWords, denote]
  | cons e A ih =>
    rw [List.cons_append, denote_cons, denote_cons, ih]
    simp [sideWords, Nat.add_assoc]

/-- `parse_shape` on a legal side -/
theorem parseShape_side {shape : List Nat} {pattern : Str} {G : List Elem} (hell : '…' ∉ pattern)
    (h : IsSide true false pattern G) :
    (∃ d, ShapeMatches G shape d ∧ parseShape shape pattern = .ok d) ∨
    ((¬ ∃ d, ShapeMatches G shape d) ∧ (∃ e, parseShape shape pattern = .error e) ∧
      ((∀ ws, Elem.paren ws ∈ G → dots ∉ ws) → parseShape shape pattern = .error .runtime)) := by
  unfold parseShape
  rw [(parseExpression_iff 0 true false pattern hell _).2 ⟨G, h, rfl⟩]
  simp only
  have hcomp : (describe 0 G).hasComposedAxes = true ↔ ∃ e ∈ G, 1 < e.core.length := composed_iff 0 0 G
  by_cases hC : ∃ e ∈ G, 1 < e.core.length
  · rw [if_pos (hcomp.2 hC)]
    refine .inr ⟨?_, ⟨_, rfl⟩, fun _ => rfl⟩
    rintro ⟨d, hm⟩
    obtain ⟨e, he, h1⟩ := hC
    have := hm.core_le e he
    omega
  · rw [if_neg (fun hh => hC (hcomp.1 hh))]
    have hcore : ∀ e ∈ G, e.core.length ≤ 1 := fun e he => by
      by_contra hcc
      exact hC ⟨e, he, by omega⟩
    have hlen : (describe 0 G).composition.length = G.length := denote_length 0 0 G
    have hns : (describe 0 G).hasEllipsis = decide (dots ∈ sideWords G) := rfl
    have hnd : (keyWords G).Nodup := h.nodup rfl
    by_cases hd : dots ∈ sideWords G
    · obtain ⟨e, he1, he2⟩ := List.mem_flatMap.1 hd
      cases e with
      | paren ws =>
        refine .inr ⟨?_, ?_, fun hh => absurd he2 (hh ws he1)⟩
        · rintro ⟨d, hm⟩
          exact hm.no_paren he1 he2
        · split
          · exact ⟨_, rfl⟩
          · have hnb : Elem.bare dots ∉ G := by
              intro hb
              have hone := h.one_ellipsis
              obtain ⟨A, B, rfl⟩ := List.append_of_mem hb
              rw [List.flatMap_append, List.flatMap_cons, List.count_append, List.count_append] at hone
              simp only [Elem.words, List.count_singleton_self] at hone
              simp only [List.mem_append, List.mem_cons, reduceCtorEq, false_or] at he1
              rcases he1 with h1 | h1
              · have := List.count_pos_iff.2 (List.mem_flatMap.2 ⟨_, h1, he2⟩ : dots ∈ A.flatMap Elem.words)
                omega
              · have := List.count_pos_iff.2 (List.mem_flatMap.2 ⟨_, h1, he2⟩ : dots ∈ B.flatMap Elem.words)
                omega
            have hidx : indexE (describe 0 G).composition .ell = .error .value := by
              unfold indexE
              rw [if_neg]
              exact fun hm => hnb (denote_ell.1 hm)
            unfold shapeComposition
            rw [hns, decide_eq_true hd, if_pos rfl, hidx]
            exact ⟨_, rfl⟩
      | bare w =>
        simp only [Elem.words, List.mem_singleton] at he2
        subst he2
        obtain ⟨A, B, rfl⟩ := List.append_of_mem he1
        have hone := h.one_ellipsis
        rw [List.flatMap_append, List.flatMap_cons, List.count_append, List.count_append] at hone
        simp only [Elem.words, List.count_singleton_self] at hone
        have hA : dots ∉ sideWords A := by
          intro hm
          have : 0 < (A.flatMap Elem.words).count dots := List.count_pos_iff.2 hm
          omega
        have hB : dots ∉ sideWords B := by
          intro hm
          have : 0 < (B.flatMap Elem.words).count dots := List.count_pos_iff.2 hm
          omega
        have hbA : Elem.bare dots ∉ A := fun hm => hA (List.mem_flatMap.2 ⟨_, hm, by simp [Elem.words]⟩)
        have hbB : Elem.bare dots ∉ B := fun hm => hB (List.mem_flatMap.2 ⟨_, hm, by simp [Elem.words]⟩)
        have hmlen : ∀ {d}, ShapeMatches (A ++ Elem.bare dots :: B) shape d →
            ∃ ds s₂ d₁ d₂, shape = shape.take A.length ++ (ds ++ s₂) ∧ d = d₁ ++ d₂ ∧ s₂.length = B.length ∧
              A.length ≤ shape.length ∧
              ShapeMatches A (shape.take A.length) d₁ ∧ ShapeMatches B s₂ d₂ := by
          intro d hm
          obtain ⟨s₁, s₂, d₁, d₂, rfl, rfl, m1, m2⟩ := hm.split
          have l1 := m1.length hbA
          have ht : (s₁ ++ s₂).take A.length = s₁ := by rw [← l1]; simp
          cases m2 with
          | @ellipsis ds _ s₃ _ m3 =>
            refine ⟨ds, s₃, d₁, d₂, by rw [ht], rfl, m3.length hbB, by simp [l1], by rw [ht]; exact m1, m3⟩
          | name h1 h2 =>
            have : dots ∈ (Elem.bare dots).core := List.mem_filter.2 ⟨by simp [Elem.words], by simp [not_unit_dots]⟩
            rw [h1] at this
            rw [List.mem_singleton] at this
            exact absurd this.symm (isName_ne_dots h2)
          | skip h1 =>
            have : dots ∈ (Elem.bare dots).core := List.mem_filter.2 ⟨by simp [Elem.words], by simp [not_unit_dots]⟩
            rw [h1] at this
            rw [List.mem_singleton] at this
            exact absurd this.symm underscore_ne_dots
          | unit h1 =>
            have : dots ∈ (Elem.bare dots).core := List.mem_filter.2 ⟨by simp [Elem.words], by simp [not_unit_dots]⟩
            rw [h1] at this
            cases this
          | number h1 h2 =>
            have : dots ∈ (Elem.bare dots).core := List.mem_filter.2 ⟨by simp [Elem.words], by simp [not_unit_dots]⟩
            rw [h1] at this
            rw [List.mem_singleton] at this
            exact absurd this.symm (number_ne_dots h2)
        by_cases hr : shape.length < A.length + B.length
        · have hrank : shapeRankOK (describe 0 (A ++ Elem.bare dots :: B)) shape.length = false := by
            unfold shapeRankOK
            rw [hlen, hns, decide_eq_true hd]
            simp only [List.length_append, List.length_cons]
            rw [if_pos (by omega), if_pos trivial]
            simp only [Bool.not_eq_false', decide_eq_true_eq]
            omega
          rw [hrank]
          refine .inr ⟨?_, ⟨_, rfl⟩, fun _ => rfl⟩
          rintro ⟨d, hm⟩
          obtain ⟨ds, s₂, d₁, d₂, e1, _, l2, l1, _⟩ := hmlen hm
          have := congrArg List.length e1
          simp at this
          omega
        · have hrank : shapeRankOK (describe 0 (A ++ Elem.bare dots :: B)) shape.length = true := by
            unfold shapeRankOK
            rw [hlen, hns, decide_eq_true hd]
            simp only [List.length_append, List.length_cons]
            split
            · rw [if_pos trivial]
              simp only [Bool.not_eq_true', decide_eq_false_iff_not]
              omega
            · rfl
          rw [hrank]
          simp only [Bool.not_true, Bool.false_eq_true, if_false]
          have hcompn : (describe 0 (A ++ Elem.bare dots :: B)).composition =
              denote 0 0 A ++ .ell :: denote 0 ((sideWords A).length + 1) B := by
            show denote 0 0 (A ++ Elem.bare dots :: B) = _
            rw [denote_append_elems, denote_cons]
            simp [elemAxes, Elem.words]
          have hidx : indexE (describe 0 (A ++ Elem.bare dots :: B)).composition .ell = .ok A.length := by
            unfold indexE
            rw [hcompn, if_pos (by simp), List.idxOf_append_of_notMem (fun hm => hbA (denote_ell.1 hm))]
            simp [denote_length]
          have hsc : shapeComposition (describe 0 (A ++ Elem.bare dots :: B)) shape.length =
              .ok (denote 0 0 A ++ (List.replicate (shape.length - (A.length + B.length)) (.group [.str ['_']]) ++
                denote 0 ((sideWords A).length + 1) B)) := by
            unfold shapeComposition
            rw [hns, decide_eq_true hd, if_pos rfl, hidx]
            simp only
            have e1 : (describe 0 (A ++ Elem.bare dots :: B)).composition.take A.length = denote 0 0 A := by
              rw [hcompn, List.take_left' (denote_length 0 0 A)]
            have e2 : (describe 0 (A ++ Elem.bare dots :: B)).composition.drop (A.length + 1) =
                denote 0 ((sideWords A).length + 1) B := by
              rw [hcompn, List.drop_append, denote_length, List.drop_of_length_le (by rw [denote_length]; omega)]
              simp
            rw [e1, e2, hlen, List.append_assoc]
            congr 3
            simp only [List.length_append, List.length_cons]
            congr 1
            omega
          rw [hsc]
          simp only
          have hsw : sideWords (A ++ Elem.bare dots :: B) = sideWords A ++ (dots :: sideWords B) := by
            simp [sideWords, Elem.words]
          have hkw : keyWords (A ++ Elem.bare dots :: B) = keyWords A ++ (dots :: sideWords B).filter (unrepeatable true) := by
            simp [keyWords, hsw]
          have hkA : (keyWords A).Nodup := by rw [hkw] at hnd; exact (List.nodup_append.1 hnd).1
          have hkB : (keyWords B).Nodup := by
            rw [hkw, List.filter_cons] at hnd
            have := (List.nodup_append.1 hnd).2.1
            split at this
            · exact (List.nodup_cons.1 this).2
            · exact this
          have hdisj : ∀ w ∈ keyWords A, w ∉ keyWords B := by
            intro w h1 h2
            rw [hkw] at hnd
            refine (List.nodup_append.1 hnd).2.2 w h1 w ?_ rfl
            rw [List.filter_cons]
            split
            · exact List.mem_cons_of_mem _ h2
            · exact h2
          have hokA : ∀ w ∈ sideWords A, WordOK true w := fun w hw => h.words_ok w (by
            have : w ∈ sideWords (A ++ Elem.bare dots :: B) := by rw [hsw]; simp [hw]
            exact this)
          have hokB : ∀ w ∈ sideWords B, WordOK true w := fun w hw => h.words_ok w (by
            have : w ∈ sideWords (A ++ Elem.bare dots :: B) := by rw [hsw]; simp [hw]
            exact this)
          have hcA : ∀ e ∈ A, e.core.length ≤ 1 := fun e he => hcore e (by simp [he])
          have hcB : ∀ e ∈ B, e.core.length ≤ 1 := fun e he => hcore e (by simp [he])
          rcases shapeLoop_elems hokA hA hcA 0 (List.replicate (shape.length - (A.length + B.length)) (.group [.str ['_']]) ++
                denote 0 ((sideWords A).length + 1) B) shape (by omega) [] hkA (by simp) with ⟨dA, mA, lA⟩ | ⟨mA, lA⟩
          · rw [lA, List.nil_append]
            -- the dimensions of the ellipsis and the rest
            obtain ⟨ds, s₂, hds, l1, l2⟩ : ∃ ds s₂, shape.drop A.length = ds ++ s₂ ∧
                ds.length = shape.length - (A.length + B.length) ∧ s₂.length = B.length :=
              ⟨(shape.drop A.length).take (shape.length - (A.length + B.length)),
                (shape.drop A.length).drop (shape.length - (A.length + B.length)), (List.take_append_drop _ _).symm,
                by simp; omega, by simp; omega⟩
            rw [hds, ← l1, shapeLoop_skip]
            have hfB : ∀ w ∈ keyWords B, w ∉ dA.map Prod.fst := by
              intro w hw hm
              obtain ⟨h1, h2⟩ := mA.keys w hm
              exact hdisj w (List.mem_filter.2 ⟨h1, name_unrepeatable h2⟩) hw
            have hshape : shape = shape.take A.length ++ (ds ++ s₂) := by rw [← hds, List.take_append_drop]
            have hend : ∀ (acc : List (Str × Nat)) (s : List Nat), shapeLoop acc [] s = .ok acc := by
              intro acc s; cases s <;> rfl
            have htake : s₂.take B.length = s₂ := by rw [← l2, List.take_length]
            rcases shapeLoop_elems hokB hB hcB ((sideWords A).length + 1) [] s₂ (by omega) dA hkB hfB with
              ⟨dB, mB, lB⟩ | ⟨mB, lB⟩
            · rw [List.append_nil] at lB
              rw [htake] at mB
              refine .inl ⟨dA ++ dB, ?_, by rw [lB, hend]⟩
              have := mA.append (ShapeMatches.ellipsis (ds := ds) mB)
              rwa [← hshape] at this
            · rw [List.append_nil] at lB
              rw [htake] at mB
              refine .inr ⟨?_, ⟨_, lB⟩, fun _ => lB⟩
              rintro ⟨d, hm⟩
              obtain ⟨ds', s₂', d₁, d₂, e1, _, l2', _, _, m2⟩ := hmlen hm
              have e2 : ds ++ s₂ = ds' ++ s₂' := List.append_cancel_left (hshape.symm.trans e1)
              have e3 : s₂ = s₂' := by
                have := congrArg List.length e2
                simp only [List.length_append] at this
                exact (List.append_inj e2 (by omega)).2
              exact mB ⟨d₂, e3 ▸ m2⟩
          · rw [lA]
            refine .inr ⟨?_, ⟨_, rfl⟩, fun _ => rfl⟩
            rintro ⟨d, hm⟩
            obtain ⟨ds', s₂', d₁, d₂, e1, _, l2', _, m1, m2⟩ := hmlen hm
            exact mA ⟨d₁, m1⟩
    · have hb : Elem.bare dots ∉ G := fun hm => hd (List.mem_flatMap.2 ⟨_, hm, by simp [Elem.words]⟩)
      by_cases hr : shape.length = G.length
      · have hrank : shapeRankOK (describe 0 G) shape.length = true := by
          unfold shapeRankOK
          rw [hlen, if_neg (by simp [hr])]
        rw [hrank]
        simp only [Bool.not_true, Bool.false_eq_true, if_false]
        have hsc : shapeComposition (describe 0 G) shape.length = .ok (denote 0 0 G) := by
          unfold shapeComposition
          rw [hns, decide_eq_false hd, if_neg (by simp)]
          rfl
        rw [hsc]
        simp only
        have hend : ∀ (acc : List (Str × Nat)) (s : List Nat), shapeLoop acc [] s = .ok acc := by
          intro acc s; cases s <;> rfl
        have htake : shape.take G.length = shape := by rw [← hr, List.take_length]
        rcases shapeLoop_elems h.words_ok hd hcore 0 [] shape (by omega) [] hnd (by simp) with ⟨d, m, l⟩ | ⟨m, l⟩
        · rw [List.append_nil] at l
          rw [htake] at m
          exact .inl ⟨d, m, by rw [l, hend]; rfl⟩
        · rw [List.append_nil] at l
          rw [htake] at m
          exact .inr ⟨m, ⟨_, l⟩, fun _ => l⟩
      · have hrank : shapeRankOK (describe 0 G) shape.length = false := by
          unfold shapeRankOK
          rw [hlen, hns, decide_eq_false hd, if_pos hr, if_neg (by simp)]
        rw [hrank]
        refine .inr ⟨?_, ⟨_, rfl⟩, fun _ => rfl⟩
        rintro ⟨d, hm⟩
        exact hr (hm.length hb)

/-- `parse_shape` returns exactly the lengths that the pattern names, in the order of the pattern. -/
theorem C22_parse_shape (shape : List Nat) (pattern : Str) (hell : '…' ∉ pattern) (d : List (Str × Nat)) :
    parseShape shape pattern = .ok d ↔ ∃ G, IsSide true false pattern G ∧ ShapeMatches G shape d := by
  constructor
  · intro h
    cases hp : parseExpression 0 true false pattern with
    | error e => rw [parseShape, hp] at h; cases h
    | ok e =>
      obtain ⟨G, hG, -⟩ := (parseExpression_iff 0 true false pattern hell e).1 hp
      refine ⟨G, hG, ?_⟩
      rcases parseShape_side hell hG (shape := shape) with ⟨d', hm, hd⟩ | ⟨_, ⟨e, he⟩, _⟩
      · rw [h] at hd; cases hd; exact hm
      · rw [h] at he; cases he
  · rintro ⟨G, hG, hm⟩
    rcases parseShape_side hell hG (shape := shape) with ⟨d', hm', hd⟩ | ⟨hn, _⟩
    · rw [hd]
      -- the description determines the result
      have : ∀ {G : List Elem} {s : List Nat} {d d' : List (Str × Nat)}, ShapeMatches G s d → ShapeMatches G s d' →
          (sideWords G).count dots ≤ 1 → d = d' := by
        have plain : ∀ {G : List Elem} {s : List Nat} {d d' : List (Str × Nat)}, ShapeMatches G s d → ShapeMatches G s d' →
            dots ∉ sideWords G → d = d' := by
          intro G
          induction G with
          | nil => intro s d d' h1 h2 _; cases h1; cases h2; rfl
          | cons e G ih =>
            intro s d d' h1 h2 hd
            have hsw : sideWords (e :: G) = e.words ++ sideWords G := by simp [sideWords]
            rw [hsw] at hd
            have hd1 : dots ∉ e.words := fun h => hd (by simp [h])
            have hd2 : dots ∉ sideWords G := fun h => hd (by simp [h])
            obtain ⟨n, s', rfl, c1⟩ := h1.inv hd1
            obtain ⟨n', s'', heq, c2⟩ := h2.inv hd1
            obtain ⟨rfl, rfl⟩ := List.cons.inj heq
            rcases c1 with ⟨w, f, a1, a2, rfl, a3⟩ | ⟨a1, a3⟩ | ⟨a1, a0, a3⟩ | ⟨w, a1, a2, a0, a3⟩ <;>
            rcases c2 with ⟨w', f', b1, b2, rfl, b3⟩ | ⟨b1, b3⟩ | ⟨b1, b0, b3⟩ | ⟨w', b1, b2, b0, b3⟩ <;>
            rw [a1] at b1 <;> cases b1
            · rw [ih a3 b3 hd2]
            · exact absurd a2 underscore_not_name
            · exact absurd b2 (isName_not_number false a2)
            · exact absurd b2 underscore_not_name
            · exact ih a3 b3 hd2
            · exact absurd b2 underscore_not_number
            · exact ih a3 b3 hd2
            · exact absurd a2 (isName_not_number false b2)
            · exact absurd a2 underscore_not_number
            · exact ih a3 b3 hd2
        intro G s d d' h1 h2 hc
        by_cases hb : Elem.bare dots ∈ G
        · obtain ⟨A, B, rfl⟩ := List.append_of_mem hb
          have hsw : sideWords (A ++ Elem.bare dots :: B) = sideWords A ++ (dots :: sideWords B) := by
            simp [sideWords, Elem.words]
          rw [hsw, List.count_append, List.count_cons_self] at hc
          have hA : dots ∉ sideWords A := fun h => by have := List.count_pos_iff.2 h; omega
          have hB : dots ∉ sideWords B := fun h => by have := List.count_pos_iff.2 h; omega
          have hbA : Elem.bare dots ∉ A := fun hm => hA (List.mem_flatMap.2 ⟨_, hm, by simp [Elem.words]⟩)
          have hbB : Elem.bare dots ∉ B := fun hm => hB (List.mem_flatMap.2 ⟨_, hm, by simp [Elem.words]⟩)
          have ell : ∀ {s d}, ShapeMatches (Elem.bare dots :: B) s d → ∃ ds s', s = ds ++ s' ∧ ShapeMatches B s' d := by
            intro s d h
            have hmem : dots ∈ (Elem.bare dots).core := List.mem_filter.2 ⟨by simp [Elem.words], by simp [not_unit_dots]⟩
            cases h with
            | ellipsis h => exact ⟨_, _, rfl, h⟩
            | name h1 h2 => rw [h1, List.mem_singleton] at hmem; exact absurd hmem.symm (isName_ne_dots h2)
            | skip h1 => rw [h1, List.mem_singleton] at hmem; exact absurd hmem.symm underscore_ne_dots
            | unit h1 => rw [h1] at hmem; cases hmem
            | number h1 h2 => rw [h1, List.mem_singleton] at hmem; exact absurd hmem.symm (number_ne_dots h2)
          obtain ⟨s₁, s₂, d₁, d₂, rfl, rfl, m1, m2⟩ := h1.split
          obtain ⟨t₁, t₂, f₁, f₂, heq, rfl, n1, n2⟩ := h2.split
          obtain ⟨e1, e2⟩ := List.append_inj heq ((m1.length hbA).trans (n1.length hbA).symm)
          subst e1 e2
          obtain ⟨ds, s', rfl, m3⟩ := ell m2
          obtain ⟨ds', s'', heq, n3⟩ := ell n2
          obtain ⟨-, e2⟩ := List.append_inj' heq ((m3.length hbB).trans (n3.length hbB).symm)
          subst e2
          rw [plain m1 n1 hA, plain m3 n3 hB]
        · by_cases hp : dots ∈ sideWords G
          · obtain ⟨e, he1, he2⟩ := List.mem_flatMap.1 hp
            cases e with
            | paren ws => exact absurd he2 (h1.no_paren he1)
            | bare w =>
              simp only [Elem.words, List.mem_singleton] at he2
              subst he2
              exact absurd he1 hb
          · exact plain h1 h2 hp
      rw [this hm' hm hG.one_ellipsis]
    · exact absurd ⟨d, hm⟩ hn

/-- The errors of `parse_shape`: EinopsError if the pattern is not legal; RuntimeError if it does not fit the shape
(rank, unit, number or composed axes). -/
theorem C22_errors (shape : List Nat) (pattern : Str) (hell : '…' ∉ pattern) :
    ((¬ ∃ G, IsSide true false pattern G) → parseShape shape pattern = .error .einops) ∧
    (∀ G, IsSide true false pattern G → (∀ ws, Elem.paren ws ∈ G → dots ∉ ws) → (¬ ∃ d, ShapeMatches G shape d) →
      parseShape shape pattern = .error .runtime) := by
  constructor
  · intro h
    rw [parseShape]
    cases hp : parseExpression 0 true false pattern with
    | ok e =>
      obtain ⟨G, hG, -⟩ := (parseExpression_iff 0 true false pattern hell e).1 hp
      exact absurd ⟨G, hG⟩ h
    | error e => rw [parseExpression_err _ _ _ hp]
  · intro G hG hp hn
    rcases parseShape_side hell hG (shape := shape) with ⟨d', hm, hd⟩ | ⟨_, _, h⟩
    · exact absurd ⟨d', hm⟩ hn
    · exact h hp

end

/-! ### C38 -/

theorem ravel_ones : ∀ (n : Nat) (i : List Nat), inBounds i (List.replicate n 1) = true → ravel (List.replicate n 1) i = 0
  | 0, i, h => by cases i <;> rfl
  | n + 1, [], h => rfl
  | n + 1, j :: i, h => by
    simp only [List.replicate_succ, inBounds, Bool.and_eq_true, decide_eq_true_eq] at h
    have hj : j = 0 := by omega
    simp only [List.replicate_succ, ravel, hj, Nat.zero_mul, Nat.zero_add]
    exact ravel_ones n i h.2

theorem ravel_one_axis : ∀ (n k m : Nat) (i : List Nat), k < n → inBounds i ((List.replicate n 1).set k m) = true →
    ravel ((List.replicate n 1).set k m) i = nth i k
  | 0, _, _, _, h, _ => by omega
  | n + 1, _, _, [], _, h => by
    rw [inBounds_iff] at h
    simp at h
  | n + 1, 0, m, j :: i, _, h => by
    simp only [List.replicate_succ, List.set_cons_zero, inBounds, Bool.and_eq_true, decide_eq_true_eq] at h
    simp only [List.replicate_succ, List.set_cons_zero, ravel, ravel_ones n i h.2, List.prod_replicate, one_pow]
    simp [nth]
  | n + 1, k + 1, m, j :: i, hk, h => by
    simp only [List.replicate_succ, List.set_cons_succ, inBounds, Bool.and_eq_true, decide_eq_true_eq] at h
    have hj : j = 0 := by omega
    simp only [List.replicate_succ, List.set_cons_succ, ravel, hj, Nat.zero_mul, Nat.zero_add]
    rw [ravel_one_axis n k m i (by omega) h.2]
    simp [nth]

theorem prod_one_axis (n k m : Nat) (hk : k < n) : ((List.replicate n 1).set k m).prod = m := by
  induction n generalizing k with
  | zero => omega
  | succ n ih =>
    cases k with
    | zero => simp [List.replicate_succ]
    | succ k => simp [List.replicate_succ, ih k (by omega)]

/-- `_enumerate_directions`: one tensor per axis; the one for axis `k` has the length of the axis there, 1 elsewhere, and
its entries are the coordinates along that axis. -/
theorem C38_enumerate_directions {E : ElemOps Nat} {b : Backend Nat} (hb : Modelled E b) (shape : List Nat) :
    ∃ ts, enumerateDirections b shape = .ok ts ∧ ts.length = shape.length ∧
      ∀ k, k < shape.length → ∃ t, ts[k]? = some t ∧ t.shape.length = shape.length ∧
        (∀ j, j < shape.length → nth t.shape j = if j = k then nth shape k else 1) ∧
        ∀ i, inBounds i t.shape = true → t.at? i = some (nth i k) := by
  have hr : ∀ (m k : Nat), k < shape.length → ∃ h, b.reshape (arange m) ((List.replicate shape.length (1 : Int)).set k m) =
      .ok (⟨(List.replicate shape.length 1).set k m, List.range m, h⟩ : Tensor Nat) := by
    intro m k hk
    have e : (List.replicate shape.length (1 : Int)).set k m = ((List.replicate shape.length 1).set k m).map Int.ofNat := by
      rw [List.map_set]; simp
    have hp := prod_one_axis shape.length k m hk
    refine ⟨by rw [hp]; simp, ?_⟩
    rw [e, hb.lawful.reshape]
    unfold Tensor.withShape
    rw [dif_pos (by rw [hp]; simp [arange])]
    rfl
  unfold enumerateDirections
  have hall : ∀ p ∈ shape.zipIdx, ∃ t : Tensor Nat,
      b.reshape (arange p.1) ((List.replicate shape.length (1 : Int)).set p.2 p.1) = .ok t := by
    rintro ⟨m, k⟩ hp
    obtain ⟨_, hk, _⟩ := List.mem_zipIdx hp
    obtain ⟨_, h⟩ := hr m k (by omega)
    exact ⟨_, h⟩
  obtain ⟨ts, hts⟩ : ∃ ts, mapE (fun p : Nat × Nat => b.reshape (arange p.1)
      ((List.replicate shape.length (1 : Int)).set p.2 p.1)) shape.zipIdx = .ok ts := by
    generalize shape.zipIdx = l at hall
    generalize shape.length = n at hall
    induction l with
    | nil => exact ⟨[], rfl⟩
    | cons p l ih =>
      obtain ⟨t, ht⟩ := hall p (by simp)
      obtain ⟨ts, hts⟩ := ih (fun q hq => hall q (by simp [hq]))
      exact ⟨t :: ts, by rw [mapE, ht]; simp only [hts]⟩
  refine ⟨ts, hts, by simpa using mapE_length hts, ?_⟩
  intro k hk
  obtain ⟨t, h1, h2⟩ := mapE_ok hts k (by simpa using hk)
  rw [List.getElem_zipIdx] at h1
  simp only [Nat.zero_add] at h1
  obtain ⟨hw, h3⟩ := hr shape[k] k hk
  rw [h3] at h1
  cases h1
  refine ⟨_, h2, by simp, ?_, ?_⟩
  · intro j hj
    simp only [nth]
    by_cases hjk : j = k
    · subst hjk
      simp [hj]
    · rw [if_neg hjk]
      simp [List.getD_eq_getElem?_getD, Ne.symm hjk, hj]
  · intro i hi
    unfold Tensor.at?
    rw [if_pos hi]
    simp only
    rw [ravel_one_axis _ _ _ _ hk hi]
    have hlt : nth i k < shape[k] := by
      have := (inBounds_iff.1 hi).2 k (by simpa using hk)
      simpa [nth, hk] using this
    rw [List.getElem?_eq_getElem (by simpa using hlt)]
    simp

/-! ### Examples -/

section
attribute [local instance] asciiUnicode

-- np.zeros([2, 3, 5, 7]): 'batch _ h w' of the docstring, and an ellipsis
example : parseShape [2, 3, 5, 7] "batch _ h w".toList =
    .ok [("batch".toList, 2), ("h".toList, 5), ("w".toList, 7)] := by rfl
example : parseShape [2, 3, 5, 7] "a ... (w 1)".toList = .ok [("a".toList, 2), ("w".toList, 7)] := by rfl
example : parseShape [2, 1, 5] "2 1 c".toList = .ok [("c".toList, 5)] := by rfl

-- the hypotheses of `C22_errors` can be met: wrong rank, wrong unit, wrong number, composed axis; illegal pattern
example : parseShape [2, 3] "a b c".toList = .error .runtime := by rfl
example : parseShape [2, 3] "a 1".toList = .error .runtime := by rfl
example : parseShape [2, 3] "a 4".toList = .error .runtime := by rfl
example : parseShape [2, 3] "a (b c)".toList = .error .runtime := by rfl
example : parseShape [2, 3] "a a".toList = .error .einops := by rfl

/-- The hypothesis of `C22_errors` on parenthesised ellipses is needed: with a fitting rank the code raises the ValueError
of `list.index`. -/
theorem C22_parenthesised_ellipsis : parseShape [2, 3] "a (...)".toList = .error .value := by rfl

example : (enumerateDirections (numpyBackend natOps false) [2, 3]).map (fun l => l.map (fun t => (t.shape, t.data))) =
    .ok [([2, 1], [0, 1]), ([1, 3], [0, 1, 2])] := by rfl
end

end Einops
