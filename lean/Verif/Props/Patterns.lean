import Verif.Proofs.Spacing
import Verif.Proofs.Prepare
import Verif.Props.Examples

/-!
# The pattern language
-/

namespace Einops

universe u

section
variable {α : Type u} [PyUnicode]

/-! ### C11 -/

/-- **C11** Two strings made of the same words and parentheses, however spaced, parse to the same result, as a side of an
operation, with or without underscores and duplicates allowed. -/
theorem C11_spaces (side : Nat) (allowUnderscore allowDuplicates : Bool) {s s' : Str} {T : List Tok} (h : Lexes s T)
    (h' : Lexes s' T) : parseExpression side allowUnderscore allowDuplicates s =
      parseExpression side allowUnderscore allowDuplicates s' :=
  parse_tokens side allowUnderscore allowDuplicates h h'

/-- **C11** The same for the two sides of the pattern of an operation, whatever its outcome. -/
theorem C11_spaces_operations {l r l' r' : Str} {T T' : List Tok} (hl : Lexes l T) (hl' : Lexes l' T) (hr : Lexes r T')
    (hr' : Lexes r' T') (b : Backend α) (so : SetOrder) (t : Input α) (red : Reduction α) (kw : List (Str × Size)) :
    reduce b so t (l ++ ['-', '>'] ++ r) red kw = reduce b so t (l' ++ ['-', '>'] ++ r') red kw := by
  unfold reduce
  cases resolveInput b t with
  | error e => rfl
  | ok x =>
    have := prepareRecipe_tokens hl hl' hr hr' so red.kind (kw.map Prod.fst) x.ndim
    simp only [arrow] at this
    simp only [this]

/-! ### C12 -/

/-- What a parsed side says about the structure `G` read off the string: the groups of axes; which names, numbers and
ellipsis there are; whether there is a number other than 1; where the ellipsis is. -/
structure Describes (side : Nat) (G : List Elem) (e : ParsedExpression) : Prop where
  composition : e.composition = denote side 0 G
  ellipsis : e.hasEllipsis = true ↔ dots ∈ sideWords G
  parenthesised : e.ellParen = some true ↔ ∃ ws, Elem.paren ws ∈ G ∧ dots ∈ ws
  bare : e.ellParen = some false ↔ Elem.bare dots ∈ G
  nonUnitary : e.nonUnitary = true ↔ ∃ w ∈ sideWords G, IsNumber w ∧ decimalValue w ≠ 1
  identifiers : ∀ a, a ∈ e.identifiers ↔ ∃ c ∈ e.composition, a ∈ c.axes
  identifiers_nodup : e.identifiers.Nodup

omit [PyUnicode] in
theorem ellPos_none {G : List Elem} (h : ellPos G none = none) : dots ∉ sideWords G := by
  unfold ellPos at h
  simp only at h
  induction G using List.reverseRecOn with
  | nil => simp [sideWords]
  | append_singleton G e ih =>
    rw [List.foldl_append, List.foldl_cons, List.foldl_nil] at h
    have hc : sideWords (G ++ [e]) = sideWords G ++ e.words := by simp [sideWords]
    rw [hc, List.mem_append, not_or]
    cases e with
    | bare w =>
      by_cases hw : w = dots
      · simp [hw] at h
      · simp only [hw, if_false] at h
        exact ⟨ih h, by simp [Elem.words, Ne.symm hw]⟩
    | paren ws =>
      by_cases hw : dots ∈ ws
      · simp [hw] at h
      · simp only [hw, if_false] at h
        exact ⟨ih h, hw⟩

theorem describes (side : Nat) {u d : Bool} {s : Str} {G : List Elem} (h : IsSide u d s G) :
    Describes side G (describe side G) where
  composition := rfl
  ellipsis := by simp [describe, sideWords]
  parenthesised := ellPos_paren h.one_ellipsis
  bare := by
    show ellPos G none = some false ↔ _
    have hp := ellPos_paren h.one_ellipsis
    constructor
    · intro he
      have hd : dots ∈ sideWords G := by
        by_contra hn
        have : ellPos G none = none := by
          clear he hp h
          unfold ellPos
          simp only
          induction G using List.reverseRecOn with
          | nil => rfl
          | append_singleton G e ih =>
            have hc : sideWords (G ++ [e]) = sideWords G ++ e.words := by simp [sideWords]
            rw [hc, List.mem_append, not_or] at hn
            rw [List.foldl_append, List.foldl_cons, List.foldl_nil, ih hn.1]
            cases e with
            | bare w =>
              have : w ≠ dots := fun h => hn.2 (by simp [Elem.words, h])
              simp [this]
            | paren ws =>
              have : dots ∉ ws := hn.2
              simp [this]
        rw [this] at he
        cases he
      obtain ⟨e, he1, he2⟩ := List.mem_flatMap.1 hd
      cases e with
      | bare w => simp only [Elem.words, List.mem_singleton] at he2; subst he2; exact he1
      | paren ws =>
        have := hp.2 ⟨ws, he1, he2⟩
        rw [he] at this
        cases this
    · intro hb
      rcases he : ellPos G none with _ | b
      · exact absurd (List.mem_flatMap.2 ⟨_, hb, by simp [Elem.words]⟩) (ellPos_none he)
      · cases b with
        | false => rfl
        | true =>
          exfalso
          obtain ⟨ws, h1, h2⟩ := hp.1 he
          have hone := h.one_ellipsis
          obtain ⟨A, B, rfl⟩ := List.append_of_mem hb
          rw [List.mem_append, List.mem_cons] at h1
          rw [List.flatMap_append, List.flatMap_cons, List.count_append, List.count_append] at hone
          simp only [Elem.words, List.count_singleton_self] at hone
          rcases h1 with h1 | h1 | h1
          · have := List.count_pos_iff.2 (List.mem_flatMap.2 ⟨_, h1, h2⟩ : dots ∈ A.flatMap Elem.words)
            omega
          · cases h1
          · have := List.count_pos_iff.2 (List.mem_flatMap.2 ⟨_, h1, h2⟩ : dots ∈ B.flatMap Elem.words)
            omega
  nonUnitary := by
    show List.any _ _ = true ↔ _
    rw [List.any_eq_true]
    simp only [decide_eq_true_eq]
    rfl
  identifiers := by
    intro a
    rw [mem_describe_ids, ← denote_axes, List.mem_flatMap]
    rfl
  identifiers_nodup := describe_ids_nodup side G

/-- **C12** A string is accepted exactly if it is a legal side, and the parsed side describes the structure read off the
string, which is unique.  Everything else is refused with an `EinopsError`. -/
theorem C12_language (side : Nat) (u d : Bool) {s : Str} (hell : '…' ∉ s) :
    (∀ e, parseExpression side u d s = .ok e → ∃ G, IsSide u d s G ∧ Describes side G e) ∧
    (∀ G, IsSide u d s G → ∃ e, parseExpression side u d s = .ok e ∧ Describes side G e) ∧
    (∀ G G', IsSide u d s G → IsSide u d s G' → G = G') ∧
    ((¬ ∃ G, IsSide u d s G) → parseExpression side u d s = .error .einops) := by
  refine ⟨?_, ?_, fun G G' => IsSide.unique, ?_⟩
  · intro e h
    obtain ⟨G, hG, rfl⟩ := (parseExpression_iff side u d s hell e).1 h
    exact ⟨G, hG, describes side hG⟩
  · intro G hG
    exact ⟨describe side G, (parseExpression_iff side u d s hell _).2 ⟨G, hG, rfl⟩, describes side hG⟩
  · intro h
    rcases hp : parseExpression side u d s with e | e
    · rw [parseExpression_err side u d hp]
    · obtain ⟨G, hG, _⟩ := (parseExpression_iff side u d s hell e).1 hp
      exact absurd ⟨G, hG⟩ h

/-- `flat_axes_order` of a parsed side: the axes of its words from left to right, brackets ignored; with an ellipsis
outside of brackets it fails. -/
theorem C12_flat_order (side : Nat) (u d : Bool) {s : Str} (hell : '…' ∉ s) {e : ParsedExpression}
    (h : parseExpression side u d s = .ok e) {G : List Elem} (hG : IsSide u d s G) :
    (Elem.bare dots ∉ G → e.flatAxesOrder = .ok (wordsAxes side 0 (G.flatMap Elem.words))) ∧
    (Elem.bare dots ∈ G → e.flatAxesOrder = .error .assertion) := by
  obtain ⟨G', hG', rfl⟩ := (parseExpression_iff side u d s hell e).1 h
  obtain rfl := hG.unique hG'
  have herr : ∀ (c : List CompAxis) x, c.foldl (fun (acc : Py (List Axis)) c =>
      match acc, c with
      | .error x, _ => .error x
      | .ok _, .ell => .error .assertion
      | .ok r, .group g => .ok (r ++ g)) (.error x) = .error x := by
    intro c x
    induction c with
    | nil => rfl
    | cons a c ih => rw [List.foldl_cons]; exact ih
  have key : ∀ (G : List Elem) (k : Nat) (r : List Axis),
      (Elem.bare dots ∉ G → (denote side k G).foldl (fun (acc : Py (List Axis)) c =>
        match acc, c with
        | .error x, _ => .error x
        | .ok _, .ell => .error .assertion
        | .ok r, .group g => .ok (r ++ g)) (.ok r) = .ok (r ++ wordsAxes side k (G.flatMap Elem.words))) ∧
      (Elem.bare dots ∈ G → (denote side k G).foldl (fun (acc : Py (List Axis)) c =>
        match acc, c with
        | .error x, _ => .error x
        | .ok _, .ell => .error .assertion
        | .ok r, .group g => .ok (r ++ g)) (.ok r) = .error .assertion) := by
    intro G
    induction G with
    | nil => intro k r; simp [denote, wordsAxes]
    | cons a G ih =>
      intro k r
      cases a with
      | bare w =>
        by_cases hw : w = dots
        · subst hw
          refine ⟨fun h => absurd (by simp) h, fun _ => ?_⟩
          simp only [denote, if_pos, List.foldl_cons]
          exact herr _ _
        · simp only [denote, if_neg hw, List.foldl_cons, List.flatMap_cons, Elem.words, List.singleton_append, wordsAxes,
            ← List.append_assoc]
          refine ⟨fun h => (ih (k + 1) _).1 (fun h' => h (by simp [h'])), fun h => (ih (k + 1) _).2 ?_⟩
          rcases List.mem_cons.1 h with h | h
          · cases h; exact absurd rfl hw
          · exact h
      | paren ws =>
        simp only [denote, List.foldl_cons, List.flatMap_cons, Elem.words]
        rw [wordsAxes_append, ← List.append_assoc]
        refine ⟨fun h => (ih (k + ws.length) _).1 (fun h' => h (by simp [h'])), fun h => (ih (k + ws.length) _).2 ?_⟩
        rcases List.mem_cons.1 h with h | h
        · cases h
        · exact h
  exact key G 0 []

end

section
attribute [local instance] asciiUnicode

example : (parseExpression 0 false false "c (b a) 1 3".toList).bind ParsedExpression.flatAxesOrder =
    .ok [.str ['c'], .str ['b'], .str ['a'], .anon 0 4 3] := by rfl
example : (parseExpression 0 false false "c ... a".toList).bind ParsedExpression.flatAxesOrder = .error .assertion := by rfl

example : parseExpression 0 false false " a(b 1  2)... ()1".toList = parseExpression 0 false false "a (b 1 2) ... ( ) 1 ".toList := by
  rfl
example : parseExpression 0 false false "a (b 1 2) ... () 1".toList =
    .ok ⟨true, some false, [.str "a".toList, .str "b".toList, .anon 0 3 2, .str "…".toList], true,
      [.group [.str "a".toList], .group [.str "b".toList, .anon 0 3 2], .ell, .group [], .group []]⟩ := by rfl
example : parseExpression 0 false false "a (b (c))".toList = .error .einops := by rfl
example : parseExpression 0 false false "a a".toList = .error .einops := by rfl
example : parseExpression 0 false false "_a".toList = .error .einops := by rfl
example : parseExpression 0 false false "a 0".toList = .error .einops := by rfl
example : parseExpression 0 false false "a .. b".toList = .error .einops := by rfl

/-- The restriction in C12 is needed: the character '…' written in a pattern is taken for the ellipsis by the parser,
while the attribute `has_ellipsis` stays false. -/
theorem C12_literal_marker : parseExpression 0 false false "a …".toList =
    .ok ⟨false, some false, [.str "a".toList, .str "…".toList], false, [.group [.str "a".toList], .ell]⟩ := by rfl
end

end Einops
