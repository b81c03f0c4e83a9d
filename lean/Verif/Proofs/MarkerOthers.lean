import Verif.Proofs.Marker
import Verif.Proofs.Einsum
import Verif.Proofs.EinMixMake
import Verif.Proofs.Unpacking
import Verif.Props.Shapes
import Verif.Layers

/-!
# The character '…' in `parse_shape`, `pack`, `unpack`, `einsum` and `EinMix`
-/

namespace Einops

universe u

/-! ### Arrows -/

theorem arrow_skip {m q : Str} (h : '-' ∉ m) : arrow <:+: m ++ q ↔ arrow <:+: q := by
  induction m with
  | nil => rfl
  | cons c m ih =>
    rw [List.cons_append, List.infix_cons_iff, ih (fun h' => h (by simp [h']))]
    constructor
    · rintro (⟨t, ht⟩ | h')
      · simp only [arrow, List.cons_append, List.cons.injEq] at ht
        exact absurd (by simp [← ht.1]) h
      · exact h'
    · exact .inr

/-- an arrow does not reach across a text without its characters -/
theorem arrow_apart {m : Str} (hm : m ≠ []) (h1 : '-' ∉ m) (h2 : '>' ∉ m) (p q : Str) :
    arrow <:+: p ++ m ++ q ↔ arrow <:+: p ∨ arrow <:+: q := by
  induction p with
  | nil =>
    rw [List.nil_append, arrow_skip h1]
    simp [arrow]
  | cons c p ih =>
    rw [List.append_assoc, List.cons_append, ← List.append_assoc, List.infix_cons_iff, ih, List.infix_cons_iff]
    have : arrow <+: c :: (p ++ m ++ q) ↔ arrow <+: c :: p := by
      cases p with
      | nil =>
        cases m with
        | nil => exact absurd rfl hm
        | cons d m =>
          constructor
          · rintro ⟨t, ht⟩
            simp only [arrow, List.cons_append, List.nil_append, List.cons.injEq] at ht
            exact absurd (by simp [← ht.2.1]) h2
          · rintro ⟨t, ht⟩
            simp [arrow] at ht
      | cons d p =>
        simp [arrow, List.cons_prefix_cons]
    rw [this, or_assoc]

theorem respells_arrow {s s' : Str} (h : Respells s s') : arrow <:+: s' ↔ arrow <:+: s := by
  rcases h with rfl | ⟨p, q, _, _, rfl, rfl⟩
  · rfl
  · rw [arrow_apart (by decide) (by decide) (by decide), arrow_apart (by decide) (by decide) (by decide)]

theorem respells_comma {s s' : Str} (h : Respells s s') : ',' ∈ s' ↔ ',' ∈ s := by
  rcases h with rfl | ⟨p, q, _, _, rfl, rfl⟩
  · rfl
  · simp [mark, dots]

theorem intercalate_cons2 (sep a b : Str) (l : List Str) :
    List.intercalate sep (a :: b :: l) = a ++ sep ++ List.intercalate sep (b :: l) := by
  simp [List.intercalate]

theorem arrow_intercalate {sep : Str} (h1 : sep ≠ []) (h2 : '-' ∉ sep) (h3 : '>' ∉ sep) (ins : List Str) :
    arrow <:+: List.intercalate sep ins ↔ ∃ s ∈ ins, arrow <:+: s := by
  induction ins with
  | nil => simp [List.intercalate, arrow]
  | cons a ins ih =>
    cases ins with
    | nil => simp [List.intercalate]
    | cons b ins =>
      rw [intercalate_cons2, arrow_apart h1 h2 h3, ih]
      simp

section
variable [PyUnicode]

/-! ### The parser -/

/-- `...` and '…' are parsed alike, but only `...` makes the expression have an ellipsis. -/
theorem parse_respelled (side : Nat) (u d : Bool) {p q : Str} (hp : '.' ∉ p) (hq : '.' ∉ q) :
    parseExpression side u d (p ++ dots ++ q) =
      (parseExpression side u d (p ++ mark ++ q)).map (fun e => { e with hasEllipsis := true }) := by
  have h : '.' ∉ p ++ mark ++ q := by simp [hp, hq, mark]
  unfold parseExpression
  rw [prepareDots_one hp hq, prepareDots_nodots h]
  simp only [show ellipsisStr = mark from rfl]
  cases runChars side u d PState.init (p ++ mark ++ q) with
  | error e => rfl
  | ok st =>
    simp only
    cases finishParse side u d st <;> rfl

theorem parse_hasEllipsis_false (side : Nat) {u d : Bool} {s : Str} (h : '.' ∉ s) {e : ParsedExpression}
    (hp : parseExpression side u d s = .ok e) : e.hasEllipsis = false := by
  obtain ⟨T, hT⟩ := lexes_exists s
  obtain ⟨G, _, _, _, rfl⟩ := (parse_nodots side u d h hT e).1 hp
  rfl

theorem parse_respells (side : Nat) (u d : Bool) {s s' : Str} (h : Respells s s') :
    (parseExpression side u d s').map ParsedExpression.composition =
      (parseExpression side u d s).map ParsedExpression.composition := by
  rcases h with rfl | ⟨p, q, hp, hq, rfl, rfl⟩
  · rfl
  · rw [parse_respelled side u d hp hq]
    cases parseExpression side u d (p ++ mark ++ q) <;> rfl

/-! ### `einsum` -/

theorem einsumLefts_composition {ps ps' : List ParsedExpression}
    (h : ps.map ParsedExpression.composition = ps'.map ParsedExpression.composition) (m : List (Str × Char)) (i : Nat) :
    einsumLefts m i ps = einsumLefts m i ps' := by
  induction ps generalizing ps' m i with
  | nil =>
    cases ps' with
    | nil => rfl
    | cons _ _ => simp at h
  | cons p ps ih =>
    cases ps' with
    | nil => simp at h
    | cons p' ps' =>
      simp only [List.map_cons, List.cons.injEq] at h
      simp only [einsumLefts, h.1]
      cases einsumLeft m i p'.composition with
      | error e => rfl
      | ok x =>
        obtain ⟨s, m, i⟩ := x
        simp only [ih h.2]

theorem mapE_respells {ins ins' : List Str} (h : List.Forall₂ Respells ins ins') (side : Nat) (u d : Bool) :
    (mapE (parseExpression side u d) ins').map (List.map ParsedExpression.composition) =
      (mapE (parseExpression side u d) ins).map (List.map ParsedExpression.composition) := by
  induction h with
  | nil => rfl
  | @cons s s' ins ins' h _ ih =>
    have h1 := parse_respells side u d h
    simp only [mapE]
    cases ha : parseExpression side u d s with
    | error e =>
      cases hb : parseExpression side u d s' with
      | error e' => rw [ha, hb] at h1; cases h1; rfl
      | ok _ => rw [ha, hb] at h1; cases h1
    | ok a =>
      cases hb : parseExpression side u d s' with
      | error e' => rw [ha, hb] at h1; cases h1
      | ok b =>
        rw [ha, hb] at h1
        have h1 : b.composition = a.composition := by simpa [Except.map] using h1
        simp only
        cases hc : mapE (parseExpression side u d) ins with
        | error e =>
          cases hd : mapE (parseExpression side u d) ins' with
          | error e' => rw [hc, hd] at ih; cases ih; rfl
          | ok _ => rw [hc, hd] at ih; cases ih
        | ok cs =>
          cases hd : mapE (parseExpression side u d) ins' with
          | error e' => rw [hc, hd] at ih; cases ih
          | ok ds =>
            rw [hc, hd] at ih
            have ih : ds.map ParsedExpression.composition = cs.map ParsedExpression.composition := by
              simpa [Except.map] using ih
            simp [Except.map, h1, ih]

theorem compactify_eq {ins : List Str} {r : Str} (hne : ins ≠ []) (hc : ∀ s ∈ ins, ',' ∉ s)
    (ha : ∀ s ∈ ins, ¬ arrow <:+: s) (hr : ¬ arrow <:+: r) :
    compactify (List.intercalate [','] ins ++ arrow ++ r) =
      match mapE (parseExpression 0 true true) ins with
      | .error e => .error e
      | .ok lefts =>
        match parseExpression 1 true false r with
        | .error e => .error e
        | .ok right =>
          match einsumLefts [] 0 lefts with
          | .error e => .error e
          | .ok (ss, m) =>
            match einsumRight m right.composition with
            | .error e => .error e
            | .ok t => .ok (List.intercalate [','] ss ++ ['-', '>'] ++ t) := by
  have hl : ¬ arrow <:+: List.intercalate [','] ins := by
    rw [arrow_intercalate (by decide) (by decide) (by decide)]
    rintro ⟨s, hs, h⟩
    exact ha s hs h
  have hsplit := splitArrow_iff.2 ⟨rfl, hl, hr⟩
  have hcont : containsSub ['-', '>'] (List.intercalate [','] ins ++ arrow ++ r) = true := containsSub_iff.2 ⟨_, r, rfl⟩
  unfold compactify
  simp only [hcont, Bool.not_true, Bool.false_eq_true, if_false, hsplit, splitOn_comma_join hne hc]
  rfl

theorem forall2_mem {β γ : Type} {R : β → γ → Prop} {l : List β} {l' : List γ} (h : List.Forall₂ R l l') :
    ∀ y ∈ l', ∃ x ∈ l, R x y := by
  induction h with
  | nil => simp
  | cons h _ ih =>
    intro y hy
    rcases List.mem_cons.1 hy with rfl | hy
    · exact ⟨_, by simp, h⟩
    · obtain ⟨x, hx, hr⟩ := ih y hy
      exact ⟨x, by simp [hx], hr⟩

/-- **`einsum` reads '…' as the ellipsis.** -/
theorem compactify_respells {ins ins' : List Str} {r r' : Str} (h : List.Forall₂ Respells ins ins') (hr : Respells r r')
    (hne : ins ≠ []) (hc : ∀ s ∈ ins, ',' ∉ s) (ha : ∀ s ∈ ins, ¬ arrow <:+: s) (har : ¬ arrow <:+: r) :
    compactify (List.intercalate [','] ins' ++ arrow ++ r') = compactify (List.intercalate [','] ins ++ arrow ++ r) := by
  rw [compactify_eq hne hc ha har, compactify_eq (by rintro rfl; cases h; exact hne rfl)
    (fun s' hs' hm => by
      obtain ⟨s, hs, hR⟩ := forall2_mem h s' hs'
      exact hc s hs ((respells_comma hR).1 hm))
    (fun s' hs' hm => by
      obtain ⟨s, hs, hR⟩ := forall2_mem h s' hs'
      exact ha s hs ((respells_arrow hR).1 hm))
    (fun hm => har ((respells_arrow hr).1 hm))]
  have h1 := mapE_respells h 0 true true
  have h2 := parse_respells 1 true false hr
  cases hc1 : mapE (parseExpression 0 true true) ins with
  | error e =>
    cases hd1 : mapE (parseExpression 0 true true) ins' with
    | error e' => rw [hc1, hd1] at h1; cases h1; rfl
    | ok _ => rw [hc1, hd1] at h1; cases h1
  | ok cs =>
    cases hd1 : mapE (parseExpression 0 true true) ins' with
    | error e' => rw [hc1, hd1] at h1; cases h1
    | ok ds =>
      rw [hc1, hd1] at h1
      have h1 : ds.map ParsedExpression.composition = cs.map ParsedExpression.composition := by
        simpa [Except.map] using h1
      simp only
      cases ha1 : parseExpression 1 true false r with
      | error e =>
        cases hb1 : parseExpression 1 true false r' with
        | error e' => rw [ha1, hb1] at h2; cases h2; rfl
        | ok _ => rw [ha1, hb1] at h2; cases h2
      | ok a =>
        cases hb1 : parseExpression 1 true false r' with
        | error e' => rw [ha1, hb1] at h2; cases h2
        | ok b =>
          rw [ha1, hb1] at h2
          have h2 : b.composition = a.composition := by simpa [Except.map] using h2
          simp only [einsumLefts_composition h1, h2]

theorem compactify_glued {ins : List Str} {r : Str} (hne : ins ≠ []) (hc : ∀ s ∈ ins, ',' ∉ s)
    (ha : ∀ s ∈ ins, ¬ arrow <:+: s) (har : ¬ arrow <:+: r) {s : Str} {T : List Tok} (hs : s ∈ ins ∨ s = r)
    (hd : '.' ∉ s) (hT : Lexes s T) (hg : ¬ Alone T) :
    compactify (List.intercalate [','] ins ++ arrow ++ r) = .error .einops := by
  rw [compactify_eq hne hc ha har]
  have hmap : ∀ {ins : List Str} {e : PyErr}, mapE (parseExpression 0 true true) ins = .error e → e = .einops := by
    intro ins
    induction ins with
    | nil => intro e h; cases h
    | cons a ins ih =>
      intro e h
      simp only [mapE] at h
      cases ha : parseExpression 0 true true a with
      | error e' => rw [ha] at h; cases h; exact parseExpression_err _ _ _ ha
      | ok x =>
        rw [ha] at h
        simp only at h
        cases hb : mapE (parseExpression 0 true true) ins with
        | error e' => rw [hb] at h; cases h; exact ih hb
        | ok y => rw [hb] at h; cases h
  have hbad : s ∈ ins → ∀ ps, mapE (parseExpression 0 true true) ins ≠ .ok ps := by
    intro hs
    clear hne hc ha
    induction ins with
    | nil => cases hs
    | cons a ins ih =>
      intro ps h
      simp only [mapE] at h
      cases ha : parseExpression 0 true true a with
      | error e' => rw [ha] at h; cases h
      | ok x =>
        rw [ha] at h
        simp only at h
        cases hb : mapE (parseExpression 0 true true) ins with
        | error e' => rw [hb] at h; cases h
        | ok y =>
          rcases List.mem_cons.1 hs with rfl | hs
          · rw [parse_glued 0 hd hT hg] at ha; cases ha
          · exact ih (.inl hs) hs y hb
  cases hm : mapE (parseExpression 0 true true) ins with
  | error e => rw [hmap hm]
  | ok ps =>
    rcases hs with hs | rfl
    · exact absurd hm (hbad hs ps)
    · simp only [parse_glued 1 hd hT hg]

/-! ### `parse_shape` -/

/-- `n` for the key '…' -/
def renameKey (n : Str) (d : List (Str × Nat)) : List (Str × Nat) := d.map (fun p => (if p.1 = mark then n else p.1, p.2))

omit [PyUnicode] in
theorem renameKey_set {n : Str} {d : List (Str × Nat)} (hd : n ∉ d.map Prod.fst) {w : Str} (hw : w ≠ n) (v : Nat) :
    dictSet (renameKey n d) (if w = mark then n else w) v = renameKey n (dictSet d w v) := by
  induction d with
  | nil => rfl
  | cons p d ih =>
    obtain ⟨k, x⟩ := p
    simp only [List.map_cons, List.mem_cons, not_or] at hd
    have ih := ih hd.2
    unfold renameKey at ih ⊢
    simp only [List.map_cons, dictSet]
    by_cases hk : k = w
    · subst hk
      simp
    · have : (if k = mark then n else k) ≠ (if w = mark then n else w) := by
        split_ifs with a b b
        · exact absurd (a.trans b.symm) hk
        · exact fun h => hw h.symm
        · exact fun h => hd.1 h.symm
        · exact hk
      rw [if_neg this, if_neg hk, ih]
      rfl

omit [PyUnicode] in
theorem dictSet_absent {n : Str} {d : List (Str × Nat)} (hd : n ∉ d.map Prod.fst) {w : Str} (hw : w ≠ n) (v : Nat) :
    n ∉ (dictSet d w v).map Prod.fst := by
  induction d with
  | nil => simpa [dictSet] using hw.symm
  | cons p d ih =>
    obtain ⟨k, x⟩ := p
    simp only [List.map_cons, List.mem_cons, not_or] at hd
    simp only [dictSet]
    split
    · simpa using hd
    · simpa using ⟨hd.1, by simpa using ih hd.2⟩

omit [PyUnicode] in
theorem shapeStep_name {n : Str} (hu : n ≠ ['_']) {d : List (Str × Nat)} (hd : n ∉ d.map Prod.fst) {c c' : CompAxis}
    (hc : c'.axes = c.axes.map (nameAxis n)) (hf : Axis.str n ∉ c.axes) (k : Nat) :
    shapeStep (renameKey n d) c' k = (shapeStep d c k).map (renameKey n) ∧
      ∀ d', shapeStep d c k = .ok d' → n ∉ d'.map Prod.fst := by
  unfold shapeStep
  rw [hc]
  rcases hx : c.axes with _ | ⟨a, _ | ⟨b, l⟩⟩
  · simp only [List.map_nil]
    split
    · exact ⟨rfl, fun _ h => by cases h⟩
    · exact ⟨rfl, fun _ h => by cases h; exact hd⟩
  · rw [hx] at hf
    cases a with
    | anon s i v =>
      simp only [List.map_cons, List.map_nil, nameAxis, reduceCtorEq, if_false]
      split
      · exact ⟨rfl, fun _ h => by cases h⟩
      · exact ⟨rfl, fun _ h => by cases h; exact hd⟩
    | str w =>
      have hw : w ≠ n := by rintro rfl; simp at hf
      have hset := renameKey_set hd hw k
      by_cases hm : w = mark
      · subst hm
        have h1 : nameAxis n (.str mark) = .str n := if_pos rfl
        have h2 : mark ≠ ['_'] := by decide
        simp only [List.map_cons, List.map_nil, h1, if_pos hu, if_pos h2]
        simp only [if_true] at hset
        exact ⟨by rw [hset]; rfl, fun d' h => by cases h; exact dictSet_absent hd hw k⟩
      · have h1 : nameAxis n (.str w) = .str w := if_neg (fun h => by cases h; exact hm rfl)
        simp only [List.map_cons, List.map_nil, h1]
        rw [if_neg hm] at hset
        split
        · exact ⟨by rw [hset]; rfl, fun d' h => by cases h; exact dictSet_absent hd hw k⟩
        · exact ⟨rfl, fun _ h => by cases h; exact hd⟩
  · simp only [List.map_cons]
    refine ⟨?_, fun _ h => by cases h⟩
    generalize nameAxis n a = x
    cases x <;> rfl

omit [PyUnicode] in
theorem shapeLoop_name {n : Str} (hu : n ≠ ['_']) {C C' : List CompAxis}
    (hc : C'.map CompAxis.axes = relabel (nameAxis n) (C.map CompAxis.axes)) (hf : ∀ c ∈ C, Axis.str n ∉ c.axes)
    (shape : List Nat) {d : List (Str × Nat)} (hd : n ∉ d.map Prod.fst) :
    shapeLoop (renameKey n d) C' shape = (shapeLoop d C shape).map (renameKey n) := by
  induction C generalizing C' shape d with
  | nil =>
    cases C' with
    | nil => rfl
    | cons _ _ => simp [relabel] at hc
  | cons c C ih =>
    cases C' with
    | nil => simp [relabel] at hc
    | cons c' C' =>
      simp only [relabel, List.map_cons, List.cons.injEq] at hc
      cases shape with
      | nil => rfl
      | cons k shape =>
        obtain ⟨h1, h2⟩ := shapeStep_name hu hd hc.1 (hf c (by simp)) k
        simp only [shapeLoop, h1]
        cases hs : shapeStep d c k with
        | error e => rfl
        | ok d' => exact ih hc.2 (fun c hc => hf c (by simp [hc])) shape (h2 d' hs)

theorem composed_axes (e : ParsedExpression) :
    e.hasComposedAxes = (e.composition.map CompAxis.axes).any (fun g => decide (1 < g.length)) := by
  unfold ParsedExpression.hasComposedAxes
  rw [List.any_map]
  congr 1
  funext c
  cases c <;> rfl

/-- **`parse_shape` reads '…' as the name of one axis.** -/
theorem parseShape_name {s s' n : Str} {T : List Tok} (hn : IsName false n) (hT : Lexes s T)
    (hT' : Lexes s' (T.map (Tok.put n))) (hdot : '.' ∉ s) (ha : Alone T) (hfresh : Tok.word n ∉ T) (shape : List Nat) :
    parseShape shape s' = (parseShape shape s).map (renameKey n) := by
  have hu : n ≠ ['_'] := by
    rintro rfl
    rcases hn.2.2 with ⟨h, _⟩ | ⟨h, _⟩
    · exact h rfl
    · cases h
  have hdT : '.' ∉ tokChars T := fun h => hdot (hT.chars h)
  have hnm : '…' ∉ n := fun h => by
    rcases hn.1 _ h with h | h
    · rw [PyUnicode.special_not_alnum '…' (by simp)] at h; cases h
    · cases h
  have hell' : '…' ∉ s' := by
    intro h
    have h1 : '…' ∈ tokChars (T.map (Tok.put n)) := by
      have := hT'.count_char '…' (by decide)
      rw [← List.count_pos_iff, ← this, List.count_pos_iff]
      exact h
    exact (put_no_mark hnm).2 ha h1
  unfold parseShape
  cases hp : parseExpression 0 true false s with
  | error e =>
    have hbad : ∀ pe, parseExpression 0 true false s' ≠ .ok pe := by
      intro pe h
      obtain ⟨G', hG', _⟩ := (parseExpression_iff 0 true false s' hell' pe).1 h
      obtain ⟨G, h1, h2, _⟩ := side_name hn hT' hdT hfresh hG'
      rw [(parse_nodots 0 true false hdot hT _).2 ⟨G, h1, ha, h2, rfl⟩] at hp
      cases hp
    cases hp' : parseExpression 0 true false s' with
    | error e' => rw [parseExpression_err _ _ _ hp, parseExpression_err _ _ _ hp']; rfl
    | ok pe => exact absurd hp' (hbad pe)
  | ok pe =>
    obtain ⟨G, h1, _, h3, rfl⟩ := (parse_nodots 0 true false hdot hT pe).1 hp
    have hs' := name_side hn hT' hdT hfresh h1 h3
    rw [(parseExpression_iff 0 true false s' hell' _).2 ⟨_, hs', rfl⟩]
    have hw : ∀ w ∈ sideWords G, '…' ∉ w := fun w hw => wordOK_no_ell (h3.1 w hw)
    have hden := denote_name hn 0 hw 0
    have hlen : (denote 0 0 (G.map (Elem.mapWords (nameIt n)))).length = (denote 0 0 G).length := by
      have := congrArg List.length hden
      simpa [relabel] using this
    have hnodots : dots ∉ sideWords (G.map (Elem.mapWords (nameIt n))) := by
      rw [sideWords_map]
      intro h
      obtain ⟨v, _, hv⟩ := List.mem_map.1 h
      unfold nameIt at hv
      split at hv
      · exact isName_ne_dots hn hv
      · contradiction
    have hns : (describe 0 (G.map (Elem.mapWords (nameIt n)))).hasEllipsis = false := decide_eq_false hnodots
    have hcomp : (describe 0 (G.map (Elem.mapWords (nameIt n)))).hasComposedAxes =
        ({ describe 0 G with hasEllipsis := false } : ParsedExpression).hasComposedAxes := by
      rw [composed_axes, composed_axes]
      simp only [describe, hden]
      unfold relabel
      rw [List.any_map]
      congr 1
      funext g
      simp
    have hrank : shapeRankOK (describe 0 (G.map (Elem.mapWords (nameIt n)))) shape.length =
        shapeRankOK { describe 0 G with hasEllipsis := false } shape.length := by
      unfold shapeRankOK
      rw [hns]
      simp only [describe, hlen]
      rfl
    have hcs : ∀ k, shapeComposition (describe 0 (G.map (Elem.mapWords (nameIt n)))) k =
        .ok (denote 0 0 (G.map (Elem.mapWords (nameIt n)))) := by
      intro k
      unfold shapeComposition
      rw [hns]
      rfl
    have hcs' : ∀ k, shapeComposition { describe 0 G with hasEllipsis := false } k = .ok (denote 0 0 G) := fun k => rfl
    simp only [hcomp, hrank, hcs, hcs']
    split
    · rfl
    · split
      · rfl
      · refine shapeLoop_name hu hden ?_ shape (d := []) (by simp)
        intro c hc hm
        have hids : Axis.str n ∈ (denote 0 0 G).flatMap CompAxis.axes := List.mem_flatMap.2 ⟨c, hc, hm⟩
        rw [denote_axes] at hids
        obtain ⟨w, hw', ⟨_, e1⟩ | ⟨_, _, e1⟩⟩ := str_mem_wordsAxes.1 hids
        · exact hnm (e1 ▸ by simp [ellipsisStr])
        · subst e1
          have h4 := mem_toks_words.2 (show n ∈ G.flatMap Elem.words from hw')
          rw [← h1] at h4
          rcases mem_put.1 h4 with ⟨h, _⟩ | ⟨_, h⟩
          · exact isName_ne_dots hn h
          · exact hfresh h

theorem parseShape_refused {s : Str} {T : List Tok} (hT : Lexes s T) (hm : '…' ∈ s) (h : '.' ∈ s ∨ ¬ Alone T)
    (shape : List Nat) : parseShape shape s = .error .einops := by
  unfold parseShape
  by_cases hd : '.' ∈ s
  · rw [parse_both 0 hd hm]
  · rw [parse_glued 0 hd hT (h.resolve_left hd)]

/-! ### `pack` and `unpack` -/

theorem words_marker {s : Str} {ws : List Str} (h : Words s ws) (hm : '…' ∈ s) : ∃ w ∈ ws, '…' ∈ w := by
  induction h with
  | nil => cases hm
  | @space c s ws hc _ ih =>
    rcases List.mem_cons.1 hm with rfl | hm
    · rw [PyUnicode.special_not_space '…' (by simp)] at hc; cases hc
    · exact ih hm
  | last _ _ => exact ⟨_, by simp, hm⟩
  | @word w c s ws _ _ hc _ ih =>
    rcases List.mem_append.1 hm with hm | hm
    · exact ⟨w, by simp, hm⟩
    · rcases List.mem_cons.1 hm with rfl | hm
      · rw [PyUnicode.special_not_space '…' (by simp)] at hc; cases hc
      · obtain ⟨v, h1, h2⟩ := ih hm
        exact ⟨v, by simp [h1], h2⟩

theorem analyzePattern_marker {pattern : Str} (hm : '…' ∈ pattern) : analyzePattern pattern = .error .einops := by
  obtain ⟨w, hw, hc⟩ := words_marker (words_iff.2 (rfl : splitWs pattern = _)) hm
  unfold analyzePattern
  simp only
  split
  · rfl
  · split
    · rfl
    · have hstar : w ≠ ['*'] := by rintro rfl; simp at hc
      have hbad : checkAxisName false w = false := by
        rw [Bool.eq_false_iff]
        exact fun h => isIdentifier_no_ell (checkAxisName_ident h) hc
      rw [if_pos]
      exact List.any_eq_true.2 ⟨w, hw, by simp [hstar, hbad]⟩

/-! ### `EinMix` -/

theorem flat_bare {T : List Tok} (hT : Flat T) {G : List Elem} (h : T.map (Tok.put dots) = G.flatMap Elem.toks) :
    ∀ e ∈ G, ∃ w, e = .bare w ∧ (w = dots ∨ ¬ IsNumber w) := by
  intro e he
  have hsub : ∀ t ∈ e.toks, t ∈ T.map (Tok.put dots) := fun t ht => h ▸ List.mem_flatMap.2 ⟨e, he, ht⟩
  cases e with
  | paren ws =>
    obtain ⟨t, ht, h1⟩ := List.mem_map.1 (hsub .lp (by simp [Elem.toks]))
    obtain ⟨w, rfl, _⟩ := hT t ht
    simp [Tok.put] at h1
  | bare w =>
    refine ⟨w, rfl, ?_⟩
    obtain ⟨t, ht, h1⟩ := List.mem_map.1 (hsub (.word w) (by simp [Elem.toks]))
    obtain ⟨v, rfl, hv⟩ := hT t ht
    simp only [Tok.put, Tok.word.injEq] at h1
    split at h1
    · exact .inl h1.symm
    · exact .inr (h1 ▸ hv)

theorem flat_single {G : List Elem} (h : ∀ e ∈ G, ∃ w, e = Elem.bare w ∧ (w = dots ∨ ¬ IsNumber w)) (side k : Nat) :
    hasNonSingle (denote side k G) = false := by
  induction G generalizing k with
  | nil => rfl
  | cons e G ih =>
    obtain ⟨w, rfl, hw⟩ := h e (by simp)
    have ih := ih (fun e he => h e (by simp [he])) (k + 1)
    unfold hasNonSingle at ih ⊢
    simp only [denote, List.any_cons, ih, Bool.or_false]
    by_cases hd : w = dots
    · simp [hd, CompAxis.axes]
    · have hn := hw.resolve_left hd
      simp [hd, CompAxis.axes, wordAxes, hn]

theorem flat_not_paren {G : List Elem} (h : ∀ e ∈ G, ∃ w, e = Elem.bare w ∧ (w = dots ∨ ¬ IsNumber w)) :
    ellPos G none ≠ some true := by
  unfold ellPos
  simp only
  suffices ∀ acc : Option Bool, acc ≠ some true → G.foldl (fun (acc : Option Bool) (e : Elem) => match e with
      | .bare w => if w = dots then some false else acc
      | .paren ws => if dots ∈ ws then some true else acc) acc ≠ some true from this none (by simp)
  induction G with
  | nil => exact fun acc h => h
  | cons e G ih =>
    obtain ⟨w, rfl, _⟩ := h e (by simp)
    intro acc hacc
    rw [List.foldl_cons]
    apply ih (fun e he => h e (by simp [he]))
    simp only
    split
    · simp
    · exact hacc

theorem nonSingle_iff {side k : Nat} {G : List Elem} :
    hasNonSingle (denote side k G) = true ↔ ∃ e ∈ G, e.core.length ≠ 1 := by
  induction G generalizing k with
  | nil => simp [hasNonSingle, denote]
  | cons e G ih =>
    have hl : (elemAxes side k e).axes.length = e.core.length := by
      obtain ⟨ks, h1, h2⟩ := wordsAxes_core (side := side) (k := k) (ws := e.words)
      rw [elemAxes_axes, h2, List.length_zipWith, h1]
      unfold Elem.core
      simp
    unfold hasNonSingle at ih ⊢
    rw [denote_cons, List.any_cons, Bool.or_eq_true, ih, hl]
    simp

section
variable {α : Type u}

/-- **`EinMix` reads '…' as the ellipsis** where no axes are composed. -/
theorem makeEinMix_respelled {p q p' q' : Str} (hp : '.' ∉ p) (hq : '.' ∉ q) (hp' : '.' ∉ p') (hq' : '.' ∉ q')
    {TL TR : List Tok} (hL : Lexes (p ++ mark ++ q) TL) (hR : Lexes (p' ++ mark ++ q') TR) (fL : Flat TL) (fR : Flat TR)
    (hal : ¬ arrow <:+: p ++ mark ++ q) (har : ¬ arrow <:+: p' ++ mark ++ q') (so : Nat → SetOrder) (weight : Str)
    (bias : Option Str) (kw : List (Str × Size)) :
    (makeEinMix so (p ++ mark ++ q ++ arrow ++ (p' ++ mark ++ q')) weight bias kw : Py (EinMix α)) =
      makeEinMix so (p ++ dots ++ q ++ arrow ++ (p' ++ dots ++ q')) weight bias kw := by
  have hs := splitArrow_iff.2 ⟨rfl, hal, har⟩
  have hs' := splitArrow_iff.2 ⟨rfl, fun h => hal ((respells_arrow (.inr ⟨p, q, hp, hq, rfl, rfl⟩)).1 h),
    fun h => har ((respells_arrow (.inr ⟨p', q', hp', hq', rfl, rfl⟩)).1 h)⟩
  have dl : '.' ∉ p ++ mark ++ q := by simp [hp, hq, mark]
  have dr : '.' ∉ p' ++ mark ++ q' := by simp [hp', hq', mark]
  unfold makeEinMix einmixPlan
  simp only [hs, hs', parse_respelled 0 false false hp hq, parse_respelled 1 false false hp' hq']
  cases hl : parseExpression 0 false false (p ++ mark ++ q) with
  | error e => rfl
  | ok left =>
    cases hr : parseExpression 1 false false (p' ++ mark ++ q') with
    | error e => rfl
    | ok right =>
      obtain ⟨GL, e1, _, _, rfl⟩ := (parse_nodots 0 false false dl hL left).1 hl
      obtain ⟨GR, e2, _, _, rfl⟩ := (parse_nodots 1 false false dr hR right).1 hr
      have b1 := flat_bare fL e1
      have b2 := flat_bare fR e2
      have n1 : hasNonSingle (denote 0 0 GL) = false := flat_single b1 0 0
      have n2 : hasNonSingle (denote 1 0 GR) = false := flat_single b2 1 0
      have p1 := flat_not_paren b1
      have p2 := flat_not_paren b2
      have hchk : ∀ w, einmixChecks { describe 0 GL with hasEllipsis := true } { describe 1 GR with hasEllipsis := true } w weight =
          einmixChecks { describe 0 GL with hasEllipsis := false } { describe 1 GR with hasEllipsis := false } w weight := by
        intro w
        simp [einmixChecks, describe, p1]
      simp only [Except.map]
      cases parseExpression 2 false false weight with
      | error e => rfl
      | ok w =>
        simp only [hchk w]
        cases einmixChecks { describe 0 GL with hasEllipsis := false } { describe 1 GR with hasEllipsis := false } w weight with
        | error e => rfl
        | ok _ =>
          have q1 : ∀ b s, preReshape s { describe 0 GL with hasEllipsis := b } kw = none :=
            fun b s => if_neg (by simp [describe, n1])
          have q2 : ∀ b s, postReshape s { describe 1 GR with hasEllipsis := b } = none :=
            fun b s => if_neg (by simp [describe, n2, p2])
          simp only [q1, q2]
          rfl

/-- **`EinMix` refuses '…'** in an input with composed axes. -/
theorem makeEinMix_refused {l r : Str} {T : List Tok} (hT : Lexes l T) (hm : '…' ∈ l) (hd : '.' ∉ l)
    (hal : ¬ arrow <:+: l) (har : ¬ arrow <:+: r) {G : List Elem} (hG : T.map (Tok.put dots) = G.flatMap Elem.toks)
    (hc : ∃ e ∈ G, e.core.length ≠ 1) (so : Nat → SetOrder) (weight : Str) (bias : Option Str) (kw : List (Str × Size)) :
    (makeEinMix so (l ++ arrow ++ r) weight bias kw : Py (EinMix α)) = .error .einops := by
  unfold makeEinMix einmixPlan
  rw [splitArrow_iff.2 ⟨rfl, hal, har⟩]
  simp only
  cases hl : parseExpression 0 false false l with
  | error e => simp only [parseExpression_err _ _ _ hl]
  | ok left =>
  cases hr : parseExpression 1 false false r with
  | error e => simp only [parseExpression_err _ _ _ hr]
  | ok right =>
  cases hw : parseExpression 2 false false weight with
  | error e => simp only [parseExpression_err _ _ _ hw]
  | ok w =>
  have hch : ∀ e, einmixChecks left right w weight = .error e → e = .einops := by
    intro e h
    unfold einmixChecks at h
    split_ifs at h <;> cases h <;> rfl
  cases hc' : einmixChecks left right w weight with
  | error e => simp only [hc', hch e hc']
  | ok x =>
  obtain ⟨G', hG', halone, hgood, rfl⟩ := (parse_nodots 0 false false hd hT left).1 hl
  cases toks_inj (hG.symm.trans hG')
  suffices hmk : (makeRearrange so (preReshape l { describe 0 G with hasEllipsis := false } kw) : Py (Option (Layer α))) =
      .error .einops by
    simp only [hc', hmk]
  have hns : hasNonSingle (denote 0 0 G) = true := nonSingle_iff.2 hc
  have hpre : preReshape l { describe 0 G with hasEllipsis := false } kw =
      some (l ++ ['-', '>', ' '] ++ List.intercalate [' '] (flatNames (denote 0 0 G)),
        kw.filter (fun p => decide (p.1 ∈ flatNames (denote 0 0 G)))) := if_pos hns
  simp only [hpre, makeRearrange]
  have hstr : ∀ v, Axis.str v ∈ (denote 0 0 G).flatMap CompAxis.axes → v = ellipsisStr ∨ IsName false v := by
    intro v hv
    rw [denote_axes] at hv
    obtain ⟨w, hw', ⟨_, e1⟩ | ⟨h1, h2, e1⟩⟩ := str_mem_wordsAxes.1 hv
    · exact .inl e1
    · subst e1
      rcases hgood.1 v hw' with h | ⟨h, _⟩ | h
      · exact absurd h h1
      · exact absurd h h2
      · exact .inr h
  have hnames : ¬ arrow <:+: ' ' :: List.intercalate [' '] (flatNames (denote 0 0 G)) := by
    rw [show ∀ s : Str, ' ' :: s = [' '] ++ s from fun _ => rfl, arrow_skip (by decide),
      arrow_intercalate (by decide) (by decide) (by decide)]
    rintro ⟨s, hs, ha⟩
    obtain ⟨a, ha', rfl⟩ := List.mem_map.1 hs
    cases a with
    | anon _ _ _ => simp [arrow] at ha
    | str v =>
      simp only at ha
      split at ha
      · revert ha; decide
      · rename_i hne
        exact isName_no_arrow ((hstr v ha').resolve_left hne) ha
  have hdots : '.' ∈ ' ' :: List.intercalate [' '] (flatNames (denote 0 0 G)) := by
    have h1 : Tok.word mark ∈ T := by
      have : '…' ∈ tokChars T := by
        rw [← List.count_pos_iff, ← hT.count_char '…' (by decide), List.count_pos_iff]
        exact hm
      obtain ⟨v, hv, hc⟩ := mem_tokChars_iff.1 this
      rw [halone v hv hc] at hv
      exact hv
    have h2 : dots ∈ sideWords G := by
      refine mem_toks_words.1 ?_
      rw [← hG]
      exact List.mem_map.2 ⟨_, h1, by simp [Tok.put]⟩
    have h3 : dots ∈ flatNames (denote 0 0 G) := by
      refine List.mem_map.2 ⟨.str ellipsisStr, ?_, by simp [dots]⟩
      rw [denote_axes]
      exact str_mem_wordsAxes.2 ⟨dots, h2, .inl ⟨rfl, rfl⟩⟩
    refine List.mem_cons_of_mem _ ?_
    have : ∀ parts : List Str, dots ∈ parts → '.' ∈ List.intercalate [' '] parts := by
      intro parts
      induction parts with
      | nil => simp
      | cons q qs ih =>
        intro hm
        cases qs with
        | nil => simp at hm; subst hm; simp [List.intercalate, dots]
        | cons q' qs =>
          rw [intercalate_cons2]
          rcases List.mem_cons.1 hm with rfl | hm
          · simp [dots]
          · simp [ih hm]
    exact this _ h3
  obtain ⟨TR, hTR⟩ := lexes_exists (' ' :: List.intercalate [' '] (flatNames (denote 0 0 G)))
  have hprep := fun so' names ndim => prepare_marker (so := so') (op := .name "rearrange".toList) (names := names) (ndim := ndim)
    hT hTR hal hnames (.inl hm) (fun h => h.2.1 hdots) (fun h => hd h.1)
  have happ : l ++ ['-', '>', ' '] ++ List.intercalate [' '] (flatNames (denote 0 0 G)) =
    l ++ arrow ++ (' ' :: List.intercalate [' '] (flatNames (denote 0 0 G))) := by simp [arrow]
  rw [happ]
  unfold rearrangeLayer reduceLayer prepareAllDims
  rw [splitArrow_iff.2 ⟨rfl, hal, hnames⟩]
  simp only [hl, layerDims, Reduction.kind]
  simp only [describe, Bool.false_eq_true, if_false, mapE, hprep]

theorem marker_identifier (side : Nat) {s : Str} (hm : '…' ∈ s) {e : ParsedExpression}
    (h : parseExpression side false false s = .ok e) : Axis.str ellipsisStr ∈ e.identifiers := by
  by_cases hd : '.' ∈ s
  · rw [parse_both side hd hm] at h; cases h
  obtain ⟨T, hT⟩ := lexes_exists s
  obtain ⟨G, hG, halone, _, rfl⟩ := (parse_nodots side false false hd hT e).1 h
  have h1 : Tok.word mark ∈ T := by
    have : '…' ∈ tokChars T := by
      rw [← List.count_pos_iff, ← hT.count_char '…' (by decide), List.count_pos_iff]
      exact hm
    obtain ⟨v, hv, hc⟩ := mem_tokChars_iff.1 this
    rw [halone v hv hc] at hv
    exact hv
  have h2 : dots ∈ sideWords G := by
    refine mem_toks_words.1 ?_
    rw [← hG]
    exact List.mem_map.2 ⟨_, h1, by simp [Tok.put]⟩
  exact (mem_foldl_setAdd _ _ _).2 (.inr (str_mem_wordsAxes.2 ⟨dots, h2, .inl ⟨rfl, rfl⟩⟩))

/-- '…' in the weight or in the bias has no length -/
theorem makeEinMix_sizeless {pattern weight : Str} {bias : Option Str} {kw : List (Str × Size)}
    (he : ellipsisStr ∉ kw.map Prod.fst) (h : '…' ∈ weight ∨ ∃ s, bias = some s ∧ '…' ∈ s) (so : Nat → SetOrder)
    (m : EinMix α) : makeEinMix so pattern weight bias kw ≠ .ok m := by
  intro hm
  unfold makeEinMix at hm
  cases hp : einmixPlan pattern weight kw with
  | error e => rw [hp] at hm; cases hm
  | ok p =>
  rw [hp] at hm
  simp only at hm
  cases h1 : (makeRearrange so p.pre : Py (Option (Layer α))) with
  | error e => rw [h1] at hm; cases hm
  | ok pre =>
  rw [h1] at hm
  simp only at hm
  cases h2 : (makeRearrange so (p.post.map (fun s => (s, []))) : Py (Option (Layer α))) with
  | error e => rw [h2] at hm; cases hm
  | ok post =>
  rw [h2] at hm
  simp only at hm
  cases h3 : einmixSizes p.left p.right p.weight kw with
  | error e => rw [h3] at hm; cases hm
  | ok _ =>
  rw [h3] at hm
  simp only at hm
  cases h4 : einmixWeight p.right p.weight kw with
  | error e => rw [h4] at hm; cases hm
  | ok wf =>
  rw [h4] at hm
  simp only at hm
  cases h5 : einmixBias p.right kw bias with
  | error e => rw [h5] at hm; cases hm
  | ok b =>
  have hno : hasSize kw (.str ellipsisStr) = false := decide_eq_false he
  rcases h with hw | ⟨s, rfl, hs⟩
  · have hpw : parseExpression 2 false false weight = .ok p.weight := by
      unfold einmixPlan at hp
      cases a1 : splitArrow pattern with
      | error e => rw [a1] at hp; cases hp
      | ok lr =>
      rw [a1] at hp
      simp only at hp
      cases a2 : parseExpression 0 false false lr.1 with
      | error e => rw [a2] at hp; cases hp
      | ok left =>
      rw [a2] at hp
      simp only at hp
      cases a3 : parseExpression 1 false false lr.2 with
      | error e => rw [a3] at hp; cases hp
      | ok right =>
      rw [a3] at hp
      simp only at hp
      cases a4 : parseExpression 2 false false weight with
      | error e => rw [a4] at hp; cases hp
      | ok w =>
      rw [a4] at hp
      simp only at hp
      split at hp
      · cases hp
      · cases hp; rfl
    have hid := marker_identifier 2 hw hpw
    unfold einmixSizes at h3
    rw [if_pos (List.any_eq_true.2 ⟨_, hid, by simp [hno]⟩)] at h3
    cases h3
  · unfold einmixBias at h5
    cases hb : parseExpression 3 false false s with
    | error e => simp [hb] at h5
    | ok pb =>
      have hid := marker_identifier 3 hs hb
      simp only [hb] at h5
      split at h5
      · cases h5
      · rw [if_pos (List.any_eq_true.2 ⟨_, hid, by simp [hno]⟩)] at h5
        cases h5

end

end

end Einops
