import Verif.Proofs.Marker
import Verif.Props.Operations

/-!
# C64: the character '…' in a pattern

`'...'` is the ellipsis; the parser replaces it by the character '…' (parsing.py:54-57), which it does not refuse when the
pattern itself contains it.  Without `'...'` in the pattern, '…' is the name of one axis, to which no length can be given.
On the right of a pattern with `'...'` on the left it is the ellipsis, but only for tensors where the ellipsis stands for no
axes.  Everything else is refused.
-/

namespace Einops

universe u

section
variable {α : Type u} [PyUnicode] {E : ElemOps α} {b : Backend α} {l r l' r' n : Str} {TL TR : List Tok} {GL : List Elem}

/-- **C64** without `'...'` in the pattern, the word '…' may be replaced by any new name: the outcome is the same. -/
theorem C64_name (hn : IsName false n) (hl : Lexes l TL) (hr : Lexes r TR) (hl' : Lexes l' (TL.map (Tok.put n)))
    (hr' : Lexes r' (TR.map (Tok.put n))) (hal : ¬ arrow <:+: l) (har : ¬ arrow <:+: r) (dl : '.' ∉ l) (dr : '.' ∉ r)
    (aL : Alone TL) (aR : Alone TR) (fL : Tok.word n ∉ TL) (fR : Tok.word n ∉ TR)
    {kw : List (Str × Size)} (hnd : (kw.map Prod.fst).Nodup) (hkw : n ∉ kw.map Prod.fst) (b : Backend α)
    (so so' : SetOrder) (t : Input α) (red : Reduction α) :
    reduce b so t (l ++ arrow ++ r) red kw = reduce b so' t (l' ++ arrow ++ r') red kw :=
  reduce_input b t (fun x => reduce_name hn hl hr hl' hr' hal har dl dr aL aR fL fR hnd hkw b so so' x red)

/-- **C64** a length for '…' is refused, whatever the pattern. -/
theorem C64_keyword {kw : List (Str × Size)} (hm : mark ∈ kw.map Prod.fst) (hal : ¬ arrow <:+: l) (har : ¬ arrow <:+: r)
    (so : SetOrder) (x : Tensor α) (red : Reduction α) :
    reduce b so (.one x) (l ++ arrow ++ r) red kw = .error .einops := by
  simp only [reduce, resolveInput]
  rw [prepare_bad_keyword (splitArrow_iff.2 ⟨rfl, hal, har⟩) hm mark_not_name]

/-- **C64** with `'...'` on the left, '…' on the right is the ellipsis for a tensor with as many axes as the other
components of the left side. -/
theorem C64_ellipsis_none (hL : IsSide false false l GL) (hd : dots ∈ sideWords GL) (hr : Lexes r TR) (dr : '.' ∉ r)
    (har : ¬ arrow <:+: r) (aR : Alone TR) (hr' : Lexes r' (TR.map (Tok.put dots)))
    {kw : List (Str × Size)} (hnd : (kw.map Prod.fst).Nodup) (b : Backend α) (so so' : SetOrder) (x : Tensor α)
    (hx : x.ndim + 1 = GL.length) (red : Reduction α) :
    reduce b so (.one x) (l ++ arrow ++ r) red kw = reduce b so' (.one x) (l ++ arrow ++ r') red kw :=
  reduce_mixed_none hL hd hr dr har aR hr' hnd b so so' x hx red

/-- **C64** for any other tensor such a call returns nothing. -/
theorem C64_ellipsis_some (hb : Modelled E b) (hL : IsSide false false l GL) (hd : dots ∈ sideWords GL) (hr : Lexes r TR)
    (dr : '.' ∉ r) (har : ¬ arrow <:+: r) (aR : Alone TR) (hm : Tok.word mark ∈ TR)
    {kw : List (Str × Size)} (hnd : (kw.map Prod.fst).Nodup) (so : SetOrder) (x : Tensor α) (hx : x.ndim + 1 ≠ GL.length)
    (red : Reduction α) : ∃ e, reduce b so (.one x) (l ++ arrow ++ r) red kw = .error e := by
  cases h : reduce b so (.one x) (l ++ arrow ++ r) red kw with
  | error e => exact ⟨e, rfl⟩
  | ok y => exact absurd h (reduce_mixed_some hL hd hr dr har aR hm hnd hb.lawful so x hx red y)

/-- **C64** every other pattern with '…' is refused: glued to other characters, beside `'...'` on the same side, or on the
left of a pattern with `'...'` on the right. -/
theorem C64_refused (hl : Lexes l TL) (hr : Lexes r TR) (hal : ¬ arrow <:+: l) (har : ¬ arrow <:+: r)
    (hm : '…' ∈ l ∨ '…' ∈ r)
    (h : ('…' ∈ l ∧ ('.' ∈ l ∨ '.' ∈ r)) ∨ ('…' ∈ r ∧ '.' ∈ r) ∨ ¬ Alone TL ∨ ¬ Alone TR)
    (so : SetOrder) (x : Tensor α) (red : Reduction α) (kw : List (Str × Size)) :
    reduce b so (.one x) (l ++ arrow ++ r) red kw = .error .einops := by
  simp only [reduce, resolveInput]
  rw [prepare_marker hl hr hal har hm (by tauto) (by
    rintro ⟨h1, h2, h3, h4⟩
    have hT : Alone TL := fun w hw hm => absurd (hl.chars (mem_tokChars_iff.2 ⟨w, hw, hm⟩)) h2
    tauto)]

/-- **C64** so '…' adds nothing: what is returned for a pattern with '…' is returned for a pattern without. -/
theorem C64_returns (hb : Modelled E b) {pattern : Str} {kw : List (Str × Size)}
    (hnd : (kw.map Prod.fst).Nodup) (so : SetOrder) (t : Input α) (red : Reduction α) (y : Tensor α)
    (h : reduce b so t pattern red kw = .ok y) :
    ∃ pattern', '…' ∉ pattern' ∧ ∀ so', reduce b so' t pattern' red kw = .ok y := by
  by_cases hell : '…' ∈ pattern
  swap
  · exact ⟨pattern, hell, fun so' => by rw [← h]; exact C08_hash_order hell hnd b t red so' so⟩
  cases hi : resolveInput b t with
  | error e => simp [reduce, hi] at h
  | ok x =>
  have hone : ∀ so pattern, reduce b so t pattern red kw = reduce b so (.one x) pattern red kw := by
    intro so pattern; simp only [reduce, hi]; rfl
  simp only [hone] at h ⊢
  rcases hs : splitArrow pattern with e | ⟨l, r⟩
  · simp [reduce, resolveInput, prepareRecipe, hs] at h
  obtain ⟨rfl, hal, har⟩ := splitArrow_iff.1 hs
  obtain ⟨TL, hl⟩ := lexes_exists l
  obtain ⟨TR, hr⟩ := lexes_exists r
  have hm : '…' ∈ l ∨ '…' ∈ r := by
    simp only [List.mem_append, arrow] at hell
    rcases hell with (h | h) | h
    · exact .inl h
    · exact absurd h (by decide)
    · exact .inr h
  have hno : ¬ (('…' ∈ l ∧ ('.' ∈ l ∨ '.' ∈ r)) ∨ ('…' ∈ r ∧ '.' ∈ r) ∨ ¬ Alone TL ∨ ¬ Alone TR) := by
    intro hc
    rw [C64_refused hl hr hal har hm hc] at h; cases h
  push Not at hno
  obtain ⟨c1, c2, aL, aR⟩ := hno
  have dr : '.' ∉ r := fun hd => by
    rcases hm with hm | hm
    · exact (c1 hm).2 hd
    · exact c2 hm hd
  have hmem : ∀ {s s' m : Str} {T : List Tok}, '…' ∉ m → Lexes s T → Lexes s' (T.map (Tok.put m)) → Alone T → '…' ∉ s' := by
    intro s s' m T hm hs hs' hT
    rw [hs'.mem_iff (by decide), put_no_mark hm]
    exact hT
  by_cases dl : '.' ∈ l
  · have hml : '…' ∉ l := fun hm => (c1 hm).1 dl
    have hmr := hm.resolve_left hml
    have hw : Tok.word mark ∈ TR := by
      obtain ⟨w, hw, hc⟩ := mem_tokChars_iff.1 ((hr.mem_iff (by decide)).1 hmr)
      rwa [aR w hw hc] at hw
    rcases hpl : parseExpression 0 false false l with e | pl
    · simp only [reduce, resolveInput, prepareRecipe, hs, hpl] at h; cases h
    obtain ⟨GL, hL, hpe⟩ := (parseExpression_iff 0 false false l hml pl).1 hpl
    have hd : dots ∈ sideWords GL := by
      have := (parse_hasEllipsis 0 hpl).2 dl
      rw [hpe] at this
      simpa [describe, sideWords] using this
    by_cases hx : x.ndim + 1 = GL.length
    · obtain ⟨r', hr'⟩ := put_lexes hr (n := dots) (by decide) (by decide)
      refine ⟨l ++ arrow ++ r', ?_, fun so' => ?_⟩
      · have := hmem (by decide) hr hr' aR
        simp only [List.mem_append, not_or]
        exact ⟨⟨hml, by decide⟩, this⟩
      · rw [← h]; exact (C64_ellipsis_none hL hd hr dr har aR hr' hnd b so so' x hx red).symm
    · obtain ⟨e, he⟩ := C64_ellipsis_some hb hL hd hr dr har aR hw hnd so x hx red
      rw [he] at h; cases h
  · obtain ⟨n, hn, hf⟩ := exists_fresh (kw.map Prod.fst ++ (TL ++ TR).filterMap (fun t => match t with | .word w => some w | _ => none))
    simp only [List.mem_append, List.mem_filterMap, not_or, not_exists, not_and] at hf
    have hsep : ∀ c ∈ n, ¬ isSep c := by
      rintro c hc (rfl | rfl | rfl) <;> rcases hn.1 _ hc with h | h <;>
        first
        | (rw [PyUnicode.special_not_alnum _ (by decide)] at h; cases h)
        | cases h
    have hmn : '…' ∉ n := by
      intro hc
      rcases hn.1 _ hc with h | h
      · rw [PyUnicode.special_not_alnum _ (by decide)] at h; cases h
      · cases h
    have hne : n ≠ [] := by
      obtain ⟨_, ⟨c, cs, rfl, _⟩, _⟩ := hn
      simp
    obtain ⟨l', hl'⟩ := put_lexes hl hne hsep
    obtain ⟨r', hr'⟩ := put_lexes hr hne hsep
    refine ⟨l' ++ arrow ++ r', ?_, fun so' => ?_⟩
    · have h1 := hmem hmn hl hl' aL
      have h2 := hmem hmn hr hr' aR
      simp only [List.mem_append, not_or]
      exact ⟨⟨h1, by decide⟩, h2⟩
    · rw [← h]
      exact (reduce_name hn hl hr hl' hr' hal har dl dr aL aR (fun hw => hf.2 _ (.inl hw) rfl)
        (fun hw => hf.2 _ (.inr hw) rfl) hnd hf.1 b so so' x red).symm

end

section
attribute [local instance] asciiUnicode

/-- the tokens of a side with two words -/
theorem lexes_two {v w : Str} (h1 : v ≠ []) (h2 : ∀ c ∈ v, ¬ isSep c) (h3 : w ≠ []) (h4 : ∀ c ∈ w, ¬ isSep c) :
    Lexes (v ++ ' ' :: w) [.word v, .word w] := by
  have h : Lexes (w ++ []) [.word w] := .word h3 h4 (by simp) .nil
  rw [List.append_nil] at h
  exact .word h1 h2 (by simp [isSep]) (.space h)

theorem alone_two {v w : Str} (h1 : '…' ∈ v → v = mark) (h2 : '…' ∈ w → w = mark) : Alone [.word v, .word w] := by
  intro u hu
  simp only [List.mem_cons, List.not_mem_nil, or_false, Tok.word.injEq] at hu
  rcases hu with rfl | rfl <;> assumption

-- C64_name: '…' is the second axis
example (so so' : SetOrder) : rearrange (numpyBackend intOps true) so (.one t23) "a …->… a".toList [] =
    rearrange (numpyBackend intOps true) so' (.one t23) "a z->z a".toList [] :=
  C64_name (n := "z".toList) (l := "a …".toList) (r := "… a".toList) (l' := "a z".toList) (r' := "z a".toList)
    (TL := [.word "a".toList, .word mark]) (TR := [.word mark, .word "a".toList])
    (by decide) (lexes_two (v := "a".toList) (w := mark) (by decide) (by decide) (by decide) (by decide))
    (lexes_two (v := mark) (w := "a".toList) (by decide) (by decide) (by decide) (by decide))
    (lexes_two (v := "a".toList) (w := "z".toList) (by decide) (by decide) (by decide) (by decide))
    (lexes_two (v := "z".toList) (w := "a".toList) (by decide) (by decide) (by decide) (by decide))
    (by decide) (by decide) (by decide) (by decide) (alone_two (by decide) (by decide)) (alone_two (by decide) (by decide))
    (by decide) (by decide) (by decide) (by decide) _ so so' _ _
example : (rearrange (numpyBackend intOps true) idOrder (.one t23) "a … -> … a".toList []).map Tensor.shape = .ok [3, 2] := by
  decide +kernel
-- unlike an ellipsis, it stands for exactly one axis
example : (rearrange (numpyBackend intOps true) idOrder (.one t23) "a ... -> ... a".toList []).map Tensor.shape = .ok [3, 2] := by
  decide +kernel
example : rearrange (numpyBackend intOps true) idOrder (.one t23) "… -> …".toList [] = .error .einops := by decide +kernel
example : (rearrange (numpyBackend intOps true) idOrder (.one t23) "... -> ...".toList []).map Tensor.shape = .ok [2, 3] := by
  decide +kernel
-- an ellipsis may be left out by a reduction, and so may an axis
example : (reduce (numpyBackend intOps true) idOrder (.one t23) "a … -> a".toList (.name "sum".toList) []).map Tensor.shape =
    .ok [2] := by decide +kernel
-- C64_keyword
example : rearrange (numpyBackend intOps true) idOrder (.one t23) "a … -> … a".toList [("…".toList, ⟨3, true⟩)] =
    .error .einops :=
  C64_keyword (l := "a … ".toList) (r := " … a".toList) (by decide) (by decide) (by decide) _ _ _
-- C64_ellipsis_none
example : (rearrange (numpyBackend intOps true) idOrder (.one t23) "a b ... -> b … a".toList []).map Tensor.shape = .ok [3, 2] := by
  decide +kernel
-- C64_ellipsis_some
example : rearrange (numpyBackend intOps true) idOrder (.one t23) "a ... -> … a".toList [] = .error .backend := by
  decide +kernel
-- C64_refused
example : rearrange (numpyBackend intOps true) idOrder (.one t23) "a … -> ... a".toList [] = .error .einops := by
  decide +kernel
example : rearrange (numpyBackend intOps true) idOrder (.one t23) "a b… -> b… a".toList [] = .error .einops := by
  decide +kernel
example : rearrange (numpyBackend intOps true) idOrder (.one t23) "a b … ... -> b a".toList [] = .error .einops := by
  decide +kernel

end

end Einops
