import Verif.Proofs.MarkerOthers
import Verif.Packing

/-!
# C88: the character '…' in `parse_shape`, `pack`, `unpack`, `einsum` and `EinMix`

C64 is about `rearrange`, `reduce` and `repeat`.  The parser that all functions but `pack` and `unpack` share does not refuse
the character '…', which it uses for `'...'` itself.  Each function then treats it in its own way: `parse_shape` as a name,
`einsum` as the ellipsis, `EinMix` as the ellipsis unless axes of the input are composed.
-/

namespace Einops

universe u

section
variable {α : Type u} [PyUnicode]

/-- **C88** `parse_shape`: without dots, the word '…' is the name of one axis; with any new name in its place the outcome is
the same, the length being reported under that name. -/
theorem C88_shape_name {s s' n : Str} {T : List Tok} (hn : IsName false n) (hT : Lexes s T)
    (hT' : Lexes s' (T.map (Tok.put n))) (hdot : '.' ∉ s) (ha : Alone T) (hfresh : Tok.word n ∉ T) (shape : List Nat) :
    parseShape shape s' =
      (parseShape shape s).map (List.map (fun p => (if p.1 = mark then n else p.1, p.2))) :=
  parseShape_name hn hT hT' hdot ha hfresh shape

/-- **C88** `parse_shape` refuses '…' beside dots or glued to other characters. -/
theorem C88_shape_refused {s : Str} {T : List Tok} (hT : Lexes s T) (hm : '…' ∈ s) (h : '.' ∈ s ∨ ¬ Alone T)
    (shape : List Nat) : parseShape shape s = .error .einops :=
  parseShape_refused hT hm h shape

/-- **C88** `einsum`: a '…' may be written `...` in any of the inputs and in the output, and the outcome is the same. -/
theorem C88_einsum {ins ins' : List Str} {r r' : Str} (h : List.Forall₂ Respells ins ins') (hr : Respells r r')
    (hne : ins ≠ []) (hc : ∀ s ∈ ins, ',' ∉ s) (ha : ∀ s ∈ ins, ¬ arrow <:+: s) (har : ¬ arrow <:+: r)
    (f : Str → List (Tensor α) → Py (Tensor α)) (xs : List (EinsumArg α)) :
    einsum f (xs ++ [.str (List.intercalate [','] ins ++ arrow ++ r)]) =
      einsum f (xs ++ [.str (List.intercalate [','] ins' ++ arrow ++ r')]) := by
  unfold einsum
  simp only [List.getLast?_append, List.getLast?_singleton, Option.some_or, List.dropLast_concat, List.length_append,
    List.length_singleton, compactify_respells h hr hne hc ha har]

/-- **C88** `einsum` refuses '…' glued to other characters. -/
theorem C88_einsum_glued {ins : List Str} {r : Str} (hne : ins ≠ []) (hc : ∀ s ∈ ins, ',' ∉ s)
    (ha : ∀ s ∈ ins, ¬ arrow <:+: s) (har : ¬ arrow <:+: r) {s : Str} {T : List Tok} (hs : s ∈ ins ∨ s = r)
    (hd : '.' ∉ s) (hT : Lexes s T) (hg : ¬ Alone T) (f : Str → List (Tensor α) → Py (Tensor α)) {xs : List (EinsumArg α)}
    (hx : xs ≠ []) : einsum f (xs ++ [.str (List.intercalate [','] ins ++ arrow ++ r)]) = .error .einops := by
  have hlen : ¬ (xs ++ [EinsumArg.str (List.intercalate [','] ins ++ arrow ++ r)]).length ≤ 1 := by
    cases xs with
    | nil => exact absurd rfl hx
    | cons _ _ => simp
  unfold einsum
  rw [if_neg hlen]
  simp only [List.getLast?_append, List.getLast?_singleton, Option.some_or, compactify_glued hne hc ha har hs hd hT hg]

/-- **C88** `pack` refuses '…', whatever the tensors. -/
theorem C88_pack {pattern : Str} (hm : '…' ∈ pattern) (ops : PackOps α) (xs : List (Tensor α)) :
    pack ops xs pattern = .error .einops := by
  unfold pack
  rw [analyzePattern_marker hm]

/-- **C88** `unpack` refuses '…', whatever the tensor and the shapes. -/
theorem C88_unpack {pattern : Str} (hm : '…' ∈ pattern) (ops : PackOps α) (x : Tensor α) (ps : List (List Int)) :
    unpack ops x ps pattern = .error .einops := by
  unfold unpack
  rw [analyzePattern_marker hm]

/-- **C88** `EinMix`: where both sides consist of names and a '…', the two '…' may be written `...`; the layer is the same. -/
theorem C88_einmix {p q p' q' : Str} (hp : '.' ∉ p) (hq : '.' ∉ q) (hp' : '.' ∉ p') (hq' : '.' ∉ q')
    {TL TR : List Tok} (hL : Lexes (p ++ mark ++ q) TL) (hR : Lexes (p' ++ mark ++ q') TR) (fL : Flat TL) (fR : Flat TR)
    (hal : ¬ arrow <:+: p ++ mark ++ q) (har : ¬ arrow <:+: p' ++ mark ++ q') (so : Nat → SetOrder) (weight : Str)
    (bias : Option Str) (kw : List (Str × Size)) :
    (makeEinMix so (p ++ mark ++ q ++ arrow ++ (p' ++ mark ++ q')) weight bias kw : Py (EinMix α)) =
      makeEinMix so (p ++ dots ++ q ++ arrow ++ (p' ++ dots ++ q')) weight bias kw :=
  makeEinMix_respelled hp hq hp' hq' hL hR fL fR hal har so weight bias kw

/-- **C88** `EinMix` refuses '…' in an input where some element is not one axis: a unit, or parentheses with any other number
of axes than one. -/
theorem C88_einmix_refused {l r : Str} {T : List Tok} (hT : Lexes l T) (hm : '…' ∈ l) (hd : '.' ∉ l)
    (hal : ¬ arrow <:+: l) (har : ¬ arrow <:+: r) {G : List Elem} (hG : T.map (Tok.put dots) = G.flatMap Elem.toks)
    (hc : ∃ e ∈ G, e.core.length ≠ 1) (so : Nat → SetOrder) (weight : Str) (bias : Option Str) (kw : List (Str × Size)) :
    (makeEinMix so (l ++ arrow ++ r) weight bias kw : Py (EinMix α)) = .error .einops :=
  makeEinMix_refused hT hm hd hal har hG hc so weight bias kw

/-- **C88** no layer has '…' in its weight or bias, unless a length for '…' is given. -/
theorem C88_einmix_sizeless {pattern weight : Str} {bias : Option Str} {kw : List (Str × Size)}
    (he : mark ∉ kw.map Prod.fst) (h : '…' ∈ weight ∨ ∃ s, bias = some s ∧ '…' ∈ s) (so : Nat → SetOrder) (m : EinMix α) :
    makeEinMix so pattern weight bias kw ≠ .ok m :=
  makeEinMix_sizeless he h so m

end

section
attribute [local instance] asciiUnicode

-- a name in `parse_shape`, reported under the key '…'
example : parseShape [2, 3] "… b".toList = .ok [("…".toList, 2), ("b".toList, 3)] ∧
    parseShape [2, 3] "a b".toList = .ok [("a".toList, 2), ("b".toList, 3)] ∧
    parseShape [2, 3, 4] "… b".toList = .error .runtime ∧ parseShape [2, 3] "… ...".toList = .error .einops ∧
    parseShape [2, 3] "…b a".toList = .error .einops := by decide +kernel
example : IsName false "a".toList ∧ Lexes "… b".toList [.word mark, .word "b".toList] ∧
    Lexes "a b".toList ([Tok.word mark, .word "b".toList].map (Tok.put "a".toList)) ∧ '.' ∉ "… b".toList ∧
    Tok.word "a".toList ∉ [Tok.word mark, .word "b".toList] := by
  refine ⟨by decide +kernel, ?_, ?_, by decide, by decide⟩
  · exact .word (w := mark) (by decide) (by decide) (by decide) (.space (.word (w := ['b']) (by decide) (by decide) (by decide) .nil))
  · exact .word (w := ['a']) (by decide) (by decide) (by decide) (.space (.word (w := ['b']) (by decide) (by decide) (by decide) .nil))

-- the ellipsis in `einsum`; two of them in one input reach the framework, where `...` twice is refused
example : compactify "… a, a b -> … b".toList = .ok "...a,ab->...b".toList ∧
    compactify "... a, a b -> … b".toList = .ok "...a,ab->...b".toList ∧
    compactify "… … a, a b -> b".toList = .ok "......a,ab->b".toList ∧
    compactify "... ... a, a b -> b".toList = .error .einops ∧
    compactify "… a, a b -> … … b".toList = .error .einops ∧
    compactify "…a, a b -> b".toList = .error .einops := by decide +kernel
example : List.Forall₂ Respells ["… a".toList, "a b".toList] ["... a".toList, "a b".toList] ∧
    Respells " … b".toList " ... b".toList :=
  ⟨.cons (.inr ⟨[], " a".toList, by decide, by decide, rfl, rfl⟩) (.cons (.inl rfl) .nil),
    .inr ⟨" ".toList, " b".toList, by decide, by decide, rfl, rfl⟩⟩

-- `pack` and `unpack`
example : pack numpyPack [(⟨[2], [1, 2], rfl⟩ : Tensor Int)] "* …".toList = .error .einops ∧
    analyzePattern "* a".toList = .ok (0, 1, 1) := by decide +kernel

-- the ellipsis in `EinMix`
example : (makeEinMix (fun _ => idOrder) "… a -> … b".toList "a b".toList none [kwInt "a" 2, kwInt "b" 3] : Py (EinMix Int)).map
      (fun m => (m.einsumPattern, m.weightShape, m.pre.isSome, m.post.isSome)) =
    .ok ("...a,ab->...b".toList, [2, 3], false, false) := by rfl
example : (makeEinMix (fun _ => idOrder) "… (a c) -> … b".toList "a b".toList none [kwInt "a" 2, kwInt "b" 3] :
    Py (EinMix Int)) = .error .einops := by rfl
example : (makeEinMix (fun _ => idOrder) "... (a c) -> ... b".toList "a b".toList none [kwInt "a" 2, kwInt "b" 3] :
    Py (EinMix Int)).map (fun m => m.einsumPattern) = .ok "...ac,ab->...b".toList := by rfl
example : Flat [Tok.word mark, .word "a".toList] := by
  intro t ht
  simp only [List.mem_cons, List.not_mem_nil, or_false] at ht
  rcases ht with rfl | rfl
  · exact ⟨mark, rfl, by decide +kernel⟩
  · exact ⟨_, rfl, by decide +kernel⟩
-- with a length for '…' it may even be in the weight
example : (makeEinMix (fun _ => idOrder) "… a -> … b".toList "… a b".toList none [kwInt "…" 4, kwInt "a" 2, kwInt "b" 3] :
    Py (EinMix Int)).map (fun m => (m.einsumPattern, m.weightShape)) = .ok ("...a,...ab->...b".toList, [4, 2, 3]) := by rfl
-- on the left only it passes the check that `...` does not
example : (makeEinMix (fun _ => idOrder) "… a -> b".toList "a b".toList none [kwInt "a" 2, kwInt "b" 3] :
    Py (EinMix Int)).map (fun m => m.einsumPattern) = .ok "...a,ab->b".toList ∧
    (makeEinMix (fun _ => idOrder) "... a -> b".toList "a b".toList none [kwInt "a" 2, kwInt "b" 3] : Py (EinMix Int)) =
      .error .einops := ⟨by rfl, by rfl⟩

end

end Einops
