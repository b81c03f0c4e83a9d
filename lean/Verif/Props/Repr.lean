import Verif.Proofs.Repr
import Verif.Props.Config

/-!
# `repr` of a layer is an expression that rebuilds it
-/

namespace Einops

universe u

section
variable {α : Type u} [PyUnicode] {L : PyLang} {cls pattern weight : Str} {bias : Option Str} {kw kw' : List (Str × Size)}

theorem markExpected_names {names : List Str} : ∀ {d d' : List (Axis × Int)}, markExpected d names = .ok d' →
    ∀ n ∈ names, isIdentifier n = true := by
  induction names with
  | nil => intro d d' _ n hn; simp at hn
  | cons m ns ih =>
    intro d d' h n hn
    rw [markExpected] at h
    cases hc : checkAxisName false m with
    | false => rw [hc] at h; cases h
    | true =>
      rw [hc, if_neg (by decide)] at h
      cases hg : dictGet d (.str m) with
      | none => rw [hg] at h; cases h
      | some v =>
        rw [hg] at h
        rcases List.mem_cons.1 hn with rfl | hn
        · unfold checkAxisName at hc
          by_contra hi
          rw [if_pos (by simpa using hi)] at hc
          cases hc
        · exact ih h n hn

theorem prepareRecipe_names {so : SetOrder} {op : OpKind} {names : List Str} {d : Nat} {r : TransformRecipe}
    (h : prepareRecipe so pattern op names d = .ok r) : ∀ n ∈ names, isIdentifier n = true := by
  unfold prepareRecipe at h
  repeat' split at h
  all_goals try contradiction
  unfold buildRecipe at h
  simp only at h
  split at h
  · cases h
  · rename_i hm
    exact markExpected_names hm

theorem prepareAllDims_names {so : Nat → SetOrder} {op : OpKind} {names : List Str} {m : List (Nat × TransformRecipe)}
    (h : prepareAllDims so pattern op names = .ok m) : ∀ n ∈ names, isIdentifier n = true := by
  unfold prepareAllDims at h
  split at h
  · cases h
  split at h
  · cases h
  rename_i left _
  rcases hd : layerDims left with _ | ⟨d, ds⟩
  · obtain ⟨d, hm⟩ := layerDims_ne_nil left
    rw [hd] at hm
    cases hm
  rw [hd, mapE] at h
  cases hr : prepareRecipe (so d) pattern op names d with
  | error e => rw [hr] at h; cases h
  | ok r => exact prepareRecipe_names hr

theorem reduceLayer_names {so : Nat → SetOrder} {red : Reduction α} {l : Layer α}
    (h : reduceLayer so pattern red kw = .ok l) : ∀ p ∈ kw, isIdentifier p.1 = true := by
  obtain ⟨m, hm, -⟩ := reduceLayer_inv h
  exact fun p hp => prepareAllDims_names hm p.1 (List.mem_map_of_mem hp)

theorem sizes_back (h : ∀ p ∈ kw, p.2.isInt = true) :
    (plainSizes kw).map (fun q => (q.1, (⟨q.2, true⟩ : Size))) = kw := by
  rw [plainSizes, List.map_map]
  conv_rhs => rw [← List.map_id kw]
  apply List.map_congr_left
  rintro ⟨n, v, i⟩ hp
  have := h _ hp
  simp only at this
  subst this
  rfl

/-! ### What is read -/

/-- **C67** The `repr` of a `Rearrange` layer is read as a call of the class with the pattern and the sizes, whatever the
pattern is (also when the construction fails and the `repr` is only part of the message). -/
theorem C67_read_rearrange (hc : PlainName L cls) (hn : ∀ p ∈ kw, PlainName L p.1) (hkw : (kw.map Prod.fst).Nodup) :
    readCall L (reprRearrange L.printable cls pattern kw) =
      some ⟨cls, [pattern], kw.map (fun p => (p.1, p.2.val))⟩ :=
  read_reprRearrange hc pattern ⟨hn, hkw⟩

/-- **C67** The same for a `Reduce` layer whose reduction is given by name. -/
theorem C67_read_reduce {reduction : Str} (hc : PlainName L cls) (hn : ∀ p ∈ kw, PlainName L p.1)
    (hkw : (kw.map Prod.fst).Nodup) :
    readCall L (reprReduce L.printable cls pattern reduction kw) =
      some ⟨cls, [pattern, reduction], kw.map (fun p => (p.1, p.2.val))⟩ :=
  read_reprReduce hc pattern reduction ⟨hn, hkw⟩

/-! ### The layers are rebuilt -/

/-- **C67** Evaluating the `repr` of a `Rearrange` layer gives the same layer, in another process as well.  Excluded are
axes named like keywords and names that the parser of Python changes. -/
theorem C67_rearrange {so : Nat → SetOrder} {l : Layer α} (hell : '…' ∉ pattern) (hkw : (kw.map Prod.fst).Nodup)
    (hint : ∀ p ∈ kw, p.2.isInt = true) (hn : ∀ p ∈ kw, L.keyword p.1 = false ∧ L.nfkc p.1 = p.1)
    (hc : PlainName L cls) (h : pyRearrangeLayer so pattern kw = .ok l) (so' : Nat → SetOrder) :
    ∃ l', evalRearrange L cls so' (reprRearrange L.printable cls l.pattern l.axesLengths) = some (.ok l') ∧
      SameLayer l l' := by
  by_cases hav : Avoids ["self".toList, "pattern".toList] kw
  swap
  · rw [pyRearrangeLayer, bindRest_error hav] at h
    cases h
  rw [pyRearrangeLayer, bindRest_ok hav] at h
  obtain ⟨l', h1, h2⟩ := reduceLayer_order hell hkw h so'
  have hid := reduceLayer_names h
  obtain ⟨m, -, rfl⟩ := reduceLayer_inv h
  refine ⟨l', ?_, h2⟩
  unfold evalRearrange
  rw [read_reprRearrange hc pattern ⟨fun p hp => ⟨hid p hp, hn p hp⟩, hkw⟩]
  simp only
  rw [if_pos trivial, sizes_back hint, pyRearrangeLayer, bindRest_ok hav]
  exact congrArg some h1

/-- **C67** Evaluating the `repr` of a `Reduce` layer gives the same layer. -/
theorem C67_reduce {so : Nat → SetOrder} {l : Layer α} {reduction : Str} (hell : '…' ∉ pattern)
    (hkw : (kw.map Prod.fst).Nodup) (hint : ∀ p ∈ kw, p.2.isInt = true)
    (hn : ∀ p ∈ kw, L.keyword p.1 = false ∧ L.nfkc p.1 = p.1) (hc : PlainName L cls)
    (h : pyReduceLayer so pattern (.name reduction) kw = .ok l) (so' : Nat → SetOrder) :
    ∃ l', evalReduce L cls so' (reprReduce L.printable cls l.pattern reduction l.axesLengths) = some (.ok l') ∧
      SameLayer l l' := by
  by_cases hav : Avoids ["self".toList, "pattern".toList, "reduction".toList] kw
  swap
  · rw [pyReduceLayer, bindRest_error hav] at h
    cases h
  rw [pyReduceLayer, bindRest_ok hav] at h
  obtain ⟨l', h1, h2⟩ := reduceLayer_order hell hkw h so'
  have hid := reduceLayer_names h
  obtain ⟨m, -, rfl⟩ := reduceLayer_inv h
  refine ⟨l', ?_, h2⟩
  unfold evalReduce
  rw [read_reprReduce hc pattern reduction ⟨fun p hp => ⟨hid p hp, hn p hp⟩, hkw⟩]
  simp only
  rw [if_pos trivial, sizes_back hint, pyReduceLayer, bindRest_ok hav]
  exact congrArg some h1

theorem side_quotable (L : PyLang) {u d : Bool} {s : Str} {G : List Elem} (h : IsSide u d s G) :
    ∀ c ∈ s, c ≠ '\'' ∧ c ≠ '\\' ∧ c ≠ '\n' ∧ c ≠ '\r' := by
  intro c hc
  have key : c ∉ ['\'', '\\', '\n', '\r'] := by
    intro hm
    rcases isSide_chars h hc with hs | ⟨w, hw, hcw⟩
    · rcases hs with rfl | rfl | rfl <;> revert hm <;> decide
    · rcases wordOK_chars (h.words_ok w hw) hcw with h1 | rfl | rfl
      · rw [L.alnum c hm] at h1
        cases h1
      · revert hm; decide
      · revert hm; decide
  simp only [List.mem_cons, List.not_mem_nil, or_false, not_or] at key
  exact key

/-- the text of an `EinMix` layer that was constructed can be read -/
theorem einmix_readable {so : Nat → SetOrder} {m : EinMix α} (L : PyLang) (hp : '…' ∉ pattern) (hw : '…' ∉ weight)
    (hb : ∀ s, bias = some s → '…' ∉ s) (he : ellipsisStr ∉ kw.map Prod.fst) (hkw : (kw.map Prod.fst).Nodup)
    (hm : makeEinMix so pattern weight bias kw = .ok m) :
    (∀ p ∈ kw, isIdentifier p.1 = true) ∧ (∀ c ∈ weight, c ≠ '\'' ∧ c ≠ '\\' ∧ c ≠ '\n' ∧ c ≠ '\r') ∧
      ∀ b ∈ bias, ∀ c ∈ b, c ≠ '\'' ∧ c ≠ '\\' ∧ c ≠ '\n' ∧ c ≠ '\r' := by
  obtain ⟨GL, GR, GW, ⟨lp, rp, -, hl, -⟩, hwt, hs, -, hbl, -⟩ := made_of_ok he hw hb hkw hp hm
  refine ⟨?_, side_quotable L hwt, fun b hb' => ?_⟩
  · intro p hp
    have name : ∀ {s : Str} {G : List Elem}, IsSide false false s G → p.1 ∈ nameWords G → isIdentifier p.1 = true := by
      intro s G hG hmem
      obtain ⟨q1, q2, q3⟩ := mem_nameWords.1 hmem
      rcases hG.words_ok _ q1 with h | h | h
      · exact absurd h q3
      · exact absurd h.1 q2
      · exact isIdentifier_iff.2 h.2.1
    rcases hs.sizes_used _ (List.mem_map_of_mem hp) with h | h
    · exact name hl h
    · exact name hwt h
  · obtain ⟨GB, hGB, -⟩ := hbl b hb'
    exact side_quotable L hGB

/-- **C67** Evaluating the `repr` of an `EinMix` layer gives a layer with the same parameters and the same behaviour for
equal values of the parameters.  The shapes are written between quotes without escapes; the shapes of a layer that was
constructed contain nothing to escape. -/
theorem C67_einmix {so : Nat → SetOrder} {l : EinMixLayer α} (hp : '…' ∉ pattern) (hw : '…' ∉ weight)
    (hb : ∀ s, bias = some s → '…' ∉ s) (he : ellipsisStr ∉ kw.map Prod.fst) (hkw : (kw.map Prod.fst).Nodup)
    (hint : ∀ p ∈ kw, p.2.isInt = true) (hn : ∀ p ∈ kw, L.keyword p.1 = false ∧ L.nfkc p.1 = p.1)
    (hc : PlainName L cls) (h : pyEinMix so pattern weight bias kw = .ok l) (so' : Nat → SetOrder) :
    ∃ l', evalEinMix L cls so' (reprEinMix L.printable cls l.pattern l.weightShape l.biasShape l.axesLengths) =
      some (.ok l') ∧ SameMix l.mix l'.mix ∧ l'.pattern = l.pattern ∧ l'.weightShape = l.weightShape ∧
      l'.biasShape = l.biasShape ∧ l'.axesLengths = l.axesLengths := by
  by_cases hav : Avoids ["self".toList, "pattern".toList, "weight_shape".toList, "bias_shape".toList] kw
  swap
  · rw [pyEinMix, bindRest_error hav] at h
    cases h
  rw [pyEinMix, bindRest_ok hav] at h
  simp only at h
  cases hm : (makeEinMix so pattern weight bias kw : Py (EinMix α)) with
  | error e => rw [hm] at h; cases h
  | ok m =>
    rw [hm] at h
    cases h
    obtain ⟨m', h1, h2⟩ := makeEinMix_order hp hw hkw hm so'
    obtain ⟨hid, hq, hqb⟩ := einmix_readable L hp hw hb he hkw hm
    have h3 : pyEinMix so' pattern weight bias kw = .ok ⟨pattern, weight, bias, kw, m'⟩ := by
      rw [pyEinMix, bindRest_ok hav]
      simp only
      rw [h1]
    refine ⟨⟨pattern, weight, bias, kw, m'⟩, ?_, h2, rfl, rfl, rfl, rfl⟩
    unfold evalEinMix
    simp only
    rw [read_reprEinMix hc pattern ⟨fun p hp => ⟨hid p hp, hn p hp⟩, hkw⟩ hq hqb]
    cases bias with
    | none =>
      simp only [Option.toList_none]
      rw [if_pos trivial, sizes_back hint, h3]
    | some b =>
      simp only [Option.toList_some]
      rw [if_pos trivial, sizes_back hint, h3]

/-! ### Different layers have different `repr`s -/

/-- a language without keywords and without normal forms, for reading names of all kinds -/
def PyLang.lax (L : PyLang) : PyLang := { L with keyword := fun _ => false, nfkc := id }

/-- **C67** Two `Rearrange` layers with the same `repr` have the same pattern and the same sizes (no exceptions for names
here). -/
theorem C67_distinct_rearrange {so so' : Nat → SetOrder} {l l' : Layer α} {pattern' : Str} (L : PyLang)
    (hkw : (kw.map Prod.fst).Nodup) (hkw' : (kw'.map Prod.fst).Nodup) (hc : isIdentifier cls = true)
    (h : rearrangeLayer so pattern kw = .ok l) (h' : rearrangeLayer so' pattern' kw' = .ok l')
    (he : reprRearrange L.printable cls l.pattern l.axesLengths = reprRearrange L.printable cls l'.pattern l'.axesLengths) :
    pattern = pattern' ∧ kw.map (fun p => (p.1, p.2.val)) = kw'.map (fun p => (p.1, p.2.val)) := by
  have h1 := reduceLayer_names h
  have h2 := reduceLayer_names h'
  obtain ⟨m, -, rfl⟩ := reduceLayer_inv h
  obtain ⟨m', -, rfl⟩ := reduceLayer_inv h'
  have hcl : PlainName L.lax cls := ⟨hc, rfl, rfl⟩
  have r1 := read_reprRearrange hcl pattern (kw := kw) ⟨fun p hp => ⟨h1 p hp, rfl, rfl⟩, hkw⟩
  have r2 := read_reprRearrange hcl pattern' (kw := kw') ⟨fun p hp => ⟨h2 p hp, rfl, rfl⟩, hkw'⟩
  rw [show L.lax.printable = L.printable from rfl] at r1 r2
  simp only at he
  rw [he, r2] at r1
  simp only [Option.some.injEq, PyCall.mk.injEq, List.cons.injEq, and_true, true_and] at r1
  exact ⟨r1.1.symm, r1.2.symm⟩

/-- **C67** Two `Reduce` layers with the same `repr` have the same pattern, reduction and sizes. -/
theorem C67_distinct_reduce {so so' : Nat → SetOrder} {l l' : Layer α} {pattern' red red' : Str} (L : PyLang)
    (hkw : (kw.map Prod.fst).Nodup) (hkw' : (kw'.map Prod.fst).Nodup) (hc : isIdentifier cls = true)
    (h : reduceLayer so pattern (.name red) kw = .ok l) (h' : reduceLayer so' pattern' (.name red') kw' = .ok l')
    (he : reprReduce L.printable cls l.pattern red l.axesLengths =
      reprReduce L.printable cls l'.pattern red' l'.axesLengths) :
    pattern = pattern' ∧ red = red' ∧ kw.map (fun p => (p.1, p.2.val)) = kw'.map (fun p => (p.1, p.2.val)) := by
  have h1 := reduceLayer_names h
  have h2 := reduceLayer_names h'
  obtain ⟨m, -, rfl⟩ := reduceLayer_inv h
  obtain ⟨m', -, rfl⟩ := reduceLayer_inv h'
  have hcl : PlainName L.lax cls := ⟨hc, rfl, rfl⟩
  have r1 := read_reprReduce hcl pattern red (kw := kw) ⟨fun p hp => ⟨h1 p hp, rfl, rfl⟩, hkw⟩
  have r2 := read_reprReduce hcl pattern' red' (kw := kw') ⟨fun p hp => ⟨h2 p hp, rfl, rfl⟩, hkw'⟩
  rw [show L.lax.printable = L.printable from rfl] at r1 r2
  simp only at he
  rw [he, r2] at r1
  simp only [Option.some.injEq, PyCall.mk.injEq, List.cons.injEq, and_true, true_and] at r1
  exact ⟨r1.1.1.symm, r1.1.2.symm, r1.2.symm⟩

/-- **C67** Two `EinMix` layers with the same `repr` have the same pattern, shapes and sizes. -/
theorem C67_distinct_einmix {so so' : Nat → SetOrder} {m m' : EinMix α} {pattern' weight' : Str} {bias' : Option Str}
    (L : PyLang) (hp : '…' ∉ pattern) (hw : '…' ∉ weight) (hb : ∀ s, bias = some s → '…' ∉ s)
    (he : ellipsisStr ∉ kw.map Prod.fst) (hkw : (kw.map Prod.fst).Nodup) (hp' : '…' ∉ pattern') (hw' : '…' ∉ weight')
    (hb' : ∀ s, bias' = some s → '…' ∉ s) (he' : ellipsisStr ∉ kw'.map Prod.fst) (hkw' : (kw'.map Prod.fst).Nodup)
    (hc : isIdentifier cls = true) (h : makeEinMix so pattern weight bias kw = .ok m)
    (h' : makeEinMix so' pattern' weight' bias' kw' = .ok m')
    (heq : reprEinMix L.printable cls pattern weight bias kw = reprEinMix L.printable cls pattern' weight' bias' kw') :
    pattern = pattern' ∧ weight = weight' ∧ bias = bias' ∧
      kw.map (fun p => (p.1, p.2.val)) = kw'.map (fun p => (p.1, p.2.val)) := by
  obtain ⟨i1, q1, b1⟩ := einmix_readable L hp hw hb he hkw h
  obtain ⟨i2, q2, b2⟩ := einmix_readable L hp' hw' hb' he' hkw' h'
  have hcl : PlainName L.lax cls := ⟨hc, rfl, rfl⟩
  have r1 := read_reprEinMix hcl pattern (kw := kw) ⟨fun p hp => ⟨i1 p hp, rfl, rfl⟩, hkw⟩ q1 b1
  have r2 := read_reprEinMix hcl pattern' (kw := kw') ⟨fun p hp => ⟨i2 p hp, rfl, rfl⟩, hkw'⟩ q2 b2
  rw [show L.lax.printable = L.printable from rfl] at r1 r2
  rw [heq, r2] at r1
  simp only [Option.some.injEq, PyCall.mk.injEq, List.cons.injEq, true_and] at r1
  refine ⟨r1.1.1.symm, r1.1.2.1.symm, ?_, r1.2.symm⟩
  have := r1.1.2.2
  cases bias <;> cases bias' <;> simp_all

end

/-! ### Examples, and what is excluded -/

section
attribute [local instance] asciiUnicode

/-- Python's keywords, names in ASCII (which are in normal form), no printable characters outside ASCII -/
def asciiLang : PyLang where
  keyword w := w ∈ ["False", "None", "True", "and", "as", "assert", "async", "await", "break", "class", "continue", "def",
    "del", "elif", "else", "except", "finally", "for", "from", "global", "if", "import", "in", "is", "lambda", "nonlocal",
    "not", "or", "pass", "raise", "return", "try", "while", "with", "yield"].map String.toList
  nfkc w := w
  printable _ := false
  alnum := by decide
  start_continue c h := by
    show (c.isAlphanum || c == '_') = true
    rw [Char.isAlphanum, show c.isAlpha = true from h]
    rfl
  xid := by decide

example : reprStr asciiLang.printable "a'b\n\\…é".toList = "\"a'b\\n\\\\\\u2026\\xe9\"".toList := by decide
example : reprStr asciiLang.printable "'\"".toList = "'\\'\"'".toList := by decide

example : reprRearrange asciiLang.printable "Rearrange".toList "a (b c) -> c (a b)".toList [kwInt "b" 2] =
    "Rearrange('a (b c) -> c (a b)', b=2)".toList := by decide

example : reprEinMix asciiLang.printable "EinMix".toList "a b -> a c".toList "b c".toList (some "c".toList)
    [kwInt "b" 20, kwInt "c" 3] = "EinMix('a b -> a c', 'b c', 'c', b=20, c=3)".toList := by decide

example : readCall asciiLang "Rearrange('a (b c) -> c (a b)', b=2)".toList =
    some ⟨"Rearrange".toList, ["a (b c) -> c (a b)".toList], [("b".toList, 2)]⟩ := by decide

example : readCall asciiLang "EinMix('a', \"b'\\x41\", b=-10, c=3)".toList =
    some ⟨"EinMix".toList, ["a".toList, "b'A".toList], [("b".toList, -10), ("c".toList, 3)]⟩ := by decide

/-- the hypotheses of C67_rearrange are met -/
example : PlainName asciiLang "Rearrange".toList ∧ PlainName asciiLang "b".toList ∧
    (pyRearrangeLayer (α := Int) (fun _ => idOrder) "a (b c) -> c (a b)".toList [kwInt "b" 2]).isOk = true := by
  refine ⟨⟨by decide, by decide, rfl⟩, ⟨by decide, by decide, rfl⟩, by decide +kernel⟩

/-- **C67** is false for axes named like keywords: the layer exists, but its `repr` is not an expression. -/
theorem C67_keyword :
    (pyRearrangeLayer (α := Int) (fun _ => idOrder) "(in out) -> out in".toList [kwInt "in" 2]).isOk = true ∧
      readCall asciiLang (reprRearrange asciiLang.printable "Rearrange".toList "(in out) -> out in".toList
        [kwInt "in" 2]) = none := by
  refine ⟨by decide +kernel, by decide +kernel⟩

/-- A quote in a shape of `EinMix` is not escaped (but no layer with such a shape can be constructed). -/
example : readCall asciiLang (reprEinMix asciiLang.printable "EinMix".toList "a -> a".toList "a'".toList none []) = none :=
  by decide +kernel

end

end Einops
