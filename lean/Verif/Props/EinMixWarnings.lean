import Verif.Proofs.EinMixWarnings
import Verif.Proofs.Decide

/-!
# C89: warnings of the constructor of `EinMix`
-/

namespace Einops

universe u

section
variable [PyUnicode] {α : Type u}

/-- **C89** Construction of an `EinMix` layer, no recipe being in the cache.  If it succeeds, the warnings are exactly
`mixWarnings`: for the words of the pattern and the weight shape, for the two inner layers as far as there are any, the warning about
a weight without dimensions if and only if it has none, and for the words of the bias shape.  If it fails, some of the first of them.
If no warning is raised the outcome is the same as without warnings, otherwise the first one that is raised is the outcome. -/
theorem C89_constructor (so : Nat → SetOrder) {l r : Str} (hl : ¬ arrow <:+: l) (hr : ¬ arrow <:+: r) (weight : Str)
    (bias : BiasShape) (kw : List (Str × Size)) :
    ∃ pre post bare ws, ws <+: mixWarnings l r weight bias (kw.map Prod.fst) pre post bare ∧
      (∀ m : EinMix α, makeEinMixArg so (l ++ arrow ++ r) weight bias kw = .ok m →
        ws = mixWarnings l r weight bias (kw.map Prod.fst) pre post bare ∧
          pre = m.pre.isSome ∧ post = m.post.isSome ∧ (bare = true ↔ m.weightShape = [])) ∧
      ∀ raises, Heard raises ws (makeEinMixArg so (l ++ arrow ++ r) weight bias kw)
        (makeEinMixW (α := α) raises so (l ++ arrow ++ r) weight bias kw) := by
  obtain ⟨pre, post, bare, ⟨ws, h1, h2, h3⟩, h4⟩ := makeEinMixArg_tells (α := α) so hl hr weight bias kw
  exact ⟨pre, post, bare, ws, h2, fun m hm => ⟨h3 m hm, h4 m hm⟩, fun raises => heard_of (h1 raises)⟩

/-- **C89** With names that deserve no warning there is at most one warning, and there is one if and only if the weight has no
dimensions; so every other layer can be made while all warnings are errors. -/
theorem C89_plain_names (raises : NameWarning → Bool) (so : Nat → SetOrder) {l r : Str} (hl : ¬ arrow <:+: l) (hr : ¬ arrow <:+: r)
    (weight : Str) (bias : BiasShape) (kw : List (Str × Size))
    (hplain : ∀ n ∈ wordsOf l ++ wordsOf r ++ wordsOf weight ++ wordsOf bias.str, n ∉ pyKeywords ∧ n ≠ "axis".toList)
    {m : EinMix α} (hm : makeEinMixArg so (l ++ arrow ++ r) weight bias kw = .ok m) :
    (makeEinMixW (α := α) raises so (l ++ arrow ++ r) weight bias kw).1 = (if m.weightShape = [] then [.noDimensions] else []) ∧
      (m.weightShape ≠ [] ∨ raises .noDimensions = false →
        (makeEinMixW (α := α) raises so (l ++ arrow ++ r) weight bias kw).2 = .ok m) := by
  obtain ⟨pre, post, bare, ⟨ws, h1, h2, h3⟩, h4⟩ := makeEinMixArg_tells (α := α) so hl hr weight bias kw
  obtain ⟨hpre, hpost, hbare⟩ := h4 m hm
  have hnil : ∀ names : List Str, (∀ n ∈ names, n ∈ wordsOf l ++ wordsOf r ++ wordsOf weight ++ wordsOf bias.str) →
      warningsFor names = [] := by
    intro names hn
    unfold warningsFor
    rw [List.flatMap_eq_nil_iff]
    intro n h
    obtain ⟨a, b⟩ := hplain n (hn n h)
    simp only [warningOf, if_neg a, if_neg b]
  have hre : ∀ (k : Nat) (s : Str) (names : List Str),
      (∀ n ∈ wordsOf s ++ names, n ∈ wordsOf l ++ wordsOf r ++ wordsOf weight ++ wordsOf bias.str) →
      reshapeWarnings k s names = [] := by
    intro k s names hn
    unfold reshapeWarnings
    rw [hnil _ (fun n h => hn n (by simp [h])), hnil (wordsOf s ++ wordsOf s ++ names) (fun n h => hn n (by
      simp only [List.mem_append] at h ⊢; tauto))]
    simp
  have hws : ws = if m.weightShape = [] then [.noDimensions] else [] := by
    rw [h3 m hm]
    unfold mixWarnings
    rw [hnil (wordsOf l ++ wordsOf r ++ wordsOf weight) (fun n h => by simp only [List.mem_append] at h ⊢; tauto),
      hnil (wordsOf bias.str) (fun n h => by simp only [List.mem_append] at h ⊢; tauto),
      hre _ l _ (fun n h => by
        simp only [List.mem_append, List.mem_filter, decide_eq_true_eq] at h ⊢; tauto),
      hre _ r _ (fun n h => by simp only [List.mem_append, List.not_mem_nil] at h ⊢; tauto)]
    by_cases hb : m.weightShape = []
    · simp [hb, hbare.2 hb]
    · simp [hb, Bool.eq_false_iff.2 (fun h => hb (hbare.1 h))]
  have h1 : makeEinMixW (α := α) raises so (l ++ arrow ++ r) weight bias kw = _ := h1 raises
  rw [h1, hws, hm]
  by_cases hb : m.weightShape = []
  · simp only [hb, if_true, cut]
    by_cases hr : raises .noDimensions = true
    · simp [hr]
    · simp [hr, silent]
  · simp [hb, cut, silent]

/-- **C89** A bias shape that is not a string never makes a layer: where any bias shape would, it is refused with EinopsError. -/
theorem C89_bias_type (so : Nat → SetOrder) (pattern weight : Str) (kw : List (Str × Size)) :
    (∀ m : EinMix α, makeEinMixArg so pattern weight .other kw ≠ .ok m) ∧
      ∀ b (m : EinMix α), makeEinMixArg so pattern weight b kw = .ok m →
        makeEinMixArg (α := α) so pattern weight .other kw = .error .einops :=
  makeEinMixArg_other so pattern weight kw

end

/-! ### Examples -/

section
attribute [local instance] asciiUnicode

-- a weight without dimensions: multiplication by a number
example : (makeEinMixW (α := Int) (fun _ => false) (fun _ => idOrder) "a b -> a b".toList [] .absent []).1 = [.noDimensions] := by rfl
example : ∃ m : EinMix Int, makeEinMixArg (fun _ => idOrder) "a b -> a b".toList [] .absent [] = .ok m ∧ m.weightShape = [] ∧
    (makeEinMixW (fun _ => false) (fun _ => idOrder) "a b -> a b".toList [] .absent []).2 = .ok m := ⟨_, rfl, rfl, rfl⟩
example : (makeEinMixW (α := Int) (fun _ => true) (fun _ => idOrder) "a b -> a b".toList [] .absent []) =
    ([.noDimensions], .error (.warning .noDimensions)) := by rfl
-- one of the weight's dimensions has no size: the constructor fails before that warning
example : (makeEinMixW (α := Int) (fun _ => false) (fun _ => idOrder) "a b -> a c".toList "c".toList .absent []) =
    ([], .error (.error .einops)) := by rfl
-- a weight `1` has no axes either; the warning is issued, then the constructor fails
example : (makeEinMixW (α := Int) (fun _ => false) (fun _ => idOrder) "a b -> a b".toList "1".toList .absent []) =
    ([.noDimensions], .error (.error .value)) := by rfl

-- the keyword stands in the pattern and in the inner layer before the product: left side of that layer, then its pattern and the
-- keyword argument
example : (makeEinMixW (α := Int) (fun _ => false) (fun _ => idOrder) "(if b) -> b".toList "if b".toList .absent
    [kwInt "if" 2, kwInt "b" 3]).1 = List.replicate 6 (.keyword "if".toList) := by rfl
example : mixWarnings "(if b) ".toList " b".toList "if b".toList .absent ["if".toList, "b".toList] true false false =
    List.replicate 6 (.keyword "if".toList) := by decide
example : ∃ m : EinMix Int, makeEinMixArg (fun _ => idOrder) "(if b) -> b".toList "if b".toList .absent
    [kwInt "if" 2, kwInt "b" 3] = .ok m ∧ m.pre.isSome ∧ m.post = none := ⟨_, rfl, rfl, rfl⟩
example : "(if b) -> b".toList = "(if b) ".toList ++ arrow ++ " b".toList ∧ ¬ arrow <:+: "(if b) ".toList ∧
    ¬ arrow <:+: " b".toList := by decide
-- with an ellipsis the inner layers are prepared for 8 numbers of dimensions; the bias is read last
example : (makeEinMixW (α := Int) (fun _ => false) (fun _ => idOrder) "... a -> (... in)".toList "a in".toList (.text "in".toList)
    [kwInt "a" 2, kwInt "in" 3]).1 = List.replicate (2 + (1 + 16) + 1) (.keyword "in".toList) := by rfl
example : mixWarnings "... a ".toList " (... in)".toList "a in".toList (.text "in".toList) ["a".toList, "in".toList] false true false =
    List.replicate 20 (.keyword "in".toList) := by decide

-- a bias shape that is not a string
example : makeEinMixArg (α := Int) (fun _ => idOrder) "a b -> a c".toList "b c".toList .other [kwInt "b" 2, kwInt "c" 3] =
    .error .einops := by rfl
example : ∃ m : EinMix Int, makeEinMixArg (fun _ => idOrder) "a b -> a c".toList "b c".toList (.text "c".toList)
    [kwInt "b" 2, kwInt "c" 3] = .ok m := ⟨_, rfl⟩
-- the pattern is read first
example : makeEinMixArg (α := Int) (fun _ => idOrder) "a b".toList "b c".toList .other [] = .error .value := by rfl

end

end Einops
