import Verif.EinsumRef
import Verif.Proofs.Decide
import Verif.Props.Examples

/-!
# Properties of `einsum`
-/

namespace Einops

universe u

section
variable {α : Type u} [CommSemiring α] [PyUnicode] {f : Str → List (Tensor α) → Py (Tensor α)} {pattern : Str}

/-- `einsum` computes the named-axis formula: at coordinates of the output axes, the sum over the coordinates of all
other axes of the product of the entries of the inputs at the coordinates named in the pattern. -/
theorem C27_einsum (hf : EinsumLawful f) {terms : List (List ESym)} {out : List ESym} (h : IsEinsum pattern terms out)
    (h52 : distinct (terms.flatMap symNames) ≤ 52) {len : AxisMap} {n : Nat} {xs : List (Tensor α)}
    (hx : EinsumFits len n terms out xs) :
    ∃ y, einsum f (xs.map .tensor ++ [.str pattern]) = .ok y ∧
      Contracts len (terms.map (symAxes n)) (symAxes n out) xs y := einsum_contracts hf h h52 hx

omit [PyUnicode] in
/-- The assumption on frameworks can be met. -/
theorem C27_framework : EinsumLawful (refEinsum (α := α)) := refEinsum_lawful

omit [CommSemiring α] in
/-- The framework is called once, with the compact pattern and the tensors in order; illegal patterns never reach it. -/
theorem C27_call {xs : List (Tensor α)} (hx : xs ≠ []) :
    einsum f (xs.map .tensor ++ [.str pattern]) =
      match compactify pattern with
      | .error e => .error e
      | .ok s => f s xs := einsum_eq f hx pattern

omit [CommSemiring α] in
/-- A call without tensors, or whose last argument is not a string, raises ValueError. -/
theorem C27_arguments (args : List (EinsumArg α)) :
    (args.length ≤ 1 → einsum f args = .error .value) ∧
    (∀ x, args.getLast? = some (.tensor x) → einsum f args = .error .value) := by
  constructor
  · intro h; unfold einsum; rw [if_pos h]
  · intro x h; unfold einsum; rw [h]; split <;> rfl

/-- A compact pattern is made exactly for the legal patterns: inputs and output are lists of names and ellipses, with at
most 52 different names in the inputs, and the names of the output occur in the inputs. -/
theorem C28_accepts (hell : '…' ∉ pattern) :
    (∃ s, compactify pattern = .ok s) ↔ ∃ terms out, IsEinsum pattern terms out ∧
      distinct (terms.flatMap symNames) ≤ 52 ∧ ∀ w ∈ symNames out, ∃ t ∈ terms, w ∈ symNames t := by
  constructor
  · rintro ⟨s, h⟩
    by_cases hs : ∃ Gs G, EinsumSides pattern Gs G
    · obtain ⟨Gs, G, hs⟩ := hs
      by_cases he : ∃ terms out, IsEinsum pattern terms out
      · obtain ⟨terms, out, he⟩ := he
        rw [compactify_syms he] at h
        split at h
        · rename_i h52
          split at h
          · rename_i hw; exact ⟨terms, out, he, h52, hw⟩
          · cases h
        · cases h
      · rcases (compactify_bad hs he).1 with h' | h' | h' <;> rw [h'] at h <;> cases h
    · have := compactify_not_sides hell hs
      by_cases ha : ∃ l r, pattern = l ++ arrow ++ r ∧ ¬ arrow <:+: l ∧ ¬ arrow <:+: r
      · rw [this.1 ha] at h; cases h
      · rw [this.2 ha] at h; cases h
  · rintro ⟨terms, out, he, h52, hw⟩
    exact ⟨_, by rw [compactify_syms he, if_pos h52, if_pos hw]⟩

/-- The compact pattern is the pattern with a letter for each name: two names have the same letter exactly if they are
equal, order and ellipses are kept. -/
theorem C28_letters {terms : List (List ESym)} {out : List ESym} (h : IsEinsum pattern terms out) {s : Str}
    (hs : compactify pattern = .ok s) :
    ∃ letter : Str → Char, s = writeEinsum letter terms out ∧
      (∀ t ∈ out :: terms, ∀ w ∈ symNames t, (letter w).isAlpha = true) ∧
      (∀ t ∈ out :: terms, ∀ t' ∈ out :: terms, ∀ v ∈ symNames t, ∀ w ∈ symNames t', letter v = letter w ↔ v = w) := by
  rw [compactify_syms h] at hs
  split at hs
  · rename_i h52
    split at hs
    · rename_i hw
      cases hs
      have hK : (grow [] (terms.flatMap symNames)).length ≤ 52 := by rw [grow_length]; exact h52
      have hmem : ∀ t ∈ out :: terms, ∀ w ∈ symNames t, w ∈ grow [] (terms.flatMap symNames) := by
        intro t ht w hw'
        rw [mem_grow]
        right
        rcases List.mem_cons.1 ht with rfl | ht
        · obtain ⟨t', ht', h3⟩ := hw w hw'
          exact List.mem_flatMap.2 ⟨t', ht', h3⟩
        · exact List.mem_flatMap.2 ⟨t, ht, hw'⟩
      refine ⟨_, rfl, fun t ht w hw' => letterOf_mem hK (hmem t ht w hw'), ?_⟩
      intro t ht t' ht' v hv w hw'
      exact ⟨letterOf_inj hK (hmem t ht v hv) (hmem t' ht' w hw'), fun e => by rw [e]⟩
    · cases hs
  · cases hs

/-- A pattern has at most one reading. -/
theorem C28_unique {terms terms' : List (List ESym)} {out out' : List ESym} (h : IsEinsum pattern terms out)
    (h' : IsEinsum pattern terms' out') : terms = terms' ∧ out = out' := by
  obtain ⟨Gs, G, hs, h1, h2⟩ := h
  obtain ⟨Gs', G', hs', h1', h2'⟩ := h'
  obtain ⟨rfl, rfl⟩ := hs.unique hs'
  refine ⟨?_, List.map_injective_iff.2 (Option.some_injective _) (h2.symm.trans h2')⟩
  clear hs hs' h2 h2'
  induction h1 generalizing terms' with
  | nil => cases h1'; rfl
  | cons a b ih =>
    cases h1' with
    | cons a' b' =>
      rw [ih b', List.map_injective_iff.2 (Option.some_injective _) (a.symm.trans a')]

/-- Which error is raised: too many names, unknown names in the output, illegal sides, number of arrows, elements that
einsum does not have. -/
theorem C28_errors (hell : '…' ∉ pattern) :
    (∀ terms out, IsEinsum pattern terms out →
      (52 < distinct (terms.flatMap symNames) → compactify pattern = .error .runtime) ∧
      (distinct (terms.flatMap symNames) ≤ 52 → (∃ w ∈ symNames out, ∀ t ∈ terms, w ∉ symNames t) →
        compactify pattern = .error .einops)) ∧
    ((¬ ∃ l r, pattern = l ++ arrow ++ r ∧ ¬ arrow <:+: l ∧ ¬ arrow <:+: r) → compactify pattern = .error .value) ∧
    ((∃ l r, pattern = l ++ arrow ++ r ∧ ¬ arrow <:+: l ∧ ¬ arrow <:+: r) → (¬ ∃ Gs G, EinsumSides pattern Gs G) →
      compactify pattern = .error .einops) ∧
    (∀ Gs G, EinsumSides pattern Gs G → (¬ ∃ terms out, IsEinsum pattern terms out) →
      compactify pattern = .error .notImplemented ∨ compactify pattern = .error .runtime ∨
      compactify pattern = .error .einops) := by
  refine ⟨?_, ?_, ?_, ?_⟩
  · intro terms out h
    refine ⟨fun h52 => by rw [compactify_syms h, if_neg (by omega)], ?_⟩
    rintro h52 ⟨w, hw, hn⟩
    rw [compactify_syms h, if_pos h52, if_neg]
    intro hall
    obtain ⟨t, ht, hwt⟩ := hall w hw
    exact hn t ht hwt
  · intro ha
    apply (compactify_not_sides hell _).2 ha
    rintro ⟨Gs, G, hs⟩
    obtain ⟨parts, r, hne, rfl, hl, hr⟩ := hs.written
    refine ha ⟨_, r, rfl, ?_, ?_⟩
    · intro hi
      rcases mem_intercalate (hi.subset (show '-' ∈ arrow by simp [arrow])) with h | ⟨p, hp, h⟩
      · cases h
      · obtain ⟨i, hi, rfl⟩ := List.getElem_of_mem hp
        exact isSide_no_special (hl.get hi (by rw [← hl.length_eq]; exact hi)) (c := '-') (by simp) h
    · intro hi
      exact isSide_no_special hr (c := '-') (by simp) (hi.subset (show '-' ∈ arrow by simp [arrow]))
  · intro ha hs
    exact (compactify_not_sides hell hs).1 ha
  · intro Gs G hs hbad
    exact (compactify_bad hs hbad).1

end

section
attribute [local instance] asciiUnicode

example : compactify "i j, j k -> i k".toList = .ok "ab,bc->ac".toList := by rfl
example : compactify "out in, ... in -> ... out".toList = .ok "ab,...b->...a".toList := by rfl
example : compactify "a a ->".toList = .ok "aa->".toList := by rfl
example : compactify "a b".toList = .error .value := by rfl
example : compactify "a -> b".toList = .error .einops := by rfl
example : compactify "(a b) -> a".toList = .error .notImplemented := by rfl
example : compactify "a 2 -> a".toList = .error .notImplemented := by rfl
example : compactify "(a) (1 b) -> b a".toList = .ok "ab->ba".toList := by rfl

/-- An ellipsis in parentheses is an ordinary axis for the code, not an ellipsis. -/
theorem C28_parenthesised_ellipsis : compactify "(...) a -> a".toList = .ok "ab->b".toList := by rfl

/-- 53 letters and underscored names -/
def names53 : List Str := (asciiLetters ++ ['z']).map (fun c => [c, c]) ++ [['q']]

example : compactify (List.intercalate [' '] names53 ++ "->".toList) = .error .runtime := by decide +kernel

/-- the reading of a pattern -/
theorem isEinsum_example : IsEinsum "out in, ... in -> ... out".toList
    [[.name "out".toList, .name "in".toList], [.ell, .name "in".toList]] [.ell, .name "out".toList] :=
  ⟨[[.bare "out".toList, .bare "in".toList], [.bare dots, .bare "in".toList]], [.bare dots, .bare "out".toList],
    ⟨["out in".toList, " ... in ".toList], " ... out".toList, by decide, rfl, .cons (by decide) (.cons (by decide) .nil), by decide⟩,
    .cons (by decide) (.cons (by decide) .nil), by decide⟩

def mat (r c : Nat) (l : List Int) (h : l.length = [r, c].prod) : Tensor Int := ⟨[r, c], l, h⟩

/-- a matrix product, a trace, a product with an ellipsis -/
example : einsum refEinsum [.tensor (mat 2 2 [1, 2, 3, 4] rfl), .tensor (mat 2 2 [5, 6, 7, 8] rfl), .str "i j, j k -> i k".toList] =
    .ok (mat 2 2 [19, 22, 43, 50] rfl) := by rfl
example : einsum refEinsum [.tensor (mat 2 2 [1, 2, 3, 4] rfl), .str "i i ->".toList] =
    .ok (⟨[], [5], rfl⟩ : Tensor Int) := by rfl
example : einsum refEinsum [.tensor (mat 2 2 [1, 2, 3, 4] rfl), .tensor ⟨[2, 1, 2], [5, 6, 7, 8], rfl⟩,
    .str "out in, ... in -> ... out".toList] = .ok (⟨[2, 1, 2], [17, 39, 23, 53], rfl⟩ : Tensor Int) := by rfl

/-- `C27_einsum` for the last example -/
example : EinsumFits (fun a => if a = .str "out".toList then 2 else if a = .str "in".toList then 2 else if a = (ellAxes 2).headD (.str []) then 2 else 1) 2
    [[.name "out".toList, .name "in".toList], [.ell, .name "in".toList]] [.ell, .name "out".toList]
    [mat 2 2 [1, 2, 3, 4] rfl, ⟨[2, 1, 2], [5, 6, 7, 8], rfl⟩] where
  some_input := by simp
  shapes := .cons (by decide) (.cons (by decide) .nil)
  nodup := by decide
  within := by decide
  ellipsis := by decide

end

end Einops
