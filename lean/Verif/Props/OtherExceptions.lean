import Verif.Proofs.OtherErrors
import Verif.Props.Einsum
import Verif.Props.Shapes
import Verif.Props.Packing
import Verif.Props.PackDocumented
import Mathlib.Algebra.Group.Int.Units

/-!
# Which exception a failing call of `einsum`, `parse_shape`, `pack` or `unpack` raises

C72.
-/

namespace Einops

universe u

section
variable [PyUnicode]

/-! ### `einsum` -/

/-- The exceptions of a pattern of `einsum`: ValueError without exactly one arrow, EinopsError for illegal sides,
otherwise the first trouble in reading order. -/
theorem C72_einsum_pattern {pattern : Str} (hell : '…' ∉ pattern) (e : PyErr) :
    compactify pattern = .error e ↔ (e = .value ∧ ¬ OneArrow pattern) ∨
      (e = .einops ∧ OneArrow pattern ∧ ¬ ∃ Gs G, EinsumSides pattern Gs G) ∨
      ∃ Gs G, EinsumSides pattern Gs G ∧ EinsumTrouble Gs.flatten G e := by
  by_cases hs : ∃ Gs G, EinsumSides pattern Gs G
  · obtain ⟨Gs, G, hs⟩ := hs
    have ha : OneArrow pattern := by
      by_contra ha
      obtain ⟨parts, r, -, rfl, hl, hr⟩ := hs.written
      refine ha ⟨_, r, rfl, ?_, isSide_no_arrow hr⟩
      intro hi
      rcases mem_intercalate (hi.subset (show '-' ∈ ['-', '>'] by simp)) with h | ⟨p, hp, h⟩
      · cases h
      · obtain ⟨i, hi, rfl⟩ := List.getElem_of_mem hp
        exact isSide_no_special (hl.get hi (by rw [← hl.length_eq]; exact hi)) (by simp) h
    rw [compactify_trouble hs]
    constructor
    · exact fun h => .inr (.inr ⟨Gs, G, hs, h⟩)
    · rintro (⟨-, h⟩ | ⟨-, -, h⟩ | ⟨Gs', G', hs', h⟩)
      · exact absurd ha h
      · exact absurd ⟨Gs, G, hs⟩ h
      · obtain ⟨rfl, rfl⟩ := hs.unique hs'
        exact h
  · obtain ⟨h1, h2⟩ := compactify_not_sides hell hs
    by_cases ha : OneArrow pattern
    · rw [h1 ha]
      constructor
      · intro h
        cases h
        exact .inr (.inl ⟨rfl, ha, hs⟩)
      · rintro (⟨-, h⟩ | ⟨rfl, -, -⟩ | ⟨Gs, G, hs', -⟩)
        · exact absurd ha h
        · rfl
        · exact absurd ⟨Gs, G, hs'⟩ hs
    · rw [h2 ha]
      constructor
      · intro h
        cases h
        exact .inl ⟨rfl, ha⟩
      · rintro (⟨rfl, -⟩ | ⟨-, h, -⟩ | ⟨Gs, G, hs', -⟩)
        · rfl
        · exact absurd h ha
        · exact absurd ⟨Gs, G, hs'⟩ hs

/-- The exceptions of a call `einsum(x₁, …, xₙ, pattern)`: ValueError without tensors, the exception of the pattern, or the
exception of the framework. -/
theorem C72_einsum {α : Type u} {f : Str → List (Tensor α) → Py (Tensor α)} {pattern : Str} (xs : List (Tensor α)) (e : PyErr) :
    einsum f (xs.map .tensor ++ [.str pattern]) = .error e ↔ (xs = [] ∧ e = .value) ∨
      (xs ≠ [] ∧ (compactify pattern = .error e ∨ ∃ s, compactify pattern = .ok s ∧ f s xs = .error e)) := by
  cases xs with
  | nil =>
    show Except.error PyErr.value = Except.error e ↔ _
    simp [eq_comm]
  | cons x xs =>
    have ht : ∀ ys : List (Tensor α), einsumTensors (ys.map .tensor) = .ok ys := by
      intro ys
      induction ys with
      | nil => rfl
      | cons y ys ih => simp only [List.map_cons, einsumTensors, ih]
    unfold einsum
    rw [if_neg (by simp)]
    simp only [List.getLast?_append, List.getLast?_singleton, Option.some_or, List.dropLast_concat]
    rcases compactify pattern with e' | s
    · simp
    · have := ht (x :: xs)
      simp only [List.map_cons] at this ⊢
      simp only [this]
      simp

/-! ### `parse_shape` -/

/-- The only ellipsis is in parentheses (alone or with units), no other axes are composed, and there are enough
dimensions. -/
def ParenDots (G : List Elem) (n : Nat) : Prop :=
  (∀ e ∈ G, e.core.length ≤ 1) ∧ (∃ ws, Elem.paren ws ∈ G ∧ dots ∈ ws) ∧ G.length ≤ n + 1

theorem parseShape_paren {shape : List Nat} {pattern : Str} {G : List Elem} (hell : '…' ∉ pattern)
    (h : IsSide true false pattern G) {ws : List Str} (hw : Elem.paren ws ∈ G) (hd : dots ∈ ws) :
    parseShape shape pattern = .error (if (∀ e ∈ G, e.core.length ≤ 1) ∧ G.length ≤ shape.length + 1 then .value else .runtime) := by
  unfold parseShape
  rw [(parseExpression_iff 0 true false pattern hell _).2 ⟨G, h, rfl⟩]
  simp only
  have hcomp : (describe 0 G).hasComposedAxes = true ↔ ∃ e ∈ G, 1 < e.core.length := composed_iff 0 0 G
  by_cases hC : ∃ e ∈ G, 1 < e.core.length
  · rw [if_pos (hcomp.2 hC), if_neg]
    rintro ⟨hh, -⟩
    obtain ⟨e, he, h1⟩ := hC
    have := hh e he
    omega
  · have hcore : ∀ e ∈ G, e.core.length ≤ 1 := fun e he => by
      by_contra hcc
      exact hC ⟨e, he, by omega⟩
    rw [if_neg (fun hh => hC (hcomp.1 hh))]
    have hlen : (describe 0 G).composition.length = G.length := denote_length 0 0 G
    have hs : dots ∈ sideWords G := List.mem_flatMap.2 ⟨_, hw, hd⟩
    have hns : (describe 0 G).hasEllipsis = true := decide_eq_true hs
    have hnb : Elem.bare dots ∉ G := by
      intro hb
      have hone := h.one_ellipsis
      obtain ⟨A, B, rfl⟩ := List.append_of_mem hb
      rw [List.flatMap_append, List.flatMap_cons, List.count_append, List.count_append] at hone
      simp only [Elem.words, List.count_singleton_self] at hone
      simp only [List.mem_append, List.mem_cons, reduceCtorEq, false_or] at hw
      rcases hw with h1 | h1
      · have := List.count_pos_iff.2 (List.mem_flatMap.2 ⟨_, h1, hd⟩ : dots ∈ A.flatMap Elem.words)
        omega
      · have := List.count_pos_iff.2 (List.mem_flatMap.2 ⟨_, h1, hd⟩ : dots ∈ B.flatMap Elem.words)
        omega
    have hidx : indexE (describe 0 G).composition .ell = .error .value := by
      unfold indexE
      rw [if_neg]
      exact fun hm => hnb (denote_ell.1 hm)
    have hrank : shapeRankOK (describe 0 G) shape.length = decide (G.length ≤ shape.length + 1) := by
      unfold shapeRankOK
      rw [hlen, hns, if_pos rfl]
      by_cases hr : shape.length = G.length
      · rw [if_neg (by simpa using hr)]
        symm
        rw [decide_eq_true_eq]
        omega
      · rw [if_pos hr, ← decide_not, decide_eq_decide]
        omega
    rw [hrank]
    by_cases hr : G.length ≤ shape.length + 1
    · rw [if_neg (by simpa using hr), if_pos ⟨hcore, hr⟩]
      unfold shapeComposition
      rw [hns, if_pos rfl, hidx]
    · rw [if_pos (by simpa using hr), if_neg (fun hh => hr hh.2)]

/-- The exceptions of `parse_shape`: EinopsError for an illegal pattern, ValueError for an ellipsis in parentheses,
RuntimeError if the pattern does not fit the shape. -/
theorem C72_parse_shape {shape : List Nat} {pattern : Str} (hell : '…' ∉ pattern) (e : PyErr) :
    parseShape shape pattern = .error e ↔ (e = .einops ∧ ¬ ∃ G, IsSide true false pattern G) ∨
      ∃ G, IsSide true false pattern G ∧ ((e = .value ∧ ParenDots G shape.length) ∨
        (e = .runtime ∧ ¬ ParenDots G shape.length ∧ ¬ ∃ d, ShapeMatches G shape d)) := by
  by_cases hs : ∃ G, IsSide true false pattern G
  · obtain ⟨G, hG⟩ := hs
    have hthis : parseShape shape pattern = .error e ↔ ((e = .value ∧ ParenDots G shape.length) ∨
        (e = .runtime ∧ ¬ ParenDots G shape.length ∧ ¬ ∃ d, ShapeMatches G shape d)) := by
      by_cases hw : ∃ ws, Elem.paren ws ∈ G ∧ dots ∈ ws
      · obtain ⟨ws, h1, h2⟩ := hw
        have hno : ¬ ∃ d, ShapeMatches G shape d := fun ⟨d, hm⟩ => hm.no_paren h1 h2
        rw [parseShape_paren hell hG h1 h2]
        by_cases hp : (∀ e ∈ G, e.core.length ≤ 1) ∧ G.length ≤ shape.length + 1
        · have hpd : ParenDots G shape.length := ⟨hp.1, ⟨ws, h1, h2⟩, hp.2⟩
          rw [if_pos hp]
          simp [hpd, eq_comm]
        · have hpd : ¬ ParenDots G shape.length := fun h => hp ⟨h.1, h.2.2⟩
          rw [if_neg hp]
          simp [hpd, hno, eq_comm]
      · have hpd : ¬ ParenDots G shape.length := fun h => hw h.2.1
        rcases parseShape_side hell hG (shape := shape) with ⟨d, hm, hd⟩ | ⟨hn, -, h⟩
        · rw [hd]
          constructor
          · intro h; cases h
          · rintro (⟨-, h⟩ | ⟨-, -, h⟩)
            · exact absurd h hpd
            · exact absurd ⟨d, hm⟩ h
        · rw [h (fun ws h1 h2 => hw ⟨ws, h1, h2⟩)]
          simp [hpd, hn, eq_comm]
    rw [hthis]
    constructor
    · exact fun h => .inr ⟨G, hG, h⟩
    · rintro (⟨-, h⟩ | ⟨G', hG', h⟩)
      · exact absurd ⟨G, hG⟩ h
      · obtain rfl := hG.unique hG'
        exact h
  · rw [(C22_errors shape pattern hell).1 hs]
    constructor
    · intro h
      cases h
      exact .inl ⟨rfl, hs⟩
    · rintro (⟨rfl, -⟩ | ⟨G, hG, -⟩)
      · rfl
      · exact absurd ⟨G, hG⟩ hs

/-! ### `pack` and `unpack` -/

variable {α : Type u} {ops : PackOps α} {pattern : Str}

/-- The exceptions of `pack`: EinopsError for an illegal pattern, IndexError without tensors, otherwise the first tensor
with trouble decides. -/
theorem C72_pack (ho : PackModelled ops) (xs : List (Tensor α)) (e : PyErr) :
    pack ops xs pattern = .error e ↔ (e = .einops ∧ ¬ ∃ b a, IsPackPattern pattern b a) ∨
      ∃ b a, IsPackPattern pattern b a ∧ ((e = .index ∧ xs = []) ∨ PackTrouble b a (xs.map Tensor.shape) e) := by
  by_cases hp : ∃ b a, IsPackPattern pattern b a
  · obtain ⟨b, a, hp⟩ := hp
    have : pack ops xs pattern = .error e ↔ ((e = .index ∧ xs = []) ∨ PackTrouble b a (xs.map Tensor.shape) e) := by
      by_cases hx : xs = []
      · subst hx
        rw [(C23_errors (ops := ops) []).2 ⟨b, a, hp⟩]
        constructor
        · intro h; cases h; exact .inl ⟨rfl, rfl⟩
        · rintro (⟨rfl, -⟩ | h)
          · rfl
          · cases h with
            | rank S₁ s S₂ h1 => simp at h1
            | zero S₁ pre r post S₂ h1 => simp at h1
            | differ pre r post pre' r' post' h1 h2 => simp at h2
      · rw [pack_trouble ho hp hx]
        simp [hx]
    rw [this]
    constructor
    · exact fun h => .inr ⟨b, a, hp, h⟩
    · rintro (⟨-, h⟩ | ⟨b', a', hp', h⟩)
      · exact absurd ⟨b, a, hp⟩ h
      · obtain ⟨rfl, rfl⟩ := hp.unique hp'
        exact h
  · rw [(C23_errors xs).1 hp]
    constructor
    · intro h; cases h; exact .inl ⟨rfl, hp⟩
    · rintro (⟨rfl, -⟩ | ⟨b, a, h, -⟩)
      · rfl
      · exact absurd ⟨b, a, h⟩ hp

omit [PyUnicode] in
theorem neg_one_of_prod {s : List Int} (h : s.prod = -1) : -1 ∈ s := by
  induction s with
  | nil => simp at h
  | cons d s ih =>
    rw [List.prod_cons] at h
    rcases Int.eq_one_or_neg_one_of_mul_eq_neg_one' h with ⟨rfl, h2⟩ | ⟨rfl, h2⟩
    · rw [one_mul] at h
      exact List.mem_cons_of_mem _ (ih h)
    · simp

omit [PyUnicode] in
/-- a product is -1 only if a factor is -1, so every shape counts as unknown only by its own -1 -/
theorem composedLengths_unknown (ps : List (List Int)) :
    (composedLengths ps).count (-1) = (ps.filter (fun s => decide (-1 ∈ s))).length := by
  induction ps with
  | nil => rfl
  | cons s ps ih =>
    by_cases h : -1 ∈ s
    · rw [composedLengths_cons_unknown ps h, List.count_cons_self, ih, List.filter_cons_of_pos (by simpa using h)]
      rfl
    · have hp : pyProd s ≠ -1 := by
        rw [pyProd_eq]
        exact fun hp => h (neg_one_of_prod hp)
      have : composedLengths (s :: ps) = pyProd s :: composedLengths ps := by simp [composedLengths, h]
      rw [this, List.count_cons_of_ne hp, ih, List.filter_cons_of_neg (by simpa using h)]

/-- When `unpack` raises EinopsError: the pattern is illegal, the tensor has not one dimension for every axis of the
pattern, or two packed shapes have -1. -/
theorem C72_unpack (x : Tensor α) (ps : List (List Int)) :
    unpack ops x ps pattern = .error .einops ↔ (¬ ∃ b a, IsPackPattern pattern b a) ∨
      ∃ b a, IsPackPattern pattern b a ∧
        (x.shape.length ≠ b + 1 + a ∨ 1 < (ps.filter (fun s => decide (-1 ∈ s))).length) := by
  by_cases hp : ∃ b a, IsPackPattern pattern b a
  · obtain ⟨b, a, hp⟩ := hp
    have : unpack ops x ps pattern = .error .einops ↔
        (x.shape.length ≠ b + 1 + a ∨ 1 < (ps.filter (fun s => decide (-1 ∈ s))).length) := by
      unfold unpack
      rw [analyzePattern_iff.2 ⟨hp, rfl⟩]
      simp only
      by_cases hl : x.shape.length ≠ b + 1 + a
      · rw [if_pos hl]
        exact iff_of_true rfl (.inl hl)
      · rw [if_neg hl]
        by_cases hc : 1 < (ps.filter (fun s => decide (-1 ∈ s))).length
        · rw [if_pos (by rw [composedLengths_unknown]; exact hc)]
          exact iff_of_true rfl (.inr hc)
        · rw [if_neg (by rw [composedLengths_unknown]; exact hc)]
          refine iff_of_false ?_ (by simp only [not_or]; exact ⟨hl, hc⟩)
          split <;> simp
    rw [this]
    constructor
    · exact fun h => .inr ⟨b, a, hp, h⟩
    · rintro (h | ⟨b', a', hp', h⟩)
      · exact absurd ⟨b, a, hp⟩ h
      · obtain ⟨rfl, rfl⟩ := hp.unique hp'
        exact h
  · exact iff_of_true (C26_errors.1 hp) (.inl hp)

/-- `unpack` raises nothing but EinopsError and RuntimeError, on any framework. -/
theorem C72_unpack_only {x : Tensor α} {ps : List (List Int)} {e : PyErr} (h : unpack ops x ps pattern = .error e) :
    e = .einops ∨ e = .runtime := by
  unfold unpack at h
  split at h
  · rename_i e' ha
    rw [analyzePattern_err ha] at h
    cases h
    exact .inl rfl
  · split at h
    · cases h; exact .inl rfl
    · simp only at h
      split at h
      · cases h; exact .inl rfl
      · split at h
        · cases h; exact .inr rfl
        · cases h

/-- When `unpack` raises RuntimeError, for lengths and -1 (see C26 for the hypotheses): the packed shapes cannot be
completed so that their sizes add up to the axis. -/
theorem C72_unpack_runtime (ho : PackModelled ops) {pre post : List Nat} {N : Nat}
    (hp : IsPackPattern pattern pre.length post.length) {x : Tensor α} (hx : x.shape = pre ++ N :: post)
    (h0 : 0 ∉ pre ∧ 0 ∉ post) {ps : List (List Int)} (hne : ps ≠ []) (hge : ∀ s ∈ ps, ∀ d ∈ s, -1 ≤ d)
    (hk : -1 ∉ ps.flatten ∨ knownTotal ps ≤ N) :
    unpack ops x ps pattern = .error .runtime ↔
      (ps.filter (fun s => decide (-1 ∈ s))).length ≤ 1 ∧ ¬ ∃ rs, Resolves ps N rs := by
  constructor
  · intro h
    constructor
    · by_contra hc
      have := (C72_unpack (ops := ops) (pattern := pattern) x ps).2 (.inr ⟨_, _, hp, .inr (by omega)⟩)
      rw [this] at h
      cases h
    · rintro ⟨rs, hr⟩
      obtain ⟨ys, hy, -⟩ := unpack_exists ho hp hx hr (fun _ => h0)
      rw [hy] at h
      cases h
  · rintro ⟨h1, h2⟩
    cases hu : unpack ops x ps pattern with
    | ok ys =>
      obtain ⟨rs, hr, -⟩ := (C26_unpack_partial ho hp hx h0 hne hge hk ys).1 hu
      exact absurd ⟨rs, hr⟩ h2
    | error e =>
      rcases C72_unpack_only hu with rfl | rfl
      · rcases (C72_unpack x ps).1 hu with h | ⟨b, a, hp', h⟩
        · exact absurd ⟨_, _, hp⟩ h
        · obtain ⟨rfl, rfl⟩ := hp.unique hp'
          rcases h with h | h
          · exact absurd (by rw [hx]; simp; omega) h
          · omega
      · rfl

end

/-! ### Examples -/

section
attribute [local instance] asciiUnicode

-- a number before the 53rd name, a name unknown to the inputs before a number of the output and after it
example : compactify "i 2, j -> i".toList = .error .notImplemented := by rfl
example : compactify "i, j -> k 2".toList = .error .einops := by rfl
example : compactify "i, j -> 2 k".toList = .error .notImplemented := by rfl
example : compactify "i, j => k 2".toList = .error .value := by rfl
example : compactify "i, (j -> k 2".toList = .error .einops := by rfl

/-- two troubles at once: the first one decides -/
example : EinsumTrouble [.bare "i".toList, .bare "j".toList] [.bare "k".toList, .bare "2".toList] .einops :=
  .unknown [.name "i".toList, .name "j".toList] [] [] _ _ "k".toList (by decide) (by decide) rfl rfl (by decide) (by decide) (by decide)
example : EinsumTrouble [.bare "i".toList, .bare "j".toList] [.bare "2".toList, .bare "k".toList] .notImplemented :=
  .output [.name "i".toList, .name "j".toList] [] [] _ _ (by decide) (by decide) rfl rfl (by decide) (by decide)

example : parseShape [2, 3] "a (...)".toList = .error .value := by rfl
example : parseShape [2, 3] "a b (...) c".toList = .error .runtime := by rfl
example : parseShape [2, 3] "(a b) (...)".toList = .error .runtime := by rfl
example : parseShape [2, 3] "(a".toList = .error .einops := by rfl
example : ParenDots [.bare "a".toList, .paren ["...".toList]] 2 :=
  ⟨by decide, ⟨["...".toList], by decide, by decide⟩, by decide⟩

-- too few dimensions against a zero dimension: the order of the tensors decides
example : pack numpyPack [⟨[0, 2], [], rfl⟩, vec 3] "a b *".toList = .error .backend := by rfl
example : pack numpyPack [vec 3, ⟨[0, 2], [], rfl⟩] "a b *".toList = .error .einops := by rfl
example : PackTrouble 2 0 [[3], [0, 2]] .einops := .rank [] [3] [[0, 2]] rfl (by simp) (by decide)
example : PackTrouble 2 0 [[0, 2], [3]] .backend := .zero [] [0, 2] [] [] [[3]] rfl (by simp) rfl rfl (by simp)
-- different dimensions around the star
example : pack numpyPack [vec 3, p1] "* b".toList = .error .backend := by rfl
example : PackTrouble 0 1 [[3], [2, 2]] .backend :=
  .differ [] [] [3] [] [2] [2]
    (by
      intro s hs
      rcases List.mem_cons.1 hs with rfl | hs
      · exact ⟨[], [], [3], rfl, rfl, rfl, by decide, by decide⟩
      · rw [List.mem_singleton] at hs
        exact ⟨[], [2], [2], hs, rfl, rfl, by decide, by decide⟩)
    (by decide) (by decide) rfl rfl rfl rfl (by decide)

example : unpack numpyPack p1 [[2]] "*".toList = .error .einops := by rfl
example : unpack numpyPack (vec 7) [[-1, -1]] "*".toList = .error .runtime := by rfl

/-- `C72_unpack_runtime`: five elements cannot be cut into pairs -/
example : unpack strictPack (vec 5) [[2, -1]] "*".toList = .error .runtime ∧ ¬ ∃ rs, Resolves [[2, -1]] 5 rs := by
  have h : unpack strictPack (vec 5) [[2, -1]] "*".toList = .error .runtime := by rfl
  have hp : IsPackPattern "*".toList ([] : List Nat).length ([] : List Nat).length :=
    ⟨[], [], words_iff.2 (by decide), rfl, rfl, by decide, by simp⟩
  exact ⟨h, ((C72_unpack_runtime .strict hp rfl (by decide) (by decide) (by decide) (.inr (by decide))).1 h).2⟩

end

end Einops
