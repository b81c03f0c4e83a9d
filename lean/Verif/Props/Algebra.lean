import Verif.Proofs.Compose
import Verif.Props.Examples

/-!
# Relations between calls

Undoing and composing operations, and changes of a pattern that change nothing.  `IsSide false false l GL` says that the
string `l` is a legal side of a pattern with structure `GL`; `IsPattern p GL GR` that `p` is `l ++ "->" ++ r` for such sides.
-/

namespace Einops

universe u

section
variable {α : Type u} [PyUnicode] {E : ElemOps α} {b : Backend α} {so : SetOrder} {x y z : Tensor α}
  {l m r : Str} {GL GM GR : List Elem} {pattern pattern' : Str} {kw : List (Str × Size)}

/-! ### C05 -/

/-- **C05** If `rearrange(x, 'l -> r', ...)` returns `y` and there is no ellipsis in parentheses in `r`, then
`rearrange(y, 'r -> l', ...)` given the lengths of all named axes returns `x`, for every backend. -/
theorem C05_rearrange_undo (hl : IsSide false false l GL) (hr : IsSide false false r GR)
    (hpar : ∀ ws, Elem.paren ws ∈ GR → dots ∉ ws) (hb : Modelled E b) (hkw : IntKw kw)
    (h : rearrange b so (.one x) (l ++ ['-', '>'] ++ r) kw = .ok y) :
    ∃ L R len, Accepted (.name "rearrange".toList) (l ++ ['-', '>'] ++ r) kw x.shape GL GR L R len ∧
      (∃ kw', GivesLengths GR GL len kw') ∧
      ∀ kw', GivesLengths GR GL len kw' → ∀ {E' : ElemOps α} {b' : Backend α} (so' : SetOrder), Modelled E' b' →
        rearrange b' so' (.one y) (r ++ ['-', '>'] ++ l) kw' = .ok x := by
  have hell : '…' ∉ l ++ ['-', '>'] ++ r := (isPattern_split ⟨l, r, rfl, hl, hr⟩).1
  obtain ⟨GL', GR', L, R, len, ha, hm⟩ := (move_iff hb.lawful so hell hkw (.inl rfl) (fun h => by cases h) y).1 h
  obtain ⟨rfl, rfl⟩ := IsPattern.unique hl hr ha.pattern
  refine ⟨L, R, len, ha, exists_lengths _ _ _, fun kw' hk E' b' so' hb' => ?_⟩
  have hs := ha.prepared.sides
  rw [SidesOK, if_pos rfl] at hs
  have hd : dots ∈ sideWords GL' → dots ∈ sideWords GR' := fun h => hs.left_in_right _ h dots_not_number
  have hback := accepted_back (op' := .name "rearrange".toList) hl hr ha hd (by
    rw [SidesOK, if_pos rfl]
    exact ⟨⟨hd, hpar⟩, hs.units_right, hs.units_left, hs.right_in_left, hs.left_in_right⟩) hk
  rw [← hm.1] at hback
  obtain ⟨w, h1, h2⟩ := hback.moves (red := .name "rearrange".toList) hb'.lawful hk.int (hback.move_sub (.inl rfl))
  have hle : ∀ a ∈ L.flatten ++ R.flatten, ∀ t i v, a = .anon t i v → t ≤ 1 := by
    intro a hm
    obtain ⟨n, _, rfl, rfl, _⟩ := ha.prepared.groups
    exact sides_le hm
  have hle' : ∀ a ∈ R.flatten ++ L.flatten, ∀ t i v, a = .anon t i v → t ≤ 1 := fun a hm => hle a (by
    rw [List.mem_append] at hm ⊢; exact hm.symm)
  have h3 : Moves (len ∘ swapSide) (relabel swapSide R) (relabel swapSide L) y x := by
    rw [Moves.relabel_iff (len := len)]
    · exact hm.symm ha.fits.shape_eq
    · exact fun a ha c hc h => swapSide_inj (hle' a ha) (hle' c hc) h
    · exact fun a ha => by simp only [Function.comp]; rw [swapSide_swap (hle' a ha)]
  unfold rearrange
  rw [h1 so', Moves.unique hback.nodup.2 (hback.move_sub (.inl rfl)) h2 h3]

end

section
attribute [local instance] asciiUnicode

example : rearrange (numpyBackend intOps true) idOrder (.one t43) "(a b) ... -> b ... a 1".toList [kwInt "a" 2] =
    .ok ⟨[2, 3, 2, 1], [0, 6, 1, 7, 2, 8, 3, 9, 4, 10, 5, 11], rfl⟩ := by rfl
example : rearrange (torchBackend intOps true) idOrder
    (.one ⟨[2, 3, 2, 1], [0, 6, 1, 7, 2, 8, 3, 9, 4, 10, 5, 11], rfl⟩) "b ... a 1 -> (a b) ...".toList
    [kwInt "b" 2, kwInt "a" 2] = .ok t43 := by rfl
-- with a zero-length dimension the lengths are needed
example : rearrange (numpyBackend intOps true) idOrder (.one ⟨[0, 3], [], rfl⟩) "a b -> (a b)".toList [] = .ok ⟨[0], [], rfl⟩ := by
  rfl
example : rearrange (numpyBackend intOps true) idOrder (.one ⟨[0], [], rfl⟩) "(a b) -> a b".toList [kwInt "a" 0, kwInt "b" 3] =
    .ok ⟨[0, 3], [], rfl⟩ := by rfl
end

section
variable {α : Type u} [PyUnicode] {E : ElemOps α} {b : Backend α} {so : SetOrder} {x y z : Tensor α}
  {l m r : Str} {GL GM GR : List Elem} {pattern pattern' : Str} {kw : List (Str × Size)}

/-! ### C06 -/

/-- **C06** Two legal calls of `rearrange` in a row, 'l -> m' and 'm -> r', that agree about the lengths `len` of the axes
give the same as the single call 'l -> r' with the keyword sizes of the first. -/
theorem C06_rearrange_compose (hl : IsSide false false l GL) (hm : IsSide false false m GM) (hr : IsSide false false r GR)
    (hb : Modelled E b) {kw₁ kw₂ : List (Str × Size)} (hkw₁ : IntKw kw₁) (hkw₂ : IntKw kw₂)
    (h : rearrange b so (.one x) (l ++ ['-', '>'] ++ m) kw₁ = .ok y) {L M R : List (List Axis)} {len : AxisMap}
    (h₁ : Accepted (.name "rearrange".toList) (l ++ ['-', '>'] ++ m) kw₁ x.shape GL GM L M len)
    (h₂ : Accepted (.name "rearrange".toList) (m ++ ['-', '>'] ++ r) kw₂ y.shape GM GR M R len) :
    ∃ z, ∀ {E' : ElemOps α} {b' : Backend α} (so' : SetOrder), Modelled E' b' →
      rearrange b' so' (.one y) (m ++ ['-', '>'] ++ r) kw₂ = .ok z ∧
      rearrange b' so' (.one x) (l ++ ['-', '>'] ++ r) kw₁ = .ok z := by
  have s1 := h₁.prepared.sides
  have s2 := h₂.prepared.sides
  rw [SidesOK, if_pos rfl] at s1 s2
  have h₃ := compose_accepted (op₃ := .name "rearrange".toList) hl hm hr h₁ h₂ s1.units_right s1.right_in_left (by
    rw [SidesOK, if_pos rfl]
    exact ⟨⟨fun h => s1.ellipsis.1 (s2.ellipsis.1 h), s1.ellipsis.2⟩, s1.units_left, s2.units_right,
      fun w hw hn => s2.left_in_right w (s1.left_in_right w hw hn) hn,
      fun w hw hn => s1.right_in_left w (s2.right_in_left w hw hn) hn⟩)
  obtain ⟨y', e1, m1⟩ := h₁.moves (red := .name "rearrange".toList) hb.lawful hkw₁ (h₁.move_sub (.inl rfl))
  have : y' = y := by
    have := e1 so
    unfold rearrange at h
    rw [h] at this
    cases this
    rfl
  subst this
  obtain ⟨z, e2, m2⟩ := h₂.moves (red := .name "rearrange".toList) hb.lawful hkw₂ (h₂.move_sub (.inl rfl))
  have m3 := m1.trans (h₂.move_sub (.inl rfl)) m2
  refine ⟨z, fun {E' b'} so' hb' => ⟨?_, ?_⟩⟩
  · obtain ⟨z', e, m⟩ := h₂.moves (red := .name "rearrange".toList) hb'.lawful hkw₂ (h₂.move_sub (.inl rfl))
    unfold rearrange
    rw [e so', m.unique h₂.nodup.2 (h₂.move_sub (.inl rfl)) m2]
  · obtain ⟨z', e, m⟩ := h₃.moves (red := .name "rearrange".toList) hb'.lawful hkw₁ (h₃.move_sub (.inl rfl))
    unfold rearrange
    rw [e so', m.unique h₃.nodup.2 (h₃.move_sub (.inl rfl)) m3]

/-- **C06** If the middle side has no parentheses the two calls cannot disagree about lengths. -/
theorem C06_rearrange_compose_elementary (hl : IsSide false false l GL) (hm : IsSide false false m GM)
    (hr : IsSide false false r GR) (he : Elementary GM)
    (hb : Modelled E b) {kw₁ kw₂ : List (Str × Size)} (hkw₁ : IntKw kw₁) (hkw₂ : IntKw kw₂)
    (h₁ : rearrange b so (.one x) (l ++ ['-', '>'] ++ m) kw₁ = .ok y)
    (h₂ : rearrange b so (.one y) (m ++ ['-', '>'] ++ r) kw₂ = .ok z) :
    rearrange b so (.one x) (l ++ ['-', '>'] ++ r) kw₁ = .ok z := by
  have hell₁ : '…' ∉ l ++ ['-', '>'] ++ m := (isPattern_split ⟨l, m, rfl, hl, hm⟩).1
  have hell₂ : '…' ∉ m ++ ['-', '>'] ++ r := (isPattern_split ⟨m, r, rfl, hm, hr⟩).1
  obtain ⟨_, _, L, M, len, a1, m1⟩ := (move_iff hb.lawful so hell₁ hkw₁ (.inl rfl) (fun h => by cases h) y).1 h₁
  obtain ⟨_, _, M', R, len', a2, m2⟩ := (move_iff hb.lawful so hell₂ hkw₂ (.inl rfl) (fun h => by cases h) z).1 h₂
  obtain ⟨rfl, rfl⟩ := IsPattern.unique hl hm a1.pattern
  obtain ⟨e, rfl⟩ := IsPattern.unique hm hr a2.pattern
  subst e
  have s1 := a1.prepared.sides
  rw [SidesOK, if_pos rfl] at s1
  have a2' := second_accepted hm a1 m1.1 a2 s1.units_right he (rearrange_axes a2.pattern a2.prepared).2
  obtain ⟨z', hz⟩ := C06_rearrange_compose hl hm hr hb hkw₁ hkw₂ h₁ a1 a2'
  obtain ⟨e1, e2⟩ := hz so hb
  rw [h₂] at e1
  cases e1
  exact e2

/-- **C06** A second call that is given the lengths of all axes agrees with the first about them. -/
theorem C06_rearrange_compose_lengths (hl : IsSide false false l GL) (hm : IsSide false false m GM)
    (hr : IsSide false false r GR) (hs : RearrangeSides GM GR)
    (hb : Modelled E b) (hkw : IntKw kw) (h : rearrange b so (.one x) (l ++ ['-', '>'] ++ m) kw = .ok y) :
    ∃ L M len, Accepted (.name "rearrange".toList) (l ++ ['-', '>'] ++ m) kw x.shape GL GM L M len ∧
      ∀ kw₂, GivesLengths GM GR len kw₂ → ∃ z,
        rearrange b so (.one y) (m ++ ['-', '>'] ++ r) kw₂ = .ok z ∧
        rearrange b so (.one x) (l ++ ['-', '>'] ++ r) kw = .ok z := by
  have hell : '…' ∉ l ++ ['-', '>'] ++ m := (isPattern_split ⟨l, m, rfl, hl, hm⟩).1
  obtain ⟨_, _, L, M, len, a1, m1⟩ := (move_iff hb.lawful so hell hkw (.inl rfl) (fun h => by cases h) y).1 h
  obtain ⟨u1, u2⟩ := IsPattern.unique hl hm a1.pattern
  replace u1 := u1.symm
  replace u2 := u2.symm
  subst u1 u2
  refine ⟨L, M, len, a1, fun kw₂ hk => ?_⟩
  have s1 := a1.prepared.sides
  rw [SidesOK, if_pos rfl] at s1
  obtain ⟨n, hn, hL, hM, hlen⟩ := a1.prepared.groups
  have e0 : denote 0 0 GM = denote 1 0 GM := denote_units hs.units_left
  have hM' : M = spread (ellAxes n) (denote 0 0 GM) := by rw [hM, e0]
  have a2 := accepted_full (op := .name "rearrange".toList) (n := n) (shape := y.shape) hm hr
    (by rw [SidesOK, if_pos rfl]; exact hs)
    (fun hd => hn (fun h => hd (s1.left_in_right _ h dots_not_number))) hk (by
      intro side i v hmem
      exfalso
      rcases List.mem_append.1 hmem with h1 | h1
      · obtain ⟨_, hi, hc, _⟩ := anon_mem_side h1
        obtain ⟨h2, h3⟩ := isCount_iff.1 hc
        exact h3 (hs.units_left _ (List.getElem_mem hi) h2)
      · obtain ⟨_, hi, hc, _⟩ := anon_mem_side h1
        obtain ⟨h2, h3⟩ := isCount_iff.1 hc
        exact h3 (hs.units_right _ (List.getElem_mem hi) h2)) (by rw [m1.1, hM'])
  rw [← hM'] at a2
  obtain ⟨z, hz⟩ := C06_rearrange_compose hl hm hr hb hkw hk.int h a1 a2
  exact ⟨z, hz so hb⟩

end

section
attribute [local instance] asciiUnicode

example : rearrange (numpyBackend intOps true) idOrder (.one t43) "(a b) c -> (c a) b".toList [kwInt "a" 2] =
    .ok ⟨[6, 2], [0, 3, 6, 9, 1, 4, 7, 10, 2, 5, 8, 11], rfl⟩ := by rfl
example : rearrange (numpyBackend intOps true) idOrder (.one ⟨[6, 2], [0, 3, 6, 9, 1, 4, 7, 10, 2, 5, 8, 11], rfl⟩)
    "(c a) b -> b a c".toList [kwInt "a" 2] =
    rearrange (numpyBackend intOps true) idOrder (.one t43) "(a b) c -> b a c".toList [kwInt "a" 2] := by rfl
-- calls that disagree about lengths do not compose
example : rearrange (numpyBackend intOps true) idOrder (.one ⟨[6, 2], [0, 3, 6, 9, 1, 4, 7, 10, 2, 5, 8, 11], rfl⟩)
    "(c a) b -> b a c".toList [kwInt "a" 3] ≠
    rearrange (numpyBackend intOps true) idOrder (.one t43) "(a b) c -> b a c".toList [kwInt "a" 2] := by decide
end

section
variable {α : Type u} [PyUnicode] {E : ElemOps α} {b : Backend α} {so : SetOrder} {x y z : Tensor α}
  {l m r : Str} {GL GM GR : List Elem} {pattern pattern' : Str} {kw : List (Str × Size)}

/-! ### C07 -/

/-- **C07** The elements of the result are a permutation of the elements of the input. -/
theorem C07_rearrange_permutes (hb : Modelled E b) (hell : '…' ∉ pattern) (hkw : IntKw kw)
    (h : rearrange b so (.one x) pattern kw = .ok y) :
    y.data.Perm x.data ∧ y.shape.prod = x.shape.prod := by
  obtain ⟨GL, GR, L, R, len, ha, hm⟩ := (move_iff hb.lawful so hell hkw (.inl rfl) (fun h => by cases h) y).1 h
  have hax := rearrange_axes ha.pattern ha.prepared
  have hp := hm.perm ha.nodup.1 ha.nodup.2 (fun a => ⟨hax.1 a, hax.2 a⟩) ha.fits.shape_eq
  exact ⟨hp, by rw [← x.wf, ← y.wf, hp.length_eq]⟩

/-! ### C09 -/

/-- **C09** The order of keyword arguments does not matter for any operation, input, backend or outcome. -/
theorem C09_keyword_order (hell : '…' ∉ pattern) {kw' : List (Str × Size)} (hp : kw.Perm kw')
    (hn : (kw.map Prod.fst).Nodup) (b : Backend α) (t : Input α) (red : Reduction α) (so so' : SetOrder) :
    reduce b so t pattern red kw = reduce b so' t pattern red kw' :=
  (reduce_input b t (fun x => reduce_kw_perm hell hp hn b x red so so')).symm

/-! ### C10 -/

/-- **C10** Renaming axes in the pattern and in the keywords does not change the outcome of any operation: `ρ` maps names
to names and does not identify names in use. -/
theorem C10_rename_partial {ρ : Str → Str} (hp : IsPattern pattern GL GR)
    (hp' : IsPattern pattern' (GL.map (Elem.mapWords (renameWord ρ))) (GR.map (Elem.mapWords (renameWord ρ))))
    (hn : (kw.map Prod.fst).Nodup)
    (hname : ∀ w ∈ sideWords GL ++ sideWords GR ++ kw.map Prod.fst, IsName false w → IsName false (ρ w))
    (hinj : ∀ w ∈ sideWords GL ++ sideWords GR ++ kw.map Prod.fst,
      ∀ v ∈ sideWords GL ++ sideWords GR ++ kw.map Prod.fst, IsName false w → IsName false v → ρ w = ρ v → w = v)
    (b : Backend α) (t : Input α) (red : Reduction α) (so so' : SetOrder) :
    reduce b so' t pattern' red (kw.map (fun p => (renameWord ρ p.1, p.2))) = reduce b so t pattern red kw := by
  refine reduce_input b t (fun x => reduce_rename hp hp' hn ⟨?_, ?_, ?_, ?_, ?_⟩ b x red so so')
  · exact if_neg (fun h => isName_ne_dots h rfl)
  · exact fun w _ hw => if_neg (fun h => isName_not_number false h hw)
  · intro w hw h
    rw [renameWord, if_pos h]
    exact hname w hw h
  · exact fun w _ h => if_neg h
  · intro w hw v hv h
    unfold renameWord at h
    by_cases h1 : IsName false w
    · rw [if_pos h1] at h
      by_cases h2 : IsName false v
      · rw [if_pos h2] at h; exact hinj w hw v hv h1 h2 h
      · rw [if_neg h2] at h
        exact absurd (h ▸ hname w hw h1) h2
    · rw [if_neg h1] at h
      by_cases h2 : IsName false v
      · rw [if_pos h2] at h
        exact absurd (h ▸ hname v hv h2) h1
      · rwa [if_neg h2] at h

end

section
attribute [local instance] asciiUnicode

example : reduce (numpyBackend intOps true) idOrder (.one t43) "(a b) c -> c b".toList (.name "sum".toList) [kwInt "a" 2, kwInt "b" 2] =
    reduce (numpyBackend intOps true) idOrder (.one t43) "(x h1) a -> a h1".toList (.name "sum".toList) [kwInt "h1" 2, kwInt "x" 2] := by
  rfl
end

section
variable {α : Type u} [PyUnicode] {E : ElemOps α} {b : Backend α} {so : SetOrder} {x y z : Tensor α}
  {l m r : Str} {GL GM GR : List Elem} {pattern pattern' : Str} {kw : List (Str × Size)}

/-! ### C13 -/

/-- **C13** Writing as many fresh names for the ellipsis as there are dimensions it stands for does not change the outcome
of any operation, whatever the backend.  (For `rearrange` and `repeat` with an ellipsis only on the left that stands for no
dimension see `C13_empty_ellipsis`.) -/
theorem C13_ellipsis {es : List Str} (hp : IsPattern pattern GL GR)
    (hp' : IsPattern pattern' (fillEllipsis es GL) (fillEllipsis es GR)) (hn : (kw.map Prod.fst).Nodup)
    (hname : ∀ e ∈ es, IsName false e) (hnd : es.Nodup)
    (hfresh : ∀ e ∈ es, e ∉ sideWords GL ++ sideWords GR ∧ e ∉ kw.map Prod.fst) (hd : dots ∈ sideWords GL)
    (hpar : ∀ ws, Elem.paren ws ∈ GL → dots ∉ ws) (hx : x.ndim + 1 = GL.length + es.length)
    (red : Reduction α) (hc : es ≠ [] ∨ dots ∈ sideWords GR ∨ isRed red.kind) (b : Backend α) (so so' : SetOrder) :
    reduce b so' (.one x) pattern' red kw = reduce b so (.one x) pattern red kw :=
  reduce_fill hp hp' hn ⟨hname, hnd, hfresh⟩ hd hpar x hx red hc b so so'

end

section
attribute [local instance] asciiUnicode

example : reduce (numpyBackend intOps true) idOrder (.one ⟨[2, 1, 3], [0, 1, 2, 3, 4, 5], rfl⟩) "a ... -> (... a)".toList (.name "rearrange".toList) [] =
    reduce (numpyBackend intOps true) idOrder (.one ⟨[2, 1, 3], [0, 1, 2, 3, 4, 5], rfl⟩) "a x y -> (x y a)".toList (.name "rearrange".toList) [] := by
  decide

/-- The exception: an ellipsis that stands for no dimension must still be repeated on the right by `rearrange`. -/
theorem C13_empty_ellipsis :
    rearrange (numpyBackend intOps true) idOrder (.one t23) "a b ... -> a b".toList [] = .error .einops ∧
    rearrange (numpyBackend intOps true) idOrder (.one t23) "a b -> a b".toList [] = .ok t23 := by
  constructor <;> rfl
end

section
variable {α : Type u} [PyUnicode] {E : ElemOps α} {b : Backend α} {so : SetOrder} {x y z : Tensor α}
  {l m r : Str} {GL GM GR : List Elem} {pattern pattern' : Str} {kw : List (Str × Size)}

/-! ### C14 -/

/-- **C14** Patterns that are equal after writing `()` for `1` and leaving out `1` in parentheses have the same outcome. -/
theorem C14_units {GL' GR' : List Elem} (hp : IsPattern pattern GL GR) (hp' : IsPattern pattern' GL' GR')
    (hL : GL'.map Elem.dropUnits = GL.map Elem.dropUnits) (hR : GR'.map Elem.dropUnits = GR.map Elem.dropUnits)
    (hn : (kw.map Prod.fst).Nodup) (b : Backend α) (t : Input α) (red : Reduction α) (so so' : SetOrder) :
    reduce b so' t pattern' red kw = reduce b so t pattern red kw :=
  reduce_input b t (fun x => reduce_units hp hp' hL hR hn b x red so so')

/-- the dimension of one element of a side, when it stands for one group of axes -/
theorem shape_at {G A B : List Elem} {e : Elem} (hG : G = A ++ e :: B) {s n v : Nat}
    {gs : List (List Axis)} (hg : gs = spread (ellAxes n) (denote s 0 G)) {len : AxisMap}
    (hunit : ∀ k, ∃ k' g, denote s k (e :: B) = .group g :: denote s k' B ∧ Axis.str ellipsisStr ∉ g ∧
      ((∀ a ∈ g, a ∈ gs.flatten) → groupSize len g = v)) {shape : List Nat} (hs : shape = gs.map (groupSize len)) :
    (Elem.bare dots ∉ A → shape[A.length]? = some v) ∧
      (Elem.bare dots ∉ B → B.length + 1 ≤ shape.length ∧ shape[shape.length - (B.length + 1)]? = some v) := by
  have hden : ∀ (A B : List Elem) k, ∃ k', denote s k (A ++ B) = denote s k A ++ denote s k' B := by
    intro A B
    induction A with
    | nil => exact fun k => ⟨k, rfl⟩
    | cons a A ih =>
      intro k
      cases a with
      | bare w => obtain ⟨k', h⟩ := ih (k + 1); exact ⟨k', by simp [denote, h]⟩
      | paren ws => obtain ⟨k', h⟩ := ih (k + ws.length); exact ⟨k', by simp [denote, h]⟩
  obtain ⟨k1, h1⟩ := hden A (e :: B) 0
  obtain ⟨k2, g, h2, hne, hz⟩ := hunit k1
  rw [hG, h1, h2, spread_append] at hg
  have hlenA : Elem.bare dots ∉ A → (spread (ellAxes n) (denote s 0 A)).length = A.length := by
    intro h
    have := spread_length (side := s) (k := 0) (G := A) (ellAxes n)
    rwa [List.count_eq_zero.2 h, Nat.zero_mul] at this
  have hlenB : Elem.bare dots ∉ B → (spread (ellAxes n) (denote s k2 B)).length = B.length := by
    intro h
    have := spread_length (side := s) (k := k2) (G := B) (ellAxes n)
    rwa [List.count_eq_zero.2 h, Nat.zero_mul] at this
  have hflat : g.flatMap (fun a => if a = .str ellipsisStr then ellAxes n else [a]) = g := by
    have : ∀ l : List Axis, Axis.str ellipsisStr ∉ l →
        l.flatMap (fun a => if a = .str ellipsisStr then ellAxes n else [a]) = l := by
      intro l
      induction l with
      | nil => intro _; rfl
      | cons a l ih =>
        intro h
        rw [List.mem_cons, not_or] at h
        rw [List.flatMap_cons, if_neg (fun hc => h.1 hc.symm), ih h.2]
        rfl
    exact this g hne
  simp only [spread, hflat] at hg
  replace hz := hz (fun a ha => by rw [hg]; simp [ha])
  subst hg
  simp only [List.map_append, List.map_cons, hz] at hs
  have hl : shape.length = (spread (ellAxes n) (denote s 0 A)).length + ((spread (ellAxes n) (denote s k2 B)).length + 1) := by
    rw [hs]; simp
  refine ⟨fun h => ?_, fun h => ⟨by rw [hl, hlenB h]; omega, ?_⟩⟩
  · rw [hs, List.getElem?_append_right (by simp [hlenA h])]
    simp [hlenA h]
  · have hidx : shape.length - (B.length + 1) = (spread (ellAxes n) (denote s 0 A)).length := by
      rw [hl, hlenB h]; omega
    rw [hidx, hs, List.getElem?_append_right (by simp)]
    simp

theorem shape_at_unit {G A B : List Elem} {e : Elem} (hG : G = A ++ e :: B) (he : e.dropUnits = .paren []) {s n : Nat}
    {gs : List (List Axis)} (hg : gs = spread (ellAxes n) (denote s 0 G)) {len : AxisMap} {shape : List Nat}
    (hs : shape = gs.map (groupSize len)) :
    (Elem.bare dots ∉ A → shape[A.length]? = some 1) ∧
      (Elem.bare dots ∉ B → B.length + 1 ≤ shape.length ∧ shape[shape.length - (B.length + 1)]? = some 1) := by
  have hunit : ∀ k, ∃ k', denote s k (e :: B) = .group [] :: denote s k' B := by
    intro k
    cases e with
    | bare w =>
      simp only [Elem.dropUnits] at he
      split at he
      · rename_i hu
        exact ⟨k + 1, by simp only [denote]; rw [wordAxes_unit hu, if_neg (number_ne_dots (isUnit_number hu).1)]⟩
      · cases he
    | paren ws =>
      simp only [Elem.dropUnits, Elem.paren.injEq, List.filter_eq_nil_iff, Bool.not_eq_true', Bool.not_eq_false] at he
      refine ⟨k + ws.length, ?_⟩
      simp only [denote]
      have : ∀ (ws : List Str) k, (∀ w ∈ ws, isUnit w = true) → wordsAxes s k ws = [] := by
        intro ws
        induction ws with
        | nil => intros; rfl
        | cons w ws ih =>
          intro k h
          simp only [wordsAxes]
          rw [wordAxes_unit (h w (by simp)), ih (k + 1) (fun v hv => h v (by simp [hv]))]
          rfl
      rw [this ws k he]
  refine shape_at hG hg (fun k => ?_) hs
  obtain ⟨k', h⟩ := hunit k
  exact ⟨k', [], h, by simp, fun _ => rfl⟩

/-- a call that succeeds is legal, and the result has the shape written on the right -/
theorem accepted_shapes {red : Reduction α} (hb : Modelled E b) (hkw : IntKw kw) (hp : IsPattern pattern GL GR)
    (hneg : red.kind = .name "repeat".toList → RefusesNegative E b ∨ ∀ p ∈ kw, 0 ≤ p.2.val)
    (hcall : ∀ f, red ≠ .callable f) (hred : ∀ o, red = .name o → isRed (.name o) → Computes E o b)
    (h : reduce b so (.one x) pattern red kw = .ok y) :
    ∃ L R len, Accepted red.kind pattern kw x.shape GL GR L R len ∧ y.shape = R.map (groupSize len) := by
  have hell : '…' ∉ pattern := (isPattern_split hp).1
  have key : ∃ GL' GR' L R len, Accepted red.kind pattern kw x.shape GL' GR' L R len ∧ y.shape = R.map (groupSize len) := by
    cases red with
    | callable f => exact absurd rfl (hcall f)
    | name o =>
      by_cases ho : isRed (.name o)
      · have hc := hred o rfl ho
        have hmem : o ∈ builtins := by
          obtain ⟨GL, GR, L, R, len, ha⟩ := accepted_of_ok hc.modelled.lawful so hell hkw (red := .name o)
            (fun h => absurd h ho.2) h
          exact accepted_name ho ha
        obtain ⟨GL, GR, L, R, len, ha, hm⟩ := (reduce_iff hb.lawful so hell hkw ho (hc.reduce hmem) y).1 h
        refine ⟨GL, GR, L, R, len, ha, ?_⟩
        rcases hm with hm | hm
        · exact hm.2.1
        · exact hm.2.2.1
      · have hmv : isMove (.name o) := by
          unfold isRed at ho
          unfold isMove
          tauto
        obtain ⟨GL, GR, L, R, len, ha, hm⟩ := (move_iff hb.lawful so hell hkw hmv
          (fun h => (hneg (by rw [h]; rfl)).imp RefusesNegative.strict id) y).1 h
        exact ⟨GL, GR, L, R, len, ha, hm.1⟩
  obtain ⟨GL', GR', L, R, len, ha, hy⟩ := key
  obtain ⟨l, r, rfl, hl, hr⟩ := hp
  obtain ⟨rfl, rfl⟩ := IsPattern.unique hl hr ha.pattern
  exact ⟨L, R, len, ha, hy⟩

/-- **C14** A unit (`1`, `()` or a group of units) on the left only fits a dimension of length 1, and on the right gives a
dimension of length 1.  The position is counted from the front if the ellipsis is not before the unit and from the end if
it is not after it. -/
theorem C14_unit_dimension {red : Reduction α} (hb : Modelled E b) (hkw : IntKw kw) (hp : IsPattern pattern GL GR)
    (hneg : red.kind = .name "repeat".toList → RefusesNegative E b ∨ ∀ p ∈ kw, 0 ≤ p.2.val)
    (hcall : ∀ f, red ≠ .callable f) (hred : ∀ o, red = .name o → isRed (.name o) → Computes E o b)
    (h : reduce b so (.one x) pattern red kw = .ok y) {e : Elem} (he : e.dropUnits = .paren []) (A B : List Elem) :
    (GL = A ++ e :: B → (Elem.bare dots ∉ A → x.shape[A.length]? = some 1) ∧
      (Elem.bare dots ∉ B → B.length + 1 ≤ x.shape.length ∧ x.shape[x.shape.length - (B.length + 1)]? = some 1)) ∧
    (GR = A ++ e :: B → (Elem.bare dots ∉ A → y.shape[A.length]? = some 1) ∧
      (Elem.bare dots ∉ B → B.length + 1 ≤ y.shape.length ∧ y.shape[y.shape.length - (B.length + 1)]? = some 1)) := by
  obtain ⟨L, R, len, ha, hy⟩ := accepted_shapes hb hkw hp hneg hcall hred h
  obtain ⟨n, _, hL, hR, _⟩ := ha.prepared.groups
  exact ⟨fun h => shape_at_unit h he hL ha.fits.shape_eq, fun h => shape_at_unit h he hR hy⟩

end

section
attribute [local instance] asciiUnicode

example : rearrange (numpyBackend intOps true) idOrder (.one t23) "(1 a) b -> 1 b (a 1 1) ()".toList [] =
    rearrange (numpyBackend intOps true) idOrder (.one t23) "a b -> () b a 1".toList [] := by rfl
example : rearrange (numpyBackend intOps true) idOrder (.one t23) "1 b -> b".toList [] = .error .einops := by rfl
end

section
variable {α : Type u} [PyUnicode] {E : ElemOps α} {b : Backend α} {so : SetOrder} {x y z : Tensor α}
  {l m r : Str} {GL GM GR : List Elem} {pattern pattern' : Str} {kw : List (Str × Size)}

/-! ### C42 -/

/-- **C42** Every number (other than 1) is an axis of its own: writing pairwise different fresh names for all numbers of
both sides, and giving the numbers as their sizes, does not change the outcome of any operation. -/
theorem C42_numbers_are_names {nmL nmR : Nat → Str} (hp : IsPattern pattern GL GR)
    (hp' : IsPattern pattern' (nameCountsSide nmL 0 GL) (nameCountsSide nmR 0 GR)) {new : List (Str × Size)}
    (hnew : new = countSizes nmL 0 (sideWords GL) ++ countSizes nmR 0 (sideWords GR))
    (hname : ∀ p ∈ new, IsName false p.1) (hfresh : ∀ p ∈ new, p.1 ∉ sideWords GL ++ sideWords GR)
    (hnd : ((kw ++ new).map Prod.fst).Nodup) (b : Backend α) (t : Input α) (red : Reduction α) (so so' : SetOrder) :
    reduce b so' t pattern' red (kw ++ new) = reduce b so t pattern red kw := by
  subst hnew
  exact reduce_input b t (fun x => reduce_counts hp hp' ⟨hname, hfresh, hnd⟩ b x red so so')

end

section
attribute [local instance] asciiUnicode

example : reduce (numpyBackend intOps true) idOrder (.one t43) "(2 2) b -> b".toList (.name "sum".toList) [] =
    reduce (numpyBackend intOps true) revOrder (.one t43) "(p q) b -> b".toList (.name "sum".toList) [kwInt "p" 2, kwInt "q" 2] := by
  decide
example : reduce (numpyBackend intOps true) idOrder (.one t23) "a b -> 2 a (b 2)".toList (.name "repeat".toList) [] =
    reduce (numpyBackend intOps true) idOrder (.one t23) "a b -> p a (b q)".toList (.name "repeat".toList) [kwInt "p" 2, kwInt "q" 2] := by
  decide
-- a number does not match the same number on the other side
example : rearrange (numpyBackend intOps true) idOrder (.one t23) "2 b -> b 2".toList [] = .error .einops := by rfl
end

section
variable {α : Type u} [PyUnicode] {E : ElemOps α} {b : Backend α} {so : SetOrder} {x y z : Tensor α}
  {l m r : Str} {GL GM GR : List Elem} {pattern pattern' : Str} {kw : List (Str × Size)}

/-! ### C16 -/

/-- **C16** Reducing the axes that `repeat` added: if the reduction of `n` copies of an element `v`, `n` the product of the
new lengths, is `g v`, then `reduce(repeat(x, 'l -> r'), 'r -> l', o)` is `x` with `g` applied to every element. -/
theorem C16_reduce_of_repeat (hl : IsSide false false l GL) (hr : IsSide false false r GR)
    (hpar : ∀ ws, Elem.paren ws ∈ GR → dots ∉ ws) (hb : Modelled E b) (hkw : IntKw kw)
    (hneg : RefusesNegative E b ∨ ∀ p ∈ kw, 0 ≤ p.2.val)
    (h : repeat_ b so (.one x) (l ++ ['-', '>'] ++ r) kw = .ok y) :
    ∃ L R len, Accepted (.name "repeat".toList) (l ++ ['-', '>'] ++ r) kw x.shape GL GR L R len ∧
      (∃ kw', GivesLengths GR GL len kw') ∧
      ∀ {E' : ElemOps α} {b' : Backend α} {o : Str} (g : α → α) (so' : SetOrder), Computes E' o b' → o ∈ builtins →
        (∀ v ∈ x.data, E'.op o (List.replicate (groupSize len (R.flatten.filter (fun a => a ∉ L.flatten))) v) = .ok (g v)) →
        (¬ Drops R L → ∀ v ∈ x.data, g v = v) → (o = "mean".toList → b'.isFloat y = true) →
        ∀ kw', GivesLengths GR GL len kw' → ∃ z : Tensor α, z.shape = x.shape ∧ z.data = x.data.map g ∧
          reduce b' so' (.one y) (r ++ ['-', '>'] ++ l) (.name o) kw' = .ok z := by
  have hell : '…' ∉ l ++ ['-', '>'] ++ r := (isPattern_split ⟨l, r, rfl, hl, hr⟩).1
  have hell' : '…' ∉ r ++ ['-', '>'] ++ l := (isPattern_split ⟨r, l, rfl, hr, hl⟩).1
  obtain ⟨_, _, L, R, len, ha, hm⟩ := (move_iff hb.lawful so hell hkw (.inr rfl)
    (fun _ => hneg.imp RefusesNegative.strict id) y).1 h
  obtain ⟨u1, u2⟩ := IsPattern.unique hl hr ha.pattern
  replace u1 := u1.symm
  replace u2 := u2.symm
  subst u1 u2
  refine ⟨L, R, len, ha, exists_lengths _ _ _, fun {E' b' o} g so' hc ho hop hone hf kw' hk => ?_⟩
  have hs := ha.prepared.sides
  rw [SidesOK, if_neg repeat_ne, if_pos rfl] at hs
  have hir := red_names_isRed ho
  have hd : dots ∈ sideWords GL → dots ∈ sideWords GR := fun h => hs.left_in_right _ h dots_not_number
  have hback := accepted_back (op' := .name o) hl hr ha hd (by
    rw [SidesOK, if_neg hir.1, if_neg hir.2]
    exact ⟨fun s hs => by cases hs; exact ho, ⟨⟨hd, hpar⟩, hs.units_left, hs.left_in_right⟩⟩) hk
  rw [← hm.1] at hback
  have hle : ∀ a ∈ R.flatten ++ L.flatten, ∀ t i v, a = .anon t i v → t ≤ 1 := by
    intro a hm
    obtain ⟨n, _, rfl, rfl, _⟩ := ha.prepared.groups
    exact sides_le (by rw [List.mem_append] at hm ⊢; exact hm.symm)
  have hinj : ∀ a ∈ R.flatten ++ L.flatten, ∀ c ∈ R.flatten ++ L.flatten, swapSide a = swapSide c → a = c :=
    fun a ha c hc h => swapSide_inj (hle a ha) (hle c hc) h
  have hlen : ∀ a ∈ R.flatten ++ L.flatten, len a = (len ∘ swapSide) (swapSide a) := fun a ha => by
    simp only [Function.comp]; rw [swapSide_swap (hle a ha)]
  refine ⟨⟨x.shape, x.data.map g, by rw [List.length_map, x.wf]⟩, rfl, rfl, ?_⟩
  refine (reduce_iff hc.modelled.lawful so' hell' hk.int hir (hc.reduce ho) _).2 ⟨GR, GL, _, _, _, hback, ?_⟩
  have hdr : Drops (relabel swapSide R) (relabel swapSide L) ↔ Drops R L := drops_relabel hinj
  by_cases hD : Drops R L
  · refine .inr ⟨hdr.2 hD, hf, ?_⟩
    rw [Reduces.relabel_iff hinj hlen]
    exact hm.reduces_back hop ha.nodup.2 ha.fits.shape_eq rfl rfl
  · refine .inl ⟨fun h => hD (hdr.1 h), ?_⟩
    rw [Moves.relabel_iff hinj hlen]
    have hid : x.data.map g = x.data := by
      conv_rhs => rw [← List.map_id x.data]
      exact List.map_congr_left (hone hD)
    have : (⟨x.shape, x.data.map g, by rw [List.length_map, x.wf]⟩ : Tensor α) = x := by
      cases x; simp only [Tensor.mk.injEq, true_and]; exact hid
    rw [this]
    exact hm.symm ha.fits.shape_eq

omit [PyUnicode] in
theorem groupSize_ne_zero {len : AxisMap} : ∀ {as : List Axis}, (∀ a ∈ as, len a ≠ 0) → groupSize len as ≠ 0
  | [], _ => by simp [groupSize]
  | a :: as, h => by
    have := groupSize_ne_zero (fun c hc => h c (List.mem_cons_of_mem a hc))
    have := h a (by simp)
    simp only [groupSize, List.map_cons, List.prod_cons] at *
    exact Nat.mul_ne_zero ‹_› ‹_›

/-- **C16** For a reduction that gives `v` on any positive number of copies of `v` (minimum, maximum, any and all of
booleans), and new axes that are not empty, reducing what was repeated gives back `x`. -/
theorem C16_idempotent (hl : IsSide false false l GL) (hr : IsSide false false r GR)
    (hpar : ∀ ws, Elem.paren ws ∈ GR → dots ∉ ws) (hb : Modelled E b) (hkw : IntKw kw)
    (hneg : RefusesNegative E b ∨ ∀ p ∈ kw, 0 ≤ p.2.val)
    (h : repeat_ b so (.one x) (l ++ ['-', '>'] ++ r) kw = .ok y) {o : Str} (hc : Computes E o b)
    (ho : o ∈ builtins) (hid : ∀ v ∈ x.data, ∀ n, 0 < n → E.op o (List.replicate n v) = .ok v)
    (hf : o = "mean".toList → b.isFloat y = true) :
    ∃ L R len, Accepted (.name "repeat".toList) (l ++ ['-', '>'] ++ r) kw x.shape GL GR L R len ∧
      (∃ kw', GivesLengths GR GL len kw') ∧
      ((∀ a ∈ R.flatten, a ∉ L.flatten → len a ≠ 0) → ∀ kw', GivesLengths GR GL len kw' →
        reduce b so (.one y) (r ++ ['-', '>'] ++ l) (.name o) kw' = .ok x) := by
  obtain ⟨L, R, len, ha, hex, hall⟩ := C16_reduce_of_repeat hl hr hpar hb hkw hneg h
  refine ⟨L, R, len, ha, hex, fun hpos kw' hk => ?_⟩
  obtain ⟨z, h1, h2, h3⟩ := hall id so hc ho (fun v hv => hid v hv _ (by
    apply Nat.pos_of_ne_zero
    refine groupSize_ne_zero (fun a ha => ?_)
    simp only [List.mem_filter, decide_eq_true_eq] at ha
    exact hpos a ha.1 ha.2)) (fun _ _ _ => rfl) hf kw' hk
  have : z = x := by
    cases z; cases x
    simp only [List.map_id] at h1 h2
    subst h1 h2
    rfl
  rw [h3, this]

end

section
variable [PyUnicode] {x y : Tensor ℚ} {b : Backend ℚ} {so : SetOrder} {l r : Str} {GL GR : List Elem} {kw : List (Str × Size)}

omit [PyUnicode] in
theorem foldNonempty_replicate {f : ℚ → ℚ → ℚ} (hf : ∀ v, f v v = v) (v : ℚ) {n : Nat} (hn : 0 < n) :
    foldNonempty f (List.replicate n v) = .ok v := by
  cases n with
  | zero => omega
  | succ n =>
    simp only [List.replicate_succ, foldNonempty]
    congr 1
    induction n with
    | zero => rfl
    | succ n ih => rw [List.replicate_succ, List.foldl_cons, hf]; exact ih (by omega)

omit [PyUnicode] in
/-- **C16** `min` and `max` on numbers are such reductions. -/
theorem C16_min_max : ∀ o ∈ ["min".toList, "max".toList], ∀ (v : ℚ) n, 0 < n → ratOps.op o (List.replicate n v) = .ok v := by
  intro o ho v n hn
  simp only [List.mem_cons, List.not_mem_nil, or_false] at ho
  rcases ho with rfl | rfl
  · exact foldNonempty_replicate min_self v hn
  · exact foldNonempty_replicate max_self v hn

/-- **C16** The sum over the copies is the number of copies times the tensor. -/
theorem C16_sum (hl : IsSide false false l GL) (hr : IsSide false false r GR)
    (hpar : ∀ ws, Elem.paren ws ∈ GR → dots ∉ ws) (hb : Modelled ratOps b) (hkw : IntKw kw)
    (hneg : RefusesNegative ratOps b ∨ ∀ p ∈ kw, 0 ≤ p.2.val) (hc : Computes ratOps "sum".toList b)
    (h : repeat_ b so (.one x) (l ++ ['-', '>'] ++ r) kw = .ok y) :
    ∃ L R len, Accepted (.name "repeat".toList) (l ++ ['-', '>'] ++ r) kw x.shape GL GR L R len ∧
      (∃ kw', GivesLengths GR GL len kw') ∧
      ∀ kw', GivesLengths GR GL len kw' → ∃ z : Tensor ℚ, z.shape = x.shape ∧
        z.data = x.data.map (fun v => (groupSize len (R.flatten.filter (fun a => a ∉ L.flatten)) : ℚ) * v) ∧
        reduce b so (.one y) (r ++ ['-', '>'] ++ l) (.name "sum".toList) kw' = .ok z := by
  obtain ⟨L, R, len, ha, hex, hall⟩ := C16_reduce_of_repeat hl hr hpar hb hkw hneg h
  refine ⟨L, R, len, ha, hex, fun kw' hk => ?_⟩
  refine hall _ so hc (by decide) (fun v _ => ?_) (fun hd v _ => ?_) (fun h => by cases h) kw' hk
  · show (Except.ok (List.replicate _ v).sum : Py ℚ) = _
    rw [List.sum_replicate, nsmul_eq_mul]
  · have : R.flatten.filter (fun a => decide (a ∉ L.flatten)) = [] := by
      rw [List.filter_eq_nil_iff]
      intro a ha
      simp only [decide_eq_true_eq, not_not]
      by_contra hc
      exact hd ⟨a, ha, hc⟩
    rw [this]
    simp [groupSize]

end

section
attribute [local instance] asciiUnicode

example : repeat_ (numpyBackend intOps true) idOrder (.one ⟨[2], [5, 7], rfl⟩) "a -> 2 (a r)".toList [kwInt "r" 3] =
    .ok ⟨[2, 6], [5, 5, 5, 7, 7, 7, 5, 5, 5, 7, 7, 7], rfl⟩ := by rfl
example : reduce (numpyBackend intOps true) idOrder (.one ⟨[2, 6], [5, 5, 5, 7, 7, 7, 5, 5, 5, 7, 7, 7], rfl⟩)
    "2 (a r) -> a".toList (.name "sum".toList) [kwInt "r" 3, kwInt "a" 2] = .ok ⟨[2], [30, 42], rfl⟩ := by rfl
example : reduce (torchBackend intOps true) idOrder (.one ⟨[2, 6], [5, 5, 5, 7, 7, 7, 5, 5, 5, 7, 7, 7], rfl⟩)
    "2 (a r) -> a".toList (.name "max".toList) [kwInt "r" 3, kwInt "a" 2] = .ok ⟨[2], [5, 7], rfl⟩ := by rfl
end

section
variable {α : Type u} [PyUnicode] {E : ElemOps α} {b : Backend α} {so : SetOrder} {x y z : Tensor α}
  {l m r : Str} {GL GM GR : List Elem} {pattern pattern' : Str} {kw : List (Str × Size)}

/-! ### C17 -/

/-- **C17** Two legal `reduce` calls in a row, 'l -> m' and 'm -> r', that agree about the lengths of the axes give the same
as the single call 'l -> r', for a reduction that can be done in stages and in any order. -/
theorem C17_reduce_stages (hl : IsSide false false l GL) (hm : IsSide false false m GM) (hr : IsSide false false r GR)
    {o : Str} (hc : Computes E o b) (hstage : FoldLaw (E.op o)) (hperm : ∀ vs ws : List α, vs.Perm ws → E.op o vs = E.op o ws)
    (ho : o ∈ builtins) {kw₁ kw₂ : List (Str × Size)} (hkw₁ : IntKw kw₁) (hkw₂ : IntKw kw₂)
    (e₁ : reduce b so (.one x) (l ++ ['-', '>'] ++ m) (.name o) kw₁ = .ok y)
    (e₂ : reduce b so (.one y) (m ++ ['-', '>'] ++ r) (.name o) kw₂ = .ok z) {L M R : List (List Axis)} {len : AxisMap}
    (h₁ : Accepted (.name o) (l ++ ['-', '>'] ++ m) kw₁ x.shape GL GM L M len)
    (h₂ : Accepted (.name o) (m ++ ['-', '>'] ++ r) kw₂ y.shape GM GR M R len) :
    reduce b so (.one x) (l ++ ['-', '>'] ++ r) (.name o) kw₁ = .ok z := by
  have hell₁ : '…' ∉ l ++ ['-', '>'] ++ m := (isPattern_split ⟨l, m, rfl, hl, hm⟩).1
  have hell₂ : '…' ∉ m ++ ['-', '>'] ++ r := (isPattern_split ⟨m, r, rfl, hm, hr⟩).1
  have hell₃ : '…' ∉ l ++ ['-', '>'] ++ r := (isPattern_split ⟨l, r, rfl, hl, hr⟩).1
  have hir := red_names_isRed ho
  have hlaw := hc.modelled.lawful
  have s1 := h₁.prepared.sides
  have s2 := h₂.prepared.sides
  rw [SidesOK, if_neg hir.1, if_neg hir.2] at s1 s2
  have h₃ := compose_accepted (op₃ := .name o) hl hm hr h₁ h₂ s1.2.units_right s1.2.right_in_left (by
    rw [SidesOK, if_neg hir.1, if_neg hir.2]
    exact ⟨s1.1, ⟨fun h => s1.2.ellipsis.1 (s2.2.ellipsis.1 h), s1.2.ellipsis.2⟩, s2.2.units_right,
      fun w hw hn => s1.2.right_in_left w (s2.2.right_in_left w hw hn) hn⟩)
  -- the results in terms of `len`
  have res : ∀ {p : Str} {kw : List (Str × Size)} {G G' : List Elem} {A B : List (List Axis)} {t t' : Tensor α},
      IntKw kw → '…' ∉ p → Accepted (.name o) p kw t.shape G G' A B len →
      (reduce b so (.one t) p (.name o) kw = .ok t' ↔ (¬ Drops A B ∧ Moves len A B t t') ∨
        (Drops A B ∧ (o = "mean".toList → b.isFloat t = true) ∧ Reduces (E.op o) len A B t t')) := by
    intro p kw G G' A B t t' hkw hell ha
    constructor
    · intro he
      by_cases hd : Drops A B
      · refine .inr ⟨hd, ?_⟩
        have hf : o = "mean".toList → b.isFloat t = true := by
          intro hmean
          by_contra hfl
          subst hmean
          rw [ha.mean_error hlaw so hkw hd (by simpa using hfl)] at he
          cases he
        refine ⟨hf, (ha.reduces (red := .name o) hlaw so hkw hir hd (fun s k hk => ?_) t').1 he⟩
        simp only [reduceAxesE]
        rw [if_neg (not_not_intro (show _ ∈ reductionNames from ho)), if_neg, hc.reduce ho s k hk]
        rintro ⟨h9, h10⟩
        rw [hlaw.isFloat s t, hf h9] at h10
        cases h10
      · refine .inl ⟨hd, ?_⟩
        obtain ⟨t'', h5, h6⟩ := ha.moves (red := .name o) hlaw hkw (fun a hal => by
          by_contra hcc
          exact hd ⟨a, hal, hcc⟩)
        rw [h5 so] at he
        cases he
        exact h6
    · intro h
      exact (reduce_iff hlaw so hell hkw hir (hc.reduce ho) t').2 ⟨G, G', A, B, len, ha, h⟩
  rw [res hkw₁ hell₁ h₁] at e₁
  rw [res hkw₂ hell₂ h₂] at e₂
  rw [res hkw₁ hell₃ h₃]
  have hML := reduce_axes_sub h₁.pattern hir h₁.prepared
  have hRM := reduce_axes_sub h₂.pattern hir h₂.prepared
  have nd : ∀ {A B : List (List Axis)}, ¬ Drops A B → ∀ a ∈ A.flatten, a ∈ B.flatten := by
    intro A B h a ha
    by_contra hcc
    exact h ⟨a, ha, hcc⟩
  rcases e₁ with ⟨d1, m1⟩ | ⟨d1, f1, r1⟩
  · rcases e₂ with ⟨d2, m2⟩ | ⟨d2, f2, r2⟩
    · exact .inl ⟨fun ⟨a, ha, hn⟩ => hn (nd d2 a (nd d1 a ha)), m1.trans (nd d2) m2⟩
    · obtain ⟨a, ha, hn⟩ := d2
      refine .inr ⟨⟨a, hML a ha, hn⟩, fun h => by rw [hlaw.isFloat x y]; exact f2 h, ?_⟩
      exact m1.reduces hperm h₁.nodup.1 h₁.nodup.2 (fun a => ⟨nd d1 a, hML a⟩) r2
  · have d3 : Drops L R := by
      obtain ⟨a, ha, hn⟩ := d1
      exact ⟨a, ha, fun h => hn (hRM a h)⟩
    rcases e₂ with ⟨d2, m2⟩ | ⟨d2, f2, r2⟩
    · exact .inr ⟨d3, f1, r1.moves (fun a => ⟨nd d2 a, hRM a⟩) m2⟩
    · exact .inr ⟨d3, f1, r1.trans hstage hperm h₁.nodup.1 h₁.nodup.2 hML hRM r2⟩

/-- **C17** If the middle side has no parentheses the two calls cannot disagree about lengths. -/
theorem C17_reduce_stages_elementary (hl : IsSide false false l GL) (hm : IsSide false false m GM)
    (hr : IsSide false false r GR) (he : Elementary GM)
    {o : Str} (hc : Computes E o b) (hstage : FoldLaw (E.op o)) (hperm : ∀ vs ws : List α, vs.Perm ws → E.op o vs = E.op o ws)
    (ho : o ∈ builtins) {kw₁ kw₂ : List (Str × Size)} (hkw₁ : IntKw kw₁) (hkw₂ : IntKw kw₂)
    (e₁ : reduce b so (.one x) (l ++ ['-', '>'] ++ m) (.name o) kw₁ = .ok y)
    (e₂ : reduce b so (.one y) (m ++ ['-', '>'] ++ r) (.name o) kw₂ = .ok z) :
    reduce b so (.one x) (l ++ ['-', '>'] ++ r) (.name o) kw₁ = .ok z := by
  have hell₁ : '…' ∉ l ++ ['-', '>'] ++ m := (isPattern_split ⟨l, m, rfl, hl, hm⟩).1
  have hell₂ : '…' ∉ m ++ ['-', '>'] ++ r := (isPattern_split ⟨m, r, rfl, hm, hr⟩).1
  have hir := red_names_isRed ho
  have hlaw := hc.modelled.lawful
  obtain ⟨_, _, L, M, len, a1, m1⟩ := (reduce_iff hlaw so hell₁ hkw₁ hir (hc.reduce ho) y).1 e₁
  obtain ⟨_, _, M', R, len', a2, m2⟩ := (reduce_iff hlaw so hell₂ hkw₂ hir (hc.reduce ho) z).1 e₂
  obtain ⟨rfl, rfl⟩ := IsPattern.unique hl hm a1.pattern
  obtain ⟨e, rfl⟩ := IsPattern.unique hm hr a2.pattern
  subst e
  have s1 := a1.prepared.sides
  rw [SidesOK, if_neg hir.1, if_neg hir.2] at s1
  have hsh : y.shape = M.map (groupSize len) := by
    rcases m1 with m1 | m1
    · exact m1.2.1
    · exact m1.2.2.1
  exact C17_reduce_stages hl hm hr hc hstage hperm ho hkw₁ hkw₂ e₁ e₂ a1
    (second_accepted hm a1 hsh a2 s1.2.units_right he (reduce_axes_sub a2.pattern hir a2.prepared))

end

section
/-- the exact reductions do not depend on the order of the elements -/
theorem ratOps_perm : ∀ o ∈ builtins, ∀ vs ws : List ℚ, vs.Perm ws → ratOps.op o vs = ratOps.op o ws := by
  have hfold : ∀ f : ℚ → ℚ → ℚ, (∀ a c, f a c = f c a) → (∀ a c d, f (f a c) d = f a (f c d)) →
      ∀ vs ws : List ℚ, vs.Perm ws → foldNonempty f vs = foldNonempty f ws := by
    intro f hcomm hassoc vs ws h
    have key : ∀ vs ws : List ℚ, vs.Perm ws → ∀ a, vs.foldl f a = ws.foldl f a := by
      intro vs ws h
      induction h with
      | nil => intro a; rfl
      | cons v _ ih => intro a; exact ih _
      | swap v w l =>
        intro a
        simp only [List.foldl_cons]
        rw [hassoc, hcomm w v, ← hassoc]
      | trans _ _ ih1 ih2 => intro a; rw [ih1, ih2]
    induction h with
    | nil => rfl
    | cons v h _ => simp only [foldNonempty]; rw [key _ _ h]
    | swap v w l => simp only [foldNonempty, List.foldl_cons]; rw [hcomm]
    | trans _ _ ih1 ih2 => rw [ih1, ih2]
  intro o ho vs ws h
  simp only [builtins, List.mem_cons, List.not_mem_nil, or_false] at ho
  rcases ho with rfl | rfl | rfl | rfl | rfl | rfl | rfl
  · exact hfold min min_comm min_assoc vs ws h
  · exact hfold max max_comm max_assoc vs ws h
  · show (Except.ok vs.sum : Py ℚ) = .ok ws.sum
    rw [h.sum_eq]
  · show (if vs = [] then (.error .backend : Py ℚ) else .ok (vs.sum / vs.length)) =
      if ws = [] then .error .backend else .ok (ws.sum / ws.length)
    rw [h.sum_eq, h.length_eq]
    by_cases hv : vs = []
    · subst hv; rw [List.nil_perm.1 h]
    · rw [if_neg hv, if_neg (fun hw => hv (by subst hw; exact List.perm_nil.1 h))]
  · show (Except.ok vs.prod : Py ℚ) = .ok ws.prod
    rw [h.prod_eq]
  · show (Except.ok _ : Py ℚ) = .ok _
    rw [show vs.any (fun v => decide (v ≠ 0)) = ws.any (fun v => decide (v ≠ 0)) from by
      rw [Bool.eq_iff_iff, List.any_eq_true, List.any_eq_true]; simp only [h.mem_iff]]
  · show (Except.ok _ : Py ℚ) = .ok _
    rw [show vs.all (fun v => decide (v ≠ 0)) = ws.all (fun v => decide (v ≠ 0)) from by
      rw [Bool.eq_iff_iff, List.all_eq_true, List.all_eq_true]; simp only [h.mem_iff]]

/-- **C17** The assumptions are met by all built-in reductions computed exactly. -/
theorem C17_exact_reductions : ∀ o ∈ builtins,
    FoldLaw (ratOps.op o) ∧ ∀ vs ws : List ℚ, vs.Perm ws → ratOps.op o vs = ratOps.op o ws :=
  fun o ho => ⟨ratOps_law o ho, ratOps_perm o ho⟩

attribute [local instance] asciiUnicode

example : reduce (numpyBackend intOps true) idOrder (.one t43) "(a b) c -> c a".toList (.name "sum".toList) [kwInt "a" 2] =
    .ok ⟨[3, 2], [3, 15, 5, 17, 7, 19], rfl⟩ := by rfl
example : reduce (numpyBackend intOps true) idOrder (.one ⟨[3, 2], [3, 15, 5, 17, 7, 19], rfl⟩) "c a -> a".toList (.name "sum".toList) [] =
    reduce (numpyBackend intOps true) idOrder (.one t43) "(a b) c -> a".toList (.name "sum".toList) [kwInt "a" 2] := by rfl
end

end Einops
