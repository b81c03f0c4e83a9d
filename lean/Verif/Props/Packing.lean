import Verif.Proofs.Unpacking
import Verif.Props.Examples
import Verif.Props.Operations

/-!
# Properties of `pack` and `unpack`
-/

namespace Einops

universe u

section
variable {α : Type u} [PyUnicode] {ops : PackOps α} {pattern : Str}

/-- `pack` returns a tensor exactly when the tensors share the dimensions around the star (none of them zero); every
element of every input is then at its documented place, and the packed shapes are the dimensions at the star. -/
theorem C23_pack (ho : PackModelled ops) (xs : List (Tensor α)) (y : Tensor α) (ps : List (List Nat)) :
    pack ops xs pattern = .ok (y, ps) ↔ xs ≠ [] ∧ ∃ pre post, IsPackPattern pattern pre.length post.length ∧
      0 ∉ pre ∧ 0 ∉ post ∧ Packs pre post xs ps y := pack_iff ho

/-- No element is lost: every entry of the packed tensor is an entry of an input. -/
theorem C23_pack_covers (ho : PackModelled ops) {xs : List (Tensor α)} {y : Tensor α} {ps : List (List Nat)}
    (h : pack ops xs pattern = .ok (y, ps)) (t : List Nat) (ht : inBounds t y.shape = true) :
    ∃ (k : Nat) (x : Tensor α) (q : List Nat), xs[k]? = some x ∧ inBounds q x.shape = true ∧ y.at? t = x.at? q := by
  obtain ⟨-, pre, post, -, -, -, hp⟩ := (pack_iff ho).1 h
  rw [hp.whole] at ht
  obtain ⟨i, s, j, rfl, hi, hs, hj⟩ := inBounds_split (mid := [_]) (by simpa using ht)
  obtain ⟨q, rfl⟩ : ∃ q, s = [q] := List.length_eq_one_iff.1 (by simpa using inBounds_length hs)
  simp only [inBounds_cons, inBounds_nil, and_true] at hs
  obtain ⟨k, m, n, h1, h2, rfl⟩ := exists_offset _ q hs
  rw [List.getElem?_map, Option.map_eq_some_iff] at h1
  obtain ⟨r, hr, rfl⟩ := h1
  obtain ⟨s, hsb, rfl⟩ := ravel_surj h2
  have hlt : k < xs.length := by rw [← hp.count]; exact (List.getElem?_eq_some_iff.1 hr).1
  have hx : xs[k]? = some xs[k] := by simp [hlt]
  refine ⟨k, xs[k], i ++ s ++ j, hx, ?_, ?_⟩
  · rw [hp.part k _ r hx hr, List.append_assoc, List.append_assoc, inBounds_append (inBounds_length hi),
      inBounds_append (inBounds_length hsb)]
    exact ⟨hi, hsb, hj⟩
  · rw [List.append_assoc, List.singleton_append, hp.entry k _ r hx hr i s j hi hsb hj]

/-- An illegal pattern is refused with EinopsError, no tensors with IndexError. -/
theorem C23_errors (xs : List (Tensor α)) :
    ((¬ ∃ b a, IsPackPattern pattern b a) → pack ops xs pattern = .error .einops) ∧
    ((∃ b a, IsPackPattern pattern b a) → pack ops ([] : List (Tensor α)) pattern = .error .index) := by
  constructor
  · intro h
    unfold pack
    cases ha : analyzePattern pattern with
    | error e => rw [analyzePattern_err ha]
    | ok v =>
      obtain ⟨b, a, m⟩ := v
      exact absurd ⟨b, a, (analyzePattern_iff.1 ha).1⟩ h
  · rintro ⟨b, a, h⟩
    unfold pack
    rw [analyzePattern_iff.2 ⟨h, rfl⟩]

/-- `unpack` with the packed shapes returns the packed tensors; also when one length is replaced by -1. -/
theorem C24_unpack_pack (ho : PackModelled ops) {xs : List (Tensor α)} {y : Tensor α} {ps : List (List Nat)}
    (h : pack ops xs pattern = .ok (y, ps)) :
    unpack ops y (ps.map (fun r => r.map Int.ofNat)) pattern = .ok xs ∧
    ∀ qs, Resolves qs (ps.map List.prod).sum ps → unpack ops y qs pattern = .ok xs := by
  have key : ∀ qs, Resolves qs (ps.map List.prod).sum ps → unpack ops y qs pattern = .ok xs := by
    intro qs hq
    obtain ⟨-, pre, post, hp, h1, h2, hpk⟩ := (pack_iff ho).1 h
    obtain ⟨ys, hy, hpk'⟩ := unpack_exists ho hp hpk.whole hq (fun _ => ⟨h1, h2⟩)
    rw [hy, hpk.parts_unique hpk']
  exact ⟨key _ (resolves_self ps), key⟩

/-- The full statement of C26 with the hypotheses it needs (see the witnesses below): no dimension around the star is
zero, at least one packed shape, entries are lengths or -1, and the known lengths fit if there is a -1.  Then `unpack`
returns tensors exactly when the lengths add up to the axis (the unknown length being what remains), and cuts the axis
into consecutive pieces. -/
theorem C26_unpack_partial (ho : PackModelled ops) {pre post : List Nat} {N : Nat}
    (hp : IsPackPattern pattern pre.length post.length) {x : Tensor α} (hx : x.shape = pre ++ N :: post)
    (h0 : 0 ∉ pre ∧ 0 ∉ post) {ps : List (List Int)} (hne : ps ≠ []) (hge : ∀ s ∈ ps, ∀ d ∈ s, -1 ≤ d)
    (hk : -1 ∉ ps.flatten ∨ knownTotal ps ≤ N) (ys : List (Tensor α)) :
    unpack ops x ps pattern = .ok ys ↔ ∃ rs, Resolves ps N rs ∧ Packs pre post ys rs x := by
  constructor
  · intro h
    obtain ⟨rs, hr⟩ := unpack_resolves ho hp hx h0 hne hge hk h
    obtain ⟨ys', hy', hpk⟩ := unpack_exists ho hp hx hr (fun _ => h0)
    rw [hy'] at h
    cases h
    exact ⟨rs, hr, hpk⟩
  · rintro ⟨rs, hr, hpk⟩
    obtain ⟨ys', hy', hpk'⟩ := unpack_exists ho hp hx hr (fun _ => h0)
    rw [hy', hpk.parts_unique hpk']

/-- If no length is unknown and the products do not add up to the axis, `unpack` raises RuntimeError. -/
theorem C26_rejects_partial (ho : PackModelled ops) {pre post : List Nat} {N : Nat}
    (hp : IsPackPattern pattern pre.length post.length) {x : Tensor α} (hx : x.shape = pre ++ N :: post)
    (h0 : 0 ∉ pre ∧ 0 ∉ post) {rs : List (List Nat)} (hne : rs ≠ []) (hsum : (rs.map List.prod).sum ≠ N) :
    unpack ops x (rs.map (fun r => r.map Int.ofNat)) pattern = .error .runtime := by
  have hself := resolves_self rs
  have hnot : -1 ∉ (rs.map (fun r => r.map Int.ofNat)).flatten := by
    intro h
    obtain ⟨s, hs, h'⟩ := List.mem_flatten.1 h
    obtain ⟨r, -, rfl⟩ := List.mem_map.1 hs
    exact neg_one_not_mem_ofNat r h'
  have hge : ∀ s ∈ rs.map (fun r => r.map Int.ofNat), ∀ d ∈ s, -1 ≤ d := by
    intro s hs
    obtain ⟨r, -, rfl⟩ := List.mem_map.1 hs
    exact fills_ge (fills_ofNat r)
  cases hu : unpack ops x (rs.map (fun r => r.map Int.ofNat)) pattern with
  | ok ys =>
    obtain ⟨rs', hr, -⟩ := (C26_unpack_partial ho hp hx h0 (by simpa using hne) hge (.inl hnot) ys).1 hu
    have : rs' = rs := by
      have h1 := hr.fills
      rw [List.forall₂_map_left_iff] at h1
      clear hself hnot hge hu hr hsum hne
      induction h1 with
      | nil => rfl
      | cons a _ ih => rw [ih, Fills.ofNat a]
    rw [this] at hr
    exact absurd hr.total hsum
  | error e =>
    unfold unpack at hu
    rw [analyzePattern_iff.2 ⟨hp, rfl⟩] at hu
    simp only at hu
    rw [if_neg (by rw [hx]; simp; omega), if_neg (by
      rw [composedLengths_count hge]
      have := filter_unknown_le (ps := rs.map (fun r => r.map Int.ofNat))
      have := hself.one
      omega)] at hu
    split at hu
    · cases hu; rfl
    · cases hu

/-- More than one packed shape with -1, a wrong rank or an illegal pattern: EinopsError. -/
theorem C26_errors {x : Tensor α} {ps : List (List Int)} :
    ((¬ ∃ b a, IsPackPattern pattern b a) → unpack ops x ps pattern = .error .einops) ∧
    (∀ b a, IsPackPattern pattern b a → x.shape.length ≠ b + 1 + a → unpack ops x ps pattern = .error .einops) ∧
    (∀ b a, IsPackPattern pattern b a → (∀ s ∈ ps, ∀ d ∈ s, -1 ≤ d) → 1 < (ps.filter (fun s => decide (-1 ∈ s))).length →
      unpack ops x ps pattern = .error .einops) := by
  refine ⟨?_, ?_, ?_⟩
  · intro h
    unfold unpack
    cases ha : analyzePattern pattern with
    | error e => rw [analyzePattern_err ha]
    | ok v =>
      obtain ⟨b, a, m⟩ := v
      exact absurd ⟨b, a, (analyzePattern_iff.1 ha).1⟩ h
  · intro b a h hl
    unfold unpack
    rw [analyzePattern_iff.2 ⟨h, rfl⟩]
    simp only
    rw [if_pos hl]
  · intro b a h hge hc
    unfold unpack
    rw [analyzePattern_iff.2 ⟨h, rfl⟩]
    simp only
    by_cases hl : x.shape.length ≠ b + 1 + a
    · rw [if_pos hl]
    · rw [if_neg hl, if_pos (by rw [composedLengths_count hge]; exact hc)]

/-- The full statement of C25 with the hypotheses it needs (see the witnesses below): packing the pieces gives back the
tensor and the resolved shapes, so the pieces use every element exactly once. -/
theorem C25_pack_unpack_partial (ho : PackModelled ops) {pre post : List Nat} {N : Nat}
    (hp : IsPackPattern pattern pre.length post.length) {x : Tensor α} (hx : x.shape = pre ++ N :: post)
    (h0 : 0 ∉ pre ∧ 0 ∉ post) {ps : List (List Int)} (hne : ps ≠ []) (hge : ∀ s ∈ ps, ∀ d ∈ s, -1 ≤ d)
    (hk : -1 ∉ ps.flatten ∨ knownTotal ps ≤ N) {ys : List (Tensor α)} (h : unpack ops x ps pattern = .ok ys) :
    ∃ rs, Resolves ps N rs ∧ pack ops ys pattern = .ok (x, rs) := by
  obtain ⟨rs, hr, hpk⟩ := (C26_unpack_partial ho hp hx h0 hne hge hk ys).1 h
  refine ⟨rs, hr, (pack_iff ho).2 ⟨?_, pre, post, hp, h0.1, h0.2, hpk⟩⟩
  rintro rfl
  have := hpk.count
  have h2 := hr.fills.length_eq
  rw [this] at h2
  exact hne (List.length_eq_zero_iff.1 h2)

/-- The functions of `einops.array_api` return what those of `einops` return, for the same reshape, concatenation and
slicing. -/
theorem C39_pack_array_api (xp : PackOps α) (xs : List (Tensor α)) : packArrayApi xp xs pattern = pack xp xs pattern := by
  have hl : ∀ (b a m : Nat) (xs : List (Tensor α)), packLoopArrayApi xp b a m xs = packLoop xp b a m xs := by
    intro b a m xs
    induction xs with
    | nil => rfl
    | cons x xs ih => simp only [packLoopArrayApi, packLoop, ih]
  unfold packArrayApi pack
  simp only [hl]

theorem C39_unpack_array_api (xp : PackOps α) (x : Tensor α) (ps : List (List Int)) :
    unpackArrayApi xp x ps pattern = unpack xp x ps pattern := rfl

/-- `array_api.rearrange` and (non-negative sizes) `array_api.repeat` return what the functions of `einops` return with
any modelled backend. -/
theorem C39_moves_array_api {E E' : ElemOps α} {b : Backend α} (hb : Modelled E' b) {so : SetOrder} {x : Tensor α}
    {kw : List (Str × Size)} (hell : '…' ∉ pattern) (hkw : IntKw kw) (op : Str)
    (hop : op = "rearrange".toList ∨ op = "repeat".toList ∧ ∀ p ∈ kw, 0 ≤ p.2.val) (y : Tensor α) :
    arrayApiReduce E so (.one x) pattern (.name op) kw = .ok y ↔ reduce b so (.one x) pattern (.name op) kw = .ok y := by
  rw [arrayApi_eq]
  exact C19_backends_agree_move .arrayApi hb hell hkw op hop y

/-- `array_api.reduce` returns what `einops.reduce` returns, except that only the latter refuses a `mean` of
non-floating elements. -/
theorem C39_reduce_array_api {E : ElemOps α} {b : Backend α} {o : Str} (hb : Computes E o b) (ho : o ∈ builtins)
    {so : SetOrder} {x : Tensor α} {kw : List (Str × Size)} (hm : o = "mean".toList → b.isFloat x = true)
    (hell : '…' ∉ pattern) (hkw : IntKw kw) (y : Tensor α) :
    arrayApiReduce E so (.one x) pattern (.name o) kw = .ok y ↔ reduce b so (.one x) pattern (.name o) kw = .ok y := by
  have hr := red_names_isRed ho
  have ha : Computes E o (arrayApiBackend E) := .arrayApi
  rw [arrayApi_eq, reduce_iff ha.modelled.lawful so hell hkw hr (ha.reduce ho),
    reduce_iff hb.modelled.lawful so hell hkw hr (hb.reduce ho)]
  simp only [arrayApiBackend, implies_true, eq_true hm, true_and]

end

/-! ### Examples and witnesses -/

section
attribute [local instance] asciiUnicode

/-- a vector with entries 0, 1, ... -/
def vec (n : Nat) : Tensor Int := ⟨[n], (List.range n).map Int.ofNat, by simp⟩

-- the docstring example of `pack`, smaller
def p1 : Tensor Int := ⟨[2, 2], [0, 1, 2, 3], rfl⟩
def p2 : Tensor Int := ⟨[2, 3, 2], [10, 11, 12, 13, 14, 15, 16, 17, 18, 19, 20, 21], rfl⟩
def packed : Tensor Int := ⟨[2, 4, 2], [0, 1, 10, 11, 12, 13, 14, 15, 2, 3, 16, 17, 18, 19, 20, 21], rfl⟩

example : pack numpyPack [p1, p2] "i * k".toList = .ok (packed, [[], [3]]) := by rfl
example : unpack numpyPack packed [[], [3]] "i * k".toList = .ok [p1, p2] := by rfl
example : unpack strictPack packed [[], [-1]] "i * k".toList = .ok [p1, p2] := by rfl
example : Resolves [[], [-1]] 4 [[], [3]] :=
  ⟨.cons .nil (.cons (.cons (.inr rfl) .nil) .nil), by decide, by decide, by decide⟩
example : IsPackPattern "i * k".toList 1 1 := ⟨["i".toList], ["k".toList], words_iff.2 (by decide), rfl, rfl, by decide, by
  intro w hw
  simp at hw
  rcases hw with rfl | rfl <;> exact ⟨by decide, by decide, by decide⟩⟩
example : unpack numpyPack (vec 7) [[2, 2], [2]] "*".toList = .error .runtime := by rfl
example : unpack numpyPack (vec 7) [[-1], [-1]] "*".toList = .error .einops := by rfl
example : pack numpyPack [vec 2] "* a *".toList = .error .einops := by rfl

/-- C26 and C25 fail when the known lengths are too large for the axis: the pieces overlap silently. -/
theorem C26_overlap : unpack numpyPack (vec 5) [[2], [-1], [4]] "*".toList =
    .ok [⟨[2], [0, 1], rfl⟩, ⟨[0], [], rfl⟩, ⟨[4], [1, 2, 3, 4], rfl⟩] := by rfl

theorem C25_overlap : ∃ ys y qs, unpack numpyPack (vec 5) [[2], [-1], [4]] "*".toList = .ok ys ∧
    pack numpyPack ys "*".toList = .ok (y, qs) ∧ y ≠ vec 5 :=
  ⟨_, ⟨[6], [0, 1, 1, 2, 3, 4], rfl⟩, [[2], [0], [4]], rfl, rfl, by decide⟩

/-- ... when a dimension around the star is zero: lengths that do not add up are accepted ... -/
theorem C26_zero_dimension : unpack strictPack (⟨[0, 5], [], rfl⟩ : Tensor Int) [[2], [2]] "a *".toList =
    .ok [⟨[0, 2], [], rfl⟩, ⟨[0, 2], [], rfl⟩] := by rfl

/-- ... and packing them again is refused ... -/
theorem C25_zero_dimension : ∃ ys, unpack strictPack (⟨[0, 5], [], rfl⟩ : Tensor Int) [[5]] "a *".toList = .ok ys ∧
    pack strictPack ys "a *".toList = .error .backend := ⟨_, rfl, rfl⟩

/-- ... when there are no packed shapes: nothing is checked ... -/
theorem C26_no_shapes : unpack numpyPack (vec 5) [] "*".toList = .ok [] := by rfl

/-- ... and for numpy, when a length is below -1. -/
theorem C26_below_minus_one : unpack numpyPack (vec 5) [[-2]] "*".toList = .ok [vec 5] := by rfl

-- torch refuses it
example : unpack strictPack (vec 5) [[-2]] "*".toList = .error .runtime := by rfl

example : arrayApiReduce intOps idOrder (.one t23) "a b -> b".toList (.name "max".toList) [] =
    reduce (torchBackend intOps false) idOrder (.one t23) "a b -> b".toList (.name "max".toList) [] := by rfl
example : arrayApiReduce intOps idOrder (.one t23) "a b -> b a 2".toList (.name "repeat".toList) [] =
    repeat_ (torchBackend intOps false) idOrder (.one t23) "a b -> b a 2".toList [] := by rfl

/-- a mean for whole numbers, rounding down -/
def floorMean : ElemOps ℤ := ⟨fun _ vs => .ok (vs.sum / vs.length)⟩

/-- The restriction of `C39_reduce_array_api`: a mean of non-floating elements is refused only by `einops.reduce`. -/
theorem C39_mean_not_floating :
    reduce (numpyBackend floorMean false) idOrder (.one t23) "a b -> b".toList (.name "mean".toList) [] =
      .error .notImplemented ∧
    arrayApiReduce floorMean idOrder (.one t23) "a b -> b".toList (.name "mean".toList) [] =
      .ok ⟨[3], [1, 2, 3], rfl⟩ := by
  constructor <;> rfl

end

end Einops
