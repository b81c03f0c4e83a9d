import Verif.Proofs.SizeLaws

/-!
# Sizes that could be left out, wrong sizes, and sizes from `parse_shape`

`Accepted red.kind p kw x.shape GL GR L R len` says that the call is legal and that the axes have the lengths `len`.
-/

namespace Einops

universe u

/-- the dictionary returned by `parse_shape` passed on as keyword arguments, `**parse_shape(x, pattern)` -/
def asSizes (d : List (Str × Nat)) : List (Str × Size) := d.map (fun p => (p.1, ⟨p.2, true⟩))

theorem mem_asSizes {d : List (Str × Nat)} {n : Str} {s : Size} : (n, s) ∈ asSizes d ↔ ∃ v, (n, v) ∈ d ∧ s = ⟨v, true⟩ := by
  unfold asSizes
  rw [List.mem_map]
  constructor
  · rintro ⟨⟨n', v⟩, h1, h2⟩
    cases h2
    exact ⟨v, h1, rfl⟩
  · rintro ⟨v, h1, rfl⟩
    exact ⟨(n, v), h1, rfl⟩

theorem asSizes_names (d : List (Str × Nat)) : (asSizes d).map Prod.fst = d.map Prod.fst := by
  unfold asSizes
  rw [List.map_map]
  rfl

section
variable {α : Type u} [PyUnicode] {E : ElemOps α} {b : Backend α} {so so' : SetOrder} {x y z : Tensor α}
  {l m r pattern : Str} {GL GM GR : List Elem} {L R : List (List Axis)} {len : AxisMap} {kw kw' : List (Str × Size)}
  {d : List (Str × Nat)}

/-- **C51** Giving further sizes that are the lengths of axes of the pattern changes nothing: result or exception of the
framework are the same, for every reduction. -/
theorem C51_right_sizes {red : Reduction α} (hkw : IntKw kw) (hkw' : IntKw kw')
    (h : Accepted red.kind pattern kw x.shape GL GR L R len) (hsub : ∀ q ∈ kw, q ∈ kw')
    (hnew : ∀ n s, (n, s) ∈ kw' → (IsName false n ∧ n ∈ sideWords GL ++ sideWords GR) ∧ (len (.str n) : Int) = s.val)
    (b : Backend α) (so so' : SetOrder) :
    reduce b so (.one x) pattern red kw' = reduce b so' (.one x) pattern red kw :=
  Accepted.same_outcome hkw' hkw (h.more_sizes hsub hnew) h (fun _ _ => rfl) b so so'

/-- **C51** Giving a further size that is not the length of an axis of the pattern makes the call fail. -/
theorem C51_wrong_size {red : Reduction α} (hb : Modelled E b) (hkw : IntKw kw) (hkw' : IntKw kw')
    (hneg : red.kind = .name "repeat".toList → RefusesNegative E b ∨ ∀ p ∈ kw', 0 ≤ p.2.val)
    (h : Accepted red.kind pattern kw x.shape GL GR L R len) (hsub : ∀ q ∈ kw, q ∈ kw') {n : Str} {s : Size}
    (hn : (n, s) ∈ kw') (hbad : ¬ ((IsName false n ∧ n ∈ sideWords GL ++ sideWords GR) ∧ (len (.str n) : Int) = s.val)) :
    ∃ e, reduce b so (.one x) pattern red kw' = .error e := by
  cases hr : reduce b so (.one x) pattern red kw' with
  | error e => exact ⟨e, rfl⟩
  | ok y =>
    have hell : '…' ∉ pattern := (isPattern_split h.pattern).1
    obtain ⟨GL', GR', L', R', len', h'⟩ := accepted_of_ok hb.lawful so hell hkw'
      (fun hc => (hneg hc).imp RefusesNegative.strict id) hr
    obtain ⟨l, r, rfl, hl, hr⟩ := h.pattern
    obtain ⟨rfl, rfl⟩ := IsPattern.unique hl hr h'.pattern
    obtain ⟨rfl, rfl, hlen⟩ := Accepted.len_unique hkw h h' hsub
    have hk := h'.prepared.keywords n (List.mem_map.2 ⟨_, hn, rfl⟩)
    refine absurd ⟨hk, ?_⟩ hbad
    rw [← hlen _ (h.name_mem hk.1 hk.2)]
    exact h'.fits.kw_eq n s hn

/-- **C51** Sizes are only used for their values: two legal calls on one tensor with the same pattern whose axes have the
same lengths have the same outcome, whichever sizes are given and whichever are left to be inferred. -/
theorem C51_which_sizes {red : Reduction α} {len' : AxisMap} (hkw : IntKw kw) (hkw' : IntKw kw')
    (h : Accepted red.kind pattern kw x.shape GL GR L R len) (h' : Accepted red.kind pattern kw' x.shape GL GR L R len')
    (hlen : ∀ a ∈ L.flatten ++ R.flatten, len a = len' a) (b : Backend α) (so so' : SetOrder) :
    reduce b so (.one x) pattern red kw = reduce b so' (.one x) pattern red kw' :=
  Accepted.same_outcome hkw hkw' h h' hlen b so so'

/-- the dictionary holds lengths of axes -/
theorem parse_shape_lengths {op : OpKind} {l r : Str} (hl : IsSide false false l GL)
    (h : Accepted op (l ++ ['-', '>'] ++ r) kw x.shape GL GR L R len) (hd : parseShape x.shape l = .ok d) :
    ShapeMatches GL x.shape d ∧ ∀ p ∈ d, len (.str p.1) = p.2 := by
  obtain ⟨G, hG, hm⟩ := (C22_parse_shape x.shape l (isSide_no_special hl (by simp)) d).1 hd
  obtain rfl := hG.unique hl
  refine ⟨hm, ?_⟩
  obtain ⟨n, _, hL, _, _⟩ := h.prepared.groups
  exact hm.lengths hG.one_ellipsis (by rw [← hL]; exact h.fits.shape_eq)

/-- **C51** If `parse_shape(x, l)` succeeds, then passing (some of) its result on to a legal call on `x` with the same left
side changes nothing. -/
theorem C51_parse_shape_sizes {red : Reduction α} (hl : IsSide false false l GL) (hkw : IntKw kw) (hkw' : IntKw kw')
    (h : Accepted red.kind (l ++ ['-', '>'] ++ r) kw x.shape GL GR L R len) (hd : parseShape x.shape l = .ok d)
    (hsub : ∀ q ∈ kw, q ∈ kw') (hnew : ∀ q ∈ kw', q ∈ kw ∨ q ∈ asSizes d) (b : Backend α) (so so' : SetOrder) :
    reduce b so (.one x) (l ++ ['-', '>'] ++ r) red kw' = reduce b so' (.one x) (l ++ ['-', '>'] ++ r) red kw := by
  obtain ⟨hm, hlen⟩ := parse_shape_lengths hl h hd
  refine C51_right_sizes hkw hkw' h hsub (fun n s hq => ?_) b so so'
  rcases hnew _ hq with hq | hq
  · exact ⟨h.prepared.keywords n (List.mem_map.2 ⟨_, hq, rfl⟩), h.fits.kw_eq n s hq⟩
  · obtain ⟨v, hv, rfl⟩ := mem_asSizes.1 hq
    obtain ⟨h1, h2⟩ := hm.keys n (List.mem_map.2 ⟨_, hv, rfl⟩)
    exact ⟨⟨h2, List.mem_append_left _ h1⟩, by have := hlen _ hv; simp only at this ⊢; omega⟩

/-- **C51** `rearrange` is undone with the sizes from `parse_shape`: if `y = rearrange(x, 'l -> r', ...)` and
`parse_shape(x, l)` succeeds, then `rearrange(y, 'r -> l', **parse_shape(x, l))` is `x`, in every framework. -/
theorem C51_parse_shape_undo (hl : IsSide false false l GL) (hr : IsSide false false r GR)
    (hpar : ∀ ws, Elem.paren ws ∈ GR → dots ∉ ws) (hb : Modelled E b) (hkw : IntKw kw)
    (h : rearrange b so (.one x) (l ++ ['-', '>'] ++ r) kw = .ok y) (hd : parseShape x.shape l = .ok d)
    {E' : ElemOps α} {b' : Backend α} (hb' : Modelled E' b') :
    rearrange b' so' (.one y) (r ++ ['-', '>'] ++ l) (asSizes d) = .ok x := by
  obtain ⟨L, R, len, ha, -, hback⟩ := C05_rearrange_undo hl hr hpar hb hkw h
  obtain ⟨hm, hlen⟩ := parse_shape_lengths hl ha hd
  obtain ⟨G, hG, -⟩ := (C22_parse_shape x.shape l (isSide_no_special hl (by simp)) d).1 hd
  obtain rfl := hG.unique hl
  have hs := ha.prepared.sides
  rw [SidesOK, if_pos rfl] at hs
  refine hback (asSizes d) ⟨⟨?_, ?_⟩, ?_, ?_⟩ so' hb'
  · rw [asSizes_names]
    exact hm.sublist.nodup (hG.nodup rfl)
  · rintro ⟨n, s⟩ hq
    obtain ⟨v, -, rfl⟩ := mem_asSizes.1 hq
    rfl
  · intro w
    rw [asSizes_names]
    constructor
    · intro hw
      obtain ⟨h1, h2⟩ := hm.keys w hw
      exact ⟨h2, List.mem_append_right _ h1⟩
    · rintro ⟨h1, h2⟩
      refine hm.has h1 ?_
      rcases List.mem_append.1 h2 with h2 | h2
      · exact hs.right_in_left w h2 (isName_not_number false h1)
      · exact h2
  · rintro ⟨n, s⟩ hq
    obtain ⟨v, hv, rfl⟩ := mem_asSizes.1 hq
    have := hlen _ hv
    simp only at this ⊢
    omega

/-- **C51** The use of `parse_shape` shown in its docstring: the sizes of `x` passed to a `rearrange` or `repeat` of another
tensor give a result with the same lengths at the dimensions that have the same name in the pattern of `parse_shape`
(which may skip dimensions with `_`) and in the right side. -/
theorem C51_shape_like {op : Str} (hop : op = "rearrange".toList ∨ op = "repeat".toList) {s : Str} {G : List Elem}
    (hs : IsSide true false s G) (hm : IsSide false false m GM) (hr : IsSide false false r GR) (hb : Modelled E b)
    (hkw : IntKw kw) (hneg : op = "repeat".toList → RefusesNegative E b ∨ ∀ p ∈ kw, 0 ≤ p.2.val)
    (hd : parseShape x.shape s = .ok d) (hsub : ∀ q ∈ asSizes d, q ∈ kw)
    (h : reduce b so (.one y) (m ++ ['-', '>'] ++ r) (.name op) kw = .ok z)
    (hG : dots ∉ sideWords G) (hR : dots ∉ sideWords GR) {i : Nat} {e e' : Elem} {w : Str} (hw : IsName false w)
    (he : G[i]? = some e) (he' : GR[i]? = some e') (hc : e.core = [w]) (hc' : e'.core = [w]) :
    ∃ n, x.shape[i]? = some n ∧ z.shape[i]? = some n := by
  obtain ⟨G', hG', hsm⟩ := (C22_parse_shape x.shape s (isSide_no_special hs (by simp)) d).1 hd
  obtain rfl := hG'.unique hs
  have hell : '…' ∉ m ++ ['-', '>'] ++ r := (isPattern_split ⟨m, r, rfl, hm, hr⟩).1
  obtain ⟨GM', GR', L, R, len, ha, hmv⟩ := (move_iff hb.lawful so hell hkw
    (hop.imp (congrArg OpKind.name) (congrArg OpKind.name)) (fun hc => (hneg hc).imp RefusesNegative.strict id) z).1 h
  obtain ⟨rfl, rfl⟩ := IsPattern.unique hm hr ha.pattern
  obtain ⟨n, hn, hnd⟩ := hsm.at hG he hc hw
  refine ⟨n, hn, ?_⟩
  obtain ⟨k, _, _, hRk, _⟩ := ha.prepared.groups
  have := ha.fits.kw_eq w ⟨n, true⟩ (hsub _ (mem_asSizes.2 ⟨n, hnd, rfl⟩))
  rw [hmv.1, hRk, List.getElem?_map, spread_at hR he' hc' hw]
  simp only [Option.map_some, groupSize, List.map_cons, List.map_nil, List.prod_cons, List.prod_nil, Option.some.injEq]
  simp only at this
  omega

/-- **C51** With the pattern of `parse_shape` as right side the result has the shape of `x`. -/
theorem C51_same_shape {op : Str} (hop : op = "rearrange".toList ∨ op = "repeat".toList) (hm : IsSide false false m GM)
    (hr : IsSide false false r GR) (hb : Modelled E b) (hkw : IntKw kw)
    (hneg : op = "repeat".toList → RefusesNegative E b ∨ ∀ p ∈ kw, 0 ≤ p.2.val)
    (hd : parseShape x.shape r = .ok d) (hsub : ∀ q ∈ asSizes d, q ∈ kw)
    (h : reduce b so (.one y) (m ++ ['-', '>'] ++ r) (.name op) kw = .ok z) (hR : dots ∉ sideWords GR) :
    z.shape = x.shape := by
  obtain ⟨G', hG', hsm⟩ := (C22_parse_shape x.shape r (isSide_no_special hr (by simp)) d).1 hd
  obtain rfl := hG'.unique hr
  have hell : '…' ∉ m ++ ['-', '>'] ++ r := (isPattern_split ⟨m, r, rfl, hm, hr⟩).1
  obtain ⟨GM', GR', L, R, len, ha, hmv⟩ := (move_iff hb.lawful so hell hkw
    (hop.imp (congrArg OpKind.name) (congrArg OpKind.name)) (fun hc => (hneg hc).imp RefusesNegative.strict id) z).1 h
  obtain ⟨rfl, rfl⟩ := IsPattern.unique hm hr ha.pattern
  obtain ⟨k, _, _, hRk, _⟩ := ha.prepared.groups
  rw [hmv.1, hRk]
  refine (hsm.shape hR ?_ ?_ ?_).symm
  · intro w hw hc
    subst hc
    rcases hr.words_ok _ hw with h | h | h
    · exact underscore_ne_dots h
    · exact underscore_not_number h.1
    · exact underscore_not_name h
  · rintro ⟨w, v⟩ hv
    have := ha.fits.kw_eq w ⟨v, true⟩ (hsub _ (mem_asSizes.2 ⟨v, hv, rfl⟩))
    simp only at this ⊢
    omega
  · intro i v hmem
    exact ha.fits.number_eq 1 i v (List.mem_append_right _ (by rw [hRk]; exact hmem))

end

section
attribute [local instance] asciiUnicode

-- with and without the size that could be inferred; with a wrong one
example : rearrange (numpyBackend intOps true) idOrder (.one t43) "(a b) c -> a (c b)".toList [kwInt "a" 2] =
    .ok ⟨[2, 6], [0, 3, 1, 4, 2, 5, 6, 9, 7, 10, 8, 11], rfl⟩ := by rfl
example : rearrange (torchBackend intOps true) revOrder (.one t43) "(a b) c -> a (c b)".toList
    [kwInt "c" 3, kwInt "a" 2, kwInt "b" 2] = .ok ⟨[2, 6], [0, 3, 1, 4, 2, 5, 6, 9, 7, 10, 8, 11], rfl⟩ := by rfl
example : rearrange (numpyBackend intOps true) idOrder (.one t43) "(a b) c -> a (c b)".toList [kwInt "a" 2, kwInt "c" 4] =
    .error .einops := by rfl
-- another choice of the size that is given
example : rearrange (numpyBackend intOps true) idOrder (.one t43) "(a b) c -> a (c b)".toList [kwInt "b" 2] =
    .ok ⟨[2, 6], [0, 3, 1, 4, 2, 5, 6, 9, 7, 10, 8, 11], rfl⟩ := by rfl
-- sizes from `parse_shape`; the merge is undone with them
example : parseShape t43.shape "a b".toList = .ok [("a".toList, 4), ("b".toList, 3)] := by rfl
example : asSizes [("a".toList, 4), ("b".toList, 3)] = [kwInt "a" 4, kwInt "b" 3] := by rfl
example : rearrange (numpyBackend intOps true) idOrder (.one t43) "a b -> (b a)".toList [] =
    .ok ⟨[12], [0, 3, 6, 9, 1, 4, 7, 10, 2, 5, 8, 11], rfl⟩ := by rfl
example : rearrange (torchBackend intOps true) idOrder (.one ⟨[12], [0, 3, 6, 9, 1, 4, 7, 10, 2, 5, 8, 11], rfl⟩)
    "(b a) -> a b".toList [kwInt "a" 4, kwInt "b" 3] = .ok t43 := by rfl
-- as in the docstring, with a skipped dimension that is inferred
example : parseShape [2, 9, 3] "b _ h".toList = .ok [("b".toList, 2), ("h".toList, 3)] := by rfl
example : rearrange (numpyBackend intOps true) idOrder (.one ⟨[12], [0, 1, 2, 3, 4, 5, 6, 7, 8, 9, 10, 11], rfl⟩)
    "(b c h) -> b c h".toList [kwInt "b" 2, kwInt "h" 3] =
    .ok ⟨[2, 2, 3], [0, 1, 2, 3, 4, 5, 6, 7, 8, 9, 10, 11], rfl⟩ := by rfl
example : IsSide true false "b _ h".toList [.bare "b".toList, .bare "_".toList, .bare "h".toList] :=
  isSide_of (by decide) (by decide) (by decide) (by decide)
example : (Elem.bare "h".toList).core = ["h".toList] ∧ IsName false "h".toList := by decide
end

end Einops
