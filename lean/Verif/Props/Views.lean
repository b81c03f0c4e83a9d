import Verif.Proofs.Views
import Verif.Props.Steps

/-!
# C77: which results are views

The elements are places in memory (`Verif/Views.lean`).  The plain backends say where the elements of the result come
from; the backends with views say in addition whether they were copied.
-/

namespace Einops

section
variable [PyUnicode] {x : Tensor Cell} {pattern : Str} {kw : List (Str × Size)} {E : ElemOps Cell}
  {GL GR : List Elem} {L R : List (List Axis)} {len : AxisMap}

/-- calls that are refused are refused in the same way with and without views -/
theorem C77_refused (hell : '…' ∉ pattern) (hkw : IntKw kw) (hpos : ∀ p ∈ kw, 0 ≤ p.2.val) (red : Reduction Cell)
    (h : ¬ ∃ GL GR L R len, Accepted red.kind pattern kw x.shape GL GR L R len) (b c : Backend Cell) (so : SetOrder)
    (f : Tensor Cell → Tensor Cell) :
    reduce c so (.one x) pattern red kw = (reduce b so (.one x) pattern red kw).map f := by
  obtain ⟨e, he⟩ := C65_refused (red := red) hell hkw hpos h
  rw [he, he]
  rfl

/-- **C77** `rearrange` of a view returns a view if there is one: if the elements of the result lie in memory with a stride
for every dimension.  Otherwise the result is a copy. -/
theorem C77_rearrange {b : Backend Cell} (hb : Modelled E b) (expands : Bool) (hell : '…' ∉ pattern) (hkw : IntKw kw)
    (hpos : ∀ p ∈ kw, 0 ≤ p.2.val) (hx : IsView x) (so : SetOrder) :
    rearrange (b.withViews expands) so (.one x) pattern kw = (rearrange b so (.one x) pattern kw).map asView := by
  unfold rearrange
  by_cases h : ∃ GL GR L R len, Accepted (.name "rearrange".toList) pattern kw x.shape GL GR L R len
  · obtain ⟨GL, GR, L, R, len, h⟩ := h
    rw [views_call hb.lawful expands hx hkw h so]
    congr 1
    funext y
    rw [if_neg]
    have hax := rearrange_axes h.pattern h.prepared
    rintro (⟨a, ha, hn⟩ | ⟨-, a, ha, hn⟩)
    · exact hn (hax.1 a ha)
    · exact hn (hax.2 a ha)
  · exact C77_refused hell hkw hpos (.name _) h b _ so asView

/-- **C77** `repeat` of a view in torch returns a view if there is one. -/
theorem C77_repeat_torch (fl : Bool) (hell : '…' ∉ pattern) (hkw : IntKw kw) (hpos : ∀ p ∈ kw, 0 ≤ p.2.val)
    (hx : IsView x) (so : SetOrder) :
    repeat_ (torchViews E fl) so (.one x) pattern kw = (repeat_ (torchBackend E fl) so (.one x) pattern kw).map asView := by
  unfold repeat_ torchViews
  by_cases h : ∃ GL GR L R len, Accepted (.name "repeat".toList) pattern kw x.shape GL GR L R len
  · obtain ⟨GL, GR, L, R, len, h⟩ := h
    rw [views_call (torch_lawful E fl) true hx hkw h so]
    congr 1
    funext y
    rw [if_neg]
    have hax := repeat_axes h.pattern h.prepared
    rintro (⟨a, ha, hn⟩ | ⟨h, -⟩)
    · exact hn (hax.1 a ha)
    · cases h
  · exact C77_refused hell hkw hpos (.name _) h _ _ so asView

/-- **C77** `repeat` in numpy returns a copy as soon as there is a new axis, whether a view exists or not. -/
theorem C77_repeat_numpy (fl : Bool) (hkw : IntKw kw) (hx : IsView x)
    (h : Accepted (.name "repeat".toList) pattern kw x.shape GL GR L R len) (so : SetOrder) :
    repeat_ (numpyViews E fl) so (.one x) pattern kw = (repeat_ (numpyBackend E fl) so (.one x) pattern kw).map
      (fun y => if ∃ a ∈ R.flatten, a ∉ L.flatten then copyOf y else asView y) := by
  unfold repeat_ numpyViews
  rw [views_call (numpy_lawful E fl) false hx hkw h so]
  congr 1
  funext y
  have hax := repeat_axes h.pattern h.prepared
  have hd : ¬ Drops L R := by
    rintro ⟨a, ha, hn⟩
    exact hn (hax.1 a ha)
  by_cases hc : ∃ a ∈ R.flatten, a ∉ L.flatten
  · rw [if_pos hc, if_pos (.inr ⟨rfl, hc⟩)]
  · rw [if_neg hc, if_neg]
    rintro (h | h)
    · exact hd h
    · exact hc h.2

/-- **C77** `reduce` by a name returns new memory if it drops axes, and otherwise, like `rearrange`, a view if there is
one: it does not copy the tensor then. -/
theorem C77_reduce {b : Backend Cell} (hb : Modelled E b) (expands : Bool) {op : Str} (ho : isRed (.name op))
    (hkw : IntKw kw) (hx : IsView x) (h : Accepted (.name op) pattern kw x.shape GL GR L R len) (so : SetOrder) :
    (Drops L R → reduce (b.withViews expands) so (.one x) pattern (.name op) kw =
      (reduce b so (.one x) pattern (.name op) kw).map copyOf) ∧
    (¬ Drops L R → reduce (b.withViews expands) so (.one x) pattern (.name op) kw =
      (reduce b so (.one x) pattern (.name op) kw).map asView) := by
  rw [views_call hb.lawful expands hx hkw h so]
  constructor
  · intro hd
    congr 1
    funext y
    rw [if_pos (.inl hd)]
  · intro hd
    congr 1
    funext y
    rw [if_neg]
    rintro (h' | ⟨-, a, ha, hn⟩)
    · exact hd h'
    · exact hn (reduce_axes_sub h.pattern ho h.prepared a ha)

/-! ### When there is a view -/

/-- every view has strides for the axes of a pattern -/
theorem C77_strides {op : OpKind} (hx : IsView x) (h : Accepted op pattern kw x.shape GL GR L R len) :
    ∃ start st, Lies x L len start st := hx.lies h.fits.shape_eq h.nodup.1

/-- **C77** There is a view of the result of `rearrange` or `repeat` exactly if in every dimension of the result each axis
moves as far as the next one does in all its length, axes of length 1 left out; new axes do not move at all. -/
theorem C77_view_iff {b : Backend Cell} (hb : Modelled E b) {op : Str} (hm : isMove (.name op)) (hkw : IntKw kw)
    (h : Accepted (.name op) pattern kw x.shape GL GR L R len) {start : Int} {st : Axis → Int}
    (hx : Lies x L len start st) (hpos : ∀ a ∈ R.flatten, 0 < len a) (so : SetOrder) {y : Tensor Cell}
    (hy : reduce b so (.one x) pattern (.name op) kw = .ok y) :
    IsView y ↔ ∀ g ∈ R, Mergeable len (fun a => if a ∈ L.flatten then st a else 0) g := by
  obtain ⟨y', h1, h2⟩ := h.moves (red := .name op) hb.lawful hkw (h.move_sub hm)
  rw [h1 so] at hy
  cases hy
  exact (hx.moves h.nodup.1 h.nodup.2 (h.move_sub hm) h2).isView_iff h2.1 h.nodup.2 hpos

/-- **C77** If no dimension of the result joins axes (of lengths other than 1), there is always a view: splitting,
permuting, adding and removing dimensions of length 1, and (in torch) new axes never copy. -/
theorem C77_no_joining {b : Backend Cell} (hb : Modelled E b) {op : Str} (hm : isMove (.name op)) (hkw : IntKw kw)
    (h : Accepted (.name op) pattern kw x.shape GL GR L R len) (hx : IsView x)
    (h1 : ∀ g ∈ R, (proper len g).length ≤ 1) (so : SetOrder) {y : Tensor Cell}
    (hy : reduce b so (.one x) pattern (.name op) kw = .ok y) : IsView y := by
  obtain ⟨start, st, hl⟩ := C77_strides hx h
  obtain ⟨y', e1, e2⟩ := h.moves (red := .name op) hb.lawful hkw (h.move_sub hm)
  rw [e1 so] at hy
  cases hy
  refine (hl.moves h.nodup.1 h.nodup.2 (h.move_sub hm) e2).isView e2.1 h.nodup.2 (fun g hg => ?_)
  have := h1 g hg
  unfold Mergeable
  match hp : proper len g, this with
  | [], _ => simp
  | [a], _ => simp
  | _ :: _ :: _, hl => simp at hl

/-- **C77** For a tensor whose elements lie one after the other, the result of `rearrange` is a view exactly if the axes of
every dimension of the result come right after each other in the input, in the same order, axes of length 1 left out. -/
theorem C77_contiguous {b : Backend Cell} (hb : Modelled E b) (hkw : IntKw kw)
    (h : Accepted (.name "rearrange".toList) pattern kw x.shape GL GR L R len) (hx : Contiguous x)
    (hpos : ∀ a ∈ R.flatten, 0 < len a) (so : SetOrder) {y : Tensor Cell}
    (hy : rearrange b so (.one x) pattern kw = .ok y) :
    IsView y ↔ ∀ g ∈ R, proper len g <:+: proper len L.flatten := by
  obtain ⟨start, hl⟩ := hx.lies h.fits.shape_eq h.nodup.1
  have hax := rearrange_axes h.pattern h.prepared
  rw [C77_view_iff hb (.inl rfl) hkw h hl hpos so hy]
  apply forall₂_congr
  intro g hg
  have hin : ∀ a ∈ g, a ∈ L.flatten := fun a ha => hax.2 a (List.mem_flatten.2 ⟨g, hg, ha⟩)
  rw [← joins_contiguous h.nodup.1 (fun a ha => hpos a (hax.1 a ha)) hin]
  unfold Mergeable
  apply List.IsChain.iff_of_mem_imp
  intro a c ha hc
  have ha' : a ∈ L.flatten := hin a (List.mem_of_mem_filter ha)
  have hc' : c ∈ L.flatten := hin c (List.mem_of_mem_filter hc)
  simp only [if_pos ha', if_pos hc']

omit [PyUnicode] in
/-- a tensor whose elements lie one after the other is a view, in particular of itself -/
theorem C77_contiguous_view (hx : Contiguous x) : IsView x := by
  obtain ⟨start, h⟩ := hx
  obtain ⟨W, hW, hr⟩ := exists_weights x.shape
  exact ⟨start, W, hW, fun i hi => by rw [h i hi, hr i (inBounds_length hi)]⟩

/-! ### `unpack` and `pack` -/

/-- **C77** All results of `unpack` of a view are views, whatever the packed shapes are. -/
theorem C77_unpack {ops : PackOps Cell} (ho : PackModelled ops) (hx : IsView x) (ps : List (List Int)) :
    unpack ops.withViews x ps pattern = unpack ops x ps pattern ∧
      ∀ ys, unpack ops.withViews x ps pattern = .ok ys → ∀ y ∈ ys, IsView y := by
  obtain ⟨h1, h2⟩ := unpack_views ho hx ps pattern
  exact ⟨h1, fun ys h => h2 ys (h1 ▸ h)⟩

/-- **C77** The result of `pack` is new memory. -/
theorem C77_pack (ops : PackOps Cell) {xs : List (Tensor Cell)} {y : Tensor Cell} {ps : List (List Nat)}
    (h : pack ops.withViews xs pattern = .ok (y, ps)) : ∀ c ∈ y.data, c.copied = true := by
  have key : ∀ (r : Py (Tensor Cell)) y, r.map copyOf = .ok y → ∀ c ∈ y.data, c.copied = true := by
    intro r y hr c hc
    cases r with
    | error e => cases hr
    | ok z =>
      cases hr
      obtain ⟨d, _, rfl⟩ := List.mem_map.1 hc
      rfl
  unfold pack at h
  split at h
  · cases h
  · split at h
    · cases h
    · split at h
      · cases h
      · split at h
        · cases h
        · rename_i hy
          cases h
          exact key _ _ hy

end

/-! ### Examples -/

/-- a freshly allocated tensor -/
def memory (s : List Nat) : Tensor Cell := ⟨s, (List.range s.prod).map (fun (k : Nat) => ⟨k, false⟩), by simp⟩

theorem memory_contiguous (s : List Nat) : Contiguous (memory s) := by
  refine ⟨0, fun i hi => ?_⟩
  rw [Tensor.at?_of_inBounds _ hi]
  have := ravel_lt hi
  simp only [memory] at this ⊢
  simp [this]

/-- reductions do not matter below -/
def noOps : ElemOps Cell := ⟨fun _ _ => .error .backend⟩

section
attribute [local instance] asciiUnicode

/-- the elements of the result of 'h w -> (w h)' on a 2 × 3 tensor -/
def joinedCells : Tensor Cell :=
  ⟨[6], [⟨0, false⟩, ⟨3, false⟩, ⟨1, false⟩, ⟨4, false⟩, ⟨2, false⟩, ⟨5, false⟩], rfl⟩

theorem joinedCells_no_view : ¬ IsView joinedCells := by
  rintro ⟨start, S, hl, h⟩
  obtain ⟨s, rfl⟩ := List.length_eq_one_iff.1 hl
  have h0 := h [0] rfl
  have h1 := h [1] rfl
  have h2 := h [2] rfl
  simp [joinedCells, Tensor.at?, inBounds, ravel, offset] at h0 h1 h2
  omega

-- C77_rearrange: joining axes in the other order is a copy in numpy
example : rearrange (numpyViews noOps true) idOrder (.one (memory [2, 3])) "h w -> (w h)".toList [] =
    .ok (copyOf joinedCells) := by
  unfold numpyViews
  rw [C77_rearrange (.numpy true) false (by decide) ⟨by decide, by decide⟩ (by decide)
    (C77_contiguous_view (memory_contiguous _)),
    show rearrange (numpyBackend noOps true) idOrder (.one (memory [2, 3])) "h w -> (w h)".toList [] = .ok joinedCells by
      decide +kernel]
  simp only [Except.map, asView, if_neg joinedCells_no_view]

/-- a tensor with given strides is a view, which can be checked by looking at all elements -/
theorem isView_of {x : Tensor Cell} (start : Int) (S : List Int) (hl : S.length = x.shape.length)
    (h : ∀ i ∈ indices x.shape, x.at? i = some ⟨start + offset i S, false⟩) : IsView x :=
  ⟨start, S, hl, fun i hi => h i (mem_indices.2 hi)⟩

-- splitting and permuting is a view
example : (rearrange (numpyViews noOps true) idOrder (.one (memory [4, 3])) "(h a) w -> a w h".toList [kwInt "a" 2]).map
    Tensor.data = .ok (([0, 6, 1, 7, 2, 8, 3, 9, 4, 10, 5, 11] : List Int).map (fun k => ⟨k, false⟩)) := by
  unfold numpyViews
  rw [C77_rearrange (.numpy true) false (by decide) ⟨by decide, by decide⟩ (by decide)
    (C77_contiguous_view (memory_contiguous _))]
  cases hz : rearrange (numpyBackend noOps true) idOrder (.one (memory [4, 3])) "(h a) w -> a w h".toList
      [kwInt "a" 2] with
  | error e =>
    exfalso
    have : (rearrange (numpyBackend noOps true) idOrder (.one (memory [4, 3])) "(h a) w -> a w h".toList
      [kwInt "a" 2]).isOk = true := by decide +kernel
    rw [hz] at this
    cases this
  | ok z =>
    have hd : (rearrange (numpyBackend noOps true) idOrder (.one (memory [4, 3])) "(h a) w -> a w h".toList
        [kwInt "a" 2]) = .ok ⟨[2, 3, 2], ([0, 6, 1, 7, 2, 8, 3, 9, 4, 10, 5, 11] : List Int).map (fun k => ⟨k, false⟩), rfl⟩ := by
      decide +kernel
    rw [hz] at hd
    cases hd
    simp only [Except.map]
    rw [asView_of (isView_of 0 [3, 1, 6] rfl (by decide +kernel))]

/-- the elements of the result of 'a -> a 2' on two elements -/
def repeatedCells : Tensor Cell := ⟨[2, 2], [⟨0, false⟩, ⟨0, false⟩, ⟨1, false⟩, ⟨1, false⟩], rfl⟩

theorem repeatedCells_view : IsView repeatedCells := isView_of 0 [1, 0] rfl (by decide)

-- torch returns this view
example : repeat_ (torchViews noOps true) idOrder (.one (memory [2])) "a -> a 2".toList [] = .ok repeatedCells := by
  rw [C77_repeat_torch true (by decide) ⟨by decide, by decide⟩ (by decide) (C77_contiguous_view (memory_contiguous _)),
    show repeat_ (torchBackend noOps true) idOrder (.one (memory [2])) "a -> a 2".toList [] = .ok repeatedCells by
      decide +kernel]
  simp only [Except.map, asView_of repeatedCells_view]

/-- **C77** In numpy `repeat` does not return a view although one is possible: here with stride 0 for the new axis. -/
theorem C77_repeat_numpy_copies :
    repeat_ (numpyBackend noOps true) idOrder (.one (memory [2])) "a -> a 2".toList [] = .ok repeatedCells ∧
    IsView repeatedCells ∧ asView repeatedCells = repeatedCells ∧
    repeat_ (numpyViews noOps true) idOrder (.one (memory [2])) "a -> a 2".toList [] = .ok (copyOf repeatedCells) ∧
    copyOf repeatedCells ≠ repeatedCells :=
  ⟨by decide +kernel, repeatedCells_view, asView_of repeatedCells_view, by rfl, by decide⟩

/-- **C77** Whatever the sizes, joining the axes of an image in the other order needs a copy, joining them in order does
not. -/
theorem C77_join_image {E : ElemOps Cell} {b : Backend Cell} (hb : Modelled E b) (so : SetOrder) {h w : Nat} (hh : 2 ≤ h)
    (hw : 2 ≤ w) {x y z : Tensor Cell} (hs : x.shape = [h, w]) (hx : Contiguous x)
    (hy : rearrange b so (.one x) "h w -> (w h)".toList [] = .ok y)
    (hz : rearrange b so (.one x) "h w -> (h w)".toList [] = .ok z) : ¬ IsView y ∧ IsView z := by
  have sides : ∀ (r : Str) (GR : List Elem), IsSide false false r GR → ∀ y,
      rearrange b so (.one x) ("h w ".toList ++ "->".toList ++ r) [] = .ok y →
      ∀ R : List (List Axis), (∀ n, spread (ellAxes n) (denote 1 0 GR) = R) → (∀ a ∈ R.flatten, a = .str ['h'] ∨ a = .str ['w']) →
      '…' ∉ "h w ".toList ++ "->".toList ++ r →
      ∃ len : AxisMap, len (.str ['h']) = h ∧ len (.str ['w']) = w ∧
        (IsView y ↔ ∀ g ∈ R, proper len g <:+: proper len [.str ['h'], .str ['w']]) := by
    intro r GR hr y hy R hR hmem hell
    have hp : IsPattern ("h w ".toList ++ "->".toList ++ r) [.bare "h".toList, .bare "w".toList] GR :=
      ⟨"h w ".toList, r, rfl, isSide_of (by decide) (by decide) (by decide) (by decide), hr⟩
    obtain ⟨GL, GR', L, R', len, ha, -⟩ := (move_iff hb.lawful so hell ⟨by decide, by decide⟩ (.inl rfl) (fun h => by
      cases h) y).1 hy
    obtain ⟨rfl, rfl⟩ := isPattern_unique ha.pattern hp
    obtain ⟨n, -, hL, hR', -⟩ := ha.prepared.groups
    have hL : L = [[.str ['h']], [.str ['w']]] := by rw [hL]; rfl
    rw [hR] at hR'
    subst hR' hL
    have hsh := ha.fits.shape_eq
    rw [hs] at hsh
    simp only [List.map_cons, List.map_nil, groupSize_singleton, List.cons.injEq, and_true] at hsh
    obtain ⟨e1, e2⟩ := hsh
    refine ⟨len, e1.symm, e2.symm, ?_⟩
    exact C77_contiguous hb ⟨by decide, by decide⟩ ha hx (fun a h' => by
      rcases hmem a h' with rfl | rfl <;> omega) so hy
  constructor
  · obtain ⟨len, e1, e2, hv⟩ := sides " (w h)".toList [.paren ["w".toList, "h".toList]]
      (isSide_of (by decide) (by decide) (by decide) (by decide)) y hy [[.str ['w'], .str ['h']]] (fun n => rfl)
      (by simp) (by decide)
    rw [hv]
    intro hall
    have h1 := hall _ (List.mem_singleton.2 rfl)
    have p1 : proper len [.str ['w'], .str ['h']] = [.str ['w'], .str ['h']] := by
      simp [proper, e1, e2]; omega
    have p2 : proper len [.str ['h'], .str ['w']] = [.str ['h'], .str ['w']] := by
      simp [proper, e1, e2]; omega
    rw [p1, p2] at h1
    exact absurd (h1.eq_of_length rfl) (by decide)
  · obtain ⟨len, e1, e2, hv⟩ := sides " (h w)".toList [.paren ["h".toList, "w".toList]]
      (isSide_of (by decide) (by decide) (by decide) (by decide)) z hz [[.str ['h'], .str ['w']]] (fun n => rfl)
      (by simp) (by decide)
    rw [hv]
    intro g hg
    rw [List.mem_singleton] at hg
    subst hg
    exact List.infix_refl _

-- the hypotheses of C77_join_image
example : (rearrange (numpyBackend noOps true) idOrder (.one (memory [2, 3])) "h w -> (w h)".toList []).isOk = true ∧
    (rearrange (numpyBackend noOps true) idOrder (.one (memory [2, 3])) "h w -> (h w)".toList []).isOk = true := by
  decide +kernel

-- C77_reduce: a reduction over nothing permutes without copying, over something it does copy
example (so : SetOrder) : (reduce (numpyViews noOps true) so (.one (memory [2])) "a -> a".toList (.name "max".toList) []) =
    .ok (memory [2]) := by
  obtain ⟨GL, GR, L, R, len, ha⟩ := accepted_of_ok (numpy_lawful noOps true) idOrder (x := memory [2])
    (pattern := "a -> a".toList) (kw := []) (by decide) ⟨by decide, by decide⟩ (red := .name "max".toList) (fun h => by
      cases h) (y := memory [2]) (by decide +kernel)
  have hp : IsPattern "a -> a".toList [.bare "a".toList] [.bare "a".toList] :=
    ⟨"a ".toList, " a".toList, by decide, isSide_of (by decide) (by decide) (by decide) (by decide),
      isSide_of (by decide) (by decide) (by decide) (by decide)⟩
  obtain ⟨rfl, rfl⟩ := isPattern_unique ha.pattern hp
  obtain ⟨n, -, hL, hR, -⟩ := ha.prepared.groups
  have hd : ¬ Drops L R := by
    rw [hL, hR]
    rintro ⟨a, h1, h2⟩
    exact h2 h1
  have := (C77_reduce (E := noOps) (.numpy true) false (op := "max".toList) ⟨by decide, by decide⟩ ⟨by decide, by decide⟩
    (C77_contiguous_view (memory_contiguous _)) ha so).2 hd
  unfold numpyViews
  rw [this, C65_same (red := .name "max".toList) (L := L) (len := len) ⟨by decide, by decide⟩ (by
    have : R = L := by rw [hL, hR]; rfl
    rw [this] at ha; exact ha) (by
      have : L = [[.str ['a']]] := by rw [hL]; rfl
      rw [this]; decide)]
  simp only [Except.map, asView_of (C77_contiguous_view (memory_contiguous _))]

-- C77_unpack: two pieces, both views
example : ∃ ys, unpack numpyPack.withViews (memory [2, 5]) [[2], [-1]] "a *".toList = .ok ys ∧ ys.length = 2 ∧
    ∀ y ∈ ys, IsView y := by
  obtain ⟨h1, h2⟩ := C77_unpack (pattern := "a *".toList) .numpy (C77_contiguous_view (memory_contiguous [2, 5])) [[2], [-1]]
  cases hz : unpack (numpyPack (α := Cell)) (memory [2, 5]) [[2], [-1]] "a *".toList with
  | error e =>
    exfalso
    have : (unpack (numpyPack (α := Cell)) (memory [2, 5]) [[2], [-1]] "a *".toList).isOk = true := by decide +kernel
    rw [hz] at this
    cases this
  | ok ys =>
    have : (unpack (numpyPack (α := Cell)) (memory [2, 5]) [[2], [-1]] "a *".toList).map List.length = .ok 2 := by
      decide +kernel
    rw [hz] at this
    rw [hz] at h1
    exact ⟨ys, h1, by injection this, h2 ys h1⟩

end

end Einops
