import Verif.Proofs.Apart
import Verif.Proofs.Documented
import Verif.Props.Steps
import Verif.Props.Examples

/-!
# C78: patterns that do different things are told apart by one tensor

Two patterns with the same left side.  If the elements of a tensor are different, equal results mean equal right sides, up to
axes of length 1.  So a wrong right side is noticed by a single call on a suitable tensor.
-/

namespace Einops

universe u v

section
variable [PyUnicode] {α : Type u} {E : ElemOps α} {b : Backend α} {x y : Tensor α} {p p' : Str} {kw kw' : List (Str × Size)}
  {GL GR GR' : List Elem} {L L' R R' : List (List Axis)} {len len' : AxisMap}

/-- **C78** `rearrange` of one tensor with different elements gives the same result with two right sides exactly if their
dimensions are the same axes in the same order, axes of length 1 left out. -/
theorem C78_rearrange (hb : Modelled E b) (hkw : IntKw kw)
    (h : Accepted (.name "rearrange".toList) p kw x.shape GL GR L R len)
    (h' : Accepted (.name "rearrange".toList) p' kw x.shape GL GR' L' R' len')
    (hx : x.data.Nodup) (hpos : ∀ a ∈ L.flatten, 0 < len a) (so so' : SetOrder) :
    rearrange b so (.one x) p kw = rearrange b so' (.one x) p' kw ↔ R.map (proper len) = R'.map (proper len) := by
  obtain ⟨rfl, hlen⟩ := h.same_left hkw h'
  have ax := rearrange_axes h.pattern h.prepared
  have ax' := rearrange_axes h'.pattern h'.prepared
  obtain ⟨y, e1, m1⟩ := h.moves (red := .name "rearrange".toList) hb.lawful hkw ax.1
  obtain ⟨y', e2, m2⟩ := h'.moves (red := .name "rearrange".toList) hb.lawful hkw ax'.1
  have m2 := m2.congr (len' := len) (fun a ha => hlen a ((List.mem_append.1 ha).elim id (ax'.2 a)))
  unfold rearrange
  rw [e1 so, e2 so']
  constructor
  · intro he
    cases he
    exact m1.proper_eq h.nodup.1 h.nodup.2 h'.nodup.2 (fun a => ⟨ax.2 a, ax.1 a⟩) (fun a => ⟨ax'.2 a, ax'.1 a⟩) hpos hx m2
  · intro he
    rw [(m1.of_proper ax.2 he).unique h'.nodup.2 ax'.1 m2]

/-- **C78** `repeat` of one tensor with different elements gives the same result with two right sides exactly if the shapes
are the same and every axis of the tensor (if not of length 1) is in the same dimension, with neighbours equally far
apart.  New axes are not told apart. -/
theorem C78_repeat (hb : Modelled E b) (hkw : IntKw kw) (hkw' : IntKw kw')
    (h : Accepted (.name "repeat".toList) p kw x.shape GL GR L R len)
    (h' : Accepted (.name "repeat".toList) p' kw' x.shape GL GR' L R' len') (hlen : ∀ a ∈ L.flatten, len' a = len a)
    (hx : x.data.Nodup) (hpos : ∀ a ∈ R.flatten, 0 < len a) (so so' : SetOrder) :
    repeat_ b so (.one x) p kw = repeat_ b so' (.one x) p' kw' ↔
      R.map (groupSize len) = R'.map (groupSize len') ∧
        ∀ a ∈ L.flatten, len a ≠ 1 → ∀ j w, PlacedAt len R a j w → PlacedAt len' R' a j w := by
  have ax := repeat_axes h.pattern h.prepared
  have ax' := repeat_axes h'.pattern h'.prepared
  obtain ⟨y, e1, m1⟩ := h.moves (red := .name "repeat".toList) hb.lawful hkw ax.1
  obtain ⟨y', e2, m2⟩ := h'.moves (red := .name "repeat".toList) hb.lawful hkw' ax'.1
  unfold repeat_
  rw [e1 so, e2 so']
  constructor
  · intro he
    cases he
    exact ⟨m1.1.symm.trans m2.1, fun a ha h1 j w hp =>
      m1.placed h.nodup.2 h'.nodup.2 ax.1 ax'.1 hlen hpos hx m2 ha h1 hp⟩
  · rintro ⟨hs, hp⟩
    rw [m1.of_placed h.nodup.2 h'.nodup.2 ax.1 ax'.1 hlen m2 (by rw [m1.1, m2.1, hs]) hp]

/-- what a reduction by name computes, whether it drops axes or not -/
theorem reduces_of_ok (hell : '…' ∉ p) {o : Str} (ho : isRed (.name o)) (hb : Computes E o b) (hkw : IntKw kw)
    (hone : ∀ v ∈ x.data, E.op o [v] = .ok v) (h : Accepted (.name o) p kw x.shape GL GR L R len) (so : SetOrder)
    (hy : reduce b so (.one x) p (.name o) kw = .ok y) : Reduces (E.op o) len L R x y := by
  have hbi : o ∈ builtins := by
    have := h.prepared.sides
    rw [SidesOK, if_neg ho.1, if_neg ho.2] at this
    exact this.1 o rfl
  obtain ⟨GL', GR', L', R', len', ha, hm⟩ := (reduce_iff hb.modelled.lawful so hell hkw ho (hb.reduce hbi) y).1 hy
  obtain ⟨rfl, rfl, hlen⟩ := Accepted.len_unique hkw ha h (fun _ h => h)
  have hlen' : ∀ a ∈ L.flatten ++ R.flatten, len' a = len a := fun a ha => (hlen a ha).symm
  rcases hm with ⟨hd, hm⟩ | ⟨-, -, hm⟩
  · refine (hm.congr hlen').reduces_one hone (fun a ha => ?_)
    by_contra hc
    exact hd ⟨a, ha, hc⟩
  · exact hm.congr hlen'

/-- **C78** If the reduction tells sets of elements of the tensor apart, the same result with two right sides means that
their dimensions are the same axes in the same order, axes of length 1 left out. -/
theorem C78_reduce {o : Str} (ho : isRed (.name o)) (hb : Computes E o b) (hell : '…' ∉ p) (hell' : '…' ∉ p') (hkw : IntKw kw)
    (hone : ∀ v ∈ x.data, E.op o [v] = .ok v) (ht : TellsSets (E.op o) x.data)
    (h : Accepted (.name o) p kw x.shape GL GR L R len) (h' : Accepted (.name o) p' kw x.shape GL GR' L' R' len')
    (hx : x.data.Nodup) (hpos : ∀ a ∈ L.flatten, 0 < len a) (so so' : SetOrder)
    (hy : reduce b so (.one x) p (.name o) kw = .ok y) (hy' : reduce b so' (.one x) p' (.name o) kw = .ok y) :
    R.map (proper len) = R'.map (proper len) := by
  obtain ⟨rfl, hlen⟩ := h.same_left hkw h'
  have ax := reduce_axes_sub h.pattern ho h.prepared
  have ax' := reduce_axes_sub h'.pattern ho h'.prepared
  have m1 := reduces_of_ok hell ho hb hkw hone h so hy
  have m2 := (reduces_of_ok hell' ho hb hkw hone h' so' hy').congr (len' := len)
    (fun a ha => hlen a ((List.mem_append.1 ha).elim id (ax' a)))
  exact m1.proper_eq h.nodup.1 h.nodup.2 h'.nodup.2 ax ax' hpos hx ht m2

/-- **C78** For maxima and minima a tensor with increasing elements (in C order) does. -/
theorem C78_max [LinearOrder α] {o : Str} (ho : isRed (.name o)) (hb : Computes E o b) (hell : '…' ∉ p) (hell' : '…' ∉ p')
    (hkw : IntKw kw) (hone : ∀ v ∈ x.data, E.op o [v] = .ok v) (hop : Largest (E.op o) ∨ Smallest (E.op o))
    (h : Accepted (.name o) p kw x.shape GL GR L R len) (h' : Accepted (.name o) p' kw x.shape GL GR' L' R' len')
    (hx : x.data.Pairwise (· < ·)) (hpos : ∀ a ∈ L.flatten, 0 < len a) (so so' : SetOrder)
    (hy : reduce b so (.one x) p (.name o) kw = .ok y) (hy' : reduce b so' (.one x) p' (.name o) kw = .ok y) :
    R.map (proper len) = R'.map (proper len) := by
  obtain ⟨rfl, hlen⟩ := h.same_left hkw h'
  have ax := reduce_axes_sub h.pattern ho h.prepared
  have ax' := reduce_axes_sub h'.pattern ho h'.prepared
  have m1 := reduces_of_ok hell ho hb hkw hone h so hy
  have m2 := (reduces_of_ok hell' ho hb hkw hone h' so' hy').congr (len' := len)
    (fun a ha => hlen a ((List.mem_append.1 ha).elim id (ax' a)))
  rcases hop with hop | hop
  · exact m1.proper_eq_largest hop h.nodup.1 h.nodup.2 h'.nodup.2 ax ax' hpos hx h.fits.shape_eq m2
  · exact m1.proper_eq_smallest hop h.nodup.1 h.nodup.2 h'.nodup.2 ax ax' hpos hx h.fits.shape_eq m2

/-! ### One tensor is enough -/

theorem map_proper_id {A : List (List Axis)} (h : ∀ a ∈ A.flatten, 2 ≤ len a) : A.map (proper len) = A := by
  conv_rhs => rw [← List.map_id A]
  refine List.map_congr_left (fun g hg => ?_)
  refine List.filter_eq_self.2 (fun a ha => ?_)
  have := h a (List.mem_flatten.2 ⟨g, hg, ha⟩)
  simp
  omega

/-- the same calls are accepted -/
theorem same_calls {op : OpKind} (hp : IsPattern p GL GR) (hp' : IsPattern p' GL GR') (he : denote 1 0 GR = denote 1 0 GR')
    (hs : ∀ names, SidesOK op GL GR names) (hs' : ∀ names, SidesOK op GL GR' names) (hn : NamesWithin GR GL)
    (hn' : NamesWithin GR' GL) (hell : '…' ∉ p) (hell' : '…' ∉ p') {β : Type v} (b' : Backend β) (z : Tensor β)
    (red : Reduction β) (hop : red.kind = op) {kw' : List (Str × Size)} (hkw' : IntKw kw') (hpos' : ∀ q ∈ kw', 0 ≤ q.2.val)
    (so so' : SetOrder) (w : Tensor β) :
    reduce b' so (.one z) p red kw' = .ok w ↔ reduce b' so' (.one z) p' red kw' = .ok w := by
  subst hop
  have one : ∀ {p p' : Str} {GR GR' : List Elem}, IsPattern p GL GR → IsPattern p' GL GR' → denote 1 0 GR = denote 1 0 GR' →
      (∀ names, SidesOK red.kind GL GR' names) → NamesWithin GR GL → '…' ∉ p → ∀ so so',
      reduce b' so (.one z) p red kw' = .ok w → reduce b' so' (.one z) p' red kw' = .ok w := by
    intro p p' GR GR' hp hp' he hs' hn hell so so' hok
    by_cases hacc : ∃ GL GR L R len, Accepted red.kind p kw' z.shape GL GR L R len
    · obtain ⟨GL1, GR1, L1, R1, len1, ha⟩ := hacc
      obtain ⟨rfl, rfl⟩ := isPattern_unique ha.pattern hp
      have ha' := ha.replace hp' (hs' _) hn he
      rw [ha.steps hkw'] at hok
      rw [ha'.steps hkw']
      exact hok
    · obtain ⟨e, he⟩ := C65_refused (red := red) hell hkw' hpos' hacc
      rw [he] at hok
      cases hok
  exact ⟨one hp hp' he hs' hn hell so so', one hp' hp he.symm hs hn' hell' so' so⟩

/-- **C78** One call tells `rearrange` patterns apart: if the elements of a tensor are different, no axis is of length 0 or 1 and
the ellipsis stands for two axes or more, then two patterns with the same left side and the same result for this tensor
have the same results for all tensors, in all frameworks. -/
theorem C78_one_test (hb : Modelled E b) (hell : '…' ∉ p) (hell' : '…' ∉ p') (hkw : IntKw kw)
    (h : Accepted (.name "rearrange".toList) p kw x.shape GL GR L R len) (hp' : IsPattern p' GL GR')
    (hx : x.data.Nodup) (h2 : ∀ a ∈ L.flatten, 2 ≤ len a) (hdots : dots ∈ sideWords GL → GL.length < x.shape.length)
    {so so' : SetOrder} (hy : rearrange b so (.one x) p kw = .ok y) (hy' : rearrange b so' (.one x) p' kw = .ok y)
    {β : Type v} (b' : Backend β) (z : Tensor β) {kw' : List (Str × Size)} (hkw' : IntKw kw') (hpos' : ∀ q ∈ kw', 0 ≤ q.2.val)
    (so1 so2 : SetOrder) (w : Tensor β) :
    rearrange b' so1 (.one z) p kw' = .ok w ↔ rearrange b' so2 (.one z) p' kw' = .ok w := by
  obtain ⟨GL1, GR1, L', R', len', h', -⟩ := (move_iff hb.lawful so' hell' hkw (.inl rfl) (fun h => by cases h) y).1 hy'
  obtain ⟨rfl, rfl⟩ := isPattern_unique h'.pattern hp'
  have heq := (C78_rearrange hb hkw h h' hx (fun a ha => by have := h2 a ha; omega) so so').1 (hy.trans hy'.symm)
  obtain ⟨rfl, hlen⟩ := h.same_left hkw h'
  have ax := rearrange_axes h.pattern h.prepared
  have ax' := rearrange_axes h'.pattern h'.prepared
  rw [map_proper_id (fun a ha => h2 a (ax.2 a ha)), map_proper_id (fun a ha => h2 a (ax'.2 a ha))] at heq
  subst heq
  have hs := h.prepared.sides
  have hs' := h'.prepared.sides
  rw [SidesOK, if_pos rfl] at hs hs'
  exact same_calls (op := .name "rearrange".toList) h.pattern h'.pattern (h.same_right h' hdots)
    (fun _ => by rw [SidesOK, if_pos rfl]; exact hs) (fun _ => by rw [SidesOK, if_pos rfl]; exact hs') hs.right_in_left hs'.right_in_left hell hell' b' z
    (.name "rearrange".toList) rfl hkw' hpos' so1 so2 w

/-- **C78** The same for sums: a single call on the tensor of powers of two, of a shape for which no axis is of length 0 or
1, tells right sides apart; the results for this tensor decide for all tensors and all reductions. -/
theorem C78_one_test_sum {E : ElemOps ℤ} {b : Backend ℤ} {shape : List Nat} {y : Tensor ℤ}
    (hsum : ∀ vs, E.op "sum".toList vs = .ok vs.sum) (hb : Computes E "sum".toList b) (hell : '…' ∉ p) (hell' : '…' ∉ p')
    (hkw : IntKw kw) (h : Accepted (.name "sum".toList) p kw shape GL GR L R len) (hp' : IsPattern p' GL GR')
    (h2 : ∀ a ∈ L.flatten, 2 ≤ len a) (hdots : dots ∈ sideWords GL → GL.length < shape.length)
    {so so' : SetOrder} (hy : reduce b so (.one (powers shape)) p (.name "sum".toList) kw = .ok y)
    (hy' : reduce b so' (.one (powers shape)) p' (.name "sum".toList) kw = .ok y)
    {β : Type v} (b' : Backend β) (z : Tensor β) (red : Reduction β) (hred : isRed red.kind) {kw' : List (Str × Size)}
    (hkw' : IntKw kw') (hpos' : ∀ q ∈ kw', 0 ≤ q.2.val) (so1 so2 : SetOrder) (w : Tensor β)
    (hbuiltin : ∀ s, red.kind = .name s → s ∈ builtins) :
    reduce b' so1 (.one z) p red kw' = .ok w ↔ reduce b' so2 (.one z) p' red kw' = .ok w := by
  have ho : isRed (.name "sum".toList) := ⟨by decide, by decide⟩
  obtain ⟨GL1, GR1, L', R', len', h', -⟩ :=
    (reduce_iff hb.modelled.lawful so' hell' hkw ho (hb.reduce (by decide)) y).1 hy'
  obtain ⟨rfl, rfl⟩ := isPattern_unique h'.pattern hp'
  have h : Accepted (.name "sum".toList) p kw (powers shape).shape GL1 GR L R len := h
  have heq := C78_reduce (x := powers shape) ho hb hell hell' hkw (fun v _ => by rw [hsum]; simp)
    (tellsSets_sum hsum _) h h' (powers_nodup shape) (fun a ha => by have := h2 a ha; omega) so so' hy hy'
  obtain ⟨rfl, hlen⟩ := h.same_left hkw h'
  have ax := reduce_axes_sub h.pattern ho h.prepared
  have ax' := reduce_axes_sub h'.pattern ho h'.prepared
  rw [map_proper_id (fun a ha => h2 a (ax a ha)), map_proper_id (fun a ha => h2 a (ax' a ha))] at heq
  subst heq
  have hs := h.prepared.sides
  have hs' := h'.prepared.sides
  rw [SidesOK, if_neg ho.1, if_neg ho.2] at hs hs'
  have all : ∀ {G : List Elem}, ReduceSides GL1 G → ∀ names, SidesOK red.kind GL1 G names := fun hG names => by
    rw [SidesOK, if_neg hred.1, if_neg hred.2]
    exact ⟨hbuiltin, hG⟩
  exact same_calls (op := red.kind) h.pattern h'.pattern (h.same_right h' hdots) (all hs.2) (all hs'.2) hs.2.right_in_left
    hs'.2.right_in_left hell hell' b' z red rfl hkw' hpos' so1 so2 w

end

/-! ### Examples -/

section
attribute [local instance] asciiUnicode

/-- the calls accepted for `h w` on the left -/
theorem image_accepted {α : Type u} {E : ElemOps α} {b : Backend α} (hb : Modelled E b) {o : Str}
    (ho : o ≠ "repeat".toList) {r : Str} {GR : List Elem} (hr : IsSide false false r GR) {h w : Nat} {x y : Tensor α}
    (hs : x.shape = [h, w]) {so : SetOrder} (hell : '…' ∉ "h w ->".toList ++ r)
    (hy : reduce b so (.one x) ("h w ->".toList ++ r) (.name o) [] = .ok y) :
    ∃ R len, Accepted (.name o) ("h w ->".toList ++ r) [] x.shape [.bare "h".toList, .bare "w".toList] GR
      [[.str ['h']], [.str ['w']]] R len ∧ len (.str ['h']) = h ∧ len (.str ['w']) = w := by
  have hp : IsPattern ("h w ->".toList ++ r) [.bare "h".toList, .bare "w".toList] GR :=
    ⟨"h w ".toList, r, rfl, isSide_of (by decide) (by decide) (by decide) (by decide), hr⟩
  obtain ⟨GL, GR', L, R, len, ha⟩ := accepted_of_ok hb.lawful so hell ⟨by decide, by decide⟩ (red := .name o)
    (fun h => by simp only [Reduction.kind, OpKind.name.injEq] at h; exact absurd h ho) hy
  obtain ⟨rfl, rfl⟩ := isPattern_unique ha.pattern hp
  obtain ⟨n, -, hL, hR', -⟩ := ha.prepared.groups
  have hL : L = [[.str ['h']], [.str ['w']]] := by rw [hL]; rfl
  subst hL
  have hsh := ha.fits.shape_eq
  rw [hs] at hsh
  simp only [List.map_cons, List.map_nil, groupSize_singleton, List.cons.injEq, and_true] at hsh
  exact ⟨R, len, ha, hsh.1.symm, hsh.2.symm⟩

-- C78_one_test: one call shows that `(w 1 h)` does the same as `(w h)` for all tensors
example {β : Type} (b' : Backend β) (z w : Tensor β) (so : SetOrder) :
    rearrange b' so (.one z) "h w -> (w 1 h)".toList [] = .ok w ↔ rearrange b' so (.one z) "h w -> (w h)".toList [] = .ok w := by
  have hy : rearrange (numpyBackend intOps true) idOrder (.one t23) ("h w ->".toList ++ " (w 1 h)".toList) [] =
      .ok ⟨[6], [0, 3, 1, 4, 2, 5], rfl⟩ := by decide +kernel
  obtain ⟨R, len, ha, h1, h2⟩ := image_accepted (E := intOps) (.numpy true) (o := "rearrange".toList) (by decide)
    (isSide_of (G := [.paren ["w".toList, "1".toList, "h".toList]]) (by decide) (by decide) (by decide) (by decide))
    (x := t23) (h := 2) (w := 3) rfl (by decide) hy
  exact C78_one_test (E := intOps) (.numpy true) (p := "h w ->".toList ++ " (w 1 h)".toList)
    (p' := "h w -> (w h)".toList) (GR' := [.paren ["w".toList, "h".toList]]) (by decide) (by decide) ⟨by decide, by decide⟩ ha
    ⟨"h w ".toList, " (w h)".toList, by decide, isSide_of (by decide) (by decide) (by decide) (by decide),
      isSide_of (by decide) (by decide) (by decide) (by decide)⟩ (by decide) (by simp [h1, h2]) (fun h => by revert h; decide)
    hy (so' := idOrder) (by decide +kernel) b' z ⟨by decide, by decide⟩ (by simp) so so w

theorem max_isRed {α : Type u} : isRed (Reduction.name (α := α) "max".toList).kind := by
  constructor <;> (rw [show (Reduction.name (α := α) "max".toList).kind = .name "max".toList from rfl]; decide)

-- C78_one_test_sum: one sum of powers of two shows it for all reductions
example {β : Type} (b' : Backend β) (z w : Tensor β) (so : SetOrder) :
    reduce b' so (.one z) "h w -> 1 (w 1)".toList (.name "max".toList) [] = .ok w ↔
      reduce b' so (.one z) "h w -> () w".toList (.name "max".toList) [] = .ok w := by
  have hy : reduce (numpyBackend intOps true) idOrder (.one (powers [2, 3])) ("h w ->".toList ++ " 1 (w 1)".toList)
      (.name "sum".toList) [] = .ok ⟨[1, 3], [9, 18, 36], rfl⟩ := by decide +kernel
  obtain ⟨R, len, ha, h1, h2⟩ := image_accepted (E := intOps) (.numpy true) (o := "sum".toList) (by decide)
    (isSide_of (G := [.bare "1".toList, .paren ["w".toList, "1".toList]]) (by decide) (by decide) (by decide) (by decide))
    (x := powers [2, 3]) (h := 2) (w := 3) rfl (by decide) hy
  exact C78_one_test_sum (E := intOps) (fun _ => rfl) (.numpy true) (p := "h w ->".toList ++ " 1 (w 1)".toList)
    (p' := "h w -> () w".toList) (GR' := [.paren [], .bare "w".toList]) (by decide) (by decide) ⟨by decide, by decide⟩ ha
    ⟨"h w ".toList, " () w".toList, by decide, isSide_of (by decide) (by decide) (by decide) (by decide),
      isSide_of (by decide) (by decide) (by decide) (by decide)⟩ (by simp [h1, h2]) (fun h => by revert h; decide)
    hy (so' := idOrder) (by decide +kernel) b' z (.name "max".toList) max_isRed ⟨by decide, by decide⟩ (by simp)
    so so w (fun s h => by cases h; decide)

/-- **C78** The mistake of joining the axes of an image in the wrong order is noticed by every image with different pixels
and no side of length 0 or 1. -/
theorem C78_join_image {α : Type u} {E : ElemOps α} {b : Backend α} (hb : Modelled E b) (so : SetOrder) {h w : Nat}
    (hh : 2 ≤ h) (hw : 2 ≤ w) {x : Tensor α} (hs : x.shape = [h, w]) (hx : x.data.Nodup) :
    rearrange b so (.one x) "h w -> (w h)".toList [] ≠ rearrange b so (.one x) "h w -> (h w)".toList [] := by
  intro he
  have n1 : ∀ w ∈ ["h".toList, "w".toList], Plain w := by
    intro w hw
    left
    revert w
    decide
  have hs' : x.shape = [.bare "h".toList, .bare "w".toList].map (Elem.size fun n => if n = "h".toList then h else w) := by
    rw [hs, List.map_cons, List.map_cons, List.map_nil, Elem.size, Elem.size,
      show (Elem.bare "h".toList).names = ["h".toList] by decide, show (Elem.bare "w".toList).names = ["w".toList] by decide]
    simp
  have a1 := plain_accepted (op := .name "rearrange".toList) (q := "h w -> (w h)".toList) (kw := [])
    (GL := [.bare "h".toList, .bare "w".toList]) (GR := [.paren ["w".toList, "h".toList]]) (s := x.shape)
    (val := fun n => if n = "h".toList then h else w) (fun w hw => n1 w (by revert w; decide)) (fun w hw => n1 w (by revert w; decide))
    ⟨"h w ".toList, " (w h)".toList, by decide, isSide_of (by decide) (by decide) (by decide) (by decide),
      isSide_of (by decide) (by decide) (by decide) (by decide)⟩ (.inl ⟨rfl, fun w => by
        simp only [show ([.bare "h".toList, .bare "w".toList] : List Elem).flatMap Elem.names = ["h".toList, "w".toList] by decide,
          show ([.paren ["w".toList, "h".toList]] : List Elem).flatMap Elem.names = ["w".toList, "h".toList] by decide]
        simp only [List.mem_cons, List.not_mem_nil, or_false]
        exact or_comm⟩) (by simp)
    hs' (by simp) (by decide) (by simp)
  have a2 := plain_accepted (op := .name "rearrange".toList) (q := "h w -> (h w)".toList) (kw := [])
    (GL := [.bare "h".toList, .bare "w".toList]) (GR := [.paren ["h".toList, "w".toList]]) (s := x.shape)
    (val := fun n => if n = "h".toList then h else w) (fun w hw => n1 w (by revert w; decide)) (fun w hw => n1 w (by revert w; decide))
    ⟨"h w ".toList, " (h w)".toList, by decide, isSide_of (by decide) (by decide) (by decide) (by decide),
      isSide_of (by decide) (by decide) (by decide) (by decide)⟩ (.inl ⟨rfl, fun w => by
        simp only [show ([.bare "h".toList, .bare "w".toList] : List Elem).flatMap Elem.names = ["h".toList, "w".toList] by decide,
          show ([.paren ["h".toList, "w".toList]] : List Elem).flatMap Elem.names = ["h".toList, "w".toList] by decide]⟩) (by simp)
    hs' (by simp) (by decide) (by simp)
  have g1 : plainGroups [.bare "h".toList, .bare "w".toList] = [[.str "h".toList], [.str "w".toList]] := by decide
  have g2 : plainGroups [.paren ["w".toList, "h".toList]] = [[.str "w".toList, .str "h".toList]] := by decide
  have g3 : plainGroups [.paren ["h".toList, "w".toList]] = [[.str "h".toList, .str "w".toList]] := by decide
  rw [g1, g2] at a1
  rw [g1, g3] at a2
  have e1 : ofNames (fun n => if n = "h".toList then h else w) (.str "h".toList) = h := rfl
  have e2 : ofNames (fun n => if n = "h".toList then h else w) (.str "w".toList) = w := rfl
  have hl : ∀ a, a = Axis.str "h".toList ∨ a = Axis.str "w".toList → 2 ≤ ofNames (fun n => if n = "h".toList then h else w) a := by
    rintro a (rfl | rfl)
    · rw [e1]; exact hh
    · rw [e2]; exact hw
  have := (C78_rearrange hb ⟨by decide, by decide⟩ a1 a2 hx (fun a ha => by
    have := hl a (by simpa using ha); omega) so so).1 he
  rw [map_proper_id (fun a ha => hl a (by simpa [or_comm] using ha)), map_proper_id (fun a ha => hl a (by simpa using ha))] at this
  revert this
  decide

theorem largest_int : Largest (intOps.op "max".toList) := by
  intro vs v h
  rw [show intOps.op "max".toList vs = foldNonempty max vs from rfl] at h
  cases vs with
  | nil => cases h
  | cons a l =>
    have h : List.foldl max a l = v := by cases h; rfl
    subst h
    induction l generalizing a with
    | nil => simp
    | cons c l ih =>
      obtain ⟨h1, h2⟩ := ih (max a c) rfl
      rw [List.foldl_cons]
      refine ⟨?_, ?_⟩
      · rcases List.mem_cons.1 h1 with h | h
        · rw [h]
          rcases max_choice a c with h | h <;> rw [h] <;> simp
        · simp [h]
      · have := h2 (max a c) (by simp)
        have h3 : ∀ d ∈ l, d ≤ List.foldl max (max a c) l := fun d hd => h2 d (by simp [hd])
        simp only [List.mem_cons, forall_eq_or_imp]
        exact ⟨le_trans (le_max_left a c) this, le_trans (le_max_right a c) this, h3⟩

-- C78_max: whatever the two results are, they differ
example {y : Tensor ℤ} (so : SetOrder)
    (hy : reduce (numpyBackend intOps true) so (.one t23) ("h w ->".toList ++ " h".toList) (.name "max".toList) [] = .ok y)
    (hy' : reduce (numpyBackend intOps true) so (.one t23) ("h w ->".toList ++ " w 1".toList) (.name "max".toList) [] = .ok y) :
    False := by
  obtain ⟨R, len, ha, h1, h2⟩ := image_accepted (E := intOps) (.numpy true) (o := "max".toList) (by decide)
    (isSide_of (G := [.bare "h".toList]) (by decide) (by decide) (by decide) (by decide))
    (x := t23) (h := 2) (w := 3) rfl (by decide) hy
  obtain ⟨R', len', ha', h1', h2'⟩ := image_accepted (E := intOps) (.numpy true) (o := "max".toList) (by decide)
    (isSide_of (G := [.bare "w".toList, .bare "1".toList]) (by decide) (by decide) (by decide) (by decide))
    (x := t23) (h := 2) (w := 3) rfl (by decide) hy'
  have := C78_max (E := intOps) (o := "max".toList) ⟨by decide, by decide⟩ (.numpy true) (by decide) (by decide)
    ⟨by decide, by decide⟩ (fun v _ => rfl) (.inl largest_int) ha ha' (by decide) (by simp [h1, h2]) so so hy hy'
  obtain ⟨n, -, -, hR, -⟩ := ha.prepared.groups
  obtain ⟨n, -, -, hR', -⟩ := ha'.prepared.groups
  have hR : R = [[.str ['h']]] := by rw [hR]; rfl
  have hR' : R' = [[.str ['w']], []] := by rw [hR']; rfl
  subst hR hR'
  have := congrArg List.length this
  simp at this

-- the calls of the last example are accepted
example :
    reduce (numpyBackend intOps true) idOrder (.one t23) "h w -> h".toList (.name "max".toList) [] = .ok ⟨[2], [2, 5], rfl⟩ ∧
    reduce (numpyBackend intOps true) idOrder (.one t23) "h w -> w 1".toList (.name "max".toList) [] =
      .ok ⟨[3, 1], [3, 4, 5], rfl⟩ := by decide +kernel

theorem plain_ab : ∀ w ∈ ["a".toList, "b".toList], Plain w := by
  intro w hw
  left
  revert w
  decide

-- C78_repeat: blocks and cycles are told apart by every vector of different elements
example {b : Backend ℤ} (hb : Modelled intOps b) (so : SetOrder) :
    repeat_ b so (.one ⟨[3], [5, 4, 7], rfl⟩) "a -> (a b)".toList [kwInt "b" 2] ≠
      repeat_ b so (.one ⟨[3], [5, 4, 7], rfl⟩) "a -> (b a)".toList [kwInt "b" 2] := by
  have acc : ∀ {r : Str} {GR : List Elem}, IsSide false false r GR → GR.flatMap Elem.names = ["a".toList, "b".toList] ∨
      GR.flatMap Elem.names = ["b".toList, "a".toList] → (∀ w ∈ sideWords GR, w ∈ ["a".toList, "b".toList]) →
      Accepted (.name "repeat".toList) ("a ->".toList ++ r) [kwInt "b" 2] [3] [.bare "a".toList] GR
        (plainGroups [.bare "a".toList]) (plainGroups GR) (ofNames fun n => if n = "a".toList then 3 else 2) := by
    intro r GR hr hn hw
    refine plain_accepted (fun w hw => plain_ab w (by revert w; decide)) (fun w h => plain_ab w (hw w h))
      ⟨"a ".toList, r, rfl, isSide_of (by decide) (by decide) (by decide) (by decide), hr⟩
      (.inr (.inl ⟨rfl, ?_, ?_⟩)) ?_ (by decide) (by decide) (by decide) (by decide)
    · rcases hn with h | h <;> rw [h] <;> decide
    · rcases hn with h | h <;> rw [h] <;> decide
    · rcases hn with h | h <;> rw [h] <;> decide
  intro he
  have a1 := acc (isSide_of (s := " (a b)".toList) (G := [.paren ["a".toList, "b".toList]]) (by decide) (by decide) (by decide)
    (by decide)) (by decide) (by decide)
  have a2 := acc (isSide_of (s := " (b a)".toList) (G := [.paren ["b".toList, "a".toList]]) (by decide) (by decide) (by decide)
    (by decide)) (by decide) (by decide)
  have := ((C78_repeat (x := ⟨[3], [5, 4, 7], rfl⟩) hb ⟨by decide, by decide⟩ ⟨by decide, by decide⟩ a1 a2 (fun _ _ => rfl)
    (by decide) (by decide) so so).1 he).2 (.str "a".toList) (by decide) (by decide) 0 2
    ⟨[], [.str "b".toList], by decide, by decide⟩
  obtain ⟨g, t, e1, e2⟩ := this
  rw [show (plainGroups [.paren ["b".toList, "a".toList]]) = [[.str "b".toList, .str "a".toList]] by decide,
    List.getElem?_cons_zero, Option.some.injEq] at e1
  have : t = [] := by
    rcases g with _ | ⟨g1, _ | ⟨g2, g⟩⟩
    · revert e1; simp
    · simpa using congrArg List.length e1
    · simp at e1
  subst this
  revert e2
  decide

-- the hypotheses cannot be left out: equal elements
example : rearrange (numpyBackend intOps true) idOrder (.one ⟨[2, 2], [1, 0, 0, 1], rfl⟩) "h w -> (w h)".toList [] =
    rearrange (numpyBackend intOps true) idOrder (.one ⟨[2, 2], [1, 0, 0, 1], rfl⟩) "h w -> (h w)".toList [] := by decide +kernel

-- an axis of length 1
example : rearrange (numpyBackend intOps true) idOrder (.one ⟨[1, 3], [1, 2, 3], rfl⟩) "h w -> (w h)".toList [] =
    rearrange (numpyBackend intOps true) idOrder (.one ⟨[1, 3], [1, 2, 3], rfl⟩) "h w -> (h w)".toList [] := by decide +kernel

-- an ellipsis that stands for one axis
example : rearrange (numpyBackend intOps true) idOrder (.one ⟨[3], [1, 2, 3], rfl⟩) "... -> ...".toList [] =
      rearrange (numpyBackend intOps true) idOrder (.one ⟨[3], [1, 2, 3], rfl⟩) "... -> (...)".toList [] ∧
    rearrange (numpyBackend intOps true) idOrder (.one t23) "... -> ...".toList [] ≠
      rearrange (numpyBackend intOps true) idOrder (.one t23) "... -> (...)".toList [] := by decide +kernel

-- new axes are not told apart
example : repeat_ (numpyBackend intOps true) idOrder (.one ⟨[2], [1, 2], rfl⟩) "a -> a (b c)".toList [kwInt "b" 2, kwInt "c" 3] =
    repeat_ (numpyBackend intOps true) idOrder (.one ⟨[2], [1, 2], rfl⟩) "a -> a (c b)".toList [kwInt "b" 2, kwInt "c" 3] := by
  decide +kernel

/-- **C78** For maxima different elements are not enough: they have to be increasing. -/
theorem C78_max_order :
    reduce (numpyBackend intOps true) idOrder (.one ⟨[2, 2], [3, 1, 2, 4], rfl⟩) "a b -> a".toList (.name "max".toList) [] =
      .ok ⟨[2], [3, 4], rfl⟩ ∧
    reduce (numpyBackend intOps true) idOrder (.one ⟨[2, 2], [3, 1, 2, 4], rfl⟩) "a b -> b".toList (.name "max".toList) [] =
      .ok ⟨[2], [3, 4], rfl⟩ ∧
    reduce (numpyBackend intOps true) idOrder (.one ⟨[2, 2], [1, 2, 3, 4], rfl⟩) "a b -> a".toList (.name "max".toList) [] ≠
      reduce (numpyBackend intOps true) idOrder (.one ⟨[2, 2], [1, 2, 3, 4], rfl⟩) "a b -> b".toList (.name "max".toList) [] := by
  decide +kernel

end

end Einops
