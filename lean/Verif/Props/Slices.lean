import Verif.Proofs.Slices
import Verif.Props.Operations

/-!
# C66: operations act on the slices along an axis that is on both sides

The pattern `pattern'` is `pattern` with one new name `n` written, outside parentheses, somewhere on the left and somewhere
on the right.
-/

namespace Einops

universe u

section
variable {α : Type u} [PyUnicode] {E : ElemOps α} {b : Backend α} {so : SetOrder} {x y : Tensor α} {xs : Nat → Tensor α}
  {pattern pattern' : Str} {kw : List (Str × Size)} {A B C D : List Elem} {n : Str} {N : Nat}

theorem rearrange_gives (hb : Modelled E b) (hkw : IntKw kw) {GL GR : List Elem} (hp : IsPattern pattern GL GR) :
    rearrange b so (.one x) pattern kw = .ok y ↔ Gives Moves (.name "rearrange".toList) pattern kw x y :=
  move_iff hb.lawful so (isPattern_split hp).1 hkw (.inl rfl) (fun h => by cases h) y

theorem repeat_gives (hb : Modelled E b) (hkw : IntKw kw) (hneg : RefusesNegative E b ∨ ∀ p ∈ kw, 0 ≤ p.2.val)
    {GL GR : List Elem} (hp : IsPattern pattern GL GR) :
    repeat_ b so (.one x) pattern kw = .ok y ↔ Gives Moves (.name "repeat".toList) pattern kw x y :=
  move_iff hb.lawful so (isPattern_split hp).1 hkw (.inr rfl) (fun _ => hneg.imp RefusesNegative.strict id) y

theorem reduce_gives {o : Str} (hb : Computes E o b) (ho : o ∈ builtins) (hkw : IntKw kw) {GL GR : List Elem}
    (hp : IsPattern pattern GL GR) (z : Tensor α) :
    reduce b so (.one x) pattern (.name o) kw = .ok y ↔
      Gives (Combines (E.op o) (o = "mean".toList → b.isFloat z = true)) (.name o) pattern kw x y := by
  have := reduce_iff hb.modelled.lawful so (isPattern_split hp).1 hkw (red_names_isRed ho) (hb.reduce ho) (x := x) y
  rw [hb.modelled.lawful.isFloat x z] at this
  exact this

theorem callable_gives {f : Tensor α → List Nat → Py (Tensor α)} {op : List α → Py α}
    (hf : ∀ t axes, f t axes = t.reduceAxes op axes) (hb : Modelled E b) (hkw : IntKw kw) {GL GR : List Elem}
    (hp : IsPattern pattern GL GR) :
    reduce b so (.one x) pattern (.callable f) kw = .ok y ↔ Gives (Combines op True) .callable pattern kw x y := by
  have ho : isRed (Reduction.callable f).kind := ⟨by simp [Reduction.kind], by simp [Reduction.kind]⟩
  have hred : ∀ (t : Tensor α) k, k < t.ndim → reduceAxesE b t (.callable f) ((List.range t.ndim).drop k) =
      t.reduceAxes op ((List.range t.ndim).drop k) := fun t k _ => hf t _
  have hnd : ∀ {L R}, ¬ Drops L R → ∀ a ∈ L.flatten, a ∈ R.flatten := fun h a ha => by_contra fun hc => h ⟨a, ha, hc⟩
  constructor
  · intro h
    obtain ⟨GL, GR, L, R, len, ha⟩ := accepted_of_ok hb.lawful so (isPattern_split hp).1 hkw (red := .callable f)
      (fun h => absurd h ho.2) h
    refine ⟨GL, GR, L, R, len, ha, ?_⟩
    by_cases hd : Drops L R
    · exact .inr ⟨hd, trivial, (ha.reduces hb.lawful so hkw ho hd hred y).1 h⟩
    · obtain ⟨y', h1, h2⟩ := ha.moves hb.lawful hkw (hnd hd)
      rw [h1 so] at h
      cases h
      exact .inl ⟨hd, h2⟩
  · rintro ⟨GL, GR, L, R, len, ha, ⟨hd, hm⟩ | ⟨hd, _, hr⟩⟩
    · obtain ⟨y', h1, h2⟩ := ha.moves (red := .callable f) hb.lawful hkw (hnd hd)
      rw [h1 so, hm.unique ha.nodup.2 (hnd hd) h2]
    · exact (ha.reduces (red := .callable f) hb.lawful so hkw ho hd hred y).2 hr

/-- **C66** `rearrange` with a new axis on both sides rearranges every slice along it. -/
theorem C66_rearrange (hb : Modelled E b) (hkw : IntKw kw) (hp : IsPattern pattern (A ++ B) (C ++ D))
    (hp' : IsPattern pattern' (A ++ .bare n :: B) (C ++ .bare n :: D)) (hn : IsName false n) (hk : n ∉ kw.map Prod.fst)
    (h0 : 0 < N) (hx : SlicesAre x (placeBetween A B x.ndim) N xs) :
    rearrange b so (.one x) pattern' kw = .ok y ↔
      ∃ ys, SlicesAre y (placeBetween C D y.ndim) N ys ∧ ∀ i < N, rearrange b so (.one (xs i)) pattern kw = .ok (ys i) := by
  simp only [rearrange_gives hb hkw hp, rearrange_gives hb hkw hp']
  exact ⟨fun h => gives_slices hp hp' hn moves_sliceWise hk h0 hx h,
    fun ⟨ys, hy, h⟩ => (slices_give hp hp' hn moves_sliceWise hkw hk h0 hx h).2 y hy⟩

/-- **C66** `repeat` with a new axis on both sides repeats every slice along it. -/
theorem C66_repeat (hb : Modelled E b) (hkw : IntKw kw) (hneg : RefusesNegative E b ∨ ∀ p ∈ kw, 0 ≤ p.2.val)
    (hp : IsPattern pattern (A ++ B) (C ++ D)) (hp' : IsPattern pattern' (A ++ .bare n :: B) (C ++ .bare n :: D))
    (hn : IsName false n) (hk : n ∉ kw.map Prod.fst) (h0 : 0 < N) (hx : SlicesAre x (placeBetween A B x.ndim) N xs) :
    repeat_ b so (.one x) pattern' kw = .ok y ↔
      ∃ ys, SlicesAre y (placeBetween C D y.ndim) N ys ∧ ∀ i < N, repeat_ b so (.one (xs i)) pattern kw = .ok (ys i) := by
  simp only [repeat_gives hb hkw hneg hp, repeat_gives hb hkw hneg hp']
  exact ⟨fun h => gives_slices hp hp' hn moves_sliceWise hk h0 hx h,
    fun ⟨ys, hy, h⟩ => (slices_give hp hp' hn moves_sliceWise hkw hk h0 hx h).2 y hy⟩

/-- **C66** `reduce` by a built-in reduction with a new axis on both sides reduces every slice along it. -/
theorem C66_reduce {o : Str} (hb : Computes E o b) (ho : o ∈ builtins) (hkw : IntKw kw)
    (hp : IsPattern pattern (A ++ B) (C ++ D)) (hp' : IsPattern pattern' (A ++ .bare n :: B) (C ++ .bare n :: D))
    (hn : IsName false n) (hk : n ∉ kw.map Prod.fst) (h0 : 0 < N) (hx : SlicesAre x (placeBetween A B x.ndim) N xs) :
    reduce b so (.one x) pattern' (.name o) kw = .ok y ↔
      ∃ ys, SlicesAre y (placeBetween C D y.ndim) N ys ∧
        ∀ i < N, reduce b so (.one (xs i)) pattern (.name o) kw = .ok (ys i) := by
  simp only [reduce_gives hb ho hkw hp x, reduce_gives hb ho hkw hp' x]
  exact ⟨fun h => gives_slices hp hp' hn (combines_sliceWise _ _) hk h0 hx h,
    fun ⟨ys, hy, h⟩ => (slices_give hp hp' hn (combines_sliceWise _ _) hkw hk h0 hx h).2 y hy⟩

/-- **C66** The same for a callable that reduces the elements along the axes it is told to reduce. -/
theorem C66_callable {f : Tensor α → List Nat → Py (Tensor α)} {op : List α → Py α}
    (hf : ∀ t axes, f t axes = t.reduceAxes op axes) (hb : Modelled E b) (hkw : IntKw kw)
    (hp : IsPattern pattern (A ++ B) (C ++ D)) (hp' : IsPattern pattern' (A ++ .bare n :: B) (C ++ .bare n :: D))
    (hn : IsName false n) (hk : n ∉ kw.map Prod.fst) (h0 : 0 < N) (hx : SlicesAre x (placeBetween A B x.ndim) N xs) :
    reduce b so (.one x) pattern' (.callable f) kw = .ok y ↔
      ∃ ys, SlicesAre y (placeBetween C D y.ndim) N ys ∧
        ∀ i < N, reduce b so (.one (xs i)) pattern (.callable f) kw = .ok (ys i) := by
  simp only [callable_gives hf hb hkw hp, callable_gives hf hb hkw hp']
  exact ⟨fun h => gives_slices hp hp' hn (combines_sliceWise _ _) hk h0 hx h,
    fun ⟨ys, hy, h⟩ => (slices_give hp hp' hn (combines_sliceWise _ _) hkw hk h0 hx h).2 y hy⟩

/-- **C66** The call with the new axis returns iff the calls on all slices do. -/
theorem C66_returns (hb : Modelled E b) (hkw : IntKw kw) (hneg : RefusesNegative E b ∨ ∀ p ∈ kw, 0 ≤ p.2.val)
    (hp : IsPattern pattern (A ++ B) (C ++ D)) (hp' : IsPattern pattern' (A ++ .bare n :: B) (C ++ .bare n :: D))
    (hn : IsName false n) (hk : n ∉ kw.map Prod.fst) (h0 : 0 < N) (hx : SlicesAre x (placeBetween A B x.ndim) N xs) :
    ((∃ y, rearrange b so (.one x) pattern' kw = .ok y) ↔ ∀ i < N, ∃ y, rearrange b so (.one (xs i)) pattern kw = .ok y) ∧
    ((∃ y, repeat_ b so (.one x) pattern' kw = .ok y) ↔ ∀ i < N, ∃ y, repeat_ b so (.one (xs i)) pattern kw = .ok y) ∧
    ∀ o ∈ builtins, Computes E o b →
      ((∃ y, reduce b so (.one x) pattern' (.name o) kw = .ok y) ↔
        ∀ i < N, ∃ y, reduce b so (.one (xs i)) pattern (.name o) kw = .ok y) := by
  have key : ∀ {Q : AxisMap → List (List Axis) → List (List Axis) → Tensor α → Tensor α → Prop} {op : OpKind}, SliceWise Q →
      ((∃ y, Gives Q op pattern' kw x y) ↔ ∀ i < N, ∃ y, Gives Q op pattern kw (xs i) y) := by
    intro Q op hQ
    constructor
    · rintro ⟨y, h⟩ i hi
      obtain ⟨ys, _, h⟩ := gives_slices hp hp' hn hQ hk h0 hx h
      exact ⟨ys i, h i hi⟩
    · intro h
      classical
      obtain ⟨⟨y, hy⟩, h2⟩ := slices_give (ys := fun i => if hi : i < N then (h i hi).choose else x) hp hp' hn hQ hkw hk h0 hx
        (fun i hi => by simp only [dif_pos hi]; exact (h i hi).choose_spec)
      exact ⟨y, h2 y hy⟩
  refine ⟨?_, ?_, fun o ho hb => ?_⟩
  · simp only [rearrange_gives hb hkw hp, rearrange_gives hb hkw hp']
    exact key moves_sliceWise
  · simp only [repeat_gives hb hkw hneg hp, repeat_gives hb hkw hneg hp']
    exact key moves_sliceWise
  · simp only [reduce_gives hb ho hkw hp x, reduce_gives hb ho hkw hp' x]
    exact key (combines_sliceWise _ _)

/-- **C66** With the new axis first on both sides, a call on a list of tensors of one shape is the call on each of them:
the results are the slices of the result. -/
theorem C66_list (hb : Modelled E b) (hkw : IntKw kw) {GL GR : List Elem} (hp : IsPattern pattern GL GR)
    (hp' : IsPattern pattern' (.bare n :: GL) (.bare n :: GR)) (hn : IsName false n) (hk : n ∉ kw.map Prod.fst)
    {ts : List (Tensor α)} (hne : ts ≠ []) {s : List Nat} (hs : ∀ t ∈ ts, t.shape = s) :
    rearrange b so (.many ts) pattern' kw = .ok y ↔
      ∃ ys, SlicesAre y 0 ts.length ys ∧
        ∀ (i : Nat) (hi : i < ts.length), rearrange b so (.one ts[i]) pattern kw = .ok (ys i) := by
  obtain ⟨z, h1, h2, h3⟩ := (C18_list_is_stack hb ts hs).1 hne
  have hz : SlicesAre z 0 ts.length (fun i => ts.getD i z) := by
    refine ⟨[], s, h1, rfl, fun i hi => ⟨?_, fun u v hu => ?_⟩⟩
    · simp only [List.getD_eq_getElem?_getD, List.getElem?_eq_getElem hi, Option.getD_some, List.nil_append]
      exact hs _ (List.getElem_mem hi)
    · obtain rfl := List.length_eq_zero_iff.1 hu
      simp only [List.nil_append]
      rw [h2, List.getD_eq_getElem?_getD, List.getElem?_eq_getElem hi]
      rfl
  have := C66_rearrange (so := so) (y := y) (A := []) (B := GL) (C := []) (D := GR) hb hkw hp hp' hn hk
    (List.length_pos_iff.2 hne) (x := z) (xs := fun i => ts.getD i z) hz
  rw [show rearrange b so (.many ts) pattern' kw = rearrange b so (.one z) pattern' kw from h3 so pattern' _ kw, this]
  refine exists_congr fun ys => and_congr_right fun _ => forall_congr' fun i => forall_congr' fun hi => ?_
  rw [List.getD_eq_getElem?_getD, List.getElem?_eq_getElem hi]
  rfl

/-- **C66** A tensor has slices along each of its dimensions, and tensors of one shape are the slices of a tensor. -/
theorem C66_slices :
    (∀ (x : Tensor α) pre n post, x.shape = pre ++ n :: post → ∃ xs, SlicesAre x pre.length n xs) ∧
    (∀ (xs : Nat → Tensor α) pre n post, (∀ i < n, (xs i).shape = pre ++ post) → ∃ x, SlicesAre x pre.length n xs) :=
  ⟨fun _ _ _ _ h => exists_slices h, fun _ _ _ _ h => exists_stacked h⟩

end

section
attribute [local instance] asciiUnicode

-- the batch axis in the middle on the left and last on the right; before it an ellipsis on the right
example : IsPattern "a (b c) ... -> c ... (a b)".toList
      ([.bare "a".toList] ++ [.paren ["b".toList, "c".toList], .bare dots])
      ([.bare "c".toList, .bare dots] ++ [.paren ["a".toList, "b".toList]]) ∧
    IsPattern "a n (b c) ... -> c ... n (a b)".toList
      ([.bare "a".toList] ++ .bare "n".toList :: [.paren ["b".toList, "c".toList], .bare dots])
      ([.bare "c".toList, .bare dots] ++ .bare "n".toList :: [.paren ["a".toList, "b".toList]]) ∧ IsName false "n".toList :=
  ⟨⟨"a (b c) ... ".toList, " c ... (a b)".toList, by decide, isSide_of (by decide) (by decide) (by decide) (by decide),
      isSide_of (by decide) (by decide) (by decide) (by decide)⟩,
    ⟨"a n (b c) ... ".toList, " c ... n (a b)".toList, by decide, isSide_of (by decide) (by decide) (by decide) (by decide),
      isSide_of (by decide) (by decide) (by decide) (by decide)⟩, by decide⟩

-- the place of the new axis on the right of the second pattern, for a result with four dimensions
example : placeBetween [.bare "c".toList, .bare dots] [.paren ["a".toList, "b".toList]] 4 = 2 := by decide

-- a tensor with two slices along its first dimension
def pair223 : Tensor Int := ⟨[2, 2, 3], [0, 1, 2, 3, 4, 5, 10, 11, 12, 13, 14, 15], rfl⟩
def half (k : Nat) : Tensor Int := ⟨[2, 3], if k = 0 then [0, 1, 2, 3, 4, 5] else [10, 11, 12, 13, 14, 15], by split <;> rfl⟩

example : ∃ xs, SlicesAre pair223 0 2 xs := C66_slices.1 pair223 [] 2 [2, 3] rfl

example : rearrange (numpyBackend intOps true) idOrder (.one pair223) "n a b -> b n a".toList [] =
      .ok ⟨[3, 2, 2], [0, 3, 10, 13, 1, 4, 11, 14, 2, 5, 12, 15], rfl⟩ ∧
    rearrange (numpyBackend intOps true) idOrder (.one (half 0)) "a b -> b a".toList [] =
      .ok ⟨[3, 2], [0, 3, 1, 4, 2, 5], rfl⟩ ∧
    rearrange (numpyBackend intOps true) idOrder (.one (half 1)) "a b -> b a".toList [] =
      .ok ⟨[3, 2], [10, 13, 11, 14, 12, 15], rfl⟩ := ⟨rfl, rfl, rfl⟩

example : reduce (numpyBackend intOps true) idOrder (.one pair223) "n a b -> b n".toList (.name "sum".toList) [] =
    .ok ⟨[3, 2], [3, 23, 5, 25, 7, 27], rfl⟩ := rfl

-- with no slices nothing is said: here the call fails although there is no slice on which it fails
example : rearrange (numpyBackend intOps true) idOrder (.one ⟨[0, 3], [], rfl⟩) "n (a b) -> n a b".toList [kwInt "a" 2] =
    .error .einops := rfl

-- the new axis must be on both sides: summed over, its slices are added, not reduced one by one
example : reduce (numpyBackend intOps true) idOrder (.one pair223) "n a b -> b".toList (.name "sum".toList) [] =
    .ok ⟨[3], [26, 30, 34], rfl⟩ := rfl

end

end Einops
