import Verif.Proofs.Calls
import Verif.Props.Examples

/-!
# What rearrange, repeat and reduce compute, and which calls they accept

Throughout: `b` is one of the modelled backends, `so` any iteration order of Python's sets, keyword sizes are Python
ints with distinct names (`IntKw`), and the pattern does not contain the character U+2026 ('…'), which einops uses
internally as a marker for the ellipsis.
-/

namespace Einops

universe u

section
variable {α : Type u} [PyUnicode] {E : ElemOps α} {b : Backend α} {so : SetOrder} {x y : Tensor α} {pattern : Str}
  {kw : List (Str × Size)}

/-! ### C01 -/

/-- **C01** If `rearrange` returns `y`, there are lengths for the axes such that input dimensions are the products over
the groups of the left side, output dimensions the products over the groups of the right side, keyword sizes and
numbers are lengths, and `y` at the positions of the right side is `x` at the positions of the left side. -/
theorem C01_rearrange_moves (hb : Modelled E b) (hell : '…' ∉ pattern) (hkw : IntKw kw)
    (h : rearrange b so (.one x) pattern kw = .ok y) :
    ∃ GL GR L R len, IsPattern pattern GL GR ∧ Groups GL GR x.shape.length L R ∧ Fits L R kw x.shape len ∧
      (∀ a, a ∈ L.flatten ↔ a ∈ R.flatten) ∧ L.flatten.Nodup ∧ R.flatten.Nodup ∧ Moves len L R x y := by
  obtain ⟨GL, GR, L, R, len, ha, hm⟩ := (move_iff hb.lawful so hell hkw (.inl rfl) (fun h => by cases h) y).1 h
  have hax := rearrange_axes ha.pattern ha.prepared
  exact ⟨GL, GR, L, R, len, ha.pattern, ha.prepared.groups, ha.fits, fun a => ⟨hax.1 a, hax.2 a⟩, ha.nodup.1,
    ha.nodup.2, hm⟩

end

section
attribute [local instance] asciiUnicode

-- a pattern with groups on both sides, one inferred length, a unit axis and an ellipsis
example : rearrange (numpyBackend intOps true) idOrder (.one t43) "(a b) ... -> b (... a) 1".toList [kwInt "a" 2] =
    .ok ⟨[2, 6, 1], [0, 6, 1, 7, 2, 8, 3, 9, 4, 10, 5, 11], rfl⟩ := by rfl
example : rearrange (torchBackend intOps true) revOrder (.one t43) "(a b) ... -> b (... a) 1".toList [kwInt "a" 2] =
    .ok ⟨[2, 6, 1], [0, 6, 1, 7, 2, 8, 3, 9, 4, 10, 5, 11], rfl⟩ := by rfl
end

section
variable {α : Type u} [PyUnicode] {E : ElemOps α} {b : Backend α} {so : SetOrder} {x y : Tensor α} {pattern : Str}
  {kw : List (Str × Size)}

/-! ### C02 -/

/-- **C02** If `repeat` returns `y`, then (lengths as in C01) every axis of the left is on the right and `y` at the
positions of the right side is `x` at the positions of the left side, whatever the coordinates of the other axes; axes
that occur only on the right are sized by a keyword or a number and have exactly that length (`Fits`). The backend must
refuse new axes of negative length, or keyword sizes must not be negative. -/
theorem C02_repeat_copies (hb : Modelled E b) (hell : '…' ∉ pattern) (hkw : IntKw kw)
    (hneg : RefusesNegative E b ∨ ∀ p ∈ kw, 0 ≤ p.2.val)
    (h : repeat_ b so (.one x) pattern kw = .ok y) :
    ∃ GL GR L R len, IsPattern pattern GL GR ∧ Groups GL GR x.shape.length L R ∧ Fits L R kw x.shape len ∧
      (∀ a ∈ L.flatten, a ∈ R.flatten) ∧
      (∀ a ∈ R.flatten, a ∉ L.flatten → isKnown (kw.map Prod.fst) a = true) ∧
      L.flatten.Nodup ∧ R.flatten.Nodup ∧ Moves len L R x y := by
  obtain ⟨GL, GR, L, R, len, ha, hm⟩ := (move_iff hb.lawful so hell hkw (.inr rfl)
    (fun _ => hneg.imp RefusesNegative.strict id) y).1 h
  have hax := repeat_axes ha.pattern ha.prepared
  exact ⟨GL, GR, L, R, len, ha.pattern, ha.prepared.groups, ha.fits, hax.1, hax.2, ha.nodup.1, ha.nodup.2, hm⟩

end

section
attribute [local instance] asciiUnicode

example : repeat_ (numpyBackend intOps true) idOrder (.one t23) "a b -> (a 2) b c".toList [kwInt "c" 2] =
    .ok ⟨[4, 3, 2], [0, 0, 1, 1, 2, 2, 0, 0, 1, 1, 2, 2, 3, 3, 4, 4, 5, 5, 3, 3, 4, 4, 5, 5], rfl⟩ := by rfl

/-- Without the restriction C02 is false of the torch-like backends: `expand` reads -1 as "keep this dimension", so a
requested length of -1 silently gives an axis of length 1. -/
theorem C02_torch_negative_length : repeat_ (torchBackend intOps true) idOrder (.one t23) "a b -> a b c".toList
    [kwInt "c" (-1)] = .ok ⟨[2, 3, 1], [0, 1, 2, 3, 4, 5], rfl⟩ := by rfl

end

section
variable {α : Type u} [PyUnicode] {E : ElemOps α} {b : Backend α} {so : SetOrder} {x y : Tensor α} {pattern : Str}
  {kw : List (Str × Size)}

/-! ### C03 -/

/-- **C03** If `reduce` with a built-in reduction returns `y`, then (lengths as in C01) `y` at the positions of the right
side is the reduction of the list of the elements of `x` at the positions of the left side, the axes that occur only on
the left running through all their coordinates in C order.  If there are no such axes `y` is just moved. -/
theorem C03_reduce_combines {o : Str} (hb : Computes E o b) (ho : isRed (.name o)) (hell : '…' ∉ pattern)
    (hkw : IntKw kw) (h : reduce b so (.one x) pattern (.name o) kw = .ok y) :
    ∃ GL GR L R len, IsPattern pattern GL GR ∧ Groups GL GR x.shape.length L R ∧ Fits L R kw x.shape len ∧
      (∀ a ∈ R.flatten, a ∈ L.flatten) ∧ L.flatten.Nodup ∧ R.flatten.Nodup ∧
      ((¬ Drops L R ∧ Moves len L R x y) ∨ (Drops L R ∧ Reduces (E.op o) len L R x y)) := by
  have hmem : o ∈ builtins := by
    obtain ⟨GL, GR, L, R, len, ha⟩ := accepted_of_ok hb.modelled.lawful so hell hkw (red := .name o)
      (fun h => absurd h ho.2) h
    exact accepted_name ho ha
  obtain ⟨GL, GR, L, R, len, ha, hm⟩ := (reduce_iff hb.modelled.lawful so hell hkw ho (hb.reduce hmem) y).1 h
  exact ⟨GL, GR, L, R, len, ha.pattern, ha.prepared.groups, ha.fits, reduce_axes_sub ha.pattern ho ha.prepared,
    ha.nodup.1, ha.nodup.2, hm.imp id (fun h => ⟨h.1, h.2.2⟩)⟩

/-- **C03** for a callable that reduces elements of the axes it is told to reduce. -/
theorem C03_reduce_callable {f : Tensor α → List Nat → Py (Tensor α)} {op : List α → Py α}
    (hf : ∀ t axes, f t axes = t.reduceAxes op axes) (hb : Modelled E b) (hell : '…' ∉ pattern)
    (hkw : IntKw kw) (h : reduce b so (.one x) pattern (.callable f) kw = .ok y) :
    ∃ GL GR L R len, IsPattern pattern GL GR ∧ Groups GL GR x.shape.length L R ∧ Fits L R kw x.shape len ∧
      (∀ a ∈ R.flatten, a ∈ L.flatten) ∧ L.flatten.Nodup ∧ R.flatten.Nodup ∧
      ((¬ Drops L R ∧ Moves len L R x y) ∨ (Drops L R ∧ Reduces op len L R x y)) := by
  have ho : isRed (Reduction.callable f).kind := ⟨by simp [Reduction.kind], by simp [Reduction.kind]⟩
  obtain ⟨GL, GR, L, R, len, ha⟩ := accepted_of_ok hb.lawful so hell hkw (red := .callable f)
    (fun h => absurd h ho.2) h
  refine ⟨GL, GR, L, R, len, ha.pattern, ha.prepared.groups, ha.fits, reduce_axes_sub ha.pattern ho ha.prepared,
    ha.nodup.1, ha.nodup.2, ?_⟩
  by_cases hd : Drops L R
  · exact .inr ⟨hd, (ha.reduces hb.lawful so hkw ho hd (fun t k _ => hf t _) y).1 h⟩
  · left
    obtain ⟨y', h1, h2⟩ := ha.moves hb.lawful hkw (fun a hal => by
      by_contra hc
      exact hd ⟨a, hal, hc⟩)
    rw [h1 so] at h
    cases h
    exact ⟨hd, h2⟩

end

section
attribute [local instance] asciiUnicode

example : reduce (numpyBackend intOps true) idOrder (.one t43) "(a 2) b -> b".toList (.name "max".toList) [] =
    .ok ⟨[3], [9, 10, 11], rfl⟩ := by rfl
example : reduce (tinygradBackend intOps true) idOrder (.one t43) "(a 2) b -> a".toList (.name "sum".toList) [] =
    .ok ⟨[2], [15, 51], rfl⟩ := by rfl
-- the assumption on reductions is met by the exact reductions on rational numbers, for every backend
example : Computes ratOps "sum".toList (torchBackend ratOps true) ∧ Computes ratOps "mean".toList (oneflowBackend ratOps true) ∧
    Computes ratOps "any".toList (tinygradBackend ratOps true) :=
  ⟨.torch _ (.inl (by decide)), .oneflow _ (ratOps_law _ (by decide)), .tinygrad _ (ratOps_law _ (by decide))⟩
end

section
variable {α : Type u} [PyUnicode] {E : ElemOps α} {b : Backend α} {so : SetOrder} {x y : Tensor α} {pattern : Str}
  {kw : List (Str × Size)}

/-! ### C04 -/

/-- **C04** `rearrange` returns a tensor exactly for the legal calls; otherwise it raises. -/
theorem C04_rearrange_accepts (hb : Modelled E b) (hell : '…' ∉ pattern) (hkw : IntKw kw) :
    (∃ y, rearrange b so (.one x) pattern kw = .ok y) ↔
      ∃ GL GR L R len, IsPattern pattern GL GR ∧ RearrangeSides GL GR ∧ KeywordsUsed GL GR (kw.map Prod.fst) ∧
        Groups GL GR x.shape.length L R ∧ OneUnknown L (kw.map Prod.fst) ∧ Fits L R kw x.shape len ∧
        Determinate L (kw.map Prod.fst) len := by
  constructor
  · rintro ⟨y, h⟩
    obtain ⟨GL, GR, L, R, len, ha, _⟩ := (move_iff hb.lawful so hell hkw (.inl rfl) (fun h => by cases h) y).1 h
    have hs := ha.prepared.sides
    rw [SidesOK, if_pos rfl] at hs
    exact ⟨GL, GR, L, R, len, ha.pattern, hs, ha.prepared.keywords, ha.prepared.groups, ha.prepared.unknowns, ha.fits,
      ha.determinate⟩
  · rintro ⟨GL, GR, L, R, len, h1, h2, h3, h4, h5, h6, h7⟩
    have ha : Accepted (.name "rearrange".toList) pattern kw x.shape GL GR L R len :=
      ⟨h1, ⟨by rw [SidesOK, if_pos rfl]; exact h2, h3, h4, h5⟩, h6, h7⟩
    obtain ⟨y, hy, _⟩ := ha.moves (red := .name "rearrange".toList) hb.lawful hkw (ha.move_sub (.inl rfl))
    exact ⟨y, hy so⟩

end

section
attribute [local instance] asciiUnicode

-- two axes of unknown length, a product that does not divide, a zero product
example : rearrange (numpyBackend intOps true) idOrder (.one t43) "(a b) c -> a b c".toList [] = .error .einops := by rfl
example : rearrange (numpyBackend intOps true) idOrder (.one t43) "(a b) c -> a b c".toList [kwInt "a" 3] = .error .einops := by
  rfl
example : rearrange (numpyBackend intOps true) idOrder (.one t43) "(a b) c -> a b c".toList [kwInt "a" 0] =
    .error .zeroDivision := by rfl
end

section
variable {α : Type u} [PyUnicode] {E : ElemOps α} {b : Backend α} {so : SetOrder} {x y : Tensor α} {pattern : Str}
  {kw : List (Str × Size)}

/-- **C45** `repeat` returns a tensor exactly for the legal calls. -/
theorem C45_repeat_accepts (hb : Modelled E b) (hell : '…' ∉ pattern) (hkw : IntKw kw)
    (hneg : RefusesNegative E b ∨ ∀ p ∈ kw, 0 ≤ p.2.val) :
    (∃ y, repeat_ b so (.one x) pattern kw = .ok y) ↔
      ∃ GL GR L R len, IsPattern pattern GL GR ∧ RepeatSides GL GR (kw.map Prod.fst) ∧
        KeywordsUsed GL GR (kw.map Prod.fst) ∧
        Groups GL GR x.shape.length L R ∧ OneUnknown L (kw.map Prod.fst) ∧ Fits L R kw x.shape len ∧
        Determinate L (kw.map Prod.fst) len := by
  constructor
  · rintro ⟨y, h⟩
    obtain ⟨GL, GR, L, R, len, ha, _⟩ := (move_iff hb.lawful so hell hkw (.inr rfl)
      (fun _ => hneg.imp RefusesNegative.strict id) y).1 h
    have hs := ha.prepared.sides
    rw [SidesOK, if_neg repeat_ne, if_pos rfl] at hs
    exact ⟨GL, GR, L, R, len, ha.pattern, hs, ha.prepared.keywords, ha.prepared.groups, ha.prepared.unknowns, ha.fits,
      ha.determinate⟩
  · rintro ⟨GL, GR, L, R, len, h1, h2, h3, h4, h5, h6, h7⟩
    have ha : Accepted (.name "repeat".toList) pattern kw x.shape GL GR L R len :=
      ⟨h1, ⟨by rw [SidesOK, if_neg repeat_ne, if_pos rfl]; exact h2, h3, h4, h5⟩, h6, h7⟩
    obtain ⟨y, hy, _⟩ := ha.moves (red := .name "repeat".toList) hb.lawful hkw (ha.move_sub (.inr rfl))
    exact ⟨y, hy so⟩

end

section
attribute [local instance] asciiUnicode

-- a new axis without a length is refused, a new axis of length 0 is not
example : repeat_ (numpyBackend intOps true) idOrder (.one t23) "a b -> a b c".toList [] = .error .einops := by rfl
example : repeat_ (numpyBackend intOps true) idOrder (.one t23) "a b -> a b c".toList [kwInt "c" 0] =
    .ok ⟨[2, 3, 0], [], rfl⟩ := by rfl
example : repeat_ (numpyBackend intOps true) idOrder (.one t23) "a b -> a b c".toList [kwInt "c" (-1)] =
    .error .backend := by rfl
end

section
variable {α : Type u} [PyUnicode] {E : ElemOps α} {b : Backend α} {so : SetOrder} {x y : Tensor α} {pattern : Str}
  {kw : List (Str × Size)}

/-- **C46** `reduce` with a built-in reduction returns a tensor exactly for the legal calls, such that the reduction is
defined on the lists of elements it is given if an axis is dropped; 'mean' moreover needs a floating tensor then. -/
theorem C46_reduce_accepts {o : Str} (hb : Computes E o b) (ho : o ∈ builtins) (hell : '…' ∉ pattern)
    (hkw : IntKw kw) :
    (∃ y, reduce b so (.one x) pattern (.name o) kw = .ok y) ↔
      ∃ GL GR L R len, IsPattern pattern GL GR ∧ ReduceSides GL GR ∧ KeywordsUsed GL GR (kw.map Prod.fst) ∧
        Groups GL GR x.shape.length L R ∧ OneUnknown L (kw.map Prod.fst) ∧ Fits L R kw x.shape len ∧
        Determinate L (kw.map Prod.fst) len ∧ (o = "mean".toList → Drops L R → b.isFloat x = true) ∧
        (Drops L R → ∀ env, InRange len R.flatten env → ∀ vs,
          (loops len (L.flatten.filter (fun a => a ∉ R.flatten)) env).map (x.atAxes L len) = vs.map some →
            ∃ v, E.op o vs = .ok v) := by
  have hr := red_names_isRed ho
  constructor
  · rintro ⟨y, h⟩
    obtain ⟨GL, GR, L, R, len, ha, hm⟩ := (reduce_iff hb.modelled.lawful so hell hkw hr (hb.reduce ho) y).1 h
    have hs := ha.prepared.sides
    rw [SidesOK, if_neg hr.1, if_neg hr.2] at hs
    refine ⟨GL, GR, L, R, len, ha.pattern, hs.2, ha.prepared.keywords, ha.prepared.groups, ha.prepared.unknowns, ha.fits,
      ha.determinate, fun h1 h2 => ?_, fun h2 env henv vs hvs => ?_⟩
    · rcases hm with hm | hm
      · exact absurd h2 hm.1
      · exact hm.2.1 h1
    · rcases hm with hm | hm
      · exact absurd h2 hm.1
      · obtain ⟨vs', v, h3, h4, -⟩ := hm.2.2.2 env henv
        rw [hvs] at h3
        rw [List.map_injective_iff.2 (Option.some_injective α) h3]
        exact ⟨v, h4⟩
  · rintro ⟨GL, GR, L, R, len, h1, h2, h3, h4, h5, h6, h7, h8, htot⟩
    have ha : Accepted (.name o) pattern kw x.shape GL GR L R len :=
      ⟨h1, ⟨by
        rw [SidesOK, if_neg hr.1, if_neg hr.2]
        exact ⟨fun s hs => by cases hs; exact ho, h2⟩, h3, h4, h5⟩, h6, h7⟩
    rcases hres : reduce b so (.one x) pattern (.name o) kw with e | y
    swap
    · exact ⟨y, rfl⟩
    exfalso
    by_cases hd : Drops L R
    · have hred : ∀ (t : Tensor α) k, k < t.ndim → reduceAxesE b t (.name o) ((List.range t.ndim).drop k) =
          t.reduceAxes (E.op o) ((List.range t.ndim).drop k) := by
        intro t k hk
        simp only [reduceAxesE]
        rw [if_neg (not_not_intro (show _ ∈ reductionNames from ho)), if_neg, hb.reduce ho t k hk]
        rintro ⟨h9, h10⟩
        rw [hb.modelled.lawful.isFloat t x, h8 h9 hd] at h10
        cases h10
      obtain ⟨env, vs, henv, hl, hvs⟩ := ha.error (red := .name o) hb.modelled.lawful hkw hr hd hred so hres
      obtain ⟨v, hv⟩ := htot hd env henv vs hl
      rw [hv] at hvs
      cases hvs
    · obtain ⟨y', h9, _⟩ := ha.moves (red := .name o) hb.modelled.lawful hkw (fun a hal => by
        by_contra hc
        exact hd ⟨a, hal, hc⟩)
      rw [h9 so] at hres
      cases hres

end

section
attribute [local instance] asciiUnicode

example : ∀ vs, ∃ v, ratOps.op "sum".toList vs = .ok v := fun vs => ⟨vs.sum, rfl⟩
example : reduce (numpyBackend intOps true) idOrder (.one t23) "a b -> a b c".toList (.name "sum".toList) [kwInt "c" 1] =
    .error .einops := by rfl
-- there is no maximum of no elements
example : reduce (numpyBackend intOps true) idOrder (.one ⟨[2, 0], [], rfl⟩) "a b -> a".toList (.name "max".toList) [] =
    .error .backend := by rfl
example : reduce (numpyBackend intOps true) idOrder (.one ⟨[2, 0], [], rfl⟩) "a b -> b".toList (.name "max".toList) [] =
    .ok ⟨[0], [], rfl⟩ := by rfl
example : reduce (numpyBackend intOps true) idOrder (.one t23) "a b -> () a".toList (.name "sum".toList) [] =
    .ok ⟨[1, 2], [3, 12], rfl⟩ := by rfl
end

section
variable {α : Type u} [PyUnicode] {E : ElemOps α} {b : Backend α} {so : SetOrder} {x y : Tensor α} {pattern : Str}
  {kw : List (Str × Size)}

/-! ### C34 -/

/-- **C34** If the dimensions, the keyword sizes and the numbers cannot all be lengths of the axes, the call raises,
whatever the operation or reduction. -/
theorem C34_sizes_checked {red : Reduction α} (hb : Modelled E b) (hell : '…' ∉ pattern) (hkw : IntKw kw)
    (hneg : red.kind = .name "repeat".toList → RefusesNegative E b ∨ ∀ p ∈ kw, 0 ≤ p.2.val)
    (hbad : ∀ GL GR L R, IsPattern pattern GL GR → Groups GL GR x.shape.length L R → ∀ len, ¬ Fits L R kw x.shape len) :
    ∃ e, reduce b so (.one x) pattern red kw = .error e := by
  rcases h : reduce b so (.one x) pattern red kw with e | y
  · exact ⟨e, rfl⟩
  · exfalso
    obtain ⟨GL, GR, L, R, len, ha⟩ := accepted_of_ok hb.lawful so hell hkw
      (fun h => (hneg h).imp RefusesNegative.strict id) h
    exact hbad GL GR L R ha.pattern ha.prepared.groups len ha.fits

end

section
attribute [local instance] asciiUnicode

example : reduce (numpyBackend intOps true) idOrder (.one t43) "a b -> b".toList (.name "sum".toList) [kwInt "a" 5] =
    .error .einops := by rfl
example : repeat_ (numpyBackend intOps true) idOrder (.one t43) "(a b) c -> b a c 2".toList [kwInt "a" 3, kwInt "b" 2] =
    .error .einops := by rfl
end

section
variable {α : Type u} [PyUnicode] {E : ElemOps α} {b : Backend α} {so : SetOrder} {x y : Tensor α} {pattern : Str}
  {kw : List (Str × Size)}

/-! ### C08 -/

/-- **C08** The outcome (tensor or kind of exception) does not depend on the iteration order of sets. -/
theorem C08_hash_order (hell : '…' ∉ pattern) (hnd : (kw.map Prod.fst).Nodup) (b : Backend α) (t : Input α)
    (red : Reduction α) (so so' : SetOrder) :
    reduce b so t pattern red kw = reduce b so' t pattern red kw := by
  cases hr : resolveInput b t with
  | error e => simp only [reduce, hr]
  | ok x =>
    have h : ∀ so, reduce b so t pattern red kw = reduce b so (.one x) pattern red kw := by
      intro so
      simp only [reduce, hr]
      rfl
    rw [h, h]
    rcases reduce_cases b x hell red hnd with ⟨_, _, _, _, _, _, _, heq⟩ | ⟨_, _, _, heq⟩
    · rw [heq, heq]
    · rw [heq, heq]

end

section
attribute [local instance] asciiUnicode

-- two set orders that do lead to different recipes
example : (prepareRecipe idOrder "(a b c) d -> (a b c d) 2 e".toList (.name "repeat".toList) ["b".toList, "c".toList, "e".toList] 2).isOk ∧
    prepareRecipe idOrder "(a b c) d -> (a b c d) 2 e".toList (.name "repeat".toList) ["b".toList, "c".toList, "e".toList] 2 ≠
      prepareRecipe revOrder "(a b c) d -> (a b c d) 2 e".toList (.name "repeat".toList) ["b".toList, "c".toList, "e".toList] 2 := by
  decide
example : reduce (numpyBackend intOps true) idOrder (.one t43) "(2 b) c -> c 2".toList (.name "repeat".toList) [] =
    reduce (numpyBackend intOps true) revOrder (.one t43) "(2 b) c -> c 2".toList (.name "repeat".toList) [] := by rfl
end

section
variable {α : Type u} [PyUnicode] {E : ElemOps α} {b : Backend α} {so : SetOrder} {x y : Tensor α} {pattern : Str}
  {kw : List (Str × Size)}

/-! ### C15 -/

/-- **C15** When no axis of the left side is missing on the right (no names, no ellipsis, no numbers other than 1),
`reduce` with any built-in or callable reduction is `rearrange`: the reduction is not called (it does not influence the
outcome), not even 'mean' of integers is refused. -/
theorem C15_reduce_without_drop (hb : Modelled E b) (hkw : IntKw kw)
    {red : Reduction α} (ho : isRed red.kind) {GL GR : List Elem} {L R : List (List Axis)} {len : AxisMap}
    (ha : Accepted red.kind pattern kw x.shape GL GR L R len) (hn : NamesWithin GL GR) (hu : OnlyUnits GL) :
    ∃ y, reduce b so (.one x) pattern red kw = .ok y ∧ rearrange b so (.one x) pattern kw = .ok y := by
  have hs := ha.prepared.sides
  rw [SidesOK, if_neg ho.1, if_neg ho.2] at hs
  have hr : Accepted (.name "rearrange".toList) pattern kw x.shape GL GR L R len :=
    ⟨ha.pattern, ⟨by
      rw [SidesOK, if_pos rfl]
      exact ⟨hs.2.ellipsis, hu, hs.2.units_right, hn, hs.2.right_in_left⟩, ha.prepared.keywords, ha.prepared.groups,
      ha.prepared.unknowns⟩, ha.fits, ha.determinate⟩
  have hL := hr.move_sub (.inl rfl)
  obtain ⟨y, h1, h2⟩ := ha.moves hb.lawful hkw hL
  obtain ⟨y', h1', h2'⟩ := hr.moves (red := .name "rearrange".toList) hb.lawful hkw hL
  refine ⟨y, h1 so, ?_⟩
  unfold rearrange
  rw [h1' so, h2.unique ha.nodup.2 hL h2']

end

section
attribute [local instance] asciiUnicode

-- 'mean' on a tensor that is not of floating type, and a callable that always fails
example : reduce (numpyBackend intOps false) idOrder (.one t23) "a b -> b a".toList (.name "mean".toList) [] =
    .ok ⟨[3, 2], [0, 3, 1, 4, 2, 5], rfl⟩ := by rfl
example : reduce (numpyBackend intOps false) idOrder (.one t23) "a b -> b a".toList (.callable fun _ _ => .error .backend) [] =
    .ok ⟨[3, 2], [0, 3, 1, 4, 2, 5], rfl⟩ := by rfl
end

section
variable {α : Type u} [PyUnicode] {E : ElemOps α} {b : Backend α} {so : SetOrder} {x y : Tensor α} {pattern : Str}
  {kw : List (Str × Size)}

/-! ### C18 -/

/-- **C18** An operation on a non-empty list of tensors of one shape is the operation on the tensor with a new first axis
along which they are the slices; an empty list is a TypeError. -/
theorem C18_list_is_stack (hb : Modelled E b) {s : List Nat} (xs : List (Tensor α)) (hs : ∀ x ∈ xs, x.shape = s) :
    (xs ≠ [] → ∃ z : Tensor α, z.shape = xs.length :: s ∧ (∀ k i, z.at? (k :: i) = (xs[k]?).bind (fun x => x.at? i)) ∧
      ∀ so pattern red kw, reduce b so (.many xs) pattern red kw = reduce b so (.one z) pattern red kw) ∧
    (xs = [] → ∀ so pattern red kw, reduce b so (.many xs) pattern red kw = .error .type) := by
  constructor
  · intro hne
    obtain ⟨z, h1, h2, h3⟩ := stack_spec hne hs
    refine ⟨z, h2, h3, fun so pattern red kw => ?_⟩
    have : resolveInput b (.many xs) = .ok z := by
      cases xs with
      | nil => exact absurd rfl hne
      | cons x xs => simp only [resolveInput]; rw [hb.lawful.stack, h1]
    simp only [reduce, this]
    rfl
  · rintro rfl so pattern red kw
    rfl

end

section
attribute [local instance] asciiUnicode

example : rearrange (numpyBackend intOps true) idOrder (.many [t23, t23]) "n a b -> b (n a)".toList [] =
    .ok ⟨[3, 4], [0, 3, 0, 3, 1, 4, 1, 4, 2, 5, 2, 5], rfl⟩ := by rfl
end

section
variable {α : Type u} [PyUnicode] {E : ElemOps α} {b : Backend α} {so : SetOrder} {x y : Tensor α} {pattern : Str}
  {kw : List (Str × Size)}

/-! ### C19 -/

/-- **C19** All modelled backends return the same for `rearrange` and (non-negative sizes) `repeat`. -/
theorem C19_backends_agree_move {E' : ElemOps α} {b' : Backend α} (hb : Modelled E b) (hb' : Modelled E' b')
    (hell : '…' ∉ pattern) (hkw : IntKw kw) (op : Str)
    (hop : op = "rearrange".toList ∨ op = "repeat".toList ∧ ∀ p ∈ kw, 0 ≤ p.2.val) (y : Tensor α) :
    reduce b so (.one x) pattern (.name op) kw = .ok y ↔ reduce b' so (.one x) pattern (.name op) kw = .ok y := by
  have ho : isMove (.name op) := by
    rcases hop with rfl | ⟨rfl, _⟩
    · exact .inl rfl
    · exact .inr rfl
  have hneg : op = "repeat".toList → ∀ p ∈ kw, 0 ≤ p.2.val := by
    rcases hop with rfl | ⟨_, h⟩
    · intro h; cases h
    · exact fun _ => h
  rw [move_iff hb.lawful so hell hkw ho (fun h => .inr (hneg h)), move_iff hb'.lawful so hell hkw ho (fun h => .inr (hneg h))]

/-- **C19** All modelled backends return the same for `reduce`, provided the result of a reduction does not depend on
whether axes are reduced at once or one by one.  Backends whose dtype test says floating type. -/
theorem C19_backends_agree_reduce {b' : Backend α} {o : Str} (hb : Computes E o b) (hb' : Computes E o b')
    (ho : o ∈ builtins) (hf : b.isFloat x = b'.isFloat x)
    (hell : '…' ∉ pattern) (hkw : IntKw kw) (y : Tensor α) :
    reduce b so (.one x) pattern (.name o) kw = .ok y ↔ reduce b' so (.one x) pattern (.name o) kw = .ok y := by
  have hr := red_names_isRed ho
  rw [reduce_iff hb.modelled.lawful so hell hkw hr (hb.reduce ho), reduce_iff hb'.modelled.lawful so hell hkw hr (hb'.reduce ho),
    hf]

/-- **C19**, **C39** The array-API functions are the operations on the array-API backend. -/
theorem C19_array_api (E : ElemOps α) (so : SetOrder) (t : Input α) (pattern : Str) (red : Reduction α)
    (kw : List (Str × Size)) :
    arrayApiReduce E so t pattern red kw = reduce (arrayApiBackend E) so t pattern red kw :=
  arrayApi_eq E so t pattern red kw

end

section
attribute [local instance] asciiUnicode

example : repeat_ (oneflowBackend intOps true) idOrder (.one t23) "a b -> (a 2) b c".toList [kwInt "c" 2] =
    repeat_ (numpyBackend intOps true) idOrder (.one t23) "a b -> (a 2) b c".toList [kwInt "c" 2] := by rfl
example : reduce (paddleBackend intOps true) idOrder (.one t23) "a b -> ".toList (.name "sum".toList) [] =
    .ok ⟨[], [15], rfl⟩ := by rfl
example : reduce (oneflowBackend intOps true) idOrder (.one t23) "a b -> ".toList (.name "sum".toList) [] =
    .ok ⟨[], [15], rfl⟩ := by rfl
end

section
variable {α : Type u} [PyUnicode] {E : ElemOps α} {b : Backend α} {so : SetOrder} {x y : Tensor α} {pattern : Str}
  {kw : List (Str × Size)}

/-! ### C40 -/

/-- **C40** A pattern that is not accepted is rejected with EinopsError if it has exactly one arrow and with ValueError
otherwise.  No property of the backend or of the elements is used. -/
theorem C40_malformed (hell : '…' ∉ pattern) (b : Backend α) (red : Reduction α) (kw : List (Str × Size))
    (hbad : ¬ ∃ GL GR L R, IsPattern pattern GL GR ∧ Prepared red.kind GL GR (kw.map Prod.fst) x.ndim L R) :
    ((∃ l r, pattern = l ++ ['-', '>'] ++ r ∧ ¬ ['-', '>'] <:+: l ∧ ¬ ['-', '>'] <:+: r) →
      reduce b so (.one x) pattern red kw = .error .einops) ∧
    ((¬ ∃ l r, pattern = l ++ ['-', '>'] ++ r ∧ ¬ ['-', '>'] <:+: l ∧ ¬ ['-', '>'] <:+: r) →
      reduce b so (.one x) pattern red kw = .error .value) := by
  by_cases hp : ∃ GL GR, IsPattern pattern GL GR
  · obtain ⟨GL, GR, hp⟩ := hp
    rcases prepare_cases hp red.kind (kw.map Prod.fst) x.ndim with ⟨ex, wf, hpr, hn, heq⟩ | ⟨hno, heq⟩
    · exact absurd ⟨GL, GR, _, _, hp, hpr⟩ hbad
    · refine ⟨fun _ => by simp only [reduce, resolveInput, heq so], fun h => absurd ?_ h⟩
      obtain ⟨l, r, h1, h2, h3⟩ := hp
      exact ⟨l, r, h1, isSide_no_arrow h2, isSide_no_arrow h3⟩
  · rcases prepare_bad hell hp red.kind (kw.map Prod.fst) x.ndim with ⟨h1, h⟩ | ⟨h1, h⟩
    · exact ⟨fun _ => by simp only [reduce, resolveInput, h so], fun h2 => absurd h1 h2⟩
    · exact ⟨fun h2 => absurd h2 h1, fun _ => by simp only [reduce, resolveInput, h so]⟩

end

section
attribute [local instance] asciiUnicode

example : rearrange (numpyBackend intOps true) idOrder (.one t23) "a b -> b (a".toList [] = .error .einops := by rfl
example : rearrange (numpyBackend intOps true) idOrder (.one t23) "a b b a".toList [] = .error .value := by rfl
example : rearrange (numpyBackend intOps true) idOrder (.one t23) "a b -> b -> a".toList [] = .error .value := by rfl
end

section
variable {α : Type u} [PyUnicode] {E : ElemOps α} {b : Backend α} {so : SetOrder} {x y : Tensor α} {pattern : Str}
  {kw : List (Str × Size)}

/-! ### C41 -/

/-- **C41** A legal 'mean' that drops an axis is refused for tensors of non-floating type. -/
theorem C41_mean_refused (hb : Modelled E b) (hkw : IntKw kw) (hf : b.isFloat x = false)
    {GL GR : List Elem} {L R : List (List Axis)} {len : AxisMap}
    (ha : Accepted (.name "mean".toList) pattern kw x.shape GL GR L R len) (hd : Drops L R) :
    reduce b so (.one x) pattern (.name "mean".toList) kw = .error .notImplemented :=
  ha.mean_error hb.lawful so hkw hd hf

end

section
attribute [local instance] asciiUnicode

example : reduce (numpyBackend intOps false) idOrder (.one t23) "a b -> a".toList (.name "mean".toList) [] =
    .error .notImplemented := by rfl
end

section
variable {α : Type u} [PyUnicode] {E : ElemOps α} {b : Backend α} {so : SetOrder} {x y : Tensor α} {pattern : Str}
  {kw : List (Str × Size)}

/-! ### C43 -/

/-- **C43** After validation none of the framework calls for moving data fails: legal `rearrange` and `repeat` calls
succeed, -/
theorem C43_no_failure_move (hb : Modelled E b) (hkw : IntKw kw) {op : Str}
    (hop : op = "rearrange".toList ∨ op = "repeat".toList)
    {GL GR : List Elem} {L R : List (List Axis)} {len : AxisMap}
    (ha : Accepted (.name op) pattern kw x.shape GL GR L R len) :
    ∃ y, reduce b so (.one x) pattern (.name op) kw = .ok y := by
  obtain ⟨y, h1, _⟩ := ha.moves (red := .name op) hb.lawful hkw
    (ha.move_sub (hop.imp (fun h => by rw [h]) (fun h => by rw [h])))
  exact ⟨y, h1 so⟩

/-- and a legal `reduce` call that fails does so because the reduction fails on the elements it has to combine. -/
theorem C43_no_failure_reduce {o : Str} (hb : Computes E o b) (ho : o ∈ builtins) (hkw : IntKw kw)
    {GL GR : List Elem} {L R : List (List Axis)} {len : AxisMap}
    (ha : Accepted (.name o) pattern kw x.shape GL GR L R len) (hf : o = "mean".toList → b.isFloat x = true) {e : PyErr}
    (he : reduce b so (.one x) pattern (.name o) kw = .error e) :
    Drops L R ∧ ∃ env vs, InRange len R.flatten env ∧
      (loops len (L.flatten.filter (fun a => a ∉ R.flatten)) env).map (x.atAxes L len) = vs.map some ∧
      E.op o vs = .error e := by
  have hr := red_names_isRed ho
  have hd : Drops L R := by
    by_contra hd
    obtain ⟨y', h9, _⟩ := ha.moves (red := .name o) hb.modelled.lawful hkw (fun a hal => by
      by_contra hc
      exact hd ⟨a, hal, hc⟩)
    rw [h9 so] at he
    cases he
  refine ⟨hd, ha.error (red := .name o) hb.modelled.lawful hkw hr hd (fun t k hk => ?_) so he⟩
  simp only [reduceAxesE]
  rw [if_neg (not_not_intro (show _ ∈ reductionNames from ho)), if_neg, hb.reduce ho t k hk]
  rintro ⟨h9, h10⟩
  rw [hb.modelled.lawful.isFloat t x, hf h9] at h10
  cases h10

end

section
attribute [local instance] asciiUnicode

-- a zero-length input: splitting and transposing work, only the maximum of nothing fails
example : rearrange (torchBackend intOps true) idOrder (.one ⟨[0, 3], [], rfl⟩) "(a b) c -> c b a".toList [kwInt "a" 2] =
    .ok ⟨[3, 0, 2], [], rfl⟩ := by rfl
example : reduce (torchBackend intOps true) idOrder (.one ⟨[0, 3], [], rfl⟩) "a c -> c".toList (.name "max".toList) [] =
    .error .backend := by rfl
end

section
variable {α : Type u} [PyUnicode] {E : ElemOps α} {b : Backend α} {so : SetOrder} {x y : Tensor α} {pattern : Str}
  {kw : List (Str × Size)}

/-! ### C44 -/

/-- **C44** What a callable reduction is given: a tensor whose dimensions are the axes of the right side in order followed
by the dropped axes in the order of the left side, and the positions of the latter; the dimensions of what it returns
are only joined into the groups of the right side. -/
theorem C44_callable_argument (hb : Modelled E b) (hkw : IntKw kw) (f : Tensor α → List Nat → Py (Tensor α))
    {GL GR : List Elem} {L R : List (List Axis)} {len : AxisMap}
    (ha : Accepted .callable pattern kw x.shape GL GR L R len) (hd : Drops L R) :
    ∃ t : Tensor α, t.shape = (R.flatten ++ L.flatten.filter (fun a => a ∉ R.flatten)).map len ∧
      (∀ env, InRange len L.flatten env →
        t.at? ((R.flatten ++ L.flatten.filter (fun a => a ∉ R.flatten)).map env) = x.atAxes L len env) ∧
      reduce b so (.one x) pattern (.callable f) kw =
        (f t ((List.range t.ndim).drop R.flatten.length)).bind (fun z =>
          if R.any (fun g => g.length ≠ 1) then z.withShape (R.map (groupSize len)) else .ok z) := by
  obtain ⟨t, h1, h2, h3⟩ := Accepted.call (red := .callable f) hb.lawful hkw
    ⟨by simp [Reduction.kind], by simp [Reduction.kind]⟩ ha hd
  exact ⟨t, h1, h2, h3 so⟩

end

section
attribute [local instance] asciiUnicode

-- the callable takes the first element along the reduced axes
example : reduce (numpyBackend intOps true) idOrder (.one t43) "(a b) c -> c b".toList
    (.callable fun t axes => t.reduceAxes (fun vs => match vs with | [] => .error .backend | v :: _ => .ok v) axes)
    [kwInt "a" 2] = .ok ⟨[3, 2], [0, 3, 1, 4, 2, 5], rfl⟩ := by rfl
end

end Einops
