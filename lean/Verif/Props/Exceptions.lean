import Verif.Props.Operations
import Verif.Proofs.Layers
import Verif.Proofs.Counts
import Verif.ErrorSpec

/-!
# Which exception is raised (C58)
-/

namespace Einops

universe u

/-! ### one group -/

section
variable {kw : List (Str × Size)}

theorem givenLength_iff (hkw : IntKw kw) {a : Axis} {v : Int} :
    GivenLength kw a v ↔ ∃ s, knownSize kw a = some s ∧ s.val = v := by
  constructor
  · rintro (⟨side, i, n⟩ | ⟨h⟩)
    · exact ⟨⟨n, true⟩, rfl, rfl⟩
    · exact ⟨_, dictGet_of_mem hkw.nodup h, rfl⟩
  · rintro ⟨s, h, rfl⟩
    cases a with
    | anon side i n =>
      simp only [knownSize, Option.some.injEq] at h
      rw [← h]
      exact .number side i n
    | str n => exact .keyword (dictGet_mem h)

theorem givenProduct_iff (hkw : IntKw kw) {g : List Axis} {p : Int} :
    GivenProduct kw g p ↔ p = (knownProd kw g).val := by
  have key : ∀ vs, List.Forall₂ (GivenLength kw) (g.filter (isKnown (kw.map Prod.fst))) vs ↔
      vs = (g.filterMap (knownSize kw)).map Size.val := by
    induction g with
    | nil => intro vs; simp
    | cons a g ih =>
      intro vs
      have hk := knownSize_isSome (kw := kw) (a := a)
      cases hka : knownSize kw a with
      | none =>
        rw [hka] at hk
        rw [List.filter_cons_of_neg (by simp [← hk]), List.filterMap_cons_none hka, ih]
      | some s =>
        rw [hka] at hk
        rw [List.filter_cons_of_pos (by simp [← hk]), List.filterMap_cons_some hka, List.map_cons,
          List.forall₂_cons_left_iff]
        constructor
        · rintro ⟨v, vs', h1, h2, rfl⟩
          obtain ⟨s', h3, rfl⟩ := (givenLength_iff hkw).1 h1
          rw [hka] at h3
          cases h3
          rw [(ih vs').1 h2]
        · rintro rfl
          exact ⟨_, _, (givenLength_iff hkw).2 ⟨s, hka, rfl⟩, (ih _).2 rfl, rfl⟩
  unfold GivenProduct knownProd
  rw [sizeProd_eq]
  constructor
  · rintro ⟨vs, h1, rfl⟩
    rw [(key vs).1 h1]
  · rintro rfl
    exact ⟨_, (key _).2 rfl, rfl⟩

theorem agrees_iff (hkw : IntKw kw) {g : List Axis} {d : Nat} :
    Agrees kw g d ↔ groupErr kw g (Size.ofNat d) = none := by
  have hi : ((Size.ofNat d).isInt && (knownProd kw g).isInt) = true := by
    simp [Size.ofNat, knownProd_isInt hkw.int]
  unfold Agrees
  simp only [givenProduct_iff hkw, exists_eq_left]
  unfold groupErr
  simp only
  rw [if_pos hi]
  by_cases hall : g.all (isKnown (kw.map Prod.fst)) = true
  · rw [if_pos hall]
    rw [List.all_eq_true] at hall
    have hno : ¬ ∃ a ∈ g, isKnown (kw.map Prod.fst) a = false := by
      rintro ⟨a, ha, h⟩
      rw [hall a ha] at h
      cases h
    simp only [hno, false_implies, and_true]
    constructor
    · intro h
      rw [if_neg (fun h' => h' (h hall).symm)]
    · intro h _
      by_contra hc
      rw [if_pos (show (Size.ofNat d).val ≠ _ from fun h' => hc h'.symm)] at h
      cases h
  · rw [if_neg hall]
    rw [List.all_eq_true] at hall
    have hex : ∃ a ∈ g, isKnown (kw.map Prod.fst) a = false := by
      push Not at hall
      obtain ⟨a, ha, h⟩ := hall
      exact ⟨a, ha, by simpa using h⟩
    simp only [hall, false_implies, true_and, hex, true_implies]
    by_cases h0 : (knownProd kw g).val = 0
    · rw [if_pos h0]
      simp [h0]
    · rw [if_neg h0]
      rw [show (Size.ofNat d).val = (d : Int) from rfl, Int.dvd_iff_fmod_eq_zero]
      by_cases h1 : Int.fmod (d : Int) (knownProd kw g).val = 0
      · rw [if_neg (fun h => h h1)]; simp [h0, h1]
      · rw [if_pos h1]; simp [h1]

theorem groupErr_cases (hkw : IntKw kw) {g : List Axis} {d : Nat} (h : ¬ Agrees kw g d) :
    (DividesByZero kw g → groupErr kw g (Size.ofNat d) = some .zeroDivision) ∧
    (¬ DividesByZero kw g → groupErr kw g (Size.ofNat d) = some .einops) := by
  have h' := h
  rw [agrees_iff hkw] at h
  have hi : ((Size.ofNat d).isInt && (knownProd kw g).isInt) = true := by
    simp [Size.ofNat, knownProd_isInt hkw.int]
  unfold DividesByZero
  rw [givenProduct_iff hkw]
  unfold groupErr at h ⊢
  simp only at h ⊢
  rw [if_pos hi] at h ⊢
  by_cases hall : g.all (isKnown (kw.map Prod.fst)) = true
  · rw [if_pos hall] at h ⊢
    rw [List.all_eq_true] at hall
    constructor
    · rintro ⟨⟨a, ha, hk⟩, _⟩
      rw [hall a ha] at hk
      cases hk
    · intro _
      split at h
      · rename_i hc; rw [if_pos hc]
      · cases h rfl
  · rw [if_neg hall] at h ⊢
    rw [List.all_eq_true] at hall
    have hex : ∃ a ∈ g, isKnown (kw.map Prod.fst) a = false := by
      push Not at hall
      obtain ⟨a, ha, h⟩ := hall
      exact ⟨a, ha, by simpa using h⟩
    constructor
    · rintro ⟨_, h0⟩
      rw [if_pos h0.symm]
    · intro hn
      have h0 : ¬ (knownProd kw g).val = 0 := fun h0 => hn ⟨hex, h0.symm⟩
      rw [if_neg h0] at h ⊢
      split at h
      · rename_i hc; rw [if_pos hc]
      · cases h rfl

/-! ### all groups -/

theorem firstErr_allAgree (hkw : IntKw kw) {L : List (List Axis)} {shape : List Nat} :
    firstErr kw L (shape.map Size.ofNat) = none ↔ AllAgree kw L shape := by
  rw [firstErr_none]
  constructor
  · intro h k g d hg hd
    rw [agrees_iff hkw]
    refine h (g, Size.ofNat d) (List.mem_of_getElem? (i := k) ?_)
    rw [List.getElem?_zip_eq_some]
    exact ⟨hg, by simp [hd]⟩
  · rintro h ⟨g, s⟩ hp
    obtain ⟨d, h1, h2⟩ := zip_map_ofNat hp
    simp only at h1 h2
    subst h1
    obtain ⟨k, hk⟩ := List.getElem?_of_mem h2
    rw [List.getElem?_zip_eq_some] at hk
    exact (agrees_iff hkw).1 (h k g d hk.1 hk.2)

theorem firstErr_firstBad (hkw : IntKw kw) {L : List (List Axis)} {shape : List Nat} {e : PyErr}
    (h : firstErr kw L (shape.map Size.ofNat) = some e) :
    ∃ g, FirstBad kw L shape g ∧
      ((e = .zeroDivision ∧ DividesByZero kw g) ∨ (e = .einops ∧ ¬ DividesByZero kw g)) := by
  induction L generalizing shape with
  | nil => simp [firstErr] at h
  | cons g L ih =>
    cases shape with
    | nil => simp [firstErr] at h
    | cons d shape =>
      unfold firstErr at h
      rw [List.map_cons, List.zip_cons_cons, List.findSome?_cons] at h
      by_cases ha : Agrees kw g d
      · rw [(agrees_iff hkw).1 ha] at h
        obtain ⟨g', ⟨k, d', h1, h2, h3, h4⟩, h5⟩ := ih h
        refine ⟨g', ⟨k + 1, d', by simpa using h1, by simpa using h2, h3, ?_⟩, h5⟩
        intro j hj g'' d'' hg hd
        cases j with
        | zero => simp at hg hd; subst hg; subst hd; exact ha
        | succ j => exact h4 j (by omega) g'' d'' (by simpa using hg) (by simpa using hd)
      · refine ⟨g, ⟨0, d, rfl, rfl, ha, fun j hj => absurd hj (by omega)⟩, ?_⟩
        by_cases hz : DividesByZero kw g
        · rw [(groupErr_cases hkw ha).1 hz] at h
          cases h
          exact .inl ⟨rfl, hz⟩
        · rw [(groupErr_cases hkw ha).2 hz] at h
          cases h
          exact .inr ⟨rfl, hz⟩

omit kw in
theorem prod_nonneg' {vs : List Int} (h : ∀ v ∈ vs, 0 ≤ v) : 0 ≤ vs.prod := by
  induction vs with
  | nil => simp
  | cons v vs ih =>
    rw [List.prod_cons]
    exact Int.mul_nonneg (h v (by simp)) (ih (fun w hw => h w (by simp [hw])))

omit kw in
theorem intProd_ne_zero {vs : List Int} (h : ∀ v ∈ vs, v ≠ 0) : vs.prod ≠ 0 := by
  induction vs with
  | nil => simp
  | cons v vs ih =>
    rw [List.prod_cons]
    exact Int.mul_ne_zero (h v (by simp)) (ih (fun w hw => h w (by simp [hw])))

omit kw in
theorem forall₂_mem_right {β γ : Type} {P : β → γ → Prop} {l : List β} {l' : List γ} (h : List.Forall₂ P l l') {c : γ}
    (hc : c ∈ l') : ∃ a ∈ l, P a c := by
  induction h with
  | nil => simp at hc
  | cons h1 _ ih =>
    rcases List.mem_cons.1 hc with rfl | hc
    · exact ⟨_, by simp, h1⟩
    · obtain ⟨a, ha, h2⟩ := ih hc
      exact ⟨a, by simp [ha], h2⟩

theorem FirstBad.unique {L : List (List Axis)} {shape : List Nat} {g g' : List Axis} (h : FirstBad kw L shape g)
    (h' : FirstBad kw L shape g') : g = g' := by
  obtain ⟨k, d, h1, h2, h3, h4⟩ := h
  obtain ⟨k', d', h1', h2', h3', h4'⟩ := h'
  rcases Nat.lt_trichotomy k k' with hk | rfl | hk
  · exact absurd (h4' k hk g d h1 h2) h3
  · rw [h1] at h1'; cases h1'; rfl
  · exact absurd (h4 k' hk g' d' h1' h2') h3'

theorem FirstBad.not_allAgree {L : List (List Axis)} {shape : List Nat} {g : List Axis} (h : FirstBad kw L shape g) :
    ¬ AllAgree kw L shape := by
  obtain ⟨k, d, h1, h2, h3, _⟩ := h
  exact fun ha => h3 (ha k g d h1 h2)

/-- a negative length comes from a negative size -/
theorem neg_axis {L : List (List Axis)} {shape : List Nat} (hpos : ∀ p ∈ kw, 0 ≤ p.2.val) {a : Axis}
    (ha : isKnown (kw.map Prod.fst) a = true ∨ a ∈ L.flatten) (hl : shape.length = L.length) :
    0 ≤ (axisSize kw L (shape.map Size.ofNat) a).val := by
  have hk : ∀ a s, knownSize kw a = some s → 0 ≤ s.val := by
    intro a s h
    cases a with
    | anon side i v => simp only [knownSize, Option.some.injEq] at h; rw [← h]; simp
    | str n => exact hpos _ (dictGet_mem h)
  rcases hks : knownSize kw a with _ | s
  · have hkn := knownSize_none.1 hks
    rcases ha with ha | ha
    · rw [ha] at hkn; cases hkn
    · unfold axisSize
      rw [hks]
      simp only
      rcases hf : (L.zip (shape.map Size.ofNat)).find? (fun p => decide (a ∈ p.1)) with _ | p
      · exfalso
        obtain ⟨g, hg, hag⟩ := List.mem_flatten.1 ha
        obtain ⟨i, hi, rfl⟩ := List.getElem_of_mem hg
        rw [List.find?_eq_none] at hf
        have hm : (L[i], Size.ofNat (shape[i]'(by omega))) ∈ L.zip (shape.map Size.ofNat) := by
          apply mem_zip_ofNat
          rw [List.mem_iff_getElem]
          exact ⟨i, by simp; omega, by simp⟩
        exact hf _ hm (by simpa using hag)
      · obtain ⟨d, h1, _⟩ := zip_map_ofNat (List.mem_of_find?_eq_some hf)
        rw [hf]
        simp only [Size.fdiv, h1, Size.ofNat]
        apply Int.fdiv_nonneg (by omega)
        unfold knownProd
        rw [sizeProd_eq]
        have hv : ∀ v ∈ (p.1.filterMap (knownSize kw)).map Size.val, 0 ≤ v := by
          intro v hv
          simp only [List.mem_map, List.mem_filterMap] at hv
          obtain ⟨s, ⟨b, _, hb⟩, rfl⟩ := hv
          exact hk b s hb
        exact prod_nonneg' hv
  · rw [axisSize_known hks]
    exact hk a s hks

end

/-! ### calls -/

section
variable {α : Type u} [PyUnicode] {E : ElemOps α} {b : Backend α} {so : SetOrder} {x y : Tensor α} {pattern : Str}
  {kw : List (Str × Size)}

/-- the groups of a call are determined -/
theorem Prepared.unique {op : OpKind} {names : List Str} {ndim : Nat} {GL GR GL' GR' : List Elem}
    {L R L' R' : List (List Axis)} (h1 : IsPattern pattern GL GR) (h2 : Prepared op GL GR names ndim L R)
    (h1' : IsPattern pattern GL' GR') (h2' : Prepared op GL' GR' names ndim L' R') : L = L' ∧ R = R' := by
  obtain ⟨rfl, rfl⟩ := isPattern_unique h1 h1'
  exact Groups.unique h1 (sidesOK_ellipsis h2.sides) h2.groups h2'.groups

/-- the stages of a call -/
theorem call_cases (hell : '…' ∉ pattern) (hkw : IntKw kw) (b : Backend α) (red : Reduction α) (x : Tensor α) :
    (¬ OneArrow pattern ∧ ∀ so, reduce b so (.one x) pattern red kw = .error .value) ∨
    (OneArrow pattern ∧
      (¬ ∃ GL GR L R, IsPattern pattern GL GR ∧ Prepared red.kind GL GR (kw.map Prod.fst) x.ndim L R) ∧
      ∀ so, reduce b so (.one x) pattern red kw = .error .einops) ∨
    ∃ GL GR ex, OneArrow pattern ∧ IsPattern pattern GL GR ∧ ExpandedWF ex ∧
      Prepared red.kind GL GR (kw.map Prod.fst) x.ndim ex.left ex.rght ∧ namesOK ex (kw.map Prod.fst) ∧
      ((∃ g, FirstBad kw ex.left x.shape g ∧
          ((DividesByZero kw g ∧ ∀ so, reduce b so (.one x) pattern red kw = .error .zeroDivision) ∨
          (¬ DividesByZero kw g ∧ ∀ so, reduce b so (.one x) pattern red kw = .error .einops))) ∨
        (AllAgree kw ex.left x.shape ∧ firstErr kw ex.left (x.shape.map Size.ofNat) = none ∧
          ∀ so, reduce b so (.one x) pattern red kw =
            applyCooked b (cookedOf ex kw (x.shape.map Size.ofNat)) x red)) := by
  by_cases hp : ∃ GL GR L R, IsPattern pattern GL GR ∧ Prepared red.kind GL GR (kw.map Prod.fst) x.ndim L R
  swap
  · by_cases ha : OneArrow pattern
    · exact .inr (.inl ⟨ha, hp, fun so => (C40_malformed hell b red kw hp).1 ha⟩)
    · exact .inl ⟨ha, fun so => (C40_malformed hell b red kw hp).2 ha⟩
  · rcases reduce_cases b x hell red hkw.nodup with ⟨GL, GR, ex, h1, wf, hpr, hn, heq⟩ | ⟨hno, _⟩
    swap
    · exact absurd hp hno
    right; right
    have harr : OneArrow pattern := by
      obtain ⟨l, r, h2, h3, h4⟩ := h1
      exact ⟨l, r, h2, isSide_no_arrow h3, isSide_no_arrow h4⟩
    refine ⟨GL, GR, ex, harr, h1, wf, hpr, hn, ?_⟩
    unfold runEx at heq
    rcases he : firstErr kw ex.left (x.shape.map Size.ofNat) with _ | e
    · rw [he] at heq
      exact .inr ⟨(firstErr_allAgree hkw).1 he, rfl, heq⟩
    · rw [he] at heq
      obtain ⟨g, h2, h3⟩ := firstErr_firstBad hkw he
      refine .inl ⟨g, h2, ?_⟩
      rcases h3 with ⟨rfl, h3⟩ | ⟨rfl, h3⟩
      · exact .inl ⟨h3, heq⟩
      · exact .inr ⟨h3, heq⟩

omit [PyUnicode] in
/-- the first group that does not agree exists as soon as one does not -/
theorem exists_firstBad (hkw : IntKw kw) {L : List (List Axis)} {shape : List Nat} (h : ¬ AllAgree kw L shape) :
    ∃ g, FirstBad kw L shape g := by
  rw [← firstErr_allAgree hkw] at h
  obtain ⟨e, he⟩ := Option.ne_none_iff_exists'.1 h
  obtain ⟨g, hg, _⟩ := firstErr_firstBad hkw he
  exact ⟨g, hg⟩

/-! ### C58 -/

/-- **C58** A pattern without an arrow, or with several, is a `ValueError`. -/
theorem C58_arrow (hell : '…' ∉ pattern) (b : Backend α) (so : SetOrder) (red : Reduction α) (hkw : IntKw kw)
    (h : ¬ OneArrow pattern) : reduce b so (.one x) pattern red kw = .error .value := by
  rcases call_cases hell hkw b red x with ⟨_, h1⟩ | ⟨h1, _⟩ | ⟨_, _, _, h1, _⟩
  · exact h1 so
  · exact absurd h1 h
  · exact absurd h1 h

/-- A pattern with one arrow that breaks a rule of the operation, or does not fit the number of dimensions or the names of
the keywords, is an `EinopsError`. -/
theorem C58_pattern (hell : '…' ∉ pattern) (b : Backend α) (so : SetOrder) (red : Reduction α) (hkw : IntKw kw)
    (h : OneArrow pattern) (hno : ¬ ∃ L, Parses red.kind pattern kw x.ndim L) :
    reduce b so (.one x) pattern red kw = .error .einops := by
  rcases call_cases hell hkw b red x with ⟨h1, _⟩ | ⟨_, _, h1⟩ | ⟨GL, GR, ex, _, h1, _, h2, _⟩
  · exact absurd h h1
  · exact h1 so
  · exact absurd ⟨ex.left, GL, GR, ex.rght, h1, h2⟩ hno

/-- When the sizes do not fit, the first group that does not agree with its dimension decides: a `ZeroDivisionError`
if a missing length would have to be found by a division by 0, an `EinopsError` otherwise. -/
theorem C58_sizes (hell : '…' ∉ pattern) (b : Backend α) (so : SetOrder) (red : Reduction α) (hkw : IntKw kw)
    {L : List (List Axis)} (hp : Parses red.kind pattern kw x.ndim L) {g : List Axis} (hg : FirstBad kw L x.shape g) :
    (DividesByZero kw g → reduce b so (.one x) pattern red kw = .error .zeroDivision) ∧
    (¬ DividesByZero kw g → reduce b so (.one x) pattern red kw = .error .einops) := by
  obtain ⟨GL, GR, R, hp1, hp2⟩ := hp
  rcases call_cases hell hkw b red x with ⟨h1, _⟩ | ⟨_, h1, _⟩ | ⟨GL', GR', ex, _, h1, _, h2, _, h3⟩
  · obtain ⟨l, r, h2, h3, h4⟩ := hp1
    exact absurd ⟨l, r, h2, isSide_no_arrow h3, isSide_no_arrow h4⟩ h1
  · exact absurd ⟨GL, GR, L, R, hp1, hp2⟩ h1
  · obtain ⟨rfl, -⟩ := Prepared.unique h1 h2 hp1 hp2
    rcases h3 with ⟨g', hg', h3⟩ | ⟨h3, _⟩
    · obtain rfl := hg.unique hg'
      rcases h3 with ⟨h3, h4⟩ | ⟨h3, h4⟩
      · exact ⟨fun _ => h4 so, fun h => absurd h3 h⟩
      · exact ⟨fun h => absurd h h3, fun _ => h4 so⟩
    · exact absurd h3 hg.not_allAgree

/-- A negative size of an axis of the input that passes these checks is refused by the framework. -/
theorem C58_negative (hb : Modelled E b) (hell : '…' ∉ pattern) (so : SetOrder) (red : Reduction α) (hkw : IntKw kw)
    {L : List (List Axis)} (hp : Parses red.kind pattern kw x.ndim L) (ha : AllAgree kw L x.shape)
    {n : Str} {s : Size} (hs : (n, s) ∈ kw) (hn : Axis.str n ∈ L.flatten) (hneg : s.val < 0) :
    reduce b so (.one x) pattern red kw = .error .backend := by
  obtain ⟨GL, GR, R, hp1, hp2⟩ := hp
  rcases call_cases hell hkw b red x with ⟨h1, _⟩ | ⟨_, h1, _⟩ | ⟨GL', GR', ex, _, h1, wf, h2, _, h3⟩
  · obtain ⟨l, r, h2, h3, h4⟩ := hp1
    exact absurd ⟨l, r, h2, isSide_no_arrow h3, isSide_no_arrow h4⟩ h1
  · exact absurd ⟨GL, GR, L, R, hp1, hp2⟩ h1
  · obtain ⟨rfl, -⟩ := Prepared.unique h1 h2 hp1 hp2
    rcases h3 with ⟨g', hg', _⟩ | ⟨_, he, h3⟩
    · exact absurd ha hg'.not_allAgree
    · rw [h3 so]
      obtain ⟨_, _, _, _, hlen⟩ := h2.groups
      refine neg_left_error hb.lawful wf hkw (by simpa [Tensor.ndim] using hlen.symm) h2.unknowns he
        ⟨_, hn, ?_⟩ red
      rw [axisSize_known (show knownSize kw (.str n) = some s from dictGet_of_mem hkw.nodup hs)]
      exact hneg

/-- When no size is negative and all groups agree with the shape, the call is legal. -/
theorem C58_legal {op : OpKind} (hkw : IntKw kw) (hpos : ∀ p ∈ kw, 0 ≤ p.2.val)
    {L : List (List Axis)} (hp : Parses op pattern kw x.ndim L) (ha : AllAgree kw L x.shape) :
    ∃ GL GR R len, Accepted op pattern kw x.shape GL GR L R len := by
  obtain ⟨GL, GR, R, hp1, hp2⟩ := hp
  rcases prepare_cases hp1 op (kw.map Prod.fst) x.ndim with ⟨ex, wf, h2, hn, _⟩ | ⟨hno, _⟩
  · obtain ⟨rfl, rfl⟩ := Prepared.unique hp1 h2 hp1 hp2
    obtain ⟨_, _, _, _, hlen⟩ := h2.groups
    have hl : x.shape.length = ex.left.length := by simpa [Tensor.ndim] using hlen.symm
    have hnew := prepared_new hp1 h2
    obtain ⟨len, h3, h4⟩ := (exists_len_iff wf hkw hl hn h2.unknowns hnew).2 ⟨(firstErr_allAgree hkw).2 ha, fun a h => by
      apply neg_axis hpos _ hl
      by_cases h5 : a ∈ ex.left.flatten
      · exact .inr h5
      · exact .inl (hnew a ((List.mem_append.1 h).resolve_left h5) h5)⟩
    exact ⟨GL, GR, ex.rght, len, hp1, hp2, h3, h4⟩
  · exact absurd ⟨_, _, hp2⟩ hno

/-- the stages a call goes through, in terms of the specification -/
theorem stages (hkw : IntKw kw) (op : OpKind) (pattern : Str) (x : Tensor α) :
    ¬ OneArrow pattern ∨ (OneArrow pattern ∧ ¬ ∃ L, Parses op pattern kw x.ndim L) ∨
    ∃ L, OneArrow pattern ∧ Parses op pattern kw x.ndim L ∧ ((∃ g, FirstBad kw L x.shape g) ∨ AllAgree kw L x.shape) := by
  by_cases h1 : OneArrow pattern
  · by_cases h2 : ∃ L, Parses op pattern kw x.ndim L
    · obtain ⟨L, h2⟩ := h2
      right; right
      refine ⟨L, h1, h2, ?_⟩
      by_cases h3 : AllAgree kw L x.shape
      · exact .inr h3
      · exact .inl (exists_firstBad hkw h3)
    · exact .inr (.inl ⟨h1, h2⟩)
  · exact .inl h1

theorem Parses.unique {op : OpKind} {ndim : Nat} {L L' : List (List Axis)} (h : Parses op pattern kw ndim L)
    (h' : Parses op pattern kw ndim L') : L = L' := by
  obtain ⟨_, _, _, h1, h2⟩ := h
  obtain ⟨_, _, _, h1', h2'⟩ := h'
  exact (Prepared.unique h1 h2 h1' h2').1

/-- the exception of a call, from the stage that decides -/
theorem outcome_iff {r : Py (Tensor α)} {op : OpKind} {P : Prop} (hkw : IntKw kw)
    (h1 : ¬ OneArrow pattern → r = .error .value)
    (h2 : OneArrow pattern → (¬ ∃ L, Parses op pattern kw x.ndim L) → r = .error .einops)
    (h3 : ∀ L g, Parses op pattern kw x.ndim L → FirstBad kw L x.shape g →
      (DividesByZero kw g → r = .error .zeroDivision) ∧ (¬ DividesByZero kw g → r = .error .einops))
    (h4 : ∀ L, Parses op pattern kw x.ndim L → AllAgree kw L x.shape → P → r = .error .backend)
    (h5 : ∀ L, Parses op pattern kw x.ndim L → AllAgree kw L x.shape → ¬ P → ∃ y, r = .ok y) :
    (r = .error .value ↔ ¬ OneArrow pattern) ∧
    (r = .error .zeroDivision ↔ OneArrow pattern ∧
      ∃ L g, Parses op pattern kw x.ndim L ∧ FirstBad kw L x.shape g ∧ DividesByZero kw g) ∧
    (r = .error .einops ↔ OneArrow pattern ∧ ((¬ ∃ L, Parses op pattern kw x.ndim L) ∨
      ∃ L g, Parses op pattern kw x.ndim L ∧ FirstBad kw L x.shape g ∧ ¬ DividesByZero kw g)) ∧
    (r = .error .backend ↔ OneArrow pattern ∧ (∃ L, Parses op pattern kw x.ndim L ∧ AllAgree kw L x.shape) ∧ P) ∧
    (∀ e, r = .error e → e = .value ∨ e = .zeroDivision ∨ e = .einops ∨ e = .backend) := by
  rcases stages hkw op pattern x with hA | ⟨hA, hB⟩ | ⟨L, hA, hL, ⟨g, hg⟩ | hg⟩
  · rw [h1 hA]
    refine ⟨by simp [hA], by simp [hA], by simp [hA], by simp [hA], ?_⟩
    rintro e ⟨⟩; simp
  · rw [h2 hA hB]
    refine ⟨by simp [hA], ?_, by simp [hA, hB], ?_, ?_⟩
    · constructor
      · rintro ⟨⟩
      · rintro ⟨_, L, g, h, _⟩; exact absurd ⟨L, h⟩ hB
    · constructor
      · rintro ⟨⟩
      · rintro ⟨_, ⟨L, h, _⟩, _⟩; exact absurd ⟨L, h⟩ hB
    · rintro e ⟨⟩; simp
  · have hne : ¬ ((∃ L, Parses op pattern kw x.ndim L ∧ AllAgree kw L x.shape) ∧ P) := by
      rintro ⟨⟨L', h6, h7⟩, _⟩
      obtain rfl := hL.unique h6
      exact hg.not_allAgree h7
    by_cases hz : DividesByZero kw g
    · rw [(h3 L g hL hg).1 hz]
      refine ⟨by simp [hA], by simp only [hA, true_and, true_iff]; exact ⟨L, g, hL, hg, hz⟩, ?_, ?_, ?_⟩
      · constructor
        · rintro ⟨⟩
        · rintro ⟨_, h6 | ⟨L', g', h6, h7, h8⟩⟩
          · exact absurd ⟨L, hL⟩ h6
          · obtain rfl := hL.unique h6
            obtain rfl := hg.unique h7
            exact absurd hz h8
      · constructor
        · rintro ⟨⟩
        · rintro ⟨_, h6⟩; exact absurd h6 hne
      · rintro e ⟨⟩; simp
    · rw [(h3 L g hL hg).2 hz]
      refine ⟨by simp [hA], ?_, by simp only [hA, true_and, true_iff]; exact .inr ⟨L, g, hL, hg, hz⟩, ?_, ?_⟩
      · constructor
        · rintro ⟨⟩
        · rintro ⟨_, L', g', h6, h7, h8⟩
          obtain rfl := hL.unique h6
          obtain rfl := hg.unique h7
          exact absurd h8 hz
      · constructor
        · rintro ⟨⟩
        · rintro ⟨_, h6⟩; exact absurd h6 hne
      · rintro e ⟨⟩; simp
  · have hno : ∀ (Q : List Axis → Prop), ¬ ∃ L g, Parses op pattern kw x.ndim L ∧ FirstBad kw L x.shape g ∧ Q g := by
      rintro Q ⟨L', g, h6, h7, _⟩
      obtain rfl := hL.unique h6
      exact h7.not_allAgree hg
    have hp : ∃ L, Parses op pattern kw x.ndim L := ⟨L, hL⟩
    have hpa : ∃ L, Parses op pattern kw x.ndim L ∧ AllAgree kw L x.shape := ⟨L, hL, hg⟩
    by_cases hP : P
    · rw [h4 L hL hg hP]
      refine ⟨by simp [hA], ⟨by rintro ⟨⟩, fun h => absurd h.2 (hno _)⟩,
        ⟨by rintro ⟨⟩, fun h => (h.2.elim (absurd hp) (absurd · (hno _)))⟩, by simp [hA, hpa, hP], ?_⟩
      rintro e ⟨⟩; simp
    · obtain ⟨y, hy⟩ := h5 L hL hg hP
      rw [hy]
      refine ⟨by simp [hA], ⟨by rintro ⟨⟩, fun h => absurd h.2 (hno _)⟩,
        ⟨by rintro ⟨⟩, fun h => (h.2.elim (absurd hp) (absurd · (hno _)))⟩, by simp [hP], ?_⟩
      rintro e ⟨⟩

/-- The exception of a `rearrange` call, exactly: `ValueError` for a pattern without exactly one arrow;
`ZeroDivisionError` for a missing length beside a zero length; `EinopsError` for everything else that is wrong with
the pattern or the sizes; and if all this is in order but a size is negative, the error of the framework. -/
theorem C58_rearrange (hb : Modelled E b) (hell : '…' ∉ pattern) (hkw : IntKw kw) :
    let op := OpKind.name "rearrange".toList
    let r := rearrange b so (.one x) pattern kw
    (r = .error .value ↔ ¬ OneArrow pattern) ∧
    (r = .error .zeroDivision ↔ OneArrow pattern ∧
      ∃ L g, Parses op pattern kw x.ndim L ∧ FirstBad kw L x.shape g ∧ DividesByZero kw g) ∧
    (r = .error .einops ↔ OneArrow pattern ∧ ((¬ ∃ L, Parses op pattern kw x.ndim L) ∨
      ∃ L g, Parses op pattern kw x.ndim L ∧ FirstBad kw L x.shape g ∧ ¬ DividesByZero kw g)) ∧
    (r = .error .backend ↔ OneArrow pattern ∧ (∃ L, Parses op pattern kw x.ndim L ∧ AllAgree kw L x.shape) ∧
      ∃ p ∈ kw, p.2.val < 0) ∧
    (∀ e, r = .error e → e = .value ∨ e = .zeroDivision ∨ e = .einops ∨ e = .backend) := by
  intro op r
  refine outcome_iff hkw (C58_arrow hell b so (.name _) hkw) (C58_pattern hell b so (.name _) hkw)
    (fun L g hL hg => C58_sizes hell b so (.name _) hkw hL hg) (fun L hL ha hP => ?_) (fun L hL ha hP => ?_)
  · obtain ⟨⟨n, s⟩, hm, hs⟩ := hP
    refine C58_negative hb hell so (.name _) hkw hL ha hm ?_ hs
    obtain ⟨GL, GR, R, h1, h2⟩ := hL
    rcases prepare_cases h1 op (kw.map Prod.fst) x.ndim with ⟨ex, wf, h3, hn, _⟩ | ⟨hno, _⟩
    · obtain ⟨rfl, rfl⟩ := Prepared.unique h1 h3 h1 h2
      rcases (hn n (List.mem_map.2 ⟨_, hm, rfl⟩)).2 with h4 | h4
      · exact h4
      · exact (rearrange_axes h1 h3).2 _ ((wf.rghtIds_iff _).1 h4)
    · exact absurd ⟨_, _, h2⟩ hno
  · push Not at hP
    obtain ⟨GL, GR, R, len, hacc⟩ := C58_legal hkw hP hL ha
    exact C43_no_failure_move hb hkw (.inl rfl) hacc

/-- The same for `repeat` with sizes that are not negative: no framework errors. -/
theorem C58_repeat (hb : Modelled E b) (hell : '…' ∉ pattern) (hkw : IntKw kw) (hpos : ∀ p ∈ kw, 0 ≤ p.2.val) :
    let op := OpKind.name "repeat".toList
    let r := repeat_ b so (.one x) pattern kw
    (r = .error .value ↔ ¬ OneArrow pattern) ∧
    (r = .error .zeroDivision ↔ OneArrow pattern ∧
      ∃ L g, Parses op pattern kw x.ndim L ∧ FirstBad kw L x.shape g ∧ DividesByZero kw g) ∧
    (r = .error .einops ↔ OneArrow pattern ∧ ((¬ ∃ L, Parses op pattern kw x.ndim L) ∨
      ∃ L g, Parses op pattern kw x.ndim L ∧ FirstBad kw L x.shape g ∧ ¬ DividesByZero kw g)) ∧
    (∀ e, r = .error e → e = .value ∨ e = .zeroDivision ∨ e = .einops) := by
  intro op r
  obtain ⟨h1, h2, h3, h4, h5⟩ := outcome_iff (P := False) (op := op) (r := r) (x := x) hkw
    (C58_arrow hell b so (.name _) hkw) (C58_pattern hell b so (.name _) hkw)
    (fun L g hL hg => C58_sizes hell b so (.name _) hkw hL hg) (fun _ _ _ h => h.elim) (fun L hL ha _ => by
      obtain ⟨GL, GR, R, len, hacc⟩ := C58_legal hkw hpos hL ha
      exact C43_no_failure_move hb hkw (.inr rfl) hacc)
  refine ⟨h1, h2, h3, fun e he => ?_⟩
  rcases h5 e he with h | h | h | h
  · exact .inl h
  · exact .inr (.inl h)
  · exact .inr (.inr h)
  · subst h
    exact (h4.1 he).2.2.elim

/-- **C58** With positive sizes and one arrow in the pattern, a `rearrange` or `repeat` call that fails raises an
`EinopsError`. -/
theorem C58_positive (hb : Modelled E b) (hell : '…' ∉ pattern) (hkw : IntKw kw) (hpos : ∀ p ∈ kw, 0 < p.2.val)
    (harr : OneArrow pattern) {o : Str} (ho : o = "rearrange".toList ∨ o = "repeat".toList) {e : PyErr}
    (h : reduce b so (.one x) pattern (.name o) kw = .error e) : e = .einops := by
  have hz : ∀ L g op, Parses op pattern kw x.ndim L → FirstBad kw L x.shape g → ¬ DividesByZero kw g := by
    rintro L g op ⟨GL, GR, R, h1, h2⟩ ⟨k, _, hk, _⟩ ⟨_, vs, h3, h4⟩
    obtain ⟨_, l, r, _, hl, _⟩ := isPattern_split h1
    have : ∀ v ∈ vs, v ≠ 0 := by
      intro v hv
      obtain ⟨a, ha, hav⟩ := forall₂_mem_right h3 hv
      rcases hav with ⟨side, i, n⟩ | ⟨hm⟩
      · obtain ⟨n', _, hL, _⟩ := h2.groups
        have hm : Axis.anon side i n ∈ L.flatten :=
          List.mem_flatten.2 ⟨g, List.mem_of_getElem? hk, (List.mem_filter.1 ha).1⟩
        rw [hL] at hm
        obtain ⟨_, hi, h6, h7⟩ := anon_mem_side hm
        rcases hl.words_ok _ (List.getElem_mem hi) with h8 | h8 | h8
        · have := (isCount_iff.1 h6).1
          rw [h8] at this
          exact absurd this dots_not_number
        · omega
        · exact absurd (isCount_iff.1 h6).1 (isName_not_number _ h8)
      · have := hpos _ hm; simp only at this; omega
    exact intProd_ne_zero this h4.symm
  have hpos' : ∀ p ∈ kw, 0 ≤ p.2.val := fun p hp => Int.le_of_lt (hpos p hp)
  rcases ho with rfl | rfl
  · obtain ⟨h1, h2, h3, h4, h5⟩ := C58_rearrange (so := so) (x := x) hb hell hkw
    rcases h5 e h with h6 | h6 | h6 | h6
    · subst h6; exact absurd harr (h1.1 h)
    · subst h6
      obtain ⟨_, L, g, h7, h8, h9⟩ := h2.1 h
      exact absurd h9 (hz L g _ h7 h8)
    · exact h6
    · subst h6
      obtain ⟨_, _, p, h7, h8⟩ := h4.1 h
      have := hpos p h7
      omega
  · obtain ⟨h1, h2, h3, h5⟩ := C58_repeat (so := so) (x := x) hb hell hkw hpos'
    rcases h5 e h with h6 | h6 | h6
    · subst h6; exact absurd harr (h1.1 h)
    · subst h6
      obtain ⟨_, L, g, h7, h8, h9⟩ := h2.1 h
      exact absurd h9 (hz L g _ h7 h8)
    · exact h6

end

section
attribute [local instance] asciiUnicode

/-- a vector of the given length -/
def zeros (n : Nat) : Tensor Int := ⟨[n], List.replicate n 0, by simp⟩

/-- a `rearrange` call -/
def rearrangeErr (n : Nat) (pattern : String) (kw : List (Str × Size)) : Option PyErr :=
  match rearrange (numpyBackend intOps true) idOrder (.one (zeros n)) pattern.toList kw with
  | .ok _ => none
  | .error e => some e

-- arrows
example : rearrangeErr 6 "a b" [] = some .value := by decide +kernel
example : rearrangeErr 6 "a -> a -> a" [] = some .value := by decide +kernel
-- the pattern, the rank, the keywords
example : rearrangeErr 6 "a -> b" [] = some .einops := by decide +kernel
example : rearrangeErr 6 "a b -> b a" [] = some .einops := by decide +kernel
example : rearrangeErr 6 "a -> a" [kwInt "b" 2] = some .einops := by decide +kernel
-- the sizes
example : rearrangeErr 6 "(a b) -> a b" [kwInt "a" 4] = some .einops := by decide +kernel
example : rearrangeErr 6 "(a b) -> a b" [kwInt "a" 2, kwInt "b" 2] = some .einops := by decide +kernel
example : rearrangeErr 6 "(a b) -> a b" [kwInt "a" 0] = some .zeroDivision := by decide +kernel
-- all lengths given: no division, so a zero is only a length that does not fit
example : rearrangeErr 6 "(a b) -> a b" [kwInt "a" 0, kwInt "b" 2] = some .einops := by decide +kernel
-- negative sizes: -4 does not divide 6; -2 does, and so do -2 and -3 together
example : rearrangeErr 6 "(a b) -> a b" [kwInt "a" (-4)] = some .einops := by decide +kernel
example : rearrangeErr 6 "(a b) -> a b" [kwInt "a" (-2)] = some .backend := by decide +kernel
example : rearrangeErr 6 "(a b) -> a b" [kwInt "a" (-2), kwInt "b" (-3)] = some .backend := by decide +kernel
example : rearrangeErr 6 "(a b) -> a b" [kwInt "a" 2] = none := by decide +kernel

-- the first group that does not agree decides, whatever is wrong with later ones
example : rearrange (numpyBackend intOps true) idOrder (.one t23) "(a b) (c d) -> a b c d".toList
    [kwInt "a" 0, kwInt "c" 2] = .error .zeroDivision := by rfl
example : rearrange (numpyBackend intOps true) idOrder (.one t23) "(c d) (a b) -> a b c d".toList
    [kwInt "a" 0, kwInt "c" 3] = .error .einops := by rfl

-- the specification on two groups
example : Agrees [(['a'], ⟨2, true⟩)] [.str ['a'], .str ['b']] 6 :=
  ⟨2, ⟨[2], by simpa [isKnown] using GivenLength.keyword (n := ['a']) (s := ⟨2, true⟩) (by simp), rfl⟩,
    fun h => absurd (h (.str ['b']) (by simp)) (by decide), fun _ => ⟨by decide, ⟨3, rfl⟩⟩⟩
example : DividesByZero [(['a'], ⟨0, true⟩)] [.str ['a'], .str ['b']] :=
  ⟨⟨.str ['b'], by simp, by decide⟩,
    [0], by simpa [isKnown] using GivenLength.keyword (n := ['a']) (s := ⟨0, true⟩) (by simp), rfl⟩
end

end Einops
