import Verif.Proofs.Core

/-! The lengths inferred from keyword sizes and shape are the lengths of the specification. -/

namespace Einops

theorem prod_filter_split {κ : Type} (q : κ → Bool) (f : κ → Int) (l : List κ) :
    (l.map f).prod = ((l.filter q).map f).prod * ((l.filter (fun a => !q a)).map f).prod := by
  induction l with
  | nil => rfl
  | cons a l ih =>
    cases h : q a
    · simp only [List.map_cons, List.prod_cons, ih, h, Bool.not_false, List.filter_cons_of_pos, List.filter_cons_of_neg,
        Bool.false_eq_true, not_false_eq_true]
      ring
    · simp only [List.map_cons, List.prod_cons, ih, h, Bool.not_true, List.filter_cons_of_pos, List.filter_cons_of_neg,
        Bool.false_eq_true, not_false_eq_true]
      ring

/-- the group an axis is found in is the one it belongs to -/
theorem find_group {L : List (List Axis)} {S : List Size} (hn : L.flatten.Nodup) {g : List Axis} {s : Size}
    (hp : (g, s) ∈ L.zip S) {a : Axis} (ha : a ∈ g) :
    (L.zip S).find? (fun p => decide (a ∈ p.1)) = some (g, s) := by
  induction L generalizing S with
  | nil => simp at hp
  | cons g' L ih =>
    cases S with
    | nil => simp at hp
    | cons s' S =>
      rw [List.flatten_cons, List.nodup_append] at hn
      rw [List.zip_cons_cons] at hp ⊢
      rcases List.mem_cons.1 hp with h | h
      · cases h
        rw [List.find?_cons_of_pos (by simpa using ha)]
      · have hgL : g ∈ L := (List.of_mem_zip h).1
        rw [List.find?_cons_of_neg (by
          simp only [decide_eq_true_eq]
          intro hag
          exact hn.2.2 a hag a (List.mem_flatten.2 ⟨g, hgL, ha⟩) rfl)]
        exact ih hn.2.1 h

theorem firstErr_none {kw : List (Str × Size)} {L : List (List Axis)} {S : List Size} :
    firstErr kw L S = none ↔ ∀ p ∈ L.zip S, groupErr kw p.1 p.2 = none := by
  unfold firstErr
  rw [List.findSome?_eq_none_iff]

section
variable {kw : List (Str × Size)} (hint : ∀ p ∈ kw, p.2.isInt = true)

include hint in
theorem knownSize_isInt {a : Axis} {s : Size} (h : knownSize kw a = some s) : s.isInt = true := by
  cases a with
  | anon => simp only [knownSize, Option.some.injEq] at h; rw [← h]
  | str n => exact hint _ (dictGet_mem h)

include hint in
theorem knownProd_isInt (g : List Axis) : (knownProd kw g).isInt = true := by
  unfold knownProd
  rw [sizeProd_eq]
  simp only [List.all_eq_true, List.mem_filterMap]
  rintro s ⟨a, _, ha⟩
  exact knownSize_isInt hint ha

theorem axisSize_known {L : List (List Axis)} {S : List Size} {a : Axis} {s : Size} (h : knownSize kw a = some s) :
    axisSize kw L S a = s := by
  unfold axisSize; rw [h]

theorem axisSize_unknown {L : List (List Axis)} {S : List Size} (hn : L.flatten.Nodup) {g : List Axis} {s : Size}
    (hp : (g, s) ∈ L.zip S) {a : Axis} (ha : a ∈ g) (hk : knownSize kw a = none) :
    axisSize kw L S a = s.fdiv (knownProd kw g) := by
  unfold axisSize
  rw [hk, find_group hn hp ha]

theorem knownProd_val (L : List (List Axis)) (S : List Size) (g : List Axis) :
    (knownProd kw g).val = ((g.filter (isKnown (kw.map Prod.fst))).map (fun a => (axisSize kw L S a).val)).prod := by
  unfold knownProd
  rw [sizeProd_eq, ← filterMap_known kw (axisSize kw L S) (fun a s h => axisSize_known h), List.map_map]
  rfl

include hint in
/-- A group that passes the test multiplies to the dimension. -/
theorem group_prod {L : List (List Axis)} {S : List Size} (hn : L.flatten.Nodup) {g : List Axis} {s : Size}
    (hp : (g, s) ∈ L.zip S) (hs : s.isInt = true)
    (hu : (g.filter (fun a => !isKnown (kw.map Prod.fst) a)).length ≤ 1) (he : groupErr kw g s = none) :
    (g.map (fun a => (axisSize kw L S a).val)).prod = s.val := by
  rw [prod_filter_split (isKnown (kw.map Prod.fst)), ← knownProd_val]
  unfold groupErr at he
  simp only [hs, knownProd_isInt hint g, Bool.and_self, if_true] at he
  match hus : g.filter (fun a => !isKnown (kw.map Prod.fst) a), hu with
  | [], _ =>
    have hall : g.all (isKnown (kw.map Prod.fst)) = true := by
      rw [List.all_eq_true]
      intro a ha
      by_contra hc
      have : a ∈ g.filter (fun a => !isKnown (kw.map Prod.fst) a) := List.mem_filter.2 ⟨ha, by simpa using hc⟩
      rw [hus] at this; cases this
    rw [hall] at he
    simp only [if_true] at he
    split at he
    · cases he
    · rename_i h
      simp only [ne_eq, not_not] at h
      simp [h]
  | [u], _ =>
    have hug : u ∈ g ∧ isKnown (kw.map Prod.fst) u = false := by
      have : u ∈ g.filter (fun a => !isKnown (kw.map Prod.fst) a) := by rw [hus]; simp
      simpa using this
    have hall : g.all (isKnown (kw.map Prod.fst)) = false := by
      rw [← Bool.not_eq_true, List.all_eq_true]
      intro h
      rw [h u hug.1] at hug
      exact Bool.noConfusion hug.2
    rw [hall] at he
    simp only [Bool.false_eq_true, if_false] at he
    split at he
    · cases he
    · split at he
      · cases he
      · rename_i h0 h1
        simp only [ne_eq, not_not] at h1
        simp only [List.map_cons, List.map_nil, List.prod_cons, List.prod_nil, mul_one]
        rw [axisSize_unknown hn hp hug.1 (knownSize_none.2 hug.2)]
        have := Int.fmod_add_mul_fdiv s.val (knownProd kw g).val
        rw [h1, zero_add] at this
        exact this
  | _ :: _ :: _, hu => simp at hu

end

/-- natural number lengths of the axes -/
def lenOf (kw : List (Str × Size)) (L : List (List Axis)) (shape : List Nat) : AxisMap :=
  fun a => (axisSize kw L (shape.map Size.ofNat) a).val.toNat

theorem zip_map_ofNat {L : List (List Axis)} {shape : List Nat} {p : List Axis × Size}
    (hp : p ∈ L.zip (shape.map Size.ofNat)) : ∃ d : Nat, p.2 = Size.ofNat d ∧ (p.1, d) ∈ L.zip shape := by
  induction L generalizing shape with
  | nil => simp at hp
  | cons g L ih =>
    cases shape with
    | nil => simp at hp
    | cons d shape =>
      rw [List.map_cons, List.zip_cons_cons] at hp
      rcases List.mem_cons.1 hp with rfl | h
      · exact ⟨d, rfl, by simp⟩
      · obtain ⟨d', h1, h2⟩ := ih h
        exact ⟨d', h1, by simp [h2]⟩

theorem mem_zip_ofNat {L : List (List Axis)} {shape : List Nat} {g : List Axis} {d : Nat}
    (hp : (g, d) ∈ L.zip shape) : (g, Size.ofNat d) ∈ L.zip (shape.map Size.ofNat) := by
  rw [List.zip_map_right]
  exact List.mem_map.2 ⟨(g, d), hp, rfl⟩

theorem prod_toNat {κ : Type} (l : List κ) (f : κ → Int) (h : ∀ a ∈ l, 0 ≤ f a) :
    ((l.map (fun a => (f a).toNat)).prod : Int) = (l.map f).prod := by
  induction l with
  | nil => rfl
  | cons a l ih =>
    simp only [List.map_cons, List.prod_cons, Nat.cast_mul, ih (fun b hb => h b (by simp [hb]))]
    rw [Int.toNat_of_nonneg (h a (by simp))]

theorem map_of_zip {L : List (List Axis)} {shape : List Nat} {f : List Axis → Nat} (hl : shape.length = L.length)
    (h : ∀ p ∈ L.zip shape, p.2 = f p.1) : shape = L.map f := by
  induction L generalizing shape with
  | nil => simp at hl; simp [hl]
  | cons g L ih =>
    cases shape with
    | nil => simp at hl
    | cons d shape =>
      rw [List.zip_cons_cons] at h
      rw [List.map_cons, ← ih (by simpa using hl) (fun p hp => h p (by simp [hp]))]
      congr 1
      exact h (g, d) (by simp)

/-- From an accepted, non-negative assignment to the specification. -/
theorem sizes_fit [PyUnicode] {ex : Expanded} (wf : ExpandedWF ex) {kw : List (Str × Size)} (hkw : IntKw kw)
    {shape : List Nat} (hl : shape.length = ex.left.length) (hn : namesOK ex (kw.map Prod.fst))
    (hi : OneUnknown ex.left (kw.map Prod.fst)) (he : firstErr kw ex.left (shape.map Size.ofNat) = none)
    (hpos : ∀ a ∈ ex.left.flatten ++ ex.rght.flatten, 0 ≤ (axisSize kw ex.left (shape.map Size.ofNat) a).val) :
    Fits ex.left ex.rght kw shape (lenOf kw ex.left shape) := by
  refine ⟨?_, ?_, ?_⟩
  · apply map_of_zip hl
    rintro ⟨g, d⟩ hp
    have hg : g ∈ ex.left := (List.of_mem_zip hp).1
    have h1 := group_prod hkw.int wf.left_nodup (mem_zip_ofNat hp) rfl (hi g hg)
      (firstErr_none.1 he _ (mem_zip_ofNat hp))
    have h2 := prod_toNat g (fun a => (axisSize kw ex.left (shape.map Size.ofNat) a).val) (fun a ha =>
      hpos a (List.mem_append_left _ (List.mem_flatten.2 ⟨g, hg, ha⟩)))
    rw [h1] at h2
    simp only [Size.ofNat] at h2
    have h3 : groupSize (lenOf kw ex.left shape) g = d := by
      unfold groupSize lenOf
      exact_mod_cast h2
    exact h3.symm
  · intro n s hns
    have hk : knownSize kw (.str n) = some s := dictGet_of_mem hkw.nodup hns
    have hmem := (hn n (List.mem_map.2 ⟨_, hns, rfl⟩)).2
    have hp := hpos (.str n) (by
      rw [List.mem_append]
      rcases hmem with h | h
      · exact .inl h
      · exact .inr ((wf.rghtIds_iff _).1 h))
    unfold lenOf
    rw [axisSize_known hk] at hp ⊢
    exact Int.toNat_of_nonneg hp
  · intro sd i v _
    unfold lenOf
    rw [axisSize_known (s := ⟨v, true⟩) rfl]
    simp

theorem determinate_of_ok {ex : Expanded} (wf : ExpandedWF ex) {kw : List (Str × Size)} (hkw : IntKw kw)
    {shape : List Nat} (hl : shape.length = ex.left.length) {len : AxisMap}
    (hlen : ∀ a ∈ ex.left.flatten, (axisSize kw ex.left (shape.map Size.ofNat) a).val = len a)
    (he : firstErr kw ex.left (shape.map Size.ofNat) = none) : Determinate ex.left (kw.map Prod.fst) len := by
  rintro g hg ⟨a, ha, hk⟩ h0
  obtain ⟨i, hi, rfl⟩ := List.getElem_of_mem hg
  have hp : (ex.left[i], shape[i]'(by omega)) ∈ ex.left.zip shape := by
    rw [List.mem_iff_getElem]
    exact ⟨i, by simp; omega, by simp⟩
  have h1 := firstErr_none.1 he _ (mem_zip_ofNat hp)
  unfold groupErr at h1
  have hall : ex.left[i].all (isKnown (kw.map Prod.fst)) = false := by
    rw [← Bool.not_eq_true, List.all_eq_true]
    intro h
    rw [h a ha] at hk
    cases hk
  have hkp : (knownProd kw ex.left[i]).val = 0 := by
    rw [knownProd_val ex.left (shape.map Size.ofNat)]
    have : (ex.left[i].filter (isKnown (kw.map Prod.fst))).map
        (fun a => (axisSize kw ex.left (shape.map Size.ofNat) a).val) =
        ((ex.left[i].filter (isKnown (kw.map Prod.fst))).map len).map Int.ofNat := by
      rw [List.map_map]
      apply List.map_congr_left
      intro b hb
      exact hlen b (List.mem_flatten.2 ⟨_, hg, List.mem_of_mem_filter hb⟩)
    rw [this]
    have h2 : ∀ l : List Nat, (l.map Int.ofNat).prod = (l.prod : Int) := by
      intro l
      induction l with
      | nil => rfl
      | cons n l ih => simp [ih]
    rw [h2]
    unfold groupSize at h0
    rw [h0]; rfl
  simp only [knownProd_isInt hkw.int, Size.ofNat, Bool.and_self, if_true, hall, Bool.false_eq_true, if_false, hkp] at h1
  cases h1

/-- From the specification to an accepted assignment. -/
theorem fit_sizes {ex : Expanded} (wf : ExpandedWF ex) {kw : List (Str × Size)} (hkw : IntKw kw)
    {shape : List Nat} {len : AxisMap} (hf : Fits ex.left ex.rght kw shape len)
    (hi : OneUnknown ex.left (kw.map Prod.fst)) (hdet : Determinate ex.left (kw.map Prod.fst) len)
    (hnew : ∀ a ∈ ex.rght.flatten, a ∉ ex.left.flatten → isKnown (kw.map Prod.fst) a = true) :
    firstErr kw ex.left (shape.map Size.ofNat) = none ∧
    ∀ a ∈ ex.left.flatten ++ ex.rght.flatten, (axisSize kw ex.left (shape.map Size.ofNat) a).val = len a := by
  have hknown : ∀ a ∈ ex.left.flatten ++ ex.rght.flatten, ∀ s, knownSize kw a = some s → s.val = len a := by
    intro a ha s hs
    cases a with
    | anon sd i v =>
      simp only [knownSize, Option.some.injEq] at hs
      rw [← hs, hf.number_eq sd i v ha]
    | str n => exact (hf.kw_eq n s (dictGet_mem hs)).symm
  have hcast : ∀ l : List Nat, (l.map Int.ofNat).prod = (l.prod : Int) := by
    intro l
    induction l with
    | nil => rfl
    | cons n l ih => simp [ih]
  -- per group
  have hgrp : ∀ p ∈ ex.left.zip (shape.map Size.ofNat), (∃ d : Nat, p.2 = Size.ofNat d ∧ d = groupSize len p.1) := by
    intro p hp
    obtain ⟨d, h1, h2⟩ := zip_map_ofNat hp
    refine ⟨d, h1, ?_⟩
    rw [hf.shape_eq, List.zip_map_right, List.mem_map] at h2
    obtain ⟨⟨g1, g2⟩, hz, heq⟩ := h2
    have : g1 = g2 := by
      have := List.mem_iff_getElem.1 hz
      obtain ⟨i, hi, he⟩ := this
      simp at he
      rw [← he.1, ← he.2]
    simp only [Prod.map_apply, id, Prod.mk.injEq] at heq
    rw [← heq.1, ← heq.2, this]
  have hkp : ∀ g ∈ ex.left, (knownProd kw g).val = groupSize len (g.filter (isKnown (kw.map Prod.fst))) := by
    intro g hg
    rw [knownProd_val ex.left (shape.map Size.ofNat)]
    unfold groupSize
    rw [← hcast, List.map_map]
    congr 1
    apply List.map_congr_left
    intro a ha
    rw [List.mem_filter] at ha
    have hsome : (knownSize kw a).isSome = true := by rw [knownSize_isSome]; exact ha.2
    obtain ⟨s, hs⟩ := Option.isSome_iff_exists.1 hsome
    rw [axisSize_known hs]
    exact hknown a (List.mem_append_left _ (List.mem_flatten.2 ⟨g, hg, ha.1⟩)) s hs
  have hsplit : ∀ g : List Axis, groupSize len g = groupSize len (g.filter (isKnown (kw.map Prod.fst))) *
      groupSize len (g.filter (fun a => !isKnown (kw.map Prod.fst) a)) := by
    intro g
    have := prod_filter_split (isKnown (kw.map Prod.fst)) (fun a => (len a : Int)) g
    unfold groupSize
    have e : ∀ l : List Axis, ((l.map len).prod : Int) = (l.map (fun a => (len a : Int))).prod := by
      intro l; rw [← hcast, List.map_map]; rfl
    have h2 : ((g.map len).prod : Int) = ((g.filter (isKnown (kw.map Prod.fst))).map len).prod *
      ((g.filter (fun a => !isKnown (kw.map Prod.fst) a)).map len).prod := by rw [e, e, e]; exact this
    exact_mod_cast h2
  have herr : ∀ p ∈ ex.left.zip (shape.map Size.ofNat), groupErr kw p.1 p.2 = none ∧
      ∀ a ∈ p.1, isKnown (kw.map Prod.fst) a = false → (p.2.fdiv (knownProd kw p.1)).val = len a := by
    intro p hp
    obtain ⟨d, hd1, hd2⟩ := hgrp p hp
    have hg : p.1 ∈ ex.left := (List.of_mem_zip (b := p.2) hp).1
    obtain ⟨g, s⟩ := p
    simp only at hd1 hd2 hg ⊢
    subst hd1
    unfold groupErr
    simp only [knownProd_isInt hkw.int, Size.ofNat, Bool.and_self, if_true, hkp g hg, Size.fdiv]
    have hu := hi g hg
    match hus : g.filter (fun a => !isKnown (kw.map Prod.fst) a), hu with
    | [], _ =>
      have hall : ∀ a ∈ g, isKnown (kw.map Prod.fst) a = true := by
        intro a ha
        by_contra hc
        have : a ∈ g.filter (fun a => !isKnown (kw.map Prod.fst) a) := List.mem_filter.2 ⟨ha, by simpa using hc⟩
        rw [hus] at this; cases this
      refine ⟨?_, fun a ha hk => by rw [hall a ha] at hk; cases hk⟩
      rw [List.all_eq_true.2 hall]
      have := hsplit g
      rw [hus] at this
      simp only [groupSize, List.map_nil, List.prod_nil, mul_one] at this
      have h3 : (d : Int) = (groupSize len (g.filter (isKnown (kw.map Prod.fst))) : Int) := by
        rw [hd2]; unfold groupSize; exact_mod_cast this
      simp [h3]
    | [u], _ =>
      have hug : u ∈ g ∧ isKnown (kw.map Prod.fst) u = false := by
        have : u ∈ g.filter (fun a => !isKnown (kw.map Prod.fst) a) := by rw [hus]; simp
        simpa using this
      have hall : g.all (isKnown (kw.map Prod.fst)) = false := by
        rw [← Bool.not_eq_true, List.all_eq_true]
        intro h
        rw [h u hug.1] at hug
        exact Bool.noConfusion hug.2
      have hne := hdet g hg ⟨u, hug.1, hug.2⟩
      have := hsplit g
      rw [hus, groupSize_singleton] at this
      have hd3 : (d : Int) = (groupSize len (g.filter (isKnown (kw.map Prod.fst))) : Int) * (len u : Int) := by
        rw [hd2]; exact_mod_cast this
      rw [hall, hd3]
      refine ⟨?_, ?_⟩
      · simp [hne]
      · intro a ha hk
        have hau : a = u := by
          have : a ∈ g.filter (fun a => !isKnown (kw.map Prod.fst) a) := List.mem_filter.2 ⟨ha, by simpa using hk⟩
          rw [hus] at this
          simpa using this
        subst hau
        exact Int.mul_fdiv_cancel_left _ (by exact_mod_cast hne)
    | _ :: _ :: _, hu => simp at hu
  refine ⟨firstErr_none.2 (fun p hp => (herr p hp).1), ?_⟩
  intro a ha
  cases hk : knownSize kw a with
  | some s => rw [axisSize_known hk]; exact hknown a ha s hk
  | none =>
    have hk' := knownSize_none.1 hk
    have haL : a ∈ ex.left.flatten := by
      by_contra hc
      have haR := (List.mem_append.1 ha).resolve_left hc
      have := hnew a haR hc
      rw [this] at hk'
      cases hk'
    obtain ⟨g, hg, hag⟩ := List.mem_flatten.1 haL
    obtain ⟨i, hi', rfl⟩ := List.getElem_of_mem hg
    have hl : shape.length = ex.left.length := by rw [hf.shape_eq]; simp
    have hp : (ex.left[i], Size.ofNat (shape[i]'(by omega))) ∈ ex.left.zip (shape.map Size.ofNat) := by
      apply mem_zip_ofNat
      rw [List.mem_iff_getElem]
      exact ⟨i, by simp; omega, by simp⟩
    rw [axisSize_unknown wf.left_nodup hp hag hk]
    exact (herr _ hp).2 a hag hk'

/-! ### negative lengths -/

theorem neg_prod {l : List Int} (hneg : ∃ d ∈ l, d < 0) (hp : 0 ≤ l.prod) :
    2 ≤ (l.filter (fun d => decide (d < 0))).length ∨ 0 ∈ l := by
  by_contra hc
  push Not at hc
  obtain ⟨h1, h0⟩ := hc
  have key : ∀ l : List Int, 0 ∉ l → ((l.filter (fun d => decide (d < 0))).length = 0 → 0 < l.prod) ∧
      ((l.filter (fun d => decide (d < 0))).length = 1 → l.prod < 0) := by
    intro l
    induction l with
    | nil => intro _; simp
    | cons a l ih =>
      intro h0
      simp only [List.mem_cons, not_or] at h0
      obtain ⟨i1, i2⟩ := ih h0.2
      by_cases ha : a < 0
      · rw [List.filter_cons_of_pos (by simpa using ha)]
        simp only [List.length_cons, List.prod_cons]
        refine ⟨by omega, fun h => ?_⟩
        exact mul_neg_of_neg_of_pos ha (i1 (by omega))
      · rw [List.filter_cons_of_neg (by simpa using ha)]
        simp only [List.prod_cons]
        have hpos : 0 < a := by omega
        exact ⟨fun h => mul_pos hpos (i1 h), fun h => mul_neg_of_pos_of_neg hpos (i2 h)⟩
  obtain ⟨d, hd, hdn⟩ := hneg
  have hl : 0 < (l.filter (fun d => decide (d < 0))).length :=
    List.length_pos_of_mem (List.mem_filter.2 ⟨hd, by simpa using hdn⟩)
  have := (key l h0).2 (by omega)
  omega

/-- A negative length on the left always makes the first reshape fail. -/
theorem neg_left {ex : Expanded} (wf : ExpandedWF ex) {kw : List (Str × Size)} (hkw : IntKw kw)
    {shape : List Nat} (hl : shape.length = ex.left.length)
    (hi : OneUnknown ex.left (kw.map Prod.fst)) (he : firstErr kw ex.left (shape.map Size.ofNat) = none)
    (hneg : ∃ a ∈ ex.left.flatten, (axisSize kw ex.left (shape.map Size.ofNat) a).val < 0) :
    ∃ s, (cookedOf ex kw (shape.map Size.ofNat)).initShapes = some s ∧ (∃ d ∈ s.map Size.val, d < 0) ∧
      (2 ≤ ((s.map Size.val).filter (fun d => decide (d < 0))).length ∨ 0 ∈ s.map Size.val) := by
  obtain ⟨a, ha, hav⟩ := hneg
  obtain ⟨g, hg, hag⟩ := List.mem_flatten.1 ha
  obtain ⟨i, hi', rfl⟩ := List.getElem_of_mem hg
  have hp : (ex.left[i], Size.ofNat (shape[i]'(by omega))) ∈ ex.left.zip (shape.map Size.ofNat) := by
    apply mem_zip_ofNat
    rw [List.mem_iff_getElem]
    exact ⟨i, by simp; omega, by simp⟩
  have hprod := group_prod hkw.int wf.left_nodup hp rfl (hi _ hg) (firstErr_none.1 he _ hp)
  set f : Axis → Int := fun a => (axisSize kw ex.left (shape.map Size.ofNat) a).val with hf
  have hprod0 : 0 ≤ (ex.left[i].map f).prod := by rw [hprod]; simp [Size.ofNat]
  have hany : ex.left.any (fun g => decide (g.length ≠ 1)) = true := by
    by_contra hc
    obtain ⟨b, hb⟩ := List.length_eq_one_iff.1 (all_one_of_not_any hc _ hg)
    rw [hb] at hag hprod0
    simp only [List.mem_singleton] at hag
    subst hag
    simp only [List.map_cons, List.map_nil, List.prod_cons, List.prod_nil, mul_one] at hprod0
    have : f a < 0 := hav
    omega
  refine ⟨ex.left.flatten.map (axisSize kw ex.left (shape.map Size.ofNat)), ?_, ?_, ?_⟩
  · simp only [cookedOf]
    rw [if_pos hany]
  · rw [List.map_map]
    exact ⟨_, List.mem_map.2 ⟨a, ha, rfl⟩, hav⟩
  · rw [List.map_map]
    have h1 := neg_prod (l := ex.left[i].map f) ⟨_, List.mem_map.2 ⟨a, hag, rfl⟩, hav⟩ hprod0
    have hsub : (ex.left[i].map f).Sublist (ex.left.flatten.map f) :=
      (List.sublist_flatten_of_mem hg).map f
    rcases h1 with h1 | h1
    · left
      exact h1.trans (hsub.filter _).length_le
    · right
      exact hsub.subset h1

end Einops
