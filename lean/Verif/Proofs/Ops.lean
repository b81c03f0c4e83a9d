import Verif.Proofs.Prepare
import Verif.Proofs.Core
import Verif.Proofs.Sizes

/-! The operations from pattern to result. -/

namespace Einops

universe u
variable {α : Type u} [PyUnicode]

omit [PyUnicode] in
theorem bind_ok {β γ : Type u} {e : Py β} {f : β → Py γ} {y : γ} (h : e.bind f = .ok y) : ∃ z, e = .ok z ∧ f z = .ok y := by
  cases e with
  | error e => cases h
  | ok z => exact ⟨z, rfl, h⟩

/-- the part of a call that depends on the shape -/
def runEx (b : Backend α) (ex : Expanded) (kw : List (Str × Size)) (x : Tensor α) (red : Reduction α) : Py (Tensor α) :=
  match firstErr kw ex.left (x.shape.map Size.ofNat) with
  | some e => .error e
  | none => applyCooked b (cookedOf ex kw (x.shape.map Size.ofNat)) x red

/-- outcome of a call for one tensor, before the data is touched -/
theorem reduce_cases (b : Backend α) (x : Tensor α) {pattern : Str} (hell : '…' ∉ pattern) (red : Reduction α)
    {kw : List (Str × Size)} (hnd : (kw.map Prod.fst).Nodup) :
    (∃ GL GR ex, IsPattern pattern GL GR ∧ ExpandedWF ex ∧
      Prepared red.kind GL GR (kw.map Prod.fst) x.ndim ex.left ex.rght ∧ namesOK ex (kw.map Prod.fst) ∧
      ∀ so, reduce b so (.one x) pattern red kw = runEx b ex kw x red) ∨
    ((¬ ∃ GL GR L R, IsPattern pattern GL GR ∧ Prepared red.kind GL GR (kw.map Prod.fst) x.ndim L R) ∧
      ∃ e, (e = .einops ∨ e = .value) ∧ ∀ so, reduce b so (.one x) pattern red kw = .error e) := by
  by_cases hp : ∃ GL GR, IsPattern pattern GL GR
  · obtain ⟨GL, GR, hp⟩ := hp
    rcases prepare_cases hp red.kind (kw.map Prod.fst) x.ndim with ⟨ex, wf, hpr, hn, heq⟩ | ⟨hno, heq⟩
    · left
      refine ⟨GL, GR, ex, hp, wf, hpr, hn, fun so => ?_⟩
      obtain ⟨_, _, _, _, hlen⟩ := hpr.groups
      simp only [reduce, resolveInput, heq so, applyRecipe]
      rw [reconstruct_recipeOf so ex wf kw (x.shape.map Size.ofNat) hnd hn hpr.unknowns (by simp [hlen, Tensor.ndim])]
      unfold runEx
      cases firstErr kw ex.left (x.shape.map Size.ofNat) <;> rfl
    · right
      refine ⟨?_, .einops, .inl rfl, fun so => ?_⟩
      · rintro ⟨GL', GR', L, R, hp', hpr⟩
        obtain ⟨_, l, r, hs, hL, hR⟩ := isPattern_split hp
        obtain ⟨_, l', r', hs', hL', hR'⟩ := isPattern_split hp'
        rw [hs] at hs'
        cases hs'
        have := IsSide.unique hL hL'
        have := IsSide.unique hR hR'
        subst_vars
        exact hno ⟨L, R, hpr⟩
      · simp only [reduce, resolveInput, heq so]
  · right
    refine ⟨fun ⟨GL, GR, _, _, h, _⟩ => hp ⟨GL, GR, h⟩, ?_⟩
    rcases prepare_bad hell hp red.kind (kw.map Prod.fst) x.ndim with ⟨_, h⟩ | ⟨_, h⟩
    · exact ⟨.einops, .inl rfl, fun so => by simp only [reduce, resolveInput, h so]⟩
    · exact ⟨.value, .inr rfl, fun so => by simp only [reduce, resolveInput, h so]⟩

/-! ### consequences of legality -/

theorem sub_flatten {G G' : List Elem} {l l' : Str} (hG : IsSide false false l G) (hG' : IsSide false false l' G')
    {s s' : Nat} (hne : s ≠ s') (hu : OnlyUnits G) (hn : NamesWithin G G') (n : Nat) :
    ∀ a ∈ (spread (ellAxes n) (denote s 0 G)).flatten, a ∈ (spread (ellAxes n) (denote s' 0 G')).flatten := by
  intro a ha
  have h := (within_iff (kL := 0) (kR := 0) hG hG' hne).2 ⟨hu, hn⟩
  rw [flatten_spread, mem_flatMap_subEll] at ha ⊢
  rcases ha with ⟨h1, h2⟩ | ⟨h1, h2⟩
  · exact .inl ⟨h a h1, h2⟩
  · exact .inr ⟨h1, h _ h2⟩

section
variable {pattern : Str} {GL GR : List Elem} (hp : IsPattern pattern GL GR) {names : List Str} {ndim : Nat}
  {L R : List (List Axis)}

include hp in
theorem rearrange_axes (h : Prepared (.name "rearrange".toList) GL GR names ndim L R) :
    (∀ a ∈ L.flatten, a ∈ R.flatten) ∧ (∀ a ∈ R.flatten, a ∈ L.flatten) := by
  obtain ⟨_, l, r, _, hL, hR⟩ := isPattern_split hp
  have hs := h.sides
  rw [SidesOK, if_pos rfl] at hs
  obtain ⟨n, _, rfl, rfl, _⟩ := h.groups
  exact ⟨sub_flatten hL hR (by omega) hs.units_left hs.left_in_right n,
    sub_flatten hR hL (by omega) hs.units_right hs.right_in_left n⟩

omit [PyUnicode] in
theorem repeat_ne : ¬ OpKind.name "repeat".toList = .name "rearrange".toList := by decide

include hp in
theorem repeat_axes (h : Prepared (.name "repeat".toList) GL GR names ndim L R) :
    (∀ a ∈ L.flatten, a ∈ R.flatten) ∧ (∀ a ∈ R.flatten, a ∉ L.flatten → isKnown names a = true) := by
  obtain ⟨_, l, r, _, hL, hR⟩ := isPattern_split hp
  have hs := h.sides
  rw [SidesOK, if_neg repeat_ne, if_pos rfl] at hs
  obtain ⟨n, _, rfl, rfl, _⟩ := h.groups
  refine ⟨sub_flatten hL hR (by omega) hs.units_left hs.left_in_right n, ?_⟩
  intro a ha hna
  cases a with
  | anon => rfl
  | str w =>
    have eL := side_no_ell hL
    have eR := side_no_ell hR
    rw [flatten_spread, mem_flatMap_subEll] at ha
    rcases ha with ⟨h1, h2⟩ | ⟨h1, h2⟩
    · obtain ⟨v, hv, ⟨_, rfl⟩ | ⟨h3, h4, rfl⟩⟩ := str_mem_wordsAxes.1 h1
      · exact absurd rfl h2
      · rcases hs.new_sized _ hv h4 with h5 | h5
        · exact absurd ((name_mem_flatten eL (eR _ hv)).2 ⟨h5, h3, h4⟩) hna
        · simpa [isKnown] using h5
    · exfalso
      apply hna
      rw [flatten_spread, mem_flatMap_subEll]
      exact .inr ⟨h1, (marker_mem_wordsAxes eL).2 (hs.ellipsis.1 ((marker_mem_wordsAxes eR).1 h2))⟩

include hp in
theorem reduce_axes_sub {op : OpKind} (ho : isRed op) (h : Prepared op GL GR names ndim L R) :
    ∀ a ∈ R.flatten, a ∈ L.flatten := by
  obtain ⟨_, l, r, _, hL, hR⟩ := isPattern_split hp
  have hs := h.sides
  rw [SidesOK, if_neg ho.1, if_neg ho.2] at hs
  obtain ⟨n, _, rfl, rfl, _⟩ := h.groups
  exact sub_flatten hR hL (by omega) hs.2.units_right hs.2.right_in_left n

include hp in
theorem prepared_new {op : OpKind} (h : Prepared op GL GR names ndim L R) :
    ∀ a ∈ R.flatten, a ∉ L.flatten → isKnown names a = true := by
  by_cases h1 : op = .name "rearrange".toList
  · subst h1
    exact fun a ha hn => absurd ((rearrange_axes hp h).2 a ha) hn
  · by_cases h2 : op = .name "repeat".toList
    · subst h2; exact (repeat_axes hp h).2
    · exact fun a ha hn => absurd (reduce_axes_sub hp ⟨h1, h2⟩ h a ha) hn

end

/-! ### lengths -/

theorem lengths_iff {ex : Expanded} (wf : ExpandedWF ex) {kw : List (Str × Size)} (hkw : IntKw kw) {shape : List Nat}
    (hl : shape.length = ex.left.length) (hn : namesOK ex (kw.map Prod.fst)) (hi : OneUnknown ex.left (kw.map Prod.fst))
    (hnew : ∀ a ∈ ex.rght.flatten, a ∉ ex.left.flatten → isKnown (kw.map Prod.fst) a = true) (len : AxisMap) :
    (Fits ex.left ex.rght kw shape len ∧ Determinate ex.left (kw.map Prod.fst) len) ↔
    (firstErr kw ex.left (shape.map Size.ofNat) = none ∧
      ∀ a ∈ ex.left.flatten ++ ex.rght.flatten, (axisSize kw ex.left (shape.map Size.ofNat) a).val = len a) := by
  constructor
  · rintro ⟨h1, h2⟩
    exact fit_sizes wf hkw h1 hi h2 hnew
  · rintro ⟨h1, h2⟩
    have h3 := sizes_fit wf hkw hl hn hi h1 (fun a ha => by rw [h2 a ha]; omega)
    have hcongr : ∀ a ∈ ex.left.flatten ++ ex.rght.flatten, lenOf kw ex.left shape a = len a := by
      intro a ha
      unfold lenOf
      rw [h2 a ha]
      simp
    refine ⟨⟨?_, ?_, ?_⟩, ?_⟩
    · rw [h3.shape_eq]
      apply List.map_congr_left
      intro g hg
      exact groupSize_congr (fun a ha => hcongr a (List.mem_append_left _ (List.mem_flatten.2 ⟨g, hg, ha⟩)))
    · intro n s hs
      rw [← hcongr]
      · exact h3.kw_eq n s hs
      · rcases (hn n (List.mem_map.2 ⟨_, hs, rfl⟩)).2 with h | h
        · exact List.mem_append_left _ h
        · exact List.mem_append_right _ ((wf.rghtIds_iff _).1 h)
    · intro side i v h
      rw [← hcongr _ h]
      exact h3.number_eq side i v h
    · exact determinate_of_ok wf hkw hl (fun a ha => h2 a (List.mem_append_left _ ha)) h1

theorem exists_len_iff {ex : Expanded} (wf : ExpandedWF ex) {kw : List (Str × Size)} (hkw : IntKw kw) {shape : List Nat}
    (hl : shape.length = ex.left.length) (hn : namesOK ex (kw.map Prod.fst)) (hi : OneUnknown ex.left (kw.map Prod.fst))
    (hnew : ∀ a ∈ ex.rght.flatten, a ∉ ex.left.flatten → isKnown (kw.map Prod.fst) a = true) :
    (∃ len, Fits ex.left ex.rght kw shape len ∧ Determinate ex.left (kw.map Prod.fst) len) ↔
    (firstErr kw ex.left (shape.map Size.ofNat) = none ∧
      ∀ a ∈ ex.left.flatten ++ ex.rght.flatten, 0 ≤ (axisSize kw ex.left (shape.map Size.ofNat) a).val) := by
  constructor
  · rintro ⟨len, h⟩
    obtain ⟨h1, h2⟩ := (lengths_iff wf hkw hl hn hi hnew len).1 h
    exact ⟨h1, fun a ha => by rw [h2 a ha]; omega⟩
  · rintro ⟨h1, h2⟩
    refine ⟨lenOf kw ex.left shape, (lengths_iff wf hkw hl hn hi hnew _).2 ⟨h1, fun a ha => ?_⟩⟩
    unfold lenOf
    rw [Int.toNat_of_nonneg (h2 a ha)]

/-- lengths are determined on the axes of the pattern -/
theorem fits_unique {ex : Expanded} (wf : ExpandedWF ex) {kw : List (Str × Size)} (hkw : IntKw kw) {shape : List Nat}
    (hi : OneUnknown ex.left (kw.map Prod.fst))
    (hnew : ∀ a ∈ ex.rght.flatten, a ∉ ex.left.flatten → isKnown (kw.map Prod.fst) a = true) {len len' : AxisMap}
    (h : Fits ex.left ex.rght kw shape len) (h1 : Determinate ex.left (kw.map Prod.fst) len)
    (h' : Fits ex.left ex.rght kw shape len') (h1' : Determinate ex.left (kw.map Prod.fst) len') :
    ∀ a ∈ ex.left.flatten ++ ex.rght.flatten, len a = len' a := by
  intro a ha
  have e1 := (fit_sizes wf hkw h hi h1 hnew).2 a ha
  have e2 := (fit_sizes wf hkw h' hi h1' hnew).2 a ha
  omega

/-- a negative length on the left makes every lawful backend fail -/
theorem neg_left_error {b : Backend α} (hb : MoveLawful b) {ex : Expanded} (wf : ExpandedWF ex)
    {kw : List (Str × Size)} (hkw : IntKw kw) {x : Tensor α} (hl : x.shape.length = ex.left.length)
    (hi : OneUnknown ex.left (kw.map Prod.fst)) (he : firstErr kw ex.left (x.shape.map Size.ofNat) = none)
    (hneg : ∃ a ∈ ex.left.flatten, (axisSize kw ex.left (x.shape.map Size.ofNat) a).val < 0) (red : Reduction α) :
    applyCooked b (cookedOf ex kw (x.shape.map Size.ofNat)) x red = .error .backend := by
  obtain ⟨s, h1, h2, h3⟩ := neg_left wf hkw hl hi he hneg
  unfold applyCooked applyStages
  rw [h1]
  simp only [optReshape]
  rw [hb.reshape_neg x _ h2 h3]
  rfl

/-! ### results -/

/-- the backend refuses new axes of negative length (torch-like backends read -1 as "keep this dimension") -/
def StrictNew (b : Backend α) : Prop :=
  ∀ (x : Tensor α) n (added : List (Nat × Int)), (added.map Prod.fst).Nodup → (∃ p ∈ added, p.2 < 0) →
    ∃ e, b.addAxes x n added = .error e

omit [PyUnicode] in
theorem droppedAxes_nil {ex : Expanded} (wf : ExpandedWF ex) (h : ∀ a ∈ ex.left.flatten, a ∈ ex.rght.flatten) :
    droppedAxes ex = [] := by
  unfold droppedAxes
  rw [List.filter_eq_nil_iff]
  intro a ha
  simp only [decide_eq_true_eq, not_not]
  exact (wf.rghtIds_iff a).2 (h a ha)

/-- everything that is known when sizes are accepted -/
theorem ok_lengths {b : Backend α} (hb : MoveLawful b) {x : Tensor α} {ex : Expanded} (wf : ExpandedWF ex)
    {kw : List (Str × Size)} (hkw : IntKw kw) (hl : x.shape.length = ex.left.length)
    (hn : namesOK ex (kw.map Prod.fst)) (hi : OneUnknown ex.left (kw.map Prod.fst))
    (hnew : ∀ a ∈ ex.rght.flatten, a ∉ ex.left.flatten → isKnown (kw.map Prod.fst) a = true) (red : Reduction α)
    (hsub : (∀ a ∈ ex.rght.flatten, a ∈ ex.left.flatten) ∨
      ((∀ a ∈ ex.left.flatten, a ∈ ex.rght.flatten) ∧ (StrictNew b ∨ ∀ p ∈ kw, 0 ≤ p.2.val))) {y : Tensor α}
    (h : runEx b ex kw x red = .ok y) :
    ∃ len, Fits ex.left ex.rght kw x.shape len ∧ Determinate ex.left (kw.map Prod.fst) len := by
  rw [exists_len_iff wf hkw hl hn hi hnew]
  unfold runEx at h
  rcases he : firstErr kw ex.left (x.shape.map Size.ofNat) with _ | e
  swap
  · rw [he] at h; cases h
  rw [he] at h
  simp only at h
  refine ⟨rfl, ?_⟩
  have hleft : ∀ a ∈ ex.left.flatten, 0 ≤ (axisSize kw ex.left (x.shape.map Size.ofNat) a).val := by
    intro a ha
    by_contra hc
    rw [neg_left_error hb wf hkw hl hi he ⟨a, ha, by omega⟩ red] at h
    cases h
  intro a ha
  rcases List.mem_append.1 ha with ha | ha
  · exact hleft a ha
  by_cases hal : a ∈ ex.left.flatten
  · exact hleft a hal
  rcases hsub with hsub | ⟨hdrop, hstrict⟩
  · exact absurd (hsub a ha) hal
  cases a with
  | anon sd i v => rw [axisSize_known (s := ⟨v, true⟩) rfl]; simp
  | str w =>
    obtain ⟨s, hs⟩ : ∃ s, knownSize kw (.str w) = some s := by
      rcases hks : knownSize kw (.str w) with _ | s
      · have := hnew _ ha hal
        rw [knownSize_none.1 hks] at this
        cases this
      · exact ⟨s, rfl⟩
    rw [axisSize_known hs]
    rcases hstrict with hstrict | hpos
    swap
    · exact hpos _ (dictGet_mem hs)
    by_contra hc
    have hbad : ∃ p ∈ (cookedOf ex kw (x.shape.map Size.ofNat)).addedAxes.map (fun p => (p.1, p.2.val)), p.2 < 0 := by
      obtain ⟨i, hi', hia⟩ := List.getElem_of_mem ha
      have hm : (Axis.str w, i) ∈ ex.rght.flatten.zipIdx := by
        rw [List.mem_zipIdx_iff_getElem?]
        simp [List.getElem?_eq_getElem hi', hia]
      refine ⟨(i, s.val), ?_, by simpa using hc⟩
      simp only [cookedOf, List.map_map, List.mem_map, List.mem_filter, Function.comp]
      refine ⟨(.str w, i), ⟨hm, ?_⟩, ?_⟩
      · simp only [decide_eq_true_eq]
        exact fun h' => hal ((wf.leftIds_iff _).1 h')
      · simp only [axisSize_known hs]
    have hne : (cookedOf ex kw (x.shape.map Size.ofNat)).addedAxes.length > 0 := by
      obtain ⟨p, hp, _⟩ := hbad
      have := List.length_pos_of_mem hp
      simpa using this
    have hr : (cookedOf ex kw (x.shape.map Size.ofNat)).reducedAxes = [] := by
      rw [cooked_reduced, droppedAxes_nil wf hdrop]
      simp
    unfold applyCooked applyStages at h
    obtain ⟨t1, h1, h⟩ := bind_ok h
    obtain ⟨t2, h2, h⟩ := bind_ok h
    obtain ⟨t3, h3, h⟩ := bind_ok h
    obtain ⟨t4, h4, h⟩ := bind_ok h
    unfold optAddAxes at h4
    rw [if_pos hne] at h4
    have hpos : (((cookedOf ex kw (x.shape.map Size.ofNat)).addedAxes.map (fun p => (p.1, p.2.val))).map Prod.fst).Nodup := by
      simp only [cookedOf, List.map_map]
      have h5 : (ex.rght.flatten.zipIdx.map Prod.snd).Nodup := by
        rw [List.zipIdx_map_snd]
        exact List.nodup_range'
      exact h5.sublist (List.filter_sublist.map Prod.snd)
    obtain ⟨e, he⟩ := hstrict t3 (cookedOf ex kw (x.shape.map Size.ofNat)).nAxesWithAdded _ hpos hbad
    rw [he] at h4
    cases h4

end Einops
