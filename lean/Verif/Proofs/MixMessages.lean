import Verif.Proofs.LayerMessages

/-!
# The messages of `EinMix` are true
-/

namespace Einops

universe u

section
variable [PyUnicode]

theorem mem_sideAxes {side : Nat} {G : List Elem} {a : Axis} : a ∈ (describe side G).identifiers ↔ a ∈ sideAxes side G := mem_ids

omit [PyUnicode] in
theorem reportAxes_error {β : Type u} {po : SetOrder} {l : List Axis} {m : List Axis → MixMessage} {rest : PyMix β} {f : Told MixMessage}
    (h : reportAxes po l m rest = .error f) : (l ≠ [] ∧ f = .said (m (po.order 0 l))) ∨ (l = [] ∧ rest = .error f) := by
  unfold reportAxes at h
  split at h
  · rename_i hl
    cases h
    exact .inl ⟨hl, rfl⟩
  · rename_i hl
    exact .inr ⟨not_not.1 hl, h⟩

theorem ell_mem_sideAxes {side : Nat} {s : Str} {G : List Elem} (h : IsSide false false s G) :
    Axis.str ellipsisStr ∈ sideAxes side G ↔ dots ∈ sideWords G := by
  rw [← mem_sideAxes, str_mem_ids]
  constructor
  · rintro (⟨h1, -⟩ | h1)
    · exact h1
    · exact absurd rfl (ne_ell h (mem_nameWords.1 h1).1)
  · intro h1
    exact .inl ⟨h1, rfl⟩

/-- a side all of whose axes occur on other sides has no numbers but 1 -/
theorem units_of_within {side : Nat} {G : List Elem} {P : Axis → Prop} (h : ∀ a ∈ sideAxes side G, P a)
    (hP : ∀ i v, ¬ P (.anon side i v)) : OnlyUnits G := by
  by_contra hcon
  unfold OnlyUnits at hcon
  push Not at hcon
  obtain ⟨w, hw, hnum, hval⟩ := hcon
  obtain ⟨i, hi, rfl⟩ := List.mem_iff_getElem.1 hw
  exact hP _ _ (h _ (mem_wordsAxes.2 ⟨i, hi, anon_mem_wordAxes.2 ⟨rfl, rfl, hnum, hval, rfl⟩⟩))

theorem anon_axis_side {side sd i v : Nat} {G : List Elem} (h : Axis.anon sd i v ∈ sideAxes side G) : sd = side :=
  (anon_mem_ids (mem_sideAxes.2 h)).1

theorem right_known_axes {GL GR GW : List Elem} (hu : OnlyUnits GR) (he : dots ∈ sideWords GR → dots ∈ sideWords GL)
    (h : ∀ w ∈ axisWords GR, w ∈ sideWords GL ∨ w ∈ sideWords GW) :
    ∀ a ∈ sideAxes 1 GR, a ∈ sideAxes 0 GL ∨ a ∈ sideAxes 2 GW := by
  intro a ha
  rw [← mem_sideAxes] at ha
  rw [← mem_sideAxes, ← mem_sideAxes]
  cases a with
  | anon sd i v => exact absurd ha (anon_not_mem_ids hu)
  | str s =>
    rw [str_mem_ids] at ha
    rcases ha with ⟨hd, rfl⟩ | hs
    · exact .inl (str_mem_ids.2 (.inl ⟨he hd, rfl⟩))
    · obtain ⟨s1, s2, s3⟩ := mem_nameWords.1 hs
      rcases h s (mem_axisWords.2 ⟨s1, s2⟩) with h | h
      · exact .inl (str_mem_ids.2 (.inr (mem_nameWords.2 ⟨h, s2, s3⟩)))
      · exact .inr (str_mem_ids.2 (.inr (mem_nameWords.2 ⟨h, s2, s3⟩)))

theorem planRules_of {GL GR GW : List Elem} (h : ChecksOK GL GR GW) : PlanRules GL GR GW :=
  ⟨right_known_axes h.units_right h.ellipsis_both.2 h.right_known, h.weight_fixed, h.ellipsis_both, h.ellipsis_left,
    ⟨h.units_left, h.units_right, h.units_weight⟩, h.weight_flat⟩

theorem einmixChecksM_says {po : SetOrder} {pattern : Str} {GL GR GW : List Elem} {l r w : Str} (hl : IsSide false false l GL)
    (hr : IsSide false false r GR) (hw : IsSide false false w GW) (bias : Option Str) (kw : List (Str × Size)) {f : Told MixMessage}
    (h : einmixChecksM po pattern (describe 0 GL) (describe 1 GR) (describe 2 GW) w = .error f) :
    ∃ m, f = .said m ∧ m.SaysOf pattern w bias kw GL GR GW := by
  unfold einmixChecksM at h
  rcases reportAxes_error h with ⟨h1, rfl⟩ | ⟨h1, h⟩
  · refine ⟨_, rfl, po.lists h1 ((describe_ids_nodup 1 GR).filter _) (fun a => ?_)⟩
    rw [List.mem_filter, decide_eq_true_eq, List.mem_append, not_or, mem_sideAxes, mem_sideAxes, mem_sideAxes]
  have hk : ∀ a ∈ sideAxes 1 GR, a ∈ sideAxes 0 GL ∨ a ∈ sideAxes 2 GW := by
    intro a ha
    have := List.filter_eq_nil_iff.1 h1 a (mem_sideAxes.2 ha)
    rw [decide_eq_true_eq, not_not, List.mem_append, mem_sideAxes, mem_sideAxes] at this
    exact this
  have hu : OnlyUnits GR := units_of_within hk (by
    rintro i v (h | h)
    · exact absurd (anon_axis_side h) (by decide)
    · exact absurd (anon_axis_side h) (by decide))
  split at h
  · rename_i h2
    cases h
    exact ⟨_, rfl, hk, describe_ellipsis.1 h2⟩
  rename_i h2
  have hwd : dots ∉ sideWords GW := fun h => h2 (describe_ellipsis.2 h)
  have hRL : dots ∈ sideWords GR → dots ∈ sideWords GL := by
    intro hd
    rcases hk _ ((ell_mem_sideAxes hr).2 hd) with h | h
    · exact (ell_mem_sideAxes hl).1 h
    · exact absurd ((ell_mem_sideAxes hw).1 h) hwd
  split at h
  · rename_i h3
    cases h
    refine ⟨_, rfl, rfl, hk, hwd, ?_⟩
    have h3' : ((dots ∈ sideWords GL ∨ dots ∈ sideWords GR) ∧ ¬ (dots ∈ sideWords GL ∧ dots ∈ sideWords GR)) := by
      simpa only [Bool.and_eq_true, Bool.or_eq_true, Bool.not_eq_true', ← Bool.not_eq_true, describe_ellipsis] using h3
    tauto
  rename_i h3
  have h3' : dots ∈ sideWords GL ↔ dots ∈ sideWords GR := by
    have : ¬ ((dots ∈ sideWords GL ∨ dots ∈ sideWords GR) ∧ ¬ (dots ∈ sideWords GL ∧ dots ∈ sideWords GR)) := by
      simpa only [Bool.and_eq_true, Bool.or_eq_true, Bool.not_eq_true', ← Bool.not_eq_true, describe_ellipsis] using h3
    tauto
  have hep : (describe 0 GL).ellParen = some true ↔ ∃ ws, Elem.paren ws ∈ GL ∧ dots ∈ ws := ellPos_paren hl.one_ellipsis
  split at h
  · rename_i h4
    cases h
    rw [Bool.and_eq_true, Bool.or_eq_true, describe_ellipsis, describe_ellipsis, decide_eq_true_eq, hep] at h4
    exact ⟨_, rfl, rfl, hk, hwd, h4.1.elim h3'.1 id, h4.2⟩
  rename_i h4
  have hel : ∀ ws, Elem.paren ws ∈ GL → dots ∉ ws := by
    intro ws h5 h6
    apply h4
    rw [Bool.and_eq_true, Bool.or_eq_true, describe_ellipsis, describe_ellipsis, decide_eq_true_eq, hep]
    exact ⟨.inl (List.mem_flatMap.2 ⟨_, h5, h6⟩), ws, h5, h6⟩
  have huu : ∀ {side : Nat} {G : List Elem}, (describe side G).nonUnitary = true ↔ ¬ OnlyUnits G := by
    intro side G
    rw [← nonUnitary_describe (side := side), Bool.not_eq_false]
  split at h
  · rename_i h5
    cases h
    refine ⟨_, rfl, hk, hwd, h3', hel, hu, ?_⟩
    rw [Bool.or_eq_true, Bool.or_eq_true, huu, huu, huu] at h5
    rcases h5 with (h5 | h5) | h5
    · unfold OnlyUnits at h5
      push Not at h5
      obtain ⟨v, v1, v2, v3⟩ := h5
      exact ⟨v, List.mem_append_left _ v1, v2, v3⟩
    · exact absurd hu h5
    · unfold OnlyUnits at h5
      push Not at h5
      obtain ⟨v, v1, v2, v3⟩ := h5
      exact ⟨v, List.mem_append_right _ v1, v2, v3⟩
  rename_i h5
  rw [Bool.or_eq_true, Bool.or_eq_true, huu, huu, huu, not_or, not_or, not_not, not_not, not_not] at h5
  split at h
  · rename_i h6
    cases h
    exact ⟨_, rfl, rfl, hk, hwd, h3', hel, h5.1.1, hu, h5.2, (weight_parens hw).1 h6⟩
  · cases h

theorem einmixSizesM_says {po : SetOrder} {pattern : Str} {GL GR GW : List Elem} {w : Str} (hw : IsSide false false w GW)
    (hc : ChecksOK GL GR GW) (bias : Option Str) {kw : List (Str × Size)} (he : ellipsisStr ∉ kw.map Prod.fst) {f : Told MixMessage}
    (h : einmixSizesM po (describe 0 GL) (describe 1 GR) (describe 2 GW) kw = .error f) :
    ∃ m, f = .said m ∧ m.SaysOf pattern w bias kw GL GR GW := by
  have hW : ∀ {a}, a ∈ (describe 2 GW).identifiers ↔ ∃ s ∈ axisWords GW, a = .str s :=
    ids_units hc.units_weight hc.weight_fixed
  have hne : ∀ s ∈ axisWords GW, s ≠ dots ∧ s ≠ ellipsisStr ∧ ¬ IsNumber s := by
    intro s hs
    obtain ⟨h1, h2⟩ := mem_axisWords.1 hs
    exact ⟨fun h => hc.weight_fixed (h ▸ h1), ne_ell hw h1, h2⟩
  unfold einmixSizesM at h
  split at h
  · rename_i a ha
    cases h
    have h1 := List.find?_some ha
    have h2 := (po.perm 1 _).mem_iff.1 (List.mem_of_find?_eq_some ha)
    obtain ⟨s, hs, rfl⟩ := hW.1 h2
    refine ⟨_, rfl, planRules_of hc, s, hs, ?_, rfl⟩
    simpa [hasSize] using h1
  rename_i hnone
  have hsz : ∀ w ∈ axisWords GW, w ∈ kw.map Prod.fst := by
    intro v hv
    have := List.find?_eq_none.1 hnone (.str v) ((po.perm 1 _).mem_iff.2 (hW.2 ⟨v, hv, rfl⟩))
    simpa [hasSize] using this
  have hnm : ∀ n ∈ kw.map Prod.fst, (Axis.str n ∉ (describe 0 GL).identifiers ++ (describe 2 GW).identifiers ↔
      n ∉ nameWords GL ∧ n ∉ nameWords GW) := by
    intro n hn
    have : n ≠ ellipsisStr := fun h => he (h ▸ hn)
    rw [List.mem_append, not_or, str_mem_ids, str_mem_ids]
    simp [this]
  rcases reportAxes_error h with ⟨h1, rfl⟩ | ⟨h1, h⟩
  · refine ⟨_, rfl, planRules_of hc, hsz, po.lists h1 (((List.nodup_dedup _).map (fun _ _ h => by cases h; rfl)).filter _) (fun a => ?_)⟩
    rw [List.mem_filter, decide_eq_true_eq]
    constructor
    · rintro ⟨h2, h3⟩
      obtain ⟨n, hn, rfl⟩ := List.mem_map.1 h2
      rw [List.mem_dedup] at hn
      obtain ⟨h4, h5⟩ := (hnm n hn).1 h3
      exact ⟨n, hn, h4, h5, rfl⟩
    · rintro ⟨n, hn, h4, h5, rfl⟩
      exact ⟨List.mem_map.2 ⟨n, List.mem_dedup.2 hn, rfl⟩, (hnm n hn).2 ⟨h4, h5⟩⟩
  have hused : ∀ n ∈ kw.map Prod.fst, n ∈ nameWords GL ∨ n ∈ nameWords GW := by
    intro n hn
    by_contra hcon
    rw [not_or] at hcon
    have := List.filter_eq_nil_iff.1 h1 (.str n) (List.mem_map.2 ⟨n, List.mem_dedup.2 hn, rfl⟩)
    rw [decide_eq_true_eq] at this
    exact this ((hnm n hn).2 hcon)
  rcases reportAxes_error h with ⟨h2, rfl⟩ | ⟨h2, h⟩
  · refine ⟨_, rfl, planRules_of hc, hsz, hused, po.lists h2 ((describe_ids_nodup 2 GW).filter _) (fun a => ?_)⟩
    rw [List.mem_filter, decide_eq_true_eq, hW]
    constructor
    · rintro ⟨⟨s, hs, rfl⟩, h3⟩
      obtain ⟨e1, e2, e3⟩ := hne s hs
      rw [List.mem_append, not_or, str_mem_ids_of e1 e2 e3, str_mem_ids_of e1 e2 e3] at h3
      exact ⟨s, hs, h3.1, h3.2, rfl⟩
    · rintro ⟨s, hs, h3, h4, rfl⟩
      obtain ⟨e1, e2, e3⟩ := hne s hs
      refine ⟨⟨s, hs, rfl⟩, ?_⟩
      rw [List.mem_append, not_or, str_mem_ids_of e1 e2 e3, str_mem_ids_of e1 e2 e3]
      exact ⟨h3, h4⟩
  · cases h

omit [PyUnicode] in
theorem biasLoopM_error {bias : List Axis} {kw : List (Str × Size)} {l : List Axis} {st : List Size × Bool} {f : Told MixMessage}
    (h : biasLoopM bias kw st l = .error f) : f = .said .biasAfterEllipsis ∨ f = .other .key := by
  induction l generalizing st with
  | nil => cases h
  | cons a l ih =>
    simp only [biasLoopM] at h
    split at h
    · rename_i e hs
      cases h
      unfold biasStepM at hs
      split at hs
      · split at hs
        · cases hs; exact .inl rfl
        · cases hs
      · split at hs
        · split at hs
          · rename_i e' he
            cases hs
            right
            cases a with
            | anon => cases he; rfl
            | str s =>
              simp only [sizeOf] at he
              unfold dictGetE at he
              split at he
              · cases he
              · cases he; rfl
          · cases hs
        · cases hs
    · exact ih h

/-- what is said about a bias shape -/
def BiasSays (GR : List Elem) (kw : List (Str × Size)) (s : Str) : MixMessage → Prop
  | .side m => m.Says false false s
  | .biasNotOutput A => ∃ GB, IsSide false false s GB ∧ Lists A (fun a => a ∈ sideAxes 3 GB ∧ a ∉ sideAxes 1 GR)
  | .biasSizes A => ∃ GB, IsSide false false s GB ∧ OnlyUnits GB ∧ (∀ w ∈ axisWords GB, w ∈ sideWords GR) ∧
      Lists A (fun a => ∃ w ∈ axisWords GB, w ∉ kw.map Prod.fst ∧ a = if w = dots then .str ellipsisStr else .str w)
  | .biasAfterEllipsis => ∃ GB, IsSide false false s GB ∧ OnlyUnits GB ∧
      (∀ w ∈ axisWords GB, w ∈ sideWords GR ∧ w ∈ kw.map Prod.fst) ∧
      ∃ p q, sideWords GR = p ++ dots :: q ∧ ∃ w ∈ axisWords GB, w ∈ p
  | _ => False

theorem einmixBiasM_says {po : SetOrder} {GR : List Elem} {r : Str} (hr : IsSide false false r GR) (hu : OnlyUnits GR)
    {kw : List (Str × Size)} (he : ellipsisStr ∉ kw.map Prod.fst) (hd : dots ∉ kw.map Prod.fst) {s : Str} (hs : '…' ∉ s)
    {f : Told MixMessage} (h : einmixBiasM po (describe 1 GR) kw (some s) = .error f) :
    ∃ m, f = .said m ∧ BiasSays GR kw s m := by
  unfold einmixBiasM at h
  simp only at h
  cases hp : parseExpressionM 3 false false s with
  | error m =>
    rw [hp] at h
    cases h
    exact ⟨_, rfl, parseExpressionM_says hp⟩
  | ok pe =>
    rw [hp] at h
    have hp' := erase_parseExpressionM 3 false false s
    rw [hp] at hp'
    obtain ⟨GB, hGB, rfl⟩ := (parseExpression_iff _ _ _ s hs _).1 hp'.symm
    simp only [tellingSide] at h
    rcases reportAxes_error h with ⟨h1, rfl⟩ | ⟨h1, h⟩
    · refine ⟨_, rfl, GB, hGB, po.lists h1 ((describe_ids_nodup 3 GB).filter _) (fun a => ?_)⟩
      rw [List.mem_filter, decide_eq_true_eq, mem_sideAxes, mem_sideAxes]
    have hk : ∀ a ∈ sideAxes 3 GB, a ∈ sideAxes 1 GR := by
      intro a ha
      have := List.filter_eq_nil_iff.1 h1 a (mem_sideAxes.2 ha)
      rwa [decide_eq_true_eq, not_not, mem_sideAxes] at this
    have hunits : OnlyUnits GB := units_of_within hk (fun i v h => absurd (anon_axis_side h) (by decide))
    have hin : ∀ w ∈ axisWords GB, w ∈ sideWords GR := by
      intro w hw
      obtain ⟨w1, w2⟩ := mem_axisWords.1 hw
      by_cases hwd : w = dots
      · subst hwd
        exact (ell_mem_sideAxes hr).1 (hk _ ((ell_mem_sideAxes hGB).2 w1))
      · have := hk (.str w) (mem_sideAxes.1 ((str_mem_ids_of hwd (ne_ell hGB w1) w2).2 w1))
        rwa [← mem_sideAxes, str_mem_ids_of hwd (ne_ell hGB w1) w2] at this
    have hids : ∀ a, a ∈ (describe 3 GB).identifiers ↔ ∃ w ∈ axisWords GB, a = if w = dots then .str ellipsisStr else .str w := by
      intro a
      cases a with
      | anon sd i v =>
        refine ⟨fun h => absurd h (anon_not_mem_ids hunits), ?_⟩
        rintro ⟨w, -, hw⟩
        split at hw <;> cases hw
      | str v =>
        rw [str_mem_ids]
        constructor
        · rintro (⟨h1, rfl⟩ | h1)
          · exact ⟨dots, mem_axisWords.2 ⟨h1, dots_not_number⟩, by rw [if_pos rfl]⟩
          · obtain ⟨v1, v2, v3⟩ := mem_nameWords.1 h1
            exact ⟨v, mem_axisWords.2 ⟨v1, v2⟩, by rw [if_neg v3]⟩
        · rintro ⟨w, hw, hv⟩
          obtain ⟨w1, w2⟩ := mem_axisWords.1 hw
          split at hv
          · rename_i hwd
            cases hv
            exact .inl ⟨hwd ▸ w1, rfl⟩
          · rename_i hwd
            cases hv
            exact .inr (mem_nameWords.2 ⟨w1, w2, hwd⟩)
    have hsize : ∀ w, hasSize kw (if w = dots then Axis.str ellipsisStr else .str w) = true ↔ w ∈ kw.map Prod.fst := by
      intro w
      split
      · rename_i hwd
        subst hwd
        simp only [hasSize, he, hd, decide_false, Bool.false_eq_true]
      · simp only [hasSize, decide_eq_true_eq]
    rcases reportAxes_error h with ⟨h2, rfl⟩ | ⟨h2, h⟩
    · refine ⟨_, rfl, GB, hGB, hunits, hin, po.lists h2 ((describe_ids_nodup 3 GB).filter _) (fun a => ?_)⟩
      rw [List.mem_filter, hids]
      constructor
      · rintro ⟨⟨w, hw, rfl⟩, h3⟩
        rw [Bool.not_eq_true', ← Bool.not_eq_true, hsize] at h3
        exact ⟨w, hw, h3, rfl⟩
      · rintro ⟨w, hw, h3, rfl⟩
        rw [Bool.not_eq_true', ← Bool.not_eq_true, hsize]
        exact ⟨⟨w, hw, rfl⟩, h3⟩
    have hsz : ∀ w ∈ axisWords GB, w ∈ kw.map Prod.fst := by
      intro w hw
      have := List.filter_eq_nil_iff.1 h2 _ ((hids _).2 ⟨w, hw, rfl⟩)
      rw [Bool.not_eq_true', Bool.not_eq_false] at this
      exact (hsize w).1 this
    split at h
    swap
    · cases h
    rename_i f' hf
    cases h
    have hcomp : (describe 1 GR).composition.flatMap CompAxis.axes = (axisWords GR).map markAxis := by
      rw [show (describe 1 GR).composition = GR.map unitComp from denote_unitComp hu, units_axes, flatMap_unitAxes]
      rfl
    have hl := untold_biasLoopM (describe 3 GB).identifiers kw ((describe 1 GR).composition.flatMap CompAxis.axes) ([], false)
    rw [hf, hcomp] at hl
    have hnd : dots ∉ axisWords GB := fun h => hd (hsz _ h)
    rcases biasLoop_cases (bias := (describe 3 GB).identifiers) (B := axisWords GB) (ws := axisWords GR) (kw := kw) hnd
      (fun w hw hd' => by
        obtain ⟨w1, w2⟩ := mem_axisWords.1 hw
        rw [str_mem_ids_of hd' (ne_ell hr w1) w2, mem_axisWords]
        exact (and_iff_left w2).symm) (fun w hw => ne_ell hr (mem_axisWords.1 hw).1) hsz [] false with ⟨-, u, h3⟩ | ⟨h3, h4⟩
    · rw [h3] at hl
      cases hl
    · rw [h4] at hl
      rcases biasLoopM_error hf with rfl | rfl
      · refine ⟨_, rfl, GB, hGB, hunits, fun w hw => ⟨hin w hw, hsz w hw⟩, ?_⟩
        rw [afterOK_iff (fun w hw => (mem_axisWords.1 hw).2)] at h3
        push Not at h3
        exact h3
      · cases hl

end

/-! ### `Rearrange` and `Reduce` -/

section
variable [PyUnicode] {α : Type u}

/-- where a message of a layer comes from -/
theorem layerM_said {so : Nat → SetOrder} {shown : Option OpKind} {pattern : Str} {red : Reduction α} {kw : List (Str × Size)}
    {m : LayerMessage} (h : layerM so shown pattern red kw = .error (.said m)) :
    m = ⟨pattern, shown, kw, m.inner⟩ ∧ ∃ l r, splitArrow pattern = .ok (l, r) ∧
      ((∃ sm, parseExpressionM 0 false false l = .error sm ∧ m.inner = .side sm) ∨
        ∃ left, parseExpressionM 0 false false l = .ok left ∧ ∃ before d after, layerDims left = before ++ d :: after ∧
          (∀ d' ∈ before, ∃ rc, prepareRecipeM (so d') pattern red.kind (kw.map Prod.fst) d' = .ok rc) ∧
          prepareRecipeM (so d) pattern red.kind (kw.map Prod.fst) d = .error (.einops m.inner)) := by
  unfold layerM at h
  split at h
  · rename_i m' hm
    cases h
    refine ⟨rfl, ?_⟩
    unfold prepareAllDimsM at hm
    split at hm
    · cases hm
    · rename_i l r hs
      refine ⟨l, r, hs, ?_⟩
      split at hm
      · rename_i sm hp
        cases hm
        exact .inl ⟨sm, hp, rfl⟩
      · rename_i left hp
        right
        refine ⟨left, hp, ?_⟩
        obtain ⟨before, d, after, h1, h2, h3⟩ := mapE_error_first hm
        refine ⟨before, d, after, h1, fun d' hd' => ?_, ?_⟩
        · obtain ⟨v, hv⟩ := h3 d' hd'
          split at hv
          · cases hv
          · rename_i rc hrc
            exact ⟨rc, hrc⟩
        · split at h2
          · rename_i e he
            cases h2
            exact he
          · cases h2
  · cases h
  · cases h

/-- The message of a layer is true of every tensor of some number of dimensions for which the layer is prepared, and it is not
about lengths. -/
theorem layerM_says {so : Nat → SetOrder} {shown : Option OpKind} {pattern : Str} (hell : '…' ∉ pattern) {red : Reduction α}
    {kw : List (Str × Size)} {m : LayerMessage} (h : layerM so shown pattern red kw = .error (.said m)) :
    m = ⟨pattern, shown, kw, m.inner⟩ ∧ ¬ m.inner.AboutShape ∧
      ∃ d, (∀ GL GR, IsPattern pattern GL GR → LayerRank GL d) ∧
        ∀ shape : List Nat, shape.length = d → m.inner.Says red.kind pattern kw shape := by
  obtain ⟨h0, l, r, hs, hcase⟩ := layerM_said h
  refine ⟨h0, ?_⟩
  have hall := splitArrow_iff.1 hs
  have hell' := hell
  rw [hall.1] at hell'
  simp only [List.mem_append, not_or] at hell'
  have hl0 := erase_parseExpressionM 0 false false l
  rcases hcase with ⟨sm, hp, hm⟩ | ⟨left, hp, before, d, after, hdims, hbefore, herr⟩
  · rw [hm]
    refine ⟨fun h => h, 0, ?_, fun shape _ => ⟨l, r, hall.1, hall.2.1, hall.2.2, .inl (parseExpressionM_says hp)⟩⟩
    intro GL GR hpat
    obtain ⟨-, l', r', hs', hl', -⟩ := isPattern_split hpat
    rw [hs] at hs'
    cases hs'
    rw [(parseExpression_iff 0 false false l hell'.1.1 _).2 ⟨GL, hl', rfl⟩, hp] at hl0
    cases hl0
  · rw [hp] at hl0
    obtain ⟨GL, hGL, rfl⟩ := (parseExpression_iff 0 false false l hell'.1.1 _).1 hl0.symm
    have hrank : LayerRank GL d := (layerDims_describe d).1 (by rw [hdims]; simp)
    have hsays : ∀ shape : List Nat, shape.length = d → m.inner.Says red.kind pattern kw shape := by
      intro shape hsh
      subst hsh
      exact prepareRecipeM_says hell herr
    have hpr : ∀ GL' GR', IsPattern pattern GL' GR' → GL' = GL := by
      intro GL' GR' hpat
      obtain ⟨-, l', r', hs', hl', -⟩ := isPattern_split hpat
      rw [hs] at hs'
      cases hs'
      exact IsSide.unique hl' hGL
    refine ⟨fun hab => ?_, d, fun GL' GR' hpat => hpr _ _ hpat ▸ hrank, hsays⟩
    have hno : ∀ GR L R, IsPattern pattern GL GR → ¬ Prepared red.kind GL GR (kw.map Prod.fst) d L R := by
      intro GR L R hpat hprep
      have her := erase_prepareRecipeM (so d) pattern red.kind (kw.map Prod.fst) d
      rw [herr] at her
      rcases prepare_cases hpat red.kind (kw.map Prod.fst) d with ⟨ex, -, -, -, hok⟩ | ⟨hno, -⟩
      · rw [hok] at her
        cases her
      · exact hno ⟨L, R, hprep⟩
    have hsd := hsays (List.replicate d 1) (by simp)
    have hlen : (List.replicate d 1).length = d := by simp
    unfold LayerRank at hrank
    cases hi : m.inner <;> rw [hi] at hab hsd <;> try exact hab
    · obtain ⟨GL', GR', hpat, -, h2, h3, h4, h5⟩ := hsd
      rw [hpr _ _ hpat] at h2 h3
      rw [if_pos h2] at hrank
      rw [hlen] at h4
      omega
    · obtain ⟨GL', GR', hpat, -, h2, h3, h4, h5⟩ := hsd
      rw [hpr _ _ hpat] at h2 h3
      rw [if_neg h2] at hrank
      rw [hlen] at h4
      omega
    · obtain ⟨GL', GR', hpat, L, R, g, hprep, -⟩ := hsd
      have := hpr _ _ hpat
      subst this
      rw [hlen] at hprep
      exact hno _ _ _ hpat hprep
    · obtain ⟨GL', GR', hpat, L, R, g, hprep, -⟩ := hsd
      have := hpr _ _ hpat
      subst this
      rw [hlen] at hprep
      exact hno _ _ _ hpat hprep

theorem layerM_other {so : Nat → SetOrder} {shown : Option OpKind} {pattern : Str} {red : Reduction α} {kw : List (Str × Size)} :
    layerM so shown pattern red kw ≠ .error (.other .einops) := by
  intro h
  unfold layerM at h
  split at h
  · cases h
  · rename_i e hm
    cases h
    unfold prepareAllDimsM at hm
    split at hm
    · rename_i e hs
      cases hm
      exact absurd (splitArrow_err hs) (by decide)
    · split at hm
      · cases hm
      · obtain ⟨d, hd, h2⟩ := mapE_error_mem hm
        split at h2
        · rename_i e he
          cases h2
          exact noBare_prepareRecipeM _ _ _ _ _ he
        · cases h2
  · cases h

/-! ### `EinMix` -/

theorem makeRearrangeM_said {so : Nat → SetOrder} {p : Str} {kw : List (Str × Size)} {f : Told MixMessage}
    (h : (makeRearrangeM so (some (p, kw)) : PyMix (Option (Layer α))) = .error f) (he : f.kind MixMessage.kind = .einops) :
    ∃ m, f = .said (.layer m) ∧ (rearrangeLayerM so p kw : PyLayer (Layer α)) = .error (.said m) := by
  unfold makeRearrangeM at h
  simp only at h
  split at h
  · rename_i m hm
    cases h
    exact ⟨m, rfl, hm⟩
  · rename_i e hm
    cases h
    cases he
    exact absurd hm layerM_other
  · cases h

theorem makePreM_says {so : Nat → SetOrder} {pattern l r : Str} {GL GR GW : List Elem} (hpat : pattern = l ++ ['-', '>'] ++ r)
    (hl : IsSide false false l GL) (hc : ChecksOK GL GR GW) (weightShape : Str) (bias : Option Str) {kw : List (Str × Size)}
    (hd : dots ∉ kw.map Prod.fst) {f : Told MixMessage}
    (h : (makeRearrangeM so (preReshape l (describe 0 GL) kw) : PyMix (Option (Layer α))) = .error f) :
    ∃ m, f = .said m ∧ m.SaysOf pattern weightShape bias kw GL GR GW := by
  have hun := untold_makeRearrangeM (α := α) so (preReshape l (describe 0 GL) kw)
  rw [h] at hun
  have hkind : f.kind MixMessage.kind = .einops := by
    rcases makePre_cases (α := α) so hl hc kw with ⟨pre, h1, -⟩ | ⟨h1, -⟩
    · rw [h1] at hun
      cases hun
    · rw [h1] at hun
      simpa [untold] using hun
  unfold preReshape at h
  rw [show (describe 0 GL).composition = GL.map unitComp from denote_unitComp hc.units_left] at h
  by_cases hs : hasNonSingle (GL.map unitComp) = true
  swap
  · rw [if_neg hs] at h
    cases h
  rw [if_pos hs] at h
  simp only [flatNames_units (side_no_ell hl)] at h
  obtain ⟨m, rfl, hm⟩ := makeRearrangeM_said h hkind
  refine ⟨_, rfl, planRules_of hc, ?_⟩
  have hgr := isSide_flat_left hl
  have hsp : splitArrow (l ++ ['-', '>', ' '] ++ List.intercalate [' '] (axisWords GL)) =
      .ok (l, ' ' :: List.intercalate [' '] (axisWords GL)) :=
    splitArrow_iff.2 ⟨by simp [arrow], isSide_no_arrow hl, isSide_no_arrow hgr⟩
  have hell : '…' ∉ l ++ ['-', '>', ' '] ++ List.intercalate [' '] (axisWords GL) := by
    have h1 : '…' ∉ l := isSide_no_special hl (by simp)
    have h2 : '…' ∉ ' ' :: List.intercalate [' '] (axisWords GL) := isSide_no_special hgr (by simp)
    simp only [List.mem_append, List.mem_cons, not_or] at h2 ⊢
    exact ⟨⟨h1, by simp⟩, h2.2⟩
  have hs2 := sides_pre hc.ellipsis_left hc.units_left
  obtain ⟨h0, l', r', hsp', hcase⟩ := layerM_said hm
  rw [hsp] at hsp'
  cases hsp'
  rw [h0]
  refine ⟨rfl, ⟨l, r, hpat, hl, rfl⟩, rfl, ?_⟩
  dsimp only
  have hl0 := erase_parseExpressionM 0 false false l
  rw [(parseExpression_iff 0 false false l (isSide_no_special hl (by simp)) _).2 ⟨GL, hl, rfl⟩] at hl0
  rcases hcase with ⟨sm, hp, -⟩ | ⟨left, hp, before, d, after, hdims, -, herr⟩
  · rw [hp] at hl0
    cases hl0
  rw [hp] at hl0
  cases hl0
  obtain ⟨shape, rfl⟩ : ∃ shape : List Nat, shape.length = d := ⟨List.replicate d 1, by simp⟩
  have hrank : LayerRank GL shape.length := (layerDims_describe _).1 (by rw [hdims]; simp)
  have hsays := prepareRecipeM_saysOf hsp hell hl hgr herr
  have hsides : ∀ a, a ∈ sideAxes 0 GL ↔ a ∈ sideAxes 1 (flatSide GL) := by
    intro a
    rw [← mem_sideAxes, ← mem_sideAxes]
    cases a with
    | anon sd i v =>
      exact ⟨fun h => absurd h (anon_not_mem_ids hs2.units_left), fun h => absurd h (anon_not_mem_ids hs2.units_right)⟩
    | str v =>
      rw [str_mem_ids, str_mem_ids, dots_flat, mem_nameWords, mem_nameWords, sideWords_flat, mem_axisWords]
      tauto
  have habout : ¬ m.inner.AboutShape := (layerM_says hell hm).2.1
  cases hi : m.inner <;> rw [hi] at hsays habout
  case cannotInfer A =>
    obtain ⟨-, -, h2, -, ws, hws, hL⟩ := hsays
    refine ⟨A, ws, rfl, h2, hws, hL.1, hL.2.1, fun a => (hL.2.2 a).trans ?_⟩
    constructor
    · rintro ⟨w, hw, h3, h4, h5⟩
      refine ⟨w, hw, h3, fun h6 => h4 ?_, h5⟩
      exact mem_preKw_names.2 ⟨h6, mem_axisWords.2 ⟨List.mem_flatMap.2 ⟨_, hws, hw⟩, h3⟩⟩
    · rintro ⟨w, hw, h3, h4, h5⟩
      exact ⟨w, hw, h3, fun h6 => h4 (mem_preKw_names.1 h6).1, h5⟩
  case side => exact hsays.elim
  case ellipsisRight => exact absurd (hs2.ellipsis.1 hsays.2.1) hsays.2.2
  case ellipsisParen =>
    obtain ⟨-, ws, h1, h2⟩ := hsays
    exact absurd h2 (hs2.ellipsis.2 ws h1)
  case nonUnitary =>
    obtain ⟨-, -, w, h1, h2, h3⟩ := hsays
    rcases List.mem_append.1 h1 with h1 | h1
    · exact absurd (hs2.units_left w h1 h2) h3
    · exact absurd (hs2.units_right w h1 h2) h3
  case oneSide A =>
    obtain ⟨-, -, -, -, h1, -, h2⟩ := hsays
    obtain ⟨a, ha⟩ := List.exists_mem_of_ne_nil A h1
    rcases (h2 a).1 ha with ⟨h3, h4⟩ | ⟨h3, h4⟩
    · exact absurd ((hsides a).1 h3) h4
    · exact absurd ((hsides a).2 h3) h4
  case leftOfRepeat =>
    have := hsays.1
    simp [Reduction.kind] at this
  case withoutSize =>
    have := hsays.1
    simp [Reduction.kind] at this
  case rightOfReduce =>
    obtain ⟨-, h1, -⟩ := hsays
    rcases h1 with h1 | ⟨s, h1, h2⟩
    · cases h1
    · cases h2
      exact absurd h1 (by decide)
  case unknownReduction =>
    obtain ⟨-, -, s, h1, -, h2, -⟩ := hsays
    cases h1
    exact absurd rfl h2
  case invalidName n =>
    obtain ⟨-, -, ⟨before', after', h1, -⟩, h2⟩ := hsays
    have hn : n ∈ (preKw GL kw).map Prod.fst := by
      change n ∈ (kw.filter _).map Prod.fst
      rw [h1]
      simp
    obtain ⟨hn1, hn2⟩ := mem_preKw_names.1 hn
    obtain ⟨hn3, hn4⟩ := mem_axisWords.1 hn2
    rcases hl.words_ok n hn3 with rfl | ⟨h, -⟩ | h
    · exact absurd hn1 hd
    · exact absurd h hn4
    · exact absurd h h2.not_name
  case unused n =>
    obtain ⟨-, -, ⟨before', after', h1, -⟩, -, h2, -⟩ := hsays
    have hn : n ∈ (preKw GL kw).map Prod.fst := by
      change n ∈ (kw.filter _).map Prod.fst
      rw [h1]
      simp
    exact absurd (mem_axisWords.1 (mem_preKw_names.1 hn).2).1 h2
  all_goals exact absurd trivial habout

/-- **Messages of `EinMix` are true.** -/
theorem makeEinMixM_says {so : Nat → SetOrder} {po : SetOrder} {pattern weightShape : Str} (hp : '…' ∉ pattern)
    (hw : '…' ∉ weightShape) {bias : Option Str} (hb : ∀ s, bias = some s → '…' ∉ s) {kw : List (Str × Size)}
    (he : ellipsisStr ∉ kw.map Prod.fst) (hd : dots ∉ kw.map Prod.fst) {m : MixMessage}
    (h : (makeEinMixM so po pattern weightShape bias kw : PyMix (EinMix α)) = .error (.said m)) :
    m.Says pattern weightShape bias kw := by
  unfold makeEinMixM at h
  cases hplan : einmixPlanM po pattern weightShape kw with
  | error f =>
    rw [hplan] at h
    cases h
    unfold einmixPlanM at hplan
    cases hsp : splitArrow pattern with
    | error e => rw [hsp] at hplan; cases hplan
    | ok p =>
    obtain ⟨l, r⟩ := p
    rw [hsp] at hplan
    have hall := splitArrow_iff.1 hsp
    have hell' := hp
    rw [hall.1] at hell'
    simp only [List.mem_append, not_or] at hell'
    simp only at hplan
    cases hpl : parseExpressionM 0 false false l with
    | error e =>
      rw [hpl] at hplan
      cases hplan
      exact .inl ⟨l, r, hall.1, hall.2.1, hall.2.2, .inl (parseExpressionM_says hpl)⟩
    | ok pl =>
    have hl := erase_parseExpressionM 0 false false l
    rw [hpl] at hplan hl
    obtain ⟨GL, hGL, rfl⟩ := (parseExpression_iff 0 false false l hell'.1.1 _).1 hl.symm
    simp only [tellingSide] at hplan
    cases hpr : parseExpressionM 1 false false r with
    | error e =>
      rw [hpr] at hplan
      cases hplan
      exact .inl ⟨l, r, hall.1, hall.2.1, hall.2.2, .inr ⟨⟨GL, hGL⟩, parseExpressionM_says hpr⟩⟩
    | ok pr =>
    have hr := erase_parseExpressionM 1 false false r
    rw [hpr] at hplan hr
    obtain ⟨GR, hGR, rfl⟩ := (parseExpression_iff 1 false false r hell'.2 _).1 hr.symm
    simp only at hplan
    have hpat : IsPattern pattern GL GR := ⟨l, r, hall.1, hGL, hGR⟩
    cases hpw : parseExpressionM 2 false false weightShape with
    | error e =>
      rw [hpw] at hplan
      cases hplan
      exact .inr (.inl ⟨⟨GL, GR, hpat⟩, parseExpressionM_says hpw⟩)
    | ok pw =>
    have hw0 := erase_parseExpressionM 2 false false weightShape
    rw [hpw] at hplan hw0
    obtain ⟨GW, hGW, rfl⟩ := (parseExpression_iff 2 false false weightShape hw _).1 hw0.symm
    simp only at hplan
    split at hplan
    · rename_i f hf
      cases hplan
      obtain ⟨m', h1, h2⟩ := einmixChecksM_says hGL hGR hGW bias kw hf
      cases h1
      cases m <;> first | exact h2.elim | exact ⟨GL, GR, GW, hpat, hGW, h2⟩
    · cases hplan
  | ok p =>
    rw [hplan] at h
    have hun := untold_einmixPlanM po pattern weightShape kw
    rw [hplan] at hun
    cases hsp : splitArrow pattern with
    | error e =>
      unfold einmixPlanM at hplan
      rw [hsp] at hplan
      cases hplan
    | ok lr =>
    obtain ⟨l, r⟩ := lr
    rcases einmixPlan_cases hp hw hsp kw with ⟨GL, GR, GW, hGL, hGR, hGW, hc, h1⟩ | ⟨-, h1⟩
    swap
    · rw [h1] at hun
      cases hun
    rw [h1] at hun
    cases hun
    have hpat : IsPattern pattern GL GR := ⟨l, r, (splitArrow_iff.1 hsp).1, hGL, hGR⟩
    have fin : ∀ m' : MixMessage, m'.SaysOf pattern weightShape bias kw GL GR GW → m'.Says pattern weightShape bias kw := by
      intro m' h2
      cases m' <;> first | exact h2.elim | exact ⟨GL, GR, GW, hpat, hGW, h2⟩
    simp only at h
    split at h
    · rename_i f hf
      cases h
      obtain ⟨m', h2, h3⟩ := makePreM_says (splitArrow_iff.1 hsp).1 hGL hc weightShape bias hd hf
      cases h2
      exact fin _ h3
    rename_i pre hpre
    split at h
    · rename_i f hf
      obtain ⟨post, h2, -⟩ := makePost_ok (α := α) so hGR hc.units_right
      rw [← untold_makeRearrangeM, hf] at h2
      cases h2
    rename_i post hpost
    have hunk : Unknowns GL (kw.map Prod.fst) := by
      rcases makePre_cases (α := α) so hGL hc kw with ⟨-, -, -, h2⟩ | ⟨h2, -⟩
      · exact h2
      · rw [← untold_makeRearrangeM, hpre] at h2
        cases h2
    split at h
    · rename_i f hf
      cases h
      obtain ⟨m', h2, h3⟩ := einmixSizesM_says (pattern := pattern) hGW hc bias he hf
      cases h2
      exact fin _ h3
    rename_i hsz
    have hsizes : SizesOK GL GR GW (kw.map Prod.fst) := by
      rcases einmixSizes_cases hGW hc he with ⟨h2, -⟩ | ⟨-, h2⟩
      · exact h2
      · rw [← untold_einmixSizesM po, hsz] at h2
        cases h2
    have hsides : EinmixSides GL GR GW (kw.map Prod.fst) := einmixSides_iff.2 ⟨hc, hunk, hsizes⟩
    have hnu : NoUnits GW ∨ ∃ e, einmixWeight (describe 1 GR) (describe 2 GW) kw = .error e := by
      by_cases hn : NoUnits GW
      · exact .inl hn
      · exact .inr ⟨_, einmixWeight_units hc.units_weight hc.weight_flat hn _ _⟩
    split at h
    · rename_i f hf
      cases h
      unfold telling at hf
      split at hf <;> cases hf
    rename_i w fan hwt
    have hn : NoUnits GW := by
      rcases hnu with h2 | ⟨e, h2⟩
      · exact h2
      · rw [h2] at hwt
        cases hwt
    split at h
    · rename_i f hf
      cases h
      cases bias with
      | none => cases hf
      | some s =>
      obtain ⟨m', h2, h3⟩ := einmixBiasM_says hGR hc.units_right he hd (hb s rfl) hf
      cases h2
      cases m with
      | side sm => exact .inr (.inr ⟨GL, GR, GW, s, hpat, hGW, hsides, hn, rfl, h3⟩)
      | biasNotOutput A =>
        obtain ⟨GB, h4⟩ := h3
        exact fin _ ⟨hsides, hn, s, GB, rfl, h4⟩
      | biasSizes A =>
        obtain ⟨GB, h4⟩ := h3
        exact fin _ ⟨hsides, hn, s, GB, rfl, h4⟩
      | biasAfterEllipsis =>
        obtain ⟨GB, h4⟩ := h3
        exact fin _ ⟨hsides, hn, s, GB, rfl, h4⟩
      | _ => exact h3.elim
    · split at h
      · cases h
      · split at h
        · rename_i f hf
          cases h
          unfold telling at hf
          split at hf <;> cases hf
        · split at h
          · rename_i f hf
            cases h
            unfold telling at hf
            split at hf <;> cases hf
          · cases h

omit [PyUnicode] in
theorem sizeOf_error {kw : List (Str × Size)} {a : Axis} {e : PyErr} (h : sizeOf kw a = .error e) : e = .key := by
  cases a with
  | anon => cases h; rfl
  | str s =>
    simp only [sizeOf] at h
    unfold dictGetE at h
    split at h
    · cases h
    · cases h; rfl

omit [PyUnicode] in
theorem einmixWeight_not_einops {right weight : ParsedExpression} {kw : List (Str × Size)} :
    einmixWeight right weight kw ≠ .error .einops := by
  intro h
  unfold einmixWeight at h
  split at h
  · rename_i e he
    cases h
    obtain ⟨c, -, hc⟩ := mapE_error_mem he
    unfold soleAxis at hc
    split at hc <;> cases hc
  · split at h
    · rename_i e he
      cases h
      obtain ⟨c, -, hc⟩ := mapE_error_mem he
      exact absurd (sizeOf_error hc) (by decide)
    · split at h
      · rename_i e he
        cases h
        obtain ⟨c, -, hc⟩ := mapE_error_mem he
        exact absurd (sizeOf_error hc) (by decide)
      · cases h

omit [PyUnicode] in
theorem einmixEinsum_not_einops {left right weight : ParsedExpression} : einmixEinsum left right weight ≠ .error .einops := by
  intro h
  unfold einmixEinsum at h
  simp only at h
  split at h
  · rename_i e he
    cases h
    exact absurd (writeFlat_key he) (by decide)
  · split at h
    · rename_i e he
      cases h
      exact absurd (writeFlat_key he) (by decide)
    · split at h
      · rename_i e he
        cases h
        exact absurd (writeFlat_key he) (by decide)
      · cases h

omit [PyUnicode] in
theorem telling_other {M : Type} {β : Type u} {x : Py β} {e : PyErr} (h : (telling x : Except (Told M) β) = .error (.other e)) :
    x = .error e := by
  cases x with
  | ok a => cases h
  | error e' => cases h; rfl

theorem tellingSide_other {M : Type} {β : Type u} {f : SideMessage → M} {x : PySide β} {e : PyErr} :
    (tellingSide f x : Except (Told M) β) ≠ .error (.other e) := by
  intro h
  cases x <;> cases h

/-- an `EinopsError` raised by the constructor of `EinMix` has one of the messages -/
theorem makeEinMixM_other {so : Nat → SetOrder} {po : SetOrder} {pattern weightShape : Str} {bias : Option Str}
    {kw : List (Str × Size)} : (makeEinMixM so po pattern weightShape bias kw : PyMix (EinMix α)) ≠ .error (.other .einops) := by
  intro h
  have hrep : ∀ {β : Type} {l : List Axis} {m : List Axis → MixMessage} {rest : PyMix β},
      reportAxes po l m rest = .error (.other .einops) → rest = .error (.other .einops) := by
    intro β l m rest h
    rcases reportAxes_error h with ⟨-, h1⟩ | ⟨-, h1⟩
    · cases h1
    · exact h1
  have hmk : ∀ o, (makeRearrangeM so o : PyMix (Option (Layer α))) ≠ .error (.other .einops) := by
    intro o h
    rcases o with _ | ⟨p, kw⟩
    · cases h
    · obtain ⟨m, h1, -⟩ := makeRearrangeM_said h rfl
      cases h1
  unfold makeEinMixM at h
  split at h
  · rename_i f hf
    cases h
    unfold einmixPlanM at hf
    split at hf
    · rename_i e he
      cases hf
      exact absurd (splitArrow_err he) (by decide)
    · split at hf
      · rename_i e he
        cases hf
        exact tellingSide_other he
      · split at hf
        · rename_i e he
          cases hf
          exact tellingSide_other he
        · split at hf
          · rename_i e he
            cases hf
            exact tellingSide_other he
          · split at hf
            · rename_i e he
              cases hf
              unfold einmixChecksM at he
              have h1 := hrep he
              repeat' split at h1
              all_goals cases h1
            · cases hf
  · split at h
    · rename_i f hf
      cases h
      exact hmk _ hf
    · split at h
      · rename_i f hf
        cases h
        exact hmk _ hf
      · split at h
        · rename_i f hf
          cases h
          unfold einmixSizesM at hf
          split at hf
          · cases hf
          · cases hrep (hrep hf)
        · split at h
          · rename_i f hf
            cases h
            exact einmixWeight_not_einops (telling_other hf)
          · split at h
            · rename_i f hf
              cases h
              cases bias with
              | none => cases hf
              | some s =>
                simp only [einmixBiasM] at hf
                split at hf
                · rename_i e he
                  cases hf
                  exact tellingSide_other he
                · have h1 := hrep (hrep hf)
                  split at h1
                  · rename_i e he
                    cases h1
                    rcases biasLoopM_error he with h2 | h2 <;> cases h2
                  · cases h1
            · split at h
              · cases h
              · split at h
                · rename_i f hf
                  cases h
                  have h1 := telling_other hf
                  rcases createParameters_cases _ _ with ⟨-, -, h2⟩ | ⟨-, h2⟩
                  · rw [h2] at h1; cases h1
                  · rw [h2] at h1; cases h1
                · split at h
                  · rename_i f hf
                    cases h
                    exact einmixEinsum_not_einops (telling_other hf)
                  · cases h

end

end Einops
