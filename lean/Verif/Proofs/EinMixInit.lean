import Verif.Proofs.EinMixLayers
import Mathlib.Algebra.BigOperators.Ring.List

/-!
# Parameters and einsum pattern of an `EinMix` layer
-/

namespace Einops

universe u

section
variable [PyUnicode]

/-! ### sizes -/

/-- the rules that `einmixSizes` enforces -/
structure SizesOK (GL GR GW : List Elem) (names : List Str) : Prop where
  weight_sized : ∀ w ∈ axisWords GW, w ∈ names
  sizes_used : ∀ n ∈ names, n ∈ nameWords GL ∨ n ∈ nameWords GW
  weight_used : ∀ w ∈ axisWords GW, w ∈ sideWords GL ∨ w ∈ sideWords GR

theorem ids_units {side : Nat} {G : List Elem} (hu : OnlyUnits G) (hd : dots ∉ sideWords G) {a : Axis} :
    a ∈ (describe side G).identifiers ↔ ∃ s ∈ axisWords G, a = .str s := by
  cases a with
  | anon sd i v =>
    constructor
    · intro h; exact absurd h (anon_not_mem_ids hu)
    · rintro ⟨s, -, h⟩; cases h
  | str s =>
    rw [str_mem_ids]
    constructor
    · rintro (⟨h, -⟩ | h)
      · exact absurd h hd
      · obtain ⟨h1, h2, -⟩ := mem_nameWords.1 h
        exact ⟨s, mem_axisWords.2 ⟨h1, h2⟩, rfl⟩
    · rintro ⟨s', hs, h⟩
      cases h
      obtain ⟨h1, h2⟩ := mem_axisWords.1 hs
      exact .inr (mem_nameWords.2 ⟨h1, h2, fun h => hd (h ▸ h1)⟩)

theorem str_mem_ids_of {side : Nat} {G : List Elem} {s : Str} (hd : s ≠ dots) (he : s ≠ ellipsisStr) (hn : ¬ IsNumber s) :
    Axis.str s ∈ (describe side G).identifiers ↔ s ∈ sideWords G := by
  rw [str_mem_ids, mem_nameWords]
  constructor
  · rintro (⟨-, h⟩ | ⟨h, -⟩)
    · exact absurd h he
    · exact h
  · intro h; exact .inr ⟨h, hn, hd⟩

theorem ne_ell {u d : Bool} {s : Str} {G : List Elem} (h : IsSide u d s G) {w : Str} (hw : w ∈ sideWords G) :
    w ≠ ellipsisStr := by
  rintro rfl
  exact side_no_ell h _ hw (by simp [ellipsisStr])

theorem einmixSizes_cases {GL GR GW : List Elem} {w : Str} (hw : IsSide false false w GW) (hc : ChecksOK GL GR GW)
    {kw : List (Str × Size)} (he : ellipsisStr ∉ kw.map Prod.fst) :
    (SizesOK GL GR GW (kw.map Prod.fst) ∧ einmixSizes (describe 0 GL) (describe 1 GR) (describe 2 GW) kw = .ok ()) ∨
    (¬ SizesOK GL GR GW (kw.map Prod.fst) ∧
      einmixSizes (describe 0 GL) (describe 1 GR) (describe 2 GW) kw = .error .einops) := by
  have hW : ∀ {a}, a ∈ (describe 2 GW).identifiers ↔ ∃ s ∈ axisWords GW, a = .str s :=
    ids_units hc.units_weight hc.weight_fixed
  have hne : ∀ s ∈ axisWords GW, s ≠ dots ∧ s ≠ ellipsisStr ∧ ¬ IsNumber s := by
    intro s hs
    obtain ⟨h1, h2⟩ := mem_axisWords.1 hs
    exact ⟨fun h => hc.weight_fixed (h ▸ h1), ne_ell hw h1, h2⟩
  unfold einmixSizes
  by_cases h1 : (describe 2 GW).identifiers.any (fun a => !hasSize kw a) = true
  · right
    rw [if_pos h1]
    refine ⟨fun h => ?_, rfl⟩
    obtain ⟨a, ha, hn⟩ := List.any_eq_true.1 h1
    obtain ⟨s, hs, rfl⟩ := hW.1 ha
    have := h.weight_sized s hs
    simp only [hasSize, this, decide_true, Bool.not_true] at hn
    cases hn
  rw [if_neg h1]
  by_cases h2 : (kw.map Prod.fst).any
      (fun n => decide (Axis.str n ∉ (describe 0 GL).identifiers ++ (describe 2 GW).identifiers)) = true
  · right
    rw [if_pos h2]
    refine ⟨fun h => ?_, rfl⟩
    obtain ⟨n, hn, ha⟩ := List.any_eq_true.1 h2
    rw [decide_eq_true_eq, List.mem_append, not_or] at ha
    rcases h.sizes_used n hn with h' | h'
    · exact ha.1 (str_mem_ids.2 (.inr h'))
    · exact ha.2 (str_mem_ids.2 (.inr h'))
  rw [if_neg h2]
  by_cases h3 : (describe 2 GW).identifiers.any
      (fun a => decide (a ∉ (describe 0 GL).identifiers ++ (describe 1 GR).identifiers)) = true
  · right
    rw [if_pos h3]
    refine ⟨fun h => ?_, rfl⟩
    obtain ⟨a, ha, hn⟩ := List.any_eq_true.1 h3
    obtain ⟨s, hs, rfl⟩ := hW.1 ha
    obtain ⟨e1, e2, e3⟩ := hne s hs
    rw [decide_eq_true_eq, List.mem_append, not_or, str_mem_ids_of e1 e2 e3, str_mem_ids_of e1 e2 e3] at hn
    rcases h.weight_used s hs with h | h
    · exact hn.1 h
    · exact hn.2 h
  rw [if_neg h3]
  left
  refine ⟨⟨?_, ?_, ?_⟩, rfl⟩
  · intro s hs
    by_contra hcon
    apply h1
    rw [List.any_eq_true]
    refine ⟨.str s, hW.2 ⟨s, hs, rfl⟩, ?_⟩
    simp only [hasSize, hcon, decide_false, Bool.not_false]
  · intro n hn
    by_contra hcon
    rw [not_or] at hcon
    apply h2
    rw [List.any_eq_true]
    refine ⟨n, hn, ?_⟩
    rw [decide_eq_true_eq, List.mem_append, not_or, str_mem_ids, str_mem_ids]
    have : n ≠ ellipsisStr := fun h => he (h ▸ hn)
    simp [this, hcon.1, hcon.2]
  · intro s hs
    obtain ⟨e1, e2, e3⟩ := hne s hs
    by_contra hcon
    rw [not_or] at hcon
    apply h3
    rw [List.any_eq_true]
    refine ⟨.str s, hW.2 ⟨s, hs, rfl⟩, ?_⟩
    rw [decide_eq_true_eq, List.mem_append, not_or, str_mem_ids_of e1 e2 e3, str_mem_ids_of e1 e2 e3]
    exact hcon

/-! ### weight -/

omit [PyUnicode] in
theorem flat_side {G : List Elem} (h : ∀ ws, Elem.paren ws ∉ G) : G = (sideWords G).map Elem.bare := by
  induction G with
  | nil => rfl
  | cons e G ih =>
    cases e with
    | paren ws => exact absurd List.mem_cons_self (h ws)
    | bare w =>
      have := ih (fun ws hws => h ws (List.mem_cons_of_mem _ hws))
      unfold sideWords at *
      rw [List.flatMap_cons, List.map_append, ← this]
      rfl

theorem einmixWeight_units {GW : List Elem} (hu : OnlyUnits GW) (hf : ∀ ws, Elem.paren ws ∉ GW)
    (hn : ¬ NoUnits GW) (right : ParsedExpression) (kw : List (Str × Size)) :
    einmixWeight right (describe 2 GW) kw = .error .value := by
  have : mapE soleAxis (describe 2 GW).composition = .error .value := by
    rw [show (describe 2 GW).composition = GW.map unitComp from denote_unitComp hu, flat_side hf, List.map_map, mapE_map]
    refine mapE_error (fun w _ => ?_) ?_
    · simp only [Function.comp, soleAxis, unitComp_axes, Elem.words, List.flatMap_cons, List.flatMap_nil, List.append_nil,
        unitAxes]
      by_cases hd : w = dots
      · rw [if_pos hd]; exact .inr ⟨_, rfl⟩
      · rw [if_neg hd]
        by_cases hn : IsNumber w
        · rw [if_pos hn]; exact .inl rfl
        · rw [if_neg hn]; exact .inr ⟨_, rfl⟩
    · unfold NoUnits at hn
      push Not at hn
      obtain ⟨w, hw, hn⟩ := hn
      refine ⟨w, hw, ?_⟩
      simp only [Function.comp, soleAxis, unitComp_axes, Elem.words, List.flatMap_cons, List.flatMap_nil, List.append_nil,
        unitAxes]
      rw [if_neg (number_ne_dots hn), if_pos hn]
  unfold einmixWeight
  rw [this]

/-- the given size of an axis; 0 if there is none -/
def sizeFor (kw : List (Str × Size)) (w : Str) : Size := (dictGet kw w).getD ⟨0, true⟩

omit [PyUnicode] in
theorem sizeOf_str {kw : List (Str × Size)} {w : Str} (h : w ∈ kw.map Prod.fst) : sizeOf kw (.str w) = .ok (sizeFor kw w) := by
  unfold sizeOf dictGetE sizeFor
  have := dictGet_isSome.2 h
  cases hg : dictGet kw w with
  | none => rw [hg] at this; cases this
  | some v => simp only [hg, Option.getD_some]

omit [PyUnicode] in
theorem sizeFor_mem {kw : List (Str × Size)} (hk : (kw.map Prod.fst).Nodup) {w : Str} {s : Size} (h : (w, s) ∈ kw) :
    sizeFor kw w = s := by
  unfold sizeFor
  rw [dictGet_of_mem hk h]
  rfl

omit [PyUnicode] in
theorem mem_sizeFor {kw : List (Str × Size)} {w : Str} (h : w ∈ kw.map Prod.fst) : (w, sizeFor kw w) ∈ kw := by
  unfold sizeFor
  have := dictGet_isSome.2 h
  cases hg : dictGet kw w with
  | none => rw [hg] at this; cases this
  | some v => exact dictGet_mem hg

theorem einmixWeight_ok {GL GR GW : List Elem} {w : Str} (hw : IsSide false false w GW) (hc : ChecksOK GL GR GW)
    {kw : List (Str × Size)} (hk : (kw.map Prod.fst).Nodup) (hs : SizesOK GL GR GW (kw.map Prod.fst)) (hn : NoUnits GW) :
    ∃ fan, einmixWeight (describe 1 GR) (describe 2 GW) kw = .ok ((sideWords GW).map (sizeFor kw), fan) ∧
      (fan.val ≠ 0 ↔ FanInOK GR GW kw) ∧
      fan.val = (((sideWords GW).filter (fun v => decide (v ∉ sideWords GR))).map (fun v => (sizeFor kw v).val)).prod := by
  have hd : ∀ v ∈ sideWords GW, v ≠ dots := fun v hv h => hc.weight_fixed (h ▸ hv)
  have h1 : mapE soleAxis (describe 2 GW).composition = .ok ((sideWords GW).map Axis.str) := by
    rw [show (describe 2 GW).composition = GW.map unitComp from denote_unitComp hc.units_weight]
    conv_lhs => rw [flat_side hc.weight_flat]
    rw [List.map_map, mapE_map]
    refine mapE_eq_ok_map (fun v hv => ?_)
    simp only [Function.comp, soleAxis, unitComp_axes, Elem.words, List.flatMap_cons, List.flatMap_nil, List.append_nil,
      unitAxes]
    rw [if_neg (hd v hv), if_neg (hn v hv)]
  have hin : ∀ v ∈ sideWords GW, v ∈ kw.map Prod.fst := fun v hv => hs.weight_sized v (mem_axisWords.2 ⟨hv, hn v hv⟩)
  have h2 : mapE (sizeOf kw) ((sideWords GW).map Axis.str) = .ok ((sideWords GW).map (sizeFor kw)) := by
    rw [mapE_map]
    exact mapE_eq_ok_map (fun v hv => sizeOf_str (hin v hv))
  have h3 : ((sideWords GW).map Axis.str).filter (fun a => decide (a ∉ (describe 1 GR).identifiers)) =
      ((sideWords GW).filter (fun v => decide (v ∉ sideWords GR))).map Axis.str := by
    rw [List.filter_map]
    congr 1
    apply List.filter_congr
    intro v hv
    simp only [Function.comp]
    rw [decide_eq_decide, str_mem_ids_of (hd v hv) (ne_ell hw hv) (hn v hv)]
  have h4 : mapE (sizeOf kw) (((sideWords GW).filter (fun v => decide (v ∉ sideWords GR))).map Axis.str) =
      .ok (((sideWords GW).filter (fun v => decide (v ∉ sideWords GR))).map (sizeFor kw)) := by
    rw [mapE_map]
    exact mapE_eq_ok_map (fun v hv => sizeOf_str (hin v (List.mem_filter.1 hv).1))
  refine ⟨_, by unfold einmixWeight; rw [h1]; simp only; rw [h2]; simp only; rw [h3, h4], ?_, by
    rw [sizeProd_eq]; simp only; rw [List.map_map]; rfl⟩
  rw [sizeProd_eq]
  simp only
  rw [Ne, List.prod_eq_zero_iff]
  simp only [List.map_map, List.mem_map, List.mem_filter, decide_eq_true_eq, Function.comp, not_exists, not_and]
  constructor
  · intro h v s hv hr hm
    have := h v ⟨hv, hr⟩
    rwa [sizeFor_mem hk hm] at this
  · rintro h v ⟨hv, hr⟩
    exact h v _ hv hr (mem_sizeFor (hin v hv))

/-! ### bias -/

/-- the rule about the ellipsis, in terms of the words read so far -/
def AfterOK (B : List Str) (used : Bool) (ws : List Str) : Prop :=
  ∀ p q, ws = p ++ dots :: q → used = false ∧ ∀ w ∈ p, w ∉ B

/-- the size of a dimension of the bias -/
def biasSize (B : List Str) (kw : List (Str × Size)) (w : Str) : Size := if w ∈ B then sizeFor kw w else ⟨1, true⟩

omit [PyUnicode] in
theorem biasLoop_cases {bias : List Axis} {B ws : List Str} {kw : List (Str × Size)} (hB : dots ∉ B)
    (hbias : ∀ w ∈ ws, w ≠ dots → (Axis.str w ∈ bias ↔ w ∈ B)) (hell : ∀ w ∈ ws, w ≠ ellipsisStr)
    (hkw : ∀ w ∈ B, w ∈ kw.map Prod.fst) (acc : List Size) (used : Bool) :
    (AfterOK B used ws ∧ ∃ u, biasLoop bias kw (acc, used) (ws.map markAxis) =
      .ok (acc ++ (ws.filter (fun w => decide (w ≠ dots))).map (biasSize B kw), u)) ∨
    (¬ AfterOK B used ws ∧ biasLoop bias kw (acc, used) (ws.map markAxis) = .error .einops) := by
  induction ws generalizing acc used with
  | nil =>
    left
    exact ⟨by intro p q h; simp at h, used, by simp [biasLoop]⟩
  | cons w ws ih =>
    have ih' := ih (fun v hv => hbias v (by simp [hv])) (fun v hv => hell v (by simp [hv]))
    rw [List.map_cons, biasLoop]
    unfold biasStep
    by_cases hd : w = dots
    · rw [if_pos (show markAxis w = .str ellipsisStr by simp [markAxis, hd])]
      cases used with
      | true =>
        right
        refine ⟨fun h => ?_, rfl⟩
        have := (h [] ws (by simp [hd])).1
        cases this
      | false =>
        have e : AfterOK B false (w :: ws) ↔ AfterOK B false ws := by
          constructor
          · intro h p q hpq
            refine ⟨rfl, fun v hv => (h (w :: p) q (by simp [hpq])).2 v (by simp [hv])⟩
          · intro h p q hpq
            refine ⟨rfl, fun v hv => ?_⟩
            cases p with
            | nil => cases hv
            | cons a p =>
              simp only [List.cons_append, List.cons.injEq] at hpq
              rcases List.mem_cons.1 hv with rfl | hv
              · rw [← hpq.1, hd]; exact hB
              · exact (h p q hpq.2).2 v hv
        rw [e, List.filter_cons_of_neg (by simp [hd])]
        exact ih' acc false
    · have hm : markAxis w = .str w := by simp [markAxis, hd]
      rw [if_neg (by rw [hm]; simpa using hell w (by simp)), List.filter_cons_of_pos (by simp [hd]), hm]
      by_cases hb : w ∈ B
      · rw [if_pos ((hbias w (by simp) hd).2 hb), sizeOf_str (hkw w hb)]
        have e : AfterOK B used (w :: ws) ↔ AfterOK B true ws := by
          constructor
          · intro h p q hpq
            exact absurd hb ((h (w :: p) q (by simp [hpq])).2 w (by simp))
          · intro h p q hpq
            cases p with
            | nil => simp only [List.nil_append, List.cons.injEq] at hpq; exact absurd hpq.1 hd
            | cons a p =>
              simp only [List.cons_append, List.cons.injEq] at hpq
              have := (h p q hpq.2).1
              cases this
        rw [e]
        have := ih' (acc ++ [sizeFor kw w]) true
        simpa [biasSize, hb] using this
      · rw [if_neg (fun h => hb ((hbias w (by simp) hd).1 h))]
        have e : AfterOK B used (w :: ws) ↔ AfterOK B used ws := by
          constructor
          · intro h p q hpq
            obtain ⟨h1, h2⟩ := h (w :: p) q (by simp [hpq])
            exact ⟨h1, fun v hv => h2 v (by simp [hv])⟩
          · intro h p q hpq
            cases p with
            | nil => simp only [List.nil_append, List.cons.injEq] at hpq; exact absurd hpq.1 hd
            | cons a p =>
              simp only [List.cons_append, List.cons.injEq] at hpq
              obtain ⟨h1, h2⟩ := h p q hpq.2
              refine ⟨h1, fun v hv => ?_⟩
              rcases List.mem_cons.1 hv with rfl | hv
              · rw [← hpq.1]; exact hb
              · exact h2 v hv
        rw [e]
        have := ih' (acc ++ [⟨1, true⟩]) used
        simpa [biasSize, hb] using this

theorem afterOK_iff {GR : List Elem} {B : List Str} (hB : ∀ w ∈ B, ¬ IsNumber w) :
    AfterOK B false (axisWords GR) ↔ ∀ p q, sideWords GR = p ++ dots :: q → ∀ w ∈ B, w ∉ p := by
  constructor
  · intro h p q hpq w hw hp
    have : axisWords GR = p.filter (fun w => decide (¬ IsNumber w)) ++ dots :: q.filter (fun w => decide (¬ IsNumber w)) := by
      unfold axisWords
      rw [hpq, List.filter_append, List.filter_cons_of_pos (by simp [dots_not_number])]
    exact (h _ _ this).2 w (List.mem_filter.2 ⟨hp, by simp [hB w hw]⟩) hw
  · intro h p q hpq
    refine ⟨rfl, fun w hw hB' => ?_⟩
    unfold axisWords at hpq
    obtain ⟨a, b, hab, ha, hb⟩ := List.filter_eq_append_iff.1 hpq
    obtain ⟨c, d, hcd, hc, -, -⟩ := List.filter_eq_cons_iff.1 hb
    refine h (a ++ c) d (by rw [hab, hcd, List.append_assoc]) w hB' (List.mem_append_left _ ?_)
    rw [← ha] at hw
    exact (List.mem_filter.1 hw).1

/-- the shape of the bias before it is created -/
def biasSizes (GR : List Elem) (kw : List (Str × Size)) (GB : List Elem) : List Size :=
  (nameWords GR).map (biasSize (sideWords GB) kw)

theorem einmixBias_cases {GR : List Elem} {r : Str} (hr : IsSide false false r GR) (hu : OnlyUnits GR)
    {kw : List (Str × Size)} (he : ellipsisStr ∉ kw.map Prod.fst) (hd : dots ∉ kw.map Prod.fst) {s : Str} (hs : '…' ∉ s) :
    (∃ GB, IsSide false false s GB ∧ BiasOK GR GB (kw.map Prod.fst) ∧
      einmixBias (describe 1 GR) kw (some s) = .ok (some (biasSizes GR kw GB))) ∨
    ((¬ ∃ GB, IsSide false false s GB ∧ BiasOK GR GB (kw.map Prod.fst)) ∧
      einmixBias (describe 1 GR) kw (some s) = .error .einops) := by
  unfold einmixBias
  simp only
  cases hp : parseExpression 3 false false s with
  | error e =>
    right
    rw [parseExpression_err _ _ _ hp]
    refine ⟨?_, rfl⟩
    rintro ⟨GB, h, -⟩
    rw [(parseExpression_iff _ _ _ s hs _).2 ⟨GB, h, rfl⟩] at hp
    cases hp
  | ok pe =>
    simp only
    obtain ⟨GB, hGB, rfl⟩ := (parseExpression_iff _ _ _ s hs _).1 hp
    have huniq : ∀ GB', IsSide false false s GB' → GB' = GB := by
      intro GB' h'
      exact IsSide.unique h' hGB
    have hno : ∀ {P : Prop}, (BiasOK GR GB (kw.map Prod.fst) → False) →
        ¬ ∃ GB, IsSide false false s GB ∧ BiasOK GR GB (kw.map Prod.fst) := by
      rintro P h ⟨GB', h1, h2⟩
      rw [huniq GB' h1] at h2
      exact h h2
    by_cases h1 : (describe 3 GB).identifiers.any (fun a => decide (a ∉ (describe 1 GR).identifiers)) = true
    · right
      rw [if_pos h1]
      refine ⟨hno (P := True) (fun hb => ?_), rfl⟩
      obtain ⟨a, ha, hn⟩ := List.any_eq_true.1 h1
      rw [decide_eq_true_eq] at hn
      cases a with
      | anon sd i v => exact anon_not_mem_ids hb.units ha
      | str w =>
        rw [str_mem_ids] at ha hn
        rcases ha with ⟨hd', rfl⟩ | hw
        · exact hn (.inl ⟨hb.in_output dots (mem_axisWords.2 ⟨hd', dots_not_number⟩), rfl⟩)
        · obtain ⟨w1, w2, w3⟩ := mem_nameWords.1 hw
          exact hn (.inr (mem_nameWords.2 ⟨hb.in_output w (mem_axisWords.2 ⟨w1, w2⟩), w2, w3⟩))
    rw [if_neg h1]
    have hsub : ∀ a ∈ (describe 3 GB).identifiers, a ∈ (describe 1 GR).identifiers := by
      intro a ha
      by_contra hcon
      exact h1 (List.any_eq_true.2 ⟨a, ha, by simpa using hcon⟩)
    have hunits : OnlyUnits GB := by
      by_contra hcon
      unfold OnlyUnits at hcon
      push Not at hcon
      obtain ⟨w, hw, hnum, hval⟩ := hcon
      obtain ⟨i, hi, rfl⟩ := List.mem_iff_getElem.1 hw
      have := hsub _ (mem_ids.2 (mem_wordsAxes.2 ⟨i, hi, anon_mem_wordAxes.2 ⟨rfl, rfl, hnum, hval, rfl⟩⟩))
      exact absurd (anon_mem_ids this).1 (by decide)
    by_cases h2 : (describe 3 GB).identifiers.any (fun a => !hasSize kw a) = true
    · right
      rw [if_pos h2]
      refine ⟨hno (P := True) (fun hb => ?_), rfl⟩
      obtain ⟨a, ha, hn⟩ := List.any_eq_true.1 h2
      cases a with
      | anon sd i v => exact anon_not_mem_ids hb.units ha
      | str w =>
        rw [str_mem_ids] at ha
        rcases ha with ⟨hd', rfl⟩ | hw
        · exact hd (hb.sized dots (mem_axisWords.2 ⟨hd', dots_not_number⟩))
        · obtain ⟨w1, w2, w3⟩ := mem_nameWords.1 hw
          have := hb.sized w (mem_axisWords.2 ⟨w1, w2⟩)
          simp only [hasSize, this, decide_true, Bool.not_true] at hn
          cases hn
    rw [if_neg h2]
    have hsz : ∀ a ∈ (describe 3 GB).identifiers, ∃ w, a = .str w ∧ w ∈ kw.map Prod.fst := by
      intro a ha
      by_contra hcon
      refine h2 (List.any_eq_true.2 ⟨a, ha, ?_⟩)
      cases a with
      | anon => rfl
      | str w =>
        have : w ∉ kw.map Prod.fst := fun h => hcon ⟨w, rfl, h⟩
        simp only [hasSize, this, decide_false, Bool.not_false]
    have hnd : dots ∉ sideWords GB := by
      intro h
      obtain ⟨w, hw, hw'⟩ := hsz (.str ellipsisStr) (str_mem_ids.2 (.inl ⟨h, rfl⟩))
      cases hw
      exact he hw'
    have hB : ∀ w, w ∈ axisWords GB ↔ w ∈ sideWords GB ∧ ¬ IsNumber w := fun w => mem_axisWords
    have hcomp : (describe 1 GR).composition.flatMap CompAxis.axes = (axisWords GR).map markAxis := by
      rw [show (describe 1 GR).composition = GR.map unitComp from denote_unitComp hu, units_axes, flatMap_unitAxes]
      rfl
    rw [hcomp]
    have hdims : (axisWords GR).filter (fun w => decide (w ≠ dots)) = nameWords GR := rfl
    have hsize : (nameWords GR).map (biasSize (axisWords GB) kw) = biasSizes GR kw GB := by
      unfold biasSizes
      apply List.map_congr_left
      intro w hw
      obtain ⟨-, w2, -⟩ := mem_nameWords.1 hw
      unfold biasSize
      by_cases h : w ∈ sideWords GB
      · rw [if_pos h, if_pos (mem_axisWords.2 ⟨h, w2⟩)]
      · rw [if_neg h, if_neg (fun h' => h (mem_axisWords.1 h').1)]
    have hin : ∀ w ∈ axisWords GB, w ∈ kw.map Prod.fst := by
      intro w hw
      obtain ⟨w1, w2⟩ := mem_axisWords.1 hw
      obtain ⟨w', e, h⟩ := hsz (.str w) (str_mem_ids.2 (.inr (mem_nameWords.2 ⟨w1, w2, fun h => hnd (h ▸ w1)⟩)))
      cases e
      exact h
    rcases biasLoop_cases (bias := (describe 3 GB).identifiers) (B := axisWords GB) (ws := axisWords GR) (kw := kw)
      (fun h => hnd (mem_axisWords.1 h).1)
      (fun w hw hd' => by
        obtain ⟨w1, w2⟩ := mem_axisWords.1 hw
        rw [str_mem_ids_of hd' (ne_ell hr w1) w2, mem_axisWords]
        exact (and_iff_left w2).symm)
      (fun w hw => ne_ell hr (mem_axisWords.1 hw).1) hin [] false with ⟨ha, u, hl⟩ | ⟨ha, hl⟩
    · left
      rw [hl]
      refine ⟨GB, hGB, ⟨hunits, ?_, hin, ?_⟩, by rw [List.nil_append, hdims, hsize]⟩
      · intro w hw
        obtain ⟨w1, w2⟩ := mem_axisWords.1 hw
        have hwd : w ≠ dots := fun h => hnd (h ▸ w1)
        have := hsub (.str w) (str_mem_ids.2 (.inr (mem_nameWords.2 ⟨w1, w2, hwd⟩)))
        rwa [str_mem_ids_of hwd (ne_ell hGB w1) w2] at this
      · rw [afterOK_iff (fun w hw => (mem_axisWords.1 hw).2)] at ha
        exact ha
    · right
      rw [hl]
      refine ⟨hno (P := True) (fun hb => ha ?_), rfl⟩
      rw [afterOK_iff (fun w hw => (mem_axisWords.1 hw).2)]
      exact hb.after

end

end Einops
