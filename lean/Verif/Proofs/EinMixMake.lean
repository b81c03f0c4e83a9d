import Verif.Proofs.EinMixInit
import Verif.Proofs.GetBackend

/-!
# The einsum pattern of an `EinMix` layer, and the constructor as a whole
-/

namespace Einops

universe u

/-! ### letters -/

theorem lower_prefix {i : Nat} (h : i < 26) : asciiLowercase[i]? = some (asciiLetters.getD i 'a') := by
  have : ∀ i < 26, asciiLowercase[i]? = some (asciiLetters.getD i 'a') := by decide
  exact this i h

theorem dictGet_zip_lower {L : List Char} (K : List Str) (w : Str) :
    dictGet (K.zip (L.map (fun c => [c]))) w = if w ∈ K then (L[K.idxOf w]?).map (fun c => [c]) else none := by
  induction K generalizing L with
  | nil => simp [dictGet]
  | cons k K ih =>
    cases L with
    | nil => simp [dictGet]
    | cons c L =>
      simp only [List.map_cons, List.zip_cons_cons, dictGet]
      by_cases h : k = w
      · subst h; simp
      · rw [if_neg h, ih]
        have h' : ¬ w = k := fun e => h e.symm
        by_cases hw : w ∈ K
        · rw [if_pos hw, if_pos (List.mem_cons_of_mem _ hw), List.idxOf_cons_ne _ h]
          simp
        · rw [if_neg hw, if_neg (by simp [h', hw])]

theorem letters_get {K : List Str} (he : ellipsisStr ∉ K) {w : Str} (hw : w ∈ K) :
    dictGetE (mapping2letters K) w = if K.idxOf w < 26 then .ok [letterOf K w] else .error .key := by
  have hne : w ≠ ellipsisStr := fun h => he (h ▸ hw)
  unfold dictGetE mapping2letters
  rw [dictGet_set_other _ _ hne, dictGet_zip_lower, if_pos hw]
  by_cases h : K.idxOf w < 26
  · rw [if_pos h, lower_prefix h]
    rfl
  · rw [if_neg h, List.getElem?_eq_none (show 26 ≤ _ from Nat.le_of_not_lt h)]
    rfl

theorem letters_ell (K : List Str) : dictGetE (mapping2letters K) ellipsisStr = .ok ['.', '.', '.'] := by
  unfold dictGetE mapping2letters
  rw [dictGet_set_same]

section
variable [PyUnicode]

/-- the symbol of a word -/
def symOf (w : Str) : ESym := if w = dots then .ell else .name w

/-- the symbols of a side -/
def sideSyms (G : List Elem) : List ESym := (axisWords G).map symOf

omit [PyUnicode] in
theorem writeSyms_append (f : Str → Char) (s t : List ESym) : writeSyms f (s ++ t) = writeSyms f s ++ writeSyms f t := by
  induction s with
  | nil => rfl
  | cons a s ih => cases a <;> simp [writeSyms, ih]

omit [PyUnicode] in
theorem dictGetE_key {m : List (Str × Str)} {k : Str} {e : PyErr} (h : dictGetE m k = .error e) : e = .key := by
  unfold dictGetE at h
  split at h
  · cases h
  · cases h; rfl

omit [PyUnicode] in
theorem writeGroup_key {m : List (Str × Str)} {g : CompAxis} {e : PyErr} (h : writeGroup m g = .error e) : e = .key := by
  cases g with
  | ell => cases h
  | group g =>
    unfold writeGroup at h
    simp only at h
    split at h
    · rename_i e' he
      cases h
      obtain ⟨a, -, ha⟩ := mapE_error_mem he
      cases a with
      | str s => exact dictGetE_key ha
      | anon => cases ha; rfl
    · cases h

omit [PyUnicode] in
theorem writeFlat_key {m : List (Str × Str)} {c : List CompAxis} {e : PyErr} (h : writeFlat m c = .error e) : e = .key := by
  unfold writeFlat at h
  split at h
  · rename_i e' he
    cases h
    obtain ⟨g, -, hg⟩ := mapE_error_mem he
    exact writeGroup_key hg
  · cases h

omit [PyUnicode] in
theorem mapE_ok_mem {β γ : Type} {f : β → Py γ} {l : List β} {r : List γ} (h : mapE f l = .ok r) {a : β} (ha : a ∈ l) :
    ∃ b, f a = .ok b := by
  obtain ⟨i, hi, rfl⟩ := List.getElem_of_mem ha
  obtain ⟨b, hb, -⟩ := mapE_ok h i hi
  exact ⟨b, hb⟩

omit [PyUnicode] in
/-- every axis that is written has a letter -/
theorem writeFlat_ok_mem {m : List (Str × Str)} {c : List CompAxis} {r : Str} (h : writeFlat m c = .ok r) {w : Str}
    (hw : Axis.str w ∈ c.flatMap CompAxis.axes) (hne : w ≠ ellipsisStr) : ∃ b, dictGetE m w = .ok b := by
  unfold writeFlat at h
  obtain ⟨g, hg, ha⟩ := List.mem_flatMap.1 hw
  cases hm : mapE (writeGroup m) c with
  | error e => rw [hm] at h; cases h
  | ok ss =>
    obtain ⟨b, hb⟩ := mapE_ok_mem hm hg
    cases g with
    | ell => simp only [CompAxis.axes, List.mem_singleton, Axis.str.injEq] at ha; exact absurd ha hne
    | group g =>
      unfold writeGroup at hb
      simp only at hb
      split at hb
      · cases hb
      · rename_i ss' hs'
        obtain ⟨b', hb'⟩ := mapE_ok_mem hs' ha
        exact ⟨b', hb'⟩

theorem writeGroup_ok {m : List (Str × Str)} {f : Str → Char} (e : Elem) (hm : ∀ w ∈ e.words, w ≠ dots → ¬ IsNumber w →
      dictGetE m w = .ok [f w]) (hell : dictGetE m ellipsisStr = .ok ['.', '.', '.']) :
    writeGroup m (unitComp e) = .ok (writeSyms f ((e.words.filter (fun w => decide (¬ IsNumber w))).map symOf)) := by
  have key : ∀ ws : List Str, (∀ w ∈ ws, w ≠ dots → ¬ IsNumber w → dictGetE m w = .ok [f w]) →
      writeGroup m (.group (ws.flatMap unitAxes)) =
        .ok (writeSyms f ((ws.filter (fun w => decide (¬ IsNumber w))).map symOf)) := by
    intro ws hws
    unfold writeGroup
    simp only
    rw [flatMap_unitAxes, mapE_map, mapE_eq_ok_map (g := fun w => if w = dots then ['.', '.', '.'] else [f w])]
    · simp only
      congr 1
      induction ws.filter (fun w => decide (¬ IsNumber w)) with
      | nil => rfl
      | cons w ws ih =>
        rw [List.map_cons, List.flatten_cons, ih, List.map_cons]
        unfold symOf
        by_cases h : w = dots
        · rw [if_pos h, if_pos h]; rfl
        · rw [if_neg h, if_neg h]; rfl
    · intro w hw
      obtain ⟨h1, h2⟩ := List.mem_filter.1 hw
      unfold markAxis
      by_cases h : w = dots
      · rw [if_pos h, if_pos h]; exact hell
      · rw [if_neg h, if_neg h]
        exact hws w h1 h (by simpa using h2)
  cases e with
  | paren ws => exact key ws hm
  | bare w =>
    by_cases h : w = dots
    · subst h
      simp only [unitComp, if_true, writeGroup, Elem.words]
      rw [List.filter_cons_of_pos (by simp [dots_not_number])]
      simp [symOf, writeSyms]
    · simp only [unitComp, if_neg h]
      have := key [w] hm
      simpa [Elem.words] using this

theorem writeFlat_ok {m : List (Str × Str)} {f : Str → Char} {G : List Elem} (hm : ∀ w ∈ nameWords G, dictGetE m w = .ok [f w])
    (hell : dictGetE m ellipsisStr = .ok ['.', '.', '.']) :
    writeFlat m (G.map unitComp) = .ok (writeSyms f (sideSyms G)) := by
  unfold writeFlat
  rw [mapE_map]
  rw [mapE_eq_ok_map (g := fun e => writeSyms f ((e.words.filter (fun w => decide (¬ IsNumber w))).map symOf))]
  · simp only
    congr 1
    unfold sideSyms axisWords sideWords
    induction G with
    | nil => rfl
    | cons e G ih =>
      rw [List.map_cons, List.flatten_cons, ih, List.flatMap_cons, List.filter_append, List.map_append, writeSyms_append]
      intro w hw
      exact hm w (by
        obtain ⟨h1, h2⟩ := mem_nameWords.1 hw
        refine mem_nameWords.2 ⟨?_, h2⟩
        unfold sideWords at *
        rw [List.flatMap_cons]
        exact List.mem_append_right _ h1)
  · intro e he
    exact writeGroup_ok e (fun w hw hd hn => hm w (mem_nameWords.2 ⟨List.mem_flatMap.2 ⟨e, he, hw⟩, hn, hd⟩)) hell

theorem mem_mapped {GL GR GW : List Elem} (hL : ∀ w ∈ sideWords GL, w ≠ ellipsisStr) (hR : ∀ w ∈ sideWords GR, w ≠ ellipsisStr)
    (hW : ∀ w ∈ sideWords GW, w ≠ ellipsisStr) {w : Str} :
    w ∈ mappedIdentifiers (describe 0 GL) (describe 1 GR) (describe 2 GW) ↔
      w ∈ nameWords GL ++ nameWords GR ++ nameWords GW := by
  unfold mappedIdentifiers
  rw [(List.perm_insertionSort _ _).mem_iff, List.mem_dedup, List.mem_filterMap]
  simp only [List.mem_append]
  constructor
  · rintro ⟨a, ha, h⟩
    cases a with
    | anon => cases h
    | str s =>
      by_cases hs : s = ellipsisStr
      · simp [hs] at h
      · simp only [hs, if_false, Option.some.injEq] at h
        subst h
        simpa [str_mem_ids, hs] using ha
  · intro h
    have hs : w ≠ ellipsisStr := by
      rcases h with (h | h) | h
      · exact hL w (mem_nameWords.1 h).1
      · exact hR w (mem_nameWords.1 h).1
      · exact hW w (mem_nameWords.1 h).1
    refine ⟨.str w, ?_, by simp [hs]⟩
    simpa [str_mem_ids, hs] using h

omit [PyUnicode] in
theorem mapped_nodup (left right weight : ParsedExpression) : (mappedIdentifiers left right weight).Nodup := by
  unfold mappedIdentifiers
  exact (List.perm_insertionSort _ _).nodup_iff.2 (List.nodup_dedup _)

/-- the names of the three parts, sorted -/
def einmixNames (GL GR GW : List Elem) : List Str := mappedIdentifiers (describe 0 GL) (describe 1 GR) (describe 2 GW)

theorem einmixEinsum_cases {GL GR GW : List Elem} {l r w : Str} (hl : IsSide false false l GL)
    (hr : IsSide false false r GR) (hw : IsSide false false w GW) (hc : ChecksOK GL GR GW) :
    (LettersOK GL GR GW ∧ (einmixNames GL GR GW).length ≤ 26 ∧
      einmixEinsum (describe 0 GL) (describe 1 GR) (describe 2 GW) =
        .ok (writeEinsum (letterOf (einmixNames GL GR GW)) [sideSyms GL, sideSyms GW] (sideSyms GR))) ∨
    (¬ LettersOK GL GR GW ∧ einmixEinsum (describe 0 GL) (describe 1 GR) (describe 2 GW) = .error .key) := by
  have hmem : ∀ v, v ∈ einmixNames GL GR GW ↔ v ∈ nameWords GL ++ nameWords GR ++ nameWords GW := fun v =>
    mem_mapped (fun v hv => ne_ell hl hv) (fun v hv => ne_ell hr hv) (fun v hv => ne_ell hw hv)
  have hnd : (einmixNames GL GR GW).Nodup := mapped_nodup _ _ _
  have hlen : (einmixNames GL GR GW).length = distinct (nameWords GL ++ nameWords GR ++ nameWords GW) := by
    unfold distinct
    refine List.Perm.length_eq ?_
    rw [List.perm_ext_iff_of_nodup hnd (List.nodup_dedup _)]
    intro v
    rw [hmem, List.mem_dedup]
  have hne : ellipsisStr ∉ einmixNames GL GR GW := by
    rw [hmem]
    simp only [List.mem_append, not_or]
    exact ⟨⟨fun h => ne_ell hl (mem_nameWords.1 h).1 rfl, fun h => ne_ell hr (mem_nameWords.1 h).1 rfl⟩,
      fun h => ne_ell hw (mem_nameWords.1 h).1 rfl⟩
  have hcL : (describe 0 GL).composition = GL.map unitComp := denote_unitComp hc.units_left
  have hcR : (describe 1 GR).composition = GR.map unitComp := denote_unitComp hc.units_right
  have hcW : (describe 2 GW).composition = GW.map unitComp := denote_unitComp hc.units_weight
  have hKdef : mappedIdentifiers (describe 0 GL) (describe 1 GR) (describe 2 GW) = einmixNames GL GR GW := rfl
  unfold LettersOK
  rw [← hlen]
  unfold einmixEinsum
  rw [hcL, hcR, hcW]
  by_cases h26 : (einmixNames GL GR GW).length ≤ 26
  · left
    have hget : ∀ v ∈ einmixNames GL GR GW, dictGetE (mapping2letters (einmixNames GL GR GW)) v =
        .ok [letterOf (einmixNames GL GR GW) v] := by
      intro v hv
      rw [letters_get hne hv, if_pos (lt_of_lt_of_le (List.idxOf_lt_length_iff.2 hv) h26)]
    have hfl : ∀ G, (∀ v ∈ nameWords G, v ∈ einmixNames GL GR GW) →
        writeFlat (mapping2letters (einmixNames GL GR GW)) (G.map unitComp) =
          .ok (writeSyms (letterOf (einmixNames GL GR GW)) (sideSyms G)) := fun G hG =>
      writeFlat_ok (fun v hv => hget v (hG v hv)) (letters_ell _)
    refine ⟨h26, h26, ?_⟩
    simp only
    rw [hKdef]
    rw [hfl GL (fun v hv => (hmem v).2 (by simp [hv])), hfl GW (fun v hv => (hmem v).2 (by simp [hv])),
      hfl GR (fun v hv => (hmem v).2 (by simp [hv]))]
    simp [writeEinsum]
  · right
    refine ⟨h26, ?_⟩
    rw [Nat.not_le] at h26
    -- the name after the 26th has no letter
    set K := einmixNames GL GR GW with hK
    have hv : K[26] ∈ K := List.getElem_mem h26
    have hbad : dictGetE (mapping2letters K) K[26] = .error .key := by
      rw [letters_get hne hv, if_neg (by rw [List.Nodup.idxOf_getElem hnd]; omega)]
    have hvne : K[26] ≠ ellipsisStr := fun h => hne (h ▸ hv)
    have hax : ∀ G, K[26] ∈ nameWords G → Axis.str K[26] ∈ (G.map unitComp).flatMap CompAxis.axes := by
      intro G hG
      obtain ⟨h1, h2, h3⟩ := mem_nameWords.1 hG
      rw [units_axes, flatMap_unitAxes, List.mem_map]
      exact ⟨K[26], List.mem_filter.2 ⟨h1, by simpa using h2⟩, by simp [markAxis, h3]⟩
    have hno : ∀ G r, K[26] ∈ nameWords G → writeFlat (mapping2letters K) (G.map unitComp) ≠ .ok r := by
      intro G r hG h
      obtain ⟨b, hb⟩ := writeFlat_ok_mem h (hax G hG) hvne
      rw [hbad] at hb
      cases hb
    simp only
    rw [hKdef]
    have hin := (hmem _).1 hv
    rw [List.mem_append, List.mem_append] at hin
    cases h1 : writeFlat (mapping2letters K) (GL.map unitComp) with
    | error e => simp only; rw [writeFlat_key h1]
    | ok a =>
      simp only
      cases h2 : writeFlat (mapping2letters K) (GW.map unitComp) with
      | error e => simp only; rw [writeFlat_key h2]
      | ok b =>
        simp only
        cases h3 : writeFlat (mapping2letters K) (GR.map unitComp) with
        | error e => simp only; rw [writeFlat_key h3]
        | ok c =>
          exfalso
          rcases hin with (h | h) | h
          · exact hno _ _ h h1
          · exact hno _ _ h h3
          · exact hno _ _ h h2

/-! ### parameters -/

omit [PyUnicode] in
theorem zerosShape_ok {s : List Size} (h : ∀ d ∈ s, 0 ≤ d.val) : zerosShape s = .ok (s.map (fun d => d.val.toNat)) := by
  unfold zerosShape
  rw [if_pos (by rw [List.all_eq_true]; intro d hd; simpa using h d hd)]

omit [PyUnicode] in
theorem zerosShape_error {s : List Size} (h : ¬ ∀ d ∈ s, 0 ≤ d.val) : zerosShape s = .error .backend := by
  unfold zerosShape
  rw [if_neg (by rw [List.all_eq_true]; intro hc; exact h (fun d hd => by simpa using hc d hd))]

omit [PyUnicode] in
theorem createParameters_cases (w : List Size) (b : Option (List Size)) :
    ((∀ d ∈ w, 0 ≤ d.val) ∧ (∀ b', b = some b' → ∀ d ∈ b', 0 ≤ d.val) ∧ createParameters w b =
      .ok (w.map (fun d => d.val.toNat), b.map (fun b => b.map (fun d => d.val.toNat)))) ∨
    (¬ ((∀ d ∈ w, 0 ≤ d.val) ∧ ∀ b', b = some b' → ∀ d ∈ b', 0 ≤ d.val) ∧ createParameters w b = .error .backend) := by
  unfold createParameters
  by_cases hw : ∀ d ∈ w, 0 ≤ d.val
  · rw [zerosShape_ok hw]
    cases b with
    | none => exact .inl ⟨hw, by simp, rfl⟩
    | some b =>
      simp only
      by_cases hb : ∀ d ∈ b, 0 ≤ d.val
      · rw [zerosShape_ok hb]
        exact .inl ⟨hw, by rintro b' h; cases h; exact hb, rfl⟩
      · rw [zerosShape_error hb]
        exact .inr ⟨fun h => hb (h.2 b rfl), rfl⟩
  · rw [zerosShape_error hw]
    exact .inr ⟨fun h => hw h.1, rfl⟩

/-! ### the constructor -/

theorem einmixSides_iff {GL GR GW : List Elem} {names : List Str} :
    EinmixSides GL GR GW names ↔ ChecksOK GL GR GW ∧ Unknowns GL names ∧ SizesOK GL GR GW names :=
  ⟨fun h => ⟨⟨h.right_known, h.weight_fixed, h.ellipsis_both, h.ellipsis_left, h.units_left, h.units_right, h.units_weight,
      h.weight_flat⟩, h.unknowns, ⟨h.weight_sized, h.sizes_used, h.weight_used⟩⟩,
    fun ⟨h1, h2, h3⟩ => ⟨h1.right_known, h1.weight_fixed, h1.ellipsis_both, h1.ellipsis_left, h1.units_left, h1.units_right,
      h1.units_weight, h1.weight_flat, h2, h3.weight_sized, h3.sizes_used, h3.weight_used⟩⟩

theorem sizes_no_dots {GL GR GW : List Elem} {names : List Str} (h : SizesOK GL GR GW names) : dots ∉ names := by
  intro hd
  rcases h.sizes_used dots hd with h | h
  · exact (mem_nameWords.1 h).2.2 rfl
  · exact (mem_nameWords.1 h).2.2 rfl

/-- the layer that the constructor makes -/
structure Made {α : Type u} (so : Nat → SetOrder) (GL GR GW : List Elem) (bias : Option Str) (kw : List (Str × Size))
    (m : EinMix α) : Prop where
  pre : PreLayer so GL kw m.pre
  post : PostLayer so GR m.post
  params : ParamShapes GR GW bias kw m.weightShape m.biasShape
  letters : (einmixNames GL GR GW).length ≤ 26
  einsum : m.einsumPattern = writeEinsum (letterOf (einmixNames GL GR GW)) [sideSyms GL, sideSyms GW] (sideSyms GR)
  fan : m.fanIn = (((sideWords GW).filter (fun v => decide (v ∉ sideWords GR))).map (fun v => (sizeFor kw v).val)).prod

theorem einmixPlan_bad_arrow {pattern : Str}
    (h : ¬ ∃ l r, pattern = l ++ arrow ++ r ∧ ¬ arrow <:+: l ∧ ¬ arrow <:+: r) (weightShape : Str) (kw : List (Str × Size)) :
    einmixPlan pattern weightShape kw = .error .value := by
  unfold einmixPlan
  cases hs : splitArrow pattern with
  | error e => simp only; rw [splitArrow_err hs]
  | ok lr => exact absurd ⟨lr.1, lr.2, splitArrow_iff.1 hs⟩ h

/-- the outcome of the first part of the constructor, and of the layers -/
theorem einmixPlan_cases {pattern weightShape : Str} (hp : '…' ∉ pattern) (hw : '…' ∉ weightShape) {l r : Str}
    (hs : splitArrow pattern = .ok (l, r)) (kw : List (Str × Size)) :
    (∃ GL GR GW, IsSide false false l GL ∧ IsSide false false r GR ∧ IsSide false false weightShape GW ∧
      ChecksOK GL GR GW ∧ einmixPlan pattern weightShape kw = .ok ⟨describe 0 GL, describe 1 GR, describe 2 GW,
        preReshape l (describe 0 GL) kw, postReshape r (describe 1 GR)⟩) ∨
    ((¬ ∃ GL GR GW, IsPattern pattern GL GR ∧ IsSide false false weightShape GW ∧ ChecksOK GL GR GW) ∧
      einmixPlan pattern weightShape kw = .error .einops) := by
  have hsub := (splitArrow_iff.1 hs).1
  have hle : '…' ∉ l := fun h => hp (by rw [hsub]; simp [h])
  have hre : '…' ∉ r := fun h => hp (by rw [hsub]; simp [h])
  have hpat : ∀ {GL GR}, IsPattern pattern GL GR → IsSide false false l GL ∧ IsSide false false r GR := by
    intro GL GR h
    obtain ⟨-, l', r', h1, h2, h3⟩ := isPattern_split h
    rw [hs] at h1
    cases h1
    exact ⟨h2, h3⟩
  unfold einmixPlan
  rw [hs]
  simp only
  cases h1 : parseExpression 0 false false l with
  | error e =>
    right
    simp only
    rw [parseExpression_err _ _ _ h1]
    refine ⟨?_, rfl⟩
    rintro ⟨GL, GR, GW, h, -⟩
    rw [(parseExpression_iff _ _ _ l hle _).2 ⟨GL, (hpat h).1, rfl⟩] at h1
    cases h1
  | ok pl =>
  simp only
  obtain ⟨GL, hl, rfl⟩ := (parseExpression_iff _ _ _ l hle _).1 h1
  cases h2 : parseExpression 1 false false r with
  | error e =>
    right
    simp only
    rw [parseExpression_err _ _ _ h2]
    refine ⟨?_, rfl⟩
    rintro ⟨GL, GR, GW, h, -⟩
    rw [(parseExpression_iff _ _ _ r hre _).2 ⟨GR, (hpat h).2, rfl⟩] at h2
    cases h2
  | ok pr =>
  simp only
  obtain ⟨GR, hr, rfl⟩ := (parseExpression_iff _ _ _ r hre _).1 h2
  cases h3 : parseExpression 2 false false weightShape with
  | error e =>
    right
    simp only
    rw [parseExpression_err _ _ _ h3]
    refine ⟨?_, rfl⟩
    rintro ⟨GL, GR, GW, -, h, -⟩
    rw [(parseExpression_iff _ _ _ weightShape hw _).2 ⟨GW, h, rfl⟩] at h3
    cases h3
  | ok pw =>
  simp only
  obtain ⟨GW, hw', rfl⟩ := (parseExpression_iff _ _ _ weightShape hw _).1 h3
  rcases einmixChecks_cases hl hr hw' with ⟨hc, h⟩ | ⟨hc, h⟩
  · left
    rw [h]
    exact ⟨GL, GR, GW, hl, hr, hw', hc, rfl⟩
  · right
    rw [h]
    refine ⟨?_, rfl⟩
    rintro ⟨GL', GR', GW', h1, h2, h3⟩
    obtain ⟨e1, e2⟩ := hpat h1
    rw [e1.unique hl, e2.unique hr, h2.unique hw'] at h3
    exact hc h3

variable {α : Type u}

theorem makeEinMix_bad_arrow (so : Nat → SetOrder) {pattern : Str}
    (h : ¬ ∃ l r, pattern = l ++ arrow ++ r ∧ ¬ arrow <:+: l ∧ ¬ arrow <:+: r) (weightShape : Str) (bias : Option Str)
    (kw : List (Str × Size)) : (makeEinMix so pattern weightShape bias kw : Py (EinMix α)) = .error .value := by
  unfold makeEinMix
  rw [einmixPlan_bad_arrow h]

theorem makeEinMix_sides (so : Nat → SetOrder) {pattern weightShape : Str} (hp : '…' ∉ pattern) (hw : '…' ∉ weightShape)
    {l r : Str} (hs : splitArrow pattern = .ok (l, r)) {kw : List (Str × Size)} (he : ellipsisStr ∉ kw.map Prod.fst)
    (hno : ¬ ∃ GL GR GW, IsPattern pattern GL GR ∧ IsSide false false weightShape GW ∧
      EinmixSides GL GR GW (kw.map Prod.fst)) (bias : Option Str) :
    (makeEinMix so pattern weightShape bias kw : Py (EinMix α)) = .error .einops := by
  unfold makeEinMix
  rcases einmixPlan_cases hp hw hs kw with ⟨GL, GR, GW, hl, hr, hw', hc, h⟩ | ⟨-, h⟩
  swap
  · rw [h]
  rw [h]
  simp only
  have hpat : IsPattern pattern GL GR := ⟨l, r, (splitArrow_iff.1 hs).1, hl, hr⟩
  have hno' : ¬ EinmixSides GL GR GW (kw.map Prod.fst) := fun h => hno ⟨GL, GR, GW, hpat, hw', h⟩
  rcases makePre_cases (α := α) so hl hc kw with ⟨pre, h1, h2, h3⟩ | ⟨h1, -⟩
  swap
  · rw [h1]
  rw [h1]
  simp only
  obtain ⟨post, h4, -⟩ := makePost_ok (α := α) so hr hc.units_right
  rw [h4]
  simp only
  rcases einmixSizes_cases hw' hc he with ⟨h5, h6⟩ | ⟨-, h6⟩
  · exact absurd (einmixSides_iff.2 ⟨hc, h3, h5⟩) hno'
  · rw [h6]

/-- what is left of the constructor once the sides are known to be legal -/
theorem makeEinMix_legal (so : Nat → SetOrder) {pattern weightShape : Str} {GL GR GW : List Elem} (hp : IsPattern pattern GL GR)
    (hw : IsSide false false weightShape GW) {kw : List (Str × Size)} (hsd : EinmixSides GL GR GW (kw.map Prod.fst))
    (he : ellipsisStr ∉ kw.map Prod.fst) (bias : Option Str) :
    ∃ pre post, PreLayer so GL kw pre ∧ PostLayer so GR post ∧
      (makeEinMix so pattern weightShape bias kw : Py (EinMix α)) =
        match einmixWeight (describe 1 GR) (describe 2 GW) kw with
        | .error e => .error e
        | .ok (w, fan) =>
          match einmixBias (describe 1 GR) kw bias with
          | .error e => .error e
          | .ok b =>
            if fan.val = 0 then .error .zeroDivision
            else
              match createParameters w b with
              | .error e => .error e
              | .ok (w, b) =>
                match einmixEinsum (describe 0 GL) (describe 1 GR) (describe 2 GW) with
                | .error e => .error e
                | .ok s => .ok ⟨pre, post, w, b, s, fan.val⟩ := by
  obtain ⟨hpe, l, r, hs, hl, hr⟩ := isPattern_split hp
  obtain ⟨hc, hu, hz⟩ := einmixSides_iff.1 hsd
  have hwe : '…' ∉ weightShape := isSide_no_special hw (by simp)
  unfold makeEinMix
  rcases einmixPlan_cases hpe hwe hs kw with ⟨GL', GR', GW', hl', hr', hw', hc', h⟩ | ⟨hno, -⟩
  swap
  · exact absurd ⟨GL, GR, GW, hp, hw, hc⟩ hno
  rw [hl'.unique hl, hr'.unique hr, hw'.unique hw] at h
  rw [h]
  simp only
  rcases makePre_cases (α := α) so hl hc kw with ⟨pre, h1, h2, h3⟩ | ⟨-, hno⟩
  swap
  · exact absurd ⟨hu, sizes_no_dots hz⟩ hno
  obtain ⟨post, h4, h5⟩ := makePost_ok (α := α) so hr hc.units_right
  refine ⟨pre, post, h2, h5, ?_⟩
  rw [h1]
  simp only
  rw [h4]
  simp only
  rcases einmixSizes_cases hw hc he with ⟨-, h6⟩ | ⟨hno, -⟩
  swap
  · exact absurd hz hno
  rw [h6]
  rfl

theorem bias_cases {GL GR GW : List Elem} {r : Str} (hr : IsSide false false r GR) {kw : List (Str × Size)}
    (hsd : EinmixSides GL GR GW (kw.map Prod.fst))
    (he : ellipsisStr ∉ kw.map Prod.fst) {bias : Option Str} (hb : ∀ s, bias = some s → '…' ∉ s) :
    (BiasLegal GR (kw.map Prod.fst) bias ∧
      ((bias = none ∧ einmixBias (describe 1 GR) kw bias = .ok none) ∨
        ∃ s GB, bias = some s ∧ IsSide false false s GB ∧ BiasOK GR GB (kw.map Prod.fst) ∧
          einmixBias (describe 1 GR) kw bias = .ok (some (biasSizes GR kw GB)))) ∨
    (¬ BiasLegal GR (kw.map Prod.fst) bias ∧ einmixBias (describe 1 GR) kw bias = .error .einops) := by
  obtain ⟨hc, hu, hz⟩ := einmixSides_iff.1 hsd
  cases bias with
  | none => exact .inl ⟨(fun s h => nomatch h), .inl ⟨rfl, rfl⟩⟩
  | some s =>
    rcases einmixBias_cases hr hc.units_right he (sizes_no_dots hz) (hb s rfl) with ⟨GB, h1, h2, h3⟩ | ⟨h1, h2⟩
    · exact .inl ⟨by intro s' h; cases h; exact ⟨GB, h1, h2⟩, .inr ⟨s, GB, rfl, h1, h2, h3⟩⟩
    · exact .inr ⟨fun h => h1 (h s rfl), h2⟩

/-- All outcomes of the constructor when the sides are legal. -/
theorem makeEinMix_outcome (so : Nat → SetOrder) {pattern weightShape : Str} {GL GR GW : List Elem} (hp : IsPattern pattern GL GR)
    (hw : IsSide false false weightShape GW) {kw : List (Str × Size)} (hk : (kw.map Prod.fst).Nodup)
    (hsd : EinmixSides GL GR GW (kw.map Prod.fst)) (he : ellipsisStr ∉ kw.map Prod.fst) {bias : Option Str}
    (hb : ∀ s, bias = some s → '…' ∉ s) {res : Py (EinMix α)} (hres : makeEinMix so pattern weightShape bias kw = res) :
    (¬ NoUnits GW → res = .error .value) ∧
    (NoUnits GW → ¬ BiasLegal GR (kw.map Prod.fst) bias → res = .error .einops) ∧
    (NoUnits GW → BiasLegal GR (kw.map Prod.fst) bias →
      (¬ FanInOK GR GW kw → res = .error .zeroDivision) ∧
      (FanInOK GR GW kw → ¬ LengthsOK GW bias kw → res = .error .backend) ∧
      (FanInOK GR GW kw → LengthsOK GW bias kw → ¬ LettersOK GL GR GW → res = .error .key) ∧
      (FanInOK GR GW kw → LengthsOK GW bias kw → LettersOK GL GR GW → ∃ m, res = .ok m ∧ Made so GL GR GW bias kw m)) := by
  obtain ⟨pre, post, hpre, hpost, heq⟩ := makeEinMix_legal (α := α) so hp hw hsd he bias
  rw [heq] at hres
  obtain ⟨hc, hu, hz⟩ := einmixSides_iff.1 hsd
  obtain ⟨hpe, l, r, hs, hl, hr⟩ := isPattern_split hp
  by_cases hn : NoUnits GW
  swap
  · rw [einmixWeight_units hc.units_weight hc.weight_flat hn] at hres
    exact ⟨fun _ => hres.symm, fun h => absurd h hn, fun h => absurd h hn⟩
  refine ⟨fun h => absurd hn h, ?_⟩
  obtain ⟨fan, h1, hfan, hfv⟩ := einmixWeight_ok hw hc hk hz hn
  rw [h1] at hres
  simp only at hres
  rcases bias_cases hr hsd he hb with ⟨hbl, hbc⟩ | ⟨hbl, h2⟩
  swap
  · rw [h2] at hres
    exact ⟨fun _ _ => hres.symm, fun _ h => absurd h hbl⟩
  refine ⟨fun _ h => absurd hbl h, fun _ _ => ?_⟩
  -- the shape of the bias
  have hbs : ∃ b, einmixBias (describe 1 GR) kw bias = .ok b ∧ (bias = none → b = none) ∧
      (∀ t GB, bias = some t → IsSide false false t GB → b = some (biasSizes GR kw GB)) ∧
      (∀ b', b = some b' → ∃ t GB, bias = some t ∧ IsSide false false t GB ∧ BiasOK GR GB (kw.map Prod.fst) ∧
        b' = biasSizes GR kw GB) := by
    rcases hbc with ⟨rfl, h⟩ | ⟨s, GB, rfl, h3, h4, h⟩
    · refine ⟨none, h, fun _ => rfl, ?_, ?_⟩
      · intro t GB h; cases h
      · intro b' h; cases h
    · refine ⟨_, h, (fun h => nomatch h), ?_, ?_⟩
      · intro t GB' ht hGB'
        cases ht
        rw [hGB'.unique h3]
      · intro b' hb'
        cases hb'
        exact ⟨s, GB, rfl, h3, h4, rfl⟩
  obtain ⟨b, h2, hb1, hb2, hb3⟩ := hbs
  rw [h2] at hres
  simp only at hres
  by_cases hf : FanInOK GR GW kw
  swap
  · rw [if_pos (by by_contra hcon; exact hf (hfan.1 hcon))] at hres
    exact ⟨fun _ => hres.symm, fun h => absurd h hf, fun h => absurd h hf, fun h => absurd h hf⟩
  rw [if_neg (hfan.2 hf)] at hres
  refine ⟨fun h => absurd hf h, ?_⟩
  have hin : ∀ v ∈ sideWords GW, v ∈ kw.map Prod.fst := fun v hv => hz.weight_sized v (mem_axisWords.2 ⟨hv, hn v hv⟩)
  have hlen : LengthsOK GW bias kw ↔ (∀ d ∈ (sideWords GW).map (sizeFor kw), 0 ≤ d.val) ∧
      ∀ b', b = some b' → ∀ d ∈ b', 0 ≤ d.val := by
    constructor
    · intro h
      refine ⟨?_, ?_⟩
      · intro d hd
        obtain ⟨v, hv, rfl⟩ := List.mem_map.1 hd
        exact h v _ (mem_sizeFor (hin v hv)) (.inl hv)
      · intro b' hb' d hd
        obtain ⟨t, GB, ht, hGB, hok, rfl⟩ := hb3 b' hb'
        obtain ⟨v, hv, rfl⟩ := List.mem_map.1 hd
        unfold biasSize
        split
        · rename_i hvB
          obtain ⟨w1, w2, w3⟩ := mem_nameWords.1 hv
          exact h v _ (mem_sizeFor (hok.sized v (mem_axisWords.2 ⟨hvB, w2⟩))) (.inr ⟨t, GB, ht, hGB, hvB⟩)
        · decide
    · rintro ⟨g1, g2⟩ v s hvs (hv | ⟨t, GB, ht, hGB, hv⟩)
      · have := g1 _ (List.mem_map.2 ⟨v, hv, rfl⟩)
        rwa [sizeFor_mem hk hvs] at this
      · have hnum : ¬ IsNumber v ∧ v ≠ dots := by
          rcases hz.sizes_used v (List.mem_map.2 ⟨_, hvs, rfl⟩) with h | h
          · exact (mem_nameWords.1 h).2
          · exact (mem_nameWords.1 h).2
        have hbeq := hb2 t GB ht hGB
        obtain ⟨t', GB', ht', hGB', hok, -⟩ := hb3 _ hbeq
        rw [ht] at ht'
        cases ht'
        rw [hGB'.unique hGB] at hok
        have hvR : v ∈ nameWords GR := mem_nameWords.2 ⟨hok.in_output v (mem_axisWords.2 ⟨hv, hnum.1⟩), hnum⟩
        have := g2 _ hbeq _ (List.mem_map.2 ⟨v, hvR, rfl⟩)
        unfold biasSize at this
        rwa [if_pos hv, sizeFor_mem hk hvs] at this
  rcases createParameters_cases ((sideWords GW).map (sizeFor kw)) b with ⟨g1, g2, h3⟩ | ⟨hno, h3⟩
  swap
  · rw [h3] at hres
    rw [← hlen] at hno
    exact ⟨fun _ _ => hres.symm, fun _ h => absurd h hno, fun _ h => absurd h hno⟩
  rw [h3] at hres
  simp only at hres
  refine ⟨fun _ h => absurd (hlen.2 ⟨g1, g2⟩) h, ?_⟩
  rcases einmixEinsum_cases hl hr hw hc with ⟨hlet, h26, h4⟩ | ⟨hlet, h4⟩
  swap
  · rw [h4] at hres
    exact ⟨fun _ _ _ => hres.symm, fun _ _ h => absurd h hlet⟩
  rw [h4] at hres
  refine ⟨fun _ _ h => absurd hlet h, fun _ _ _ => ⟨_, hres.symm, hpre, hpost, ⟨?_, ?_, ?_⟩, h26, rfl, hfv⟩⟩
  · rw [List.map_map, List.forall₂_map_right_iff, List.forall₂_same]
    intro v hv
    exact ⟨_, mem_sizeFor (hin v hv), Int.toNat_of_nonneg (g1 _ (List.mem_map.2 ⟨v, hv, rfl⟩))⟩
  · intro h
    rw [hb1 h]
    rfl
  · intro t GB ht hGB
    have hbeq := hb2 t GB ht hGB
    rw [hbeq]
    refine ⟨_, rfl, ?_⟩
    unfold biasSizes
    simp only
    rw [List.map_map, List.forall₂_map_right_iff, List.forall₂_same]
    intro v hv
    obtain ⟨t', GB', ht', hGB', hok, -⟩ := hb3 _ hbeq
    rw [ht] at ht'
    cases ht'
    rw [hGB'.unique hGB] at hok
    simp only [Function.comp]
    unfold BiasDim
    by_cases hvB : v ∈ sideWords GB
    · left
      obtain ⟨w1, w2, w3⟩ := mem_nameWords.1 hv
      have hnn := g2 _ hbeq _ (List.mem_map.2 ⟨v, hv, rfl⟩)
      unfold biasSize at hnn ⊢
      rw [if_pos hvB] at hnn ⊢
      exact ⟨hvB, _, mem_sizeFor (hok.sized v (mem_axisWords.2 ⟨hvB, w2⟩)), Int.toNat_of_nonneg hnn⟩
    · right
      unfold biasSize
      rw [if_neg hvB]
      exact ⟨hvB, rfl⟩

end

end Einops
