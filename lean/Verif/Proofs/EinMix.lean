import Verif.EinMixSpec
import Verif.Props.Layers
import Verif.Proofs.Contract

/-!
# Construction of `EinMix` layers
-/

namespace Einops

universe u

section
variable [PyUnicode]

/-! ### sides without numbers other than 1 -/

/-- axes of a word that is not a number other than 1 -/
def unitAxes (w : Str) : List Axis :=
  if w = dots then [.str ellipsisStr] else if IsNumber w then [] else [.str w]

/-- an element without numbers other than 1 -/
def unitComp : Elem → CompAxis
  | .bare w => if w = dots then .ell else .group (unitAxes w)
  | .paren ws => .group (ws.flatMap unitAxes)

theorem wordAxes_unitAxes {side k : Nat} {w : Str} (h : IsNumber w → decimalValue w = 1) : wordAxes side k w = unitAxes w := by
  unfold wordAxes unitAxes
  split
  · rfl
  · split
    · rename_i hn; rw [if_pos (h hn)]
    · rfl

theorem wordsAxes_unitAxes {side k : Nat} {ws : List Str} (h : ∀ w ∈ ws, IsNumber w → decimalValue w = 1) :
    wordsAxes side k ws = ws.flatMap unitAxes := by
  induction ws generalizing k with
  | nil => rfl
  | cons w ws ih =>
    rw [wordsAxes, wordAxes_unitAxes (h w (by simp)), ih (fun v hv => h v (by simp [hv])), List.flatMap_cons]

theorem denote_unitComp {side k : Nat} {G : List Elem} (h : OnlyUnits G) : denote side k G = G.map unitComp := by
  induction G generalizing k with
  | nil => rfl
  | cons e G ih =>
    have h' : OnlyUnits G := fun w hw => h w (by unfold sideWords at *; rw [List.flatMap_cons]; exact List.mem_append_right _ hw)
    have he : ∀ w ∈ e.words, IsNumber w → decimalValue w = 1 := fun w hw => h w (by
      unfold sideWords; rw [List.flatMap_cons]; exact List.mem_append_left _ hw)
    cases e with
    | bare w =>
      rw [denote, ih h', List.map_cons, unitComp, wordAxes_unitAxes (he w (by simp [Elem.words]))]
    | paren ws =>
      rw [denote, ih h', List.map_cons, unitComp, wordsAxes_unitAxes (ws := ws) he]

theorem unitComp_axes (e : Elem) : (unitComp e).axes = e.words.flatMap unitAxes := by
  cases e with
  | bare w =>
    simp only [unitComp, Elem.words, List.flatMap_cons, List.flatMap_nil, List.append_nil]
    split
    · rename_i h; simp [CompAxis.axes, unitAxes, h]
    · rfl
  | paren ws => rfl

theorem units_axes {G : List Elem} : (G.map unitComp).flatMap CompAxis.axes = (sideWords G).flatMap unitAxes := by
  induction G with
  | nil => rfl
  | cons e G ih =>
    unfold sideWords at *
    rw [List.map_cons, List.flatMap_cons, unitComp_axes, ih, List.flatMap_cons, List.flatMap_append]

theorem mem_axisWords {G : List Elem} {w : Str} : w ∈ axisWords G ↔ w ∈ sideWords G ∧ ¬ IsNumber w := by
  unfold axisWords
  rw [List.mem_filter, decide_eq_true_eq]

theorem mem_nameWords {G : List Elem} {w : Str} : w ∈ nameWords G ↔ w ∈ sideWords G ∧ ¬ IsNumber w ∧ w ≠ dots := by
  unfold nameWords
  rw [List.mem_filter, decide_eq_true_eq, mem_axisWords, and_assoc]

/-- the axis of a word that is not a number -/
def markAxis (w : Str) : Axis := if w = dots then .str ellipsisStr else .str w

theorem flatMap_unitAxes (ws : List Str) :
    ws.flatMap unitAxes = (ws.filter (fun w => decide (¬ IsNumber w))).map markAxis := by
  induction ws with
  | nil => rfl
  | cons w ws ih =>
    rw [List.flatMap_cons, ih]
    by_cases hn : IsNumber w
    · rw [List.filter_cons_of_neg (by simp [hn])]
      simp [unitAxes, number_ne_dots hn, hn]
    · rw [List.filter_cons_of_pos (by simp [hn])]
      by_cases hd : w = dots
      · simp [unitAxes, markAxis, hd]
      · simp [unitAxes, markAxis, hd, hn]

theorem flatNames_units {G : List Elem} (hG : ∀ w ∈ sideWords G, '…' ∉ w) : flatNames (G.map unitComp) = axisWords G := by
  unfold flatNames
  rw [units_axes, flatMap_unitAxes, List.map_map]
  conv_rhs => rw [← List.map_id (axisWords G)]
  apply List.map_congr_left
  intro w hw
  have hw' := hG w (mem_axisWords.1 hw).1
  simp only [Function.comp, markAxis, id]
  by_cases hd : w = dots
  · simp [hd, dots]
  · have : w ≠ ellipsisStr := by rintro rfl; simp [ellipsisStr] at hw'
    simp [hd, this]

/-! ### identifiers -/

theorem mem_ids {side : Nat} {G : List Elem} {a : Axis} :
    a ∈ (describe side G).identifiers ↔ a ∈ wordsAxes side 0 (sideWords G) := by
  unfold describe
  simp only
  rw [mem_foldl_setAdd]
  simp [sideWords]

theorem str_mem_ids {side : Nat} {G : List Elem} {s : Str} : Axis.str s ∈ (describe side G).identifiers ↔
    (dots ∈ sideWords G ∧ s = ellipsisStr) ∨ s ∈ nameWords G := by
  rw [mem_ids, str_mem_wordsAxes, mem_nameWords]
  constructor
  · rintro ⟨w, hw, ⟨rfl, h⟩ | ⟨h1, h2, rfl⟩⟩
    · exact .inl ⟨hw, h⟩
    · exact .inr ⟨hw, h2, h1⟩
  · rintro (⟨h1, h2⟩ | ⟨h1, h2, h3⟩)
    · exact ⟨_, h1, .inl ⟨rfl, h2⟩⟩
    · exact ⟨_, h1, .inr ⟨h3, h2, rfl⟩⟩

theorem anon_mem_ids {side sd i v : Nat} {G : List Elem} (h : Axis.anon sd i v ∈ (describe side G).identifiers) :
    sd = side ∧ ¬ OnlyUnits G := by
  rw [mem_ids] at h
  obtain ⟨h1, -, h2, h3, h4, -⟩ := anon_mem_wordsAxes h
  exact ⟨h1, fun hu => h4 (hu _ (List.getElem_mem h2) h3)⟩

theorem anon_not_mem_ids {side sd i v : Nat} {G : List Elem} (hu : OnlyUnits G) :
    Axis.anon sd i v ∉ (describe side G).identifiers := fun h => (anon_mem_ids h).2 hu

theorem nonUnitary_describe {side : Nat} {G : List Elem} : (describe side G).nonUnitary = false ↔ OnlyUnits G := by
  unfold describe OnlyUnits sideWords
  simp only
  rw [List.any_eq_false]
  simp only [decide_eq_true_eq, not_and, not_not]

theorem nonUnitary_of {side : Nat} {G : List Elem} (h : ¬ OnlyUnits G) : (describe side G).nonUnitary = true := by
  by_contra hc
  exact h (nonUnitary_describe (side := side).1 (by simpa using hc))

omit [PyUnicode] in
theorem Lexes.paren_iff {s : Str} {T : List Tok} (h : Lexes s T) : ('(' ∈ s ↔ Tok.lp ∈ T) ∧ (')' ∈ s ↔ Tok.rp ∈ T) := by
  induction h with
  | nil => simp
  | space _ ih => simpa using ih
  | lp _ ih => simpa using ih.2
  | rp _ ih => simpa using ih.1
  | @word w s ts _ hw _ _ ih =>
    have h1 : '(' ∉ w := fun hc => hw _ hc (.inl rfl)
    have h2 : ')' ∉ w := fun hc => hw _ hc (.inr (.inl rfl))
    simpa [h1, h2] using ih

theorem weight_parens {u d : Bool} {s : Str} {G : List Elem} (h : IsSide u d s G) :
    ('(' ∈ s ∨ ')' ∈ s) ↔ ∃ ws, Elem.paren ws ∈ G := by
  obtain ⟨h1, h2⟩ := h.lexes.paren_iff
  rw [h1, h2]
  constructor
  · rintro (h | h) <;>
    · obtain ⟨e, he, ht⟩ := List.mem_flatMap.1 h
      cases e with
      | bare w => simp [Elem.toks] at ht
      | paren ws => exact ⟨ws, he⟩
  · rintro ⟨ws, hws⟩
    exact .inl (List.mem_flatMap.2 ⟨_, hws, by simp [Elem.toks]⟩)

/-! ### the checks -/

/-- the rules that `einmixChecks` enforces -/
structure ChecksOK (GL GR GW : List Elem) : Prop where
  right_known : ∀ w ∈ axisWords GR, w ∈ sideWords GL ∨ w ∈ sideWords GW
  weight_fixed : dots ∉ sideWords GW
  ellipsis_both : dots ∈ sideWords GL ↔ dots ∈ sideWords GR
  ellipsis_left : ∀ ws, Elem.paren ws ∈ GL → dots ∉ ws
  units_left : OnlyUnits GL
  units_right : OnlyUnits GR
  units_weight : OnlyUnits GW
  weight_flat : ∀ ws, Elem.paren ws ∉ GW

theorem einmixChecks_cases {GL GR GW : List Elem} {l r w : Str} (hl : IsSide false false l GL)
    (hr : IsSide false false r GR) (hw : IsSide false false w GW) :
    (ChecksOK GL GR GW ∧ einmixChecks (describe 0 GL) (describe 1 GR) (describe 2 GW) w = .ok ()) ∨
    (¬ ChecksOK GL GR GW ∧ einmixChecks (describe 0 GL) (describe 1 GR) (describe 2 GW) w = .error .einops) := by
  unfold einmixChecks
  by_cases h1 : (describe 1 GR).identifiers.any
      (fun a => decide (a ∉ (describe 0 GL).identifiers ++ (describe 2 GW).identifiers)) = true
  · right
    rw [if_pos h1]
    refine ⟨fun hc => ?_, rfl⟩
    obtain ⟨a, ha, hn⟩ := List.any_eq_true.1 h1
    rw [decide_eq_true_eq, List.mem_append, not_or] at hn
    cases a with
    | anon sd i v => exact anon_not_mem_ids hc.units_right ha
    | str s =>
      rw [str_mem_ids] at ha
      rcases ha with ⟨hd, rfl⟩ | hs
      · exact hn.1 (str_mem_ids.2 (.inl ⟨hc.ellipsis_both.2 hd, rfl⟩))
      · have hs' := mem_nameWords.1 hs
        rcases hc.right_known s (mem_axisWords.2 ⟨hs'.1, hs'.2.1⟩) with h | h
        · exact hn.1 (str_mem_ids.2 (.inr (mem_nameWords.2 ⟨h, hs'.2⟩)))
        · exact hn.2 (str_mem_ids.2 (.inr (mem_nameWords.2 ⟨h, hs'.2⟩)))
  rw [if_neg h1]
  have hw1 : (describe 2 GW).hasEllipsis = true ↔ dots ∈ sideWords GW := by simp [describe, sideWords]
  have hl1 : (describe 0 GL).hasEllipsis = true ↔ dots ∈ sideWords GL := by simp [describe, sideWords]
  have hr1 : (describe 1 GR).hasEllipsis = true ↔ dots ∈ sideWords GR := by simp [describe, sideWords]
  by_cases h2 : (describe 2 GW).hasEllipsis = true
  · right
    rw [if_pos h2]
    exact ⟨fun hc => hc.weight_fixed (hw1.1 h2), rfl⟩
  rw [if_neg h2]
  by_cases h3 : (((describe 0 GL).hasEllipsis || (describe 1 GR).hasEllipsis) &&
      !((describe 0 GL).hasEllipsis && (describe 1 GR).hasEllipsis)) = true
  · right
    rw [if_pos h3]
    refine ⟨fun hc => ?_, rfl⟩
    have e : (describe 0 GL).hasEllipsis = (describe 1 GR).hasEllipsis := by
      rw [Bool.eq_iff_iff, hl1, hr1]; exact hc.ellipsis_both
    rw [e] at h3
    cases h : (describe 1 GR).hasEllipsis <;> simp [h] at h3
  rw [if_neg h3]
  have he : dots ∈ sideWords GL ↔ dots ∈ sideWords GR := by
    rw [← hl1, ← hr1]
    cases ha : (describe 0 GL).hasEllipsis <;> cases hb : (describe 1 GR).hasEllipsis <;> simp [ha, hb] at h3 ⊢
  have hp : (describe 0 GL).ellParen = some true ↔ ∃ ws, Elem.paren ws ∈ GL ∧ dots ∈ ws := ellPos_paren hl.one_ellipsis
  by_cases h4 : (((describe 0 GL).hasEllipsis || (describe 1 GR).hasEllipsis) &&
      decide ((describe 0 GL).ellParen = some true)) = true
  · right
    rw [if_pos h4]
    refine ⟨fun hc => ?_, rfl⟩
    rw [Bool.and_eq_true, decide_eq_true_eq, hp] at h4
    obtain ⟨-, ws, h5, h6⟩ := h4
    exact hc.ellipsis_left ws h5 h6
  rw [if_neg h4]
  by_cases h5 : ((describe 0 GL).nonUnitary || (describe 1 GR).nonUnitary || (describe 2 GW).nonUnitary) = true
  · right
    rw [if_pos h5]
    refine ⟨fun hc => ?_, rfl⟩
    rw [nonUnitary_describe.2 hc.units_left, nonUnitary_describe.2 hc.units_right,
      nonUnitary_describe.2 hc.units_weight] at h5
    cases h5
  rw [if_neg h5]
  by_cases h6 : '(' ∈ w ∨ ')' ∈ w
  · right
    rw [if_pos h6]
    refine ⟨fun hc => ?_, rfl⟩
    obtain ⟨ws, hws⟩ := (weight_parens hw).1 h6
    exact hc.weight_flat ws hws
  rw [if_neg h6]
  left
  refine ⟨?_, rfl⟩
  simp only [Bool.or_eq_true, not_or, Bool.not_eq_true] at h5
  have hur := nonUnitary_describe.1 h5.1.2
  refine ⟨?_, fun h => h2 (hw1.2 h), he, ?_, nonUnitary_describe.1 h5.1.1, hur, nonUnitary_describe.1 h5.2,
    fun ws hws => h6 ((weight_parens hw).2 ⟨ws, hws⟩)⟩
  · intro v hv
    obtain ⟨hv1, hv2⟩ := mem_axisWords.1 hv
    by_cases hd : v = dots
    · subst hd; exact .inl (he.2 hv1)
    · by_contra hcon
      rw [not_or] at hcon
      apply h1
      rw [List.any_eq_true]
      refine ⟨.str v, str_mem_ids.2 (.inr (mem_nameWords.2 ⟨hv1, hv2, hd⟩)), ?_⟩
      rw [decide_eq_true_eq, List.mem_append, not_or]
      have hne : v ≠ ellipsisStr := by
        rintro rfl
        exact side_no_ell hr _ hv1 (by simp [ellipsisStr])
      constructor
      · intro h
        rcases str_mem_ids.1 h with ⟨-, h⟩ | h
        · exact hne h
        · exact hcon.1 (mem_nameWords.1 h).1
      · intro h
        rcases str_mem_ids.1 h with ⟨-, h⟩ | h
        · exact hne h
        · exact hcon.2 (mem_nameWords.1 h).1
  · intro ws hws hd
    apply h4
    have hin : dots ∈ sideWords GL := List.mem_flatMap.2 ⟨_, hws, hd⟩
    rw [Bool.and_eq_true, decide_eq_true_eq, hp, hl1.2 hin]
    exact ⟨rfl, ws, hws, hd⟩

end

end Einops
