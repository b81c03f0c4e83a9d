import Verif.LayerMessageSpec
import Verif.Proofs.OtherMessages
import Verif.Proofs.EinMixMake

/-!
# The messages of layers are true
-/

namespace Einops

universe u

/-! ### forgetting messages -/

section
variable [PyUnicode] {α : Type u}

theorem erase_prepareAllDimsM (so : Nat → SetOrder) (pattern : Str) (op : OpKind) (names : List Str) :
    erase (prepareAllDimsM so pattern op names) = prepareAllDims so pattern op names := by
  unfold prepareAllDimsM prepareAllDims
  rcases splitArrow pattern with e | ⟨l, r⟩
  · rfl
  · simp only
    rw [← erase_parseExpressionM]
    rcases parseExpressionM 0 false false l with m | left
    · rfl
    · simp only [eraseSide_ok]
      rw [erase_mapE]
      congr 1
      funext d
      rw [← erase_prepareRecipeM]
      rcases prepareRecipeM (so d) pattern op names d with e | r <;> rfl

theorem untold_layerM (so : Nat → SetOrder) (shown : Option OpKind) (pattern : Str) (red : Reduction α) (kw : List (Str × Size)) :
    untold LayerMessage.kind (layerM so shown pattern red kw) = reduceLayer so pattern red kw := by
  unfold layerM reduceLayer
  rw [← erase_prepareAllDimsM]
  rcases prepareAllDimsM so pattern red.kind (kw.map Prod.fst) with (m | e) | r <;> rfl

omit [PyUnicode] in
theorem untold_reportAxes (po : SetOrder) (l : List Axis) (m : List Axis → MixMessage) (rest : PyMix α) :
    untold MixMessage.kind (reportAxes po l m rest) = if l ≠ [] then .error .einops else untold MixMessage.kind rest := by
  unfold reportAxes
  split <;> rfl

omit [PyUnicode] in
theorem ite_filter {β : Type} {γ : Type u} {p : β → Bool} {l : List β} {x y : γ} :
    (if l.filter p ≠ [] then x else y) = if l.any p = true then x else y := by
  have : l.filter p ≠ [] ↔ l.any p = true := by
    rw [Ne, List.filter_eq_nil_iff, List.any_eq_true]
    push Not
    rfl
  by_cases h : l.any p = true
  · rw [if_pos h, if_pos (this.2 h)]
  · rw [if_neg h, if_neg (fun h' => h (this.1 h'))]

omit [PyUnicode] in
theorem untold_einmixChecksM (po : SetOrder) (pattern : Str) (left right weight : ParsedExpression) (w : Str) :
    untold MixMessage.kind (einmixChecksM po pattern left right weight w) = einmixChecks left right weight w := by
  unfold einmixChecksM einmixChecks
  rw [untold_reportAxes, ite_filter]
  repeat' split
  all_goals rfl

omit [PyUnicode] in
theorem untold_einmixSizesM (po : SetOrder) (left right weight : ParsedExpression) (kw : List (Str × Size)) :
    untold MixMessage.kind (einmixSizesM po left right weight kw) = einmixSizes left right weight kw := by
  unfold einmixSizesM einmixSizes
  have h1 : ((po.order 1 weight.identifiers).find? (fun a => !hasSize kw a)).isSome =
      weight.identifiers.any (fun a => !hasSize kw a) := by
    rw [Bool.eq_iff_iff, List.find?_isSome, List.any_eq_true]
    simp only [(po.perm 1 weight.identifiers).mem_iff]
  have h2 : ((kw.map Prod.fst).dedup.map Axis.str).any (fun a => decide (a ∉ left.identifiers ++ weight.identifiers)) =
      (kw.map Prod.fst).any (fun n => decide (Axis.str n ∉ left.identifiers ++ weight.identifiers)) := by
    rw [Bool.eq_iff_iff, List.any_eq_true, List.any_eq_true]
    constructor
    · rintro ⟨a, ha, h⟩
      obtain ⟨n, hn, rfl⟩ := List.mem_map.1 ha
      exact ⟨n, List.mem_dedup.1 hn, h⟩
    · rintro ⟨n, hn, h⟩
      exact ⟨_, List.mem_map.2 ⟨n, List.mem_dedup.2 hn, rfl⟩, h⟩
  rw [← h1, ← h2]
  rcases (po.order 1 weight.identifiers).find? (fun a => !hasSize kw a) with _ | a
  · simp only [Option.isSome_none, Bool.false_eq_true, if_false]
    rw [untold_reportAxes, untold_reportAxes, ite_filter, ite_filter]
    rfl
  · rfl

omit [PyUnicode] in
theorem untold_biasLoopM (bias : List Axis) (kw : List (Str × Size)) (l : List Axis) (st : List Size × Bool) :
    untold MixMessage.kind (biasLoopM bias kw st l) = biasLoop bias kw st l := by
  induction l generalizing st with
  | nil => rfl
  | cons a l ih =>
    have hs : untold MixMessage.kind (biasStepM bias kw st a) = biasStep bias kw st a := by
      unfold biasStepM biasStep
      split
      · split <;> rfl
      · split
        · rcases sizeOf kw a with e | s <;> rfl
        · rfl
    simp only [biasLoopM, biasLoop]
    rw [← hs]
    rcases biasStepM bias kw st a with e | st'
    · rfl
    · exact ih st'

theorem untold_parseSide {M : Type} (k : M → PyErr) (f : SideMessage → M) (hk : ∀ m, k (f m) = .einops) (side : Nat) (u d : Bool)
    (s : Str) : untold k (tellingSide f (parseExpressionM side u d s)) = parseExpression side u d s := by
  rw [← erase_parseExpressionM]
  rcases parseExpressionM side u d s with m | pe
  · simp [tellingSide, untold, Told.kind, hk]
  · rfl

theorem untold_einmixBiasM (po : SetOrder) (right : ParsedExpression) (kw : List (Str × Size)) (bias : Option Str) :
    untold MixMessage.kind (einmixBiasM po right kw bias) = einmixBias right kw bias := by
  cases bias with
  | none => rfl
  | some s =>
    simp only [einmixBiasM, einmixBias]
    rw [← untold_parseSide MixMessage.kind .side (fun _ => rfl)]
    rcases tellingSide MixMessage.side (parseExpressionM 3 false false s) with e | b
    · rfl
    · change untold MixMessage.kind (reportAxes po _ _ _) = _
      rw [untold_reportAxes, untold_reportAxes, ite_filter, ite_filter]
      simp only [untold]
      split
      · rfl
      · split
        · rfl
        · rw [← untold_biasLoopM]
          rcases biasLoopM b.identifiers kw ([], false) (right.composition.flatMap CompAxis.axes) with e | st <;> rfl

theorem untold_einmixPlanM (po : SetOrder) (pattern weightShape : Str) (kw : List (Str × Size)) :
    untold MixMessage.kind (einmixPlanM po pattern weightShape kw) = einmixPlan pattern weightShape kw := by
  unfold einmixPlanM einmixPlan
  rcases splitArrow pattern with e | ⟨l, r⟩
  · rfl
  simp only
  rw [← untold_parseSide MixMessage.kind .side (fun _ => rfl)]
  rcases tellingSide MixMessage.side (parseExpressionM 0 false false l) with e | left
  · rfl
  simp only [untold]
  rw [← untold_parseSide MixMessage.kind .side (fun _ => rfl)]
  rcases tellingSide MixMessage.side (parseExpressionM 1 false false r) with e | right
  · rfl
  simp only [untold]
  rw [← untold_parseSide MixMessage.kind .side (fun _ => rfl)]
  rcases tellingSide MixMessage.side (parseExpressionM 2 false false weightShape) with e | weight
  · rfl
  simp only [untold]
  rw [← untold_einmixChecksM po pattern]
  rcases einmixChecksM po pattern left right weight weightShape with e | ⟨⟩ <;> rfl

theorem untold_makeRearrangeM (so : Nat → SetOrder) (o : Option (Str × List (Str × Size))) :
    untold MixMessage.kind (makeRearrangeM so o : PyMix (Option (Layer α))) = makeRearrange so o := by
  rcases o with _ | ⟨p, kw⟩
  · rfl
  · simp only [makeRearrangeM, makeRearrange, rearrangeLayer]
    rw [← untold_layerM so none]
    rw [show (rearrangeLayerM so p kw : PyLayer (Layer α)) = layerM so none p (.name "rearrange".toList) kw from rfl]
    rcases (layerM so none p (.name "rearrange".toList) kw : PyLayer (Layer α)) with (m | e) | l <;> rfl

theorem untold_makeEinMixM (so : Nat → SetOrder) (po : SetOrder) (pattern weightShape : Str) (bias : Option Str)
    (kw : List (Str × Size)) :
    untold MixMessage.kind (makeEinMixM so po pattern weightShape bias kw : PyMix (EinMix α)) =
      makeEinMix so pattern weightShape bias kw := by
  unfold makeEinMixM makeEinMix
  rw [← untold_einmixPlanM po]
  rcases einmixPlanM po pattern weightShape kw with e | p
  · rfl
  simp only [untold]
  rw [← untold_makeRearrangeM]
  rcases (makeRearrangeM so p.pre : PyMix (Option (Layer α))) with e | pre
  · rfl
  simp only [untold]
  rw [← untold_makeRearrangeM]
  rcases (makeRearrangeM so (p.post.map (fun s => (s, []))) : PyMix (Option (Layer α))) with e | post
  · rfl
  simp only [untold]
  rw [← untold_einmixSizesM po]
  rcases einmixSizesM po p.left p.right p.weight kw with e | ⟨⟩
  · rfl
  simp only [untold]
  rcases einmixWeight p.right p.weight kw with e | ⟨w, fan⟩
  · rfl
  simp only [telling]
  rw [← untold_einmixBiasM po]
  rcases einmixBiasM po p.right kw bias with e | b
  · rfl
  simp only [untold]
  by_cases hf : fan.val = 0
  · rw [if_pos hf, if_pos hf]
    rfl
  rw [if_neg hf, if_neg hf]
  rcases createParameters w b with e | ⟨w', b'⟩
  · rfl
  simp only
  rcases einmixEinsum p.left p.right p.weight with e | s <;> rfl

end

end Einops
