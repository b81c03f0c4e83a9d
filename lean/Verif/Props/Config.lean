import Verif.Props.Binding
import Verif.Props.EinMix

/-!
# Configurations of keras layers

`cls.from_config(layer.get_config())` makes a layer with the same behaviour, in a process with other set orders.
-/

namespace Einops

universe u

section
variable {α : Type u}

theorem configSet_new {d : List (Str × ConfigValue α)} {k : Str} (v : ConfigValue α) (h : k ∉ d.map Prod.fst) :
    configSet d k v = d ++ [(k, v)] := by
  induction d with
  | nil => rfl
  | cons p d ih =>
    rw [List.map_cons, List.mem_cons, not_or] at h
    rw [configSet, if_neg (fun hc => h.1 hc.symm), ih h.2]
    rfl

theorem withSizes_new {kw : List (Str × Size)} : ∀ {cfg : List (Str × ConfigValue α)},
    (kw.map Prod.fst).Nodup → (∀ k ∈ kw.map Prod.fst, k ∉ cfg.map Prod.fst) →
    withSizes cfg kw = cfg ++ kw.map (fun p => (p.1, .size p.2)) := by
  induction kw with
  | nil => intro cfg _ _; simp [withSizes]
  | cons p kw ih =>
    intro cfg hn h
    rw [List.map_cons, List.nodup_cons] at hn
    have h1 := h p.1 (by simp)
    unfold withSizes at ih ⊢
    rw [List.foldl_cons, configSet_new _ h1, ih hn.2]
    · simp
    · intro k hk hc
      rw [List.map_append, List.mem_append] at hc
      rcases hc with hc | hc
      · exact h k (by simp [List.mem_map.1 hk]) hc
      · simp only [List.map_cons, List.map_nil, List.mem_singleton] at hc
        exact hn.1 (hc ▸ hk)

theorem configRest_sizes {params : List Str} {kw : List (Str × Size)} (h : ∀ k ∈ kw.map Prod.fst, k ∉ params) :
    configRest params (kw.map (fun p => (p.1, (.size p.2 : ConfigValue α)))) = .ok kw := by
  induction kw with
  | nil => rfl
  | cons p kw ih =>
    rw [List.map_cons, configRest, ih (fun k hk => h k (List.mem_cons_of_mem _ hk))]
    simp only
    rw [if_neg (h p.1 (by simp))]

theorem configRest_append {params : List Str} {c d : List (Str × ConfigValue α)} (h : ∀ k ∈ c.map Prod.fst, k ∈ params) :
    configRest params (c ++ d) = configRest params d := by
  induction c with
  | nil => rfl
  | cons p c ih =>
    rw [List.cons_append, configRest, ih (fun k hk => h k (List.mem_cons_of_mem _ hk))]
    cases configRest params d with
    | error e => rfl
    | ok r => simp only; rw [if_pos (h p.1 (by simp))]

theorem configGet_here (d : List (Str × ConfigValue α)) (k : Str) (v : ConfigValue α) :
    configGet ((k, v) :: d) k = some v := by
  rw [configGet, if_pos rfl]

theorem configGet_next (d : List (Str × ConfigValue α)) {k k' : Str} (v : ConfigValue α) (h : k' ≠ k) :
    configGet ((k', v) :: d) k = configGet d k := by
  rw [configGet, if_neg h]

theorem config_keys (cfg : List (Str × ConfigValue α)) (kw : List (Str × Size)) :
    (cfg ++ kw.map (fun p => (p.1, (.size p.2 : ConfigValue α)))).map Prod.fst = cfg.map Prod.fst ++ kw.map Prod.fst := by
  simp [Function.comp_def]

end

section
variable {α : Type u} [PyUnicode] {pattern weight : Str} {kw : List (Str × Size)} {red : Reduction α}
  {bias : Option Str} {l : Layer α}

/-- two layers that cannot be told apart -/
structure SameLayer (l l' : Layer α) : Prop where
  pattern : l'.pattern = l.pattern
  reduction : l'.reduction = l.reduction
  sizes : l'.axesLengths = l.axesLengths
  apply : ∀ (b : Backend α) x, l'.apply b x = l.apply b x
  torch : ∀ (E : ElemOps α) x, l'.forwardTorch E x = l.forwardTorch E x

theorem reduceLayer_order {so : Nat → SetOrder} (hell : '…' ∉ pattern) (hkw : (kw.map Prod.fst).Nodup)
    (h : reduceLayer so pattern red kw = .ok l) (so' : Nat → SetOrder) :
    ∃ l', reduceLayer so' pattern red kw = .ok l' ∧ SameLayer l l' := by
  obtain ⟨l', h1, h2, h3⟩ := C32_pickle hell hkw h so'
  obtain ⟨m, -, rfl⟩ := reduceLayer_inv h
  obtain ⟨m', -, rfl⟩ := reduceLayer_inv h1
  exact ⟨_, h1, rfl, rfl, rfl, h2, h3⟩

/-- **C53** `Rearrange.from_config(layer.get_config())` works and is the same layer, for every layer that was
constructed. -/
theorem C53_rearrange {so : Nat → SetOrder} (hell : '…' ∉ pattern) (hkw : (kw.map Prod.fst).Nodup)
    (h : pyRearrangeLayer so pattern kw = .ok l) (so' : Nat → SetOrder) :
    ∃ l', rearrangeFromConfig so' l.rearrangeConfig = .ok l' ∧ SameLayer l l' := by
  by_cases hav : Avoids ["self".toList, "pattern".toList] kw
  swap
  · rw [pyRearrangeLayer, bindRest_error hav] at h
    cases h
  rw [pyRearrangeLayer, bindRest_ok hav] at h
  obtain ⟨l', h1, h2⟩ := reduceLayer_order hell hkw h so'
  obtain ⟨m, -, rfl⟩ := reduceLayer_inv h
  refine ⟨l', ?_, h2⟩
  unfold Layer.rearrangeConfig
  simp only
  have hk : ∀ k ∈ kw.map Prod.fst, k ∉ ["pattern".toList] := fun k hk => hav.mono (by simp) k hk
  rw [withSizes_new hkw (by simpa using hk)]
  unfold rearrangeFromConfig
  rw [if_neg, configRest_append (by simp), configRest_sizes hk]
  · rw [List.cons_append, configGet_here]
    simp only
    rw [pyRearrangeLayer, bindRest_ok hav]
    exact h1
  · rw [config_keys, List.mem_append, not_or]
    exact ⟨(by decide : "self".toList ∉ ["pattern".toList]), fun hc => hav _ hc (by simp)⟩

/-- **C53** `Reduce.from_config(layer.get_config())` -/
theorem C53_reduce {so : Nat → SetOrder} (hell : '…' ∉ pattern) (hkw : (kw.map Prod.fst).Nodup)
    (h : pyReduceLayer so pattern red kw = .ok l) (so' : Nat → SetOrder) :
    ∃ l', reduceFromConfig so' l.reduceConfig = .ok l' ∧ SameLayer l l' := by
  by_cases hav : Avoids ["self".toList, "pattern".toList, "reduction".toList] kw
  swap
  · rw [pyReduceLayer, bindRest_error hav] at h
    cases h
  rw [pyReduceLayer, bindRest_ok hav] at h
  obtain ⟨l', h1, h2⟩ := reduceLayer_order hell hkw h so'
  obtain ⟨m, -, rfl⟩ := reduceLayer_inv h
  refine ⟨l', ?_, h2⟩
  unfold Layer.reduceConfig
  simp only
  have hk : ∀ k ∈ kw.map Prod.fst, k ∉ ["pattern".toList, "reduction".toList] := fun k hk => hav.mono (by simp) k hk
  rw [withSizes_new hkw (by simpa using hk)]
  unfold reduceFromConfig
  rw [if_neg, configRest_append (by simp), configRest_sizes hk]
  · rw [List.cons_append, configGet_here, configGet_next _ _ (by decide), List.cons_append, configGet_here]
    simp only
    rw [pyReduceLayer, bindRest_ok hav]
    exact h1
  · rw [config_keys, List.mem_append, not_or]
    exact ⟨(by decide : "self".toList ∉ ["pattern".toList, "reduction".toList]), fun hc => hav _ hc (by simp)⟩

/-- the layers of `EinMix` are the same -/
inductive SameOpt : Option (Layer α) → Option (Layer α) → Prop
  | none : SameOpt none none
  | some {l l'} : SameLayer l l' → SameOpt (some l) (some l')

theorem makeRearrange_order {so : Nat → SetOrder} {o : Option (Str × List (Str × Size))}
    (ho : ∀ p, o = some p → '…' ∉ p.1 ∧ (p.2.map Prod.fst).Nodup) {r : Option (Layer α)} (h : makeRearrange so o = .ok r)
    (so' : Nat → SetOrder) : ∃ r', makeRearrange so' o = .ok r' ∧ SameOpt r r' := by
  cases o with
  | none => cases h; exact ⟨none, rfl, .none⟩
  | some p =>
    obtain ⟨p, kw⟩ := p
    obtain ⟨h1, h2⟩ := ho _ rfl
    unfold makeRearrange at h
    simp only at h
    cases hl : (rearrangeLayer so p kw : Py (Layer α)) with
    | error e => rw [hl] at h; cases h
    | ok l =>
      rw [hl] at h
      cases h
      obtain ⟨l', h3, h4⟩ := reduceLayer_order h1 h2 hl so'
      refine ⟨some l', ?_, .some h4⟩
      unfold makeRearrange
      simp only
      rw [rearrangeLayer, h3]

omit [PyUnicode] in
theorem intercalate_no_ell : ∀ {ws : List Str}, (∀ w ∈ ws, '…' ∉ w) → '…' ∉ List.intercalate [' '] ws
  | [], _ => by simp [List.intercalate]
  | [w], h => by simpa [List.intercalate] using h w (by simp)
  | w :: v :: ws, h => by
    have ih := intercalate_no_ell (ws := v :: ws) (fun u hu => h u (List.mem_cons_of_mem _ hu))
    rw [List.intercalate] at ih ⊢
    rw [List.intersperse_cons_cons, List.flatten_cons, List.flatten_cons]
    simp only [List.mem_append, not_or]
    exact ⟨h w (by simp), by decide, ih⟩

theorem einmixPlan_patterns (hp : '…' ∉ pattern) (hw : '…' ∉ weight) {p : EinmixPlan}
    (h : einmixPlan pattern weight kw = .ok p) :
    (∀ q, p.pre = some q → '…' ∉ q.1 ∧ ∃ f, q.2 = kw.filter f) ∧ ∀ q, p.post = some q → '…' ∉ q := by
  cases hs : splitArrow pattern with
  | error e => rw [einmixPlan, hs] at h; cases h
  | ok lr =>
    obtain ⟨l, r⟩ := lr
    rcases einmixPlan_cases hp hw hs kw with ⟨GL, GR, GW, hl, hr, -, hc, he⟩ | ⟨-, he⟩
    swap
    · rw [he] at h; cases h
    rw [he] at h
    cases h
    simp only
    constructor
    · intro q hq
      unfold preReshape at hq
      rw [show (describe 0 GL).composition = GL.map unitComp from denote_unitComp hc.units_left,
        flatNames_units (side_no_ell hl)] at hq
      split at hq
      · cases hq
        refine ⟨?_, _, rfl⟩
        simp only [List.mem_append, not_or]
        exact ⟨⟨isSide_no_special hl (by simp), by decide⟩,
          intercalate_no_ell (fun w hw => side_no_ell hl w (mem_axisWords.1 hw).1)⟩
      · cases hq
    · intro q hq
      unfold postReshape at hq
      rw [show (describe 1 GR).composition = GR.map unitComp from denote_unitComp hc.units_right,
        flatNames_units (side_no_ell hr)] at hq
      split at hq
      · cases hq
        simp only [List.mem_append, not_or]
        exact ⟨⟨intercalate_no_ell (fun w hw => side_no_ell hr w (mem_axisWords.1 hw).1), by decide⟩,
          isSide_no_special hr (by simp)⟩
      · cases hq

/-- `EinMix` layers that cannot be told apart: the same parameters are created (with starting values in the same range), and with equal values of the parameters
the outcome is the same on every input. -/
structure SameMix (m m' : EinMix α) : Prop where
  weight : m'.weightShape = m.weightShape
  bias : m'.biasShape = m.biasShape
  start : m'.fanIn = m.fanIn
  forward : ∀ [Add α] (f : Str → List (Tensor α) → Py (Tensor α)) (w : Tensor α) (c : Option (Tensor α)) (x : Tensor α),
    (∀ b : Backend α, m'.forward (Layer.apply b) f w c x = m.forward (Layer.apply b) f w c x) ∧
    (∀ E : ElemOps α, m'.forward (Layer.forwardTorch E) f w c x = m.forward (Layer.forwardTorch E) f w c x)

omit [PyUnicode] in
theorem SameOpt.call {r r' : Option (Layer α)} (h : SameOpt r r') (x : Tensor α) :
    (∀ b : Backend α, callOpt (Layer.apply b) r' x = callOpt (Layer.apply b) r x) ∧
    (∀ E : ElemOps α, callOpt (Layer.forwardTorch E) r' x = callOpt (Layer.forwardTorch E) r x) := by
  cases h with
  | none => exact ⟨fun _ => rfl, fun _ => rfl⟩
  | some h => exact ⟨fun b => h.apply b x, fun E => h.torch E x⟩

theorem makeEinMix_order {so : Nat → SetOrder} (hp : '…' ∉ pattern) (hw : '…' ∉ weight)
    (hkw : (kw.map Prod.fst).Nodup) {m : EinMix α} (h : makeEinMix so pattern weight bias kw = .ok m)
    (so' : Nat → SetOrder) : ∃ m', makeEinMix so' pattern weight bias kw = .ok m' ∧ SameMix m m' := by
  unfold makeEinMix at h ⊢
  cases hpl : einmixPlan pattern weight kw with
  | error e => rw [hpl] at h; cases h
  | ok p =>
    rw [hpl] at h
    simp only at h ⊢
    obtain ⟨h1, h2⟩ := einmixPlan_patterns hp hw hpl
    cases hpre : (makeRearrange so p.pre : Py (Option (Layer α))) with
    | error e => rw [hpre] at h; cases h
    | ok pre =>
      rw [hpre] at h
      simp only at h
      obtain ⟨pre', e1, s1⟩ := makeRearrange_order (fun q hq => by
        obtain ⟨h3, f, h4⟩ := h1 q hq
        exact ⟨h3, by rw [h4]; exact hkw.sublist (List.filter_sublist.map _)⟩) hpre so'
      rw [e1]
      simp only
      cases hpost : (makeRearrange so (p.post.map (fun s => (s, []))) : Py (Option (Layer α))) with
      | error e => rw [hpost] at h; cases h
      | ok post =>
        rw [hpost] at h
        simp only at h
        obtain ⟨post', e2, s2⟩ := makeRearrange_order (fun q hq => by
          obtain ⟨s, hs, rfl⟩ := Option.map_eq_some_iff.1 hq
          exact ⟨h2 s hs, List.nodup_nil⟩) hpost so'
        rw [e2]
        simp only
        split at h
        · cases h
        split at h
        · cases h
        split at h
        · cases h
        split at h
        · cases h
        rename_i h5
        rw [if_neg h5]
        split at h
        · cases h
        split at h
        · cases h
        cases h
        refine ⟨_, rfl, rfl, rfl, rfl, ?_⟩
        intro _ f w c x
        unfold EinMix.forward
        simp only [(s1.call x).1, (s1.call x).2, fun y => (s2.call y).1, fun y => (s2.call y).2, implies_true, and_self]

/-- **C53** `EinMix.from_config(layer.get_config())` works and is the same layer up to the values of the parameters. -/
theorem C53_einmix {so : Nat → SetOrder} (hp : '…' ∉ pattern) (hw : '…' ∉ weight) (hkw : (kw.map Prod.fst).Nodup)
    {l : EinMixLayer α} (h : pyEinMix so pattern weight bias kw = .ok l) (so' : Nat → SetOrder) :
    ∃ l', einMixFromConfig so' l.config = .ok l' ∧ SameMix l.mix l'.mix ∧ l'.config = l.config := by
  by_cases hav : Avoids ["self".toList, "pattern".toList, "weight_shape".toList, "bias_shape".toList] kw
  swap
  · rw [pyEinMix, bindRest_error hav] at h
    cases h
  rw [pyEinMix, bindRest_ok hav] at h
  simp only at h
  cases hm : (makeEinMix so pattern weight bias kw : Py (EinMix α)) with
  | error e => rw [hm] at h; cases h
  | ok m =>
    rw [hm] at h
    cases h
    obtain ⟨m', h1, h2⟩ := makeEinMix_order hp hw hkw hm so'
    refine ⟨⟨pattern, weight, bias, kw, m'⟩, ?_, h2, rfl⟩
    unfold EinMixLayer.config
    simp only
    have hk : ∀ k ∈ kw.map Prod.fst, k ∉ ["pattern".toList, "weight_shape".toList, "bias_shape".toList] :=
      fun k hk => hav.mono (by simp) k hk
    have h3 : pyEinMix so' pattern weight bias kw = .ok ⟨pattern, weight, bias, kw, m'⟩ := by
      rw [pyEinMix, bindRest_ok hav]
      simp only
      rw [h1]
    rw [withSizes_new hkw (by simpa using hk)]
    unfold einMixFromConfig
    rw [if_neg, configRest_append (by simp), configRest_sizes hk]
    · rw [List.cons_append, configGet_here, configGet_next _ _ (by decide), configGet_next _ _ (by decide), List.cons_append,
        configGet_here, configGet_next _ _ (by decide), List.cons_append, configGet_here]
      simp only
      cases bias with
      | none => exact h3
      | some s => exact h3
    · rw [config_keys, List.mem_append, not_or]
      exact ⟨(by decide : "self".toList ∉ ["pattern".toList, "weight_shape".toList, "bias_shape".toList]), fun hc => hav _ hc (by simp)⟩

end

/-! ### Examples -/

section
attribute [local instance] asciiUnicode

-- an axis called `reduction` in a `Rearrange` layer
example : (pyRearrangeLayer (fun _ => idOrder) "(reduction w) c -> reduction w c".toList [kwInt "reduction" 2] :
      Py (Layer Int)).map (fun l => l.rearrangeConfig.map Prod.fst) =
    .ok ["pattern".toList, "reduction".toList] := by rfl
example : callLayer ((pyRearrangeLayer (fun _ => idOrder) "(reduction w) c -> reduction w c".toList
      [kwInt "reduction" 2]).bind (fun l => rearrangeFromConfig (fun _ => revOrder) l.rearrangeConfig))
      (fun l => l.apply (numpyBackend intOps true) t43) = .ok ⟨[2, 2, 3], t43.data, rfl⟩ := by rfl
example : callLayer ((pyReduceLayer (fun _ => idOrder) "(a w) c -> a c".toList (.name "max".toList)
      [kwInt "a" 2]).bind (fun l => reduceFromConfig (fun _ => revOrder) l.reduceConfig))
      (fun l => l.apply (numpyBackend intOps true) t43) = .ok ⟨[2, 3], [3, 4, 5, 9, 10, 11], rfl⟩ := by rfl
example : ((pyEinMix (fun _ => idOrder) "(a b) c -> (a d)".toList "b c d".toList (some "d".toList)
      [kwInt "a" 2, kwInt "b" 2, kwInt "c" 3, kwInt "d" 1] : Py (EinMixLayer Int)).bind
      (fun l => einMixFromConfig (fun _ => revOrder) l.config)).map (fun l => (l.mix.weightShape, l.mix.biasShape)) =
    .ok ([2, 3, 1], some [1, 1]) := by rfl

end

end Einops
