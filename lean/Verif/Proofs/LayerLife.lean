import Verif.LayerLife
import Verif.Proofs.EinMixMake
import Verif.Proofs.EinMixSizes

/-!
# Proofs about when `EinMix` layers check their arguments
-/

namespace Einops

universe u

/-! ### The string for `einsum` -/

theorem mapE_fails {β γ : Type*} {g : β → Py γ} {e : PyErr} (hg : ∀ b e', g b = .error e' → e' = e) :
    ∀ (l : List β) (e' : PyErr), mapE g l = .error e' → e' = e
  | [], _, h => by cases h
  | b :: l, e', h => by
    unfold mapE at h
    rcases hb : g b with e1 | c
    · rw [hb] at h
      cases h
      exact hg b _ hb
    · rw [hb] at h
      rcases hl : mapE g l with e2 | cs
      · simp only [hl] at h
        cases h
        exact mapE_fails hg l _ hl
      · simp [hl] at h

theorem writeFlat_fails {m : List (Str × Str)} {c : List CompAxis} {e : PyErr} (h : writeFlat m c = .error e) : e = .key := by
  unfold writeFlat at h
  rcases hm : mapE (writeGroup m) c with e1 | ss
  · rw [hm] at h
    cases h
    refine mapE_fails (fun b e' hb => ?_) c _ hm
    cases b with
    | ell => cases hb
    | group g =>
      simp only [writeGroup] at hb
      split at hb
      · rename_i e2 h2
        cases hb
        refine mapE_fails (fun a e' ha => ?_) g _ h2
        cases a with
        | str s =>
          simp only [dictGetE] at ha
          split at ha <;> cases ha
          rfl
        | anon => cases ha; rfl
      · cases hb
  · rw [hm] at h
    cases h

theorem einmixEinsum_fails {left right weight : ParsedExpression} {e : PyErr}
    (h : einmixEinsum left right weight = .error e) : e = .key := by
  unfold einmixEinsum at h
  simp only at h
  split at h
  · rename_i h1
    cases h
    exact writeFlat_fails h1
  split at h
  · rename_i h1
    cases h
    exact writeFlat_fails h1
  split at h
  · rename_i h1
    cases h
    exact writeFlat_fails h1
  · cases h

theorem createParameters_fails {w : List Size} {b : Option (List Size)} {e : PyErr}
    (h : createParameters w b = .error e) : e = .backend := by
  rcases createParameters_cases w b with ⟨-, -, h1⟩ | ⟨-, h1⟩ <;> rw [h1] at h <;> cases h
  rfl

/-! ### Negative lengths -/

theorem sizeOf_nonneg {kw : List (Str × Size)} (hk : ∀ p ∈ kw, 0 ≤ p.2.val) {a : Axis} {s : Size} (h : sizeOf kw a = .ok s) :
    0 ≤ s.val := by
  cases a with
  | anon => cases h
  | str n =>
    simp only [sizeOf, dictGetE] at h
    split at h
    · rename_i v hv
      cases h
      exact hk _ (dictGet_mem hv)
    · cases h

theorem mapE_sizes {kw : List (Str × Size)} (hk : ∀ p ∈ kw, 0 ≤ p.2.val) : ∀ (l : List Axis) (ss : List Size),
    mapE (sizeOf kw) l = .ok ss → ∀ s ∈ ss, 0 ≤ s.val
  | [], ss, h, s, hs => by
    cases h
    cases hs
  | a :: l, ss, h, s, hs => by
    unfold mapE at h
    rcases ha : sizeOf kw a with e | c
    · rw [ha] at h
      cases h
    rw [ha] at h
    rcases hl : mapE (sizeOf kw) l with e | cs
    · simp only [hl] at h
      cases h
    simp only [hl] at h
    cases h
    rcases List.mem_cons.1 hs with rfl | hs
    · exact sizeOf_nonneg hk ha
    · exact mapE_sizes hk l cs hl s hs

theorem einmixWeight_nonneg {right weight : ParsedExpression} {kw : List (Str × Size)} (hk : ∀ p ∈ kw, 0 ≤ p.2.val)
    {w : List Size} {fan : Size} (h : einmixWeight right weight kw = .ok (w, fan)) : ∀ s ∈ w, 0 ≤ s.val := by
  unfold einmixWeight at h
  split at h
  · cases h
  split at h
  · cases h
  rename_i h1
  split at h
  · cases h
  cases h
  exact mapE_sizes hk _ _ h1

theorem biasLoop_nonneg {bias : List Axis} {kw : List (Str × Size)} (hk : ∀ p ∈ kw, 0 ≤ p.2.val) :
    ∀ (as : List Axis) (st st' : List Size × Bool), (∀ s ∈ st.1, 0 ≤ s.val) → biasLoop bias kw st as = .ok st' →
      ∀ s ∈ st'.1, 0 ≤ s.val
  | [], st, st', h0, h => by
    cases h
    exact h0
  | a :: as, st, st', h0, h => by
    unfold biasLoop at h
    rcases hb : biasStep bias kw st a with e | st1
    · rw [hb] at h
      cases h
    rw [hb] at h
    refine biasLoop_nonneg hk as st1 st' ?_ h
    unfold biasStep at hb
    split at hb
    · split at hb <;> cases hb
      exact h0
    split at hb
    · split at hb
      · cases hb
      rename_i s hs
      cases hb
      intro s' h'
      rcases List.mem_append.1 h' with h' | h'
      · exact h0 s' h'
      · obtain rfl := List.mem_singleton.1 h'
        exact sizeOf_nonneg hk hs
    · cases hb
      intro s' h'
      rcases List.mem_append.1 h' with h' | h'
      · exact h0 s' h'
      · obtain rfl := List.mem_singleton.1 h'
        exact Int.one_nonneg

theorem einmixBias_nonneg [PyUnicode] {right : ParsedExpression} {kw : List (Str × Size)} (hk : ∀ p ∈ kw, 0 ≤ p.2.val)
    {bias : Option Str} {b : List Size} (h : einmixBias right kw bias = .ok (some b)) : ∀ s ∈ b, 0 ≤ s.val := by
  cases bias with
  | none => cases h
  | some t =>
    simp only [einmixBias] at h
    split at h
    · cases h
    split at h
    · cases h
    split at h
    · cases h
    split at h
    · cases h
    rename_i st hst
    cases h
    exact biasLoop_nonneg hk _ ([], false) st (by simp) hst

section
variable {α : Type u} [PyUnicode] {so : Nat → SetOrder} {pattern weight : Str} {bias : Option Str} {kw : List (Str × Size)}

/-! ### tensorflow -/

/-- what the constructors of torch and of tensorflow do with the same arguments -/
theorem keras_cases (so : Nat → SetOrder) (pattern weight : Str) (bias : Option Str) (kw : List (Str × Size)) :
    (∃ k : KerasEinMix α, kerasInit so pattern weight bias kw = .ok k ∧ makeEinMix so pattern weight bias kw = k.build) ∨
    (∃ e, (kerasInit so pattern weight bias kw : Py (KerasEinMix α)) = .error e ∧
      (makeEinMix so pattern weight bias kw : Py (EinMix α)) = .error e) ∨
    ((kerasInit so pattern weight bias kw : Py (KerasEinMix α)) = .error .key ∧
      (makeEinMix so pattern weight bias kw : Py (EinMix α)) = .error .backend) := by
  unfold kerasInit makeEinMix
  rcases einmixPlan pattern weight kw with e | p
  · exact .inr (.inl ⟨e, rfl, rfl⟩)
  simp only
  rcases makeRearrange (α := α) so p.pre with e | pre
  · exact .inr (.inl ⟨e, rfl, rfl⟩)
  simp only
  rcases makeRearrange (α := α) so (p.post.map (fun s => (s, []))) with e | post
  · exact .inr (.inl ⟨e, rfl, rfl⟩)
  simp only
  rcases einmixSizes p.left p.right p.weight kw with e | ⟨⟩
  · exact .inr (.inl ⟨e, rfl, rfl⟩)
  simp only
  rcases einmixWeight p.right p.weight kw with e | ⟨w, fan⟩
  · exact .inr (.inl ⟨e, rfl, rfl⟩)
  simp only
  rcases einmixBias p.right kw bias with e | b
  · exact .inr (.inl ⟨e, rfl, rfl⟩)
  simp only
  by_cases hf : fan.val = 0
  · rw [if_pos hf, if_pos hf]
    exact .inr (.inl ⟨_, rfl, rfl⟩)
  rw [if_neg hf, if_neg hf]
  rcases hs : einmixEinsum p.left p.right p.weight with e | s
  · obtain rfl := einmixEinsum_fails hs
    rcases hc : createParameters w b with e | ⟨w', b'⟩
    · obtain rfl := createParameters_fails hc
      exact .inr (.inr ⟨rfl, rfl⟩)
    · exact .inr (.inl ⟨_, rfl, rfl⟩)
  · refine .inl ⟨_, rfl, ?_⟩
    unfold KerasEinMix.build
    rcases createParameters w b with e | ⟨w', b'⟩ <;> rfl

/-- without negative sizes the constructors of torch and of tensorflow do the same -/
theorem keras_nonneg (hk : ∀ p ∈ kw, 0 ≤ p.2.val) :
    (∃ (k : KerasEinMix α) (m : EinMix α), kerasInit so pattern weight bias kw = .ok k ∧ k.build = .ok m ∧
      makeEinMix so pattern weight bias kw = .ok m) ∨
    ∃ e, (kerasInit so pattern weight bias kw : Py (KerasEinMix α)) = .error e ∧
      (makeEinMix so pattern weight bias kw : Py (EinMix α)) = .error e := by
  unfold kerasInit makeEinMix
  rcases einmixPlan pattern weight kw with e | p
  · exact .inr ⟨e, rfl, rfl⟩
  simp only
  rcases makeRearrange (α := α) so p.pre with e | pre
  · exact .inr ⟨e, rfl, rfl⟩
  simp only
  rcases makeRearrange (α := α) so (p.post.map (fun s => (s, []))) with e | post
  · exact .inr ⟨e, rfl, rfl⟩
  simp only
  rcases einmixSizes p.left p.right p.weight kw with e | ⟨⟩
  · exact .inr ⟨e, rfl, rfl⟩
  simp only
  rcases hw : einmixWeight p.right p.weight kw with e | ⟨w, fan⟩
  · exact .inr ⟨e, rfl, rfl⟩
  simp only
  rcases hb : einmixBias p.right kw bias with e | b
  · exact .inr ⟨e, rfl, rfl⟩
  simp only
  by_cases hf : fan.val = 0
  · rw [if_pos hf, if_pos hf]
    exact .inr ⟨_, rfl, rfl⟩
  rw [if_neg hf, if_neg hf]
  have h1 : createParameters w b = .ok (w.map (fun d => d.val.toNat), b.map (fun b => b.map (fun d => d.val.toNat))) := by
    rcases createParameters_cases w b with ⟨-, -, h⟩ | ⟨h, -⟩
    · exact h
    · refine absurd ⟨einmixWeight_nonneg hk hw, ?_⟩ h
      rintro b' rfl
      exact einmixBias_nonneg hk hb
  rw [h1]
  simp only
  rcases einmixEinsum p.left p.right p.weight with e | s
  · exact .inr ⟨e, rfl, rfl⟩
  · refine .inl ⟨_, _, rfl, ?_, rfl⟩
    simp only [KerasEinMix.build, h1]

theorem build_fails {k : KerasEinMix α} {e : PyErr} (h : k.build = .error e) : e = .backend := by
  unfold KerasEinMix.build at h
  split at h
  · rename_i h1
    cases h
    exact createParameters_fails h1
  · cases h

/-- a layer that is built keeps its parameters -/
theorem calls_built [Add α] (call : Layer α → Tensor α → Py (Tensor α)) (f : Str → List (Tensor α) → Py (Tensor α))
    (draws : Nat → List Nat → Option (List Nat) → Tensor α × Option (Tensor α)) (k : KerasEinMix α) (m : EinMix α)
    (w : Tensor α) (b : Option (Tensor α)) : ∀ (xs : List (Tensor α)) (t : Nat),
      KerasObject.calls call f draws t ⟨k, some (m, w, b)⟩ xs = xs.map (fun x => m.forwardNew call f w b x)
  | [], _ => rfl
  | x :: xs, t => by
    rw [List.map_cons, ← calls_built call f draws k m w b xs (t + 1)]
    rfl

theorem calls_ok [Add α] (call : Layer α → Tensor α → Py (Tensor α)) (f : Str → List (Tensor α) → Py (Tensor α))
    (draws : Nat → List Nat → Option (List Nat) → Tensor α × Option (Tensor α)) {k : KerasEinMix α} {m : EinMix α}
    (h : k.build = .ok m) (t : Nat) (xs : List (Tensor α)) : KerasObject.calls call f draws t ⟨k, none⟩ xs = xs.map (fun x =>
      m.forwardNew call f (draws t m.weightShape m.biasShape).1 (draws t m.weightShape m.biasShape).2 x) := by
  cases xs with
  | nil => rfl
  | cons x xs =>
    unfold KerasObject.calls
    simp only [KerasObject.call, h, List.map_cons]
    rw [calls_built]

theorem calls_err [Add α] (call : Layer α → Tensor α → Py (Tensor α)) (f : Str → List (Tensor α) → Py (Tensor α))
    (draws : Nat → List Nat → Option (List Nat) → Tensor α × Option (Tensor α)) {k : KerasEinMix α} {e : PyErr}
    (h : k.build = .error e) : ∀ (t : Nat) (xs : List (Tensor α)),
      KerasObject.calls call f draws t ⟨k, none⟩ xs = xs.map (fun _ => .error e)
  | _, [] => rfl
  | t, x :: xs => by
    unfold KerasObject.calls
    simp only [KerasObject.call, h, List.map_cons]
    rw [calls_err call f draws h (t + 1) xs]

omit [PyUnicode] in
/-- a bias added in place is added to a new tensor in the same way -/
theorem forwardNew_of_inplace [Add α] {call : Layer α → Tensor α → Py (Tensor α)}
    {f : Str → List (Tensor α) → Py (Tensor α)} {m : EinMix α} {w : Tensor α} {b : Option (Tensor α)} {x y : Tensor α}
    (hy : m.forward call f w b x = .ok y) : m.forwardNew call f w b x = .ok y := by
  unfold EinMix.forward at hy
  unfold EinMix.forwardNew
  rcases h1 : callOpt call m.pre x with e | x1
  · rw [h1] at hy
    cases hy
  rw [h1] at hy
  simp only at hy ⊢
  rcases h2 : f m.einsumPattern [x1, w] with e | y0
  · rw [h2] at hy
    cases hy
  rw [h2] at hy
  simp only at hy ⊢
  rcases h : addOptBias y0 b with e | y1
  · rw [h] at hy
    cases hy
  rw [h] at hy
  have h5 : addOptNew y0 b = .ok y1 := by
    cases b with
    | none => exact h
    | some b => exact addNew_of_addBias h
  rw [h5]
  exact hy

/-! ### flax -/

theorem setup_ok {m : FlaxEinMix} {s : FlaxBound} (h : m.setup = .ok s) :
    ∃ p, einmixPlan m.pattern m.weightShape m.sizes = .ok p ∧ s.pre = p.pre ∧ s.post = p.post.map (fun s => (s, [])) := by
  unfold FlaxEinMix.setup at h
  rcases hp : einmixPlan m.pattern m.weightShape m.sizes with e | p
  · rw [hp] at h
    cases h
  rw [hp] at h
  simp only at h
  split at h
  · cases h
  split at h
  · cases h
  split at h
  · cases h
  split at h
  · cases h
  split at h
  · cases h
  split at h
  · cases h
  cases h
  exact ⟨p, rfl, rfl, rfl⟩

/-- the constructor of torch makes the inner layers before the checks of the sizes, `setup` of flax does not make them -/
theorem make_setup (so : Nat → SetOrder) (m : FlaxEinMix) :
    (makeEinMix so m.pattern m.weightShape m.biasShape m.sizes : Py (EinMix α)) =
      match einmixPlan m.pattern m.weightShape m.sizes with
      | .error e => .error e
      | .ok p =>
        match makeRearrange so p.pre with
        | .error e => .error e
        | .ok pre =>
          match makeRearrange so (p.post.map (fun s => (s, []))) with
          | .error e => .error e
          | .ok post =>
            match m.setup with
            | .error e => .error e
            | .ok s => .ok ⟨pre, post, s.weightShape, s.biasShape, s.einsumPattern, s.fanIn⟩ := by
  unfold makeEinMix FlaxEinMix.setup
  rcases einmixPlan m.pattern m.weightShape m.sizes with e | p
  · rfl
  simp only
  rcases makeRearrange (α := α) so p.pre with e | pre
  · rfl
  simp only
  rcases makeRearrange (α := α) so (p.post.map (fun s => (s, []))) with e | post
  · rfl
  simp only
  rcases einmixSizes p.left p.right p.weight m.sizes with e | ⟨⟩
  · rfl
  simp only
  rcases einmixWeight p.right p.weight m.sizes with e | ⟨w, fan⟩
  · rfl
  simp only
  rcases einmixBias p.right m.sizes m.biasShape with e | b
  · rfl
  simp only
  by_cases hf : fan.val = 0
  · rw [if_pos hf, if_pos hf]
  rw [if_neg hf, if_neg hf]
  rcases createParameters w b with e | ⟨w', b'⟩
  · rfl
  simp only
  rcases einmixEinsum p.left p.right p.weight with e | s <;> rfl

theorem bindRest_free {ν : Type*} {given : List Str} {kw : List (Str × ν)} (h : ∀ n ∈ given, n ∉ kw.map Prod.fst) :
    bindRest given kw = .ok kw := by
  unfold bindRest
  rw [if_neg]
  rw [List.any_eq_true]
  rintro ⟨q, h1, h2⟩
  exact h q.1 (of_decide_eq_true h2) (List.mem_map_of_mem h1)

theorem bindRest_taken {ν : Type*} {given : List Str} {kw : List (Str × ν)} {n : Str} (hn : n ∈ given)
    (h : n ∈ kw.map Prod.fst) : bindRest given kw = .error .type := by
  unfold bindRest
  rw [if_pos]
  obtain ⟨q, h1, rfl⟩ := List.mem_map.1 h
  exact List.any_eq_true.2 ⟨q, h1, decide_eq_true hn⟩

/-- an inner module whose sizes avoid the parameters of `RearrangeMixin` is the layer that torch makes beforehand -/
theorem flaxOpt_ok (so : Nat → SetOrder) (call : Layer α → Tensor α → Py (Tensor α)) (q : Option (Str × List (Str × Size)))
    (h : ∀ p kw, q = some (p, kw) → ∀ n ∈ ["self".toList, "pattern".toList], n ∉ kw.map Prod.fst) {l : Option (Layer α)}
    (hl : makeRearrange so q = .ok l) (x : Tensor α) : flaxOpt so call q x = callOpt call l x := by
  cases q with
  | none =>
    cases hl
    rfl
  | some q =>
    obtain ⟨p, kw⟩ := q
    unfold makeRearrange at hl
    simp only at hl
    rcases hr : rearrangeLayer (α := α) so p kw with e | l'
    · rw [hr] at hl
      cases hl
    rw [hr] at hl
    cases hl
    simp only [flaxOpt, flaxRearrange, pyRearrangeLayer, bindRest_free (h p kw rfl), hr, callOpt]

/-- a layer that torch does not make cannot be called in flax either -/
theorem flaxOpt_err (so : Nat → SetOrder) (call : Layer α → Tensor α → Py (Tensor α)) (q : Option (Str × List (Str × Size)))
    {e : PyErr} (hl : (makeRearrange so q : Py (Option (Layer α))) = .error e) (x : Tensor α) :
    ∃ e', flaxOpt so call q x = .error e' := by
  cases q with
  | none => cases hl
  | some q =>
    obtain ⟨p, kw⟩ := q
    unfold makeRearrange at hl
    simp only at hl
    rcases hr : rearrangeLayer (α := α) so p kw with e' | l'
    · simp only [flaxOpt, flaxRearrange, pyRearrangeLayer]
      rcases hb : bindRest ["self".toList, "pattern".toList] kw with e2 | kw'
      · exact ⟨_, rfl⟩
      · have : kw' = kw := by
          unfold bindRest at hb
          split at hb <;> cases hb
          rfl
        subst this
        simp only [hr]
        exact ⟨_, rfl⟩
    · rw [hr] at hl
      cases hl

theorem preReshape_kw {l : Str} {left : ParsedExpression} {kw : List (Str × Size)} {p : Str} {kw' : List (Str × Size)}
    (h : preReshape l left kw = some (p, kw')) : ∀ n ∈ kw'.map Prod.fst, n ∈ kw.map Prod.fst := by
  unfold preReshape at h
  split at h
  · cases h
    intro n hn
    obtain ⟨q, h1, rfl⟩ := List.mem_map.1 hn
    exact List.mem_map_of_mem (List.mem_filter.1 h1).1
  · cases h

/-- which sizes are passed on to the first inner layer -/
theorem plan_names {GL GR : List Elem} (hpat : IsPattern pattern GL GR) (hw : '…' ∉ weight) {p : EinmixPlan}
    (h : einmixPlan pattern weight kw = .ok p) {q : Str} {kw' : List (Str × Size)} (hq : p.pre = some (q, kw')) (n : Str) :
    n ∈ kw'.map Prod.fst ↔ n ∈ kw.map Prod.fst ∧ n ∈ sideWords GL ∧ ¬ IsNumber n := by
  obtain ⟨hpe, l, r, hs, hl, hr⟩ := isPattern_split hpat
  rcases einmixPlan_cases hpe hw hs kw with ⟨GL', GR', GW, hl', hr', hw', hc, h1⟩ | ⟨-, h1⟩
  swap
  · rw [h1] at h
    cases h
  rw [h1] at h
  cases h
  obtain rfl := IsSide.unique hl hl'
  simp only [preReshape] at hq
  split at hq
  swap
  · cases hq
  simp only [Option.some.injEq, Prod.mk.injEq] at hq
  obtain ⟨-, rfl⟩ := hq
  rw [show (describe 0 GL).composition = GL.map unitComp from denote_unitComp hc.units_left, flatNames_units (side_no_ell hl)]
  simp only [List.mem_map, List.mem_filter, decide_eq_true_eq, mem_axisWords]
  constructor
  · rintro ⟨a, ⟨h2, h3⟩, rfl⟩
    exact ⟨⟨a, h2, rfl⟩, h3⟩
  · rintro ⟨⟨a, h2, rfl⟩, h3⟩
    exact ⟨a, ⟨h2, h3⟩, rfl⟩

theorem plan_pre {kw : List (Str × Size)} {p : EinmixPlan} (h : einmixPlan pattern weight kw = .ok p) {s : Str}
    {kw' : List (Str × Size)} (hp : p.pre = some (s, kw')) : ∀ n ∈ kw'.map Prod.fst, n ∈ kw.map Prod.fst := by
  unfold einmixPlan at h
  repeat' split at h
  all_goals try cases h
  exact preReshape_kw hp

/-- torch makes the layer: so does flax, and it computes the same, provided the names can be passed on -/
theorem flax_ok [Add α] (call : Layer α → Tensor α → Py (Tensor α)) (f : Str → List (Tensor α) → Py (Tensor α))
    {m : FlaxEinMix} {e : EinMix α} (hm : makeEinMix so m.pattern m.weightShape m.biasShape m.sizes = .ok e)
    (hn : ∀ p q kw', einmixPlan m.pattern m.weightShape m.sizes = .ok p → p.pre = some (q, kw') →
      ∀ n ∈ ["self".toList, "pattern".toList], n ∉ kw'.map Prod.fst) :
    ∃ s, m.setup = .ok s ∧ s.weightShape = e.weightShape ∧ s.biasShape = e.biasShape ∧
      s.einsumPattern = e.einsumPattern ∧ s.fanIn = e.fanIn ∧
      ∀ w b x, s.apply so call f w b x = e.forwardNew call f w b x := by
  rw [make_setup] at hm
  rcases hp : einmixPlan m.pattern m.weightShape m.sizes with e1 | p
  · rw [hp] at hm
    cases hm
  rw [hp] at hm hn
  simp only at hm
  rcases hpre : makeRearrange (α := α) so p.pre with e1 | pre
  · rw [hpre] at hm
    cases hm
  rw [hpre] at hm
  simp only at hm
  rcases hpost : makeRearrange (α := α) so (p.post.map (fun s => (s, []))) with e1 | post
  · rw [hpost] at hm
    cases hm
  rw [hpost] at hm
  simp only at hm
  rcases hs : m.setup with e1 | s
  · rw [hs] at hm
    cases hm
  rw [hs] at hm
  cases hm
  obtain ⟨p', h1, h2, h3⟩ := setup_ok hs
  rw [hp] at h1
  cases h1
  refine ⟨s, rfl, rfl, rfl, rfl, rfl, fun w b x => ?_⟩
  have k1 : ∀ x, flaxOpt so call s.pre x = callOpt call pre x := by
    intro x
    rw [h2]
    refine flaxOpt_ok so call _ ?_ hpre x
    intro q kw' hq n hn1 hn2
    exact hn p q kw' rfl hq n hn1 hn2
  have k2 : ∀ x, flaxOpt so call s.post x = callOpt call post x := by
    intro x
    rw [h3]
    refine flaxOpt_ok so call _ ?_ hpost x
    intro q kw' hq n hn1 hn2
    obtain ⟨a, -, h⟩ := Option.map_eq_some_iff.1 hq
    cases h
    cases hn2
  unfold FlaxBound.apply EinMix.forwardNew
  rw [k1]
  rcases callOpt call pre x with e1 | x1
  · rfl
  simp only
  rcases f s.einsumPattern [x1, w] with e1 | y
  · rfl
  simp only
  rcases addOptNew y b with e1 | y1
  · rfl
  exact k2 y1

/-- torch does not make the layer: no call of it in flax succeeds -/
theorem flax_err [Add α] (call : Layer α → Tensor α → Py (Tensor α)) (f : Str → List (Tensor α) → Py (Tensor α))
    {m : FlaxEinMix} {e : PyErr} (hm : (makeEinMix so m.pattern m.weightShape m.biasShape m.sizes : Py (EinMix α)) = .error e)
    (draw : List Nat → Option (List Nat) → Tensor α × Option (Tensor α)) (x : Tensor α) :
    ∃ e', flaxOnce so call f draw m x = .error e' := by
  unfold flaxOnce
  rcases hs : m.setup with e1 | s
  · exact ⟨e1, rfl⟩
  simp only
  obtain ⟨p, h1, h2, h3⟩ := setup_ok hs
  rw [make_setup, h1, hs] at hm
  simp only at hm
  unfold FlaxBound.apply
  rcases hpre : makeRearrange (α := α) so p.pre with e1 | pre
  · obtain ⟨e', h⟩ := flaxOpt_err so call p.pre hpre x
    rw [h2, h]
    exact ⟨e', rfl⟩
  rw [hpre] at hm
  simp only at hm
  rcases hpost : makeRearrange (α := α) so (p.post.map (fun s => (s, []))) with e1 | post
  · split
    · exact ⟨_, rfl⟩
    split
    · exact ⟨_, rfl⟩
    split
    · exact ⟨_, rfl⟩
    rw [h3]
    exact flaxOpt_err so call _ hpost _
  · rw [hpost] at hm
    cases hm

/-- an exception that does not come from an inner layer is that of `setup` -/
theorem flax_err_same (hp : '…' ∉ pattern) (hw : '…' ∉ weight) {e : PyErr} (he : e ≠ .einops)
    (hm : (makeEinMix so pattern weight bias kw : Py (EinMix α)) = .error e) :
    FlaxEinMix.setup ⟨pattern, weight, bias, kw⟩ = .error e := by
  have hm' := make_setup (α := α) so ⟨pattern, weight, bias, kw⟩
  simp only at hm'
  rw [hm] at hm'
  rcases hs : splitArrow pattern with e1 | ⟨l, r⟩
  · have : einmixPlan pattern weight kw = .error e1 := by
      unfold einmixPlan
      rw [hs]
    rw [this] at hm'
    cases hm'
    unfold FlaxEinMix.setup
    simp only [this]
  rcases einmixPlan_cases hp hw hs kw with ⟨GL, GR, GW, hl, hr, hw', hc, h⟩ | ⟨-, h⟩
  swap
  · rw [h] at hm'
    cases hm'
    exact absurd rfl he
  rw [h] at hm'
  simp only at hm'
  rcases makePre_cases (α := α) so hl hc kw with ⟨pre, h1, h2, h3⟩ | ⟨h1, -⟩
  swap
  · rw [h1] at hm'
    cases hm'
    exact absurd rfl he
  rw [h1] at hm'
  simp only at hm'
  obtain ⟨post, h4, h5⟩ := makePost_ok (α := α) so hr hc.units_right
  rw [h4] at hm'
  simp only at hm'
  rcases hst : FlaxEinMix.setup ⟨pattern, weight, bias, kw⟩ with e1 | s
  · rw [hst] at hm'
    cases hm'
    rfl
  · rw [hst] at hm'
    cases hm'

/-- a size named like a parameter of `RearrangeMixin` cannot be passed on -/
theorem flax_type [Add α] (call : Layer α → Tensor α → Py (Tensor α)) (f : Str → List (Tensor α) → Py (Tensor α))
    {m : FlaxEinMix} {s : FlaxBound} (hs : m.setup = .ok s) {q : Str} {kw' : List (Str × Size)} (hq : s.pre = some (q, kw'))
    {n : Str} (hn : n ∈ ["self".toList, "pattern".toList]) (hk : n ∈ kw'.map Prod.fst) (w : Tensor α)
    (b : Option (Tensor α)) (x : Tensor α) : s.apply so call f w b x = .error .type := by
  unfold FlaxBound.apply
  rw [hq]
  simp only [flaxOpt, flaxRearrange, pyRearrangeLayer, bindRest_taken hn hk]

end

end Einops
