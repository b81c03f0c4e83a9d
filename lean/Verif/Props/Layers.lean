import Verif.Proofs.Layers

/-!
# Layers
-/

namespace Einops

universe u

section
variable {α : Type u} [PyUnicode] {b : Backend α} {pattern : Str} {kw : List (Str × Size)} {red : Reduction α}
  {so : Nat → SetOrder} {GL GR : List Elem} {x : Tensor α} {l : Layer α}

theorem prepareAllDims_of {op : OpKind} {names : List Str} {m : List (Nat × TransformRecipe)} (hell : '…' ∉ pattern)
    (hp : IsPattern pattern GL GR) (h : prepareAllDims so pattern op names = .ok m) :
    (∀ d, LayerRank GL d → ∃ r, dictGet m d = some r ∧ prepareRecipe (so d) pattern op names d = .ok r) ∧
      ∀ d, ¬ LayerRank GL d → dictGet m d = none := by
  obtain ⟨GL', GR', hp', h1, h2⟩ := prepareAllDims_ok hell h
  obtain ⟨rfl, -⟩ := isPattern_unique hp hp'
  exact ⟨h1, h2⟩

theorem reduceLayer_inv (h : reduceLayer so pattern red kw = .ok l) :
    ∃ m, prepareAllDims so pattern red.kind (kw.map Prod.fst) = .ok m ∧ l = ⟨pattern, red, kw, m⟩ := by
  unfold reduceLayer at h
  cases hm : prepareAllDims so pattern red.kind (kw.map Prod.fst) with
  | error e => rw [hm] at h; cases h
  | ok m => rw [hm] at h; cases h; exact ⟨m, rfl, rfl⟩

omit [PyUnicode] in
theorem dictGetE_none {m : List (Nat × TransformRecipe)} {d : Nat} (h : dictGet m d = none) :
    dictGetE m d = .error .key := by rw [dictGetE, h]

omit [PyUnicode] in
theorem dictGetE_some {m : List (Nat × TransformRecipe)} {d : Nat} {r : TransformRecipe} (h : dictGet m d = some r) :
    dictGetE m d = .ok r := by rw [dictGetE, h]

/-- recipes from different set orders are cooked to the same -/
theorem reconstruct_order (hkw : (kw.map Prod.fst).Nodup) (hp : IsPattern pattern GL GR) {op : OpKind} {d : Nat}
    {s s' : SetOrder} {r r' : TransformRecipe} (h : prepareRecipe s pattern op (kw.map Prod.fst) d = .ok r)
    (h' : prepareRecipe s' pattern op (kw.map Prod.fst) d = .ok r') {shape : List Size} (hs : shape.length = d) :
    reconstruct r shape kw = reconstruct r' shape kw := by
  rcases prepare_cases hp op (kw.map Prod.fst) d with ⟨ex, wf, hpr, hn, heq⟩ | ⟨-, he⟩
  · rw [heq] at h h'
    cases h
    cases h'
    obtain ⟨_, _, _, _, hlen⟩ := hpr.groups
    rw [reconstruct_recipeOf s ex wf kw shape hkw hn hpr.unknowns (by omega),
      reconstruct_recipeOf s' ex wf kw shape hkw hn hpr.unknowns (by omega)]
  · rw [he] at h; cases h

theorem Prepared.move_sub {op : OpKind} (hp : IsPattern pattern GL GR) (ho : isMove op) {names : List Str} {d : Nat}
    {L R : List (List Axis)} (h : Prepared op GL GR names d L R) : ∀ a ∈ L.flatten, a ∈ R.flatten := by
  rcases ho with rfl | rfl
  · exact (rearrange_axes hp h).1
  · exact (repeat_axes hp h).1

theorem Prepared.op_name {o : Str} {names : List Str} {d : Nat} {L R : List (List Axis)}
    (h : Prepared (.name o) GL GR names d L R) : isMove (.name o) ∨ o ∈ builtins := by
  by_cases h1 : isMove (.name o)
  · exact .inl h1
  · have := h.sides
    unfold isMove at h1
    rw [not_or] at h1
    rw [SidesOK, if_neg h1.1, if_neg h1.2] at this
    exact .inr (this.1 o rfl)

/-- nothing is reduced by rearrange and repeat -/
theorem move_reducedAxes (hkw : (kw.map Prod.fst).Nodup) (hp : IsPattern pattern GL GR) {op : OpKind} (ho : isMove op)
    {d : Nat} {s : SetOrder} {r : TransformRecipe} (h : prepareRecipe s pattern op (kw.map Prod.fst) d = .ok r)
    {shape : List Size} (hs : shape.length = d) {c : CookedRecipe} (hc : reconstruct r shape kw = .ok c) :
    c.reducedAxes = [] := by
  rcases prepare_cases hp op (kw.map Prod.fst) d with ⟨ex, wf, hpr, hn, heq⟩ | ⟨-, he⟩
  · rw [heq] at h
    cases h
    obtain ⟨_, _, _, _, hlen⟩ := hpr.groups
    rw [reconstruct_recipeOf s ex wf kw shape hkw hn hpr.unknowns (by omega)] at hc
    split at hc
    · cases hc
    · cases hc
      have hd := droppedAxes_nil wf (Prepared.move_sub hp ho hpr)
      unfold droppedAxes at hd
      simp only [cookedOf, hd, List.append_nil, List.length_map]
      exact List.drop_eq_nil_of_le (by rw [List.length_range])
  · rw [he] at h; cases h

/-! ### C31 -/

/-- **C31**, partial: inputs with at most 7 dimensions for the ellipsis (`LayerRank`). -/
theorem C31_layer_partial (hell : '…' ∉ pattern) (hkw : (kw.map Prod.fst).Nodup) (hp : IsPattern pattern GL GR)
    (h : reduceLayer so pattern red kw = .ok l) (hx : LayerRank GL x.ndim) (so' : SetOrder) :
    l.apply b x = reduce b so' (.one x) pattern red kw := by
  obtain ⟨m, hm, rfl⟩ := reduceLayer_inv h
  obtain ⟨r, h1, h2⟩ := (prepareAllDims_of hell hp hm).1 x.ndim hx
  rw [C08_hash_order hell hkw b _ red so' (so x.ndim)]
  simp only [Layer.apply, dictGetE_some h1, reduce, resolveInput, h2]

/-- Any other number of dimensions raises KeyError; the function raises EinopsError then, unless the pattern has an
ellipsis (see `C31_many_dimensions`). -/
theorem C31_other_dimensions (hell : '…' ∉ pattern) (hp : IsPattern pattern GL GR)
    (h : reduceLayer so pattern red kw = .ok l) (hx : ¬ LayerRank GL x.ndim) :
    l.apply b x = .error .key ∧ (∀ E, l.forwardTorch E x = .error .key) ∧
      (x.ndim < GL.length - 1 ∨ dots ∉ sideWords GL → ∀ so', reduce b so' (.one x) pattern red kw = .error .einops) := by
  obtain ⟨m, hm, rfl⟩ := reduceLayer_inv h
  have h1 := dictGetE_none ((prepareAllDims_of hell hp hm).2 x.ndim hx)
  refine ⟨by simp only [Layer.apply, h1], fun E => by simp only [Layer.forwardTorch, h1], fun hlt so' => ?_⟩
  rcases prepare_cases hp red.kind (kw.map Prod.fst) x.ndim with ⟨ex, _, hpr, _⟩ | ⟨-, he⟩
  · exfalso
    obtain ⟨-, _, _, -, hL, -⟩ := isPattern_split hp
    obtain ⟨n, hn, -⟩ := (groups_iff hL (sidesOK_ellipsis hpr.sides) _ _ _).1 hpr.groups
    unfold ellCount at hn
    unfold LayerRank at hx
    split at hn
    · rename_i hd
      rw [if_pos hd] at hx
      split at hn
      · cases hn
      · rcases hlt with hlt | hlt
        · omega
        · exact hlt hd
    · rename_i hd
      rw [if_neg hd] at hx
      split at hn
      · omega
      · cases hn
  · simp only [reduce, resolveInput, he]

/-- If a layer cannot be constructed, the function raises the same for every input with a fitting number of dimensions. -/
theorem C31_construction {e : PyErr} (hell : '…' ∉ pattern) (h : reduceLayer so pattern red kw = .error e)
    (hx : ∀ GL GR, IsPattern pattern GL GR → LayerRank GL x.ndim) (so' : SetOrder) :
    reduce b so' (.one x) pattern red kw = .error e := by
  unfold reduceLayer at h
  cases hm : prepareAllDims so pattern red.kind (kw.map Prod.fst) with
  | error e' =>
    rw [hm] at h
    cases h
    simp only [reduce, resolveInput, prepareAllDims_error hell hm so' x.ndim hx]
  | ok m => rw [hm] at h; cases h

/-- **C31** for the torch layers, partial: not for the reductions "any" and "all" (`C31_torch_any`) and callables
(`C31_torch_callable`) and only for floating dtypes in the case of "mean" (`C31_torch_mean`). -/
theorem C31_torch_partial (hell : '…' ∉ pattern) (hkw : (kw.map Prod.fst).Nodup) (hp : IsPattern pattern GL GR) {o : Str}
    (h : reduceLayer so pattern (.name o) kw = .ok l) (hx : LayerRank GL x.ndim) (h1 : o ≠ "any".toList)
    (h2 : o ≠ "all".toList) {fl : Bool} (hf : o = "mean".toList → fl = true) (E : ElemOps α) (so' : SetOrder) :
    l.forwardTorch E x = reduce (torchBackend E fl) so' (.one x) pattern (.name o) kw := by
  obtain ⟨m, hm, rfl⟩ := reduceLayer_inv h
  obtain ⟨r, hr1, hr2⟩ := (prepareAllDims_of hell hp hm).1 x.ndim hx
  rw [C08_hash_order hell hkw _ _ _ so' (so x.ndim)]
  simp only [Layer.forwardTorch, dictGetE_some hr1, reduce, resolveInput, hr2, applyRecipe, applyScripted]
  cases hc : reconstruct r (x.shape.map Size.ofNat) kw with
  | error e => rfl
  | ok c =>
    simp only [applyCooked]
    rcases prepare_cases hp (.name o) (kw.map Prod.fst) x.ndim with ⟨ex, wf, hpr, hn, heq⟩ | ⟨-, he⟩
    · rcases hpr.op_name with ho | ho
      · have := move_reducedAxes hkw hp ho hr2 (by simp [Tensor.ndim]) hc
        unfold applyStages optReduce
        simp only [this]
        rfl
      · congr 1
        funext y axes
        have hn : ¬ (o = "mean".toList ∧ (torchBackend E fl).isFloat y = false) := by
          rintro ⟨hm, hfl⟩
          rw [show (torchBackend E fl).isFloat y = fl from rfl, hf hm] at hfl
          cases hfl
        unfold reduceAxesE
        simp only
        rw [if_neg (not_not.2 (show o ∈ reductionNames from ho)), if_neg hn]
        simp only [torchBackend, torchJitBackend]
        have ha : (o ∈ ["any".toList, "all".toList, "prod".toList]) ↔ o = "prod".toList := by
          simp only [List.mem_cons, List.not_mem_nil, or_false, h1, h2, false_or]
        simp only [ha]
    · rw [show (Reduction.name o : Reduction α).kind = .name o from rfl, he] at hr2
      cases hr2

/-! ### C32 -/

/-- **C32** A layer restored from its state, with any iteration orders of sets, returns the same on every input, also
for the torch layers. -/
theorem C32_pickle (hell : '…' ∉ pattern) (hkw : (kw.map Prod.fst).Nodup) (h : reduceLayer so pattern red kw = .ok l)
    (so' : Nat → SetOrder) :
    ∃ l', l.getState.setState so' = .ok l' ∧ (∀ (b : Backend α) x, l'.apply b x = l.apply b x) ∧
      ∀ (E : ElemOps α) x, l'.forwardTorch E x = l.forwardTorch E x := by
  obtain ⟨m, hm, rfl⟩ := reduceLayer_inv h
  obtain ⟨GL, GR, hp, hm1, hm2⟩ := prepareAllDims_ok hell hm
  cases hm' : prepareAllDims so' pattern red.kind (kw.map Prod.fst) with
  | error e =>
    exfalso
    have hd : LayerRank GL (if dots ∈ sideWords GL then GL.length - 1 else GL.length) := by
      unfold LayerRank
      split
      · omega
      · rfl
    obtain ⟨r, -, hr⟩ := hm1 _ hd
    rw [prepareAllDims_error hell hm' _ _ (fun GL' GR' hp' => by rw [← (isPattern_unique hp hp').1]; exact hd)] at hr
    cases hr
  | ok m' =>
    obtain ⟨hm1', hm2'⟩ := prepareAllDims_of hell hp hm'
    refine ⟨⟨pattern, red, kw, m'⟩, by simp [Layer.getState, LayerState.setState, reduceLayer, hm'], ?_, ?_⟩
    · intro b x
      by_cases hx : LayerRank GL x.ndim
      · obtain ⟨r, h1, h2⟩ := hm1 _ hx
        obtain ⟨r', h1', h2'⟩ := hm1' _ hx
        simp only [Layer.apply, dictGetE_some h1, dictGetE_some h1', applyRecipe]
        rw [reconstruct_order hkw hp h2 h2' (by simp [Tensor.ndim])]
      · simp only [Layer.apply, dictGetE_none (hm2 _ hx), dictGetE_none (hm2' _ hx)]
    · intro E x
      by_cases hx : LayerRank GL x.ndim
      · obtain ⟨r, h1, h2⟩ := hm1 _ hx
        obtain ⟨r', h1', h2'⟩ := hm1' _ hx
        simp only [Layer.forwardTorch, dictGetE_some h1, dictGetE_some h1', applyScripted]
        rw [reconstruct_order hkw hp h2 h2' (by simp [Tensor.ndim])]
      · simp only [Layer.forwardTorch, dictGetE_none (hm2 _ hx), dictGetE_none (hm2' _ hx)]

end

/-! ### Examples and witnesses -/

section
attribute [local instance] asciiUnicode

/-- call a layer, if it was constructed -/
def callLayer {α : Type u} (l : Py (Layer α)) (f : Layer α → Py (Tensor α)) : Py (Tensor α) := l.bind f

-- C31
example : callLayer (rearrangeLayer (fun _ => idOrder) "(a b) ... -> b (... a) 1".toList [kwInt "a" 2])
      (fun l => l.apply (numpyBackend intOps true) t43) =
    rearrange (numpyBackend intOps true) revOrder (.one t43) "(a b) ... -> b (... a) 1".toList [kwInt "a" 2] := by rfl
example : callLayer (reduceLayer (fun _ => idOrder) "(a 2) c -> c a".toList (.name "max".toList) [])
      (fun l => l.forwardTorch intOps t43) = .ok ⟨[3, 2], [3, 9, 4, 10, 5, 11], rfl⟩ := by rfl

/-- a tensor with 8 dimensions -/
def t8 : Tensor Int := ⟨[1, 1, 1, 1, 1, 1, 1, 2], [0, 1], rfl⟩

/-- **C31** is false for 8 and more dimensions under an ellipsis: the function works, the layer raises KeyError. -/
theorem C31_many_dimensions :
    rearrange (numpyBackend intOps true) idOrder (.one t8) "... -> ...".toList [] = .ok t8 ∧
    callLayer (rearrangeLayer (fun _ => idOrder) "... -> ...".toList []) (fun l => l.apply (numpyBackend intOps true) t8) =
      .error .key := by
  constructor <;> rfl

/-- wrong number of dimensions: KeyError instead of EinopsError -/
theorem C31_wrong_dimensions :
    rearrange (numpyBackend intOps true) idOrder (.one t23) "a -> a".toList [] = .error .einops ∧
    callLayer (rearrangeLayer (fun _ => idOrder) "a -> a".toList []) (fun l => l.apply (numpyBackend intOps true) t23) =
      .error .key := by
  constructor <;> rfl

/-- elements combined with addition, whatever the reduction is -/
def addOps : ElemOps Int := ⟨fun _ vs => .ok vs.sum⟩

/-- The torch layers do not know the reductions "any" and "all", the function with the torch backend does. -/
theorem C31_torch_any : ∀ o ∈ ["any".toList, "all".toList],
    (reduce (torchBackend addOps true) idOrder (.one t23) "a b -> a".toList (.name o) []).isOk = true ∧
    callLayer (reduceLayer (fun _ => idOrder) "a b -> a".toList (.name o) []) (fun l => l.forwardTorch addOps t23) =
      .error .notImplemented := by
  intro o ho
  simp only [List.mem_cons, List.not_mem_nil, or_false] at ho
  rcases ho with rfl | rfl <;> constructor <;> rfl

/-- The torch layers call `mean` for non-floating dtypes, the function refuses. -/
theorem C31_torch_mean :
    reduce (torchBackend intOps false) idOrder (.one t23) "a b -> a".toList (.name "mean".toList) [] =
      .error .notImplemented ∧
    (callLayer (reduceLayer (fun _ => idOrder) "a b -> a".toList (.name "mean".toList) [])
      (fun l => l.forwardTorch intOps t23)) ≠ .error .notImplemented := by
  constructor
  · rfl
  · decide

/-- The torch layers refuse callables, after accepting them in the constructor. -/
theorem C31_torch_callable :
    (reduce (torchBackend intOps true) idOrder (.one t23) "a b -> a".toList
      (.callable (fun x axes => x.reduceAxes (intOps.op "sum".toList) axes)) []).isOk = true ∧
    callLayer (reduceLayer (fun _ => idOrder) "a b -> a".toList
        (.callable (fun x axes => x.reduceAxes (intOps.op "sum".toList) axes)) []) (fun l => l.forwardTorch intOps t23) =
      .error .notImplemented := by
  constructor <;> rfl

-- construction errors
example : (rearrangeLayer (fun _ => idOrder) "a b -> a".toList [] : Py (Layer Int)) = .error .einops := by rfl
example : (rearrangeLayer (fun _ => idOrder) "a b".toList [] : Py (Layer Int)) = .error .value := by rfl

-- C32
example : callLayer ((reduceLayer (fun _ => idOrder) "(a 2) c -> c a".toList (.name "max".toList) []).bind
      (fun l => l.getState.setState (fun _ => revOrder))) (fun l => l.apply (numpyBackend intOps true) t43) =
    .ok ⟨[3, 2], [3, 9, 4, 10, 5, 11], rfl⟩ := by rfl

end

end Einops
