import Verif.Proofs.Elementwise
import Verif.Proofs.ComposeMoves
import Verif.Props.Algebra

/-!
# Laws relating calls to functions of the elements and to each other
-/

namespace Einops

universe u

section
variable {α β : Type u} [PyUnicode] {E : ElemOps α} {E' : ElemOps β} {b : Backend α} {b' : Backend β}

/-! ### C47 -/

/-- **C47** A function applied to every element commutes with every operation whose reduction commutes with it: the two
calls return corresponding tensors or raise the same exception.  For all patterns, sizes and inputs, also lists. -/
theorem C47_elementwise (f : α → β) (h : SameBackend E E' b b') {red : Reduction α} {red' : Reduction β}
    (hr : Commutes f E E' red red') (so : SetOrder) (t : Input α) (pattern : Str) (kw : List (Str × Size)) :
    reduce b' so (t.map f) pattern red' kw = (reduce b so t pattern red kw).map (Tensor.map f) :=
  reduce_elem h hr so t pattern kw

/-- **C47** Every function of the elements commutes with `rearrange`. -/
theorem C47_rearrange (f : α → β) (h : SameBackend E E' b b') (so : SetOrder) (t : Input α) (pattern : Str)
    (kw : List (Str × Size)) :
    rearrange b' so (t.map f) pattern kw = (rearrange b so t pattern kw).map (Tensor.map f) :=
  reduce_elem h (.move _ (by decide)) so t pattern kw

/-- **C47** Every function of the elements commutes with `repeat`. -/
theorem C47_repeat (f : α → β) (h : SameBackend E E' b b') (so : SetOrder) (t : Input α) (pattern : Str)
    (kw : List (Str × Size)) :
    repeat_ b' so (t.map f) pattern kw = (repeat_ b so t pattern kw).map (Tensor.map f) :=
  reduce_elem h (.move _ (by decide)) so t pattern kw

end

section
variable {α : Type u}

theorem zipWith_fst {β : Type u} {x : Tensor α} {y : Tensor β} (h : y.shape = x.shape) :
    (x.zipWith Prod.mk y h).map Prod.fst = x := by
  have hl : x.data.length = y.data.length := by rw [x.wf, y.wf, h]
  obtain ⟨s, d, w⟩ := x
  simp only [Tensor.map, Tensor.zipWith, Tensor.mk.injEq, true_and]
  rw [List.map_zipWith]
  simp only at hl
  clear w h
  generalize y.data = e at hl
  induction d generalizing e with
  | nil => rfl
  | cons v d ih =>
    cases e with
    | nil => cases hl
    | cons w e => simp only [List.zipWith_cons_cons]; rw [ih e (by simpa using hl)]

theorem zipWith_snd {β : Type u} {x : Tensor α} {y : Tensor β} (h : y.shape = x.shape) :
    (x.zipWith Prod.mk y h).map Prod.snd = y := by
  have hl : x.data.length = y.data.length := by rw [x.wf, y.wf, h]
  obtain ⟨s, d, w⟩ := y
  simp only at h
  subst h
  simp only [Tensor.map, Tensor.zipWith, Tensor.mk.injEq, true_and]
  rw [List.map_zipWith]
  simp only at hl
  clear w
  generalize x.data = e at hl
  induction d generalizing e with
  | nil => cases e with
    | nil => rfl
    | cons v e => cases hl
  | cons v d ih =>
    cases e with
    | nil => cases hl
    | cons w e => simp only [List.zipWith_cons_cons]; rw [ih e (by simpa using hl)]

theorem zipWith_map {β γ : Type u} (f : α → β → γ) {x : Tensor α} {y : Tensor β} (h : y.shape = x.shape) :
    (x.zipWith Prod.mk y h).map (fun p => f p.1 p.2) = x.zipWith f y h := by
  simp only [Tensor.map, Tensor.zipWith, Tensor.mk.injEq, true_and]
  rw [List.map_zipWith]

end

section
variable {α β γ : Type u} [PyUnicode]

/-- an operation on pairs, one on each component and one on the combined elements -/
theorem reduce_zip {E₁ : ElemOps α} {E₂ : ElemOps β} {E₃ : ElemOps γ} {Ep : ElemOps (α × β)} {b₁ : Backend α}
    {b₂ : Backend β} {b₃ : Backend γ} {bp : Backend (α × β)} (f : α → β → γ)
    (h1 : SameBackend Ep E₁ bp b₁) (h2 : SameBackend Ep E₂ bp b₂) (h3 : SameBackend Ep E₃ bp b₃) {o : Str}
    (r1 : Commutes Prod.fst Ep E₁ (.name o) (.name o)) (r2 : Commutes Prod.snd Ep E₂ (.name o) (.name o))
    (r3 : Commutes (fun p => f p.1 p.2) Ep E₃ (.name o) (.name o)) (so : SetOrder) (pattern : Str) (kw : List (Str × Size))
    {x y : Tensor α} {x' y' : Tensor β} (hx : x'.shape = x.shape)
    (e1 : reduce b₁ so (.one x) pattern (.name o) kw = .ok y) (e2 : reduce b₂ so (.one x') pattern (.name o) kw = .ok y') :
    ∃ hy : y'.shape = y.shape, reduce b₃ so (.one (x.zipWith f x' hx)) pattern (.name o) kw = .ok (y.zipWith f y' hy) := by
  have g1 := reduce_elem h1 r1 so (.one (x.zipWith Prod.mk x' hx)) pattern kw
  have g2 := reduce_elem h2 r2 so (.one (x.zipWith Prod.mk x' hx)) pattern kw
  have g3 := reduce_elem h3 r3 so (.one (x.zipWith Prod.mk x' hx)) pattern kw
  simp only [Input.map, zipWith_fst, zipWith_snd, zipWith_map f] at g1 g2 g3
  rw [e1] at g1
  rw [e2] at g2
  cases hp : reduce bp so (.one (x.zipWith Prod.mk x' hx)) pattern (.name o) kw with
  | error e => rw [hp] at g1; cases g1
  | ok z =>
    rw [hp] at g1 g2 g3
    simp only [Except.map, Except.ok.injEq] at g1 g2 g3
    subst g1 g2
    refine ⟨rfl, ?_⟩
    rw [g3]
    congr 1
    simp only [Tensor.map, Tensor.zipWith, Tensor.mk.injEq, true_and]
    rw [List.zipWith_map, List.zipWith_self]

omit [PyUnicode] in
theorem Framework.same (fw : Framework) (fl : Bool) (E : ElemOps α) (E' : ElemOps β) :
    SameBackend E E' (fw.backend E fl) (fw.backend E' fl) := by
  cases fw <;> constructor

/-- **C47** `rearrange` commutes with every operation that combines two tensors element by element. -/
theorem C47_rearrange_binary (f : α → β → γ) (fw : Framework) (fl : Bool) (E₁ : ElemOps α) (E₂ : ElemOps β) (E₃ : ElemOps γ)
    (so : SetOrder) (pattern : Str) (kw : List (Str × Size)) {x y : Tensor α} {x' y' : Tensor β} (hx : x'.shape = x.shape)
    (e1 : rearrange (fw.backend E₁ fl) so (.one x) pattern kw = .ok y)
    (e2 : rearrange (fw.backend E₂ fl) so (.one x') pattern kw = .ok y') :
    ∃ hy : y'.shape = y.shape,
      rearrange (fw.backend E₃ fl) so (.one (x.zipWith f x' hx)) pattern kw = .ok (y.zipWith f y' hy) := by
  have hr : "rearrange".toList ∉ builtins := by decide
  have hE : ElemOps (α × β) := ⟨fun _ _ => .error .backend⟩
  exact reduce_zip f (fw.same fl hE E₁) (fw.same fl hE E₂) (fw.same fl hE E₃) (.move _ hr) (.move _ hr) (.move _ hr)
    so pattern kw hx e1 e2

/-- **C47** The same for `repeat`. -/
theorem C47_repeat_binary (f : α → β → γ) (fw : Framework) (fl : Bool) (E₁ : ElemOps α) (E₂ : ElemOps β) (E₃ : ElemOps γ)
    (so : SetOrder) (pattern : Str) (kw : List (Str × Size)) {x y : Tensor α} {x' y' : Tensor β} (hx : x'.shape = x.shape)
    (e1 : repeat_ (fw.backend E₁ fl) so (.one x) pattern kw = .ok y)
    (e2 : repeat_ (fw.backend E₂ fl) so (.one x') pattern kw = .ok y') :
    ∃ hy : y'.shape = y.shape,
      repeat_ (fw.backend E₃ fl) so (.one (x.zipWith f x' hx)) pattern kw = .ok (y.zipWith f y' hy) := by
  have hr : "repeat".toList ∉ builtins := by decide
  have hE : ElemOps (α × β) := ⟨fun _ _ => .error .backend⟩
  exact reduce_zip f (fw.same fl hE E₁) (fw.same fl hE E₂) (fw.same fl hE E₃) (.move _ hr) (.move _ hr) (.move _ hr)
    so pattern kw hx e1 e2

end

section
variable [PyUnicode]

omit [PyUnicode] in
theorem sum_scale (c : ℚ) (vs : List ℚ) : (vs.map (c * ·)).sum = c * vs.sum := by
  induction vs with
  | nil => simp
  | cons v vs ih => simp only [List.map_cons, List.sum_cons]; rw [ih, mul_add]

omit [PyUnicode] in
/-- **C47** Multiplying all elements by a number commutes with exact sums and means. -/
theorem C47_scale (c : ℚ) : ∀ o ∈ ["sum".toList, "mean".toList], Commutes (c * ·) ratOps ratOps (.name o) (.name o) := by
  intro o ho
  simp only [List.mem_cons, List.not_mem_nil, or_false] at ho
  rcases ho with rfl | rfl
  · refine .name _ (fun vs => ?_)
    show (Except.ok (vs.map (c * ·)).sum : Py ℚ) = .ok (c * vs.sum)
    rw [sum_scale]
  · refine .name _ (fun vs => ?_)
    show (if vs.map (c * ·) = [] then (.error .backend : Py ℚ) else .ok ((vs.map (c * ·)).sum / (vs.map (c * ·)).length)) =
      (if vs = [] then (.error .backend : Py ℚ) else .ok (vs.sum / vs.length)).map (c * ·)
    by_cases h : vs = []
    · subst h; rfl
    · rw [if_neg h, if_neg (by simpa using h), sum_scale, List.length_map]
      show _ = Except.ok (c * _)
      rw [mul_div_assoc]

omit [PyUnicode] in
theorem foldNonempty_map {f : ℚ → ℚ} {g g' : ℚ → ℚ → ℚ} (h : ∀ a c, g' (f a) (f c) = f (g a c)) (vs : List ℚ) :
    foldNonempty g' (vs.map f) = (foldNonempty g vs).map f := by
  cases vs with
  | nil => rfl
  | cons v vs =>
    simp only [List.map_cons, foldNonempty, Except.map]
    congr 1
    induction vs generalizing v with
    | nil => rfl
    | cons w vs ih => simp only [List.map_cons, List.foldl_cons]; rw [h, ih]

omit [PyUnicode] in
/-- **C47** Increasing functions commute with minima and maxima. -/
theorem C47_monotone {f : ℚ → ℚ} (hf : Monotone f) :
    ∀ o ∈ ["min".toList, "max".toList], Commutes f ratOps ratOps (.name o) (.name o) := by
  intro o ho
  simp only [List.mem_cons, List.not_mem_nil, or_false] at ho
  rcases ho with rfl | rfl
  · exact .name _ (foldNonempty_map (fun a c => (hf.map_min).symm))
  · exact .name _ (foldNonempty_map (fun a c => (hf.map_max).symm))

/-- **C47** The sum of two tensors reduces to the sum of the reduced tensors. -/
theorem C47_sum_additive (fw : Framework) (fl : Bool) (so : SetOrder) (pattern : Str) (kw : List (Str × Size))
    {x x' y y' : Tensor ℚ} (hx : x'.shape = x.shape)
    (e1 : reduce (fw.backend ratOps fl) so (.one x) pattern (.name "sum".toList) kw = .ok y)
    (e2 : reduce (fw.backend ratOps fl) so (.one x') pattern (.name "sum".toList) kw = .ok y') :
    ∃ hy : y'.shape = y.shape,
      reduce (fw.backend ratOps fl) so (.one (x.zipWith (· + ·) x' hx)) pattern (.name "sum".toList) kw =
        .ok (y.zipWith (· + ·) y' hy) := by
  let Ep : ElemOps (ℚ × ℚ) := ⟨fun _ vs => .ok ((vs.map Prod.fst).sum, (vs.map Prod.snd).sum)⟩
  refine reduce_zip _ (fw.same fl Ep ratOps) (fw.same fl Ep ratOps) (fw.same fl Ep ratOps) (.name _ (fun vs => rfl))
    (.name _ (fun vs => rfl)) (.name _ (fun vs => ?_)) so pattern kw hx e1 e2
  show (Except.ok (vs.map (fun p => p.1 + p.2)).sum : Py ℚ) = .ok ((vs.map Prod.fst).sum + (vs.map Prod.snd).sum)
  rw [List.sum_map_add]

end

section
attribute [local instance] asciiUnicode

-- squaring all elements, then rearranging
example : rearrange (numpyBackend intOps true) idOrder (.one (t23.map (fun v => v * v))) "a b -> (b a)".toList [] =
    (rearrange (numpyBackend intOps true) idOrder (.one t23) "a b -> (b a)".toList []).map (Tensor.map (fun v => v * v)) := by
  decide
example : (rearrange (numpyBackend intOps true) idOrder (.one t23) "a b -> (b a)".toList []).map (Tensor.map (fun v => v * v)) =
    .ok ⟨[6], [0, 9, 1, 16, 4, 25], rfl⟩ := by decide
-- squaring does not commute with sums
example : reduce (numpyBackend intOps true) idOrder (.one (t23.map (fun v => v * v))) "a b -> a".toList (.name "sum".toList) [] ≠
    (reduce (numpyBackend intOps true) idOrder (.one t23) "a b -> a".toList (.name "sum".toList) []).map
      (Tensor.map (fun v => v * v)) := by
  decide
-- exceptions are the same
example : rearrange (numpyBackend intOps true) idOrder (.many [t23.map (fun v => v * v), t43]) "n a b -> n b a".toList [] =
    .error .backend := by rfl
end

section
variable {α : Type u} [PyUnicode] {E : ElemOps α} {b : Backend α} {so : SetOrder} {x y z : Tensor α}
  {l m r : Str} {GL GM GR : List Elem} {pattern : Str} {kw kw₁ kw₂ kw₃ : List (Str × Size)}

/-! ### C48 -/

/-- **C48** Two legal calls of `rearrange` or `repeat` in a row, 'l -> m' and 'm -> r', that agree about the lengths of the
axes give the same as the single call of `repeat` with 'l -> r', given the lengths of all named axes. -/
theorem C48_moves_compose {o₁ o₂ : Str} (ho₁ : isMove (.name o₁)) (ho₂ : isMove (.name o₂)) (hl : IsSide false false l GL)
    (hm : IsSide false false m GM) (hr : IsSide false false r GR) (hb : Modelled E b) (hkw₁ : IntKw kw₁) (hkw₂ : IntKw kw₂)
    (h : reduce b so (.one x) (l ++ ['-', '>'] ++ m) (.name o₁) kw₁ = .ok y) {L M R : List (List Axis)} {len : AxisMap}
    (h₁ : Accepted (.name o₁) (l ++ ['-', '>'] ++ m) kw₁ x.shape GL GM L M len)
    (h₂ : Accepted (.name o₂) (m ++ ['-', '>'] ++ r) kw₂ y.shape GM GR M R len) (hk : GivesLengths GL GR len kw₃) :
    ∃ z, ∀ {E' : ElemOps α} {b' : Backend α} (so' : SetOrder), Modelled E' b' →
      reduce b' so' (.one y) (m ++ ['-', '>'] ++ r) (.name o₂) kw₂ = .ok z ∧
      repeat_ b' so' (.one x) (l ++ ['-', '>'] ++ r) kw₃ = .ok z := by
  have h₃ := compose_repeat ho₁ ho₂ hl hm hr h₁ h₂ hk
  obtain ⟨y', e1, m1⟩ := h₁.moves (red := .name o₁) hb.lawful hkw₁ (h₁.move_sub ho₁)
  have : y' = y := by
    have := e1 so
    rw [h] at this
    cases this
    rfl
  subst this
  obtain ⟨z, e2, m2⟩ := h₂.moves (red := .name o₂) hb.lawful hkw₂ (h₂.move_sub ho₂)
  have m3 := m1.trans (h₂.move_sub ho₂) m2
  refine ⟨z, fun {E' b'} so' hb' => ⟨?_, ?_⟩⟩
  · obtain ⟨z', e, m⟩ := h₂.moves (red := .name o₂) hb'.lawful hkw₂ (h₂.move_sub ho₂)
    rw [e so', m.unique h₂.nodup.2 (h₂.move_sub ho₂) m2]
  · obtain ⟨z', e, m⟩ := h₃.moves (red := .name "repeat".toList) hb'.lawful hk.int (h₃.move_sub (.inr rfl))
    unfold repeat_
    rw [e so', m.unique h₃.nodup.2 (h₃.move_sub (.inr rfl)) m3]

/-- **C48** If the middle side has no parentheses the two calls cannot disagree: there are lengths such that any way of
giving them to the single call of `repeat` gives the result of the two. -/
theorem C48_moves_compose_elementary {o₁ o₂ : Str} (ho₁ : isMove (.name o₁)) (ho₂ : isMove (.name o₂))
    (hl : IsSide false false l GL) (hm : IsSide false false m GM) (hr : IsSide false false r GR) (he : Elementary GM)
    (hb : Modelled E b) (hkw₁ : IntKw kw₁) (hkw₂ : IntKw kw₂)
    (hneg : RefusesNegative E b ∨ ∀ p ∈ kw₁ ++ kw₂, 0 ≤ p.2.val)
    (e₁ : reduce b so (.one x) (l ++ ['-', '>'] ++ m) (.name o₁) kw₁ = .ok y)
    (e₂ : reduce b so (.one y) (m ++ ['-', '>'] ++ r) (.name o₂) kw₂ = .ok z) :
    ∃ L M R len, Accepted (.name o₁) (l ++ ['-', '>'] ++ m) kw₁ x.shape GL GM L M len ∧
      Accepted (.name o₂) (m ++ ['-', '>'] ++ r) kw₂ y.shape GM GR M R len ∧ (∃ kw₃, GivesLengths GL GR len kw₃) ∧
      ∀ kw₃, GivesLengths GL GR len kw₃ → repeat_ b so (.one x) (l ++ ['-', '>'] ++ r) kw₃ = .ok z := by
  have hell₁ : '…' ∉ l ++ ['-', '>'] ++ m := (isPattern_split ⟨l, m, rfl, hl, hm⟩).1
  have hell₂ : '…' ∉ m ++ ['-', '>'] ++ r := (isPattern_split ⟨m, r, rfl, hm, hr⟩).1
  obtain ⟨_, _, L, M, len, a1, m1⟩ := (move_iff hb.lawful so hell₁ hkw₁ ho₁ (fun _ =>
    hneg.imp RefusesNegative.strict (fun h p hp => h p (List.mem_append_left _ hp))) y).1 e₁
  obtain ⟨_, _, M', R, len', a2, m2⟩ := (move_iff hb.lawful so hell₂ hkw₂ ho₂ (fun _ =>
    hneg.imp RefusesNegative.strict (fun h p hp => h p (List.mem_append_right _ hp))) z).1 e₂
  obtain ⟨u1, u2⟩ := IsPattern.unique hl hm a1.pattern
  obtain ⟨u3, u4⟩ := IsPattern.unique hm hr a2.pattern
  subst u1 u2 u4
  subst u3
  obtain ⟨len'', rfl, a1', a2', _, _⟩ := common_len ho₁ ho₂ hm a1 m1.1 a2 he
  refine ⟨L, _, R, len'', a1', a2', exists_lengths _ _ _, fun kw₃ hk => ?_⟩
  obtain ⟨z', hz⟩ := C48_moves_compose ho₁ ho₂ hl hm hr hb hkw₁ hkw₂ e₁ a1' a2' hk
  obtain ⟨e3, e4⟩ := hz so hb
  rw [e₂] at e3
  cases e3
  exact e4

/-- **C48** `repeat` that adds no axis is `rearrange`. -/
theorem C48_repeat_without_new (hp : IsPattern pattern GL GR) (hn : NamesWithin GR GL) (hu : OnlyUnits GR)
    (hb : Modelled E b) (hkw : IntKw kw) (hneg : RefusesNegative E b ∨ ∀ p ∈ kw, 0 ≤ p.2.val) :
    repeat_ b so (.one x) pattern kw = .ok y ↔ rearrange b so (.one x) pattern kw = .ok y := by
  have hell : '…' ∉ pattern := (isPattern_split hp).1
  obtain ⟨l, r, rfl, hl, hr⟩ := hp
  unfold repeat_ rearrange
  rw [move_iff hb.lawful so hell hkw (.inr rfl) (fun _ => hneg.imp RefusesNegative.strict id) y,
    move_iff hb.lawful so hell hkw (.inl rfl) (fun h => by cases h) y]
  constructor
  · rintro ⟨GL', GR', L, R, len, ha, hm⟩
    obtain ⟨rfl, rfl⟩ := IsPattern.unique hl hr ha.pattern
    have hs := ha.prepared.sides
    rw [SidesOK, if_neg (by decide), if_pos rfl] at hs
    exact ⟨_, _, L, R, len, ⟨ha.pattern, ⟨by
      rw [SidesOK, if_pos rfl]
      exact ⟨hs.ellipsis, hs.units_left, hu, hs.left_in_right, hn⟩, ha.prepared.keywords, ha.prepared.groups,
      ha.prepared.unknowns⟩, ha.fits, ha.determinate⟩, hm⟩
  · rintro ⟨GL', GR', L, R, len, ha, hm⟩
    have hs := ha.prepared.sides
    rw [SidesOK, if_pos rfl] at hs
    exact ⟨_, _, L, R, len, ⟨ha.pattern, ⟨by
      rw [SidesOK, if_neg (by decide), if_pos rfl]
      exact ⟨hs.ellipsis, hs.units_left, hs.left_in_right, fun w hw hn => .inl (hs.right_in_left w hw hn)⟩,
      ha.prepared.keywords, ha.prepared.groups, ha.prepared.unknowns⟩, ha.fits, ha.determinate⟩, hm⟩

/-- **C48** Rearranging before a reduction: two legal calls that agree about lengths are one `reduce`, if the reduction
does not depend on the order of the elements. -/
theorem C48_reduce_of_rearrange (hl : IsSide false false l GL) (hm : IsSide false false m GM) (hr : IsSide false false r GR)
    {o : Str} (hc : Computes E o b) (hperm : ∀ vs ws : List α, vs.Perm ws → E.op o vs = E.op o ws)
    (ho : o ∈ builtins) (hkw₁ : IntKw kw₁) (hkw₂ : IntKw kw₂)
    (e₁ : rearrange b so (.one x) (l ++ ['-', '>'] ++ m) kw₁ = .ok y)
    (e₂ : reduce b so (.one y) (m ++ ['-', '>'] ++ r) (.name o) kw₂ = .ok z) {L M R : List (List Axis)} {len : AxisMap}
    (h₁ : Accepted (.name "rearrange".toList) (l ++ ['-', '>'] ++ m) kw₁ x.shape GL GM L M len)
    (h₂ : Accepted (.name o) (m ++ ['-', '>'] ++ r) kw₂ y.shape GM GR M R len) :
    reduce b so (.one x) (l ++ ['-', '>'] ++ r) (.name o) kw₁ = .ok z := by
  have hell₂ : '…' ∉ m ++ ['-', '>'] ++ r := (isPattern_split ⟨m, r, rfl, hm, hr⟩).1
  have hell₃ : '…' ∉ l ++ ['-', '>'] ++ r := (isPattern_split ⟨l, r, rfl, hl, hr⟩).1
  have hir := red_names_isRed ho
  have hlaw := hc.modelled.lawful
  have s1 := h₁.prepared.sides
  have s2 := h₂.prepared.sides
  rw [SidesOK, if_pos rfl] at s1
  rw [SidesOK, if_neg hir.1, if_neg hir.2] at s2
  have h₃ := compose_accepted (op₃ := .name o) hl hm hr h₁ h₂ s1.units_right s1.right_in_left (by
    rw [SidesOK, if_neg hir.1, if_neg hir.2]
    exact ⟨s2.1, ⟨fun h => s1.ellipsis.1 (s2.2.ellipsis.1 h), s1.ellipsis.2⟩, s2.2.units_right,
      fun w hw hn => s1.right_in_left w (s2.2.right_in_left w hw hn) hn⟩)
  obtain ⟨y', e1, m1⟩ := h₁.moves (red := .name "rearrange".toList) hlaw hkw₁ (h₁.move_sub (.inl rfl))
  have : y' = y := by
    have := e1 so
    unfold rearrange at e₁
    rw [e₁] at this
    cases this
    rfl
  subst this
  rw [reduce_of_accepted hc ho hkw₂ hell₂ h₂] at e₂
  rw [reduce_of_accepted hc ho hkw₁ hell₃ h₃]
  have hax := rearrange_axes h₁.pattern h₁.prepared
  rcases e₂ with ⟨d2, m2⟩ | ⟨d2, f2, r2⟩
  · have hMR : ∀ a ∈ M.flatten, a ∈ R.flatten := fun a ha => by
      by_contra hcc
      exact d2 ⟨a, ha, hcc⟩
    exact .inl ⟨fun ⟨a, ha, hn⟩ => hn (hMR a (hax.1 a ha)), m1.trans hMR m2⟩
  · obtain ⟨a, ha, hn⟩ := d2
    exact .inr ⟨⟨a, hax.2 a ha, hn⟩, fun h => by rw [hlaw.isFloat x y']; exact f2 h,
      m1.reduces hperm h₁.nodup.1 h₁.nodup.2 (fun a => ⟨hax.1 a, hax.2 a⟩) r2⟩

/-- **C48** Rearranging after a reduction: two legal calls that agree about lengths are one `reduce`. -/
theorem C48_rearrange_of_reduce (hl : IsSide false false l GL) (hm : IsSide false false m GM) (hr : IsSide false false r GR)
    {o : Str} (hc : Computes E o b) (ho : o ∈ builtins) (hkw₁ : IntKw kw₁) (hkw₂ : IntKw kw₂)
    (e₁ : reduce b so (.one x) (l ++ ['-', '>'] ++ m) (.name o) kw₁ = .ok y)
    (e₂ : rearrange b so (.one y) (m ++ ['-', '>'] ++ r) kw₂ = .ok z) {L M R : List (List Axis)} {len : AxisMap}
    (h₁ : Accepted (.name o) (l ++ ['-', '>'] ++ m) kw₁ x.shape GL GM L M len)
    (h₂ : Accepted (.name "rearrange".toList) (m ++ ['-', '>'] ++ r) kw₂ y.shape GM GR M R len) :
    reduce b so (.one x) (l ++ ['-', '>'] ++ r) (.name o) kw₁ = .ok z := by
  have hell₁ : '…' ∉ l ++ ['-', '>'] ++ m := (isPattern_split ⟨l, m, rfl, hl, hm⟩).1
  have hell₃ : '…' ∉ l ++ ['-', '>'] ++ r := (isPattern_split ⟨l, r, rfl, hl, hr⟩).1
  have hir := red_names_isRed ho
  have hlaw := hc.modelled.lawful
  have s1 := h₁.prepared.sides
  have s2 := h₂.prepared.sides
  rw [SidesOK, if_neg hir.1, if_neg hir.2] at s1
  rw [SidesOK, if_pos rfl] at s2
  have h₃ := compose_accepted (op₃ := .name o) hl hm hr h₁ h₂ s1.2.units_right s1.2.right_in_left (by
    rw [SidesOK, if_neg hir.1, if_neg hir.2]
    exact ⟨s1.1, ⟨fun h => s1.2.ellipsis.1 (s2.ellipsis.1 h), s1.2.ellipsis.2⟩, s2.units_right,
      fun w hw hn => s1.2.right_in_left w (s2.right_in_left w hw hn) hn⟩)
  obtain ⟨z', e2, m2⟩ := h₂.moves (red := .name "rearrange".toList) hlaw hkw₂ (h₂.move_sub (.inl rfl))
  have : z' = z := by
    have := e2 so
    unfold rearrange at e₂
    rw [e₂] at this
    cases this
    rfl
  subst this
  rw [reduce_of_accepted hc ho hkw₁ hell₁ h₁] at e₁
  rw [reduce_of_accepted hc ho hkw₁ hell₃ h₃]
  have hax := rearrange_axes h₂.pattern h₂.prepared
  rcases e₁ with ⟨d1, m1⟩ | ⟨d1, f1, r1⟩
  · have hLM : ∀ a ∈ L.flatten, a ∈ M.flatten := fun a ha => by
      by_contra hcc
      exact d1 ⟨a, ha, hcc⟩
    exact .inl ⟨fun ⟨a, ha, hn⟩ => hn (hax.1 a (hLM a ha)), m1.trans hax.1 m2⟩
  · obtain ⟨a, ha, hn⟩ := d1
    exact .inr ⟨⟨a, ha, fun h => hn (hax.2 a h)⟩, f1, r1.moves (fun a => ⟨hax.1 a, hax.2 a⟩) m2⟩

end

section
attribute [local instance] asciiUnicode

-- repeat, then rearrange: one repeat
example : repeat_ (numpyBackend intOps true) idOrder (.one t23) "a b -> a n b".toList [kwInt "n" 2] =
    .ok ⟨[2, 2, 3], [0, 1, 2, 0, 1, 2, 3, 4, 5, 3, 4, 5], rfl⟩ := by rfl
example : rearrange (numpyBackend intOps true) idOrder (.one ⟨[2, 2, 3], [0, 1, 2, 0, 1, 2, 3, 4, 5, 3, 4, 5], rfl⟩)
    "a n b -> b (a n)".toList [] =
    repeat_ (numpyBackend intOps true) idOrder (.one t23) "a b -> b (a n)".toList [kwInt "n" 2, kwInt "b" 3, kwInt "a" 2] := by rfl
-- repeat without new axes
example : repeat_ (numpyBackend intOps true) idOrder (.one t23) "a b -> b (1 a)".toList [] =
    rearrange (numpyBackend intOps true) idOrder (.one t23) "a b -> b (1 a)".toList [] := by rfl
-- reduce after rearrange
example : rearrange (numpyBackend intOps true) idOrder (.one t43) "(a b) c -> a (c b)".toList [kwInt "a" 2] =
    .ok ⟨[2, 6], [0, 3, 1, 4, 2, 5, 6, 9, 7, 10, 8, 11], rfl⟩ := by rfl
example : reduce (numpyBackend intOps true) idOrder (.one ⟨[2, 6], [0, 3, 1, 4, 2, 5, 6, 9, 7, 10, 8, 11], rfl⟩)
    "a (c b) -> c".toList (.name "sum".toList) [kwInt "b" 2] =
    reduce (numpyBackend intOps true) idOrder (.one t43) "(a b) c -> c".toList (.name "sum".toList) [kwInt "a" 2] := by rfl
end

end Einops
