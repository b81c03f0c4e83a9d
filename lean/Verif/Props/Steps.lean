import Verif.Proofs.Steps
import Verif.Props.Exceptions

/-!
# C65: which operations of the framework are called

The backends of these theorems are arbitrary: nothing is assumed about their operations, so "the outcome is this for every
backend" says which operations are called and which are not.
-/

namespace Einops

universe u

section
variable {α : Type u} [PyUnicode] {x : Tensor α} {pattern : Str} {kw : List (Str × Size)} {red : Reduction α}
  {GL GR : List Elem} {L R : List (List Axis)} {len : AxisMap}

/-- **C65** A legal call makes exactly the operations that its pattern needs, in this order. -/
theorem C65_steps (hkw : IntKw kw) (h : Accepted red.kind pattern kw x.shape GL GR L R len) (b : Backend α)
    (so : SetOrder) : reduce b so (.one x) pattern red kw = runSteps b red (stepsOf len L R) x :=
  h.steps hkw b so

/-- **C65** Any other call (without negative sizes) makes none: it fails in the same way whatever the operations do. -/
theorem C65_refused (hell : '…' ∉ pattern) (hkw : IntKw kw) (hpos : ∀ p ∈ kw, 0 ≤ p.2.val)
    (h : ¬ ∃ GL GR L R len, Accepted red.kind pattern kw x.shape GL GR L R len) :
    ∃ e, ∀ (b : Backend α) so, reduce b so (.one x) pattern red kw = .error e := by
  by_cases h1 : OneArrow pattern
  swap
  · exact ⟨.value, fun b so => C58_arrow hell b so red hkw h1⟩
  by_cases h2 : ∃ L, Parses red.kind pattern kw x.ndim L
  swap
  · exact ⟨.einops, fun b so => C58_pattern hell b so red hkw h1 h2⟩
  obtain ⟨L, h2⟩ := h2
  by_cases h3 : AllAgree kw L x.shape
  · obtain ⟨GL, GR, R, len, h4⟩ := C58_legal hkw hpos h2 h3
    exact absurd ⟨GL, GR, L, R, len, h4⟩ h
  · obtain ⟨g, hg⟩ := exists_firstBad hkw h3
    by_cases h4 : DividesByZero kw g
    · exact ⟨.zeroDivision, fun b so => (C58_sizes hell b so red hkw h2 hg).1 h4⟩
    · exact ⟨.einops, fun b so => (C58_sizes hell b so red hkw h2 hg).2 h4⟩

/-- **C65** A call whose two sides are the same, each dimension one axis, returns the tensor itself. -/
theorem C65_same (hkw : IntKw kw) (h : Accepted red.kind pattern kw x.shape GL GR L L len) (h1 : ∀ g ∈ L, g.length = 1)
    (b : Backend α) (so : SetOrder) : reduce b so (.one x) pattern red kw = .ok x := by
  rw [h.steps hkw b so]
  have hk : keptOf L L = L.flatten := List.filter_eq_self.2 (fun a ha => by simpa using ha)
  have hd : droppedOf L L = [] := List.filter_eq_nil_iff.2 (fun a ha => by simpa using ha)
  have e1 : ¬ ∃ g ∈ L, g.length ≠ 1 := by push Not; exact h1
  have e2 : ¬ ∃ a ∈ L.flatten, a ∉ L.flatten := by simp
  unfold stepsOf when
  simp only [hk, hd, List.append_nil]
  rw [if_neg e1, if_neg e2, if_neg (not_not_intro rfl), if_neg (not_not_intro rfl)]
  simp only [if_neg e1]
  rfl

/-- **C65** Shapes are changed only where a dimension is not one axis: at most once before and once after the other
operations. -/
theorem C65_no_reshape (hL : ∀ g ∈ L, g.length = 1) (hR : ∀ g ∈ R, g.length = 1) (s : List Nat) :
    .reshape s ∉ stepsOf len L R := by
  have e1 : ¬ ∃ g ∈ L, g.length ≠ 1 := by push Not; exact hL
  have e2 : ¬ ∃ g ∈ R, g.length ≠ 1 := by push Not; exact hR
  unfold stepsOf when
  rw [if_neg e1, if_neg e2]
  simp only [List.mem_append, List.not_mem_nil, false_or, or_false, not_or]
  refine ⟨⟨?_, ?_⟩, ?_⟩ <;> split <;> simp

/-- so a backend in which reshaping does something else gives the same outcome. -/
theorem C65_reshape_unused (hkw : IntKw kw) (h : Accepted red.kind pattern kw x.shape GL GR L R len)
    (hL : ∀ g ∈ L, g.length = 1) (hR : ∀ g ∈ R, g.length = 1) (b : Backend α) (so : SetOrder)
    (f : Tensor α → List Int → Py (Tensor α)) :
    reduce { b with reshape := f } so (.one x) pattern red kw = reduce b so (.one x) pattern red kw := by
  rw [h.steps hkw, h.steps hkw]
  have := C65_no_reshape (len := len) hL hR
  generalize stepsOf len L R = S at this
  have key : ∀ x, runSteps { b with reshape := f } red S x = runSteps b red S x := by
    induction S with
    | nil => intro x; rfl
    | cons s S ih =>
      intro x
      have e : Step.run { b with reshape := f } red s x = Step.run b red s x := by
        cases s with
        | reshape t => exact absurd List.mem_cons_self (this t)
        | _ => rfl
      simp only [runSteps, e]
      congr 1
      exact funext (ih (fun t ht => this t (List.mem_cons_of_mem _ ht)))
  exact key x

/-- **C65** Axes are permuted only if the order changes: not if the kept axes are in order before the dropped ones. -/
theorem C65_no_transpose (h : keptOf L R ++ droppedOf L R = L.flatten) (p : List Nat) : .transpose p ∉ stepsOf len L R := by
  unfold stepsOf when
  rw [if_neg (not_not_intro h)]
  simp only [List.mem_append, List.append_nil, not_or]
  refine ⟨⟨⟨?_, ?_⟩, ?_⟩, ?_⟩ <;> split <;> simp

/-- **C65** `rearrange` and `repeat` never reduce. -/
theorem C65_move_no_reduce (hm : isMove red.kind) (h : Accepted red.kind pattern kw x.shape GL GR L R len) (axes : List Nat) :
    .reduce axes ∉ stepsOf len L R := by
  have hd : droppedOf L R = [] := by
    apply List.filter_eq_nil_iff.2
    intro a ha
    simp [h.move_sub hm a ha]
  unfold stepsOf when
  rw [hd, if_neg (c := ([] : List Axis) ≠ []) (not_not_intro rfl)]
  simp only [List.mem_append, List.append_nil, not_or]
  refine ⟨⟨⟨?_, ?_⟩, ?_⟩, ?_⟩ <;> split <;> simp

/-- **C65** Only `repeat` inserts axes. -/
theorem C65_only_repeat_adds (hm : red.kind ≠ .name "repeat".toList)
    (h : Accepted red.kind pattern kw x.shape GL GR L R len) (n : Nat) (l : List (Nat × Nat)) :
    .addAxes n l ∉ stepsOf len L R := by
  have hd : ¬ ∃ a ∈ R.flatten, a ∉ L.flatten := by
    rintro ⟨a, ha, hn⟩
    by_cases h1 : red.kind = .name "rearrange".toList
    · have hp := h.prepared
      rw [h1] at hp
      exact hn ((rearrange_axes h.pattern hp).2 a ha)
    · exact hn (reduce_axes_sub h.pattern ⟨h1, hm⟩ h.prepared a ha)
  unfold stepsOf when
  rw [if_neg hd]
  simp only [List.mem_append, List.append_nil, not_or]
  refine ⟨⟨⟨?_, ?_⟩, ?_⟩, ?_⟩ <;> split <;> simp

/-- **C65** At most three operations for `rearrange`, four for `repeat` and `reduce`. -/
theorem C65_how_many (h : Accepted red.kind pattern kw x.shape GL GR L R len) :
    (stepsOf len L R).length ≤ 4 ∧ (red.kind = .name "rearrange".toList → (stepsOf len L R).length ≤ 3) := by
  have hw : ∀ (p : Prop) [Decidable p] (s : Step), (when p s).length ≤ 1 := by
    intro p _ s; unfold when; split <;> simp
  have hnil : ∀ (s : Step) (S : List Step), s ∉ S → ∀ (p : Prop) [Decidable p], (∀ t ∈ when p s, t ∈ S) → (when p s).length = 0 := by
    intro s S hs p _ h
    unfold when at h ⊢
    split
    · rename_i hp
      rw [if_pos hp] at h
      exact absurd (h s (by simp)) hs
    · rfl
  have hlen : ∀ p q r s t : List Step, (p ++ q ++ r ++ s ++ t).length =
      p.length + q.length + r.length + s.length + t.length := by
    intros; simp only [List.length_append]
  have hr : isMove red.kind →
      (when (droppedOf L R ≠ []) (.reduce (List.range' (keptOf L R).length (droppedOf L R).length))).length = 0 := fun hm =>
    hnil _ _ (C65_move_no_reduce (len := len) hm h _) _ (fun t ht => by
      unfold stepsOf; simp only [List.mem_append]; tauto)
  have ha : red.kind ≠ .name "repeat".toList →
      (when (∃ a ∈ R.flatten, a ∉ L.flatten) (.addAxes R.flatten.length (newOf len L R))).length = 0 := fun hm =>
    hnil _ _ (C65_only_repeat_adds (len := len) hm h _ _) _ (fun t ht => by
      unfold stepsOf; simp only [List.mem_append]; tauto)
  have g1 := hw (∃ g ∈ L, g.length ≠ 1) (.reshape (L.flatten.map len))
  have g2 := hw (keptOf L R ++ droppedOf L R ≠ L.flatten)
    (.transpose ((keptOf L R ++ droppedOf L R).map (fun a => L.flatten.idxOf a)))
  have g3 := hw (droppedOf L R ≠ []) (.reduce (List.range' (keptOf L R).length (droppedOf L R).length))
  have g4 := hw (∃ a ∈ R.flatten, a ∉ L.flatten) (.addAxes R.flatten.length (newOf len L R))
  have g5 := hw (∃ g ∈ R, g.length ≠ 1) (.reshape (R.map (groupSize len)))
  unfold stepsOf
  rw [hlen]
  constructor
  · by_cases hm : red.kind = .name "repeat".toList
    · have := hr (.inr hm); omega
    · have := ha hm; omega
  · intro hm
    have h1 := hr (.inl hm)
    have h2 := ha (by rw [hm]; decide)
    omega

end

/-! ### Examples -/

section
attribute [local instance] asciiUnicode

/-- a backend in which nothing works -/
def stuck : Backend Int :=
  ⟨fun _ => true, fun _ _ => .error .backend, fun _ _ => .error .backend, fun _ _ _ => .error .backend,
    fun _ _ _ => .error .backend, fun _ => .error .backend⟩

-- C65_same: nothing is called
example : rearrange stuck idOrder (.one t23) "a b -> a b".toList [] = .ok t23 := by decide +kernel
example : rearrange stuck idOrder (.one t23) "... -> ...".toList [] = .ok t23 := by decide +kernel
example : reduce stuck idOrder (.one t23) "a b -> a b".toList (.name "mean".toList) [] = .ok t23 := by decide +kernel
-- the hypotheses of C65_steps and C65_same
example (b : Backend Int) (so : SetOrder) : rearrange b so (.one t23) "a b -> a b".toList [] = .ok t23 := by
  obtain ⟨GL, GR, L, R, len, h1, h2, h3, h4, h5, h6, h7⟩ := (C04_rearrange_accepts (E := intOps)
    (b := numpyBackend intOps true) (so := idOrder) (x := t23) (pattern := "a b -> a b".toList) (kw := [])
    (.numpy true) (by decide) ⟨by decide, by decide⟩).1 ⟨t23, by decide +kernel⟩
  have hp : IsPattern "a b -> a b".toList [.bare "a".toList, .bare "b".toList] [.bare "a".toList, .bare "b".toList] :=
    ⟨"a b ".toList, " a b".toList, by decide, isSide_of (by decide) (by decide) (by decide) (by decide),
      isSide_of (by decide) (by decide) (by decide) (by decide)⟩
  obtain ⟨rfl, rfl⟩ := isPattern_unique h1 hp
  obtain ⟨n, hn, rfl, rfl, hl⟩ := h4
  obtain rfl := hn (by decide)
  exact C65_same (red := .name "rearrange".toList) ⟨by decide, by decide⟩ ⟨h1, ⟨h2, h3, ⟨0, fun _ => rfl, rfl, rfl, hl⟩, h5⟩, h6, h7⟩
    (by decide) b so
-- C65_reshape_unused: axes are permuted without reshaping
example : (rearrange { numpyBackend intOps true with reshape := stuck.reshape } idOrder (.one t23) "a b -> b a".toList []).map
    Tensor.shape = .ok [3, 2] := by decide +kernel
-- and the reshape is needed when axes are joined
example : rearrange { numpyBackend intOps true with reshape := stuck.reshape } idOrder (.one t23) "a b -> (b a)".toList [] =
    .error .backend := by decide +kernel
-- C65_refused
example : rearrange stuck idOrder (.one t23) "(a c) b -> a b c".toList [("c".toList, ⟨4, true⟩)] = .error .einops := by
  decide +kernel
-- the operations of `(a c) b -> b a` as a reduction over `c`, for a = 2, b = 3, c = 4
example : stepsOf (fun a => if a = .str ['a'] then 2 else if a = .str ['b'] then 3 else 4)
    [[.str ['a'], .str ['c']], [.str ['b']]] [[.str ['b']], [.str ['a']]] =
    [.reshape [2, 4, 3], .transpose [2, 0, 1], .reduce [2]] := by decide
-- the operations of `a -> a b` as a repetition, and of `a b c -> a (b c)`
example : stepsOf (fun a => if a = .str ['a'] then 2 else 3) [[.str ['a']]] [[.str ['a']], [.str ['b']]] =
    [.addAxes 2 [(1, 3)]] := by decide
example : stepsOf (fun _ => 2) [[.str ['a']], [.str ['b']], [.str ['c']]] [[.str ['a']], [.str ['b'], .str ['c']]] =
    [.reshape [2, 4]] := by decide

end

end Einops
