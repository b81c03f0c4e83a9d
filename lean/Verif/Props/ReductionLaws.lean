import Verif.Proofs.ReductionLaws
import Verif.Props.Examples

/-!
# Relations between reductions

What holds between two reductions of all lists of numbers holds between the results of `reduce` with them.
-/

namespace Einops

universe u

section
variable {α : Type u} [PyUnicode] {E E' : ElemOps α} {b b' : Backend α} {so so' : SetOrder} {x y y' : Tensor α}
  {pattern : Str} {kw : List (Str × Size)} {o o' : Str}

/-! ### C56 -/

/-- **C56** Two reductions of one tensor by the same pattern, in any frameworks: the results have the same shape, and a
relation that holds between the two reductions of every list of elements of `x` (non-empty if `x` is) — and between every
element and itself, for patterns that reduce nothing — holds between their elements. -/
theorem C56_related (hb : Computes E o b) (hb' : Computes E' o' b') (ho : o ∈ builtins) (ho' : o' ∈ builtins)
    (hell : '…' ∉ pattern) (hkw : IntKw kw) (rel : α → α → Prop) (hrefl : ∀ v ∈ x.data, rel v v)
    (hrel : ∀ vs v v', (∀ u ∈ vs, u ∈ x.data) → (x.data ≠ [] → vs ≠ []) → E.op o vs = .ok v → E'.op o' vs = .ok v' → rel v v')
    (h : reduce b so (.one x) pattern (.name o) kw = .ok y) (h' : reduce b' so' (.one x) pattern (.name o') kw = .ok y') :
    y'.shape = y.shape ∧ List.Forall₂ rel y.data y'.data := by
  have hr := red_names_isRed ho
  have hr' := red_names_isRed ho'
  obtain ⟨GL, GR, L, R, len, ha, hm⟩ := (reduce_iff hb.modelled.lawful so hell hkw hr (hb.reduce ho) y).1 h
  have ha' := ha.other ho ho'
  by_cases hd : Drops L R
  · obtain ⟨-, -, hm⟩ := hm.resolve_left (fun h => h.1 hd)
    have hf' : o' = "mean".toList → b'.isFloat x = true := by
      rintro rfl
      by_contra hc
      rw [ha'.mean_error hb'.modelled.lawful so' hkw hd (by simpa using hc)] at h'
      cases h'
    have hm' := (ha'.reduces (red := .name o') hb'.modelled.lawful so' hkw hr' hd (hb'.row ho' hf') y').1 h'
    refine ⟨hm'.1.trans hm.1.symm, forall₂_of_axes ha.nodup.2 hm.1 hm'.1 fun env henv => ?_⟩
    obtain ⟨vs, v, h1, h2, h3⟩ := hm.2 env henv
    obtain ⟨vs', v', h1', h2', h3'⟩ := hm'.2 env henv
    have hv : vs' = vs := List.map_injective_iff.2 (Option.some_injective α) (h1'.symm.trans h1)
    subst hv
    refine ⟨v, v', h3, h3', hrel vs' v v' (mem_data_of_row h1) ?_ h2 h2'⟩
    rintro hne rfl
    apply hne
    have hz := congrArg List.length h1
    rw [List.length_map, loops_length] at hz
    rw [← List.length_eq_zero_iff, data_length ha.fits.shape_eq,
      groupSize_perm (perm_dropped ha.nodup.1 ha.nodup.2 (reduce_axes_sub ha.pattern hr ha.prepared)), groupSize_append, hz]
    simp
  · obtain ⟨-, hm⟩ := hm.resolve_right (fun h => hd h.1)
    obtain ⟨y'', h1, h2⟩ := ha'.moves (red := .name o') hb'.modelled.lawful hkw
      (fun a hal => by_contra fun hc => hd ⟨a, hal, hc⟩)
    have hsub : ∀ a ∈ L.flatten, a ∈ R.flatten := fun a hal => by_contra fun hc => hd ⟨a, hal, hc⟩
    rw [h1 so'] at h'
    cases h'
    cases hm.unique ha.nodup.2 hsub h2
    refine ⟨rfl, forall₂_of_axes ha.nodup.2 hm.1 hm.1 fun env henv => ?_⟩
    obtain ⟨v, h3, h4⟩ := hm.2 env (fun a ha => henv a ((List.mem_append.1 ha).elim (hsub a) id))
    exact ⟨v, v, h4, h4, hrefl v (mem_data_of_atAxes h3)⟩

/-- **C56** If one reduction of `n` elements is a function `f n` of another, then so it is for tensors: `n` is the number of
elements of `x` for every element of the result, and a call with the one reduction returns `f n` of what the call with the
other one returns. -/
theorem C56_function (hb : Computes E o b) (hb' : Computes E' o' b') (ho : o ∈ builtins) (ho' : o' ∈ builtins)
    (hell : '…' ∉ pattern) (hkw : IntKw kw) (f : Nat → α → α) (hone : ∀ v ∈ x.data, f 1 v = v)
    (hrel : ∀ vs v, (∀ u ∈ vs, u ∈ x.data) → (x.data ≠ [] → vs ≠ []) → E.op o vs = .ok v → E'.op o' vs = .ok (f vs.length v))
    (hf : o' = "mean".toList → b'.isFloat x = true) (h : reduce b so (.one x) pattern (.name o) kw = .ok y) :
    ∃ n, x.data.length = n * y.data.length ∧ reduce b' so' (.one x) pattern (.name o') kw = .ok (y.map (f n)) := by
  have hr := red_names_isRed ho
  have hr' := red_names_isRed ho'
  obtain ⟨GL, GR, L, R, len, ha, hm⟩ := (reduce_iff hb.modelled.lawful so hell hkw hr (hb.reduce ho) y).1 h
  have ha' := ha.other ho ho'
  have hlen : x.data.length = groupSize len (L.flatten.filter (fun a => a ∉ R.flatten)) * y.data.length := by
    have hy : y.shape = R.map (groupSize len) := by
      rcases hm with hm | hm
      · exact hm.2.1
      · exact hm.2.2.1
    rw [data_length ha.fits.shape_eq, data_length hy,
      groupSize_perm (perm_dropped ha.nodup.1 ha.nodup.2 (reduce_axes_sub ha.pattern hr ha.prepared)), groupSize_append]
  refine ⟨_, hlen, ?_⟩
  by_cases hd : Drops L R
  · obtain ⟨-, -, hm⟩ := hm.resolve_left (fun h => h.1 hd)
    refine (ha'.reduces (red := .name o') hb'.modelled.lawful so' hkw hr' hd (hb'.row ho' hf) _).2 ⟨hm.1, fun env henv => ?_⟩
    obtain ⟨vs, v, h1, h2, h3⟩ := hm.2 env henv
    have hz := congrArg List.length h1
    rw [List.length_map, List.length_map, loops_length] at hz
    refine ⟨vs, f vs.length v, h1, hrel vs v (mem_data_of_row h1) ?_ h2, ?_⟩
    · rintro hne rfl
      rw [hz] at hlen
      simp only [List.length_nil, zero_mul, List.length_eq_zero_iff] at hlen
      exact hne hlen
    · rw [atAxes_elem, h3, hz]; rfl
  · obtain ⟨-, hm⟩ := hm.resolve_right (fun h => hd h.1)
    have hsub : ∀ a ∈ L.flatten, a ∈ R.flatten := fun a hal => by_contra fun hc => hd ⟨a, hal, hc⟩
    have hnil : L.flatten.filter (fun a => a ∉ R.flatten) = [] :=
      List.filter_eq_nil_iff.2 (fun a ha => by simpa using hsub a ha)
    obtain ⟨y'', h1, h2⟩ := ha'.moves (red := .name o') hb'.modelled.lawful hkw hsub
    cases hm.unique ha.nodup.2 hsub h2
    rw [h1 so', hnil]
    congr 1
    refine Tensor.eq_of rfl ?_
    conv_lhs => rw [← List.map_id y.data]
    refine List.map_congr_left fun v hv => ?_
    have : v ∈ x.data := by
      rw [← List.mem_map_of_injective (Option.some_injective α), data_eq_loops ha.nodup.2 hm.1 (fun _ => 0)] at hv
      obtain ⟨e, he, hv⟩ := List.mem_map.1 hv
      have hin := (mem_loops he).2 ha.nodup.2
      obtain ⟨w, h3, h4⟩ := hm.2 e (fun a ha => hin a ((List.mem_append.1 ha).elim (hsub a) id))
      rw [h4] at hv
      cases hv
      exact mem_data_of_atAxes h3
    exact (hone v this).symm

end

section
variable [PyUnicode] {b b' : Backend ℚ} {so so' : SetOrder} {x y y' : Tensor ℚ} {pattern : Str} {kw : List (Str × Size)}

/-- **C56** The mean is the sum divided by the number of elements summed, which is the quotient of the numbers of elements
of `x` and of the result. -/
theorem C56_mean (hb : Computes ratOps "sum".toList b) (hb' : Computes ratOps "mean".toList b') (hell : '…' ∉ pattern)
    (hkw : IntKw kw) (hne : x.data ≠ []) (hf : b'.isFloat x = true)
    (h : reduce b so (.one x) pattern (.name "sum".toList) kw = .ok y) :
    reduce b' so' (.one x) pattern (.name "mean".toList) kw =
      .ok (y.map (fun v => v / ((x.data.length : ℚ) / y.data.length))) := by
  obtain ⟨n, h1, h2⟩ := C56_function (so' := so') hb hb' (by decide) (by decide) hell hkw (fun n v => v / n) (by simp)
    (fun vs v _ hne' hv => by
      have hv : Except.ok vs.sum = Except.ok (ε := PyErr) v := hv
      cases hv
      exact if_neg (hne' hne)) (fun _ => hf) h
  rw [h2]
  have hn : (y.data.length : ℚ) ≠ 0 := by
    intro hz
    rw [Nat.cast_eq_zero] at hz
    rw [hz, Nat.mul_zero, List.length_eq_zero_iff] at h1
    exact hne h1
  rw [h1]
  congr 3
  funext v
  push_cast
  rw [mul_div_cancel_right₀ _ hn]

theorem le_fold_max (v : ℚ) (vs : List ℚ) : v ≤ vs.foldl max v ∧ ∀ u ∈ vs, u ≤ vs.foldl max v := by
  induction vs generalizing v with
  | nil => simp
  | cons a vs ih =>
    obtain ⟨h1, h2⟩ := ih (max v a)
    simp only [List.foldl_cons, List.mem_cons, forall_eq_or_imp]
    exact ⟨le_trans (le_max_left _ _) h1, le_trans (le_max_right _ _) h1, h2⟩

theorem fold_min_le (v : ℚ) (vs : List ℚ) : vs.foldl min v ≤ v ∧ ∀ u ∈ vs, vs.foldl min v ≤ u := by
  induction vs generalizing v with
  | nil => simp
  | cons a vs ih =>
    obtain ⟨h1, h2⟩ := ih (min v a)
    simp only [List.foldl_cons, List.mem_cons, forall_eq_or_imp]
    exact ⟨le_trans h1 (min_le_left _ _), le_trans h1 (min_le_right _ _), h2⟩

theorem sum_le_card (vs : List ℚ) (m : ℚ) (h : ∀ u ∈ vs, u ≤ m) : vs.sum ≤ vs.length * m := by
  induction vs with
  | nil => simp
  | cons a vs ih =>
    have := ih (fun u hu => h u (by simp [hu]))
    have := h a (by simp)
    simp only [List.sum_cons, List.length_cons]
    push_cast
    linarith

theorem card_le_sum (vs : List ℚ) (m : ℚ) (h : ∀ u ∈ vs, m ≤ u) : vs.length * m ≤ vs.sum := by
  induction vs with
  | nil => simp
  | cons a vs ih =>
    have := ih (fun u hu => h u (by simp [hu]))
    have := h a (by simp)
    simp only [List.sum_cons, List.length_cons]
    push_cast
    linarith

/-- **C56** Every element of the mean lies between those of the minimum and of the maximum. -/
theorem C56_between {ymin ymax : Tensor ℚ} {b'' : Backend ℚ} {so'' : SetOrder} (hb : Computes ratOps "min".toList b)
    (hb' : Computes ratOps "mean".toList b') (hb'' : Computes ratOps "max".toList b'') (hell : '…' ∉ pattern) (hkw : IntKw kw)
    (h : reduce b so (.one x) pattern (.name "min".toList) kw = .ok ymin)
    (h' : reduce b' so' (.one x) pattern (.name "mean".toList) kw = .ok y)
    (h'' : reduce b'' so'' (.one x) pattern (.name "max".toList) kw = .ok ymax) :
    List.Forall₂ (· ≤ ·) ymin.data y.data ∧ List.Forall₂ (· ≤ ·) y.data ymax.data := by
  have hmean : ∀ vs v, ratOps.op "mean".toList vs = .ok v → vs ≠ [] ∧ v = vs.sum / vs.length := by
    intro vs v hv
    have hv : (if vs = [] then (.error .backend : Py ℚ) else .ok (vs.sum / vs.length)) = .ok v := hv
    split at hv
    · cases hv
    · cases hv; exact ⟨‹_›, rfl⟩
  have hpos : ∀ vs : List ℚ, vs ≠ [] → (0 : ℚ) < vs.length := fun vs hne => by
    exact_mod_cast List.length_pos_iff.2 hne
  constructor
  · refine (C56_related hb hb' (by decide) (by decide) hell hkw (· ≤ ·) (fun _ _ => le_refl _)
      (fun vs v v' _ _ h1 h2 => ?_) h h').2
    obtain ⟨hne, rfl⟩ := hmean vs v' h2
    have h1 : foldNonempty min vs = .ok v := h1
    cases vs with
    | nil => cases h1
    | cons u vs =>
      cases h1
      rw [le_div_iff₀ (hpos _ hne), mul_comm]
      refine card_le_sum _ _ fun w hw => ?_
      obtain ⟨k1, k2⟩ := fold_min_le u vs
      rcases List.mem_cons.1 hw with rfl | hw
      · exact k1
      · exact k2 w hw
  · refine (C56_related hb' hb'' (by decide) (by decide) hell hkw (· ≤ ·) (fun _ _ => le_refl _)
      (fun vs v v' _ _ h1 h2 => ?_) h' h'').2
    obtain ⟨hne, rfl⟩ := hmean vs v h1
    have h2 : foldNonempty max vs = .ok v' := h2
    cases vs with
    | nil => cases h2
    | cons u vs =>
      cases h2
      rw [div_le_iff₀ (hpos _ hne), mul_comm]
      refine sum_le_card _ _ fun w hw => ?_
      obtain ⟨k1, k2⟩ := le_fold_max u vs
      rcases List.mem_cons.1 hw with rfl | hw
      · exact k1
      · exact k2 w hw

end

section
attribute [local instance] asciiUnicode

def q23 : Tensor ℚ := ⟨[2, 3], [0, 1, 5, 3, 4, 2], rfl⟩

example : reduce (torchBackend ratOps true) idOrder (.one q23) "a b -> b".toList (.name "mean".toList) [] =
    .ok ((⟨[3], [3, 5, 7], rfl⟩ : Tensor ℚ).map (fun v => v / ((q23.data.length : ℚ) / (3 : ℕ)))) :=
  C56_mean (b := numpyBackend ratOps true) (so := idOrder) (.numpy true) (.torch true (.inl (by decide))) (by decide)
    ⟨by decide, by decide⟩ (by decide) rfl (by decide +kernel)

example : reduce (numpyBackend ratOps true) idOrder (.one q23) "a b -> b".toList (.name "min".toList) [] =
    .ok ⟨[3], [0, 1, 2], rfl⟩ ∧
    reduce (numpyBackend ratOps true) idOrder (.one q23) "a b -> b".toList (.name "mean".toList) [] =
    .ok ⟨[3], [3/2, 5/2, 7/2], rfl⟩ ∧
    reduce (numpyBackend ratOps true) idOrder (.one q23) "a b -> b".toList (.name "max".toList) [] =
    .ok ⟨[3], [3, 4, 5], rfl⟩ := by decide +kernel
-- an empty tensor has sums but, in exact arithmetic, no means
example : reduce (numpyBackend ratOps true) idOrder (.one ⟨[0, 2], [], rfl⟩) "a b -> b".toList (.name "sum".toList) [] =
    .ok ⟨[2], [0, 0], rfl⟩ ∧
    reduce (numpyBackend ratOps true) idOrder (.one ⟨[0, 2], [], rfl⟩) "a b -> b".toList (.name "mean".toList) [] =
    .error .backend := by decide +kernel
end

end Einops
