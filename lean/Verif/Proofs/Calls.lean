import Verif.Proofs.Backends

/-! The reduction call inside an operation, its failures, lists of tensors. -/

namespace Einops

universe u
variable {α : Type u} [PyUnicode] {b : Backend α} (hb : MoveLawful b) {x : Tensor α} {pattern : Str}
  {kw : List (Str × Size)} (hkw : IntKw kw)

include hb hkw in
/-- What an accepted call that drops axes does: it hands the reduction a tensor whose dimensions are the axes of the
right side followed by the dropped ones, and joins dimensions of the result. -/
theorem Accepted.call {red : Reduction α} (ho : isRed red.kind)
    {GL GR : List Elem} {L R : List (List Axis)} {len : AxisMap}
    (h : Accepted red.kind pattern kw x.shape GL GR L R len) (hd : Drops L R) :
    ∃ t : Tensor α, t.shape = (R.flatten ++ L.flatten.filter (fun a => a ∉ R.flatten)).map len ∧
      (∀ env, InRange len L.flatten env →
        t.at? ((R.flatten ++ L.flatten.filter (fun a => a ∉ R.flatten)).map env) = x.atAxes L len env) ∧
      ∀ so, reduce b so (.one x) pattern red kw =
        (reduceAxesE b t red ((List.range t.ndim).drop R.flatten.length)).bind (fun z =>
          if R.any (fun g => g.length ≠ 1) then z.withShape (R.map (groupSize len)) else .ok z) := by
  obtain ⟨ex, wf, rfl, rfl, hs, heq⟩ := h.run hkw b
  have hsub := reduce_axes_sub h.pattern ho h.prepared
  have hlenL : ∀ a ∈ ex.left.flatten, (axisSize kw ex.left (x.shape.map Size.ofNat) a).val = len a :=
    fun a ha => hs a (List.mem_append_left _ ha)
  have hlenR : ∀ a ∈ ex.rght.flatten, (axisSize kw ex.left (x.shape.map Size.ofNat) a).val = len a :=
    fun a ha => hs a (List.mem_append_right _ ha)
  obtain ⟨t, h1, h2, h3⟩ := first_stages wf hlenL hb h.fits.shape_eq
  have hkeep : keptAxes ex = ex.rght.flatten := by
    unfold keptAxes
    rw [List.filter_eq_self]
    intro a ha
    have := (wf.leftIds_iff a).2 (hsub a ha)
    simpa using this
  have hdrop : droppedAxes ex = ex.left.flatten.filter (fun a => a ∉ ex.rght.flatten) := by
    unfold droppedAxes
    apply List.filter_congr
    intro a _
    simp [wf.rghtIds_iff]
  have hndim : t.ndim = (keptAxes ex).length + (droppedAxes ex).length := by simp [Tensor.ndim, h2]
  have hdl : 0 < (droppedAxes ex).length := List.length_pos_iff.2 ((droppedAxes_ne_nil wf).1 hd)
  refine ⟨t, by rw [h2, hkeep, hdrop], fun env henv => by rw [← h3 env henv, hkeep, hdrop], fun so => ?_⟩
  rw [heq so]
  unfold applyCooked
  rw [applyStages_eq, h1]
  simp only [Except.bind, optReduce, cooked_reduced]
  rw [if_pos (by simp; omega), ← hndim, hkeep]
  congr 1
  funext z
  have hadd : (cookedOf ex kw (x.shape.map Size.ofNat)).addedAxes = [] := by
    rw [← List.length_eq_zero_iff, cooked_added_length, List.length_eq_zero_iff, List.filter_eq_nil_iff]
    intro a ha
    have := (wf.leftIds_iff a).2 (hsub a ha)
    simpa using this
  have hf : (cookedOf ex kw (x.shape.map Size.ofNat)).finalShapes = if ex.rght.any (fun g => g.length ≠ 1) then
      some (ex.rght.map (fun g => sizeProd (g.map (axisSize kw ex.left (x.shape.map Size.ofNat))))) else none := rfl
  unfold finishStages optAddAxes
  rw [hadd, hf]
  simp only [List.length_nil, gt_iff_lt, Nat.lt_irrefl, if_false, Except.bind]
  split
  · simp only [optReshape, List.map_map]
    have : ex.rght.map (Size.val ∘ fun g => sizeProd (g.map (axisSize kw ex.left (x.shape.map Size.ofNat)))) =
        (ex.rght.map (groupSize len)).map Int.ofNat := by
      rw [List.map_map]
      exact List.map_congr_left (fun g hg => sizeProd_val hlenR hg)
    rw [this, hb.reshape]
  · rfl

include hb hkw in
/-- An accepted call fails only if the reduction fails on some of the lists of elements it is given (or refuses the
tensor). -/
theorem Accepted.error {red : Reduction α} {op : List α → Py α} (ho : isRed red.kind)
    {GL GR : List Elem} {L R : List (List Axis)} {len : AxisMap}
    (h : Accepted red.kind pattern kw x.shape GL GR L R len) (hd : Drops L R)
    (hred : ∀ (t : Tensor α) k, k < t.ndim → reduceAxesE b t red ((List.range t.ndim).drop k) =
      t.reduceAxes op ((List.range t.ndim).drop k)) (so : SetOrder) {e : PyErr}
    (he : reduce b so (.one x) pattern red kw = .error e) :
    ∃ env vs, InRange len R.flatten env ∧
      (loops len (L.flatten.filter (fun a => a ∉ R.flatten)) env).map (x.atAxes L len) = vs.map some ∧
      op vs = .error e := by
  obtain ⟨t, h1, h2, h3⟩ := h.call hb hkw ho hd
  have hsub := reduce_axes_sub h.pattern ho h.prepared
  obtain ⟨hLn, hRn⟩ := h.nodup
  have hn : (R.flatten ++ L.flatten.filter (fun a => a ∉ R.flatten)).Nodup := by
    rw [List.nodup_append]
    refine ⟨hRn, hLn.filter _, ?_⟩
    rintro a ha c hc rfl
    simp only [List.mem_filter, decide_eq_true_eq] at hc
    exact hc.2 ha
  have hndim : t.ndim = R.flatten.length + (L.flatten.filter (fun a => a ∉ R.flatten)).length := by
    rw [Tensor.ndim, h1, List.length_map, List.length_append]
  have hpos : 0 < (L.flatten.filter (fun a => a ∉ R.flatten)).length := by
    obtain ⟨a, ha, hna⟩ := hd
    exact List.length_pos_of_mem (List.mem_filter.2 ⟨ha, by simpa using hna⟩)
  rw [h3 so, hred t _ (by omega)] at he
  rcases hz : t.reduceAxes op ((List.range t.ndim).drop R.flatten.length) with e' | z
  · rw [hz] at he
    cases he
    rw [hndim] at hz
    obtain ⟨env, vs, henv, hvs, hop⟩ := reduce_axes_error hn h1 op hz
    refine ⟨env, vs, henv, ?_, hop⟩
    rw [← hvs]
    apply List.map_congr_left
    intro e1 he1
    obtain ⟨h4, h5⟩ := mem_loops he1
    rw [h2]
    intro a ha
    by_cases haD : a ∈ L.flatten.filter (fun a => a ∉ R.flatten)
    · exact h5 (hLn.filter _) a haD
    · rw [h4 a haD]
      apply henv
      simp only [List.mem_filter, decide_eq_true_eq, not_and, not_not] at haD
      exact haD ha
  · exfalso
    rw [hz] at he
    simp only [Except.bind] at he
    split at he
    · rw [hndim] at hz
      obtain ⟨hzs, _⟩ := (reduce_axes hn h1 op).1 hz
      obtain ⟨y, hy, _⟩ := z.withShape_ok (s := R.map (groupSize len)) (by rw [hzs, ← groupSize_flatten]; rfl)
      rw [hy] at he
      cases he
    · cases he

/-! ### lists of tensors -/

omit [PyUnicode] in
theorem getElem_flatten_block {l : List (List α)} {n : Nat} (hl : ∀ d ∈ l, d.length = n) (k j : Nat) (hj : j < n) :
    l.flatten[k * n + j]? = (l[k]?).bind (fun d => d[j]?) := by
  induction l generalizing k with
  | nil => simp
  | cons d l ih =>
    have hd := hl d (by simp)
    cases k with
    | zero =>
      simp only [Nat.zero_mul, Nat.zero_add, List.flatten_cons, List.getElem?_cons_zero, Option.bind_some]
      rw [List.getElem?_append_left (by omega)]
    | succ k =>
      rw [List.flatten_cons, List.getElem?_append_right (by rw [hd, Nat.succ_mul]; omega), hd]
      rw [show (k + 1) * n + j - n = k * n + j by rw [Nat.succ_mul]; omega, ih (fun d hd => hl d (by simp [hd]))]
      simp

omit [PyUnicode] in
theorem stack_spec {s : List Nat} {xs : List (Tensor α)} (hne : xs ≠ []) (hs : ∀ x ∈ xs, x.shape = s) :
    ∃ y, Tensor.stack xs = .ok y ∧ y.shape = xs.length :: s ∧
      ∀ k i, y.at? (k :: i) = (xs[k]?).bind (fun x => x.at? i) := by
  cases xs with
  | nil => exact absurd rfl hne
  | cons x rest =>
    have hx := hs x (by simp)
    have hall : ∀ y ∈ rest, y.shape = x.shape := fun y hy => by rw [hs y (by simp [hy]), hx]
    unfold Tensor.stack
    simp only
    rw [dif_pos hall]
    refine ⟨_, rfl, by simp [hx], fun k i => ?_⟩
    unfold Tensor.at?
    simp only [inBounds, hx]
    by_cases hk : k < (x :: rest).length
    · rw [List.getElem?_eq_getElem hk]
      simp only [Option.bind_some, hs _ (List.getElem_mem hk)]
      simp only [List.length_cons] at hk
      by_cases hi : inBounds i s = true
      · simp only [hi, hk, decide_true, Bool.and_true, if_true, ravel]
        have h1 : ravel s i < s.prod := ravel_lt hi
        rw [getElem_flatten_block (n := s.prod) (by
          intro d hd
          simp only [List.mem_map] at hd
          obtain ⟨z, hz, rfl⟩ := hd
          rw [z.wf, hs z hz]) k _ h1]
        rw [List.getElem?_map, List.getElem?_eq_getElem (show k < (x :: rest).length by simpa using hk)]
        rfl
      · simp [hi]
    · rw [show (x :: rest)[k]? = none from List.getElem?_eq_none (by omega)]
      simp only [List.length_cons] at hk
      simp [hk]

end Einops
