import Verif.Proofs.Stages
import Verif.Proofs.Reconstruct

/-! The five stages of a recipe, on a lawful backend, implement the specification. -/

namespace Einops

universe u
variable {α : Type u}

/-- What the operations need of a backend. -/
structure MoveLawful (b : Backend α) : Prop where
  reshape : ∀ (x : Tensor α) (s : List Nat), b.reshape x (s.map Int.ofNat) = x.withShape s
  reshape_neg : ∀ (x : Tensor α) (s : List Int), (∃ d ∈ s, d < 0) →
    (2 ≤ (s.filter (fun d => decide (d < 0))).length ∨ 0 ∈ s) → b.reshape x s = .error .backend
  transpose : ∀ (x : Tensor α) (p : List Nat), b.transpose x p = x.transpose p
  addAxes : ∀ (x : Tensor α) (ms : List (Option Nat)), x.ndim = ms.count none →
    b.addAxes x ms.length (addedOf 0 ms) = x.insertAxes ms
  stack : ∀ xs, b.stack xs = Tensor.stack xs
  isFloat : ∀ x y, b.isFloat x = b.isFloat y

/-- reducing trailing axes is as the element operation says -/
def ReduceLawful (E : ElemOps α) (b : Backend α) (o : Str) : Prop :=
  ∀ (x : Tensor α) (k : Nat), k < x.ndim →
    b.reduce o x ((List.range x.ndim).drop k) = x.reduceAxes (E.op o) ((List.range x.ndim).drop k)

/-- kept axes in output order -/
def keptAxes (ex : Expanded) : List Axis := ex.rght.flatten.filter (fun a => a ∈ ex.leftIds)
/-- dropped axes in input order -/
def droppedAxes (ex : Expanded) : List Axis := ex.left.flatten.filter (fun a => a ∉ ex.rghtIds)

theorem ExpandedWF.order_nodup {ex : Expanded} (wf : ExpandedWF ex) : (keptAxes ex ++ droppedAxes ex).Nodup := by
  rw [List.nodup_append]
  refine ⟨wf.rght_nodup.filter _, wf.left_nodup.filter _, ?_⟩
  rintro a ha b hb rfl
  simp only [keptAxes, droppedAxes, List.mem_filter, decide_eq_true_eq] at ha hb
  exact hb.2 ((wf.rghtIds_iff a).2 ha.1)

theorem ExpandedWF.mem_order {ex : Expanded} (wf : ExpandedWF ex) (a : Axis) :
    a ∈ keptAxes ex ++ droppedAxes ex ↔ a ∈ ex.left.flatten := by
  simp only [keptAxes, droppedAxes, List.mem_append, List.mem_filter, decide_eq_true_eq, wf.leftIds_iff, wf.rghtIds_iff]
  tauto

theorem all_one_of_not_any {gs : List (List Axis)} (h : ¬ gs.any (fun g => decide (g.length ≠ 1)) = true) :
    ∀ g ∈ gs, g.length = 1 := by
  intro g hg
  by_contra hc
  exact h (List.any_eq_true.2 ⟨g, hg, by simpa using hc⟩)

theorem zipIdx_filter_added (len : AxisMap) (isNew : Axis → Bool) (A : List Axis) (k : Nat) :
    ((A.zipIdx k).filter (fun p => isNew p.1)).map (fun p => (p.2, (len p.1 : Int))) =
      addedOf k (newMask len isNew A) := by
  induction A generalizing k with
  | nil => rfl
  | cons a A ih =>
    unfold newMask at *
    rw [List.zipIdx_cons]
    cases h : isNew a <;> simp [h, addedOf, ih]

section
variable {ex : Expanded} (wf : ExpandedWF ex) {kw : List (Str × Size)} {shape : List Size} {len : AxisMap}
  (hlenL : ∀ a ∈ ex.left.flatten, (axisSize kw ex.left shape a).val = len a)
  (hlenR : ∀ a ∈ ex.rght.flatten, (axisSize kw ex.left shape a).val = len a)

include hlenR in
theorem cooked_added : (cookedOf ex kw shape).addedAxes.map (fun p => (p.1, p.2.val)) =
    addedOf 0 (newMask len (fun a => decide (a ∉ ex.leftIds)) ex.rght.flatten) := by
  rw [← zipIdx_filter_added]
  simp only [cookedOf, List.map_map]
  apply List.map_congr_left
  intro p hp
  simp only [Function.comp]
  rw [hlenR p.1 (List.fst_mem_of_mem_zipIdx (List.mem_of_mem_filter hp))]

include hlenR in
theorem sizeProd_val {g : List Axis} (hg : g ∈ ex.rght) :
    (sizeProd (g.map (axisSize kw ex.left shape))).val = groupSize len g := by
  rw [sizeProd_eq]
  simp only [List.map_map, groupSize]
  have : g.map (Size.val ∘ axisSize kw ex.left shape) = (g.map len).map Int.ofNat := by
    rw [List.map_map]
    exact List.map_congr_left (fun a ha => hlenR a (List.mem_flatten.2 ⟨g, hg, ha⟩))
  rw [this]
  generalize g.map len = l
  induction l with
  | nil => rfl
  | cons n l ih => simp only [List.map_cons, List.prod_cons, ih]; simp

variable {b : Backend α} (hb : MoveLawful b)

include wf hlenL hb in
/-- Splitting the input and transposing: afterwards kept axes come first, dropped axes last. -/
theorem first_stages {x : Tensor α} (hx : x.shape = ex.left.map (groupSize len)) :
    ∃ t : Tensor α, (optReshape b.reshape (cookedOf ex kw shape).initShapes x).bind
        (optTranspose b.transpose (cookedOf ex kw shape).axesReordering) = .ok t ∧
      t.shape = (keptAxes ex ++ droppedAxes ex).map len ∧
      ∀ env, InRange len ex.left.flatten env →
        t.at? ((keptAxes ex ++ droppedAxes ex).map env) = x.atAxes ex.left len env := by
  -- splitting
  have h1 : ∃ t : Tensor α, optReshape b.reshape (cookedOf ex kw shape).initShapes x = .ok t ∧
      t.shape = ex.left.flatten.map len ∧ t.data = x.data := by
    simp only [cookedOf]
    split
    · simp only [optReshape, List.map_map]
      have : ex.left.flatten.map (Size.val ∘ axisSize kw ex.left shape) = (ex.left.flatten.map len).map Int.ofNat := by
        rw [List.map_map]; exact List.map_congr_left (fun a ha => hlenL a ha)
      rw [this, hb.reshape]
      obtain ⟨t, h1, h2, h3⟩ := x.withShape_ok (s := ex.left.flatten.map len) (by
        rw [hx, ← groupSize_flatten]; rfl)
      exact ⟨t, h1, h2, h3⟩
    · rename_i h
      exact ⟨x, rfl, by rw [hx, map_len_of_all_one (all_one_of_not_any h)], rfl⟩
  obtain ⟨t, ht, hts, htd⟩ := h1
  rw [ht]
  simp only [Except.bind]
  have hval : ∀ env, InRange len ex.left.flatten env → t.at? (ex.left.flatten.map env) = x.atAxes ex.left len env :=
    fun env henv => at_split hx hts htd henv
  have hperm : (cookedOf ex kw shape).axesReordering =
      if (keptAxes ex ++ droppedAxes ex).map ex.left.flatten.idxOf =
        List.range ((keptAxes ex ++ droppedAxes ex).map ex.left.flatten.idxOf).length then none
      else some ((keptAxes ex ++ droppedAxes ex).map ex.left.flatten.idxOf) := rfl
  rw [hperm]
  split
  · rename_i hid
    have hord : keptAxes ex ++ droppedAxes ex = ex.left.flatten := by
      have hp : (keptAxes ex ++ droppedAxes ex).Perm ex.left.flatten :=
        (List.perm_ext_iff_of_nodup wf.order_nodup wf.left_nodup).2 wf.mem_order
      apply List.ext_getElem hp.length_eq
      intro k h1 h2
      have h3 : ((keptAxes ex ++ droppedAxes ex).map ex.left.flatten.idxOf)[k]? = some k := by
        rw [hid, List.getElem?_range (by simpa using h1)]
      rw [List.getElem?_map, List.getElem?_eq_getElem h1] at h3
      simp only [Option.map_some, Option.some.injEq] at h3
      have hmem : (keptAxes ex ++ droppedAxes ex)[k] ∈ ex.left.flatten := (wf.mem_order _).1 (List.getElem_mem _)
      have h4 := List.getElem_idxOf (List.idxOf_lt_length_of_mem hmem)
      simp only [h3] at h4
      exact h4.symm
    exact ⟨t, rfl, by rw [hord, hts], fun env henv => by rw [hord]; exact hval env henv⟩
  · obtain ⟨z, hz, hzs, hzv⟩ := transpose_axes wf.left_nodup wf.order_nodup wf.mem_order hts
    exact ⟨z, by simp only [optTranspose, hb.transpose, hz], hzs, fun env henv => by rw [hzv env henv, hval env henv]⟩

/-- the last two stages -/
def finishStages (b : Backend α) (c : CookedRecipe) (z : Tensor α) : Py (Tensor α) :=
  (optAddAxes b.addAxes c.nAxesWithAdded c.addedAxes z).bind (optReshape b.reshape c.finalShapes)

theorem zipIdx_filter_length {κ : Type} (q : κ → Bool) (A : List κ) (k : Nat) :
    ((A.zipIdx k).filter (fun p => q p.1)).length = (A.filter q).length := by
  induction A generalizing k with
  | nil => rfl
  | cons a A ih =>
    rw [List.zipIdx_cons]
    cases h : q a <;> simp [h, ih]

theorem cooked_added_length (ex : Expanded) (kw : List (Str × Size)) (shape : List Size) :
    (cookedOf ex kw shape).addedAxes.length = (ex.rght.flatten.filter (fun a => decide (a ∉ ex.leftIds))).length := by
  simp only [cookedOf, List.length_map]
  exact zipIdx_filter_length (fun a => decide (a ∉ ex.leftIds)) ex.rght.flatten 0

theorem keptAxes_eq (ex : Expanded) : keptAxes ex = ex.rght.flatten.filter (fun a => !decide (a ∉ ex.leftIds)) := by
  unfold keptAxes
  apply List.filter_congr
  intro a _
  simp

include wf hlenR hb in
/-- Adding the new axes and joining axes into output dimensions. -/
theorem finish_stages {z : Tensor α} (hz : z.shape = (keptAxes ex).map len)
    (hmix : (∀ a ∈ ex.rght.flatten, a ∈ ex.left.flatten) ∨ droppedAxes ex = []) :
    ∃ y : Tensor α, finishStages b (cookedOf ex kw shape) z = .ok y ∧ y.shape = ex.rght.map (groupSize len) ∧
      ∀ env, InRange len ex.rght.flatten env → y.atAxes ex.rght len env = z.at? ((keptAxes ex).map env) := by
  have hkeep := keptAxes_eq ex
  have hadd : ∃ w : Tensor α, optAddAxes b.addAxes (cookedOf ex kw shape).nAxesWithAdded
      (cookedOf ex kw shape).addedAxes z = .ok w ∧ w.shape = ex.rght.flatten.map len ∧
      ∀ env, InRange len ex.rght.flatten env → w.at? (ex.rght.flatten.map env) = z.at? ((keptAxes ex).map env) := by
    have hlen2 := cooked_added_length ex kw shape
    unfold optAddAxes
    split
    · rename_i hpos
      rw [cooked_added hlenR]
      have hd : droppedAxes ex = [] := by
        refine hmix.resolve_left (fun hsub => ?_)
        rw [hlen2] at hpos
        rw [List.filter_eq_nil_iff.2] at hpos
        · simp at hpos
        · intro a ha
          have := (wf.leftIds_iff a).2 (hsub a ha)
          simpa using this
      have hn : (cookedOf ex kw shape).nAxesWithAdded =
          (newMask len (fun a => decide (a ∉ ex.leftIds)) ex.rght.flatten).length := by
        have h1 : (cookedOf ex kw shape).nAxesWithAdded = (cookedOf ex kw shape).addedAxes.length +
          ((keptAxes ex ++ droppedAxes ex).map ex.left.flatten.idxOf).length := rfl
        rw [h1, List.length_map, hd, List.append_nil, hlen2, newMask, List.length_map, hkeep,
          ← List.length_eq_length_filter_add]
      rw [hn, hb.addAxes _ _ (by rw [count_mask, ← hkeep]; simp [Tensor.ndim, hz])]
      obtain ⟨w, h1, h2, h3⟩ := insert_axes wf.rght_nodup (fun a => decide (a ∉ ex.leftIds)) (z := z) (len := len)
        (by rw [← hkeep, hz])
      exact ⟨w, h1, h2, fun env henv => by rw [h3 env henv, ← hkeep]⟩
    · rename_i hzero
      have hall : keptAxes ex = ex.rght.flatten := by
        rw [hkeep, List.filter_eq_self]
        intro a ha
        rw [hlen2] at hzero
        have h0 : ex.rght.flatten.filter (fun a => decide (a ∉ ex.leftIds)) = [] :=
          List.length_eq_zero_iff.1 (by omega)
        have := (List.filter_eq_nil_iff.1 h0) a ha
        simpa using this
      exact ⟨z, rfl, by rw [hz, hall], fun env _ => by rw [hall]⟩
  obtain ⟨w, hw, hws, hwv⟩ := hadd
  have hfin : ∃ y : Tensor α, optReshape b.reshape (cookedOf ex kw shape).finalShapes w = .ok y ∧
      y.shape = ex.rght.map (groupSize len) ∧ y.data = w.data := by
    have hf : (cookedOf ex kw shape).finalShapes = if ex.rght.any (fun g => g.length ≠ 1) then
      some (ex.rght.map (fun g => sizeProd (g.map (axisSize kw ex.left shape)))) else none := rfl
    rw [hf]
    split
    · simp only [optReshape, List.map_map]
      have : ex.rght.map (Size.val ∘ fun g => sizeProd (g.map (axisSize kw ex.left shape))) =
          (ex.rght.map (groupSize len)).map Int.ofNat := by
        rw [List.map_map]
        exact List.map_congr_left (fun g hg => sizeProd_val hlenR hg)
      rw [this, hb.reshape]
      exact w.withShape_ok (by rw [hws, ← groupSize_flatten]; rfl)
    · rename_i h
      exact ⟨w, rfl, by rw [hws, map_len_of_all_one (all_one_of_not_any h)], rfl⟩
  obtain ⟨y, hy, hys, hyd⟩ := hfin
  refine ⟨y, ?_, hys, ?_⟩
  · unfold finishStages
    rw [hw]
    exact hy
  · intro env henv
    rw [← hwv env henv, at_split hys hws hyd.symm henv]

theorem applyStages_eq (b : Backend α) (red : Tensor α → List Nat → Py (Tensor α)) (c : CookedRecipe) (x : Tensor α) :
    applyStages b.reshape b.transpose red b.addAxes c x =
      ((optReshape b.reshape c.initShapes x).bind (optTranspose b.transpose c.axesReordering)).bind
        (fun t => (optReduce red c.reducedAxes t).bind (finishStages b c)) := by
  unfold applyStages finishStages
  cases optReshape b.reshape c.initShapes x with
  | error e => rfl
  | ok t => rfl

theorem cooked_reduced (ex : Expanded) (kw : List (Str × Size)) (shape : List Size) :
    (cookedOf ex kw shape).reducedAxes =
      (List.range ((keptAxes ex).length + (droppedAxes ex).length)).drop (keptAxes ex).length := by
  have : (cookedOf ex kw shape).reducedAxes = (List.range ((keptAxes ex ++ droppedAxes ex).map
    ex.left.flatten.idxOf).length).drop (keptAxes ex).length := rfl
  rw [this, List.length_map, List.length_append]

include wf hlenL hlenR hb in
/-- No axis dropped: the reduction is not called and the elements are moved. -/
theorem stages_move (red : Tensor α → List Nat → Py (Tensor α)) {x : Tensor α}
    (hx : x.shape = ex.left.map (groupSize len)) (hd : droppedAxes ex = []) :
    ∃ y, applyStages b.reshape b.transpose red b.addAxes (cookedOf ex kw shape) x = .ok y ∧
      Moves len ex.left ex.rght x y := by
  obtain ⟨t, h1, h2, h3⟩ := first_stages wf hlenL hb hx
  rw [hd, List.append_nil] at h2 h3
  obtain ⟨y, h4, h5, h6⟩ := finish_stages wf hlenR hb h2 (.inr hd)
  refine ⟨y, ?_, h5, ?_⟩
  · rw [applyStages_eq, h1]
    simp only [Except.bind, optReduce, cooked_reduced, hd, List.length_nil, Nat.add_zero, List.length_drop,
      List.length_range, Nat.sub_self, gt_iff_lt, Nat.lt_irrefl, if_false]
    exact h4
  · intro env henv
    have hL : InRange len ex.left.flatten env := fun a ha => henv a (List.mem_append_left _ ha)
    have hR : InRange len ex.rght.flatten env := fun a ha => henv a (List.mem_append_right _ ha)
    have : inBounds (ex.left.map (groupPos len env)) x.shape = true := by rw [hx]; exact inBounds_groups hL
    obtain ⟨v, hv⟩ := x.at?_isSome this
    exact ⟨v, hv, by rw [h6 env hR, h3 env hL]; exact hv⟩

include wf hlenL hlenR hb in
/-- Some axis dropped, reduction that acts like an operation on lists of elements. -/
theorem stages_reduce (red : Tensor α → List Nat → Py (Tensor α)) (op : List α → Py α) {x : Tensor α}
    (hx : x.shape = ex.left.map (groupSize len)) (hsub : ∀ a ∈ ex.rght.flatten, a ∈ ex.left.flatten)
    (hd : droppedAxes ex ≠ [])
    (hred : ∀ t : Tensor α, (keptAxes ex).length < t.ndim → red t ((List.range t.ndim).drop (keptAxes ex).length) =
      t.reduceAxes op ((List.range t.ndim).drop (keptAxes ex).length)) (y : Tensor α) :
    applyStages b.reshape b.transpose red b.addAxes (cookedOf ex kw shape) x = .ok y ↔
      Reduces op len ex.left ex.rght x y := by
  obtain ⟨t, h1, h2, h3⟩ := first_stages wf hlenL hb hx
  have hndim : t.ndim = (keptAxes ex).length + (droppedAxes ex).length := by simp [Tensor.ndim, h2]
  have hdl : 0 < (droppedAxes ex).length := List.length_pos_iff.2 hd
  have hkeep : keptAxes ex = ex.rght.flatten := by
    unfold keptAxes
    rw [List.filter_eq_self]
    intro a ha
    have := (wf.leftIds_iff a).2 (hsub a ha)
    simpa using this
  have hdrop : droppedAxes ex = ex.left.flatten.filter (fun a => a ∉ ex.rght.flatten) := by
    unfold droppedAxes
    apply List.filter_congr
    intro a _
    simp [wf.rghtIds_iff]
  have hred' := hred t (by omega)
  rw [hndim] at hred'
  have key : applyStages b.reshape b.transpose red b.addAxes (cookedOf ex kw shape) x =
      (t.reduceAxes op ((List.range ((keptAxes ex).length + (droppedAxes ex).length)).drop (keptAxes ex).length)).bind
        (finishStages b (cookedOf ex kw shape)) := by
    rw [applyStages_eq, h1]
    simp only [Except.bind, optReduce, cooked_reduced]
    rw [if_pos (by simp; omega), hred']
  have hlist : ∀ env, InRange len (keptAxes ex) env →
      (loops len (droppedAxes ex) env).map (fun e => t.at? ((keptAxes ex ++ droppedAxes ex).map e)) =
      (loops len (droppedAxes ex) env).map (x.atAxes ex.left len) := by
    intro env henv
    apply List.map_congr_left
    intro e he
    obtain ⟨he1, he2⟩ := mem_loops he
    apply h3
    intro a ha
    by_cases haD : a ∈ droppedAxes ex
    · exact he2 (List.nodup_append.1 wf.order_nodup).2.1 a haD
    · rw [he1 a haD]
      apply henv
      have := (wf.mem_order a).2 ha
      rw [List.mem_append] at this
      exact this.resolve_right haD
  rw [key]
  constructor
  · intro h
    cases hz : t.reduceAxes op ((List.range ((keptAxes ex).length + (droppedAxes ex).length)).drop (keptAxes ex).length) with
    | error e => rw [hz] at h; cases h
    | ok z =>
      rw [hz] at h
      simp only [Except.bind] at h
      obtain ⟨hzs, hzv⟩ := (reduce_axes wf.order_nodup h2 op).1 hz
      obtain ⟨y', h4, h5, h6⟩ := finish_stages wf hlenR hb hzs (.inl hsub)
      rw [h4] at h
      cases h
      refine ⟨h5, fun env henv => ?_⟩
      obtain ⟨vs, v, hv1, hv2, hv3⟩ := hzv env (by rw [hkeep]; exact henv)
      rw [hlist env (by rw [hkeep]; exact henv)] at hv1
      exact ⟨vs, v, by rw [← hdrop]; exact hv1, hv2, by rw [h6 env henv, hv3]⟩
  · rintro ⟨hys, hyv⟩
    -- the tensor between reduction and output
    obtain ⟨z, hz1, hz2, hz3⟩ := y.withShape_ok (s := (keptAxes ex).map len) (by
      rw [hys, hkeep, ← groupSize_flatten]; rfl)
    have hzat : ∀ env, InRange len ex.rght.flatten env → z.at? ((keptAxes ex).map env) = y.atAxes ex.rght len env := by
      intro env henv
      rw [hkeep] at hz2 ⊢
      exact at_split hys hz2 hz3 henv
    have hz : t.reduceAxes op ((List.range ((keptAxes ex).length + (droppedAxes ex).length)).drop (keptAxes ex).length) = .ok z := by
      rw [reduce_axes wf.order_nodup h2 op]
      refine ⟨hz2, fun env henv => ?_⟩
      obtain ⟨vs, v, hv1, hv2, hv3⟩ := hyv env (by rw [← hkeep]; exact henv)
      refine ⟨vs, v, ?_, hv2, ?_⟩
      · rw [hlist env henv, hdrop]; exact hv1
      · rw [hzat env (by rw [← hkeep]; exact henv)]; exact hv3
    rw [hz]
    simp only [Except.bind]
    obtain ⟨y', h4, h5, h6⟩ := finish_stages wf hlenR hb hz2 (.inl hsub)
    rw [h4]
    congr 1
    apply Tensor.ext_at? (by rw [h5, hys])
    intro i hi
    rw [h5] at hi
    obtain ⟨env, henv, rfl⟩ := exists_env wf.rght_nodup hi
    have := h6 env henv
    rw [hzat env henv] at this
    exact this

end

end Einops
