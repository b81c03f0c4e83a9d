import Verif.StepSpec
import Verif.Proofs.Results

/-! The operations of the framework that a call makes. -/

namespace Einops

universe u
variable {α : Type u}

theorem map_idxOf_eq_range {A l : List Axis} (hA : A.Nodup) (hl : ∀ a ∈ l, a ∈ A) (hlen : l.length = A.length) :
    l.map (fun a => A.idxOf a) = List.range l.length ↔ l = A := by
  constructor
  · intro h
    apply List.ext_getElem hlen
    intro i h1 h2
    have h3 : (l.map (fun a => A.idxOf a))[i]'(by simpa using h1) = i := by
      simp only [h, List.getElem_range]
    rw [List.getElem_map] at h3
    have h4 := List.getElem_idxOf (List.idxOf_lt_length_of_mem (hl _ (List.getElem_mem h1)))
    simp only [h3] at h4
    exact h4.symm
  · rintro rfl
    apply List.ext_getElem (by simp)
    intro i h1 h2
    simp only [List.getElem_map, List.getElem_range]
    exact hA.idxOf_getElem i _

theorem runSteps_append (b : Backend α) (red : Reduction α) (S T : List Step) (x : Tensor α) :
    runSteps b red (S ++ T) x = (runSteps b red S x).bind (fun y => runSteps b red T y) := by
  induction S generalizing x with
  | nil => rfl
  | cons s S ih =>
    simp only [List.cons_append, runSteps]
    cases s.run b red x with
    | error e => rfl
    | ok y => exact ih y

theorem runSteps_when (b : Backend α) (red : Reduction α) (p : Prop) [Decidable p] (s : Step) (x : Tensor α) :
    runSteps b red (when p s) x = if p then s.run b red x else .ok x := by
  unfold when
  split
  · simp only [runSteps]; cases s.run b red x <;> rfl
  · rfl

section
variable [PyUnicode] {pattern : Str} {kw : List (Str × Size)} {x : Tensor α}

theorem map_val {l : List Axis} {f : Axis → Size} {len : AxisMap} (h : ∀ a ∈ l, (f a).val = len a) :
    (l.map f).map Size.val = (l.map len).map Int.ofNat := by
  rw [List.map_map, List.map_map]
  exact List.map_congr_left h

theorem sizeProd_map_val {g : List Axis} {f : Axis → Size} {len : AxisMap} (h : ∀ a ∈ g, (f a).val = len a) :
    (sizeProd (g.map f)).val = (groupSize len g : Int) := by
  rw [sizeProd_eq]
  simp only [groupSize]
  rw [map_val h]
  induction g with
  | nil => rfl
  | cons a g ih =>
    simp only [List.map_cons, List.prod_cons, Nat.cast_mul]
    rw [ih (fun a ha => h a (List.mem_cons_of_mem _ ha))]
    rfl

/-- **the operations of an accepted call** -/
theorem Accepted.steps {red : Reduction α} {GL GR : List Elem} {L R : List (List Axis)} {len : AxisMap}
    (h : Accepted red.kind pattern kw x.shape GL GR L R len) (hkw : IntKw kw) (b : Backend α) (so : SetOrder) :
    reduce b so (.one x) pattern red kw = runSteps b red (stepsOf len L R) x := by
  obtain ⟨ex, wf, rfl, rfl, hs, heq⟩ := h.run hkw b
  rw [heq so]
  have hk : ex.rght.flatten.filter (fun a => a ∈ ex.leftIds) = keptOf ex.left ex.rght := by
    unfold keptOf
    exact List.filter_congr (fun a _ => decide_eq_decide.2 (wf.leftIds_iff a))
  have hd : ex.left.flatten.filter (fun a => a ∉ ex.rghtIds) = droppedOf ex.left ex.rght := by
    unfold droppedOf
    exact List.filter_congr (fun a _ => decide_eq_decide.2 (not_congr (wf.rghtIds_iff a)))
  have hord := wf.order_nodup
  have hmem := wf.mem_order
  unfold keptAxes droppedAxes at hord hmem
  rw [hk, hd] at hord hmem
  have hlen : (keptOf ex.left ex.rght ++ droppedOf ex.left ex.rght).length = ex.left.flatten.length :=
    ((List.perm_ext_iff_of_nodup hord wf.left_nodup).2 hmem).length_eq
  unfold applyCooked applyStages cookedOf
  simp only [hk, hd]
  unfold stepsOf
  simp only [runSteps_append, runSteps_when]
  generalize axisSize kw ex.left (x.shape.map Size.ofNat) = f at hs
  have hany : ∀ G : List (List Axis), (G.any fun g => decide (g.length ≠ 1)) = true ↔ ∃ g ∈ G, g.length ≠ 1 := by
    intro G; simp
  have e1 : ∀ x, optReshape b.reshape (if (ex.left.any fun g => decide (g.length ≠ 1)) = true then
      some (ex.left.flatten.map f) else none) x = if ∃ g ∈ ex.left, g.length ≠ 1 then
        Step.run b red (.reshape (ex.left.flatten.map len)) x else .ok x := by
    intro x
    by_cases hc : ∃ g ∈ ex.left, g.length ≠ 1
    · rw [if_pos hc, if_pos ((hany _).2 hc)]
      simp only [optReshape, Step.run]
      rw [map_val (fun a ha => hs a (List.mem_append_left _ ha))]
    · rw [if_neg hc, if_neg (fun h => hc ((hany _).1 h))]
      rfl
  have e5 : ∀ x, optReshape b.reshape (if (ex.rght.any fun g => decide (g.length ≠ 1)) = true then
      some (ex.rght.map fun g => sizeProd (g.map f)) else none) x = if ∃ g ∈ ex.rght, g.length ≠ 1 then
        Step.run b red (.reshape (ex.rght.map (groupSize len))) x else .ok x := by
    intro x
    by_cases hc : ∃ g ∈ ex.rght, g.length ≠ 1
    · rw [if_pos hc, if_pos ((hany _).2 hc)]
      simp only [optReshape, Step.run]
      congr 1
      rw [List.map_map, List.map_map]
      exact List.map_congr_left (fun g hg => sizeProd_map_val (fun a ha =>
        hs a (List.mem_append_right _ (List.mem_flatten.2 ⟨g, hg, ha⟩))))
    · rw [if_neg hc, if_neg (fun h => hc ((hany _).1 h))]
      rfl
  have e2 : ∀ x, optTranspose b.transpose
      (if (keptOf ex.left ex.rght ++ droppedOf ex.left ex.rght).map (List.idxOf · ex.left.flatten) =
          List.range ((keptOf ex.left ex.rght ++ droppedOf ex.left ex.rght).map (List.idxOf · ex.left.flatten)).length then none
        else some ((keptOf ex.left ex.rght ++ droppedOf ex.left ex.rght).map (List.idxOf · ex.left.flatten))) x =
      if keptOf ex.left ex.rght ++ droppedOf ex.left ex.rght ≠ ex.left.flatten then
        Step.run b red (.transpose ((keptOf ex.left ex.rght ++ droppedOf ex.left ex.rght).map
          (fun a => ex.left.flatten.idxOf a))) x else .ok x := by
    intro x
    have := map_idxOf_eq_range wf.left_nodup (fun a ha => (hmem a).1 ha) hlen
    rw [List.length_map]
    by_cases hc : keptOf ex.left ex.rght ++ droppedOf ex.left ex.rght = ex.left.flatten
    · rw [if_pos (this.2 hc), if_neg (fun h => h hc)]; rfl
    · rw [if_neg (fun h => hc (this.1 h)), if_pos hc]; rfl
  have e3 : ∀ x, optReduce (fun x axes => reduceAxesE b x red axes)
      ((List.range ((keptOf ex.left ex.rght ++ droppedOf ex.left ex.rght).map (List.idxOf · ex.left.flatten)).length).drop
        (keptOf ex.left ex.rght).length) x = if droppedOf ex.left ex.rght ≠ [] then
        Step.run b red (.reduce (List.range' (keptOf ex.left ex.rght).length (droppedOf ex.left ex.rght).length)) x
        else .ok x := by
    intro x
    have hr : (List.range ((keptOf ex.left ex.rght ++ droppedOf ex.left ex.rght).map
        (List.idxOf · ex.left.flatten)).length).drop (keptOf ex.left ex.rght).length =
        List.range' (keptOf ex.left ex.rght).length (droppedOf ex.left ex.rght).length := by
      rw [List.range_eq_range', List.drop_range']
      simp
    rw [hr]
    unfold optReduce
    rw [List.length_range']
    by_cases hc : droppedOf ex.left ex.rght = []
    · rw [hc]; simp
    · rw [if_pos (List.length_pos_iff.2 hc), if_pos hc]
      simp only [Step.run, reduceAxesE]
      rcases red with o | g
      · simp only
        by_cases hm : isMove (.name o)
        · exfalso
          apply hc
          have := h.move_sub hm
          exact List.filter_eq_nil_iff.2 (fun a ha => by simp [this a ha])
        · unfold isMove at hm
          rw [not_or] at hm
          have hsd := h.prepared.sides
          simp only [Reduction.kind] at hsd
          rw [SidesOK, if_neg hm.1, if_neg hm.2] at hsd
          rw [if_neg (not_not_intro (show _ ∈ reductionNames from hsd.1 o rfl))]
      · rfl
  have e4 : ∀ x, optAddAxes b.addAxes
      (((ex.rght.flatten.zipIdx.filter (fun p => decide (p.1 ∉ ex.leftIds))).map (fun p => (p.2, f p.1))).length +
        ((keptOf ex.left ex.rght ++ droppedOf ex.left ex.rght).map (List.idxOf · ex.left.flatten)).length)
      ((ex.rght.flatten.zipIdx.filter (fun p => decide (p.1 ∉ ex.leftIds))).map (fun p => (p.2, f p.1))) x =
      if ∃ a ∈ ex.rght.flatten, a ∉ ex.left.flatten then
        Step.run b red (.addAxes ex.rght.flatten.length (newOf len ex.left ex.rght)) x else .ok x := by
    intro x
    have hf : (fun p : Axis × Nat => decide (p.1 ∉ ex.leftIds)) = fun p => decide (p.1 ∉ ex.left.flatten) :=
      funext fun p => decide_eq_decide.2 (not_congr (wf.leftIds_iff p.1))
    rw [hf]
    unfold optAddAxes
    by_cases hc : ∃ a ∈ ex.rght.flatten, a ∉ ex.left.flatten
    · rw [if_pos hc]
      have hdr : droppedOf ex.left ex.rght = [] := by
        apply List.filter_eq_nil_iff.2
        intro a ha
        have hsub : a ∈ ex.rght.flatten := by
          by_cases hm : isMove red.kind
          · exact h.move_sub hm a ha
          · obtain ⟨c, hc1, hc2⟩ := hc
            unfold isMove at hm
            rw [not_or] at hm
            exact absurd (reduce_axes_sub h.pattern hm h.prepared c hc1) hc2
        simp [hsub]
      have hpos : 0 < (ex.rght.flatten.zipIdx.filter (fun p => decide (p.1 ∉ ex.left.flatten))).length := by
        obtain ⟨a, ha, hn⟩ := hc
        obtain ⟨i, hi, he⟩ := List.getElem_of_mem ha
        apply List.length_pos_of_mem (a := (a, i))
        rw [List.mem_filter]
        exact ⟨List.mem_zipIdx_iff_getElem?.2 (by rw [List.getElem?_eq_getElem hi, he]), by simpa using hn⟩
      rw [List.length_map, if_pos hpos, hdr, List.append_nil, List.length_map]
      have hcount : (ex.rght.flatten.zipIdx.filter (fun p => decide (p.1 ∉ ex.left.flatten))).length +
          (keptOf ex.left ex.rght).length = ex.rght.flatten.length := by
        unfold keptOf
        generalize ex.left.flatten = A
        generalize ex.rght.flatten = B
        have : ∀ k, ((B.zipIdx k).filter (fun p => decide (p.1 ∉ A))).length + (B.filter (fun a => a ∈ A)).length =
            B.length := by
          induction B with
          | nil => intro k; rfl
          | cons c B ih =>
            intro k
            rw [List.zipIdx_cons]
            have := ih (k + 1)
            by_cases hc : c ∈ A <;> simp [hc] at this ⊢ <;> omega
        exact this 0
      rw [hcount]
      simp only [Step.run, newOf, List.map_map]
      congr 1
      apply List.map_congr_left
      intro p hp
      simp only [Function.comp]
      rw [hs p.1 (List.mem_append_right _ (List.fst_mem_of_mem_zipIdx (List.mem_of_mem_filter hp)))]
      rfl
    · rw [if_neg hc, if_neg]
      rw [List.length_map, List.filter_eq_nil_iff.2]
      · simp
      · intro p hp
        have := List.fst_mem_of_mem_zipIdx hp
        simp only [decide_eq_true_eq, not_not]
        by_contra hn
        exact hc ⟨_, this, hn⟩
  simp only [e1, e2, e3, e4, e5]
  have hassoc : ∀ {β : Type u} (e : Py β) (f g : β → Py β), (e.bind f).bind g = e.bind (fun z => (f z).bind g) := by
    intro β e f g; cases e <;> rfl
  simp only [hassoc]

end

end Einops
