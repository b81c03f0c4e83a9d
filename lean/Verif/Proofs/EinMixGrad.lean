import Verif.Proofs.Adjoint
import Verif.Proofs.EinMixLaws

/-!
# Inner products with what `EinMix` computes
-/

namespace Einops

universe u
variable {α : Type u} [CommSemiring α]

theorem valueAt_entry (x : Tensor α) (L : List (List Axis)) (len e : AxisMap) :
    valueAt x L len e = entry x (L.map (groupPos len e)) := rfl

/-- inner product with the result, as one sum over all axes and the part of the bias -/
theorem Mixes.dot {len : AxisMap} {L R : List (List Axis)} {W T : List Axis} {x w y g : Tensor α} {c : AxisMap → α}
    (h : Mixes len L W R x w c y) (hg : g.shape = R.map (groupSize len)) (hR : R.flatten.Nodup) (hT : T.Nodup)
    (hTm : ∀ a, a ∈ T ↔ a ∈ R.flatten ∨ a ∈ L.flatten ∨ a ∈ W) :
    y.dot g = ((loops len T (fun _ => 0)).map (fun e => valueAt x L len e * entry w (W.map e) * valueAt g R len e)).sum +
      ((loops len R.flatten (fun _ => 0)).map (fun e => c e * valueAt g R len e)).sum := by
  rw [dot_eq_values hR h.1 hg (fun _ => 0)]
  set S := T.filter (fun a => a ∉ R.flatten) with hS
  have hSm : ∀ a, a ∈ S ↔ (a ∈ L.flatten ∨ a ∈ W) ∧ a ∉ R.flatten := by
    intro a
    rw [hS, List.mem_filter, decide_eq_true_eq, hTm]
    tauto
  have hp : T.Perm (R.flatten ++ S) := by
    refine perm_of_same hT ?_ ?_
    · refine hR.append (hT.filter _) ?_
      intro a h1 h2
      exact ((hSm a).1 h2).2 h1
    · intro a
      rw [List.mem_append, hSm, hTm]
      tauto
  rw [((loops_perm len hp hT (fun _ => 0)).map _).sum_eq, loops_append, sum_flatMap_map, ← List.sum_map_add]
  congr 1
  apply List.map_congr_left
  intro e he
  have her := (mem_loops he).2 hR
  have hy : valueAt y R len e = ((loops len S e).map (fun e => valueAt x L len e * entry w (W.map e))).sum + c e := by
    unfold valueAt
    rw [h.2 S (hT.filter _) hSm e her]
    rfl
  rw [hy, add_mul, ← List.sum_map_mul_right]
  congr 2
  apply List.map_congr_left
  intro e' he'
  have hout : ∀ a ∈ R.flatten, e' a = e a := fun a ha => (mem_loops he').1 a (fun h => ((hSm a).1 h).2 ha)
  have : valueAt g R len e' = valueAt g R len e := by
    unfold valueAt
    rw [atAxes_congr (fun _ _ => rfl) hout]
  rw [this]

/-- with the sides exchanged -/
theorem Mixes.adjoint_input {len : AxisMap} {L R : List (List Axis)} {W : List Axis} {x w y g z : Tensor α}
    (hL : L.flatten.Nodup) (hR : R.flatten.Nodup) (hx : x.shape = L.map (groupSize len))
    (hg : g.shape = R.map (groupSize len)) (h : Mixes len L W R x w (fun _ => 0) y)
    (h' : Mixes len R W L g w (fun _ => 0) z) : y.dot g = x.dot z := by
  set T := (R.flatten ++ (L.flatten ++ W)).dedup with hT
  rw [h.dot (T := T) hg hR (List.nodup_dedup _) (fun a => by rw [hT, List.mem_dedup, List.mem_append, List.mem_append]),
    Tensor.dot_comm x,
    h'.dot (T := T) hx hL (List.nodup_dedup _) (fun a => by rw [hT, List.mem_dedup, List.mem_append, List.mem_append]; tauto)]
  simp only [zero_mul, List.map_const', List.sum_replicate, nsmul_zero, add_zero]
  congr 1
  apply List.map_congr_left
  intro e _
  ring

/-- the elements of a tensor whose axes have been written apart -/
theorem Moves.apart {len : AxisMap} {L : List (List Axis)} {x x' : Tensor α}
    (h : Moves len L (L.flatten.map (fun a => [a])) x x') {e : AxisMap} (he : InRange len L.flatten e) :
    entry x' (L.flatten.map e) = valueAt x L len e := by
  obtain ⟨v, h1, h2⟩ := h.2 e (fun a ha => he a (by
    rw [singles_flatten] at ha
    exact (List.mem_append.1 ha).elim id id))
  rw [singles_at] at h2
  rw [entry, h2, valueAt, h1]

/-- the weight by contracting input and gradient -/
theorem Mixes.adjoint_weight {len : AxisMap} {L R : List (List Axis)} {W : List Axis} {x x' w y g g' z : Tensor α}
    (hL : L.flatten.Nodup) (hR : R.flatten.Nodup) (hW : W.Nodup) (hg : g.shape = R.map (groupSize len))
    (hw : w.shape = W.map len) (h : Mixes len L W R x w (fun _ => 0) y)
    (hx' : Moves len L (L.flatten.map (fun a => [a])) x x') (hg' : Moves len R (R.flatten.map (fun a => [a])) g g')
    (h' : Contracts len [L.flatten, R.flatten] W [x', g'] z) : y.dot g = w.dot z := by
  set T := (R.flatten ++ (L.flatten ++ W)).dedup with hT
  rw [h.dot (T := T) hg hR (List.nodup_dedup _) (fun a => by rw [hT, List.mem_dedup, List.mem_append, List.mem_append]),
    Tensor.dot_comm w,
    h'.dot (T := T) hw hW (List.nodup_dedup _) (fun a => by
      rw [hT, List.mem_dedup, List.mem_append, List.mem_append]
      simp only [List.mem_cons, List.not_mem_nil, or_false, exists_eq_or_imp, exists_eq_left]
      tauto)]
  simp only [zero_mul, List.map_const', List.sum_replicate, nsmul_zero, add_zero]
  congr 1
  apply List.map_congr_left
  intro e he
  have her := (mem_loops he).2 (List.nodup_dedup _)
  have hin : ∀ {A : List Axis}, (∀ a ∈ A, a ∈ T) → InRange len A e := fun hA a ha => her a (hA a ha)
  simp only [termProd, List.zipWith_cons_cons, List.zipWith_nil_left, List.prod_cons, List.prod_nil, mul_one]
  rw [hx'.apart (hin (fun a ha => by rw [hT, List.mem_dedup]; simp only [List.mem_append]; tauto)),
    hg'.apart (hin (fun a ha => by rw [hT, List.mem_dedup]; simp only [List.mem_append]; tauto))]
  ring

/-- what is added to every element, against the sums -/
theorem sum_bias {len : AxisMap} {R B : List (List Axis)} {b g z : Tensor α} {op : List α → Py α} (hR : R.flatten.Nodup)
    (hB : B.flatten.Nodup) (hsub : ∀ a ∈ B.flatten, a ∈ R.flatten) (hb : b.shape = B.map (groupSize len))
    (hop : ∀ vs, op vs = .ok vs.sum) (hr : Reduces op len R B g z) :
    ((loops len R.flatten (fun _ => 0)).map (fun e => valueAt b B len e * valueAt g R len e)).sum = b.dot z := by
  rw [dot_eq_values hB hb hr.1 (fun _ => 0)]
  have hp : R.flatten.Perm (B.flatten ++ R.flatten.filter (fun a => a ∉ B.flatten)) := by
    refine perm_of_same hR ?_ ?_
    · refine hB.append (hR.filter _) ?_
      intro a h1 h2
      simp only [List.mem_filter, decide_eq_true_eq] at h2
      exact h2.2 h1
    · intro a
      simp only [List.mem_append, List.mem_filter, decide_eq_true_eq]
      constructor
      · intro h
        by_cases h' : a ∈ B.flatten
        · exact .inl h'
        · exact .inr ⟨h, h'⟩
      · rintro (h | h)
        · exact hsub a h
        · exact h.1
  rw [((loops_perm len hp hR (fun _ => 0)).map _).sum_eq, loops_append, sum_flatMap_map]
  congr 1
  apply List.map_congr_left
  intro e he
  have her := (mem_loops he).2 hB
  obtain ⟨vs, v, h1, h2, h3⟩ := hr.2 e her
  rw [hop] at h2
  cases h2
  have hvs : vs = (loops len (R.flatten.filter (fun a => a ∉ B.flatten)) e).map (valueAt g R len) := by
    have h := congrArg (List.map (fun o : Option α => o.getD 0)) h1
    rw [List.map_map, List.map_map, show ((fun o : Option α => o.getD 0) ∘ some) = id from rfl, List.map_id] at h
    exact h.symm
  have hz : valueAt z B len e = vs.sum := by unfold valueAt; rw [h3]; rfl
  rw [hz, hvs, ← List.sum_map_mul_left]
  congr 1
  apply List.map_congr_left
  intro e' he'
  have hout : ∀ a ∈ B.flatten, e' a = e a := fun a ha => (mem_loops he').1 a (fun h => by
    simp only [List.mem_filter, decide_eq_true_eq] at h
    exact h.2 ha)
  have : valueAt b B len e' = valueAt b B len e := by
    unfold valueAt
    rw [atAxes_congr (fun _ _ => rfl) hout]
  rw [this]

end Einops
