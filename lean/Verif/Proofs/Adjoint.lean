import Mathlib.Algebra.BigOperators.Ring.List
import Verif.AdjointSpec
import Verif.Proofs.Compose
import Verif.Proofs.EinsumLaws

/-!
# Moving values forth is adjoint to summing them back
-/

namespace Einops

universe u
variable {α : Type u}

section
variable [CommSemiring α]

theorem Tensor.dot_comm (x y : Tensor α) : x.dot y = y.dot x := by
  unfold Tensor.dot
  rw [List.zipWith_comm]
  congr 2
  funext a c
  exact mul_comm _ _

/-- the element at given coordinates, 0 if there is none -/
def valueAt (x : Tensor α) (L : List (List Axis)) (len : AxisMap) (e : AxisMap) : α := (x.atAxes L len e).getD 0

theorem data_eq_values {len : AxisMap} {L : List (List Axis)} (hn : L.flatten.Nodup) {x : Tensor α}
    (hx : x.shape = L.map (groupSize len)) (env : AxisMap) :
    x.data = (loops len L.flatten env).map (valueAt x L len) := by
  have h := congrArg (List.map (fun o : Option α => o.getD 0)) (data_eq_loops hn hx env)
  rw [List.map_map, List.map_map] at h
  rwa [show ((fun o : Option α => o.getD 0) ∘ some) = id from rfl, List.map_id] at h

theorem dot_eq_values {len : AxisMap} {L : List (List Axis)} (hn : L.flatten.Nodup) {x y : Tensor α}
    (hx : x.shape = L.map (groupSize len)) (hy : y.shape = L.map (groupSize len)) (env : AxisMap) :
    x.dot y = ((loops len L.flatten env).map (fun e => valueAt x L len e * valueAt y L len e)).sum := by
  unfold Tensor.dot
  rw [data_eq_values hn hx env, data_eq_values hn hy env, List.zipWith_map, List.zipWith_self]

theorem sum_flatMap_map {β γ : Type*} (f : γ → α) (g : β → List γ) (l : List β) :
    ((l.flatMap g).map f).sum = (l.map (fun e => ((g e).map f).sum)).sum := by
  induction l with
  | nil => rfl
  | cons a l ih => simp [ih]

/-- If `y` holds what `x` holds and `z` the sums of what `g` holds, over the axes `y` and `g` have and `x` and `z` do not,
then the inner products of `y` and `g` and of `x` and `z` are equal. -/
theorem dot_adjoint {len : AxisMap} {L R : List (List Axis)} {x y g z : Tensor α} {op : List α → Py α}
    (hL : L.flatten.Nodup) (hR : R.flatten.Nodup) (hsub : ∀ a ∈ L.flatten, a ∈ R.flatten)
    (hx : x.shape = L.map (groupSize len)) (hm : Moves len L R x y) (hg : g.shape = R.map (groupSize len))
    (hop : ∀ vs, op vs = .ok vs.sum) (hr : Reduces op len R L g z) : y.dot g = x.dot z := by
  rw [dot_eq_values hR hm.1 hg (fun _ => 0), dot_eq_values hL hx hr.1 (fun _ => 0)]
  have hp : R.flatten.Perm (L.flatten ++ R.flatten.filter (fun a => a ∉ L.flatten)) := by
    refine perm_of_same hR ?_ ?_
    · refine hL.append (hR.filter _) ?_
      intro a h1 h2
      simp only [List.mem_filter, decide_eq_true_eq] at h2
      exact h2.2 h1
    · intro a
      simp only [List.mem_append, List.mem_filter, decide_eq_true_eq]
      constructor
      · intro h
        by_cases h' : a ∈ L.flatten
        · exact .inl h'
        · exact .inr ⟨h, h'⟩
      · rintro (h | h)
        · exact hsub a h
        · exact h.1
  rw [((loops_perm len hp hR (fun _ => 0)).map _).sum_eq, loops_append, sum_flatMap_map]
  congr 1
  apply List.map_congr_left
  intro e he
  have her := (mem_loops he).2 hL
  obtain ⟨vs, v, h1, h2, h3⟩ := hr.2 e her
  rw [hop] at h2
  cases h2
  have hvs : vs = (loops len (R.flatten.filter (fun a => a ∉ L.flatten)) e).map (valueAt g R len) := by
    have h := congrArg (List.map (fun o : Option α => o.getD 0)) h1
    rw [List.map_map, List.map_map, show ((fun o : Option α => o.getD 0) ∘ some) = id from rfl, List.map_id] at h
    exact h.symm
  have hz : valueAt z L len e = vs.sum := by unfold valueAt; rw [h3]; rfl
  rw [hz, hvs, ← List.sum_map_mul_left]
  congr 1
  apply List.map_congr_left
  intro e' he'
  obtain ⟨k1, k2⟩ := mem_loops he'
  have k2 := k2 (hR.filter _)
  have hout : ∀ a ∈ L.flatten, e' a = e a := fun a ha => k1 a (fun h => by
    simp only [List.mem_filter, decide_eq_true_eq] at h
    exact h.2 ha)
  have hin : InRange len (L.flatten ++ R.flatten) e' := by
    intro a ha
    by_cases h' : a ∈ L.flatten
    · rw [hout a h']; exact her a h'
    · refine k2 a ?_
      simp only [List.mem_filter, decide_eq_true_eq]
      exact ⟨(List.mem_append.1 ha).resolve_left h', h'⟩
  obtain ⟨w, w1, w2⟩ := hm.2 e' hin
  have : valueAt y R len e' = valueAt x L len e := by
    unfold valueAt
    rw [w2, ← w1, atAxes_congr (fun _ _ => rfl) hout]
  rw [this]

/-- a move between the same axes sums over nothing -/
theorem Moves.sums {len : AxisMap} {L R : List (List Axis)} {x y : Tensor α} {op : List α → Py α}
    (hop : ∀ vs, op vs = .ok vs.sum) (hd : ¬ Drops L R) (hm : Moves len L R x y) : Reduces op len L R x y := by
  refine ⟨hm.1, fun env he => ?_⟩
  have hs : ∀ a ∈ L.flatten, a ∈ R.flatten := fun a ha => by_contra fun hc => hd ⟨a, ha, hc⟩
  have hnil : L.flatten.filter (fun a => a ∉ R.flatten) = [] :=
    List.filter_eq_nil_iff.2 (fun a ha => by simp [hs a ha])
  obtain ⟨v, h1, h2⟩ := hm.2 env (fun a ha => he a ((List.mem_append.1 ha).elim (hs a) id))
  refine ⟨[v], v, ?_, by rw [hop]; simp, h2⟩
  rw [hnil]
  simp [loops, h1]

end

section
variable [CommSemiring α]

/-- inner product with a contraction, as one sum over all axes -/
theorem Contracts.dot {len : AxisMap} {As : List (List Axis)} {B T : List Axis} {xs : List (Tensor α)} {y g : Tensor α}
    (h : Contracts len As B xs y) (hg : g.shape = B.map len) (hB : B.Nodup) (hT : T.Nodup)
    (hTm : ∀ a, a ∈ T ↔ a ∈ B ∨ ∃ A ∈ As, a ∈ A) :
    y.dot g = ((loops len T (fun _ => 0)).map (fun e => termProd As xs e * entry g (B.map e))).sum := by
  have hval : ∀ (x : Tensor α) (e : AxisMap), valueAt x (B.map (fun a => [a])) len e = entry x (B.map e) := by
    intro x e
    unfold valueAt entry
    rw [singles_at]
  rw [dot_eq_values (L := B.map (fun a => [a])) (by rwa [singles_flatten]) (by rw [singles_size, h.1])
    (by rw [singles_size, hg]) (fun _ => 0), singles_flatten]
  simp only [hval]
  have hc := (contracts_iff.1 h).2
  obtain ⟨S, hS, hm⟩ := summed_exists As B
  have hp : T.Perm (B ++ S) := by
    refine perm_of_same hT (hB.append hS fun a h1 h2 => ((hm a).1 h2).2 h1) fun a => ?_
    rw [hTm, List.mem_append, hm]
    by_cases hb : a ∈ B <;> simp [hb]
  rw [((loops_perm len hp hT (fun _ => 0)).map _).sum_eq, loops_append, sum_flatMap_map]
  congr 1
  apply List.map_congr_left
  intro e he
  rw [hc S hS hm e ((mem_loops he).2 hB), ← List.sum_map_mul_right]
  congr 1
  apply List.map_congr_left
  intro e' he'
  rw [List.map_congr_left (fun a ha => ((mem_loops he').1 a (fun h1 => ((hm a).1 h1).2 ha)).symm)]

/-- the transposed contraction -/
theorem Contracts.adjoint {len : AxisMap} {As As' : List (List Axis)} {A B : List Axis} {xs xs' : List (Tensor α)}
    {x y g z : Tensor α} (hl : As.length = xs.length) (hA : A.Nodup) (hB : B.Nodup)
    (hx : x.shape = A.map len) (hg : g.shape = B.map len)
    (h : Contracts len (As ++ A :: As') B (xs ++ x :: xs') y)
    (h' : Contracts len (As ++ B :: As') A (xs ++ g :: xs') z) : y.dot g = x.dot z := by
  set T := (As ++ A :: B :: As').flatten.dedup with hT
  have hmem : ∀ a, a ∈ T ↔ (∃ C ∈ As, a ∈ C) ∨ a ∈ A ∨ a ∈ B ∨ ∃ C ∈ As', a ∈ C := by
    intro a
    rw [hT, List.mem_dedup, List.flatten_append, List.flatten_cons, List.flatten_cons]
    simp only [List.mem_append, List.mem_flatten]
  have hone : ∀ (a : Axis) (D : List Axis), (∃ C ∈ As ++ D :: As', a ∈ C) ↔ (∃ C ∈ As, a ∈ C) ∨ a ∈ D ∨ ∃ C ∈ As', a ∈ C := by
    intro a D
    simp only [List.mem_append, List.mem_cons]
    constructor
    · rintro ⟨C, h1 | rfl | h1, h2⟩
      · exact .inl ⟨C, h1, h2⟩
      · exact .inr (.inl h2)
      · exact .inr (.inr ⟨C, h1, h2⟩)
    · rintro (⟨C, h1, h2⟩ | h2 | ⟨C, h1, h2⟩)
      · exact ⟨C, .inl h1, h2⟩
      · exact ⟨D, .inr (.inl rfl), h2⟩
      · exact ⟨C, .inr (.inr h1), h2⟩
  rw [h.dot (T := T) hg hB (List.nodup_dedup _) (fun a => by
      rw [hmem, hone]
      generalize (∃ C ∈ As, a ∈ C) = P
      generalize (∃ C ∈ As', a ∈ C) = Q
      tauto), Tensor.dot_comm x,
    h'.dot (T := T) hx hA (List.nodup_dedup _) (fun a => by
      rw [hmem, hone]
      generalize (∃ C ∈ As, a ∈ C) = P
      generalize (∃ C ∈ As', a ∈ C) = Q
      tauto)]
  congr 1
  apply List.map_congr_left
  intro e _
  rw [termProd_split hl, termProd_split hl]
  ring

end

/-- the axes of an accepted call read from the other side -/
theorem swap_ok [PyUnicode] {op : OpKind} {pattern : Str} {kw : List (Str × Size)} {shape : List Nat} {GL GR : List Elem}
    {L R : List (List Axis)} {len : AxisMap} (ha : Accepted op pattern kw shape GL GR L R len) :
    (∀ a ∈ R.flatten ++ L.flatten, ∀ c ∈ R.flatten ++ L.flatten, swapSide a = swapSide c → a = c) ∧
      ∀ a ∈ R.flatten ++ L.flatten, len a = (len ∘ swapSide) (swapSide a) := by
  have hle : ∀ a ∈ R.flatten ++ L.flatten, ∀ t i v, a = .anon t i v → t ≤ 1 := by
    intro a hm
    obtain ⟨n, _, rfl, rfl, _⟩ := ha.prepared.groups
    exact sides_le (by rw [List.mem_append] at hm ⊢; exact hm.symm)
  exact ⟨fun a ha c hc h => swapSide_inj (hle a ha) (hle c hc) h, fun a ha => by
    simp only [Function.comp]; rw [swapSide_swap (hle a ha)]⟩

end Einops
