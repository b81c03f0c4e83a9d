import Verif.Proofs.Compose
import Verif.Proofs.Elementwise

/-!
# Two reductions of the same tensor
-/

namespace Einops

universe u
variable {α : Type u}

theorem mem_data_of_atAxes {x : Tensor α} {L : List (List Axis)} {len env : AxisMap} {v : α}
    (h : x.atAxes L len env = some v) : v ∈ x.data := by
  unfold Tensor.atAxes Tensor.at? at h
  split at h
  · exact List.mem_of_getElem? h
  · cases h

theorem mem_data_of_row {x : Tensor α} {L : List (List Axis)} {len : AxisMap} {es : List AxisMap} {vs : List α}
    (h : es.map (x.atAxes L len) = vs.map some) : ∀ v ∈ vs, v ∈ x.data := by
  intro v hv
  have : some v ∈ es.map (x.atAxes L len) := by rw [h]; exact List.mem_map_of_mem hv
  obtain ⟨e, -, he⟩ := List.mem_map.1 this
  exact mem_data_of_atAxes he

/-- results that are related place by place -/
theorem forall₂_of_axes {rel : α → α → Prop} {len : AxisMap} {R : List (List Axis)} (hn : R.flatten.Nodup) {y y' : Tensor α}
    (hy : y.shape = R.map (groupSize len)) (hy' : y'.shape = R.map (groupSize len))
    (h : ∀ env, InRange len R.flatten env → ∃ v v', y.atAxes R len env = some v ∧ y'.atAxes R len env = some v' ∧ rel v v') :
    List.Forall₂ rel y.data y'.data := by
  have h1 := data_eq_loops hn hy (fun _ => 0)
  have h2 := data_eq_loops hn hy' (fun _ => 0)
  have hin : ∀ e ∈ loops len R.flatten (fun _ => 0), InRange len R.flatten e := fun e he => (mem_loops he).2 hn
  generalize loops len R.flatten (fun _ => 0) = es at h1 h2 hin
  generalize y.data = d at h1
  generalize y'.data = d' at h2
  induction es generalizing d d' with
  | nil =>
    simp only [List.map_nil, List.map_eq_nil_iff] at h1 h2
    subst h1 h2
    exact .nil
  | cons e es ih =>
    obtain ⟨v, v', e1, e2, hr⟩ := h e (hin e (by simp))
    cases d with
    | nil => simp at h1
    | cons u d =>
      cases d' with
      | nil => simp at h2
      | cons u' d' =>
        simp only [List.map_cons, List.cons.injEq] at h1 h2
        rw [e1, Option.some.injEq] at h1
        rw [e2, Option.some.injEq] at h2
        rw [h1.1, h2.1]
        exact .cons hr (ih (fun e he => hin e (by simp [he])) d h1.2 d' h2.2)

theorem atAxes_elem (f : α → α) (x : Tensor α) (L : List (List Axis)) (len env : AxisMap) :
    (x.map f).atAxes L len env = (x.atAxes L len env).map f := by
  unfold Tensor.atAxes
  rw [Tensor.at?_map]

theorem groupSize_perm {len : AxisMap} {A B : List Axis} (h : A.Perm B) : groupSize len A = groupSize len B :=
  (h.map len).prod_eq

/-- the axes of the left are those of the right and the dropped ones -/
theorem perm_dropped {A B : List Axis} (hA : A.Nodup) (hB : B.Nodup) (h : ∀ a ∈ B, a ∈ A) :
    A.Perm (A.filter (fun a => a ∉ B) ++ B) := by
  refine perm_of_same hA ((hA.filter _).append hB fun a h1 h2 => ?_) fun a => ?_
  · simp only [List.mem_filter, decide_eq_true_eq] at h1
    exact h1.2 h2
  · simp only [List.mem_append, List.mem_filter, decide_eq_true_eq]
    constructor
    · intro h1
      by_cases h2 : a ∈ B
      · exact .inr h2
      · exact .inl ⟨h1, h2⟩
    · rintro (h1 | h1)
      · exact h1.1
      · exact h a h1

theorem data_length {x : Tensor α} {len : AxisMap} {L : List (List Axis)} (h : x.shape = L.map (groupSize len)) :
    x.data.length = groupSize len L.flatten := by
  rw [x.wf, h, ← groupSize_flatten]

section
variable [PyUnicode]

/-- which reduction it is does not matter for the legality of a call -/
theorem Accepted.other {pattern : Str} {kw : List (Str × Size)} {shape : List Nat} {GL GR : List Elem}
    {L R : List (List Axis)} {len : AxisMap} {o o' : Str} (ho : o ∈ builtins) (ho' : o' ∈ builtins)
    (h : Accepted (.name o) pattern kw shape GL GR L R len) : Accepted (.name o') pattern kw shape GL GR L R len := by
  have hr := red_names_isRed ho
  have hr' := red_names_isRed ho'
  refine ⟨h.pattern, ⟨?_, h.prepared.keywords, h.prepared.groups, h.prepared.unknowns⟩, h.fits, h.determinate⟩
  have := h.prepared.sides
  rw [SidesOK, if_neg hr.1, if_neg hr.2] at this
  rw [SidesOK, if_neg hr'.1, if_neg hr'.2]
  exact ⟨fun s hs => by cases hs; exact ho', this.2⟩

theorem Computes.row {E : ElemOps α} {b : Backend α} {o : Str} (hb : Computes E o b) (ho : o ∈ builtins) {x : Tensor α}
    (hf : o = "mean".toList → b.isFloat x = true) (t : Tensor α) (k : Nat) (hk : k < t.ndim) :
    reduceAxesE b t (.name o) ((List.range t.ndim).drop k) = t.reduceAxes (E.op o) ((List.range t.ndim).drop k) := by
  simp only [reduceAxesE]
  rw [if_neg (not_not_intro (show _ ∈ reductionNames from ho)), if_neg, hb.reduce ho t k hk]
  rintro ⟨h9, h10⟩
  rw [hb.modelled.lawful.isFloat t x, hf h9] at h10
  cases h10

end

end Einops
