import Verif.Spec

/-! Facts about positions of coordinates in groups. -/

namespace Einops

universe u

theorem groupSize_append (len : AxisMap) (g h : List Axis) : groupSize len (g ++ h) = groupSize len g * groupSize len h := by
  simp [groupSize]

theorem groupSize_flatten (len : AxisMap) (L : List (List Axis)) :
    groupSize len L.flatten = (L.map (groupSize len)).prod := by
  induction L with
  | nil => rfl
  | cons g L ih => rw [List.flatten_cons, groupSize_append, ih]; simp

theorem groupSize_singleton (len : AxisMap) (a : Axis) : groupSize len [a] = len a := by simp [groupSize]

theorem groupPos_singleton (len env : AxisMap) (a : Axis) : groupPos len env [a] = env a := by simp [groupPos]

theorem foldl_groupPos (len env : AxisMap) (g : List Axis) (acc : Nat) :
    g.foldl (fun acc a => acc * len a + env a) acc = acc * groupSize len g + groupPos len env g := by
  induction g generalizing acc with
  | nil => simp [groupSize, groupPos]
  | cons a g ih =>
    rw [List.foldl_cons, ih]
    have h2 : groupPos len env (a :: g) = env a * groupSize len g + groupPos len env g := by
      unfold groupPos
      rw [List.foldl_cons, ih]
      simp [groupPos]
    rw [h2]
    simp only [groupSize, List.map_cons, List.prod_cons]
    ring

theorem groupPos_cons (len env : AxisMap) (a : Axis) (g : List Axis) :
    groupPos len env (a :: g) = env a * groupSize len g + groupPos len env g := by
  show (a :: g).foldl _ 0 = _
  rw [List.foldl_cons, foldl_groupPos]; simp

theorem groupPos_append (len env : AxisMap) (g h : List Axis) :
    groupPos len env (g ++ h) = groupPos len env g * groupSize len h + groupPos len env h := by
  show (g ++ h).foldl _ 0 = _
  rw [List.foldl_append, foldl_groupPos]
  rfl

theorem ravel_map (len env : AxisMap) (A : List Axis) : ravel (A.map len) (A.map env) = groupPos len env A := by
  induction A with
  | nil => rfl
  | cons a A ih => rw [groupPos_cons, List.map_cons, List.map_cons, ravel, ih]; rfl

theorem ravel_groups (len env : AxisMap) (L : List (List Axis)) :
    ravel (L.map (groupSize len)) (L.map (groupPos len env)) = groupPos len env L.flatten := by
  induction L with
  | nil => rfl
  | cons g L ih =>
    rw [List.flatten_cons, groupPos_append, List.map_cons, List.map_cons, ravel, ih, groupSize_flatten]

theorem groupPos_lt {len env : AxisMap} {g : List Axis} (h : InRange len g env) :
    groupPos len env g < groupSize len g := by
  induction g with
  | nil => simp [groupPos, groupSize]
  | cons a g ih =>
    have h1 := h a (by simp)
    have h2 := ih (fun b hb => h b (by simp [hb]))
    rw [groupPos_cons]
    have : groupSize len (a :: g) = len a * groupSize len g := by simp [groupSize]
    rw [this]
    calc env a * groupSize len g + groupPos len env g < env a * groupSize len g + groupSize len g := by omega
      _ = (env a + 1) * groupSize len g := by ring
      _ ≤ len a * groupSize len g := Nat.mul_le_mul_right _ h1

theorem inBounds_map {len env : AxisMap} {A : List Axis} : inBounds (A.map env) (A.map len) = true ↔ InRange len A env := by
  induction A with
  | nil => simp [InRange]
  | cons a A ih => rw [List.map_cons, List.map_cons, inBounds_cons, ih]; simp [InRange]

theorem InRange.group {len env : AxisMap} {L : List (List Axis)} (h : InRange len L.flatten env) {g : List Axis}
    (hg : g ∈ L) : InRange len g env := fun a ha => h a (List.mem_flatten.2 ⟨g, hg, ha⟩)

theorem inBounds_groups {len env : AxisMap} {L : List (List Axis)} (h : InRange len L.flatten env) :
    inBounds (L.map (groupPos len env)) (L.map (groupSize len)) = true := by
  induction L with
  | nil => rfl
  | cons g L ih =>
    rw [List.map_cons, List.map_cons, inBounds_cons]
    exact ⟨groupPos_lt (h.group (by simp)), ih (fun a ha => h a (by
      rw [List.flatten_cons, List.mem_append]; exact .inr ha))⟩

/-- coordinates read off an index -/
def envOf (A : List Axis) (i : List Nat) : AxisMap := fun a => nth i (A.idxOf a)

theorem map_envOf {A : List Axis} (hn : A.Nodup) {i : List Nat} (hl : i.length = A.length) : A.map (envOf A i) = i := by
  apply List.ext_getElem (by simp [hl])
  intro k h1 h2
  simp only [List.length_map] at h1
  simp [envOf, hn.idxOf_getElem k h1, nth, h2]

/-- Every index of a tensor whose dimensions are groups of distinct axes comes from coordinates of the axes. -/
theorem exists_env {len : AxisMap} {L : List (List Axis)} (hn : L.flatten.Nodup) {i : List Nat}
    (hi : inBounds i (L.map (groupSize len)) = true) :
    ∃ env, InRange len L.flatten env ∧ i = L.map (groupPos len env) := by
  have hlt := ravel_lt hi
  rw [← groupSize_flatten] at hlt
  obtain ⟨j, hj, hjr⟩ := ravel_surj (s := L.flatten.map len) hlt
  have hjl : j.length = L.flatten.length := by rw [inBounds_length hj, List.length_map]
  refine ⟨envOf L.flatten j, ?_, ?_⟩
  · rw [← inBounds_map, map_envOf hn hjl]; exact hj
  · have hr : InRange len L.flatten (envOf L.flatten j) := by
      rw [← inBounds_map, map_envOf hn hjl]; exact hj
    apply ravel_inj hi (inBounds_groups hr)
    rw [ravel_groups, ← ravel_map, map_envOf hn hjl, hjr]

theorem exists_env_axes {len : AxisMap} {A : List Axis} (hn : A.Nodup) {i : List Nat}
    (hi : inBounds i (A.map len) = true) : ∃ env, InRange len A env ∧ i = A.map env := by
  have hjl : i.length = A.length := by rw [inBounds_length hi, List.length_map]
  refine ⟨envOf A i, ?_, (map_envOf hn hjl).symm⟩
  rw [← inBounds_map, map_envOf hn hjl]; exact hi

theorem groupPos_congr {len len' env env' : AxisMap} {g : List Axis} (h : ∀ a ∈ g, env a = env' a)
    (hl : ∀ a ∈ g, len a = len' a) : groupPos len env g = groupPos len' env' g := by
  rw [← ravel_map, ← ravel_map, List.map_congr_left h, List.map_congr_left hl]

theorem groupSize_congr {len len' : AxisMap} {g : List Axis} (hl : ∀ a ∈ g, len a = len' a) :
    groupSize len g = groupSize len' g := by
  unfold groupSize; rw [List.map_congr_left hl]

theorem map_groupPos_congr {len len' env env' : AxisMap} {L : List (List Axis)} (h : ∀ a ∈ L.flatten, env a = env' a)
    (hl : ∀ a ∈ L.flatten, len a = len' a) : L.map (groupPos len env) = L.map (groupPos len' env') :=
  List.map_congr_left (fun g hg => groupPos_congr (fun a ha => h a (List.mem_flatten.2 ⟨g, hg, ha⟩))
    (fun a ha => hl a (List.mem_flatten.2 ⟨g, hg, ha⟩)))

theorem map_groupSize_congr {len len' : AxisMap} {L : List (List Axis)} (hl : ∀ a ∈ L.flatten, len a = len' a) :
    L.map (groupSize len) = L.map (groupSize len') :=
  List.map_congr_left (fun g hg => groupSize_congr (fun a ha => hl a (List.mem_flatten.2 ⟨g, hg, ha⟩)))

/-! ### loops -/

theorem mem_loops {len : AxisMap} {D : List Axis} {env e : AxisMap} (h : e ∈ loops len D env) :
    (∀ a, a ∉ D → e a = env a) ∧ (D.Nodup → InRange len D e) := by
  induction D generalizing env with
  | nil =>
    simp only [loops, List.mem_singleton] at h
    subst h
    exact ⟨fun _ _ => rfl, fun _ a ha => by simp at ha⟩
  | cons a D ih =>
    simp only [loops, List.mem_flatMap, List.mem_range] at h
    obtain ⟨i, hi, he⟩ := h
    obtain ⟨h1, h2⟩ := ih he
    refine ⟨?_, ?_⟩
    · intro b hb
      simp only [List.mem_cons, not_or] at hb
      rw [h1 b hb.2]
      simp [setCoord, hb.1]
    · intro hn b hb
      rw [List.nodup_cons] at hn
      rcases List.mem_cons.1 hb with rfl | hb
      · rw [h1 b hn.1]; simpa [setCoord] using hi
      · exact h2 hn.2 b hb

theorem loops_indices {len : AxisMap} {D : List Axis} (hn : D.Nodup) (env : AxisMap) :
    (loops len D env).map (fun e => D.map e) = indices (D.map len) := by
  induction D generalizing env with
  | nil => rfl
  | cons a D ih =>
    rw [List.nodup_cons] at hn
    simp only [loops, List.map_cons, indices, List.map_flatMap]
    congr 1
    funext i
    rw [← ih hn.2 (setCoord env a i), List.map_map]
    apply List.map_congr_left
    intro e he
    have := (mem_loops he).1 a hn.1
    simp [this, setCoord]

/-! ### tensors with the same data -/

section
variable {α : Type u}

theorem Tensor.withShape_ok (x : Tensor α) {s : List Nat} (h : s.prod = x.shape.prod) :
    ∃ y, x.withShape s = .ok y ∧ y.shape = s ∧ y.data = x.data := by
  unfold Tensor.withShape
  rw [dif_pos h]
  exact ⟨_, rfl, rfl, rfl⟩

theorem Tensor.withShape_inv {x y : Tensor α} {s : List Nat} (h : x.withShape s = .ok y) :
    y.shape = s ∧ y.data = x.data ∧ s.prod = x.shape.prod := by
  unfold Tensor.withShape at h
  split at h
  · rename_i hp; cases h; exact ⟨rfl, rfl, hp⟩
  · cases h

/-- Splitting the dimensions of a tensor into their axes. -/
theorem at_split {len env : AxisMap} {L : List (List Axis)} {x t : Tensor α} (hx : x.shape = L.map (groupSize len))
    (ht : t.shape = L.flatten.map len) (hd : t.data = x.data) (hr : InRange len L.flatten env) :
    t.at? (L.flatten.map env) = x.atAxes L len env := by
  unfold Tensor.atAxes
  rw [Tensor.at?_of_inBounds _ (by rw [ht]; exact inBounds_map.2 hr),
    Tensor.at?_of_inBounds _ (by rw [hx]; exact inBounds_groups hr), ht, hx, ravel_map, ravel_groups, hd]

theorem map_len_of_all_one {len : AxisMap} {L : List (List Axis)} (h : ∀ g ∈ L, g.length = 1) :
    L.flatten.map len = L.map (groupSize len) := by
  induction L with
  | nil => rfl
  | cons g L ih =>
    obtain ⟨a, rfl⟩ := List.length_eq_one_iff.1 (h g (by simp))
    simp only [List.flatten_cons, List.map_append, List.map_cons, List.map_nil, groupSize_singleton]
    rw [ih (fun g hg => h g (by simp [hg]))]
    rfl

theorem Tensor.build_total {shape : List Nat} {f : List Nat → Py α}
    (h : ∀ i, inBounds i shape = true → ∃ a, f i = .ok a) :
    ∃ y, Tensor.build shape f = .ok y ∧ y.shape = shape ∧ ∀ i, inBounds i shape = true → f i = (y.at? i).elim (.error .index) .ok := by
  cases hb : Tensor.build shape f with
  | ok y =>
    obtain ⟨h1, h2⟩ := Tensor.build_ok hb
    refine ⟨y, rfl, h1, ?_⟩
    intro i hi
    obtain ⟨a, ha, hya⟩ := h2 i hi
    rw [ha, hya]; rfl
  | error e =>
    exfalso
    by_cases hne : ∃ i, inBounds i shape = true
    · obtain ⟨i0, hi0⟩ := hne
      obtain ⟨a0, _⟩ := h i0 hi0
      classical
      obtain ⟨y, hy, _⟩ := Tensor.build_eq_ok (f := f) (shape := shape)
        (fun i => if hi : inBounds i shape = true then (h i hi).choose else a0)
        (fun i hi => by rw [dif_pos hi]; exact (h i hi).choose_spec)
      rw [hb] at hy; cases hy
    · have : indices shape = [] := by
        rw [List.eq_nil_iff_forall_not_mem]
        intro i hi
        exact hne ⟨i, mem_indices.1 hi⟩
      unfold Tensor.build at hb
      split at hb
      · cases hb
      · rename_i e' he
        rw [this] at he
        cases he

end

end Einops
