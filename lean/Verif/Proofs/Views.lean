import Mathlib.Algebra.BigOperators.Group.Finset.Basic
import Mathlib.Algebra.BigOperators.Group.Finset.Piecewise
import Mathlib.Data.List.Chain
import Verif.Views
import Verif.Proofs.Steps
import Verif.Proofs.UnpackExact

/-! Strides of axes and views. -/

namespace Einops

/-! ### Weights of axes in a group -/

/-- number of elements between neighbours along an axis of a group -/
def weight (len : AxisMap) : List Axis → Axis → Nat
  | [], _ => 1
  | b :: g, a => if a = b then groupSize len g else weight len g a

theorem groupSize_cons (len : AxisMap) (a : Axis) (g : List Axis) : groupSize len (a :: g) = len a * groupSize len g := by
  simp [groupSize]

theorem groupPos_weight (len env : AxisMap) {g : List Axis} (hn : g.Nodup) :
    groupPos len env g = (g.map (fun a => env a * weight len g a)).sum := by
  induction g with
  | nil => rfl
  | cons b g ih =>
    rw [List.nodup_cons] at hn
    rw [groupPos_cons, ih hn.2, List.map_cons, List.sum_cons]
    simp only [weight, if_pos]
    congr 1
    congr 1
    apply List.map_congr_left
    intro a ha
    rw [if_neg]
    rintro rfl
    exact hn.1 ha

theorem groupPos_weight_int (len env : AxisMap) {g : List Axis} (hn : g.Nodup) :
    (groupPos len env g : Int) = (g.map (fun a => (env a : Int) * weight len g a)).sum := by
  rw [groupPos_weight len env hn]
  have : ∀ l : List Nat, ((l.sum : Nat) : Int) = (l.map (fun (k : Nat) => (k : Int))).sum := by
    intro l
    induction l with
    | nil => rfl
    | cons k l ih => rw [List.sum_cons, List.map_cons, List.sum_cons, ← ih, Nat.cast_add]
  rw [this, List.map_map]
  congr 1

theorem weight_append_right (len : AxisMap) {g h : List Axis} {a : Axis} (ha : a ∉ g) : weight len (g ++ h) a = weight len h a := by
  induction g with
  | nil => rfl
  | cons b g ih =>
    simp only [List.mem_cons, not_or] at ha
    rw [List.cons_append, weight, if_neg ha.1, ih ha.2]

/-! ### Sums over axes -/

theorem sum_axes_eq {f : Axis → Int} {A B : List Axis} (hA : A.Nodup) (hB : B.Nodup) (hsub : ∀ a ∈ A, a ∈ B)
    (h0 : ∀ a ∈ B, a ∉ A → f a = 0) : (A.map f).sum = (B.map f).sum := by
  rw [← List.sum_toFinset f hA, ← List.sum_toFinset f hB]
  apply Finset.sum_subset
  · intro a ha
    rw [List.mem_toFinset] at *
    exact hsub a ha
  · intro a ha hn
    rw [List.mem_toFinset] at *
    exact h0 a ha hn

theorem sum_mul_right (l : List Axis) (f : Axis → Int) (T : Int) :
    (l.map f).sum * T = (l.map (fun a => f a * T)).sum := by
  induction l with
  | nil => simp
  | cons a l ih => simp only [List.map_cons, List.sum_cons, add_mul, ih]

theorem sum_zero_axes (l : List Axis) (st : Axis → Int) : (l.map (fun a => ((0 : Nat) : Int) * st a)).sum = 0 := by
  induction l with
  | nil => rfl
  | cons a l ih => rw [List.map_cons, List.sum_cons, ih]; simp

/-! ### Offsets -/

@[simp] theorem offset_nil (S : List Int) : offset [] S = 0 := by simp [offset]

@[simp] theorem offset_cons (k : Nat) (i : List Nat) (s : Int) (S : List Int) :
    offset (k :: i) (s :: S) = k * s + offset i S := by simp [offset]

theorem offset_append {i j : List Nat} {S T : List Int} (h : i.length = S.length) :
    offset (i ++ j) (S ++ T) = offset i S + offset j T := by
  induction i generalizing S with
  | nil =>
    cases S with
    | nil => simp
    | cons => simp at h
  | cons k i ih =>
    cases S with
    | nil => simp at h
    | cons s S => simp only [List.cons_append, offset_cons, ih (by simpa using h)]; ring

theorem offset_groups (len env : AxisMap) (T : List Axis → Int) {R : List (List Axis)} (hn : R.flatten.Nodup) :
    offset (R.map (groupPos len env)) (R.map T) =
      (R.map (fun g => (g.map (fun a => (env a : Int) * (T g * weight len g a))).sum)).sum := by
  induction R with
  | nil => rfl
  | cons g R ih =>
    rw [List.flatten_cons, List.nodup_append] at hn
    simp only [List.map_cons, offset_cons, List.sum_cons]
    rw [ih hn.2.1, groupPos_weight_int len env hn.1, sum_mul_right]
    congr 2
    apply List.map_congr_left
    intro a _
    ring

theorem sum_flatten_axes (f : Axis → Int) (R : List (List Axis)) :
    (R.flatten.map f).sum = (R.map (fun g => (g.map f).sum)).sum := by
  induction R with
  | nil => rfl
  | cons g R ih => rw [List.flatten_cons, List.map_append, List.sum_append, ih, List.map_cons, List.sum_cons]

/-! ### Views and strides of axes -/

/-- strides of the axes that the dimensions consist of -/
theorem exists_strides (len : AxisMap) {L : List (List Axis)} (hn : L.flatten.Nodup) (S : List Int)
    (hS : S.length = L.length) : ∃ st : Axis → Int, ∀ env : AxisMap,
      offset (L.map (groupPos len env)) S = (L.flatten.map (fun a => (env a : Int) * st a)).sum := by
  induction L generalizing S with
  | nil => exact ⟨fun _ => 0, fun env => by simp⟩
  | cons g L ih =>
    rw [List.flatten_cons, List.nodup_append] at hn
    cases S with
    | nil => simp at hS
    | cons s S =>
      obtain ⟨st, h⟩ := ih hn.2.1 S (by simpa using hS)
      refine ⟨fun a => if a ∈ g then s * weight len g a else st a, fun env => ?_⟩
      rw [List.map_cons, offset_cons, h, List.flatten_cons, List.map_append, List.sum_append,
        groupPos_weight_int len env hn.1, sum_mul_right]
      congr 2
      · apply List.map_congr_left
        intro a ha
        simp only [if_pos ha]
        ring
      · apply List.map_congr_left
        intro a ha
        simp only [if_neg (fun h => hn.2.2 a h a ha rfl)]

theorem IsView.lies {x : Tensor Cell} (h : IsView x) {L : List (List Axis)} {len : AxisMap}
    (hs : x.shape = L.map (groupSize len)) (hn : L.flatten.Nodup) : ∃ start st, Lies x L len start st := by
  obtain ⟨start, S, hl, h⟩ := h
  obtain ⟨st, hst⟩ := exists_strides len hn S (by rw [hl, hs, List.length_map])
  refine ⟨start, st, fun env henv => ?_⟩
  unfold Tensor.atAxes
  rw [h _ (by rw [hs]; exact inBounds_groups henv), hst]

theorem Contiguous.lies {x : Tensor Cell} (h : Contiguous x) {L : List (List Axis)} {len : AxisMap}
    (hs : x.shape = L.map (groupSize len)) (hn : L.flatten.Nodup) :
    ∃ start, Lies x L len start (fun a => weight len L.flatten a) := by
  obtain ⟨start, h⟩ := h
  refine ⟨start, fun env henv => ?_⟩
  unfold Tensor.atAxes
  rw [h _ (by rw [hs]; exact inBounds_groups henv), hs, ravel_groups, groupPos_weight_int len env hn]

/-- strides of the result of a call that drops no axis: new axes do not move -/
theorem Lies.moves {x y : Tensor Cell} {L R : List (List Axis)} {len : AxisMap} {start : Int} {st : Axis → Int}
    (h : Lies x L len start st) (hL : L.flatten.Nodup) (hR : R.flatten.Nodup) (hsub : ∀ a ∈ L.flatten, a ∈ R.flatten)
    (hm : Moves len L R x y) : Lies y R len start (fun a => if a ∈ L.flatten then st a else 0) := by
  intro env henv
  obtain ⟨v, h1, h2⟩ := hm.2 env (fun a ha => by
    rcases List.mem_append.1 ha with ha | ha
    · exact henv a (hsub a ha)
    · exact henv a ha)
  rw [h2, ← h1, h env (fun a ha => henv a (hsub a ha))]
  congr 3
  rw [← sum_axes_eq hL hR hsub (fun a _ hn => by simp [hn])]
  congr 1
  apply List.map_congr_left
  intro a ha
  simp only [if_pos ha]

/-- coordinate 1 for one axis, 0 for the others -/
def oneAt (a : Axis) : AxisMap := fun b => if b = a then 1 else 0

theorem groupPos_oneAt (len : AxisMap) {g : List Axis} (a : Axis) :
    groupPos len (oneAt a) g = if a ∈ g then (if g.Nodup then weight len g a else groupPos len (oneAt a) g) else 0 := by
  by_cases ha : a ∈ g
  · rw [if_pos ha]
    by_cases hn : g.Nodup
    · rw [if_pos hn]
      induction g with
      | nil => cases ha
      | cons b g ih =>
        rw [List.nodup_cons] at hn
        rw [groupPos_cons, weight]
        by_cases hab : a = b
        · subst hab
          have : groupPos len (oneAt a) g = 0 := by
            have h0 := hn.1
            clear ih ha hn
            induction g with
            | nil => rfl
            | cons c g ih =>
              simp only [List.mem_cons, not_or] at h0
              rw [groupPos_cons, ih h0.2]
              simp [oneAt, Ne.symm h0.1]
          rw [this, if_pos rfl]
          simp [oneAt]
        · rw [if_neg hab, ih ((List.mem_cons.1 ha).resolve_left hab) hn.2]
          simp [oneAt, Ne.symm hab]
    · rw [if_neg hn]
  · rw [if_neg ha]
    induction g with
    | nil => rfl
    | cons c g ih =>
      simp only [List.mem_cons, not_or] at ha
      rw [groupPos_cons, ih ha.2]
      simp [oneAt, Ne.symm ha.1]

theorem offset_oneAt (len : AxisMap) {R : List (List Axis)} (hn : R.flatten.Nodup) (S : List Int)
    (hS : S.length = R.length) {g : List Axis} (hg : g ∈ R) :
    ∃ T : Int, ∀ a ∈ g, offset (R.map (groupPos len (oneAt a))) S = T * weight len g a := by
  induction R generalizing S with
  | nil => cases hg
  | cons k R ih =>
    rw [List.flatten_cons, List.nodup_append] at hn
    cases S with
    | nil => simp at hS
    | cons s S =>
      rcases List.mem_cons.1 hg with rfl | hg
      · refine ⟨s, fun a ha => ?_⟩
        have : ∀ S : List Int, offset (R.map (groupPos len (oneAt a))) S = 0 := by
          have h0 : ∀ k ∈ R, groupPos len (oneAt a) k = 0 := by
            intro k hk
            rw [groupPos_oneAt, if_neg]
            exact fun hak => hn.2.2 a ha a (List.mem_flatten.2 ⟨k, hk, hak⟩) rfl
          clear ih hn hS hg
          induction R with
          | nil => intro S; simp
          | cons k R ih =>
            intro S
            cases S with
            | nil => simp [offset]
            | cons s S =>
              rw [List.map_cons, offset_cons, ih (fun k hk => h0 k (List.mem_cons_of_mem _ hk)) S, h0 k List.mem_cons_self]
              simp
        rw [List.map_cons, offset_cons, this, groupPos_oneAt, if_pos ha, if_pos hn.1]
        ring
      · obtain ⟨T, h⟩ := ih hn.2.1 S (by simpa using hS) hg
        refine ⟨T, fun a ha => ?_⟩
        rw [List.map_cons, offset_cons, h a ha, groupPos_oneAt, if_neg]
        · simp
        · exact fun hk => hn.2.2 a hk a (List.mem_flatten.2 ⟨g, hg, ha⟩) rfl

theorem isView_of_strides {z : Tensor Cell} {R : List (List Axis)} {len : AxisMap} {start : Int} {st : Axis → Int}
    (h : Lies z R len start st) (hs : z.shape = R.map (groupSize len)) (hn : R.flatten.Nodup)
    (hT : ∀ g ∈ R, ∃ T : Int, ∀ a ∈ g, len a ≠ 1 → st a = T * weight len g a) : IsView z := by
  have hT' : ∀ g, ∃ T : Int, g ∈ R → ∀ a ∈ g, len a ≠ 1 → st a = T * weight len g a := by
    intro g
    by_cases hg : g ∈ R
    · obtain ⟨T, h⟩ := hT g hg; exact ⟨T, fun _ => h⟩
    · exact ⟨0, fun h => absurd h hg⟩
  choose T hT' using hT'
  refine ⟨start, R.map T, by rw [hs]; simp, fun i hi => ?_⟩
  rw [hs] at hi
  obtain ⟨env, henv, rfl⟩ := exists_env hn hi
  have := h env henv
  unfold Tensor.atAxes at this
  rw [this, offset_groups len env T hn, sum_flatten_axes]
  congr 4
  apply List.map_congr_left
  intro g hg
  congr 1
  apply List.map_congr_left
  intro a ha
  by_cases h1 : len a = 1
  · have : env a = 0 := by
      have := henv a (List.mem_flatten.2 ⟨g, hg, ha⟩)
      omega
    simp [this]
  · rw [hT' g hg a ha h1]

theorem strides_of_isView {z : Tensor Cell} {R : List (List Axis)} {len : AxisMap} {start : Int} {st : Axis → Int}
    (h : Lies z R len start st) (hs : z.shape = R.map (groupSize len)) (hn : R.flatten.Nodup)
    (hpos : ∀ a ∈ R.flatten, 0 < len a) (hv : IsView z) :
    ∀ g ∈ R, ∃ T : Int, ∀ a ∈ g, len a ≠ 1 → st a = T * weight len g a := by
  obtain ⟨start', S, hl, hv⟩ := hv
  have hat : ∀ env, InRange len R.flatten env → start + (R.flatten.map (fun a => (env a : Int) * st a)).sum =
      start' + offset (R.map (groupPos len env)) S := by
    intro env henv
    have h1 := h env henv
    have h2 := hv (R.map (groupPos len env)) (by rw [hs]; exact inBounds_groups henv)
    unfold Tensor.atAxes at h1
    rw [h1] at h2
    simpa using h2
  have h0 := hat (fun _ => 0) (fun a ha => hpos a ha)
  have hz : offset (R.map (groupPos len (fun _ => 0))) S = 0 := by
    obtain ⟨st', h'⟩ := exists_strides len hn S (by rw [hl, hs, List.length_map])
    rw [h']
    exact sum_zero_axes _ _
  rw [hz, sum_zero_axes] at h0
  have h0' : start = start' := by simpa using h0
  intro g hg
  obtain ⟨T, hT⟩ := offset_oneAt len hn S (by rw [hl, hs, List.length_map]) hg
  refine ⟨T, fun a ha h1 => ?_⟩
  have hmem : a ∈ R.flatten := List.mem_flatten.2 ⟨g, hg, ha⟩
  have h2 := hat (oneAt a) (fun b hb => by
    have := hpos b hb
    unfold oneAt
    split
    · rename_i he; subst he; omega
    · exact this)
  rw [hT a ha, h0'] at h2
  rw [← add_left_cancel h2]
  have : (R.flatten.map (fun b => (oneAt a b : Int) * st b)).sum = ([a].map (fun b => (oneAt a b : Int) * st b)).sum := by
    refine (sum_axes_eq (List.nodup_singleton a) hn (by simpa using hmem) ?_).symm
    intro b _ hb
    simp only [List.mem_singleton] at hb
    simp [oneAt, hb]
  rw [this]
  simp [oneAt]

/-! ### Neighbours in a group -/

theorem proper_cons_one {len : AxisMap} {a : Axis} {g : List Axis} (h : len a = 1) : proper len (a :: g) = proper len g := by
  simp [proper, h]

theorem proper_cons {len : AxisMap} {a : Axis} {g : List Axis} (h : len a ≠ 1) : proper len (a :: g) = a :: proper len g := by
  simp [proper, h]

theorem groupSize_proper (len : AxisMap) (g : List Axis) : groupSize len (proper len g) = groupSize len g := by
  induction g with
  | nil => rfl
  | cons a g ih =>
    by_cases h : len a = 1
    · rw [proper_cons_one h, ih, groupSize_cons, h, one_mul]
    · rw [proper_cons h, groupSize_cons, ih, groupSize_cons]

theorem weight_proper (len : AxisMap) {g : List Axis} {a : Axis} (ha : len a ≠ 1) :
    weight len (proper len g) a = weight len g a := by
  induction g with
  | nil => rfl
  | cons b g ih =>
    by_cases h : len b = 1
    · rw [proper_cons_one h, ih, weight, if_neg]; rintro rfl; exact ha h
    · rw [proper_cons h, weight, weight, ih, groupSize_proper]

theorem joins_iff {len : AxisMap} {st : Axis → Int} {g : List Axis} (hn : g.Nodup) :
    Mergeable len st g ↔ ∃ T : Int, ∀ a ∈ g, len a ≠ 1 → st a = T * weight len g a := by
  have key : ∀ l : List Axis, l.Nodup → (l.IsChain (fun a b => st a = len b * st b) ↔
      ∃ T : Int, ∀ a ∈ l, st a = T * weight len l a) := by
    intro l hl
    induction l with
    | nil => simp
    | cons a l ih =>
      rw [List.nodup_cons] at hl
      have ih := ih hl.2
      cases l with
      | nil => 
        simp only [List.isChain_singleton, true_iff]
        exact ⟨st a, by simp [weight, groupSize]⟩
      | cons b l =>
        have hne : ∀ c ∈ b :: l, weight len (a :: b :: l) c = weight len (b :: l) c := by
          intro c hc
          rw [weight, if_neg]
          rintro rfl
          exact hl.1 hc
        have hwa : weight len (a :: b :: l) a = len b * groupSize len l := by rw [weight, if_pos rfl, groupSize_cons]
        have hwb : weight len (b :: l) b = groupSize len l := by rw [weight, if_pos rfl]
        rw [List.isChain_cons_cons, ih]
        constructor
        · rintro ⟨h1, T, h2⟩
          refine ⟨T, fun c hc => ?_⟩
          rcases List.mem_cons.1 hc with rfl | hc
          · rw [h1, h2 b List.mem_cons_self, hwa, hwb]; push_cast; ring
          · rw [hne c hc]; exact h2 c hc
        · rintro ⟨T, h⟩
          refine ⟨?_, T, fun c hc => ?_⟩
          · rw [h a List.mem_cons_self, h b (by simp), hwa, hne b List.mem_cons_self, hwb]; push_cast; ring
          · rw [h c (List.mem_cons_of_mem _ hc), hne c hc]
  unfold Mergeable
  rw [key (proper len g) (hn.filter _)]
  constructor
  · rintro ⟨T, h⟩
    refine ⟨T, fun a ha h1 => ?_⟩
    rw [h a (by simp [proper, ha, h1]), weight_proper len h1]
  · rintro ⟨T, h⟩
    refine ⟨T, fun a ha => ?_⟩
    simp only [proper, List.mem_filter, decide_eq_true_eq] at ha
    rw [h a ha.1 ha.2, ← weight_proper len ha.2]

theorem Lies.isView_iff {z : Tensor Cell} {R : List (List Axis)} {len : AxisMap} {start : Int} {st : Axis → Int}
    (h : Lies z R len start st) (hs : z.shape = R.map (groupSize len)) (hn : R.flatten.Nodup)
    (hpos : ∀ a ∈ R.flatten, 0 < len a) : IsView z ↔ ∀ g ∈ R, Mergeable len st g := by
  have hg : ∀ g ∈ R, g.Nodup := fun g hg => (List.nodup_flatten.1 hn).1 g hg
  constructor
  · intro hv g h'
    exact (joins_iff (hg g h')).2 (strides_of_isView h hs hn hpos hv g h')
  · intro hj
    exact isView_of_strides h hs hn (fun g h' => (joins_iff (hg g h')).1 (hj g h'))

theorem Lies.isView {z : Tensor Cell} {R : List (List Axis)} {len : AxisMap} {start : Int} {st : Axis → Int}
    (h : Lies z R len start st) (hs : z.shape = R.map (groupSize len)) (hn : R.flatten.Nodup)
    (hj : ∀ g ∈ R, Mergeable len st g) : IsView z :=
  isView_of_strides h hs hn (fun g h' => (joins_iff ((List.nodup_flatten.1 hn).1 g h')).1 (hj g h'))

theorem joins_of_le_one {len : AxisMap} {st : Axis → Int} {g : List Axis} (h : g.length ≤ 1) : Mergeable len st g := by
  unfold Mergeable
  have : (proper len g).length ≤ 1 := le_trans (List.length_filter_le _ _) h
  match hp : proper len g, this with
  | [], _ => simp
  | [a], _ => simp
  | _ :: _ :: _, h => simp at h

/-! ### Neighbours in a contiguous tensor -/

theorem weight_lt {len : AxisMap} {A : List Axis} (h2 : ∀ a ∈ A, 2 ≤ len a) {a : Axis} (ha : a ∈ A) :
    0 < weight len A a ∧ weight len A a < groupSize len A := by
  have hpos : ∀ B : List Axis, (∀ a ∈ B, 2 ≤ len a) → 0 < groupSize len B := by
    intro B hB
    induction B with
    | nil => simp [groupSize]
    | cons b B ih =>
      rw [groupSize_cons]
      have := hB b List.mem_cons_self
      exact Nat.mul_pos (by omega) (ih (fun a ha => hB a (List.mem_cons_of_mem _ ha)))
  induction A with
  | nil => cases ha
  | cons b A ih =>
    have hA : ∀ a ∈ A, 2 ≤ len a := fun a ha => h2 a (List.mem_cons_of_mem _ ha)
    have hb := h2 b List.mem_cons_self
    have hle : 2 * groupSize len A ≤ len b * groupSize len A := Nat.mul_le_mul_right _ hb
    have hp := hpos A hA
    rw [weight, groupSize_cons]
    by_cases hab : a = b
    · rw [if_pos hab]; omega
    · rw [if_neg hab]
      have := ih hA ((List.mem_cons.1 ha).resolve_left hab)
      omega

/-- In a contiguous tensor without axes of length 1, an axis moves as far as another one in all its length exactly if it
comes right before it. -/
theorem weight_neighbours {len : AxisMap} {A : List Axis} (hn : A.Nodup) (h2 : ∀ a ∈ A, 2 ≤ len a) {a b : Axis}
    (ha : a ∈ A) (hb : b ∈ A) : weight len A a = len b * weight len A b ↔ [a, b] <:+: A := by
  induction A with
  | nil => cases ha
  | cons c A ih =>
    have hA : ∀ a ∈ A, 2 ≤ len a := fun a ha => h2 a (List.mem_cons_of_mem _ ha)
    rw [List.nodup_cons] at hn
    rw [List.infix_cons_iff]
    have hno : a = b → ¬ (weight len (c :: A) a = len b * weight len (c :: A) b) := by
      rintro rfl h
      have h3 := (weight_lt h2 ha).1
      have h4 := h2 a ha
      have : 2 * weight len (c :: A) a ≤ len a * weight len (c :: A) a := Nat.mul_le_mul_right _ h4
      omega
    by_cases hac : a = c
    · subst hac
      have hninf : ¬ [a, b] <:+: A := fun h => hn.1 (h.mem (by simp))
      by_cases hab : a = b
      · subst hab
        constructor
        · exact fun h => absurd h (hno rfl)
        · rintro (h | h)
          · rw [List.cons_prefix_cons] at h
            exact absurd (h.2.mem (by simp)) hn.1
          · exact absurd h hninf
      · have hbA : b ∈ A := (List.mem_cons.1 hb).resolve_left (Ne.symm hab)
        rw [weight, if_pos rfl, weight, if_neg (Ne.symm hab)]
        rw [or_iff_left hninf, List.cons_prefix_cons, and_iff_right rfl]
        cases A with
        | nil => cases hbA
        | cons d A =>
          rw [List.cons_prefix_cons, groupSize_cons, weight]
          by_cases hbd : b = d
          · subst hbd
            simp
          · rw [if_neg hbd]
            have hbA' := (List.mem_cons.1 hbA).resolve_left hbd
            constructor
            · intro h
              exfalso
              -- `len b * weight b` is at most the number of elements of the rest, which is less
              have hle : len b * weight len A b ≤ groupSize len A := by
                clear ih hn h hno hbA hb ha hninf
                have hA2 : ∀ a ∈ A, 2 ≤ len a := fun a ha => hA a (List.mem_cons_of_mem _ ha)
                clear hA h2
                induction A with
                | nil => cases hbA'
                | cons e A ih =>
                  rw [weight, groupSize_cons]
                  by_cases hbe : b = e
                  · rw [if_pos hbe, hbe]
                  · rw [if_neg hbe]
                    have h3 := hA2 e List.mem_cons_self
                    calc _ ≤ groupSize len A := ih ((List.mem_cons.1 hbA').resolve_left hbe)
                            (fun a ha => hA2 a (List.mem_cons_of_mem _ ha))
                      _ ≤ len e * groupSize len A := Nat.le_mul_of_pos_left _ (by omega)
              have hgt := (weight_lt (fun a ha => hA a (List.mem_cons_of_mem _ ha)) hbA')
              have h3 := hA d List.mem_cons_self
              have : 2 * groupSize len A ≤ len d * groupSize len A := Nat.mul_le_mul_right _ h3
              omega
            · rintro ⟨h, _⟩
              exact absurd h hbd
    · have haA := (List.mem_cons.1 ha).resolve_left hac
      have hnp : ¬ [a, b] <+: c :: A := by
        rw [List.cons_prefix_cons]
        exact fun h => hac h.1
      rw [or_iff_right hnp]
      rw [weight, if_neg hac]
      by_cases hbc : b = c
      · subst hbc
        rw [weight, if_pos rfl]
        constructor
        · intro h
          exfalso
          have h3 := (weight_lt hA haA).2
          have h4 := h2 b hb
          have : 2 * groupSize len A ≤ len b * groupSize len A := Nat.mul_le_mul_right _ h4
          omega
        · intro h
          exact absurd (h.mem (by simp)) hn.1
      · rw [weight, if_neg hbc]
        exact ih hn.2 hA haA ((List.mem_cons.1 hb).resolve_left hbc)

theorem chain_infix {A l : List Axis} (hn : A.Nodup) (hl : ∀ a ∈ l, a ∈ A) :
    l.IsChain (fun a b => [a, b] <:+: A) ↔ l <:+: A := by
  constructor
  · intro h
    induction l with
    | nil => exact List.nil_infix
    | cons a l ih =>
      cases l with
      | nil =>
        obtain ⟨s, t, rfl⟩ := List.append_of_mem (hl a (by simp))
        exact ⟨s, t, by simp⟩
      | cons b l =>
        rw [List.isChain_cons_cons] at h
        obtain ⟨p, s, h1⟩ := ih (fun c hc => hl c (List.mem_cons_of_mem _ hc)) h.2
        obtain ⟨p', s', h2⟩ := h.1
        have e1 : p ++ b :: (l ++ s) = A := by rw [← h1]; simp
        have e2 : (p' ++ [a]) ++ b :: s' = A := by rw [← h2]; simp
        have hp : p = p' ++ [a] := by
          have hb1 : A.idxOf b = p.length := by
            have : b ∉ p := by
              intro hb
              rw [← e1, List.nodup_append] at hn
              exact hn.2.2 b hb b List.mem_cons_self rfl
            rw [← e1, List.idxOf_append_of_notMem this]
            simp
          have hb2 : A.idxOf b = (p' ++ [a]).length := by
            have : b ∉ p' ++ [a] := by
              intro hb
              rw [← e2, List.nodup_append] at hn
              exact hn.2.2 b hb b List.mem_cons_self rfl
            rw [← e2, List.idxOf_append_of_notMem this]
            simp
          exact List.append_inj_left (e1.trans e2.symm) (hb1.symm.trans hb2)
        refine ⟨p', s, ?_⟩
        rw [← e1, hp]
        simp
  · rintro ⟨p, s, h⟩
    have : ∀ l' : List Axis, l' <:+ l → l'.IsChain (fun a b => [a, b] <:+: A) := by
      intro l' h'
      induction l' with
      | nil => simp
      | cons a l' ih =>
        have h3 := ih ((List.suffix_cons a l').trans h')
        cases l' with
        | nil => simp
        | cons b l' =>
          rw [List.isChain_cons_cons]
          refine ⟨?_, h3⟩
          have h4 : [a, b] <:+: l := (List.IsPrefix.isInfix (by simp)).trans h'.isInfix
          exact h4.trans ⟨p, s, h⟩
    exact this l (List.suffix_refl l)

theorem joins_contiguous {len : AxisMap} {A g : List Axis} (hn : A.Nodup) (hpos : ∀ a ∈ A, 0 < len a)
    (hg : ∀ a ∈ g, a ∈ A) : Mergeable len (fun a => (weight len A a : Int)) g ↔ proper len g <:+: proper len A := by
  have h2 : ∀ a ∈ proper len A, 2 ≤ len a := by
    intro a ha
    simp only [proper, List.mem_filter, decide_eq_true_eq] at ha
    have := hpos a ha.1
    omega
  have hsub : ∀ a ∈ proper len g, a ∈ proper len A := by
    intro a ha
    simp only [proper, List.mem_filter, decide_eq_true_eq] at ha ⊢
    exact ⟨hg a ha.1, ha.2⟩
  have hn' : (proper len A).Nodup := hn.filter _
  rw [← chain_infix hn' hsub]
  unfold Mergeable
  apply List.IsChain.iff_of_mem_imp
  intro a b ha hb
  have ha' := hsub a ha
  have hb' := hsub b hb
  have e1 := weight_proper len (g := A) (a := a) (by have := h2 a ha'; omega)
  have e2 := weight_proper len (g := A) (a := b) (by have := h2 b hb'; omega)
  rw [← weight_neighbours hn' h2 ha' hb', e1, e2]
  show (weight len A a : Int) = len b * (weight len A b : Int) ↔ _
  norm_cast

/-! ### Copies -/

theorem copy_copy (c : Cell) : c.copy.copy = c.copy := rfl

theorem copyOf_shape (x : Tensor Cell) : (copyOf x).shape = x.shape := rfl

theorem copyOf_copyOf (x : Tensor Cell) : copyOf (copyOf x) = copyOf x := by
  unfold copyOf Tensor.map
  simp only [List.map_map]
  rfl

theorem asView_of {x : Tensor Cell} (h : IsView x) : asView x = x := by
  unfold asView
  rw [if_pos h]

theorem asView_copyOf (x : Tensor Cell) : asView (copyOf x) = copyOf x := by
  unfold asView
  split
  · rfl
  · exact copyOf_copyOf x

/-! ### Calls -/

theorem lies_split {x t : Tensor Cell} {L : List (List Axis)} {len : AxisMap} {start : Int} {st : Axis → Int}
    (h : Lies x L len start st) (hx : x.shape = L.map (groupSize len)) (ht : t.shape = L.flatten.map len)
    (hd : t.data = x.data) (hn : L.flatten.Nodup) : IsView t := by
  refine Lies.isView (R := L.flatten.map (fun a => [a])) (len := len) (start := start) (st := st) ?_ ?_ ?_ ?_
  · intro env henv
    have hf : (L.flatten.map (fun a => [a])).flatten = L.flatten := by
      rw [← List.flatMap_def]; simp
    rw [hf] at henv ⊢
    rw [← h env henv, ← at_split hx ht hd henv]
    unfold Tensor.atAxes
    rw [List.map_map]
    congr 1
    apply List.map_congr_left
    intro a _
    simp [groupPos_singleton]
  · rw [ht, List.map_map]
    apply List.map_congr_left
    intro a _
    simp [groupSize_singleton]
  · have hf : (L.flatten.map (fun a => [a])).flatten = L.flatten := by
      rw [← List.flatMap_def]; simp
    rw [hf]; exact hn
  · intro g hg
    obtain ⟨a, _, rfl⟩ := List.mem_map.1 hg
    exact joins_of_le_one (by simp)

theorem withShape_copyOf (x : Tensor Cell) (s : List Nat) : (copyOf x).withShape s = (x.withShape s).map copyOf := by
  by_cases h : s.prod = x.shape.prod
  · unfold Tensor.withShape
    rw [dif_pos h, dif_pos (show s.prod = (copyOf x).shape.prod from h)]
    rfl
  · unfold Tensor.withShape
    rw [dif_neg h, dif_neg (show ¬ s.prod = (copyOf x).shape.prod from h)]
    rfl

theorem bind_map_copy {f g : Tensor Cell → Py (Tensor Cell)} {p q : Tensor Cell → Tensor Cell} (r : Py (Tensor Cell))
    (h : ∀ u, r = .ok u → f (p u) = (g u).map q) : (r.map p).bind f = (r.bind g).map q := by
  cases r with
  | error e => rfl
  | ok u => exact h u rfl

section
variable [PyUnicode] {pattern : Str} {kw : List (Str × Size)} {x : Tensor Cell} {op : Str}
  {GL GR : List Elem} {L R : List (List Axis)} {len : AxisMap}

open Classical in
/-- The outcome of a legal call. -/
theorem views_call {b : Backend Cell} (hb : MoveLawful b) (expands : Bool) (hx : IsView x)
    (hkw : IntKw kw) (h : Accepted (.name op) pattern kw x.shape GL GR L R len) (so : SetOrder) :
    reduce (b.withViews expands) so (.one x) pattern (.name op) kw =
      (reduce b so (.one x) pattern (.name op) kw).map (fun y =>
        if Drops L R ∨ (expands = false ∧ ∃ a ∈ R.flatten, a ∉ L.flatten) then copyOf y else asView y) := by
  -- a call cannot drop axes and add some
  have hdn : Drops L R → ¬ ∃ a ∈ R.flatten, a ∉ L.flatten := by
    rintro ⟨a, ha, hna⟩ ⟨c, hc, hnc⟩
    by_cases hm : isMove (.name op)
    · exact hna (h.move_sub hm a ha)
    · exact hnc (reduce_axes_sub h.pattern ⟨fun e => hm (.inl e), fun e => hm (.inr e)⟩ h.prepared c hc)
  have hdd : droppedOf L R ≠ [] ↔ Drops L R := by
    unfold droppedOf Drops
    rw [ne_eq, List.filter_eq_nil_iff]
    push Not
    simp
  have hmove : ¬ Drops L R → ∀ y, reduce b so (.one x) pattern (.name op) kw = .ok y → Moves len L R x y := by
    intro hd y hy
    obtain ⟨y', h1, hm⟩ := h.moves (red := .name op) hb hkw (by
      intro a ha
      by_contra hn
      exact hd ⟨a, ha, hn⟩)
    rw [h1 so] at hy
    cases hy
    exact hm
  rw [h.steps (red := .name op) hkw] at hmove
  rw [h.steps (red := .name op) hkw, h.steps (red := .name op) hkw]
  obtain ⟨start, st, hl⟩ := hx.lies h.fits.shape_eq h.nodup.1
  unfold stepsOf at hmove ⊢
  simp only [runSteps_append, runSteps_when] at hmove ⊢
  have s1 : (if ∃ g ∈ L, g.length ≠ 1 then
      Step.run (b.withViews expands) (Reduction.name op) (Step.reshape (L.flatten.map len)) x else .ok x) =
      (if ∃ g ∈ L, g.length ≠ 1 then Step.run b (Reduction.name op) (Step.reshape (L.flatten.map len)) x else .ok x) := by
    by_cases hc : ∃ g ∈ L, g.length ≠ 1
    · rw [if_pos hc, if_pos hc]
      simp only [Step.run, Backend.withViews, hb.reshape]
      cases hw : x.withShape (L.flatten.map len) with
      | error e => rfl
      | ok t =>
        obtain ⟨h1, h2, -⟩ := Tensor.withShape_inv hw
        simp only [Except.map]
        rw [asView_of (lies_split hl h.fits.shape_eq h1 h2 h.nodup.1)]
    · rw [if_neg hc, if_neg hc]
  rw [s1]
  generalize (if ∃ g ∈ L, g.length ≠ 1 then Step.run b (Reduction.name op) (Step.reshape (L.flatten.map len)) x
    else .ok x) = r1 at hmove ⊢
  have s2 : (fun y => if keptOf L R ++ droppedOf L R ≠ L.flatten then
      Step.run (b.withViews expands) (Reduction.name op)
        (Step.transpose ((keptOf L R ++ droppedOf L R).map (fun a => L.flatten.idxOf a))) y else Except.ok y) =
      (fun y => if keptOf L R ++ droppedOf L R ≠ L.flatten then
      Step.run b (Reduction.name op)
        (Step.transpose ((keptOf L R ++ droppedOf L R).map (fun a => L.flatten.idxOf a))) y else Except.ok y) := rfl
  rw [s2]
  generalize (r1.bind (fun y => if keptOf L R ++ droppedOf L R ≠ L.flatten then
      Step.run b (Reduction.name op)
        (Step.transpose ((keptOf L R ++ droppedOf L R).map (fun a => L.flatten.idxOf a))) y else Except.ok y)) = r2
    at hmove ⊢
  have s3 : ∀ y, (if droppedOf L R ≠ [] then Step.run (b.withViews expands) (Reduction.name op)
      (Step.reduce (List.range' (keptOf L R).length (droppedOf L R).length)) y else Except.ok y) =
      (if droppedOf L R ≠ [] then Step.run b (Reduction.name op)
      (Step.reduce (List.range' (keptOf L R).length (droppedOf L R).length)) y else Except.ok y).map
        (fun y => if Drops L R then copyOf y else y) := by
    intro y
    by_cases hc : droppedOf L R ≠ []
    · rw [if_pos hc, if_pos hc]
      simp only [Step.run, Backend.withViews, if_pos (hdd.1 hc)]
      by_cases hf : op = "mean".toList ∧ b.isFloat y = false
      · exact (if_pos hf).trans (by rw [if_pos hf]; rfl)
      · exact (if_neg hf).trans (by rw [if_neg hf])
    · rw [if_neg hc, if_neg hc]
      simp only [Except.map, if_neg (fun h => hc (hdd.2 h))]
  have s3' : r2.bind (fun y => if droppedOf L R ≠ [] then Step.run (b.withViews expands) (Reduction.name op)
      (Step.reduce (List.range' (keptOf L R).length (droppedOf L R).length)) y else Except.ok y) =
      (r2.bind (fun y => if droppedOf L R ≠ [] then Step.run b (Reduction.name op)
      (Step.reduce (List.range' (keptOf L R).length (droppedOf L R).length)) y else Except.ok y)).map
        (fun y => if Drops L R then copyOf y else y) := by
    cases r2 with
    | error e => rfl
    | ok u => exact s3 u
  rw [s3']
  generalize (r2.bind (fun y => if droppedOf L R ≠ [] then Step.run b (Reduction.name op)
      (Step.reduce (List.range' (keptOf L R).length (droppedOf L R).length)) y else Except.ok y)) = r3 at hmove ⊢
  rw [bind_map_copy (g := fun y => if ∃ a ∈ R.flatten, a ∉ L.flatten then
      Step.run b (Reduction.name op) (Step.addAxes R.flatten.length (newOf len L R)) y else Except.ok y)
    (q := fun y => if Drops L R ∨ (expands = false ∧ ∃ a ∈ R.flatten, a ∉ L.flatten) then copyOf y else y)]
  swap
  · intro u _
    by_cases hc : ∃ a ∈ R.flatten, a ∉ L.flatten
    · have hd : ¬ Drops L R := fun hd => hdn hd hc
      simp only [if_pos hc, if_neg hd, Step.run, Backend.withViews]
      cases expands with
      | true =>
        have hno : ¬ (Drops L R ∨ (true = false ∧ ∃ a ∈ R.flatten, a ∉ L.flatten)) := by simp [hd]
        simp only [if_neg hno, if_true]
        generalize b.addAxes u _ _ = r
        cases r <;> rfl
      | false =>
        have hyes : Drops L R ∨ (false = false ∧ ∃ a ∈ R.flatten, a ∉ L.flatten) := .inr ⟨rfl, hc⟩
        generalize b.addAxes u _ _ = r
        cases r with
        | error e => rfl
        | ok t => exact congrArg Except.ok (if_pos hyes).symm
    · by_cases hd : Drops L R
      · simp only [if_neg hc, if_pos hd, if_pos (Or.inl hd)]; rfl
      · simp only [if_neg hc, if_neg hd]
        have hno : ¬ (Drops L R ∨ (expands = false ∧ ∃ a ∈ R.flatten, a ∉ L.flatten)) := by
          rintro (h | h)
          · exact hd h
          · exact hc h.2
        exact congrArg Except.ok (if_neg hno).symm
  generalize (r3.bind (fun y => if ∃ a ∈ R.flatten, a ∉ L.flatten then
      Step.run b (Reduction.name op) (Step.addAxes R.flatten.length (newOf len L R)) y else Except.ok y)) = r4 at hmove ⊢
  apply bind_map_copy
  intro u hu
  subst hu
  by_cases hf : Drops L R ∨ (expands = false ∧ ∃ a ∈ R.flatten, a ∉ L.flatten)
  · simp only [if_pos hf]
    by_cases hc : ∃ g ∈ R, g.length ≠ 1
    · simp only [if_pos hc, Step.run, Backend.withViews, hb.reshape, withShape_copyOf]
      cases u.withShape (R.map (groupSize len)) with
      | error e => rfl
      | ok t => simp only [Except.map, asView_copyOf]
    · simp only [if_neg hc]; rfl
  · simp only [if_neg hf]
    by_cases hc : ∃ g ∈ R, g.length ≠ 1
    · simp only [if_pos hc, Step.run, Backend.withViews]
    · simp only [if_neg hc, Except.bind] at hmove ⊢
      have hm := hmove (fun hd => hf (.inl hd)) u rfl
      have hv : IsView u := (hl.moves h.nodup.1 h.nodup.2 (by
          intro a ha
          by_contra hn
          exact hf (.inl ⟨a, ha, hn⟩)) hm).isView hm.1 h.nodup.2 (by
            intro g hg
            apply joins_of_le_one
            by_contra hgt
            exact hc ⟨g, hg, by omega⟩)
      simp only [Except.map, asView_of hv]

end


/-! ### Unpacking -/

/-- weights of dimensions in C order -/
theorem exists_weights (r : List Nat) : ∃ W : List Int, W.length = r.length ∧
    ∀ k : List Nat, k.length = r.length → (ravel r k : Int) = offset k W := by
  induction r with
  | nil => exact ⟨[], rfl, fun k hk => by rw [List.length_eq_zero_iff.1 hk]; rfl⟩
  | cons d r ih =>
    obtain ⟨W, hl, h⟩ := ih
    refine ⟨(r.prod : Int) :: W, by simp [hl], fun k hk => ?_⟩
    cases k with
    | nil => simp at hk
    | cons a k =>
      rw [ravel, offset_cons, ← h k (by simpa using hk)]
      push_cast
      ring

theorem offset_scale (k : List Nat) (W : List Int) (s : Int) : offset k (W.map (· * s)) = offset k W * s := by
  induction k generalizing W with
  | nil => simp
  | cons a k ih =>
    cases W with
    | nil => simp [offset]
    | cons w W => rw [List.map_cons, offset_cons, offset_cons, ih]; ring

theorem exists_mid {S : List Int} {pre post : List Nat} {N : Nat} (hl : S.length = (pre ++ N :: post).length) :
    ∃ S1 s S2, S = S1 ++ s :: S2 ∧ S1.length = pre.length ∧ S2.length = post.length := by
  have hlt : pre.length < S.length := by rw [hl]; simp
  refine ⟨S.take pre.length, S[pre.length], S.drop (pre.length + 1), ?_, ?_, ?_⟩
  · rw [List.getElem_cons_drop, List.take_append_drop]
  · rw [List.length_take]; omega
  · rw [List.length_drop, hl]; simp; omega

theorem IsView.slice {x y : Tensor Cell} {pre post : List Nat} {N : Nat} (hv : IsView x) (hx : x.shape = pre ++ N :: post)
    {lo hi' : Int} (h : x.slice pre.length lo hi' = .ok y) : IsView y := by
  obtain ⟨y', h1, hs, hat⟩ := slice_ok hx lo hi'
  rw [h1] at h
  cases h
  obtain ⟨start, S, hl, hv⟩ := hv
  rw [hx] at hl hv
  obtain ⟨S1, s, S2, rfl, hl1, hl2⟩ := exists_mid hl
  refine ⟨start + clipSlice N lo * s, S1 ++ s :: S2, by rw [hs]; simp [hl1, hl2], fun i hi => ?_⟩
  rw [hs] at hi
  obtain ⟨i1, k, i2, rfl, b1, bk, b2⟩ := inBounds_split (pre := pre) (mid := [_]) (post := post) (by simpa using hi)
  obtain ⟨m, rfl⟩ : ∃ m, k = [m] := List.length_eq_one_iff.1 (inBounds_length bk)
  rw [inBounds_cons] at bk
  have hle := clipSlice_le N hi'
  have hb : inBounds (i1 ++ (clipSlice N lo + m) :: i2) (pre ++ N :: post) = true := by
    rw [inBounds_append (inBounds_length b1), inBounds_cons]
    exact ⟨b1, by omega, b2⟩
  have e1 := inBounds_length b1
  rw [List.append_assoc, List.singleton_append, hat i1 m i2 b1 bk.1 b2, hv _ hb,
    offset_append (e1.trans hl1.symm), offset_append (e1.trans hl1.symm), offset_cons, offset_cons]
  push_cast
  congr 2
  ring

theorem isView_of_empty {z : Tensor Cell} (h : z.shape.prod = 0) : IsView z := by
  refine ⟨0, List.replicate z.shape.length 0, by simp, fun i hi => ?_⟩
  have := ravel_lt hi
  omega

/-- splitting one dimension -/
theorem IsView.split {y z : Tensor Cell} {pre post r : List Nat} {N : Nat} (hv : IsView y)
    (hy : y.shape = pre ++ N :: post) (hz : z.shape = pre ++ r ++ post) (hd : z.data = y.data)
    (hp : z.shape.prod = y.shape.prod) : IsView z := by
  by_cases h0 : z.shape.prod = 0
  · exact isView_of_empty h0
  have hN : r.prod = N := by
    rw [hz] at h0
    rw [hz, hy] at hp
    simp only [List.prod_append, List.prod_cons] at hp h0
    have h1 : pre.prod ≠ 0 := by rintro h; simp [h] at h0
    have h2 : post.prod ≠ 0 := by rintro h; simp [h] at h0
    have h3 : pre.prod * post.prod * r.prod = pre.prod * post.prod * N := by
      calc _ = pre.prod * r.prod * post.prod := by ring
        _ = pre.prod * (N * post.prod) := hp
        _ = _ := by ring
    exact Nat.eq_of_mul_eq_mul_left (Nat.pos_of_ne_zero (Nat.mul_ne_zero h1 h2)) h3
  obtain ⟨start, S, hl, hv⟩ := hv
  rw [hy] at hl
  obtain ⟨S1, s, S2, rfl, hl1, hl2⟩ := exists_mid hl
  obtain ⟨W, hW, hr⟩ := exists_weights r
  refine ⟨start, S1 ++ W.map (· * s) ++ S2, by rw [hz]; simp [hl1, hl2, hW], fun i hi => ?_⟩
  have hi' := hi
  rw [hz] at hi
  obtain ⟨i1, k, i2, rfl, b1, bk, b2⟩ := inBounds_split hi
  have e1 := inBounds_length b1
  have ek := inBounds_length bk
  have hb : inBounds (i1 ++ ravel r k :: i2) y.shape = true := by
    rw [hy, inBounds_append e1, inBounds_cons]
    exact ⟨b1, by rw [← hN]; exact ravel_lt bk, b2⟩
  have hat : z.at? (i1 ++ k ++ i2) = y.at? (i1 ++ ravel r k :: i2) := by
    rw [Tensor.at?_of_inBounds _ hi', Tensor.at?_of_inBounds _ hb, hd, hz, hy]
    congr 1
    rw [List.append_assoc, List.append_assoc, ravel_append e1, ravel_append e1, ravel_append ek]
    show _ = ravel pre i1 * (N :: post).prod + (ravel r k * post.prod + ravel post i2)
    rw [List.prod_append, List.prod_cons, hN]
  rw [hat, hv _ hb, offset_append (e1.trans hl1.symm), offset_cons, List.append_assoc, List.append_assoc,
    offset_append (e1.trans hl1.symm), offset_append (by rw [ek, List.length_map, hW]), offset_scale, ← hr k ek]

theorem resolveShape_around {total : Nat} {pre post : List Nat} {s : List Int} {t : List Nat}
    (h : resolveShape total (pre.map Int.ofNat ++ s ++ post.map Int.ofNat) = .ok t) :
    ∃ r, t = pre ++ r ++ post := by
  have hn : ∀ l : List Nat, (l.map Int.ofNat).map Int.toNat = l := by
    intro l; rw [List.map_map]; exact List.map_id _
  have hm : ∀ (l : List Nat) (q : Nat), (l.map Int.ofNat).map (fun d : Int => if d < 0 then q else d.toNat) = l := by
    intro l q
    rw [List.map_map]
    conv_rhs => rw [← List.map_id l]
    apply List.map_congr_left
    intro a _
    simp
  unfold resolveShape at h
  simp only at h
  split at h
  · cases h
    exact ⟨s.map Int.toNat, by rw [List.map_append, List.map_append, hn, hn]⟩
  · split at h
    · cases h
    · cases h
      exact ⟨_, by rw [List.map_append, List.map_append, hm, hm]⟩
  · cases h

theorem reshape_around {y z : Tensor Cell} {pre post : List Nat} {s : List Int}
    (h : y.reshape (pre.map Int.ofNat ++ s ++ post.map Int.ofNat) = .ok z) :
    ∃ r, z.shape = pre ++ r ++ post ∧ z.data = y.data ∧ z.shape.prod = y.shape.prod := by
  unfold Tensor.reshape at h
  cases hr : resolveShape y.shape.prod (pre.map Int.ofNat ++ s ++ post.map Int.ofNat) with
  | error e => rw [hr] at h; cases h
  | ok t =>
    rw [hr] at h
    obtain ⟨r, rfl⟩ := resolveShape_around hr
    obtain ⟨h1, h2, h3⟩ := Tensor.withShape_inv h
    exact ⟨r, h1, h2, by rw [h1, h3]⟩

theorem PackModelled.reshape_view {ops : PackOps Cell} (ho : PackModelled ops) {y z : Tensor Cell} {pre post : List Nat}
    {N : Nat} {s : List Int} (hv : IsView y) (hy : y.shape = pre ++ N :: post)
    (h : ops.reshape y (pre.map Int.ofNat ++ s ++ post.map Int.ofNat) = .ok z) : IsView z := by
  have h' : y.reshape (pre.map Int.ofNat ++ s ++ post.map Int.ofNat) = .ok z := by
    cases ho with
    | numpy => exact h
    | strict =>
      simp only [strictPack, Tensor.reshapeStrict] at h
      split at h
      · cases h
      · exact h
  obtain ⟨r, h1, h2, h3⟩ := reshape_around h'
  exact hv.split hy h1 h2 h3

theorem PackModelled.slice_eq {ops : PackOps Cell} (ho : PackModelled ops) : ops.slice = Tensor.slice := by cases ho <;> rfl

/-- one piece: the same with views, and a view -/
theorem unpackPiece_views {ops : PackOps Cell} (ho : PackModelled ops) {x : Tensor Cell} (hv : IsView x)
    {pre post : List Nat} {N : Nat} (hx : x.shape = pre ++ N :: post) (sp s : List Int) (i : Nat) :
    unpackPiece ops.withViews x pre.length sp s i = unpackPiece ops x pre.length sp s i ∧
      ∀ y, unpackPiece ops x pre.length sp s i = .ok y → IsView y := by
  have e1 : x.shape.take pre.length = pre := by rw [hx]; simp
  have e2 : x.shape.drop (pre.length + 1) = post := by rw [hx]; simp
  unfold unpackPiece
  rw [e1, e2]
  simp only [PackOps.withViews, ho.slice_eq]
  obtain ⟨y, h1, hs, -⟩ := slice_ok hx (sp.getD i 0) (sp.getD (i + 1) 0)
  have hvy := hv.slice hx h1
  rw [h1]
  simp only
  refine ⟨?_, fun z hz => ho.reshape_view hvy hs hz⟩
  cases hz : ops.reshape y (pre.map Int.ofNat ++ s ++ post.map Int.ofNat) with
  | error e => rfl
  | ok z => simp only [Except.map, asView_of (ho.reshape_view hvy hs hz)]

theorem unpack_views [PyUnicode] {ops : PackOps Cell} (ho : PackModelled ops) {x : Tensor Cell} (hv : IsView x)
    (ps : List (List Int)) (pattern : Str) :
    unpack ops.withViews x ps pattern = unpack ops x ps pattern ∧
      ∀ ys, unpack ops x ps pattern = .ok ys → ∀ y ∈ ys, IsView y := by
  unfold unpack
  cases ha : analyzePattern pattern with
  | error e => exact ⟨rfl, fun ys h => by cases h⟩
  | ok p =>
    obtain ⟨before, after, m⟩ := p
    simp only
    by_cases hl : x.shape.length ≠ before + 1 + after
    · rw [if_pos hl, if_pos hl]
      exact ⟨rfl, fun ys h => by cases h⟩
    rw [if_neg hl, if_neg hl]
    by_cases hc : (composedLengths ps).count (-1) > 1
    · rw [if_pos hc, if_pos hc]
      exact ⟨rfl, fun ys h => by cases h⟩
    rw [if_neg hc, if_neg hc]
    push Not at hl
    obtain ⟨pre, N, post, hx, hpre⟩ : ∃ pre N post, x.shape = pre ++ N :: post ∧ pre.length = before := by
      have hlt : before < x.shape.length := by omega
      refine ⟨x.shape.take before, x.shape[before], x.shape.drop (before + 1), ?_, ?_⟩
      · rw [List.getElem_cons_drop, List.take_append_drop]
      · rw [List.length_take]; omega
    subst hpre
    have key := fun (p : List Int × Nat) => unpackPiece_views ho hv hx
      (splitPositions (nth x.shape pre.length) (composedLengths ps)) p.1 p.2
    rw [mapE_congr (fun p _ => (key p).1)]
    refine ⟨rfl, fun ys h => ?_⟩
    cases hm : mapE (fun p : List Int × Nat => unpackPiece ops x pre.length
        (splitPositions (nth x.shape pre.length) (composedLengths ps)) p.1 p.2) ps.zipIdx with
    | error e => rw [hm] at h; cases h
    | ok zs =>
      rw [hm] at h
      cases h
      rw [mapE_eq_ok_iff] at hm
      intro y hy
      have : Except.ok y ∈ ys.map (Except.ok : _ → Py (Tensor Cell)) := List.mem_map_of_mem hy
      rw [← hm] at this
      obtain ⟨p, _, hp⟩ := List.mem_map.1 this
      exact (key p).2 y hp

end Einops
