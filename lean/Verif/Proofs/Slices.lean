import Verif.SliceSpec
import Verif.Proofs.Fill
import Verif.Proofs.SizeLaws
import Verif.Proofs.Packing
import Verif.Proofs.Layers

/-! Slices along a dimension that is on both sides. -/

namespace Einops

universe u
variable {α : Type u}

/-! ### slices exist, and tensors with given slices -/

theorem inBounds_insert {u v pre post : List Nat} {i n : Nat} (hu : u.length = pre.length) (hi : i < n) :
    inBounds (u ++ i :: v) (pre ++ n :: post) = inBounds (u ++ v) (pre ++ post) := by
  rw [Bool.eq_iff_iff, inBounds_append hu, inBounds_append hu]
  simp [inBounds, hi]

theorem getE_ok {x : Tensor α} {i : List Nat} (h : inBounds i x.shape = true) : ∃ a, x.getE i = .ok a ∧ x.at? i = some a := by
  obtain ⟨a, ha⟩ := x.at?_isSome h
  exact ⟨a, by simp [Tensor.getE, ha], ha⟩

theorem exists_slice {x : Tensor α} {pre post : List Nat} {n i : Nat} (hx : x.shape = pre ++ n :: post) (hi : i < n) :
    ∃ z : Tensor α, z.shape = pre ++ post ∧ ∀ u v, u.length = pre.length → z.at? (u ++ v) = x.at? (u ++ i :: v) := by
  obtain ⟨z, _, h2, h3⟩ := Tensor.build_total (shape := pre ++ post)
    (f := fun t => x.getE (t.take pre.length ++ i :: t.drop pre.length)) (fun t ht => by
      obtain ⟨a, ha, _⟩ := getE_ok (x := x) (i := t.take pre.length ++ i :: t.drop pre.length) (by
        have hl := inBounds_length ht
        rw [hx, inBounds_insert (by simp at hl ⊢; omega) hi, List.take_append_drop]
        exact ht)
      exact ⟨a, ha⟩)
  refine ⟨z, h2, fun u v hu => ?_⟩
  by_cases hb : inBounds (u ++ v) (pre ++ post) = true
  · have h4 := h3 _ hb
    rw [List.take_left' hu, List.drop_left' hu] at h4
    obtain ⟨a, ha, ha'⟩ := getE_ok (x := x) (i := u ++ i :: v) (by rw [hx, inBounds_insert hu hi]; exact hb)
    obtain ⟨c, hc⟩ := z.at?_isSome (h2 ▸ hb)
    rw [ha, hc] at h4
    cases h4
    rw [ha', hc]
  · have h1 : z.at? (u ++ v) = none := by unfold Tensor.at?; rw [h2, if_neg hb]
    have h2 : x.at? (u ++ i :: v) = none := by unfold Tensor.at?; rw [hx, inBounds_insert hu hi, if_neg hb]
    rw [h1, h2]

/-- a tensor has slices -/
theorem exists_slices {x : Tensor α} {pre post : List Nat} {n : Nat} (hx : x.shape = pre ++ n :: post) :
    ∃ xs, SlicesAre x pre.length n xs := by
  classical
  refine ⟨fun i => if hi : i < n then (exists_slice hx hi).choose else x, pre, post, hx, rfl, fun i hi => ?_⟩
  simp only [dif_pos hi]
  exact (exists_slice hx hi).choose_spec

/-- tensors of one shape are the slices of a tensor -/
theorem exists_stacked {pre post : List Nat} {n : Nat} {ys : Nat → Tensor α} (hy : ∀ i < n, (ys i).shape = pre ++ post) :
    ∃ y, SlicesAre y pre.length n ys := by
  have hsplit : ∀ {t : List Nat}, inBounds t (pre ++ n :: post) = true →
      ∃ u i v, t = u ++ i :: v ∧ u.length = pre.length ∧ i < n ∧ inBounds (u ++ v) (pre ++ post) = true := by
    intro t ht
    have hl := inBounds_length ht
    simp only [List.length_append, List.length_cons] at hl
    have e : t = t.take pre.length ++ t.drop pre.length := (List.take_append_drop _ _).symm
    obtain ⟨i, v, hv⟩ : ∃ i v, t.drop pre.length = i :: v := by
      cases h : t.drop pre.length with
      | nil => simp at h; omega
      | cons i v => exact ⟨i, v, rfl⟩
    rw [hv] at e
    have hu : (t.take pre.length).length = pre.length := by simp; omega
    have hi : i < n := by
      rw [e, inBounds_append hu] at ht
      simp only [inBounds, Bool.and_eq_true, decide_eq_true_eq] at ht
      exact ht.2.1
    refine ⟨_, i, v, e, hu, hi, ?_⟩
    rw [← inBounds_insert hu hi, ← e]
    exact ht
  obtain ⟨y, _, h2, h3⟩ := Tensor.build_total (shape := pre ++ n :: post)
    (f := fun t => (ys (t.getD pre.length 0)).getE (t.take pre.length ++ t.drop (pre.length + 1))) (fun t ht => by
      obtain ⟨u, i, v, rfl, hu, hi, hb⟩ := hsplit ht
      have e1 : (u ++ i :: v).getD pre.length 0 = i := by simp [← hu]
      have e2 : (u ++ i :: v).drop (pre.length + 1) = v := by simp [← hu, List.drop_append]
      rw [e1, e2, List.take_left' hu]
      obtain ⟨a, ha, _⟩ := getE_ok (x := ys i) (i := u ++ v) (by rw [hy i hi]; exact hb)
      exact ⟨a, ha⟩)
  refine ⟨y, pre, post, h2, rfl, fun i hi => ⟨hy i hi, fun u v hu => ?_⟩⟩
  by_cases hb : inBounds (u ++ v) (pre ++ post) = true
  · have hb' : inBounds (u ++ i :: v) (pre ++ n :: post) = true := by rw [inBounds_insert hu hi]; exact hb
    have h4 := h3 _ hb'
    have e1 : (u ++ i :: v).getD pre.length 0 = i := by simp [← hu]
    have e2 : (u ++ i :: v).drop (pre.length + 1) = v := by simp [← hu, List.drop_append]
    rw [e1, e2, List.take_left' hu] at h4
    obtain ⟨a, ha, ha'⟩ := getE_ok (x := ys i) (i := u ++ v) (by rw [hy i hi]; exact hb)
    obtain ⟨c, hc⟩ := y.at?_isSome (h2 ▸ hb')
    rw [ha, hc] at h4
    cases h4
    rw [ha', hc]
  · have h1 : (ys i).at? (u ++ v) = none := by unfold Tensor.at?; rw [hy i hi, if_neg hb]
    have h5 : y.at? (u ++ i :: v) = none := by unfold Tensor.at?; rw [h2, inBounds_insert hu hi, if_neg hb]
    rw [h1, h5]

/-! ### moving and reducing slice by slice -/

section
variable {len : AxisMap} {c : Axis} {n : Nat} {L₁ L₂ R₁ R₂ : List (List Axis)} {x y : Tensor α} {xs ys : Nat → Tensor α}

theorem slice_at (hx : SlicesAre x L₁.length n xs) {env : AxisMap} (h : env c < n) :
    x.atAxes (L₁ ++ [c] :: L₂) len env = (xs (env c)).atAxes (L₁ ++ L₂) len env := by
  obtain ⟨pre, post, _, _, h3⟩ := hx
  unfold Tensor.atAxes
  rw [List.map_append, List.map_append, List.map_cons, groupPos_singleton, (h3 _ h).2 _ _ (by simp)]

theorem slice_shape (hn : len c = n) (hx : SlicesAre x L₁.length n xs) (h0 : 0 < n) :
    x.shape = (L₁ ++ [c] :: L₂).map (groupSize len) ↔ ∀ i < n, (xs i).shape = (L₁ ++ L₂).map (groupSize len) := by
  obtain ⟨pre, post, h1, h2, h3⟩ := hx
  have key : ∀ i < n, (x.shape = (L₁ ++ [c] :: L₂).map (groupSize len) ↔ (xs i).shape = (L₁ ++ L₂).map (groupSize len)) := by
    intro i hi
    rw [h1, (h3 i hi).1, List.map_append, List.map_append, List.map_cons, groupSize_singleton, hn]
    constructor
    · intro h
      obtain ⟨e1, e2⟩ := List.append_inj h (by simp [h2])
      cases e2
      rw [e1]
    · intro h
      obtain ⟨e1, e2⟩ := List.append_inj h (by simp [h2])
      rw [e1, e2]
  exact ⟨fun h i hi => (key i hi).1 h, fun h => (key 0 h0).2 (h 0 h0)⟩

theorem flatten_insert (A B : List (List Axis)) (c a : Axis) :
    a ∈ (A ++ [c] :: B).flatten ↔ a = c ∨ a ∈ (A ++ B).flatten := by
  simp only [List.flatten_append, List.flatten_cons, List.mem_append, List.mem_singleton]
  tauto

theorem Moves.slices (hn : len c = n) (h0 : 0 < n) (hL : c ∉ (L₁ ++ L₂).flatten) (hR : c ∉ (R₁ ++ R₂).flatten)
    (hx : SlicesAre x L₁.length n xs) (hy : SlicesAre y R₁.length n ys) :
    Moves len (L₁ ++ [c] :: L₂) (R₁ ++ [c] :: R₂) x y ↔ ∀ i < n, Moves len (L₁ ++ L₂) (R₁ ++ R₂) (xs i) (ys i) := by
  constructor
  · intro h i hi
    refine ⟨(slice_shape hn hy h0).1 h.1 i hi, fun env henv => ?_⟩
    have ec : setCoord env c i c = i := by simp [setCoord]
    have eo : ∀ a, a ≠ c → setCoord env c i a = env a := fun a ha => by simp [setCoord, ha]
    obtain ⟨v, h1, h2⟩ := h.2 (setCoord env c i) (fun a ha => by
      by_cases hac : a = c
      · subst hac; rw [ec, hn]; exact hi
      · rw [eo a hac]
        apply henv
        rw [List.mem_append, flatten_insert, flatten_insert] at ha
        rw [List.mem_append]
        tauto)
    rw [slice_at hx (by rw [ec]; exact hi), ec] at h1
    rw [slice_at hy (by rw [ec]; exact hi), ec] at h2
    refine ⟨v, ?_, ?_⟩
    · rw [← h1]
      exact atAxes_congr (fun _ _ => rfl) (fun a ha => (eo a (fun hc => hL (hc ▸ ha))).symm)
    · rw [← h2]
      exact atAxes_congr (fun _ _ => rfl) (fun a ha => (eo a (fun hc => hR (hc ▸ ha))).symm)
  · intro h
    refine ⟨(slice_shape hn hy h0).2 (fun i hi => (h i hi).1), fun env henv => ?_⟩
    have hc : env c < n := by
      rw [← hn]
      exact henv c (List.mem_append_left _ ((flatten_insert _ _ _ _).2 (.inl rfl)))
    rw [slice_at hx hc, slice_at hy hc]
    exact (h _ hc).2 env (fun a ha => henv a (by
      rw [List.mem_append] at ha
      rw [List.mem_append, flatten_insert, flatten_insert]
      tauto))

theorem dropped_insert (hL : c ∉ (L₁ ++ L₂).flatten) :
    (L₁ ++ [c] :: L₂).flatten.filter (fun a => a ∉ (R₁ ++ [c] :: R₂).flatten) =
      (L₁ ++ L₂).flatten.filter (fun a => a ∉ (R₁ ++ R₂).flatten) := by
  have e : ∀ A : List Axis, c ∉ A → A.filter (fun a => a ∉ (R₁ ++ [c] :: R₂).flatten) =
      A.filter (fun a => a ∉ (R₁ ++ R₂).flatten) := by
    intro A hA
    apply List.filter_congr
    intro a ha
    apply decide_eq_decide.2
    rw [flatten_insert]
    have : a ≠ c := fun h => hA (h ▸ ha)
    tauto
  rw [List.flatten_append, List.mem_append] at hL
  have hf : (L₁ ++ [c] :: L₂).flatten = L₁.flatten ++ ([c] ++ L₂.flatten) := by simp
  have hg : (L₁ ++ L₂).flatten = L₁.flatten ++ L₂.flatten := by simp
  rw [hf, hg, List.filter_append, List.filter_append, List.filter_append, e _ (fun h => hL (.inl h)),
    e _ (fun h => hL (.inr h))]
  have : [c].filter (fun a => decide (a ∉ (R₁ ++ [c] :: R₂).flatten)) = [] := by
    rw [List.filter_eq_nil_iff]
    intro a ha
    rw [List.mem_singleton] at ha
    subst ha
    rw [decide_eq_true_eq, not_not, flatten_insert]
    exact .inl rfl
  rw [this]
  rfl

theorem Drops.slices (hL : c ∉ (L₁ ++ L₂).flatten) :
    Drops (L₁ ++ [c] :: L₂) (R₁ ++ [c] :: R₂) ↔ Drops (L₁ ++ L₂) (R₁ ++ R₂) := by
  have e := dropped_insert (L₁ := L₁) (L₂ := L₂) (R₁ := R₁) (R₂ := R₂) hL
  have key : ∀ L R : List (List Axis), Drops L R ↔ L.flatten.filter (fun a => a ∉ R.flatten) ≠ [] := by
    intro L R
    unfold Drops
    rw [filter_ne_nil_iff]
    simp
  rw [key, key, e]

theorem Reduces.slices {op : List α → Py α} (hn : len c = n) (h0 : 0 < n) (hL : c ∉ (L₁ ++ L₂).flatten)
    (hR : c ∉ (R₁ ++ R₂).flatten) (hx : SlicesAre x L₁.length n xs) (hy : SlicesAre y R₁.length n ys) :
    Reduces op len (L₁ ++ [c] :: L₂) (R₁ ++ [c] :: R₂) x y ↔
      ∀ i < n, Reduces op len (L₁ ++ L₂) (R₁ ++ R₂) (xs i) (ys i) := by
  have hD : c ∉ (L₁ ++ L₂).flatten.filter (fun a => a ∉ (R₁ ++ R₂).flatten) := fun h => hL (List.mem_of_mem_filter h)
  -- the values met in the loops
  have hvals : ∀ env : AxisMap, env c < n →
      (loops len ((L₁ ++ L₂).flatten.filter (fun a => a ∉ (R₁ ++ R₂).flatten)) env).map (x.atAxes (L₁ ++ [c] :: L₂) len) =
      (loops len ((L₁ ++ L₂).flatten.filter (fun a => a ∉ (R₁ ++ R₂).flatten)) env).map
        ((xs (env c)).atAxes (L₁ ++ L₂) len) := by
    intro env hc
    apply List.map_congr_left
    intro e he
    have : e c = env c := (mem_loops he).1 c hD
    rw [slice_at hx (by rw [this]; exact hc), this]
  constructor
  · intro h i hi
    refine ⟨(slice_shape hn hy h0).1 h.1 i hi, fun env henv => ?_⟩
    have ec : setCoord env c i c = i := by simp [setCoord]
    have eo : ∀ a, a ≠ c → setCoord env c i a = env a := fun a ha => by simp [setCoord, ha]
    obtain ⟨vs, v, h1, h2, h3⟩ := h.2 (setCoord env c i) (fun a ha => by
      by_cases hac : a = c
      · subst hac; rw [ec, hn]; exact hi
      · rw [eo a hac]
        exact henv a (((flatten_insert _ _ _ _).1 ha).resolve_left hac))
    rw [dropped_insert hL, hvals _ (by rw [ec]; exact hi), ec] at h1
    rw [slice_at hy (by rw [ec]; exact hi), ec] at h3
    refine ⟨vs, v, ?_, h2, ?_⟩
    · rw [← h1]
      have := loops_relabel (φ := id) (len := len) (len' := len) (A := (L₁ ++ L₂).flatten) (fun _ _ _ _ h => h)
        (F := (xs i).atAxes (L₁ ++ L₂) len) (G := (xs i).atAxes (L₁ ++ L₂) len)
        (fun e e' he => atAxes_congr (fun _ _ => rfl) he)
        (D := (L₁ ++ L₂).flatten.filter (fun a => a ∉ (R₁ ++ R₂).flatten)) (fun a ha => List.mem_of_mem_filter ha)
        (fun _ _ => rfl) (env := env) (env' := setCoord env c i) (fun a ha => (eo a (fun hc => hL (hc ▸ ha))).symm)
      rwa [List.map_id] at this
    · rw [← h3]
      exact atAxes_congr (fun _ _ => rfl) (fun a ha => (eo a (fun hc => hR (hc ▸ ha))).symm)
  · intro h
    refine ⟨(slice_shape hn hy h0).2 (fun i hi => (h i hi).1), fun env henv => ?_⟩
    have hc : env c < n := by
      rw [← hn]
      exact henv c ((flatten_insert _ _ _ _).2 (.inl rfl))
    obtain ⟨vs, v, h1, h2, h3⟩ := (h _ hc).2 env (fun a ha => henv a ((flatten_insert _ _ _ _).2 (.inr ha)))
    exact ⟨vs, v, by rw [dropped_insert hL, hvals env hc, h1], h2, by rw [slice_at hy hc, h3]⟩

end

/-! ### the two patterns -/

section
variable [PyUnicode]

theorem denote_append' (side k : Nat) (G H : List Elem) :
    denote side k (G ++ H) = denote side k G ++ denote side (k + (sideWords G).length) H := by
  induction G generalizing k with
  | nil => simp [denote, sideWords]
  | cons e G ih =>
    cases e with
    | bare w =>
      have : (sideWords (.bare w :: G)).length = 1 + (sideWords G).length := by
        simp [sideWords, Elem.words, Nat.add_comm]
      simp only [List.cons_append, denote, ih, this]
      rw [Nat.add_assoc]
    | paren ws =>
      simp only [List.cons_append, denote, ih, sideWords, List.flatMap_cons, Elem.words, List.length_append]
      rw [Nat.add_assoc]

theorem stands_wordsAxes (side k k' : Nat) (ws : List Str) :
    List.Forall₂ (Stands side id) (wordsAxes side k ws) (wordsAxes side k' ws) := by
  induction ws generalizing k k' with
  | nil => exact .nil
  | cons w ws ih => exact List.rel_append (stands_wordAxes side k k' w) (ih _ _)

/-- the number of the first word only changes the labels of numbers -/
theorem stands_shift (side k k' m : Nat) (G : List Elem) :
    List.Forall₂ (List.Forall₂ (Stands side id)) (spread (ellAxes m) (denote side k G))
      (spread (ellAxes m) (denote side k' G)) := by
  have hm : ∀ w, id w = ellipsisStr ↔ w = ellipsisStr := fun w => Iff.rfl
  induction G generalizing k k' with
  | nil => exact .nil
  | cons e G ih =>
    cases e with
    | bare w =>
      simp only [denote]
      by_cases hd : w = dots
      · rw [if_pos hd, if_pos hd]
        simp only [spread]
        exact List.rel_append (stands_singletons (stands_refl_ellAxes side m)) (ih _ _)
      · rw [if_neg hd, if_neg hd]
        simp only [spread]
        exact .cons (stands_sub (stands_refl_ellAxes side m) hm (stands_wordAxes side k k' w)) (ih _ _)
    | paren ws =>
      simp only [denote, spread]
      exact .cons (stands_sub (stands_refl_ellAxes side m) hm (stands_wordsAxes side k k' ws)) (ih _ _)

theorem spread_name (side k : Nat) {n : Str} (hn : IsName false n) (m : Nat) (G : List Elem) :
    spread (ellAxes m) (denote side k (.bare n :: G)) = [.str n] :: spread (ellAxes m) (denote side (k + 1) G) := by
  have h1 := isName_ne_dots hn
  have h2 := isName_not_number false hn
  have h3 : n ≠ ellipsisStr := by
    rintro rfl
    exact isName_no_ell hn (by simp [ellipsisStr])
  simp only [denote, wordAxes]
  rw [if_neg h1, if_neg h1, if_neg h2]
  simp [spread, h3]

/-- groups of a side with a new name in the middle -/
theorem spread_insert (side m : Nat) {n : Str} (hn : IsName false n) (A B : List Elem) :
    spread (ellAxes m) (denote side 0 (A ++ .bare n :: B)) = spread (ellAxes m) (denote side 0 A) ++
      [.str n] :: spread (ellAxes m) (denote side ((sideWords A).length + 1) B) := by
  rw [denote_append', spread_append, spread_name side _ hn, Nat.zero_add]

theorem spread_split (side m : Nat) (A B : List Elem) :
    spread (ellAxes m) (denote side 0 (A ++ B)) = spread (ellAxes m) (denote side 0 A) ++
      spread (ellAxes m) (denote side (sideWords A).length B) := by
  rw [denote_append', spread_append, Nat.zero_add]

theorem placeBetween_eq (side m k : Nat) {A B : List Elem} (h : (sideWords (A ++ B)).count dots ≤ 1) :
    placeBetween A B ((spread (ellAxes m) (denote side 0 A)).length + 1 + (spread (ellAxes m) (denote side k B)).length) =
      (spread (ellAxes m) (denote side 0 A)).length := by
  have h1 := spread_length (side := side) (k := 0) (G := A) (ellAxes m)
  have h2 := spread_length (side := side) (k := k) (G := B) (ellAxes m)
  have h3 := count_bare_le h
  rw [List.count_append] at h3
  unfold placeBetween
  split
  · rename_i hA
    have : 0 < A.count (.bare dots) := List.count_pos_iff.2 hA
    have hB : B.count (.bare dots) = 0 := by omega
    rw [hB] at h2
    omega
  · rename_i hA
    rw [List.count_eq_zero.2 hA] at h1
    omega

theorem sideWords_insert (A B : List Elem) (n w : Str) :
    w ∈ sideWords (A ++ .bare n :: B) ↔ w = n ∨ w ∈ sideWords (A ++ B) := by
  simp only [sideWords, List.flatMap_append, List.flatMap_cons, Elem.words, List.mem_append, List.mem_singleton]
  tauto

theorem onlyUnits_insert {A B : List Elem} {n : Str} (hn : IsName false n) :
    OnlyUnits (A ++ .bare n :: B) ↔ OnlyUnits (A ++ B) := by
  unfold OnlyUnits
  constructor
  · exact fun h w hw => h w ((sideWords_insert _ _ _ _).2 (.inr hw))
  · intro h w hw hnum
    rcases (sideWords_insert _ _ _ _).1 hw with rfl | hw
    · exact absurd hnum (isName_not_number false hn)
    · exact h w hw hnum

theorem within_insert {A B C D : List Elem} {n : Str} (h : n ∉ sideWords (A ++ B)) :
    NamesWithin (A ++ .bare n :: B) (C ++ .bare n :: D) ↔ NamesWithin (A ++ B) (C ++ D) := by
  unfold NamesWithin
  constructor
  · intro hw w hm hnum
    have := hw w ((sideWords_insert _ _ _ _).2 (.inr hm)) hnum
    rcases (sideWords_insert _ _ _ _).1 this with rfl | h'
    · exact absurd hm h
    · exact h'
  · intro hw w hm hnum
    rcases (sideWords_insert _ _ _ _).1 hm with rfl | h'
    · exact (sideWords_insert _ _ _ _).2 (.inl rfl)
    · exact (sideWords_insert _ _ _ _).2 (.inr (hw w h' hnum))

theorem ellipsisOK_insert {A B C D : List Elem} {n : Str} (hn : IsName false n) :
    EllipsisOK (A ++ .bare n :: B) (C ++ .bare n :: D) ↔ EllipsisOK (A ++ B) (C ++ D) := by
  have hd := isName_ne_dots hn
  unfold EllipsisOK
  rw [sideWords_insert, sideWords_insert]
  refine and_congr ?_ (forall_congr' fun ws => ?_)
  · constructor
    · intro h h1
      exact (h (.inr h1)).resolve_left (fun h => hd h.symm)
    · rintro h (h1 | h1)
      · exact absurd h1.symm hd
      · exact .inr (h h1)
  · simp only [List.mem_append, List.mem_cons, reduceCtorEq, false_or]

theorem wordsOK_insert {op : OpKind} {A B C D : List Elem} {n : Str} (hn : IsName false n) (hL : n ∉ sideWords (A ++ B))
    (hR : n ∉ sideWords (C ++ D)) {names : List Str} (hk : n ∉ names) :
    WordsOK op (A ++ .bare n :: B) (C ++ .bare n :: D) names ↔ WordsOK op (A ++ B) (C ++ D) names := by
  have hE := ellipsisOK_insert (A := A) (B := B) (C := C) (D := D) hn
  have uL := onlyUnits_insert (A := A) (B := B) hn
  have uR := onlyUnits_insert (A := C) (B := D) hn
  have wLR := within_insert (A := A) (B := B) (C := C) (D := D) hL
  have wRL := within_insert (A := C) (B := D) (C := A) (D := B) hR
  have h1 : KeywordsUsed (A ++ .bare n :: B) (C ++ .bare n :: D) names ↔ KeywordsUsed (A ++ B) (C ++ D) names := by
    unfold KeywordsUsed
    refine forall₂_congr fun w hw => and_congr_right fun _ => ?_
    have : w ≠ n := fun h => hk (h ▸ hw)
    rw [List.mem_append, List.mem_append, sideWords_insert, sideWords_insert]
    tauto
  have h2 : RepeatSides (A ++ .bare n :: B) (C ++ .bare n :: D) names ↔ RepeatSides (A ++ B) (C ++ D) names := by
    have key : (∀ w ∈ sideWords (C ++ .bare n :: D), ¬ IsNumber w → w ∈ sideWords (A ++ .bare n :: B) ∨ w ∈ names) ↔
        ∀ w ∈ sideWords (C ++ D), ¬ IsNumber w → w ∈ sideWords (A ++ B) ∨ w ∈ names := by
      constructor
      · intro h w hw hnum
        have := h w ((sideWords_insert _ _ _ _).2 (.inr hw)) hnum
        rw [sideWords_insert] at this
        exact this.imp (fun h => h.resolve_left (fun h => hR (h ▸ hw))) id
      · intro h w hw hnum
        rw [sideWords_insert]
        rcases (sideWords_insert _ _ _ _).1 hw with rfl | hw
        · exact .inl (.inl rfl)
        · exact (h w hw hnum).imp .inr id
    exact ⟨fun ⟨a, b, c, d⟩ => ⟨hE.1 a, uL.1 b, wLR.1 c, key.1 d⟩, fun ⟨a, b, c, d⟩ => ⟨hE.2 a, uL.2 b, wLR.2 c, key.2 d⟩⟩
  have h3 : ReduceSides (A ++ .bare n :: B) (C ++ .bare n :: D) ↔ ReduceSides (A ++ B) (C ++ D) :=
    ⟨fun ⟨a, b, c⟩ => ⟨hE.1 a, uR.1 b, wRL.1 c⟩, fun ⟨a, b, c⟩ => ⟨hE.2 a, uR.2 b, wRL.2 c⟩⟩
  have h4 : RearrangeSides (A ++ .bare n :: B) (C ++ .bare n :: D) ↔ RearrangeSides (A ++ B) (C ++ D) :=
    ⟨fun ⟨a, b, c, d, e⟩ => ⟨hE.1 a, uL.1 b, uR.1 c, wLR.1 d, wRL.1 e⟩,
      fun ⟨a, b, c, d, e⟩ => ⟨hE.2 a, uL.2 b, uR.2 c, wLR.2 d, wRL.2 e⟩⟩
  unfold WordsOK SidesOK
  rw [h1, h2, h3, h4]

theorem name_fresh {s : Str} {A B : List Elem} {n : Str} (hn : IsName false n) (h : IsSide false false s (A ++ .bare n :: B)) :
    n ∉ sideWords (A ++ B) := by
  have h1 := h.nodup rfl
  have hu : unrepeatable false n = true := by simp [unrepeatable, isName_not_number false hn]
  have e : (A ++ .bare n :: B).flatMap Elem.words = sideWords A ++ n :: sideWords B := by simp [sideWords, Elem.words]
  rw [e, List.filter_append, List.filter_cons_of_pos (by simpa using hu), List.nodup_append] at h1
  obtain ⟨_, h2, h3⟩ := h1
  have e' : sideWords (A ++ B) = sideWords A ++ sideWords B := by simp [sideWords]
  rw [e', List.mem_append]
  rintro (h | h)
  · exact h3 n (List.mem_filter.2 ⟨h, hu⟩) n (by simp) rfl
  · exact (List.nodup_cons.1 h2).1 (List.mem_filter.2 ⟨h, hu⟩)

/-- lengths that give every number its value -/
def Canonical (len : AxisMap) : Prop := ∀ s i v, len (.anon s i v) = v

/-- the axes of the two patterns -/
structure Between (n : Str) (L₁ L₂ R₁ R₂ : List (List Axis)) (L' R' : List (List Axis)) (φ : Axis → Axis) : Prop where
  left : L' = relabel φ (L₁ ++ [.str n] :: L₂)
  rght : R' = relabel φ (R₁ ++ [.str n] :: R₂)
  inj : ∀ a ∈ (L₁ ++ [.str n] :: L₂).flatten ++ (R₁ ++ [.str n] :: R₂).flatten,
    ∀ c ∈ (L₁ ++ [.str n] :: L₂).flatten ++ (R₁ ++ [.str n] :: R₂).flatten, φ a = φ c → a = c
  str : ∀ w, φ (.str w) = .str w
  anon : ∀ s i v, Axis.anon s i v ∈ (L₁ ++ [.str n] :: L₂).flatten ++ (R₁ ++ [.str n] :: R₂).flatten →
    ∃ i', φ (.anon s i v) = .anon s i' v
  fresh_left : Axis.str n ∉ (L₁ ++ L₂).flatten
  fresh_rght : Axis.str n ∉ (R₁ ++ R₂).flatten

section
variable {pattern pattern' : Str} {A B C D : List Elem} {n : Str} (hp : IsPattern pattern (A ++ B) (C ++ D))
  (hp' : IsPattern pattern' (A ++ .bare n :: B) (C ++ .bare n :: D)) (hn : IsName false n)

include hp hp' hn in
theorem exists_between (m : Nat) :
    ∃ L₁ L₂ R₁ R₂ φ,
      spread (ellAxes m) (denote 0 0 (A ++ B)) = L₁ ++ L₂ ∧ spread (ellAxes m) (denote 1 0 (C ++ D)) = R₁ ++ R₂ ∧
      (∀ d, d = L₁.length + 1 + L₂.length → placeBetween A B d = L₁.length) ∧
      (∀ d, d = R₁.length + 1 + R₂.length → placeBetween C D d = R₁.length) ∧
      Between n L₁ L₂ R₁ R₂ (spread (ellAxes m) (denote 0 0 (A ++ .bare n :: B)))
        (spread (ellAxes m) (denote 1 0 (C ++ .bare n :: D))) φ := by
  obtain ⟨_, l, r, _, hl, hr⟩ := isPattern_split hp
  obtain ⟨_, l', r', _, hl', hr'⟩ := isPattern_split hp'
  have nL := (exOf_wf hl hr m).left_nodup
  have nR := (exOf_wf hl hr m).rght_nodup
  have nL' := (exOf_wf hl' hr' m).left_nodup
  have nR' := (exOf_wf hl' hr' m).rght_nodup
  simp only [exOf] at nL nR nL' nR'
  have fL : Axis.str n ∉ (spread (ellAxes m) (denote 0 0 (A ++ B))).flatten := fun h =>
    name_fresh hn hl' ((name_mem_flatten (side_no_ell hl) (isName_no_ell hn)).1 h).1
  have fR : Axis.str n ∉ (spread (ellAxes m) (denote 1 0 (C ++ D))).flatten := fun h =>
    name_fresh hn hr' ((name_mem_flatten (side_no_ell hr) (isName_no_ell hn)).1 h).1
  rw [spread_split] at nL nR fL fR
  have ins : ∀ {P Q : List (List Axis)}, (P ++ Q).flatten.Nodup → Axis.str n ∉ (P ++ Q).flatten →
      (P ++ [.str n] :: Q).flatten.Nodup := by
    intro P Q h1 h2
    simp only [List.flatten_append, List.flatten_cons] at h1 h2 ⊢
    rw [List.perm_append_comm_assoc _ _ _ |>.nodup_iff, List.singleton_append, List.nodup_cons]
    exact ⟨h2, h1⟩
  have sL := List.rel_append (stands_shift 0 0 0 m A) (List.Forall₂.cons (R := List.Forall₂ (Stands 0 id))
    (a := [.str n]) (b := [.str n]) (.cons (.inl ⟨n, rfl, rfl⟩) .nil)
    (stands_shift 0 (sideWords A).length ((sideWords A).length + 1) m B))
  have sR := List.rel_append (stands_shift 1 0 0 m C) (List.Forall₂.cons (R := List.Forall₂ (Stands 1 id))
    (a := [.str n]) (b := [.str n]) (.cons (.inl ⟨n, rfl, rfl⟩) .nil)
    (stands_shift 1 (sideWords C).length ((sideWords C).length + 1) m D))
  beta_reduce at sL sR
  rw [← spread_insert 0 m hn] at sL
  rw [← spread_insert 1 m hn] at sR
  obtain ⟨φ, h1, h2, h3, h4, h5⟩ := exists_relabel sL sR (ins nL fL) (ins nR fR) nL' nR' (fun w v _ _ h => h)
  refine ⟨_, _, _, _, φ, spread_split 0 m A B, spread_split 1 m C D, ?_, ?_, h1, h2, h3, h4, h5, fL, fR⟩
  · rintro d rfl
    exact placeBetween_eq 0 m _ hl.one_ellipsis
  · rintro d rfl
    exact placeBetween_eq 1 m _ hr.one_ellipsis

variable {L₁ L₂ R₁ R₂ L' R' : List (List Axis)} {φ : Axis → Axis} {len : AxisMap}

omit [PyUnicode] in
theorem Between.len_eq (h : Between n L₁ L₂ R₁ R₂ L' R' φ) (hc : Canonical len) :
    ∀ a ∈ (L₁ ++ [.str n] :: L₂).flatten ++ (R₁ ++ [.str n] :: R₂).flatten, len a = len (φ a) := by
  intro a ha
  cases a with
  | str w => rw [h.str]
  | anon s i v =>
    obtain ⟨i', hi⟩ := h.anon s i v ha
    rw [hi, hc, hc]

omit [PyUnicode] in
theorem Between.known_eq (h : Between n L₁ L₂ R₁ R₂ L' R' φ) (names : List Str) :
    ∀ a ∈ (L₁ ++ [.str n] :: L₂).flatten ++ (R₁ ++ [.str n] :: R₂).flatten, isKnown names (φ a) = isKnown names a := by
  intro a ha
  cases a with
  | str w => rw [h.str]
  | anon s i v =>
    obtain ⟨i', hi⟩ := h.anon s i v ha
    rw [hi]; rfl

include hp hp' hn in
/-- a call with the new axis is legal iff the call without it is -/
theorem accepted_insert {op : OpKind} {kw : List (Str × Size)} (hk : n ∉ kw.map Prod.fst) {m N : Nat} {pre post : List Nat}
    (hm : dots ∉ sideWords (A ++ B) → m = 0) (eL : spread (ellAxes m) (denote 0 0 (A ++ B)) = L₁ ++ L₂)
    (eR : spread (ellAxes m) (denote 1 0 (C ++ D)) = R₁ ++ R₂)
    (h : Between n L₁ L₂ R₁ R₂ (spread (ellAxes m) (denote 0 0 (A ++ .bare n :: B)))
        (spread (ellAxes m) (denote 1 0 (C ++ .bare n :: D))) φ)
    (hc : Canonical len) (hN : len (.str n) = N) (hpre : pre.length = L₁.length) :
    Accepted op pattern' kw (pre ++ N :: post) (A ++ .bare n :: B) (C ++ .bare n :: D)
      (spread (ellAxes m) (denote 0 0 (A ++ .bare n :: B))) (spread (ellAxes m) (denote 1 0 (C ++ .bare n :: D))) len ↔
    Accepted op pattern kw (pre ++ post) (A ++ B) (C ++ D) (L₁ ++ L₂) (R₁ ++ R₂) len := by
  obtain ⟨_, _, _, _, hl', hr'⟩ := isPattern_split hp'
  have hwords := wordsOK_insert (op := op) hn (name_fresh hn hl') (name_fresh hn hr') hk
  have hlen := h.len_eq hc
  have hknown := h.known_eq (kw.map Prod.fst)
  have hmem : ∀ {g a}, g ∈ L₁ ++ [.str n] :: L₂ → a ∈ g →
      a ∈ (L₁ ++ [.str n] :: L₂).flatten ++ (R₁ ++ [.str n] :: R₂).flatten := fun hg ha =>
    List.mem_append_left _ (List.mem_flatten.2 ⟨_, hg, ha⟩)
  have hun : isKnown (kw.map Prod.fst) (.str n) = false := by simp [isKnown, hk]
  have hsize : ∀ g ∈ L₁ ++ [.str n] :: L₂, groupSize len ((g.map φ).filter (isKnown (kw.map Prod.fst))) =
      groupSize len (g.filter (isKnown (kw.map Prod.fst))) := by
    intro g hg
    rw [filter_map_relabel (fun a ha => hknown a (hmem hg ha))]
    exact groupSize_relabel (fun a ha => hlen a (hmem hg (List.mem_of_mem_filter ha)))
  have hcount : ∀ g ∈ L₁ ++ [.str n] :: L₂, ((g.map φ).filter (fun a => !isKnown (kw.map Prod.fst) a)).length =
      (g.filter (fun a => !isKnown (kw.map Prod.fst) a)).length := by
    intro g hg
    rw [filter_map_relabel (p := fun a => !isKnown (kw.map Prod.fst) a)
      (fun a ha => by simp only [hknown a (hmem hg ha)]), List.length_map]
  have hmem' : ∀ {g}, g ∈ L₁ ++ L₂ → g ∈ L₁ ++ [.str n] :: L₂ := fun hg => by
    simp only [List.mem_append, List.mem_cons] at hg ⊢; tauto
  have hshape : pre ++ N :: post = (spread (ellAxes m) (denote 0 0 (A ++ .bare n :: B))).map (groupSize len) ↔
      pre ++ post = (L₁ ++ L₂).map (groupSize len) := by
    rw [h.left, map_groupSize_relabel (fun a ha => hlen a (List.mem_append_left _ ha)), List.map_append, List.map_append,
      List.map_cons, groupSize_singleton, hN]
    constructor
    · intro e
      obtain ⟨e1, e2⟩ := List.append_inj e (by simp [hpre])
      cases e2
      rw [e1]
    · intro e
      obtain ⟨e1, e2⟩ := List.append_inj e (by simp [hpre])
      rw [e1, e2]
  constructor
  · intro ha
    obtain ⟨hs, hk'⟩ := hwords.1 ⟨ha.prepared.sides, ha.prepared.keywords⟩
    have hsh := hshape.1 ha.fits.shape_eq
    refine ⟨hp, ⟨hs, hk', ⟨m, hm, eL.symm, eR.symm, ?_⟩, fun g hg => ?_⟩, ⟨hsh, ha.fits.kw_eq, fun _ _ _ _ => hc _ _ _⟩,
      fun g hg hu => ?_⟩
    · rw [hsh, List.length_map]
    · rw [← hcount g (hmem' hg)]
      apply ha.prepared.unknowns
      rw [h.left]
      exact List.mem_map_of_mem (hmem' hg)
    · rw [← hsize g (hmem' hg)]
      refine ha.determinate _ (by rw [h.left]; exact List.mem_map_of_mem (hmem' hg)) ?_
      obtain ⟨a, h1, h2⟩ := hu
      exact ⟨φ a, List.mem_map_of_mem h1, by rw [hknown a (hmem (hmem' hg) h1), h2]⟩
  · intro ha
    obtain ⟨hs, hk'⟩ := hwords.2 ⟨ha.prepared.sides, ha.prepared.keywords⟩
    have hsh := hshape.2 ha.fits.shape_eq
    have hm' : dots ∉ sideWords (A ++ .bare n :: B) → m = 0 := fun hd =>
      hm (fun h => hd ((sideWords_insert _ _ _ _).2 (.inr h)))
    have split : ∀ {g}, g ∈ L₁ ++ [.str n] :: L₂ → g = [.str n] ∨ g ∈ L₁ ++ L₂ := fun hg => by
      simp only [List.mem_append, List.mem_cons] at hg ⊢; tauto
    refine ⟨hp', ⟨hs, hk', ⟨m, hm', rfl, rfl, ?_⟩, fun g hg => ?_⟩, ⟨hsh, ha.fits.kw_eq, fun _ _ _ _ => hc _ _ _⟩,
      fun g hg hu => ?_⟩
    · rw [hsh, List.length_map]
    · rw [h.left] at hg
      obtain ⟨g, hg'', rfl⟩ := List.mem_map.1 hg
      clear hg
      have hg := hg''
      rw [hcount g hg]
      rcases split hg with rfl | hg'
      · exact List.length_filter_le _ _
      · exact ha.prepared.unknowns g hg'
    · rw [h.left] at hg
      obtain ⟨g, hg'', rfl⟩ := List.mem_map.1 hg
      clear hg
      have hg := hg''
      rw [hsize g hg]
      rcases split hg with rfl | hg'
      · rw [List.filter_cons_of_neg (by simp [hun])]
        simp [groupSize]
      · obtain ⟨a, h1, h2⟩ := hu
        obtain ⟨a, h1', rfl⟩ := List.mem_map.1 h1
        rw [hknown a (hmem hg h1')] at h2
        exact ha.determinate g hg' ⟨a, h1', h2⟩

/-- lengths with the values of the numbers, and a length for one name -/
def canonicalLen (len : AxisMap) (n : Str) (N : Nat) : AxisMap
  | .anon _ _ v => v
  | .str w => if w = n then N else len (.str w)

omit [PyUnicode] in
theorem canonicalLen_self {GL R : List (List Axis)} {kw : List (Str × Size)} {shape : List Nat} (h : Fits GL R kw shape len)
    {n : Str} {N : Nat} (hn : Axis.str n ∈ GL.flatten ++ R.flatten → len (.str n) = N) :
    ∀ a ∈ GL.flatten ++ R.flatten, len a = canonicalLen len n N a := by
  intro a ha
  cases a with
  | anon s i v => exact h.number_eq s i v ha
  | str w =>
    simp only [canonicalLen]
    split
    · rename_i e
      subst e
      exact hn ha
    · rfl

omit [PyUnicode] in
theorem canonical_canonicalLen (len : AxisMap) (n : Str) (N : Nat) : Canonical (canonicalLen len n N) := fun _ _ _ => rfl

/-- what is needed of the relation between input and output -/
structure SliceWise (Q : AxisMap → List (List Axis) → List (List Axis) → Tensor α → Tensor α → Prop) : Prop where
  congr : ∀ {len len' L R x y}, (∀ a ∈ L.flatten ++ R.flatten, len a = len' a) → Q len L R x y → Q len' L R x y
  relabel : ∀ {φ : Axis → Axis} {len L R x y},
    (∀ a ∈ L.flatten ++ R.flatten, ∀ c ∈ L.flatten ++ R.flatten, φ a = φ c → a = c) →
    (∀ a ∈ L.flatten ++ R.flatten, len a = len (φ a)) → (Q len (relabel φ L) (relabel φ R) x y ↔ Q len L R x y)
  slices : ∀ {len : AxisMap} {c : Axis} {N L₁ L₂ R₁ R₂ x y xs ys}, len c = N → 0 < N → c ∉ (L₁ ++ L₂).flatten →
    c ∉ (R₁ ++ R₂).flatten → SlicesAre x L₁.length N xs → SlicesAre y R₁.length N ys →
    (Q len (L₁ ++ [c] :: L₂) (R₁ ++ [c] :: R₂) x y ↔ ∀ i < N, Q len (L₁ ++ L₂) (R₁ ++ R₂) (xs i) (ys i))
  shape : ∀ {len L R x y}, Q len L R x y → y.shape = R.map (groupSize len)

/-- the call returns `y`: a legal call, and `Q` relates `x` and `y` -/
def Gives (Q : AxisMap → List (List Axis) → List (List Axis) → Tensor α → Tensor α → Prop) (op : OpKind) (pattern : Str)
    (kw : List (Str × Size)) (x y : Tensor α) : Prop :=
  ∃ GL GR L R len, Accepted op pattern kw x.shape GL GR L R len ∧ Q len L R x y

variable {Q : AxisMap → List (List Axis) → List (List Axis) → Tensor α → Tensor α → Prop} {op : OpKind}
  {kw : List (Str × Size)} {N : Nat} {x y : Tensor α} {xs ys : Nat → Tensor α}

include hp hp' hn in
theorem gives_slices (hQ : SliceWise Q) (hk : n ∉ kw.map Prod.fst) (h0 : 0 < N)
    (hx : SlicesAre x (placeBetween A B x.ndim) N xs) (h : Gives Q op pattern' kw x y) :
    ∃ ys, SlicesAre y (placeBetween C D y.ndim) N ys ∧ ∀ i < N, Gives Q op pattern kw (xs i) (ys i) := by
  obtain ⟨GL, GR, L, R, len₀, ha₀, hq₀⟩ := h
  obtain ⟨rfl, rfl⟩ := isPattern_unique ha₀.pattern hp'
  have hx' := hx
  obtain ⟨pre, post, e1, e2, e3⟩ := hx'
  obtain ⟨m, hm, rfl, rfl, hlen⟩ := ha₀.prepared.groups
  have hm' : dots ∉ sideWords (A ++ B) → m = 0 := fun hd => hm (fun h => by
    rcases (sideWords_insert _ _ _ _).1 h with h | h
    · exact isName_ne_dots hn h.symm
    · exact hd h)
  obtain ⟨L₁, L₂, R₁, R₂, φ, eL, eR, pL, pR, hb⟩ := exists_between hp hp' hn m
  have hcan := canonicalLen_self ha₀.fits (n := n) (N := len₀ (.str n)) (fun _ => rfl)
  generalize hl : canonicalLen len₀ n (len₀ (.str n)) = len at hcan
  have hc : Canonical len := hl ▸ canonical_canonicalLen _ _ _
  have ha := ha₀.congr_len hcan
  have hq := hQ.congr hcan hq₀
  have hpl : placeBetween A B x.ndim = L₁.length := by
    apply pL
    show x.shape.length = _
    rw [← hlen, hb.left]
    simp [Einops.relabel]
    omega
  have hlenE := hb.len_eq hc
  have hN : len (.str n) = N := by
    have hs := ha.fits.shape_eq
    rw [hb.left, map_groupSize_relabel (fun a ha => hlenE a (List.mem_append_left _ ha)), e1, List.map_append,
      List.map_cons, groupSize_singleton] at hs
    obtain ⟨_, h2⟩ := List.append_inj hs (by rw [e2, hpl, List.length_map])
    simp only [List.cons.injEq] at h2
    exact h2.1.symm
  rw [e1, accepted_insert hp hp' hn hk hm' eL eR hb hc hN (e2.trans hpl)] at ha
  rw [hb.left, hb.rght, hQ.relabel hb.inj hlenE] at hq
  have hys := hQ.shape hq
  rw [List.map_append, List.map_cons, groupSize_singleton, hN] at hys
  obtain ⟨ys, hy⟩ := exists_slices hys
  rw [List.length_map] at hy
  have hpr : placeBetween C D y.ndim = R₁.length := by
    apply pR
    show y.shape.length = _
    rw [hys]
    simp
    omega
  rw [hpl] at hx
  refine ⟨ys, by rw [hpr]; exact hy, fun i hi => ⟨A ++ B, C ++ D, _, _, len, ?_,
    (hQ.slices hN h0 hb.fresh_left hb.fresh_rght hx hy).1 hq i hi⟩⟩
  rw [(e3 i hi).1]
  exact ha

include hp hp' hn in
theorem slices_give (hQ : SliceWise Q) (hkw : IntKw kw) (hk : n ∉ kw.map Prod.fst) (h0 : 0 < N)
    (hx : SlicesAre x (placeBetween A B x.ndim) N xs) (h : ∀ i < N, Gives Q op pattern kw (xs i) (ys i)) :
    (∃ y, SlicesAre y (placeBetween C D y.ndim) N ys) ∧
    ∀ y, SlicesAre y (placeBetween C D y.ndim) N ys → Gives Q op pattern' kw x y := by
  have hx' := hx
  obtain ⟨pre, post, e1, e2, e3⟩ := hx'
  obtain ⟨GL, GR, L, R, len₀, ha₀, _⟩ := h 0 h0
  obtain ⟨rfl, rfl⟩ := isPattern_unique ha₀.pattern hp
  obtain ⟨m, hm, rfl, rfl, hlen⟩ := ha₀.prepared.groups
  obtain ⟨L₁, L₂, R₁, R₂, φ, eL, eR, pL, pR, hb⟩ := exists_between hp hp' hn m
  rw [eL, eR] at ha₀
  have hcan := canonicalLen_self ha₀.fits (n := n) (N := N) (fun hc => by
    rcases List.mem_append.1 hc with hc | hc
    · exact absurd hc hb.fresh_left
    · exact absurd hc hb.fresh_rght)
  generalize hl : canonicalLen len₀ n N = len at hcan
  have hc : Canonical len := hl ▸ canonical_canonicalLen _ _ _
  have hN : len (.str n) = N := by rw [← hl]; simp [canonicalLen]
  have ha := ha₀.congr_len hcan
  rw [(e3 0 h0).1] at ha hlen
  have hpl : placeBetween A B x.ndim = L₁.length := by
    apply pL
    show x.shape.length = _
    rw [eL] at hlen
    rw [e1]
    simp only [List.length_append, List.length_cons] at hlen ⊢
    omega
  have hq : ∀ i < N, Q len (L₁ ++ L₂) (R₁ ++ R₂) (xs i) (ys i) := by
    intro i hi
    obtain ⟨GL', GR', L', R', len', ha', hq'⟩ := h i hi
    rw [(e3 i hi).1] at ha'
    obtain ⟨rfl, rfl, hl'⟩ := ha.len_unique hkw ha' (fun _ h => h)
    exact hQ.congr hl' hq'
  have hlenE := hb.len_eq hc
  have ha' := (accepted_insert hp hp' hn hk hm eL eR hb hc hN (e2.trans hpl)).2 ha
  rw [← e1] at ha'
  refine ⟨?_, fun y hy => ⟨_, _, _, _, len, ha', ?_⟩⟩
  · obtain ⟨y, hy⟩ := exists_stacked (pre := R₁.map (groupSize len)) (post := R₂.map (groupSize len)) (n := N) (ys := ys)
      (fun i hi => by rw [hQ.shape (hq i hi), List.map_append])
    refine ⟨y, ?_⟩
    have hy' := hy
    obtain ⟨p, q, f1, f2, f3⟩ := hy'
    have : placeBetween C D y.ndim = (R₁.map (groupSize len)).length := by
      rw [List.length_map]
      apply pR
      have hs := (f3 0 h0).1
      rw [hQ.shape (hq 0 h0)] at hs
      have hs := congrArg List.length hs
      show y.shape.length = _
      rw [f1]
      simp only [List.length_append, List.length_map, List.length_cons] at hs ⊢
      omega
    rw [this]
    exact hy
  · have hpr : placeBetween C D y.ndim = R₁.length := by
      apply pR
      obtain ⟨p, q, f1, f2, f3⟩ := hy
      have hs := (f3 0 h0).1
      rw [hQ.shape (hq 0 h0)] at hs
      have hs := congrArg List.length hs
      show y.shape.length = _
      rw [f1]
      simp only [List.length_append, List.length_map, List.length_cons] at hs ⊢
      omega
    rw [hpr] at hy
    rw [hpl] at hx
    rw [hb.left, hb.rght, hQ.relabel hb.inj hlenE]
    exact (hQ.slices hN h0 hb.fresh_left hb.fresh_rght hx hy).2 hq

end

end

theorem moves_sliceWise : SliceWise (α := α) Moves :=
  ⟨Moves.congr, Moves.relabel_iff, Moves.slices, fun h => h.1⟩

/-- outcome of a reduction -/
def Combines (op : List α → Py α) (p : Prop) (len : AxisMap) (L R : List (List Axis)) (x y : Tensor α) : Prop :=
  (¬ Drops L R ∧ Moves len L R x y) ∨ (Drops L R ∧ p ∧ Reduces op len L R x y)

theorem combines_sliceWise (op : List α → Py α) (p : Prop) : SliceWise (Combines op p) where
  congr h := Or.imp (And.imp_right (Moves.congr h)) (And.imp_right (And.imp_right (Reduces.congr h)))
  relabel hi hl := by
    unfold Combines
    rw [Moves.relabel_iff hi hl, Reduces.relabel_iff hi hl, drops_relabel hi]
  slices {len c N L₁ L₂ R₁ R₂ x y xs ys} hc h0 hL hR hx hy := by
    unfold Combines
    rw [Drops.slices hL, Moves.slices hc h0 hL hR hx hy, Reduces.slices hc h0 hL hR hx hy]
    constructor
    · rintro (⟨h1, h2⟩ | ⟨h1, h2, h3⟩) i hi
      · exact .inl ⟨h1, h2 i hi⟩
      · exact .inr ⟨h1, h2, h3 i hi⟩
    · intro h
      by_cases hd : Drops (L₁ ++ L₂) (R₁ ++ R₂)
      · refine .inr ⟨hd, ((h 0 h0).resolve_left (fun h => h.1 hd)).2.1, fun i hi => ((h i hi).resolve_left (fun h => h.1 hd)).2.2⟩
      · exact .inl ⟨hd, fun i hi => ((h i hi).resolve_right (fun h => hd h.1)).2⟩
  shape h := h.elim (fun h => h.2.1) (fun h => h.2.2.1)

end Einops
