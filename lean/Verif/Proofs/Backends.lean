import Verif.Proofs.Results

/-! The modelled backends satisfy what the operations need. -/

namespace Einops

universe u
variable {α : Type u}

/-! ### new axes -/

/-- the mask with new axes of length one -/
def onesMask (ms : List (Option Nat)) : List (Option Nat) := ms.map (Option.map (fun _ => 1))

/-- coordinates with those of the new axes set to zero -/
def zeroNew : List (Option Nat) → List Nat → List Nat
  | none :: ms, i :: is => i :: zeroNew ms is
  | some _ :: ms, _ :: is => 0 :: zeroNew ms is
  | _, _ => []

/-- repetitions, with a default for old axes -/
def repsOf (r0 : Int) (ms : List (Option Nat)) : List Int := ms.map (fun o => o.elim r0 (fun l => (l : Int)))

theorem fillDims_length {ms : List (Option Nat)} {s : List Nat} (h : s.length = ms.count none) :
    (fillDims ms s).length = ms.length := by
  induction ms generalizing s with
  | nil => rfl
  | cons o ms ih =>
    cases o with
    | some l => simp [fillDims, ih (s := s) (by simpa using h)]
    | none =>
      cases s with
      | nil => simp at h
      | cons d s => simp [fillDims, ih (s := s) (by simpa using h)]

theorem onesMask_count (ms : List (Option Nat)) : (onesMask ms).count none = ms.count none := by
  induction ms with
  | nil => rfl
  | cons o ms ih =>
    unfold onesMask at *
    cases o <;> simp [ih]

theorem fillDims_ones_prod {ms : List (Option Nat)} {s : List Nat} (h : s.length = ms.count none) :
    (fillDims (onesMask ms) s).prod = s.prod := by
  induction ms generalizing s with
  | nil =>
    have : s = [] := by simpa using h
    simp [this, onesMask, fillDims]
  | cons o ms ih =>
    unfold onesMask at *
    cases o with
    | some l => simp [fillDims, ih (s := s) (by simpa using h)]
    | none =>
      cases s with
      | nil => simp at h
      | cons d s => simp [fillDims, ih (s := s) (by simpa using h)]

theorem ravel_zeroNew {ms : List (Option Nat)} {s i : List Nat} (h : s.length = ms.count none)
    (hi : i.length = ms.length) :
    ravel (fillDims (onesMask ms) s) (zeroNew ms i) = ravel s (keepCoords ms i) := by
  induction ms generalizing s i with
  | nil =>
    have : s = [] := by simpa using h
    subst this
    simp [onesMask, fillDims, zeroNew, ravel]
  | cons o ms ih =>
    have hp := fun s => fillDims_ones_prod (ms := ms) (s := s)
    unfold onesMask at *
    cases i with
    | nil => simp at hi
    | cons j i =>
      cases o with
      | some l =>
        simp only [List.map_cons, Option.map_some, fillDims, zeroNew, ravel, keepCoords, Nat.zero_mul, Nat.zero_add]
        exact ih (by simpa using h) (by simpa using hi)
      | none =>
        cases s with
        | nil => simp at h
        | cons d s =>
          simp only [List.map_cons, Option.map_none, fillDims, zeroNew, ravel, keepCoords]
          rw [ih (by simpa using h) (by simpa using hi), hp _ (by simpa using h)]

theorem inBounds_zeroNew {ms : List (Option Nat)} {s i : List Nat} (h : s.length = ms.count none)
    (hi : inBounds i (fillDims ms s) = true) :
    inBounds (zeroNew ms i) (fillDims (onesMask ms) s) = true ∧ inBounds (keepCoords ms i) s = true := by
  induction ms generalizing s i with
  | nil =>
    have : s = [] := by simpa using h
    subst this
    simp [onesMask, fillDims, zeroNew, keepCoords]
  | cons o ms ih =>
    unfold onesMask at *
    cases i with
    | nil =>
      cases o with
      | some l => simp [fillDims, inBounds] at hi
      | none =>
        cases s with
        | nil => simp at h
        | cons d s => simp [fillDims, inBounds] at hi
    | cons j i =>
      cases o with
      | some l =>
        simp only [fillDims, inBounds_cons] at hi
        have := ih (by simpa using h) hi.2
        simp only [List.map_cons, Option.map_some, fillDims, zeroNew, inBounds_cons, keepCoords]
        exact ⟨⟨by omega, this.1⟩, this.2⟩
      | none =>
        cases s with
        | nil => simp at h
        | cons d s =>
          simp only [fillDims, inBounds_cons] at hi
          have := ih (by simpa using h) hi.2
          simp only [List.map_cons, Option.map_none, fillDims, zeroNew, inBounds_cons, keepCoords]
          exact ⟨⟨hi.1, this.1⟩, hi.1, this.2⟩

theorem zip_mod {ms : List (Option Nat)} {s i : List Nat} (h : s.length = ms.count none)
    (hi : inBounds i (fillDims ms s) = true) :
    List.zipWith (fun j d => j % d) i (fillDims (onesMask ms) s) = zeroNew ms i := by
  induction ms generalizing s i with
  | nil => simp [onesMask, fillDims, zeroNew]
  | cons o ms ih =>
    unfold onesMask at *
    cases i with
    | nil =>
      cases o with
      | some l => simp [fillDims, inBounds] at hi
      | none =>
        cases s with
        | nil => simp at h
        | cons d s => simp [fillDims, inBounds] at hi
    | cons j i =>
      cases o with
      | some l =>
        simp only [fillDims, inBounds_cons] at hi
        simp [fillDims, zeroNew, ih (by simpa using h) hi.2, Nat.mod_one]
      | none =>
        cases s with
        | nil => simp at h
        | cons d s =>
          simp only [fillDims, inBounds_cons] at hi
          simp [fillDims, zeroNew, ih (by simpa using h) hi.2, Nat.mod_eq_of_lt hi.1]

theorem zip_bcast {ms : List (Option Nat)} {s i : List Nat} (h : s.length = ms.count none)
    (hi : inBounds i (fillDims ms s) = true) :
    List.zipWith (fun j d => if d = 1 then 0 else j) i (fillDims (onesMask ms) s) = zeroNew ms i := by
  induction ms generalizing s i with
  | nil => simp [onesMask, fillDims, zeroNew]
  | cons o ms ih =>
    unfold onesMask at *
    cases i with
    | nil =>
      cases o with
      | some l => simp [fillDims, inBounds] at hi
      | none =>
        cases s with
        | nil => simp at h
        | cons d s => simp [fillDims, inBounds] at hi
    | cons j i =>
      cases o with
      | some l =>
        simp only [fillDims, inBounds_cons] at hi
        simp [fillDims, zeroNew, ih (by simpa using h) hi.2]
      | none =>
        cases s with
        | nil => simp at h
        | cons d s =>
          simp only [fillDims, inBounds_cons] at hi
          simp only [List.map_cons, Option.map_none, fillDims, zeroNew, List.zipWith_cons_cons,
            ih (by simpa using h) hi.2]
          congr 1
          split
          · omega
          · rfl

theorem zip_dims_tile {ms : List (Option Nat)} {s : List Nat} (h : s.length = ms.count none) :
    List.zipWith (fun d r => d * r.toNat) (fillDims (onesMask ms) s) (repsOf 1 ms) = fillDims ms s := by
  induction ms generalizing s with
  | nil => rfl
  | cons o ms ih =>
    unfold onesMask repsOf at *
    cases o with
    | some l => simp [fillDims, ih (s := s) (by simpa using h)]
    | none =>
      cases s with
      | nil => simp at h
      | cons d s => simp [fillDims, ih (s := s) (by simpa using h)]

theorem zip_dims_expand {ms : List (Option Nat)} {s : List Nat} (h : s.length = ms.count none) :
    List.zipWith (fun (d : Nat) (r : Int) => if r = -1 then d else r.toNat) (fillDims (onesMask ms) s) (repsOf (-1) ms) =
      fillDims ms s := by
  induction ms generalizing s with
  | nil => rfl
  | cons o ms ih =>
    unfold onesMask repsOf at *
    cases o with
    | some l =>
      have : ¬ ((l : Int) = -1) := by omega
      simp [fillDims, ih (s := s) (by simpa using h), this]
    | none =>
      cases s with
      | nil => simp at h
      | cons d s => simp [fillDims, ih (s := s) (by simpa using h)]

theorem expand_compat {ms : List (Option Nat)} {s : List Nat} (h : s.length = ms.count none) :
    ∀ p ∈ (fillDims (onesMask ms) s).zip (repsOf (-1) ms), p.2 = -1 ∨ (0 ≤ p.2 ∧ (p.1 = 1 ∨ p.2 = (p.1 : Int))) := by
  induction ms generalizing s with
  | nil => simp [onesMask, repsOf, fillDims]
  | cons o ms ih =>
    unfold onesMask repsOf at *
    cases o with
    | some l =>
      have := ih (s := s) (by simpa using h)
      intro p hp
      simp only [List.map_cons, Option.map_some, fillDims, Option.elim_some, List.zip_cons_cons, List.mem_cons] at hp
      rcases hp with rfl | hp
      · right; exact ⟨by simp, .inl rfl⟩
      · exact this p hp
    | none =>
      cases s with
      | nil => simp at h
      | cons d s =>
        have := ih (s := s) (by simpa using h)
        intro p hp
        simp only [List.map_cons, Option.map_none, fillDims, Option.elim_none, List.zip_cons_cons, List.mem_cons] at hp
        rcases hp with rfl | hp
        · left; rfl
        · exact this p hp

/-- A tensor with unit axes inserted, broadcast to the new lengths, is the reference. -/
theorem insert_of_ones {x t : Tensor α} {ms : List (Option Nat)} (h : x.ndim = ms.count none)
    (hs : t.shape = fillDims (onesMask ms) x.shape) (hd : t.data = x.data) {i : List Nat}
    (hi : inBounds i (fillDims ms x.shape) = true) : t.getE (zeroNew ms i) = x.getE (keepCoords ms i) := by
  have h1 := inBounds_zeroNew (s := x.shape) h hi
  have hil : i.length = ms.length := by rw [inBounds_length hi, fillDims_length h]
  unfold Tensor.getE
  rw [Tensor.at?_of_inBounds t (by rw [hs]; exact h1.1), Tensor.at?_of_inBounds x h1.2, hs, hd, ravel_zeroNew h hil]

theorem expandDims_ok {t : Tensor α} {pre s : List Nat} (ht : t.shape = pre ++ s) :
    ∃ t', t.expandDims pre.length = .ok t' ∧ t'.shape = pre ++ 1 :: s ∧ t'.data = t.data := by
  unfold Tensor.expandDims
  rw [if_pos (by simp [Tensor.ndim, ht]), ht, List.take_left, List.drop_left]
  exact t.withShape_ok (by simp [ht])

theorem setE_mid {κ : Type} {pre post : List κ} {a v : κ} : setE (pre ++ a :: post) pre.length v = .ok (pre ++ v :: post) := by
  unfold setE
  rw [if_pos (by simp)]
  simp

/-- the loop inserting unit axes -/
theorem addAxesLoop_eq {ms : List (Option Nat)} {t : Tensor α} {pre s : List Nat} {rpre : List Int} {r0 : Int}
    (ht : t.shape = pre ++ s) (hr : rpre.length = pre.length) (h : s.length = ms.count none) :
    ∃ t', addAxesLoop Tensor.expandDims t (rpre ++ List.replicate ms.length r0) (addedOf pre.length ms) =
        .ok (t', rpre ++ repsOf r0 ms) ∧ t'.shape = pre ++ fillDims (onesMask ms) s ∧ t'.data = t.data := by
  induction ms generalizing t pre s rpre with
  | nil =>
    have : s = [] := by simpa using h
    exact ⟨t, by simp [addedOf, addAxesLoop, repsOf], by simp [ht, this, onesMask, fillDims], rfl⟩
  | cons o ms ih =>
    cases o with
    | some l =>
      simp only [addedOf, addAxesLoop]
      obtain ⟨t', h1, h2, h3⟩ := expandDims_ok ht
      rw [h1]
      simp only
      rw [List.length_cons, List.replicate_succ, ← hr, setE_mid]
      simp only
      obtain ⟨t'', h4, h5, h6⟩ := ih (t := t') (pre := pre ++ [1]) (s := s) (rpre := rpre ++ [(l : Int)])
        (by simp [h2]) (by simp [hr]) (by simpa using h)
      refine ⟨t'', ?_, ?_, h6.trans h3⟩
      · simp only [List.append_assoc, List.cons_append, List.nil_append, List.length_append, List.length_cons,
          List.length_nil] at h4
        rw [hr, h4]
        simp [repsOf]
      · rw [h5]; simp [onesMask, fillDims]
    | none =>
      cases s with
      | nil => simp at h
      | cons d s =>
        simp only [addedOf]
        obtain ⟨t'', h4, h5, h6⟩ := ih (t := t) (pre := pre ++ [d]) (s := s) (rpre := rpre ++ [r0])
          (by simp [ht]) (by simp [hr]) (by simpa using h)
        refine ⟨t'', ?_, ?_, h6⟩
        · simp only [List.append_assoc, List.cons_append, List.nil_append, List.length_append, List.length_cons,
            List.length_nil] at h4
          rw [List.length_cons, List.replicate_succ, h4]
          simp [repsOf]
        · rw [h5]; simp [onesMask, fillDims]

theorem addAxesTile_eq (x : Tensor α) {ms : List (Option Nat)} (h : x.ndim = ms.count none) :
    addAxesTile x ms.length (addedOf 0 ms) = x.insertAxes ms := by
  obtain ⟨t, h1, h2, h3⟩ := addAxesLoop_eq (ms := ms) (t := x) (pre := []) (s := x.shape) (rpre := []) (r0 := 1) rfl rfl h
  simp only [List.nil_append, List.length_nil] at h1 h2
  unfold addAxesTile
  rw [h1]
  simp only
  unfold Tensor.tile
  rw [if_pos, h2, zip_dims_tile h]
  · unfold Tensor.insertAxes
    apply Tensor.build_congr
    intro i hi
    rw [zip_mod h hi]
    exact insert_of_ones h h2 h3 hi
  · refine ⟨?_, ?_⟩
    · simp only [repsOf, List.length_map, Tensor.ndim, h2]
      rw [fillDims_length (by rw [onesMask_count]; exact h)]
      simp [onesMask]
    · intro r hr
      simp only [repsOf, List.mem_map] at hr
      obtain ⟨o, _, rfl⟩ := hr
      cases o <;> simp

theorem addAxesExpand_eq (x : Tensor α) {ms : List (Option Nat)} (h : x.ndim = ms.count none) :
    addAxesExpand x ms.length (addedOf 0 ms) = x.insertAxes ms := by
  obtain ⟨t, h1, h2, h3⟩ := addAxesLoop_eq (ms := ms) (t := x) (pre := []) (s := x.shape) (rpre := []) (r0 := -1) rfl rfl h
  simp only [List.nil_append, List.length_nil] at h1 h2
  unfold addAxesExpand
  rw [h1]
  simp only
  unfold Tensor.expand
  rw [if_pos, h2, zip_dims_expand h]
  · unfold Tensor.insertAxes
    apply Tensor.build_congr
    intro i hi
    rw [zip_bcast h hi]
    exact insert_of_ones h h2 h3 hi
  · refine ⟨?_, ?_⟩
    · simp only [repsOf, List.length_map, Tensor.ndim, h2]
      rw [fillDims_length (by rw [onesMask_count]; exact h)]
      simp [onesMask]
    · rw [h2]; exact expand_compat h

/-! the array-API variant: first all unit axes, then one broadcast -/

theorem expandAll_eq {ms : List (Option Nat)} {t : Tensor α} {pre s : List Nat} (ht : t.shape = pre ++ s)
    (h : s.length = ms.count none) :
    ∃ t', expandAll t (addedOf pre.length ms) = .ok t' ∧ t'.shape = pre ++ fillDims (onesMask ms) s ∧
      t'.data = t.data := by
  induction ms generalizing t pre s with
  | nil =>
    have : s = [] := by simpa using h
    exact ⟨t, rfl, by simp [ht, this, onesMask, fillDims], rfl⟩
  | cons o ms ih =>
    cases o with
    | some l =>
      simp only [addedOf, expandAll]
      obtain ⟨t', h1, h2, h3⟩ := expandDims_ok ht
      rw [h1]
      simp only
      obtain ⟨t'', h4, h5, h6⟩ := ih (t := t') (pre := pre ++ [1]) (s := s) (by simp [h2]) (by simpa using h)
      refine ⟨t'', ?_, ?_, h6.trans h3⟩
      · simpa using h4
      · rw [h5]; simp [onesMask, fillDims]
    | none =>
      cases s with
      | nil => simp at h
      | cons d s =>
        simp only [addedOf]
        obtain ⟨t'', h4, h5, h6⟩ := ih (t := t) (pre := pre ++ [d]) (s := s) (by simp [ht]) (by simpa using h)
        exact ⟨t'', by simpa using h4, by rw [h5]; simp [onesMask, fillDims], h6⟩

theorem setAll_eq {ms : List (Option Nat)} {pre : List Int} {s : List Nat} (h : s.length = ms.count none) :
    setAll (pre ++ (fillDims (onesMask ms) s).map Int.ofNat) (addedOf pre.length ms) =
      .ok (pre ++ (fillDims ms s).map Int.ofNat) := by
  induction ms generalizing pre s with
  | nil => simp [onesMask, fillDims, addedOf, setAll]
  | cons o ms ih =>
    unfold onesMask at *
    cases o with
    | some l =>
      simp only [addedOf, setAll, List.map_cons, Option.map_some, fillDims]
      rw [setE_mid]
      simp only
      have := ih (pre := pre ++ [(l : Int)]) (s := s) (by simpa using h)
      simpa using this
    | none =>
      cases s with
      | nil => simp at h
      | cons d s =>
        simp only [addedOf, List.map_cons, Option.map_none, fillDims]
        have := ih (pre := pre ++ [(d : Int)]) (s := s) (by simpa using h)
        simpa using this

theorem bcast_compat {ms : List (Option Nat)} {s : List Nat} (h : s.length = ms.count none) :
    ∀ p ∈ (fillDims (onesMask ms) s).zip ((fillDims ms s).map Int.ofNat), 0 ≤ p.2 ∧ (p.1 = 1 ∨ p.2 = (p.1 : Int)) := by
  induction ms generalizing s with
  | nil => simp [onesMask, fillDims]
  | cons o ms ih =>
    unfold onesMask at *
    cases o with
    | some l =>
      have := ih (s := s) (by simpa using h)
      intro p hp
      simp only [List.map_cons, Option.map_some, fillDims, List.zip_cons_cons, List.mem_cons] at hp
      rcases hp with rfl | hp
      · exact ⟨by simp, .inl rfl⟩
      · exact this p hp
    | none =>
      cases s with
      | nil => simp at h
      | cons d s =>
        have := ih (s := s) (by simpa using h)
        intro p hp
        simp only [List.map_cons, Option.map_none, fillDims, List.zip_cons_cons, List.mem_cons] at hp
        rcases hp with rfl | hp
        · exact ⟨by simp, .inr rfl⟩
        · exact this p hp

theorem broadcastAxes_eq (x : Tensor α) {ms : List (Option Nat)} (n : Nat) (h : x.ndim = ms.count none) :
    broadcastAxes x n (addedOf 0 ms) = x.insertAxes ms := by
  obtain ⟨t, h1, h2, h3⟩ := expandAll_eq (ms := ms) (t := x) (pre := []) (s := x.shape) rfl h
  simp only [List.nil_append, List.length_nil] at h1 h2
  unfold broadcastAxes
  rw [h1]
  simp only [Except.bind]
  rw [h2]
  have h4 := setAll_eq (ms := ms) (pre := []) (s := x.shape) h
  simp only [List.nil_append, List.length_nil] at h4
  rw [h4]
  simp only
  unfold Tensor.broadcastTo
  rw [if_pos, h2]
  · unfold Tensor.insertAxes
    have : ((fillDims ms x.shape).map Int.ofNat).map Int.toNat = fillDims ms x.shape := by
      rw [List.map_map]; exact List.map_id _
    rw [this]
    apply Tensor.build_congr
    intro i hi
    rw [zip_bcast h hi]
    exact insert_of_ones h h2 h3 hi
  · refine ⟨?_, by rw [h2]; exact bcast_compat h⟩
    rw [List.length_map, fillDims_length h, Tensor.ndim, h2, fillDims_length (by rw [onesMask_count]; exact h)]
    simp [onesMask]

/-! ### reshape -/

theorem prod_eq_zero_of_mem {l : List Nat} (h : 0 ∈ l) : l.prod = 0 := by
  induction l with
  | nil => simp at h
  | cons a l ih =>
    rcases List.mem_cons.1 h with h | h
    · simp [← h]
    · simp [ih h]

theorem reshape_nonneg (x : Tensor α) (s : List Nat) : x.reshape (s.map Int.ofNat) = x.withShape s := by
  have h1 : (s.map Int.ofNat).filter (fun d => decide (d < 0)) = [] := by
    rw [List.filter_eq_nil_iff]
    intro a ha
    obtain ⟨n, _, rfl⟩ := List.mem_map.1 ha
    simp
  have h2 : (s.map Int.ofNat).map Int.toNat = s := by rw [List.map_map]; exact List.map_id _
  simp only [Tensor.reshape, resolveShape, h1, List.length_nil, h2]

theorem reshape_neg_error (x : Tensor α) (s : List Int) (hneg : ∃ d ∈ s, d < 0)
    (h : 2 ≤ (s.filter (fun d => decide (d < 0))).length ∨ 0 ∈ s) : x.reshape s = .error .backend := by
  have hpos : 0 < (s.filter (fun d => decide (d < 0))).length := by
    obtain ⟨d, hd, hlt⟩ := hneg
    exact List.length_pos_of_mem (List.mem_filter.2 ⟨hd, by simpa using hlt⟩)
  unfold Tensor.reshape resolveShape
  simp only
  rcases hk : (s.filter (fun d => decide (d < 0))).length with _ | _ | k
  · omega
  · simp only
    rcases h with h | h
    · omega
    · have : ((s.filter (fun d => decide (0 ≤ d))).map Int.toNat).prod = 0 := by
        have h0 : 0 ∈ (s.filter (fun d => decide (0 ≤ d))).map Int.toNat :=
          List.mem_map.2 ⟨0, List.mem_filter.2 ⟨h, by simp⟩, rfl⟩
        exact prod_eq_zero_of_mem h0
      rw [if_pos (.inl this)]
  · rfl

theorem reshapeStrict_nonneg (x : Tensor α) (s : List Nat) : x.reshapeStrict (s.map Int.ofNat) = x.withShape s := by
  unfold Tensor.reshapeStrict
  rw [if_neg, reshape_nonneg]
  rintro ⟨d, hd, hlt⟩
  obtain ⟨n, _, rfl⟩ := List.mem_map.1 hd
  simp only [Int.ofNat_eq_natCast] at hlt
  omega

theorem reshapeStrict_neg (x : Tensor α) (s : List Int) (hneg : ∃ d ∈ s, d < 0)
    (h : 2 ≤ (s.filter (fun d => decide (d < 0))).length ∨ 0 ∈ s) : x.reshapeStrict s = .error .backend := by
  unfold Tensor.reshapeStrict
  split
  · rfl
  · exact reshape_neg_error x s hneg h

/-! ### reductions one axis at a time -/

theorem Tensor.build_error {β : Type u} {shape : List Nat} {f : List Nat → Py β} {e : PyErr}
    (h : Tensor.build shape f = .error e) : ∃ i, inBounds i shape = true ∧ f i = .error e := by
  unfold Tensor.build at h
  split at h
  · cases h
  · rename_i e' he
    cases h
    have aux : ∀ l : List (List Nat), mapE f l = .error e → ∃ i ∈ l, f i = .error e := by
      intro l
      induction l with
      | nil => intro h; cases h
      | cons a l ih =>
        intro h
        unfold mapE at h
        split at h
        · rename_i e1 h1; cases h; exact ⟨a, by simp, h1⟩
        · split at h
          · rename_i e1 h1; cases h
            obtain ⟨i, hi, h2⟩ := ih h1
            exact ⟨i, by simp [hi], h2⟩
          · cases h
    obtain ⟨i, hi, h1⟩ := aux _ he
    exact ⟨i, mem_indices.1 hi, h1⟩

theorem reduce_axes_error {len : AxisMap} {K D : List Axis} (hn : (K ++ D).Nodup) {t : Tensor α}
    (ht : t.shape = (K ++ D).map len) (op : List α → Py α) {e : PyErr}
    (h : t.reduceAxes op ((List.range (K.length + D.length)).drop K.length) = .error e) :
    ∃ env vs, InRange len K env ∧ (loops len D env).map (fun e => t.at? ((K ++ D).map e)) = vs.map some ∧
      op vs = .error e := by
  have hndim : t.ndim = K.length + D.length := by simp [Tensor.ndim, ht]
  have hKn : K.Nodup := (List.nodup_append.1 hn).1
  unfold Tensor.reduceAxes at h
  rw [if_pos ⟨List.nodup_range.sublist (List.drop_sublist _ _), by
    intro a ha
    rw [hndim]
    simpa using List.mem_of_mem_drop ha⟩] at h
  simp only at h
  obtain ⟨i, hi, h1⟩ := Tensor.build_error h
  rw [hndim, keep_trailing, red_trailing] at h1
  rw [hndim, keep_trailing, map_nth_range (by rw [ht]; simp), ht, List.map_append, List.take_left' (by simp)] at hi
  obtain ⟨env, henv, rfl⟩ := exists_env_axes hKn hi
  have hs2 : ((List.range (K.length + D.length)).drop K.length).map (nth t.shape) = D.map len := by
    have h : K.length + D.length = t.shape.length := by rw [ht]; simp
    rw [h, map_nth_drop, ht, List.map_append, List.drop_left' (by simp)]
  obtain ⟨vs, h2, h3⟩ := reduce_values hn ht henv
  rw [hndim] at h3
  rw [hs2, h3] at h1
  exact ⟨env, vs, henv, h2, h1⟩

theorem loops_append (len : AxisMap) (D D' : List Axis) (env : AxisMap) :
    loops len (D ++ D') env = (loops len D env).flatMap (loops len D') := by
  induction D generalizing env with
  | nil => simp [loops]
  | cons a D ih =>
    simp only [List.cons_append, loops, List.flatMap_assoc, ih]

theorem loops_length (len : AxisMap) (D : List Axis) (env : AxisMap) : (loops len D env).length = groupSize len D := by
  induction D generalizing env with
  | nil => rfl
  | cons a D ih => simp [loops, List.length_flatMap, ih, groupSize]

theorem mapE_ok_iff {β γ : Type u} {f : β → Py γ} {l : List β} {r : List γ} :
    mapE f l = .ok r ↔ l.map f = r.map .ok := by
  induction l generalizing r with
  | nil => cases r <;> simp [mapE]
  | cons a l ih =>
    unfold mapE
    rcases h : f a with e | b
    · cases r <;> simp [h]
    · simp only
      rcases h2 : mapE f l with e | bs
      · simp only [reduceCtorEq, List.map_cons, h, false_iff]
        cases r with
        | nil => simp
        | cons c r =>
          simp only [List.map_cons, List.cons.injEq, not_and]
          intro _ h3
          rw [ih.2 h3] at h2
          cases h2
      · cases r with
        | nil => simp
        | cons c r =>
          simp only [Except.ok.injEq, List.cons.injEq, List.map_cons, h]
          have := ih (r := r)
          rw [h2] at this
          simp only [Except.ok.injEq] at this
          rw [this]

/-- values of a list of positions, all present -/
theorem exists_values {β : Type u} {γ : Type v} {f : γ → Option β} {l : List γ} (h : ∀ c ∈ l, ∃ v, f c = some v) :
    ∃ vs : List β, l.map f = vs.map some := by
  induction l with
  | nil => exact ⟨[], rfl⟩
  | cons c l ih =>
    obtain ⟨v, hv⟩ := h c (by simp)
    obtain ⟨vs, hvs⟩ := ih (fun c hc => h c (by simp [hc]))
    exact ⟨v :: vs, by simp [hv, hvs]⟩

theorem some_map_inj {β : Type u} {vs ws : List β} (h : vs.map some = ws.map some) : vs = ws :=
  List.map_injective_iff.2 (Option.some_injective _) h

/-- Collect the values of nested loops. -/
theorem values_nested {len : AxisMap} {D D' : List Axis} {env : AxisMap} {f : AxisMap → Option α} {vs : List α}
    (h : (loops len (D ++ D') env).map f = vs.map some) :
    ∃ vss : List (List α), (loops len D env).map (fun e => (loops len D' e).map f) = vss.map (List.map some) ∧
      vs = vss.flatten ∧ ∀ ws ∈ vss, ws.length = groupSize len D' := by
  rw [loops_append] at h
  have aux : ∀ (es : List AxisMap) (vs : List α), (es.flatMap (loops len D')).map f = vs.map some →
      ∃ vss : List (List α), es.map (fun e => (loops len D' e).map f) = vss.map (List.map some) ∧ vs = vss.flatten ∧
        ∀ ws ∈ vss, ws.length = groupSize len D' := by
    intro es
    induction es with
    | nil =>
      intro vs h
      exact ⟨[], rfl, by simpa using h, by simp⟩
    | cons e es ih =>
      intro vs h
      rw [List.flatMap_cons, List.map_append] at h
      obtain ⟨vs1, vs2, rfl, h1, h2⟩ := List.map_eq_append_iff.1 h.symm
      obtain ⟨vss, h3, h4, h5⟩ := ih vs2 h2.symm
      refine ⟨vs1 :: vss, by simp [h1, h3], by simp [h4], ?_⟩
      intro ws hws
      rcases List.mem_cons.1 hws with rfl | hws
      · have := congrArg List.length h1
        simpa [loops_length] using this
      · exact h5 ws hws
  exact aux _ _ h

/-- Two stages of reduction are one. -/
theorem reduce_two {op : List α → Py α} (hop : FoldLaw op) {len : AxisMap} {K D D' : List Axis}
    (hn : (K ++ D ++ D').Nodup) {t : Tensor α} (ht : t.shape = (K ++ D ++ D').map len) :
    (t.reduceAxes op ((List.range ((K ++ D).length + D'.length)).drop (K ++ D).length)).bind
      (fun z => z.reduceAxes op ((List.range (K.length + D.length)).drop K.length)) =
    t.reduceAxes op ((List.range (K.length + (D ++ D').length)).drop K.length) := by
  have hn' : (K ++ D).Nodup := (List.nodup_append.1 hn).1
  have hnD : D.Nodup := (List.nodup_append.1 hn').2.1
  have hn2 : (K ++ (D ++ D')).Nodup := by rw [← List.append_assoc]; exact hn
  have ht2 : t.shape = (K ++ (D ++ D')).map len := by rw [← List.append_assoc]; exact ht
  have hKD : ∀ a ∈ K, a ∉ D := fun a ha hd => (List.nodup_append.1 hn').2.2 a ha a hd rfl
  have hKD' : ∀ a ∈ K ++ D, a ∉ D' := fun a ha hd => (List.nodup_append.1 hn).2.2 a ha a hd rfl
  have hnD' : D'.Nodup := (List.nodup_append.1 hn).2.1
  -- the success case
  have ok_iff : ∀ w, (t.reduceAxes op ((List.range ((K ++ D).length + D'.length)).drop (K ++ D).length)).bind
      (fun z => z.reduceAxes op ((List.range (K.length + D.length)).drop K.length)) = .ok w →
      t.reduceAxes op ((List.range (K.length + (D ++ D').length)).drop K.length) = .ok w := by
    intro w h
    obtain ⟨z, hz, hw⟩ := bind_ok h
    obtain ⟨hzs, hzv⟩ := (reduce_axes hn ht op).1 hz
    obtain ⟨hws, hwv⟩ := (reduce_axes hn' hzs op).1 hw
    refine (reduce_axes hn2 ht2 op).2 ⟨hws, fun env henv => ?_⟩
    obtain ⟨us, v, h1, h2, h3⟩ := hwv env henv
    have hbound : ∀ e ∈ loops len (D ++ D') env, ∃ v, t.at? ((K ++ (D ++ D')).map e) = some v := by
      intro e he
      obtain ⟨he1, he2⟩ := mem_loops he
      apply t.at?_isSome
      rw [ht2, inBounds_map]
      intro a ha
      rcases List.mem_append.1 ha with ha | ha
      · rw [he1 a (by
          intro h'
          rcases List.mem_append.1 h' with h' | h'
          · exact hKD a ha h'
          · exact hKD' a (List.mem_append_left _ ha) h')]
        exact henv a ha
      · exact he2 (List.nodup_append.1 hn2).2.1 a ha
    obtain ⟨vs, hvs⟩ := exists_values hbound
    obtain ⟨vss, h4, h5, h6⟩ := values_nested hvs
    refine ⟨vs, v, hvs, ?_, h3⟩
    rw [h5, ← hop.stages vss _ h6]
    have : mapE op vss = .ok us := by
      rw [mapE_ok_iff]
      -- compare entry by entry
      have hlen : vss.length = us.length := by
        have e1 := congrArg List.length h4
        have e2 := congrArg List.length h1
        simp only [List.length_map] at e1 e2
        omega
      apply List.ext_getElem (by simpa using hlen)
      intro i hi1 hi2
      simp only [List.length_map] at hi1 hi2
      have hie : i < (loops len D env).length := by
        have e1 := congrArg List.length h4
        simp only [List.length_map] at e1
        omega
      have e4 : (loops len D' (loops len D env)[i]).map (fun e => t.at? ((K ++ (D ++ D')).map e)) = vss[i].map some := by
        have := congrArg (fun l => l[i]?) h4
        simpa [hie, hi1] using this
      have e1 : z.at? ((K ++ D).map (loops len D env)[i]) = some us[i] := by
        have := congrArg (fun l => l[i]?) h1
        simp only [List.getElem?_map, List.getElem?_eq_getElem hie, List.getElem?_eq_getElem hi2, Option.map_some,
          Option.some.injEq] at this
        exact this
      obtain ⟨he1, he2⟩ := mem_loops (List.getElem_mem hie)
      have her : InRange len (K ++ D) (loops len D env)[i] := by
        intro a ha
        rcases List.mem_append.1 ha with ha | ha
        · rw [he1 a (hKD a ha)]; exact henv a ha
        · exact he2 hnD a ha
      obtain ⟨ws, v', h7, h8, h9⟩ := hzv _ her
      have : ws = vss[i] := by
        apply some_map_inj
        rw [← h7, ← e4]
        simp only [List.append_assoc]
      rw [e1] at h9
      simp only [Option.some.injEq] at h9
      simp only [List.getElem_map]
      rw [← this, h8, h9]
    rw [this]
    exact h2
  rcases h1 : (t.reduceAxes op ((List.range ((K ++ D).length + D'.length)).drop (K ++ D).length)).bind
      (fun z => z.reduceAxes op ((List.range (K.length + D.length)).drop K.length)) with e | w
  · -- failures
    rcases h2 : t.reduceAxes op ((List.range (K.length + (D ++ D').length)).drop K.length) with e' | w
    · have he' : e' = .backend := by
        obtain ⟨env, vs, _, _, h3⟩ := reduce_axes_error hn2 ht2 op h2
        exact hop.error _ _ h3
      have he : e = .backend := by
        rcases h3 : t.reduceAxes op ((List.range ((K ++ D).length + D'.length)).drop (K ++ D).length) with e1 | z
        · obtain ⟨env, vs, _, _, h4⟩ := reduce_axes_error hn ht op h3
          rw [h3] at h1
          cases h1
          exact hop.error _ _ h4
        · rw [h3] at h1
          obtain ⟨env, vs, _, _, h4⟩ := reduce_axes_error hn' ((reduce_axes hn ht op).1 h3).1 op h1
          exact hop.error _ _ h4
      rw [he, he']
    · exfalso
      obtain ⟨hws, hwv⟩ := (reduce_axes hn2 ht2 op).1 h2
      -- values of every entry and their stages
      have hst : ∀ env, InRange len K env → ∃ vss us v,
          (loops len D env).map (fun e => (loops len D' e).map (fun e => t.at? ((K ++ (D ++ D')).map e))) =
            vss.map (List.map some) ∧ mapE op vss = .ok us ∧ op us = .ok v := by
        intro env henv
        obtain ⟨vs, v, h3, h4, h5⟩ := hwv env henv
        obtain ⟨vss, h6, h7, h8⟩ := values_nested h3
        rw [h7, ← hop.stages vss _ h8] at h4
        obtain ⟨us, h9, h10⟩ := bind_ok h4
        exact ⟨vss, us, v, h6, h9, h10⟩
      rcases h3 : t.reduceAxes op ((List.range ((K ++ D).length + D'.length)).drop (K ++ D).length) with e1 | z
      · obtain ⟨env, vs, henv, h4, h5⟩ := reduce_axes_error hn ht op h3
        obtain ⟨vss, us, v, h6, h7, h8⟩ := hst env (fun a ha => henv a (List.mem_append_left _ ha))
        -- the failing entry is one of the loops
        have hmem : D.map env ∈ (loops len D env).map (fun e => D.map e) := by
          rw [loops_indices hnD, mem_indices, inBounds_map]
          exact fun a ha => henv a (List.mem_append_right _ ha)
        obtain ⟨e', he', hee⟩ := List.mem_map.1 hmem
        have hagree : ∀ a, e' a = env a := by
          intro a
          by_cases had : a ∈ D
          · exact List.map_inj_left.1 hee a had
          · exact (mem_loops he').1 a had
        have : e' = env := funext hagree
        subst this
        obtain ⟨i, hi, hie⟩ := List.getElem_of_mem he'
        have e4 : ∃ h : i < vss.length, (loops len D' e').map (fun e => t.at? ((K ++ (D ++ D')).map e)) = vss[i].map some := by
          have hl := congrArg List.length h6
          simp only [List.length_map] at hl
          refine ⟨by omega, ?_⟩
          have := congrArg (fun l => l[i]?) h6
          have hiv : i < vss.length := by omega
          simpa [hi, hiv, hie] using this
        obtain ⟨hiv, e4⟩ := e4
        have hvv : vs = vss[i] := by
          apply some_map_inj
          rw [← h4, ← e4]
          simp only [List.append_assoc]
        rw [mapE_ok_iff] at h7
        have := congrArg (fun l => l[i]?) h7
        simp only [List.getElem?_map, List.getElem?_eq_getElem hiv, Option.map_some, ← hvv, h5] at this
        cases hu : us[i]? with
        | none => rw [hu] at this; cases this
        | some q => rw [hu] at this; cases this
      · rw [h3] at h1
        obtain ⟨hzs, hzv⟩ := (reduce_axes hn ht op).1 h3
        obtain ⟨env, us', henv, h4, h5⟩ := reduce_axes_error hn' hzs op h1
        obtain ⟨vss, us, v, h6, h7, h8⟩ := hst env henv
        have : us' = us := by
          rw [mapE_ok_iff] at h7
          have hlen1 := congrArg List.length h7
          have hlen2 := congrArg List.length h4
          have hlen3 := congrArg List.length h6
          simp only [List.length_map] at hlen1 hlen2 hlen3
          apply List.ext_getElem (by omega)
          intro i hi1 hi2
          have hie : i < (loops len D env).length := by omega
          have hiv : i < vss.length := by omega
          have e1 : z.at? ((K ++ D).map (loops len D env)[i]) = some us'[i] := by
            have := congrArg (fun l => l[i]?) h4
            simp only [List.getElem?_map, List.getElem?_eq_getElem hie, List.getElem?_eq_getElem hi1, Option.map_some,
              Option.some.injEq] at this
            exact this
          have e4 : (loops len D' (loops len D env)[i]).map (fun e => t.at? ((K ++ (D ++ D')).map e)) =
              vss[i].map some := by
            have := congrArg (fun l => l[i]?) h6
            simpa [hie, hiv] using this
          have e7 : op vss[i] = .ok us[i] := by
            have := congrArg (fun l => l[i]?) h7
            simpa [hiv, hi2] using this
          obtain ⟨he1, he2⟩ := mem_loops (List.getElem_mem hie)
          have her : InRange len (K ++ D) (loops len D env)[i] := by
            intro a ha
            rcases List.mem_append.1 ha with ha | ha
            · rw [he1 a (hKD a ha)]; exact henv a ha
            · exact he2 hnD a ha
          obtain ⟨ws, v', h9, h10, h11⟩ := hzv _ her
          have hww : ws = vss[i] := by
            apply some_map_inj
            rw [← h9, ← e4]
            simp only [List.append_assoc]
          rw [e1] at h11
          simp only [Option.some.injEq] at h11
          rw [hww, e7] at h10
          cases h10
          exact h11
        rw [this, h8] at h5
        cases h5
  · rw [ok_iff w h1]

theorem sortDesc_trailing (n k : Nat) : sortDesc ((List.range n).drop k) = ((List.range n).drop k).reverse := by
  unfold sortDesc
  rw [List.Pairwise.insertionSort_eq]
  have : (List.range n).Pairwise (fun a b => a ≤ b) :=
    (List.pairwise_lt_range (n := n)).imp (fun h => Nat.le_of_lt h)
  exact this.sublist (List.drop_sublist _ _)

/-- names for the dimensions of a tensor -/
def dimAxes (n : Nat) : List Axis := (List.range n).map (fun i => Axis.anon 0 i 0)
def dimLens (s : List Nat) : AxisMap
  | .anon _ i _ => nth s i
  | .str _ => 0

theorem dimAxes_nodup (n : Nat) : (dimAxes n).Nodup := by
  apply List.nodup_range.map
  intro i j h
  simpa using h

theorem dimAxes_lens (s : List Nat) : (dimAxes s.length).map (dimLens s) = s := by
  unfold dimAxes
  rw [List.map_map]
  have : (dimLens s ∘ fun i => Axis.anon 0 i 0) = nth s := rfl
  rw [this, map_nth_range (Nat.le_refl _), List.take_length]

/-- Reducing the trailing axes one at a time, last first, is reducing them at once. -/
theorem reduceIter_eq {op : List α → Py α} (hop : FoldLaw op) (m : Nat) (t : Tensor α) (k : Nat)
    (hk : t.ndim = k + (m + 1)) :
    reduceIter op t ((List.range t.ndim).drop k).reverse = t.reduceAxes op ((List.range t.ndim).drop k) := by
  induction m generalizing t with
  | zero =>
    have : (List.range t.ndim).drop k = [k] := by
      rw [hk, List.range_succ, List.drop_left' (by simp)]
    rw [this]
    simp only [List.reverse_singleton, reduceIter]
    rcases t.reduceAxes op [k] with e | y <;> rfl
  | succ m ih =>
    have hsplit : (List.range t.ndim).drop k = (List.range (k + (m + 1))).drop k ++ [k + (m + 1)] := by
      rw [hk, show k + (m + 1 + 1) = (k + (m + 1)) + 1 by omega, List.range_succ, List.drop_append_of_le_length (by simp)]
    have hlast : [k + (m + 1)] = (List.range t.ndim).drop (k + (m + 1)) := by
      rw [hk, show k + (m + 1 + 1) = (k + (m + 1)) + 1 by omega, List.range_succ, List.drop_left' (by simp)]
    have hrev : reduceIter op t ((List.range t.ndim).drop k).reverse =
        (t.reduceAxes op [k + (m + 1)]).bind (fun z => reduceIter op z ((List.range (k + (m + 1))).drop k).reverse) := by
      rw [hsplit, List.reverse_append, List.reverse_singleton, List.singleton_append]
      simp only [reduceIter]
      rcases t.reduceAxes op [k + (m + 1)] with e | y <;> rfl
    rw [hrev]
    -- names for the axes
    let A := dimAxes t.ndim
    have hA : A.length = t.ndim := by simp [A, dimAxes]
    let K := A.take k
    let D := (A.drop k).take (m + 1)
    let D' := A.drop (k + (m + 1))
    have hKDD : K ++ D ++ D' = A := by
      simp only [K, D, D']
      rw [List.append_assoc, ← List.drop_drop, List.take_append_drop, List.take_append_drop]
    have hKl : K.length = k := by simp [K, hA, hk]
    have hDl : D.length = m + 1 := by simp [D, hA, hk]
    have hDl' : D'.length = 1 := by simp [D', hA, hk]; omega
    have key := reduce_two hop (K := K) (D := D) (D' := D') (len := dimLens t.shape)
      (by rw [hKDD]; exact dimAxes_nodup _) (t := t) (by rw [hKDD]; exact (dimAxes_lens t.shape).symm)
    simp only [List.length_append, hKl, hDl, hDl'] at key
    rw [show k + (m + 1) + 1 = t.ndim by omega, show k + (m + 1 + 1) = t.ndim by omega, ← hlast] at key
    rw [← key]
    rcases hz : t.reduceAxes op [k + (m + 1)] with e | z
    · rfl
    · simp only [Except.bind]
      have hzn : z.ndim = k + (m + 1) := by
        have hz' := hz
        rw [hlast] at hz'
        have h1 := (reduce_axes (K := K ++ D) (D := D') (len := dimLens t.shape) (t := t)
          (by rw [hKDD]; exact dimAxes_nodup _) (by rw [hKDD]; exact (dimAxes_lens t.shape).symm) op (z := z)).1 (by
            simp only [List.length_append, hKl, hDl, hDl']
            rw [show k + (m + 1) + 1 = t.ndim by omega]
            exact hz')
        rw [Tensor.ndim, h1.1]
        simp [hKl, hDl]
      have := ih z hzn
      rw [hzn] at this
      exact this

theorem reduceIter_trailing {op : List α → Py α} (hop : FoldLaw op) (t : Tensor α) {k : Nat} (hk : k < t.ndim) :
    reduceIter op t (sortDesc ((List.range t.ndim).drop k)) = t.reduceAxes op ((List.range t.ndim).drop k) := by
  rw [sortDesc_trailing]
  exact reduceIter_eq hop (t.ndim - k - 1) t k (by omega)

/-! ### lawful backends -/

theorem numpy_lawful (E : ElemOps α) (fl : Bool) : MoveLawful (numpyBackend E fl) where
  reshape := reshape_nonneg
  reshape_neg := reshape_neg_error
  transpose _ _ := rfl
  addAxes x _ h := addAxesTile_eq x h
  stack _ := rfl
  isFloat _ _ := rfl

theorem torch_lawful (E : ElemOps α) (fl : Bool) : MoveLawful (torchBackend E fl) where
  reshape := reshapeStrict_nonneg
  reshape_neg := reshapeStrict_neg
  transpose _ _ := rfl
  addAxes x _ h := addAxesExpand_eq x h
  stack _ := rfl
  isFloat _ _ := rfl

theorem oneflow_lawful (E : ElemOps α) (fl : Bool) : MoveLawful (oneflowBackend E fl) where
  reshape := reshapeStrict_nonneg
  reshape_neg := reshapeStrict_neg
  transpose _ _ := rfl
  addAxes x _ h := addAxesExpand_eq x h
  stack _ := rfl
  isFloat _ _ := rfl

theorem tinygrad_lawful (E : ElemOps α) (fl : Bool) : MoveLawful (tinygradBackend E fl) where
  reshape := reshapeStrict_nonneg
  reshape_neg := reshapeStrict_neg
  transpose _ _ := rfl
  addAxes x _ h := addAxesTile_eq x h
  stack _ := rfl
  isFloat _ _ := rfl

theorem paddle_lawful (E : ElemOps α) (fl : Bool) : MoveLawful (paddleBackend E fl) where
  reshape := reshapeStrict_nonneg
  reshape_neg := reshapeStrict_neg
  transpose _ _ := rfl
  addAxes x _ h := addAxesExpand_eq x h
  stack _ := rfl
  isFloat _ _ := rfl

theorem arrayApi_lawful (E : ElemOps α) : MoveLawful (arrayApiBackend E) where
  reshape := reshapeStrict_nonneg
  reshape_neg := reshapeStrict_neg
  transpose _ _ := rfl
  addAxes x ms h := broadcastAxes_eq x ms.length h
  stack _ := rfl
  isFloat _ _ := rfl

theorem Modelled.lawful {E : ElemOps α} {b : Backend α} (h : Modelled E b) : MoveLawful b := by
  cases h with
  | numpy => exact numpy_lawful _ _
  | torch => exact torch_lawful _ _
  | oneflow => exact oneflow_lawful _ _
  | paddle => exact paddle_lawful _ _
  | tinygrad => exact tinygrad_lawful _ _
  | arrayApi => exact arrayApi_lawful _

theorem Computes.modelled {E : ElemOps α} {o : Str} {b : Backend α} (h : Computes E o b) : Modelled E b := by
  cases h <;> constructor

theorem reduceAxes_shape {op : List α → Py α} {x y : Tensor α} {axes : List Nat} (h : x.reduceAxes op axes = .ok y) :
    y.shape = ((List.range x.ndim).filter (fun k => decide (k ∉ axes))).map (nth x.shape) := by
  unfold Tensor.reduceAxes at h
  split at h
  · exact (Tensor.build_ok h).1
  · cases h

theorem withShape_data (y : Tensor α) (s : List Nat) (h : s.prod = y.shape.prod) (w : y.data.length = s.prod) :
    y.withShape s = .ok ⟨s, y.data, w⟩ := by
  unfold Tensor.withShape
  rw [dif_pos h]

theorem paddle_reduce (E : ElemOps α) (fl : Bool) (o : Str) : ReduceLawful E (paddleBackend E fl) o := by
  intro x k hk
  simp only [paddleBackend, paddleReduce]
  rcases h : x.reduceAxes (E.op o) ((List.range x.ndim).drop k) with e | y
  · simp
  · have hs := reduceAxes_shape h
    have hk' : x.ndim = k + (x.ndim - k) := by omega
    rw [hk', keep_trailing] at hs
    simp only
    have hlen : ((List.range x.ndim).drop k).length = x.ndim - k := by simp
    rw [hlen]
    by_cases h0 : k = 0
    · subst h0
      rw [if_pos (by omega)]
      simp only [List.range_zero, List.map_nil] at hs
      rw [if_pos hs]
      obtain ⟨ys, yd, yw⟩ := y
      simp only at hs
      subst hs
      rw [withShape_data _ _ (by simp) (by simpa using yw)]
      simp only [Tensor.squeeze0]
      rw [withShape_data _ _ (by simp) (by simpa using yw)]
    · rw [if_neg (by omega), if_neg]
      rw [hs]
      simp [h0]

theorem Computes.reduce {E : ElemOps α} {o : Str} (ho : o ∈ builtins) {b : Backend α} (h : Computes E o b) :
    ReduceLawful E b o := by
  cases h with
  | numpy => exact fun _ _ _ => rfl
  | paddle => exact paddle_reduce _ _ _
  | arrayApi => exact fun _ _ _ => rfl
  | torch fl h =>
    intro x k hk
    simp only [torchBackend]
    split
    · rfl
    · rename_i h1
      have h2 : o ∈ ["any".toList, "all".toList, "prod".toList] := by
        simp only [builtins, List.mem_cons, List.not_mem_nil, or_false] at ho h1 ⊢
        tauto
      rw [if_pos h2]
      exact reduceIter_trailing (h.resolve_left h1) x hk
  | oneflow fl h =>
    intro x k hk
    simp only [oneflowBackend]
    rw [if_pos (show o ∈ reductionNames from ho)]
    exact reduceIter_trailing h x hk
  | tinygrad fl h => exact fun x k hk => reduceIter_trailing h x hk

theorem arrayApi_eq [PyUnicode] (E : ElemOps α) (so : SetOrder) (t : Input α) (pattern : Str) (red : Reduction α)
    (kw : List (Str × Size)) :
    arrayApiReduce E so t pattern red kw = reduce (arrayApiBackend E) so t pattern red kw := by
  have h1 : arrayApiInput t = resolveInput (arrayApiBackend E) t := by
    rcases t with x | (_ | ⟨x, xs⟩) <;> rfl
  have h2 : (fun x axes => reduceAxesE (arrayApiBackend E) x red axes) = arrayApiReduceAxes E red := by
    funext x axes
    cases red with
    | callable f => rfl
    | name s => simp [reduceAxesE, arrayApiReduceAxes, arrayApiBackend]
  unfold arrayApiReduce reduce
  rw [h1]
  rcases resolveInput (arrayApiBackend E) t with e | x
  · rfl
  · simp only
    rcases prepareRecipe so pattern red.kind (kw.map Prod.fst) x.ndim with e | r
    · rfl
    · simp only [applyArrayApi, applyRecipe, applyCooked]
      rw [h2]
      rfl

/-! ### negative lengths of new axes -/

theorem setE_ok {κ : Type} {l l' : List κ} {k : Nat} {v : κ} (h : setE l k v = .ok l') :
    k < l.length ∧ l' = l.set k v := by
  unfold setE at h
  split at h
  · rename_i hk; cases h; exact ⟨hk, rfl⟩
  · cases h

theorem addAxesLoop_neg {add : Tensor α → Nat → Py (Tensor α)} {added : List (Nat × Int)}
    (hnd : (added.map Prod.fst).Nodup) {t t' : Tensor α} {reps reps' : List Int}
    (h : addAxesLoop add t reps added = .ok (t', reps')) :
    (∀ p ∈ added, p.2 ∈ reps') ∧ (∀ i, i ∉ added.map Prod.fst → reps'[i]? = reps[i]?) := by
  induction added generalizing t reps with
  | nil =>
    simp only [addAxesLoop, Except.ok.injEq, Prod.mk.injEq] at h
    exact ⟨by simp, fun i _ => by rw [h.2]⟩
  | cons p added ih =>
    obtain ⟨pos, l⟩ := p
    simp only [addAxesLoop] at h
    split at h
    · cases h
    · split at h
      · cases h
      · rename_i r hr
        obtain ⟨hlt, rfl⟩ := setE_ok hr
        simp only [List.map_cons, List.nodup_cons] at hnd
        obtain ⟨h1, h2⟩ := ih hnd.2 h
        refine ⟨?_, ?_⟩
        · intro q hq
          rcases List.mem_cons.1 hq with rfl | hq
          · have := h2 pos hnd.1
            rw [List.getElem?_set_self hlt] at this
            exact List.mem_of_getElem? this
          · exact h1 q hq
        · intro i hi
          simp only [List.map_cons, List.mem_cons, not_or] at hi
          rw [h2 i hi.2, List.getElem?_set_ne (fun h => hi.1 h.symm)]

theorem tile_strict {x : Tensor α} {n : Nat} {added : List (Nat × Int)} (hnd : (added.map Prod.fst).Nodup)
    (hneg : ∃ p ∈ added, p.2 < 0) : ∃ e, addAxesTile x n added = .error e := by
  unfold addAxesTile
  split
  · exact ⟨_, rfl⟩
  · rename_i t reps h
    obtain ⟨p, hp, hlt⟩ := hneg
    have := (addAxesLoop_neg hnd h).1 p hp
    unfold Tensor.tile
    rw [if_neg]
    · exact ⟨_, rfl⟩
    · rintro ⟨_, h2⟩
      have := h2 _ this
      omega

theorem numpy_strict (E : ElemOps α) (fl : Bool) : StrictNew (numpyBackend E fl) :=
  fun _ _ _ hnd hneg => tile_strict hnd hneg

theorem tinygrad_strict (E : ElemOps α) (fl : Bool) : StrictNew (tinygradBackend E fl) :=
  fun _ _ _ hnd hneg => tile_strict hnd hneg

theorem setAll_neg {added : List (Nat × Int)} (hnd : (added.map Prod.fst).Nodup) {s s' : List Int}
    (h : setAll s added = .ok s') :
    (∀ p ∈ added, p.2 ∈ s') ∧ (∀ i, i ∉ added.map Prod.fst → s'[i]? = s[i]?) := by
  induction added generalizing s with
  | nil =>
    simp only [setAll, Except.ok.injEq] at h
    exact ⟨by simp, fun i _ => by rw [h]⟩
  | cons p added ih =>
    obtain ⟨pos, l⟩ := p
    simp only [setAll] at h
    split at h
    · cases h
    · rename_i r hr
      obtain ⟨hlt, rfl⟩ := setE_ok hr
      simp only [List.map_cons, List.nodup_cons] at hnd
      obtain ⟨h1, h2⟩ := ih hnd.2 h
      refine ⟨?_, ?_⟩
      · intro q hq
        rcases List.mem_cons.1 hq with rfl | hq
        · have := h2 pos hnd.1
          rw [List.getElem?_set_self hlt] at this
          exact List.mem_of_getElem? this
        · exact h1 q hq
      · intro i hi
        simp only [List.map_cons, List.mem_cons, not_or] at hi
        rw [h2 i hi.2, List.getElem?_set_ne (fun h => hi.1 h.symm)]

theorem arrayApi_strict (E : ElemOps α) : StrictNew (arrayApiBackend E) := by
  intro x n added hnd hneg
  obtain ⟨p, hp, hlt⟩ := hneg
  show ∃ e, broadcastAxes x n added = .error e
  unfold broadcastAxes
  rcases expandAll x added with e | y
  · exact ⟨e, rfl⟩
  simp only [Except.bind]
  rcases hs : setAll (y.shape.map Int.ofNat) added with e | s
  · exact ⟨e, rfl⟩
  have := (setAll_neg hnd hs).1 p hp
  simp only
  unfold Tensor.broadcastTo
  rw [if_neg]
  · exact ⟨_, rfl⟩
  · rintro ⟨h1, h2⟩
    obtain ⟨i, hi, hpi⟩ := List.getElem_of_mem this
    have hlen : i < (y.shape.zip s).length := by
      simp only [List.length_zip]
      unfold Tensor.ndim at h1
      omega
    have h3 := h2 _ (List.getElem_mem hlen)
    simp only [List.getElem_zip] at h3
    omega

theorem RefusesNegative.strict {E : ElemOps α} {b : Backend α} (h : RefusesNegative E b) : StrictNew b := by
  cases h with
  | numpy => exact numpy_strict _ _
  | tinygrad => exact tinygrad_strict _ _
  | arrayApi => exact arrayApi_strict _

end Einops
