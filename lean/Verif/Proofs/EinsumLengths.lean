import Verif.EinMixSizes

/-!
# `einsum` and lengths that do not agree
-/

namespace Einops

universe u
variable {α : Type u}

/-- reading a contraction that was written with letters -/
theorem parse_write {terms : List (List ESym)} {out : List ESym} (hne : terms ≠ [])
    (hlet : ∀ t ∈ out :: terms, ∀ w ∈ symNames t, ∃ c, c.isAlpha = true ∧ w = [c]) :
    splitArrow (writeEinsum (fun w => w.headD 'a') terms out) =
      .ok (List.intercalate [','] (terms.map (writeSyms (fun w => w.headD 'a'))), writeSyms (fun w => w.headD 'a') out) ∧
    readTerms (splitOn [','] (List.intercalate [','] (terms.map (writeSyms (fun w => w.headD 'a'))))) = some terms ∧
    readTerm (writeSyms (fun w => w.headD 'a') out) = some out := by
  have hne' : terms.map (writeSyms (fun w => w.headD 'a')) ≠ [] := by simpa using hne
  have hno : ∀ p ∈ terms.map (writeSyms (fun w => w.headD 'a')), ∀ c, c.isAlpha = false → c ≠ '.' → c ∉ p := by
    intro p hp c h1 h2
    obtain ⟨t, ht, rfl⟩ := List.mem_map.1 hp
    exact writeSyms_no (hlet t (by simp [ht])) h1 h2
  have harrow : ¬ arrow <:+: List.intercalate [','] (terms.map (writeSyms (fun w => w.headD 'a'))) := by
    intro hi
    rcases mem_intercalate (hi.subset (show '-' ∈ arrow by simp [arrow])) with h | ⟨p, hp, h⟩
    · cases h
    · exact hno p hp '-' (by decide) (by decide) h
  have harrow' : ¬ arrow <:+: writeSyms (fun w => w.headD 'a') out := by
    intro hi
    exact writeSyms_no (hlet out (by simp)) (c := '-') (by decide) (by decide) (hi.subset (show '-' ∈ arrow by simp [arrow]))
  refine ⟨splitArrow_iff.2 ⟨rfl, harrow, harrow'⟩, ?_, readTerm_write (hlet out (by simp))⟩
  rw [splitOn_comma_join hne' (fun p hp => hno p hp ',' (by decide) (by decide))]
  exact readTerms_write (fun t ht => hlet t (by simp [ht]))

section
variable [CommSemiring α]

theorem refEinsum_strict : EinsumStrict (refEinsum (α := α)) := by
  intro terms out xs y hne hlet _ h
  obtain ⟨h1, h2, h3⟩ := parse_write hne hlet
  unfold refEinsum at h
  simp only [h1, h2, h3] at h
  split at h
  · rename_i hc
    refine ⟨axisLen (terms.map (symAxes (ellRank terms xs))) xs, ellRank terms xs, ?_⟩
    have : List.Forall₂ (fun A (x : Tensor α) => x.shape = A.map (axisLen (terms.map (symAxes (ellRank terms xs))) xs))
        (terms.map (symAxes (ellRank terms xs))) xs :=
      List.forall₂_iff_zip.2 ⟨by simpa using hc.1, fun {_ _} hp => hc.2.1 _ hp⟩
    exact List.forall₂_map_left_iff.1 this
  · cases h

theorem stretchAll_ok {len : AxisMap} {As : List (List Axis)} {xs ys : List (Tensor α)} (h : stretchAll len As xs = .ok ys) :
    List.Forall₂ (fun A (x : Tensor α) => x.ndim = A.length ∧ ∀ p ∈ A.zip x.shape, p.2 = 1 ∨ p.2 = len p.1) As xs := by
  induction As generalizing xs ys with
  | nil =>
    cases xs with
    | nil => exact .nil
    | cons x xs => simp [stretchAll] at h
  | cons A As ih =>
    cases xs with
    | nil => simp [stretchAll] at h
    | cons x xs =>
      simp only [stretchAll] at h
      split at h
      · rename_i y ys' hy hys
        refine .cons ?_ (ih hys)
        unfold Tensor.stretch at hy
        split at hy
        · rename_i hc
          refine ⟨by simpa using hc.1, fun p hp => ?_⟩
          have : (p.2, len p.1) ∈ x.shape.zip (A.map len) := by
            obtain ⟨i, hi, rfl⟩ := List.mem_iff_getElem.1 hp
            refine List.mem_iff_getElem.2 ⟨i, by simpa [and_comm] using hi, by simp⟩
          exact hc.2 _ this
        · cases hy
      · cases h

theorem castEinsum_casts : EinsumCasts (castEinsum (α := α)) := by
  intro terms out xs y hne hlet _ h
  obtain ⟨h1, h2, h3⟩ := parse_write hne hlet
  unfold castEinsum at h
  simp only [h1, h2] at h
  split at h
  · cases h
  · rename_i ys hys
    refine ⟨_, (List.forall₂_map_left_iff.1 (stretchAll_ok hys)).imp (fun t x hx => ⟨_, hx.1, fun p hp _ => hx.2 p hp⟩)⟩

omit [CommSemiring α] in
theorem cast_index {i s : List Nat} (hi : inBounds i s = true) :
    List.zipWith (fun j d => if d = 1 then 0 else j) i s = i := by
  induction s generalizing i with
  | nil =>
    cases i with
    | nil => rfl
    | cons j i => simp [inBounds] at hi
  | cons d s ih =>
    cases i with
    | nil => simp [inBounds] at hi
    | cons j i =>
      rw [inBounds_cons] at hi
      rw [List.zipWith_cons_cons, ih hi.2]
      congr 1
      split
      · omega
      · rfl

omit [CommSemiring α] in
theorem stretch_self [CommSemiring α] {x : Tensor α} {s : List Nat} (h : x.shape = s) : x.stretch s = .ok x := by
  subst h
  unfold Tensor.stretch
  have hcond : ∀ p ∈ x.shape.zip x.shape, p.1 = 1 ∨ p.1 = p.2 := by
    intro p hp
    obtain ⟨i, hi, rfl⟩ := List.mem_iff_getElem.1 hp
    exact .inr (by simp)
  rw [if_pos ⟨rfl, hcond⟩]
  have hco := fun i => cast_index (i := i) (s := x.shape)
  obtain ⟨y, h1, h2, h3⟩ := Tensor.build_total (shape := x.shape)
    (f := fun i => x.getE (List.zipWith (fun j d => if d = 1 then 0 else j) i x.shape)) (by
      intro i hi
      obtain ⟨v, hv⟩ := x.at?_isSome hi
      exact ⟨v, by rw [hco i hi]; exact (x.getE_eq_ok).2 hv⟩)
  rw [h1]
  congr 1
  refine Tensor.ext_at? h2 (fun i hi => ?_)
  have hi' : inBounds i x.shape = true := by rw [← h2]; exact hi
  have h4 := h3 i hi'
  rw [hco i hi'] at h4
  obtain ⟨v, hv⟩ := x.at?_isSome hi'
  obtain ⟨u, hu⟩ := y.at?_isSome hi
  rw [(x.getE_eq_ok).2 hv, hu] at h4
  simp only [Option.elim_some, Except.ok.injEq] at h4
  rw [hu, hv, h4]

omit [CommSemiring α] in
theorem castLen_eq [CommSemiring α] {As : List (List Axis)} {xs : List (Tensor α)} {len : AxisMap}
    (h : List.Forall₂ (fun A x => x.shape = A.map len) As xs) {a : Axis} (ha : a ∈ As.flatten) : castLen As xs a = len a := by
  have key : castLen As xs a = len a ∨ castLen As xs a = 1 ∧ (a ∈ As.flatten → len a = 1) := by
    clear ha
    induction h with
    | nil => exact .inr ⟨rfl, fun h => by simp at h⟩
    | @cons A x As xs h1 h2 ih =>
      simp only [castLen]
      have hn : a ∈ A → nth x.shape (A.idxOf a) = len a := by
        intro hA
        have hlt : A.idxOf a < A.length := List.idxOf_lt_length_iff.2 hA
        rw [h1]
        simp [nth, List.getD, List.getElem?_map, List.getElem?_eq_getElem hlt]
      split
      · rename_i hc
        exact .inl (hn hc.1)
      · rename_i hc
        rcases ih with ih | ⟨ih1, ih2⟩
        · exact .inl ih
        · by_cases hA : a ∈ A
          · have : len a = 1 := by
              by_contra hne
              exact hc ⟨hA, by rw [hn hA]; exact hne⟩
            exact .inr ⟨ih1, fun _ => this⟩
          · refine .inr ⟨ih1, fun hm => ih2 ?_⟩
            rw [List.flatten_cons, List.mem_append] at hm
            exact hm.resolve_left hA
  rcases key with h | ⟨h1, h2⟩
  · exact h
  · rw [h1, h2 ha]

theorem castEinsum_lawful : EinsumLawful (castEinsum (α := α)) := by
  intro terms out len n xs hlet hcount hfit
  have hne : terms ≠ [] := by
    rintro rfl
    have := hfit.shapes
    cases this
    exact hfit.some_input rfl
  obtain ⟨y, hy, hc⟩ := refEinsum_lawful terms out len n xs hlet hcount hfit
  refine ⟨y, ?_, hc⟩
  obtain ⟨h1, h2, h3⟩ := parse_write hne hlet
  -- the reference accepts, so its lengths fit
  have hlen : List.Forall₂ (fun A (x : Tensor α) => x.shape = A.map (axisLen (terms.map (symAxes (ellRank terms xs))) xs))
      (terms.map (symAxes (ellRank terms xs))) xs := by
    have hy' := hy
    unfold refEinsum at hy'
    simp only [h1, h2, h3] at hy'
    split at hy'
    · rename_i hc
      exact List.forall₂_iff_zip.2 ⟨by simpa using hc.1, fun {_ _} hp => hc.2.1 _ hp⟩
    · cases hy'
  have hall : ∀ (len : AxisMap) (As : List (List Axis)) (xs : List (Tensor α)),
      List.Forall₂ (fun A (x : Tensor α) => x.shape = A.map len) As xs → stretchAll len As xs = .ok xs := by
    intro len As xs h
    induction h with
    | nil => rfl
    | cons h1 _ ih => simp only [stretchAll, stretch_self h1, ih]
  unfold castEinsum
  simp only [h1, h2]
  rw [hall _ _ _ (List.forall₂_iff_zip.2 ⟨hlen.length_eq, fun {A x} hp => ?_⟩)]
  · exact hy
  · rw [(List.forall₂_iff_zip.1 hlen).2 hp]
    apply List.map_congr_left
    intro a ha
    exact (castLen_eq hlen (List.mem_flatten.2 ⟨A, (List.of_mem_zip hp).1, ha⟩)).symm

/-! ### letters for names -/

variable {f : Str → List (Tensor α) → Py (Tensor α)} {terms : List (List ESym)} {out : List ESym} {K : List Str}
  {xs : List (Tensor α)} {y : Tensor α}

omit [CommSemiring α] in
theorem letters_written (hK52 : K.length ≤ 52) (hmemK : ∀ t ∈ out :: terms, ∀ w ∈ symNames t, w ∈ K)
    (hcount : ∀ t ∈ out :: terms, t.count .ell ≤ 1) :
    (∀ t ∈ out.map (renameSym (fun w => [letterOf K w])) :: terms.map (List.map (renameSym (fun w => [letterOf K w]))),
      ∀ w ∈ symNames t, ∃ c, c.isAlpha = true ∧ w = [c]) ∧
    ∀ t ∈ out.map (renameSym (fun w => [letterOf K w])) :: terms.map (List.map (renameSym (fun w => [letterOf K w]))),
      t.count .ell ≤ 1 := by
  have hex : ∀ t ∈ out.map (renameSym (fun w => [letterOf K w])) :: terms.map (List.map (renameSym (fun w => [letterOf K w]))),
      ∃ t' ∈ out :: terms, t = t'.map (renameSym (fun w => [letterOf K w])) := by
    intro t ht
    rcases List.mem_cons.1 ht with rfl | ht
    · exact ⟨out, by simp, rfl⟩
    · obtain ⟨t', ht', rfl⟩ := List.mem_map.1 ht
      exact ⟨t', by simp [ht'], rfl⟩
  constructor
  · intro t ht w hw
    obtain ⟨t', ht', rfl⟩ := hex t ht
    rw [symNames_rename] at hw
    obtain ⟨v, hv, rfl⟩ := List.mem_map.1 hw
    exact ⟨letterOf K v, letterOf_mem hK52 (hmemK t' ht' v hv), rfl⟩
  · intro t ht
    obtain ⟨t', ht', rfl⟩ := hex t ht
    rw [count_rename]
    exact hcount t' ht'

omit [CommSemiring α] in
theorem names_not_ell (hno : ∀ w ∈ K, ∀ c l, w ≠ '…' :: c :: l) (n : Nat) : ∀ a ∈ ellAxes n, ∀ w, a = .str w → w ∉ K := by
  rintro a ha w rfl hw
  obtain ⟨c, l, e⟩ := ellAxes_long ha
  exact hno w hw c l (by simpa using e)

omit [CommSemiring α] in
/-- a strict `einsum` with letters for the names `K` -/
theorem strict_letters (hf : EinsumStrict f) (hne : terms ≠ []) (hK52 : K.length ≤ 52)
    (hmemK : ∀ t ∈ out :: terms, ∀ w ∈ symNames t, w ∈ K) (hno : ∀ w ∈ K, ∀ c l, w ≠ '…' :: c :: l)
    (hcount : ∀ t ∈ out :: terms, t.count .ell ≤ 1) (h : f (writeEinsum (letterOf K) terms out) xs = .ok y) :
    ∃ (len : AxisMap) (n : Nat), List.Forall₂ (fun t x => x.shape = (symAxes n t).map len) terms xs := by
  rw [← writeEinsum_rename] at h
  obtain ⟨h1, h2⟩ := letters_written (out := out) (terms := terms) hK52 hmemK hcount
  obtain ⟨len, n, h3⟩ := hf _ _ _ _ (by simpa using hne) h1 h2 h
  refine ⟨fun a => len (renameAxis K (fun w => [letterOf K w]) a), n, ?_⟩
  rw [List.forall₂_map_left_iff] at h3
  refine List.forall₂_iff_zip.2 ⟨h3.length_eq, fun {t x} hp => ?_⟩
  have h4 := (List.forall₂_iff_zip.1 h3).2 hp
  rw [symAxes_rename (names_not_ell hno n) (hmemK t (by simp [(List.of_mem_zip hp).1])), List.map_map] at h4
  exact h4

omit [CommSemiring α] in
/-- a stretching `einsum` with letters for the names `K` -/
theorem casts_letters (hf : EinsumCasts f) (hne : terms ≠ []) (hK52 : K.length ≤ 52)
    (hmemK : ∀ t ∈ out :: terms, ∀ w ∈ symNames t, w ∈ K) (hno : ∀ w ∈ K, ∀ c l, w ≠ '…' :: c :: l)
    (hcount : ∀ t ∈ out :: terms, t.count .ell ≤ 1) (h : f (writeEinsum (letterOf K) terms out) xs = .ok y) :
    ∃ len : AxisMap, List.Forall₂ (fun t x => ∃ n, x.ndim = (symAxes n t).length ∧
      ∀ p ∈ (symAxes n t).zip x.shape, p.1 ∉ ellAxes n → p.2 = 1 ∨ p.2 = len p.1) terms xs := by
  rw [← writeEinsum_rename] at h
  obtain ⟨h1, h2⟩ := letters_written (out := out) (terms := terms) hK52 hmemK hcount
  obtain ⟨len, h3⟩ := hf _ _ _ _ (by simpa using hne) h1 h2 h
  refine ⟨fun a => len (renameAxis K (fun w => [letterOf K w]) a), ?_⟩
  rw [List.forall₂_map_left_iff] at h3
  refine List.forall₂_iff_zip.2 ⟨h3.length_eq, fun {t x} hp => ?_⟩
  obtain ⟨n, h4, h5⟩ := (List.forall₂_iff_zip.1 h3).2 hp
  have ht := hmemK t (by simp [(List.of_mem_zip hp).1])
  rw [symAxes_rename (names_not_ell hno n) ht] at h4 h5
  refine ⟨n, by simpa using h4, fun p hp hell => ?_⟩
  refine h5 (renameAxis K (fun w => [letterOf K w]) p.1, p.2) ?_ ?_
  · rw [List.zip_map_left, List.mem_map]
    exact ⟨p, hp, rfl⟩
  · intro hell'
    rcases mem_symAxes.1 (List.of_mem_zip hp).1 with ⟨-, h6⟩ | ⟨w, hw, h6⟩
    · exact hell h6
    · obtain ⟨c, l, e⟩ := ellAxes_long hell'
      rw [h6, renameAxis, if_pos (ht w hw)] at e
      simp at e

end

end Einops
