import Verif.Proofs.Swap

/-! Two calls in a row. -/

namespace Einops

universe u
variable {α : Type u} [PyUnicode]

/-- without an ellipsis the groups do not depend on the number of its axes -/
theorem spread_no_dots {s k : Nat} {G : List Elem} (hw : ∀ w ∈ sideWords G, '…' ∉ w) (hd : dots ∉ sideWords G) (n n' : Nat) :
    spread (ellAxes n) (denote s k G) = spread (ellAxes n') (denote s k G) := by
  have key : ∀ {ws : List Str} {k : Nat}, (∀ w ∈ ws, '…' ∉ w) → dots ∉ ws →
      (wordsAxes s k ws).flatMap (fun a => if a = .str ellipsisStr then ellAxes n else [a]) =
        (wordsAxes s k ws).flatMap (fun a => if a = .str ellipsisStr then ellAxes n' else [a]) := by
    intro ws k hw hd
    apply List.flatMap_congr
    intro c hc
    have hne : c ≠ .str ellipsisStr := by
      rintro rfl
      exact hd ((marker_mem_wordsAxes hw).1 hc)
    rw [if_neg hne, if_neg hne]
  induction G generalizing k with
  | nil => rfl
  | cons e G ih =>
    have hs : sideWords (e :: G) = e.words ++ sideWords G := by simp [sideWords]
    rw [hs] at hw hd
    have ih := fun k => ih (k := k) (fun w h => hw w (List.mem_append_right _ h)) (fun h => hd (List.mem_append_right _ h))
    cases e with
    | bare w =>
      have hwd : w ≠ dots := fun h => hd (List.mem_append_left _ (by simp [Elem.words, h]))
      have := key (ws := [w]) (k := k) (fun v hv => hw v (List.mem_append_left _ hv)) (by simpa using Ne.symm hwd)
      simp only [wordsAxes, List.append_nil] at this
      simp only [denote, if_neg hwd, spread]
      rw [this, ih]
    | paren ws =>
      have := key (ws := ws) (k := k) (fun v hv => hw v (List.mem_append_left _ hv)) (fun h => hd (List.mem_append_left _ h))
      simp only [denote, spread]
      rw [this, ih]

/-- number of dimensions of a side with a bare ellipsis -/
theorem spread_length_dots {s k n : Nat} {G : List Elem} (h1 : (sideWords G).count dots ≤ 1)
    (hp : ∀ ws, Elem.paren ws ∈ G → dots ∉ ws) (hd : dots ∈ sideWords G) :
    (spread (ellAxes n) (denote s k G)).length + 1 = G.length + n := by
  have h2 := spread_length (side := s) (k := k) (G := G) (ellAxes n)
  rw [bare_count_of h1 hp, if_pos hd] at h2
  simpa [ellAxes] using h2

/-- the middle side of two calls means the same for both -/
theorem middle_groups {GM : List Elem} {m : Str} (hm : IsSide false false m GM) (hu : OnlyUnits GM)
    (hp : ∀ ws, Elem.paren ws ∈ GM → dots ∉ ws) {n n' : Nat} {M M' : List (List Axis)}
    (h1 : M = spread (ellAxes n) (denote 1 0 GM)) (h2 : M' = spread (ellAxes n') (denote 0 0 GM)) (hl : M'.length = M.length) :
    M' = M ∧ (dots ∈ sideWords GM → n = n') := by
  have e : denote 0 0 GM = denote 1 0 GM := denote_units hu
  by_cases hd : dots ∈ sideWords GM
  · have h3 := spread_length_dots (s := 1) (k := 0) (n := n) hm.one_ellipsis hp hd
    have h4 := spread_length_dots (s := 0) (k := 0) (n := n') hm.one_ellipsis hp hd
    rw [← h1] at h3
    rw [← h2] at h4
    have : n = n' := by omega
    subst this
    exact ⟨by rw [h1, h2, e], fun _ => rfl⟩
  · exact ⟨by rw [h1, h2, e, spread_no_dots (side_no_ell hm) hd n' n], fun h => absurd h hd⟩

/-- lengths may be changed elsewhere -/
theorem Accepted.congr_len {op : OpKind} {pattern : Str} {kw : List (Str × Size)} {shape : List Nat} {GL GR : List Elem}
    {L R : List (List Axis)} {len len' : AxisMap} (h : Accepted op pattern kw shape GL GR L R len)
    (hl : ∀ a ∈ L.flatten ++ R.flatten, len a = len' a) : Accepted op pattern kw shape GL GR L R len' := by
  obtain ⟨_, l, r, _, hL, hR⟩ := isPattern_split h.pattern
  refine ⟨h.pattern, h.prepared, ⟨?_, ?_, ?_⟩, ?_⟩
  · rw [h.fits.shape_eq]
    exact map_groupSize_congr (fun a ha => hl a (List.mem_append_left _ ha))
  · intro w s hs
    rw [← hl, h.fits.kw_eq w s hs]
    obtain ⟨h1, h2⟩ := h.prepared.keywords w (List.mem_map.2 ⟨_, hs, rfl⟩)
    obtain ⟨n, _, rfl, rfl, _⟩ := h.prepared.groups
    rcases List.mem_append.1 h2 with h2 | h2
    · exact List.mem_append_left _ ((name_mem_flatten (side_no_ell hL) (isName_no_ell h1)).2
        ⟨h2, isName_ne_dots h1, isName_not_number false h1⟩)
    · exact List.mem_append_right _ ((name_mem_flatten (side_no_ell hR) (isName_no_ell h1)).2
        ⟨h2, isName_ne_dots h1, isName_not_number false h1⟩)
  · intro side i v hm
    rw [← hl _ hm]
    exact h.fits.number_eq side i v hm
  · intro g hg hu
    have := h.determinate g hg hu
    rwa [groupSize_congr (len' := len') (fun a ha => hl a (List.mem_append_left _ (List.mem_flatten.2
      ⟨g, hg, List.mem_of_mem_filter ha⟩)))] at this

/-- the direct call -/
theorem compose_accepted {op₁ op₂ op₃ : OpKind} {l m r : Str} {GL GM GR : List Elem} (hl : IsSide false false l GL)
    (hm : IsSide false false m GM) (hr : IsSide false false r GR) {kw₁ kw₂ : List (Str × Size)} {shape shape' : List Nat}
    {L M R : List (List Axis)} {len : AxisMap}
    (h1 : Accepted op₁ (l ++ ['-', '>'] ++ m) kw₁ shape GL GM L M len)
    (h2 : Accepted op₂ (m ++ ['-', '>'] ++ r) kw₂ shape' GM GR M R len)
    (hu : OnlyUnits GM) (hML : NamesWithin GM GL) (hs : SidesOK op₃ GL GR (kw₁.map Prod.fst)) :
    Accepted op₃ (l ++ ['-', '>'] ++ r) kw₁ shape GL GR L R len := by
  have hR : Groups GL GR shape.length L R := by
    obtain ⟨n, hn, rfl, hM, hlen⟩ := h1.prepared.groups
    obtain ⟨n', hn', hM', hR', hlen'⟩ := h2.prepared.groups
    refine ⟨n, hn, rfl, ?_, hlen⟩
    by_cases hd : dots ∈ sideWords GR
    · have hE := sidesOK_ellipsis h2.prepared.sides
      have := (middle_groups hm hu hE.2 hM hM' rfl).2 (hE.1 hd)
      rw [hR', this]
    · rw [hR', spread_no_dots (side_no_ell hr) hd n' n]
  refine ⟨⟨l, r, rfl, hl, hr⟩, ⟨hs, fun w hw => ?_, hR, h1.prepared.unknowns⟩, ⟨h1.fits.shape_eq, h1.fits.kw_eq, ?_⟩,
    h1.determinate⟩
  · obtain ⟨h3, h4⟩ := h1.prepared.keywords w hw
    refine ⟨h3, List.mem_append_left _ ?_⟩
    rcases List.mem_append.1 h4 with h4 | h4
    · exact h4
    · exact hML w h4 (isName_not_number false h3)
  · intro side i v ha
    rcases List.mem_append.1 ha with ha | ha
    · exact h1.fits.number_eq side i v (List.mem_append_left _ ha)
    · exact h2.fits.number_eq side i v (List.mem_append_right _ ha)

/-- in a side without parentheses every axis is a dimension -/
theorem elementary_group {s n k : Nat} {G : List Elem} (he : Elementary G) {g : List Axis}
    (hw : ∀ w ∈ sideWords G, '…' ∉ w) (hg : g ∈ spread (ellAxes n) (denote s k G)) : g.length ≤ 1 := by
  induction G generalizing k with
  | nil => simp [denote, spread] at hg
  | cons e G ih =>
    have he' : Elementary G := fun e h => he e (by simp [h])
    have hw' : ∀ w ∈ sideWords G, '…' ∉ w := fun w h => hw w (by
      simp only [sideWords, List.flatMap_cons, List.mem_append]; exact .inr h)
    obtain ⟨w, rfl⟩ := he e (by simp)
    simp only [denote] at hg
    by_cases hd : w = dots
    · rw [if_pos hd] at hg
      simp only [spread, List.mem_append, List.mem_map] at hg
      rcases hg with ⟨a, _, rfl⟩ | hg
      · simp
      · exact ih he' hw' hg
    · rw [if_neg hd] at hg
      simp only [spread, List.mem_cons] at hg
      rcases hg with rfl | hg
      · have hwe := hw w (by simp [sideWords, Elem.words])
        have hne : w ≠ ellipsisStr := by
          rintro rfl
          exact hwe (by simp [ellipsisStr])
        unfold wordAxes
        rw [if_neg hd]
        split
        · split <;> simp
        · simp [hne]
      · exact ih he' hw' hg

omit [PyUnicode] in
/-- dimensions of such a side are lengths -/
theorem elementary_len {M : List (List Axis)} (h : ∀ g ∈ M, g.length ≤ 1) {len len' : AxisMap}
    (he : M.map (groupSize len) = M.map (groupSize len')) : ∀ a ∈ M.flatten, len a = len' a := by
  induction M with
  | nil => simp
  | cons g M ih =>
    simp only [List.map_cons, List.cons.injEq] at he
    intro a ha
    rw [List.flatten_cons, List.mem_append] at ha
    rcases ha with ha | ha
    · have hg := h g (by simp)
      match g, hg, ha, he.1 with
      | [c], _, ha, he1 =>
        simp only [List.mem_singleton] at ha
        subst ha
        simpa [groupSize] using he1
    · exact ih (fun g hg => h g (by simp [hg])) he.2 a ha

/-- the second of two calls in the terms of the first -/
theorem second_accepted {op₁ op₂ : OpKind} {l m r : Str} {GL GM GR : List Elem}
    (hm : IsSide false false m GM) {kw₁ kw₂ : List (Str × Size)} {shape shape' : List Nat}
    {L M M' R : List (List Axis)} {len len' : AxisMap}
    (h1 : Accepted op₁ (l ++ ['-', '>'] ++ m) kw₁ shape GL GM L M len) (hsh : shape' = M.map (groupSize len))
    (h2 : Accepted op₂ (m ++ ['-', '>'] ++ r) kw₂ shape' GM GR M' R len')
    (hu : OnlyUnits GM) (he : Elementary GM) (hRM : ∀ a ∈ R.flatten, a ∈ M'.flatten) :
    Accepted op₂ (m ++ ['-', '>'] ++ r) kw₂ shape' GM GR M R len := by
  have hMM : M' = M := by
    obtain ⟨n, hn, hL, hM, hlen⟩ := h1.prepared.groups
    obtain ⟨n', hn', hM', hR', hlen'⟩ := h2.prepared.groups
    have hE := sidesOK_ellipsis h2.prepared.sides
    refine (middle_groups hm hu hE.2 hM hM' ?_).1
    rw [hlen', hsh, List.length_map]
  subst hMM
  refine h2.congr_len (fun a ha => ?_)
  have ha' : a ∈ M'.flatten := (List.mem_append.1 ha).elim id (hRM a)
  refine elementary_len ?_ (by rw [← hsh, h2.fits.shape_eq]) a ha'
  obtain ⟨n', hn', hM', hR', hlen'⟩ := h2.prepared.groups
  rw [hM']
  exact fun g hg => elementary_group he (side_no_ell hm) hg

end Einops
