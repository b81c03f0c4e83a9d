import Verif.Proofs.Fill

/-! Names written for numbers. -/

namespace Einops

universe u
variable {α : Type u} [PyUnicode]

theorem isCount_iff {w : Str} : isCount w = true ↔ IsNumber w ∧ decimalValue w ≠ 1 := by simp [isCount]

/-- `w` is the name of a number of `ws` -/
def NewName (nm : Nat → Str) (k : Nat) (ws : List Str) (w : Str) : Prop :=
  ∃ i, ∃ h : i < ws.length, isCount ws[i] = true ∧ w = nm (k + i)

theorem newName_cons {nm : Nat → Str} {k : Nat} {v : Str} {ws : List Str} {w : Str} :
    NewName nm k (v :: ws) w ↔ (isCount v = true ∧ w = nm k) ∨ NewName nm (k + 1) ws w := by
  constructor
  · rintro ⟨i, h, h1, h2⟩
    cases i with
    | zero => exact .inl ⟨h1, h2⟩
    | succ i => exact .inr ⟨i, by simpa using h, h1, by rw [h2]; congr 1; omega⟩
  · rintro (⟨h1, h2⟩ | ⟨i, h, h1, h2⟩)
    · exact ⟨0, by simp, h1, h2⟩
    · exact ⟨i + 1, by simpa using h, h1, by rw [h2]; congr 1; omega⟩

theorem nameCounts_append {nm : Nat → Str} {k : Nat} (ws vs : List Str) :
    nameCounts nm k (ws ++ vs) = nameCounts nm k ws ++ nameCounts nm (k + ws.length) vs := by
  induction ws generalizing k with
  | nil => rfl
  | cons w ws ih =>
    simp only [List.cons_append, nameCounts, ih, List.length_cons]
    rw [Nat.add_assoc, Nat.add_comm 1]

theorem nameCounts_length (nm : Nat → Str) (k : Nat) (ws : List Str) : (nameCounts nm k ws).length = ws.length := by
  induction ws generalizing k with
  | nil => rfl
  | cons w ws ih => simp [nameCounts, ih]

theorem sideWords_nameCounts (nm : Nat → Str) (k : Nat) (G : List Elem) :
    sideWords (nameCountsSide nm k G) = nameCounts nm k (sideWords G) := by
  induction G generalizing k with
  | nil => rfl
  | cons e G ih =>
    unfold sideWords at *
    cases e with
    | bare w => simp [nameCountsSide, Elem.words, ih, nameCounts]
    | paren ws => simp [nameCountsSide, Elem.words, ih, nameCounts_append]

theorem mem_nameCounts {nm : Nat → Str} {k : Nat} {ws : List Str} {w : Str} :
    w ∈ nameCounts nm k ws ↔ (w ∈ ws ∧ isCount w = false) ∨ NewName nm k ws w := by
  induction ws generalizing k with
  | nil => simp [nameCounts, NewName]
  | cons v ws ih =>
    simp only [nameCounts, List.mem_cons, ih, newName_cons]
    by_cases hv : isCount v = true
    · rw [if_pos hv]
      constructor
      · rintro (h | h | h)
        · exact .inr (.inl ⟨hv, h⟩)
        · exact .inl ⟨.inr h.1, h.2⟩
        · exact .inr (.inr h)
      · rintro (⟨h | h, h2⟩ | h | h)
        · rw [h] at h2; simp [hv] at h2
        · exact .inr (.inl ⟨h, h2⟩)
        · exact .inl h.2
        · exact .inr (.inr h)
    · rw [if_neg hv]
      constructor
      · rintro (h | h | h)
        · exact .inl ⟨.inl h, by rw [h]; simpa using hv⟩
        · exact .inl ⟨.inr h.1, h.2⟩
        · exact .inr (.inr h)
      · rintro (⟨h | h, h2⟩ | h | h)
        · exact .inl h
        · exact .inr (.inl ⟨h, h2⟩)
        · exact absurd h.1 hv
        · exact .inr (.inr h)

theorem mem_countSizes {nm : Nat → Str} {k : Nat} {ws : List Str} {p : Str × Size} :
    p ∈ countSizes nm k ws ↔ ∃ i, ∃ h : i < ws.length, isCount ws[i] = true ∧ p = (nm (k + i), ⟨decimalValue ws[i], true⟩) := by
  induction ws generalizing k with
  | nil => simp [countSizes]
  | cons v ws ih =>
    simp only [countSizes, List.mem_append, ih]
    constructor
    · rintro (h | ⟨i, h, h1, h2⟩)
      · split at h
        · rename_i hv
          exact ⟨0, by simp, hv, by simpa using h⟩
        · cases h
      · exact ⟨i + 1, by simpa using h, h1, by rw [h2, Nat.add_right_comm, Nat.add_assoc]; rfl⟩
    · rintro ⟨i, h, h1, h2⟩
      cases i with
      | zero =>
        simp only [List.getElem_cons_zero] at h1
        left; rw [if_pos h1, h2]; simp
      | succ i => exact .inr ⟨i, by simpa using h, h1, by rw [h2, Nat.add_right_comm, Nat.add_assoc]; rfl⟩

theorem newName_iff {nm : Nat → Str} {k : Nat} {ws : List Str} {w : Str} :
    NewName nm k ws w ↔ w ∈ (countSizes nm k ws).map Prod.fst := by
  simp only [List.mem_map, mem_countSizes]
  constructor
  · rintro ⟨i, h, h1, h2⟩; exact ⟨_, ⟨i, h, h1, rfl⟩, h2.symm⟩
  · rintro ⟨p, ⟨i, h, h1, h2⟩, h3⟩; exact ⟨i, h, h1, by rw [← h3, h2]⟩

theorem countSizes_inj {nm : Nat → Str} {k : Nat} {ws : List Str} (hn : ((countSizes nm k ws).map Prod.fst).Nodup)
    {i j : Nat} (hi : i < ws.length) (hj : j < ws.length) (ci : isCount ws[i] = true) (cj : isCount ws[j] = true)
    (h : nm (k + i) = nm (k + j)) : i = j := by
  induction ws generalizing k i j with
  | nil => cases hi
  | cons v ws ih =>
    simp only [countSizes, List.map_append] at hn
    have hn2 := (List.nodup_append.1 hn).2.1
    have key : ∀ j (hj : j < ws.length), isCount ws[j] = true → isCount v = true → nm k ≠ nm (k + (j + 1)) := by
      intro j hj cj cv he
      rw [if_pos cv] at hn
      have : nm (k + (j + 1)) ∈ (countSizes nm (k + 1) ws).map Prod.fst :=
        newName_iff.1 ⟨j, hj, cj, by congr 1; omega⟩
      simp only [List.map_cons, List.map_nil, List.singleton_append, List.nodup_cons] at hn
      exact hn.1 (he ▸ this)
    cases i with
    | zero =>
      cases j with
      | zero => rfl
      | succ j => exact absurd h (key j (by simpa using hj) cj ci)
    | succ i =>
      cases j with
      | zero => exact absurd h.symm (key i (by simpa using hi) ci cj)
      | succ j =>
        rw [ih hn2 (by simpa using hi) (by simpa using hj) ci cj (by
          rw [Nat.add_right_comm, Nat.add_assoc, h, Nat.add_right_comm, Nat.add_assoc])]

/-- sizes for the names of numbers -/
def countKw (nmL nmR : Nat → Str) (GL GR : List Elem) (kw : List (Str × Size)) : List (Str × Size) :=
  kw ++ (countSizes nmL 0 (sideWords GL) ++ countSizes nmR 0 (sideWords GR))

/-- fresh names for numbers -/
structure CountNames (nmL nmR : Nat → Str) (GL GR : List Elem) (kw : List (Str × Size)) : Prop where
  name : ∀ p ∈ countSizes nmL 0 (sideWords GL) ++ countSizes nmR 0 (sideWords GR), IsName false p.1
  fresh : ∀ p ∈ countSizes nmL 0 (sideWords GL) ++ countSizes nmR 0 (sideWords GR), p.1 ∉ sideWords GL ++ sideWords GR
  nodup : ((countKw nmL nmR GL GR kw).map Prod.fst).Nodup

section
variable {nmL nmR : Nat → Str} {GL GR : List Elem} {kw : List (Str × Size)}

theorem CountNames.nameL (h : CountNames nmL nmR GL GR kw) {w : Str} (hw : NewName nmL 0 (sideWords GL) w) :
    IsName false w ∧ w ∉ sideWords GL ++ sideWords GR := by
  obtain ⟨p, hp, rfl⟩ := List.mem_map.1 (newName_iff.1 hw)
  exact ⟨h.name p (List.mem_append_left _ hp), h.fresh p (List.mem_append_left _ hp)⟩

theorem CountNames.nameR (h : CountNames nmL nmR GL GR kw) {w : Str} (hw : NewName nmR 0 (sideWords GR) w) :
    IsName false w ∧ w ∉ sideWords GL ++ sideWords GR := by
  obtain ⟨p, hp, rfl⟩ := List.mem_map.1 (newName_iff.1 hw)
  exact ⟨h.name p (List.mem_append_right _ hp), h.fresh p (List.mem_append_right _ hp)⟩

theorem CountNames.disj (h : CountNames nmL nmR GL GR kw) {w : Str} (hL : NewName nmL 0 (sideWords GL) w)
    (hR : NewName nmR 0 (sideWords GR) w) : False := by
  have := h.nodup
  rw [countKw, List.map_append, List.map_append] at this
  exact (List.nodup_append.1 (List.nodup_append.1 this).2.1).2.2 _ (newName_iff.1 hL) _ (newName_iff.1 hR) rfl

theorem CountNames.nodupL (h : CountNames nmL nmR GL GR kw) : ((countSizes nmL 0 (sideWords GL)).map Prod.fst).Nodup := by
  have := h.nodup
  rw [countKw, List.map_append, List.map_append] at this
  exact (List.nodup_append.1 (List.nodup_append.1 this).2.1).1

theorem CountNames.nodupR (h : CountNames nmL nmR GL GR kw) : ((countSizes nmR 0 (sideWords GR)).map Prod.fst).Nodup := by
  have := h.nodup
  rw [countKw, List.map_append, List.map_append] at this
  exact (List.nodup_append.1 (List.nodup_append.1 this).2.1).2.1

theorem CountNames.nodupKw (h : CountNames nmL nmR GL GR kw) : (kw.map Prod.fst).Nodup := by
  have := h.nodup
  rw [countKw, List.map_append] at this
  exact (List.nodup_append.1 this).1

theorem mem_countKw {w : Str} : w ∈ (countKw nmL nmR GL GR kw).map Prod.fst ↔
    w ∈ kw.map Prod.fst ∨ NewName nmL 0 (sideWords GL) w ∨ NewName nmR 0 (sideWords GR) w := by
  rw [countKw, List.map_append, List.map_append, List.mem_append, List.mem_append, newName_iff, newName_iff]

/-- the words of a side with names for numbers -/
theorem mem_counts {nm : Nat → Str} {G : List Elem} {w : Str} : w ∈ sideWords (nameCountsSide nm 0 G) ↔
    (w ∈ sideWords G ∧ isCount w = false) ∨ NewName nm 0 (sideWords G) w := by
  rw [sideWords_nameCounts, mem_nameCounts]

theorem counts_old {nm : Nat → Str} {G : List Elem} {w : Str} (h : ¬ IsNumber w) (hf : ¬ NewName nm 0 (sideWords G) w) :
    w ∈ sideWords (nameCountsSide nm 0 G) ↔ w ∈ sideWords G := by
  rw [mem_counts]
  exact ⟨fun hw => hw.elim (fun h => h.1) (fun h => absurd h hf), fun hw => .inl ⟨hw, by simp [isCount, h]⟩⟩

theorem counts_dots {nm : Nat → Str} {G : List Elem} (hf : ∀ w, NewName nm 0 (sideWords G) w → IsName false w) :
    dots ∈ sideWords (nameCountsSide nm 0 G) ↔ dots ∈ sideWords G :=
  counts_old dots_not_number (fun h => isName_ne_dots (hf _ h) rfl)

theorem counts_units {nm : Nat → Str} {G : List Elem} (hf : ∀ w, NewName nm 0 (sideWords G) w → IsName false w) :
    OnlyUnits (nameCountsSide nm 0 G) := by
  intro w hw hn
  rcases mem_counts.1 hw with ⟨_, h2⟩ | h
  · by_contra hc
    rw [isCount_iff.2 ⟨hn, hc⟩] at h2
    cases h2
  · exact absurd hn (isName_not_number false (hf w h))

/-- a side without numbers other than 1 -/
theorem onlyUnits_iff_noNew {nm : Nat → Str} {G : List Elem} : OnlyUnits G ↔ ∀ w, ¬ NewName nm 0 (sideWords G) w := by
  constructor
  · rintro h w ⟨i, hi, hc, _⟩
    obtain ⟨h1, h2⟩ := isCount_iff.1 hc
    exact h2 (h _ (List.getElem_mem hi) h1)
  · intro h w hw hn
    by_contra hc
    obtain ⟨i, hi, rfl⟩ := List.getElem_of_mem hw
    exact h _ ⟨i, hi, isCount_iff.2 ⟨hn, hc⟩, rfl⟩

theorem counts_within {nm nm' : Nat → Str} {G G' : List Elem}
    (hf : ∀ w, NewName nm 0 (sideWords G) w → IsName false w ∧ w ∉ sideWords G')
    (hf' : ∀ w, NewName nm' 0 (sideWords G') w → w ∉ sideWords G)
    (hd : ∀ w, NewName nm 0 (sideWords G) w → ¬ NewName nm' 0 (sideWords G') w) :
    NamesWithin (nameCountsSide nm 0 G) (nameCountsSide nm' 0 G') ↔ NamesWithin G G' ∧ OnlyUnits G := by
  constructor
  · intro h
    constructor
    · intro w hw hn
      have := h w (mem_counts.2 (.inl ⟨hw, by simp [isCount, hn]⟩)) hn
      rcases mem_counts.1 this with h1 | h1
      · exact h1.1
      · exact absurd hw (hf' w h1)
    · rw [onlyUnits_iff_noNew (nm := nm)]
      intro w hw
      have := h w (mem_counts.2 (.inr hw)) (isName_not_number false (hf w hw).1)
      rcases mem_counts.1 this with h1 | h1
      · exact (hf w hw).2 h1.1
      · exact hd w hw h1
  · rintro ⟨h, hu⟩ w hw hn
    rcases mem_counts.1 hw with h1 | h1
    · exact mem_counts.2 (.inl ⟨h w h1.1 hn, h1.2⟩)
    · exact absurd h1 (onlyUnits_iff_noNew.1 hu w)

theorem paren_counts {nm : Nat → Str} {k : Nat} {G : List Elem} {ws : List Str} (h : Elem.paren ws ∈ nameCountsSide nm k G) :
    ∃ k' vs, Elem.paren vs ∈ G ∧ ws = nameCounts nm k' vs ∧ ∀ w, NewName nm k' vs w → NewName nm k (sideWords G) w := by
  induction G generalizing k with
  | nil => cases h
  | cons e G ih =>
    cases e with
    | bare w =>
      simp only [nameCountsSide, List.mem_cons, reduceCtorEq, false_or] at h
      obtain ⟨k', vs, h1, h2, h3⟩ := ih h
      refine ⟨k', vs, by simp [h1], h2, fun v hv => ?_⟩
      have : sideWords (Elem.bare w :: G) = w :: sideWords G := by simp [sideWords, Elem.words]
      rw [this, newName_cons]
      exact .inr (h3 v hv)
    | paren us =>
      simp only [nameCountsSide, List.mem_cons, Elem.paren.injEq] at h
      have hs : sideWords (Elem.paren us :: G) = us ++ sideWords G := by simp [sideWords, Elem.words]
      rcases h with h | h
      · refine ⟨k, us, by simp, h, fun v hv => ?_⟩
        obtain ⟨i, hi, h1, h2⟩ := hv
        rw [hs]
        exact ⟨i, by simp; omega, by rw [List.getElem_append_left hi]; exact h1, h2⟩
      · obtain ⟨k', vs, h1, h2, h3⟩ := ih h
        refine ⟨k', vs, by simp [h1], h2, fun v hv => ?_⟩
        obtain ⟨i, hi, h4, h5⟩ := h3 v hv
        rw [hs]
        refine ⟨us.length + i, by simp; omega, ?_, by rw [h5, Nat.add_assoc]⟩
        rw [List.getElem_append_right (by omega)]
        simpa using h4

theorem paren_counts' {nm : Nat → Str} {k : Nat} {G : List Elem} {vs : List Str} (h : Elem.paren vs ∈ G) :
    ∃ k', Elem.paren (nameCounts nm k' vs) ∈ nameCountsSide nm k G := by
  induction G generalizing k with
  | nil => cases h
  | cons e G ih =>
    rcases List.mem_cons.1 h with h' | h'
    · subst h'; exact ⟨k, by simp [nameCountsSide]⟩
    · clear h
      cases e with
      | bare w =>
        obtain ⟨k', h1⟩ := ih (k := k + 1) h'
        exact ⟨k', by simp [nameCountsSide, h1]⟩
      | paren us =>
        obtain ⟨k', h1⟩ := ih (k := k + us.length) h'
        exact ⟨k', by simp [nameCountsSide, h1]⟩

theorem counts_ellipsisOK (h : CountNames nmL nmR GL GR kw) :
    EllipsisOK (nameCountsSide nmL 0 GL) (nameCountsSide nmR 0 GR) ↔ EllipsisOK GL GR := by
  unfold EllipsisOK
  rw [counts_dots (fun w hw => (h.nameL hw).1), counts_dots (fun w hw => (h.nameR hw).1)]
  refine and_congr_right fun _ => ?_
  constructor
  · intro hh ws hws hd
    obtain ⟨k', h1⟩ := paren_counts' (nm := nmL) (k := 0) hws
    refine hh _ h1 (mem_nameCounts.2 (.inl ⟨hd, ?_⟩))
    simp [isCount, dots_not_number]
  · intro hh ws hws hd
    obtain ⟨k', vs, h1, h2, h3⟩ := paren_counts hws
    rw [h2] at hd
    rcases mem_nameCounts.1 hd with h4 | h4
    · exact hh vs h1 h4.1
    · exact isName_ne_dots (h.nameL (h3 _ h4)).1 rfl

theorem counts_wordsOK {op : OpKind} (h : CountNames nmL nmR GL GR kw) :
    WordsOK op (nameCountsSide nmL 0 GL) (nameCountsSide nmR 0 GR) ((countKw nmL nmR GL GR kw).map Prod.fst) ↔
      WordsOK op GL GR (kw.map Prod.fst) := by
  have nL : ∀ w, NewName nmL 0 (sideWords GL) w → w ∉ sideWords GL ∧ w ∉ sideWords GR := fun w hw => by
    have := (h.nameL hw).2; simpa using this
  have nR : ∀ w, NewName nmR 0 (sideWords GR) w → w ∉ sideWords GL ∧ w ∉ sideWords GR := fun w hw => by
    have := (h.nameR hw).2; simpa using this
  have hE := counts_ellipsisOK h
  have uL := counts_units (nm := nmL) (G := GL) (fun w hw => (h.nameL hw).1)
  have uR := counts_units (nm := nmR) (G := GR) (fun w hw => (h.nameR hw).1)
  have wLR := counts_within (nm := nmL) (nm' := nmR) (G := GL) (G' := GR) (fun w hw => ⟨(h.nameL hw).1, (nL w hw).2⟩)
    (fun w hw => (nR w hw).1) (fun w h1 h2 => h.disj h1 h2)
  have wRL := counts_within (nm := nmR) (nm' := nmL) (G := GR) (G' := GL) (fun w hw => ⟨(h.nameR hw).1, (nR w hw).1⟩)
    (fun w hw => (nL w hw).2) (fun w h1 h2 => h.disj h2 h1)
  have h1 : KeywordsUsed (nameCountsSide nmL 0 GL) (nameCountsSide nmR 0 GR) ((countKw nmL nmR GL GR kw).map Prod.fst) ↔
      KeywordsUsed GL GR (kw.map Prod.fst) := by
    unfold KeywordsUsed
    constructor
    · intro hh w hw
      obtain ⟨a, c⟩ := hh w (mem_countKw.2 (.inl hw))
      refine ⟨a, ?_⟩
      have hnew : ¬ NewName nmL 0 (sideWords GL) w ∧ ¬ NewName nmR 0 (sideWords GR) w := by
        have := h.nodup
        rw [countKw, List.map_append] at this
        have h2 := (List.nodup_append.1 this).2.2 w hw
        rw [List.map_append] at h2
        exact ⟨fun hc => h2 w (List.mem_append_left _ (newName_iff.1 hc)) rfl,
          fun hc => h2 w (List.mem_append_right _ (newName_iff.1 hc)) rfl⟩
      rwa [List.mem_append, counts_old (isName_not_number false a) hnew.1, counts_old (isName_not_number false a) hnew.2,
        ← List.mem_append] at c
    · intro hh w hw
      rcases mem_countKw.1 hw with h2 | h2 | h2
      · obtain ⟨a, c⟩ := hh w h2
        refine ⟨a, ?_⟩
        have h3 := isName_not_number false a
        rcases List.mem_append.1 c with c | c
        · exact List.mem_append_left _ (mem_counts.2 (.inl ⟨c, by simp [isCount, h3]⟩))
        · exact List.mem_append_right _ (mem_counts.2 (.inl ⟨c, by simp [isCount, h3]⟩))
      · exact ⟨(h.nameL h2).1, List.mem_append_left _ (mem_counts.2 (.inr h2))⟩
      · exact ⟨(h.nameR h2).1, List.mem_append_right _ (mem_counts.2 (.inr h2))⟩
  have h2 : RearrangeSides (nameCountsSide nmL 0 GL) (nameCountsSide nmR 0 GR) ↔ RearrangeSides GL GR :=
    ⟨fun ⟨a, _, _, d, e⟩ => ⟨hE.1 a, (wLR.1 d).2, (wRL.1 e).2, (wLR.1 d).1, (wRL.1 e).1⟩,
      fun ⟨a, b, c, d, e⟩ => ⟨hE.2 a, uL, uR, wLR.2 ⟨d, b⟩, wRL.2 ⟨e, c⟩⟩⟩
  have h3 : ReduceSides (nameCountsSide nmL 0 GL) (nameCountsSide nmR 0 GR) ↔ ReduceSides GL GR :=
    ⟨fun ⟨a, _, c⟩ => ⟨hE.1 a, (wRL.1 c).2, (wRL.1 c).1⟩, fun ⟨a, b, c⟩ => ⟨hE.2 a, uR, wRL.2 ⟨c, b⟩⟩⟩
  have h4 : RepeatSides (nameCountsSide nmL 0 GL) (nameCountsSide nmR 0 GR) ((countKw nmL nmR GL GR kw).map Prod.fst) ↔
      RepeatSides GL GR (kw.map Prod.fst) := by
    have key : (∀ w ∈ sideWords (nameCountsSide nmR 0 GR), ¬ IsNumber w →
          w ∈ sideWords (nameCountsSide nmL 0 GL) ∨ w ∈ (countKw nmL nmR GL GR kw).map Prod.fst) ↔
        ∀ w ∈ sideWords GR, ¬ IsNumber w → w ∈ sideWords GL ∨ w ∈ kw.map Prod.fst := by
      constructor
      · intro hh w hw hn
        rcases hh w (mem_counts.2 (.inl ⟨hw, by simp [isCount, hn]⟩)) hn with h5 | h5
        · rcases mem_counts.1 h5 with h6 | h6
          · exact .inl h6.1
          · exact absurd hw (nL w h6).2
        · rcases mem_countKw.1 h5 with h6 | h6 | h6
          · exact .inr h6
          · exact absurd hw (nL w h6).2
          · exact absurd hw (nR w h6).2
      · intro hh w hw hn
        rcases mem_counts.1 hw with h5 | h5
        · rcases hh w h5.1 hn with h6 | h6
          · exact .inl (mem_counts.2 (.inl ⟨h6, h5.2⟩))
          · exact .inr (mem_countKw.2 (.inl h6))
        · exact .inr (mem_countKw.2 (.inr (.inr h5)))
    exact ⟨fun ⟨a, _, c, d⟩ => ⟨hE.1 a, (wLR.1 c).2, (wLR.1 c).1, key.1 d⟩,
      fun ⟨a, b, c, d⟩ => ⟨hE.2 a, uL, wLR.2 ⟨c, b⟩, key.2 d⟩⟩
  unfold WordsOK SidesOK
  rw [h1, h2, h3, h4]

/-- the relabelling -/
def countLabel (nmL nmR : Nat → Str) : Axis → Axis
  | .str w => .str w
  | .anon s k _ => .str (if s = 0 then nmL k else nmR k)

/-- names for the numbers of one side -/
def sideNm (nmL nmR : Nat → Str) (side : Nat) : Nat → Str := if side = 0 then nmL else nmR

theorem wordAxes_counts {side k : Nat} {w : Str}
    (hn : isCount w = true → IsName false (sideNm nmL nmR side k)) :
    wordAxes side k (if isCount w then sideNm nmL nmR side k else w) = (wordAxes side k w).map (countLabel nmL nmR) := by
  by_cases hc : isCount w = true
  · rw [if_pos hc]
    obtain ⟨h1, h2⟩ := isCount_iff.1 hc
    have h3 := hn hc
    unfold wordAxes
    rw [if_neg (isName_ne_dots h3), if_neg (isName_not_number false h3), if_neg (number_ne_dots h1), if_pos h1, if_neg h2]
    simp only [List.map_cons, List.map_nil, countLabel, sideNm]
    split <;> rfl
  · rw [if_neg hc]
    unfold wordAxes
    split
    · rfl
    · split
      · rename_i h1
        split
        · rfl
        · rename_i h2
          exact absurd (isCount_iff.2 ⟨h1, h2⟩) hc
      · rfl

theorem wordsAxes_counts {side k : Nat} {ws : List Str}
    (hn : ∀ w, NewName (sideNm nmL nmR side) k ws w → IsName false w) :
    wordsAxes side k (nameCounts (sideNm nmL nmR side) k ws) = (wordsAxes side k ws).map (countLabel nmL nmR) := by
  induction ws generalizing k with
  | nil => rfl
  | cons w ws ih =>
    simp only [nameCounts, wordsAxes, List.map_append]
    rw [wordAxes_counts (fun hc => hn _ (newName_cons.2 (.inl ⟨hc, rfl⟩))),
      ih (fun v hv => hn v (newName_cons.2 (.inr hv)))]

/-- relabelling of composed axes -/
def CompAxis.relabel (φ : Axis → Axis) : CompAxis → CompAxis
  | .ell => .ell
  | .group g => .group (g.map φ)

theorem denote_counts {side k : Nat} {G : List Elem}
    (hn : ∀ w, NewName (sideNm nmL nmR side) k (sideWords G) w → IsName false w) :
    denote side k (nameCountsSide (sideNm nmL nmR side) k G) = (denote side k G).map (CompAxis.relabel (countLabel nmL nmR)) := by
  induction G generalizing k with
  | nil => rfl
  | cons e G ih =>
    cases e with
    | bare w =>
      have hs : sideWords (Elem.bare w :: G) = w :: sideWords G := by simp [sideWords, Elem.words]
      rw [hs] at hn
      have h1 := wordAxes_counts (nmL := nmL) (nmR := nmR) (side := side) (k := k) (w := w) (fun hc => hn _ (newName_cons.2 (.inl ⟨hc, rfl⟩)))
      have h2 := ih (k := k + 1) (fun v hv => hn v (newName_cons.2 (.inr hv)))
      simp only [nameCountsSide, denote, List.map_cons]
      rw [h1, h2]
      by_cases hd : w = dots
      · subst hd
        have : isCount dots = false := by simp [isCount, dots_not_number]
        simp [this, CompAxis.relabel]
      · rw [if_neg hd, if_neg]
        · rfl
        · split
          · rename_i hc
            exact isName_ne_dots (hn _ (newName_cons.2 (.inl ⟨hc, rfl⟩)))
          · exact hd
    | paren ws =>
      have hs : sideWords (Elem.paren ws :: G) = ws ++ sideWords G := by simp [sideWords, Elem.words]
      rw [hs] at hn
      have hl : (nameCounts (sideNm nmL nmR side) k ws).length = ws.length := nameCounts_length ..
      simp only [nameCountsSide, denote, List.map_cons]
      rw [hl, wordsAxes_counts, ih]
      · rfl
      · rintro v ⟨i, hi, h1, h2⟩
        refine hn v ⟨ws.length + i, by simp; omega, ?_, by rw [h2, Nat.add_assoc]⟩
        rw [List.getElem_append_right (by omega)]
        simpa using h1
      · rintro v ⟨i, hi, h1, h2⟩
        exact hn v ⟨i, by simp; omega, by rw [List.getElem_append_left hi]; exact h1, h2⟩

omit [PyUnicode] in
theorem spread_relabel {φ : Axis → Axis} {ell : List Axis} {c : List CompAxis} (he : ∀ a ∈ ell, φ a = a)
    (hm : ∀ a ∈ c.flatMap CompAxis.axes, φ a = .str ellipsisStr ↔ a = .str ellipsisStr) :
    spread ell (c.map (CompAxis.relabel φ)) = relabel φ (spread ell c) := by
  have hell : ell.map φ = ell := by
    conv_rhs => rw [← List.map_id ell]
    exact List.map_congr_left he
  unfold relabel
  induction c with
  | nil => rfl
  | cons x c ih =>
    have hm' : ∀ a ∈ c.flatMap CompAxis.axes, φ a = .str ellipsisStr ↔ a = .str ellipsisStr := fun a ha =>
      hm a (by simp only [List.flatMap_cons, List.mem_append]; exact .inr ha)
    cases x with
    | ell =>
      simp only [List.map_cons, CompAxis.relabel, spread, ih hm', List.map_append, List.map_map]
      congr 1
      apply List.map_congr_left
      intro a ha
      simp [he a ha]
    | group g =>
      simp only [List.map_cons, CompAxis.relabel, spread, ih hm']
      congr 1
      have hg : ∀ a ∈ g, φ a = .str ellipsisStr ↔ a = .str ellipsisStr := fun a ha => hm a (by
        simp only [List.flatMap_cons, List.mem_append]; exact .inl ha)
      clear hm hm' ih
      induction g with
      | nil => rfl
      | cons a g ihg =>
        simp only [List.map_cons, List.flatMap_cons, List.map_append]
        rw [ihg (fun a ha => hg a (by simp [ha]))]
        congr 1
        by_cases h : a = .str ellipsisStr
        · rw [if_pos h, if_pos ((hg a (by simp)).2 h), hell]
        · rw [if_neg h, if_neg (fun h' => h ((hg a (by simp)).1 h'))]; rfl

/-- a number among the axes of a side is one of its words -/
theorem anon_mem_side {side n : Nat} {G : List Elem} {s i v : Nat}
    (h : Axis.anon s i v ∈ (spread (ellAxes n) (denote side 0 G)).flatten) :
    s = side ∧ ∃ hi : i < (sideWords G).length, isCount (sideWords G)[i] = true ∧ v = decimalValue (sideWords G)[i] := by
  rw [spread_flatten, denote_axes] at h
  obtain ⟨a, ha, h1⟩ := List.mem_flatMap.1 h
  unfold subEll at h1
  split at h1
  · obtain ⟨j, _, h2⟩ := mem_ellAxes.1 h1
    cases h2
  · simp only [List.mem_singleton] at h1
    subst h1
    obtain ⟨h2, h3, h4, h5, h6, h7⟩ := anon_mem_wordsAxes ha
    simp only [Nat.sub_zero] at h4 h5 h6 h7
    exact ⟨h2, h4, isCount_iff.2 ⟨h5, h6⟩, h7⟩

theorem counts_side {side n : Nat} {G : List Elem}
    (hn : ∀ w, NewName (sideNm nmL nmR side) 0 (sideWords G) w → IsName false w) :
    spread (ellAxes n) (denote side 0 (nameCountsSide (sideNm nmL nmR side) 0 G)) =
      relabel (countLabel nmL nmR) (spread (ellAxes n) (denote side 0 G)) := by
  rw [denote_counts hn, spread_relabel]
  · intro a ha
    obtain ⟨i, _, rfl⟩ := mem_ellAxes.1 ha
    rfl
  · intro a ha
    rw [denote_axes] at ha
    cases a with
    | str w => rfl
    | anon s i v =>
      obtain ⟨h1, _, h2, h3, h4, _⟩ := anon_mem_wordsAxes ha
      simp only [Nat.sub_zero] at h2 h3 h4
      subst h1
      have := hn (sideNm nmL nmR s i) ⟨i, h2, isCount_iff.2 ⟨h3, h4⟩, by rw [Nat.zero_add]⟩
      have hx : countLabel nmL nmR (.anon s i v) = .str (sideNm nmL nmR s i) := by
        simp only [countLabel, sideNm]; split <;> rfl
      rw [hx]
      simp only [Axis.str.injEq, reduceCtorEq, iff_false]
      intro hc
      exact isName_no_ell this (by rw [hc]; simp [ellipsisStr])

theorem reduce_counts {pattern pattern' : Str} (hp : IsPattern pattern GL GR)
    (hp' : IsPattern pattern' (nameCountsSide nmL 0 GL) (nameCountsSide nmR 0 GR))
    (h : CountNames nmL nmR GL GR kw) (b : Backend α) (x : Tensor α) (red : Reduction α) (so so' : SetOrder) :
    reduce b so' (.one x) pattern' red (countKw nmL nmR GL GR kw) = reduce b so (.one x) pattern red kw := by
  obtain ⟨_, l, r, _, hL, hR⟩ := isPattern_split hp
  refine reduce_transfer hp hp' red h.nodupKw h.nodup (counts_wordsOK h) (fun hw => ?_) b so so'
  have hcount : ellCount (nameCountsSide nmL 0 GL) x.ndim = ellCount GL x.ndim := by
    have hl : ∀ k, (nameCountsSide nmL k GL).length = GL.length := by
      clear hw hp hp' h hL
      induction GL with
      | nil => intro k; rfl
      | cons e G ih => intro k; cases e <;> simp [nameCountsSide, ih]
    unfold ellCount
    rw [hl]
    simp only [counts_dots (fun w hw => (h.nameL hw).1)]
  rw [hcount]
  rcases hc : ellCount GL x.ndim with _ | n
  · exact .inl ⟨rfl, rfl⟩
  refine .inr ⟨n, n, countLabel nmL nmR, rfl, rfl, ?_⟩
  have eL := side_no_ell hL
  have eR := side_no_ell hR
  have hstr : ∀ w, Axis.str w ∈ (exOf GL GR n).left.flatten ++ (exOf GL GR n).rght.flatten →
      '…' ∈ w ∨ w ∈ sideWords GL ++ sideWords GR := by
    intro w hm
    rcases str_mem_exOf hm with ⟨h1, _⟩ | ⟨h1, _⟩
    · left
      obtain ⟨i, _, h2⟩ := mem_ellAxes.1 h1
      simp only [Axis.str.injEq] at h2
      rw [h2]; simp [ellipsisStr]
    · exact .inr h1
  have hanon : ∀ s i v, Axis.anon s i v ∈ (exOf GL GR n).left.flatten ++ (exOf GL GR n).rght.flatten →
      (s = 0 ∧ ∃ hi : i < (sideWords GL).length, isCount (sideWords GL)[i] = true ∧ v = decimalValue (sideWords GL)[i]) ∨
      (s = 1 ∧ ∃ hi : i < (sideWords GR).length, isCount (sideWords GR)[i] = true ∧ v = decimalValue (sideWords GR)[i]) := by
    intro s i v hm
    rcases List.mem_append.1 hm with hm | hm
    · exact .inl (anon_mem_side hm)
    · exact .inr (anon_mem_side hm)
  have newL : ∀ i, (hi : i < (sideWords GL).length) → isCount (sideWords GL)[i] = true → NewName nmL 0 (sideWords GL) (nmL i) :=
    fun i hi hc => ⟨i, hi, hc, by rw [Nat.zero_add]⟩
  have newR : ∀ i, (hi : i < (sideWords GR).length) → isCount (sideWords GR)[i] = true → NewName nmR 0 (sideWords GR) (nmR i) :=
    fun i hi hc => ⟨i, hi, hc, by rw [Nat.zero_add]⟩
  have notNew : ∀ w, Axis.str w ∈ (exOf GL GR n).left.flatten ++ (exOf GL GR n).rght.flatten →
      ¬ NewName nmL 0 (sideWords GL) w ∧ ¬ NewName nmR 0 (sideWords GR) w := by
    intro w hm
    rcases hstr w hm with h1 | h1
    · exact ⟨fun h2 => isName_no_ell (h.nameL h2).1 h1, fun h2 => isName_no_ell (h.nameR h2).1 h1⟩
    · exact ⟨fun h2 => (h.nameL h2).2 h1, fun h2 => (h.nameR h2).2 h1⟩
  have sa : ∀ w s i v, Axis.str w ∈ (exOf GL GR n).left.flatten ++ (exOf GL GR n).rght.flatten →
      Axis.anon s i v ∈ (exOf GL GR n).left.flatten ++ (exOf GL GR n).rght.flatten →
      countLabel nmL nmR (.str w) ≠ countLabel nmL nmR (.anon s i v) := by
    intro w s i v hw hm he
    rcases hanon s i v hm with ⟨rfl, hi, h1, h2⟩ | ⟨rfl, hi, h1, h2⟩
    · simp only [countLabel, Axis.str.injEq] at he
      exact (notNew w hw).1 (he ▸ newL i hi h1)
    · simp only [countLabel, Axis.str.injEq] at he
      exact (notNew w hw).2 (he ▸ newR i hi h1)
  constructor
  · exact counts_side (nmL := nmL) (nmR := nmR) (side := 0) (fun w hw => (h.nameL hw).1)
  · exact counts_side (nmL := nmL) (nmR := nmR) (side := 1) (fun w hw => (h.nameR hw).1)
  · intro a ha c hc' he
    cases a with
    | str w =>
      cases c with
      | str v => exact he
      | anon s i v => exact absurd he (sa w s i v ha hc')
    | anon s i v =>
      cases c with
      | str w => exact absurd he.symm (sa w s i v hc' ha)
      | anon t j u =>
        rcases hanon s i v ha with ⟨rfl, hi, h1, h2⟩ | ⟨rfl, hi, h1, h2⟩ <;>
        rcases hanon t j u hc' with ⟨rfl, hj, h3, h4⟩ | ⟨rfl, hj, h3, h4⟩ <;>
        simp only [countLabel, Axis.str.injEq, if_true, Nat.one_ne_zero, if_false] at he
        · have := countSizes_inj h.nodupL hi hj h1 h3 (by simpa using he)
          subst this
          rw [h2, h4]
        · exact (h.disj (newL i hi h1) (he ▸ newR j hj h3)).elim
        · exact (h.disj (he ▸ newL j hj h3) (newR i hi h1)).elim
        · have := countSizes_inj h.nodupR hi hj h1 h3 (by simpa using he)
          subst this
          rw [h2, h4]
  · intro a ha
    cases a with
    | str w =>
      simp only [countLabel, knownSize]
      obtain ⟨h1, h2⟩ := notNew w ha
      rcases hk : dictGet kw w with _ | s
      · rw [dictGet_eq_none]
        rw [mem_countKw]
        rintro (h3 | h3 | h3)
        · have := dictGet_isSome.2 h3
          rw [hk] at this; cases this
        · exact h1 h3
        · exact h2 h3
      · exact dictGet_of_mem h.nodup (List.mem_append_left _ (dictGet_mem hk))
    | anon s i v =>
      rcases hanon s i v ha with ⟨rfl, hi, h1, h2⟩ | ⟨rfl, hi, h1, h2⟩
      · simp only [countLabel, knownSize]
        refine dictGet_of_mem h.nodup (List.mem_append_right _ (List.mem_append_left _ (mem_countSizes.2 ⟨i, hi, h1, ?_⟩)))
        rw [h2, Nat.zero_add]; rfl
      · simp only [countLabel, knownSize]
        refine dictGet_of_mem h.nodup (List.mem_append_right _ (List.mem_append_right _ (mem_countSizes.2 ⟨i, hi, h1, ?_⟩)))
        rw [h2, Nat.zero_add]; rfl

end

end Einops
