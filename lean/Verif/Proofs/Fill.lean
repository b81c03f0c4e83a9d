import Verif.Proofs.Units

/-! Names written for the ellipsis. -/

namespace Einops

universe u
variable {α : Type u} [PyUnicode]

/-- the words of a filled side -/
def fillWord (es : List Str) (w : Str) : List Str := if w = dots then es else [w]

omit [PyUnicode] in
theorem sideWords_fill (es : List Str) (G : List Elem) :
    sideWords (fillEllipsis es G) = (sideWords G).flatMap (fillWord es) := by
  unfold sideWords fillEllipsis
  rw [List.flatMap_assoc, List.flatMap_assoc]
  congr 1
  funext e
  cases e with
  | bare w =>
    simp only [Elem.words, List.flatMap_cons, List.flatMap_nil, List.append_nil, fillWord]
    split
    · induction es with
      | nil => rfl
      | cons e es ih => simp [Elem.words, ih]
    · simp [Elem.words]
  | paren ws => simp [Elem.words]; rfl

omit [PyUnicode] in
theorem mem_fill {es : List Str} {G : List Elem} {w : Str} :
    w ∈ sideWords (fillEllipsis es G) ↔ (w ∈ sideWords G ∧ w ≠ dots) ∨ (w ∈ es ∧ dots ∈ sideWords G) := by
  rw [sideWords_fill, List.mem_flatMap]
  unfold fillWord
  constructor
  · rintro ⟨v, hv, h⟩
    split at h
    · rename_i hd
      exact .inr ⟨h, hd ▸ hv⟩
    · rename_i hd
      simp only [List.mem_singleton] at h
      subst h
      exact .inl ⟨hv, hd⟩
  · rintro (⟨h1, h2⟩ | ⟨h1, h2⟩)
    · exact ⟨w, h1, by rw [if_neg h2]; simp⟩
    · exact ⟨dots, h2, by rw [if_pos rfl]; exact h1⟩

/-- fresh names for the axes of the ellipsis -/
structure FreshNames (es : List Str) (GL GR : List Elem) (names : List Str) : Prop where
  name : ∀ e ∈ es, IsName false e
  nodup : es.Nodup
  fresh : ∀ e ∈ es, e ∉ sideWords GL ++ sideWords GR ∧ e ∉ names

section
variable {es : List Str} {GL GR : List Elem} {names : List Str}

theorem fill_number {G : List Elem} (he : ∀ e ∈ es, IsName false e) {w : Str} (hw : IsNumber w) :
    w ∈ sideWords (fillEllipsis es G) ↔ w ∈ sideWords G := by
  rw [mem_fill]
  constructor
  · rintro (h | h)
    · exact h.1
    · exact absurd hw (isName_not_number false (he w h.1))
  · exact fun h => .inl ⟨h, number_ne_dots hw⟩

theorem fill_onlyUnits {G : List Elem} (he : ∀ e ∈ es, IsName false e) : OnlyUnits (fillEllipsis es G) ↔ OnlyUnits G := by
  unfold OnlyUnits
  exact forall_congr' fun w => ⟨fun h hw hn => h ((fill_number he hn).2 hw) hn, fun h hw hn => h ((fill_number he hn).1 hw) hn⟩

theorem fill_no_dots {G : List Elem} (he : ∀ e ∈ es, IsName false e) : dots ∉ sideWords (fillEllipsis es G) := by
  rw [mem_fill]
  rintro (h | h)
  · exact h.2 rfl
  · exact isName_ne_dots (he _ h.1) rfl

omit [PyUnicode] in
theorem fill_old {G : List Elem} {w : Str} (hw : w ∉ es) (hd : w ≠ dots) : w ∈ sideWords (fillEllipsis es G) ↔ w ∈ sideWords G := by
  rw [mem_fill]
  constructor
  · rintro (h | h)
    · exact h.1
    · exact absurd h.1 hw
  · exact fun h => .inl ⟨h, hd⟩

theorem fill_within {G G' : List Elem} (hf : FreshNames es GL GR names) (hG : ∀ w ∈ sideWords G, w ∉ es)
    (hG' : ∀ w ∈ sideWords G', w ∉ es) (hd : dots ∈ sideWords G → es ≠ [] ∨ dots ∈ sideWords G') :
    NamesWithin (fillEllipsis es G) (fillEllipsis es G') ↔ NamesWithin G G' := by
  unfold NamesWithin
  constructor
  · intro h w hw hn
    by_cases hwd : w = dots
    · subst hwd
      rcases hd hw with h1 | h1
      · obtain ⟨e, he⟩ := List.exists_mem_of_ne_nil es h1
        have := h e (mem_fill.2 (.inr ⟨he, hw⟩)) (isName_not_number false (hf.name e he))
        rcases mem_fill.1 this with h2 | h2
        · exact absurd he (hG' e h2.1)
        · exact h2.2
      · exact h1
    · have hwe := hG w hw
      exact (fill_old hwe hwd).1 (h w ((fill_old hwe hwd).2 hw) hn)
  · intro h w hw hn
    rcases mem_fill.1 hw with ⟨h1, h2⟩ | ⟨h1, h2⟩
    · exact mem_fill.2 (.inl ⟨h w h1 hn, h2⟩)
    · exact mem_fill.2 (.inr ⟨h1, h dots h2 dots_not_number⟩)

theorem fill_wordsOK {op : OpKind} (hf : FreshNames es GL GR names) (hd : dots ∈ sideWords GL)
    (hp : ∀ ws, Elem.paren ws ∈ GL → dots ∉ ws) (hc : es ≠ [] ∨ dots ∈ sideWords GR ∨ isRed op) :
    WordsOK op (fillEllipsis es GL) (fillEllipsis es GR) names ↔ WordsOK op GL GR names := by
  have oL : ∀ w ∈ sideWords GL, w ∉ es := fun w hw he => (hf.fresh w he).1 (List.mem_append_left _ hw)
  have oR : ∀ w ∈ sideWords GR, w ∉ es := fun w hw he => (hf.fresh w he).1 (List.mem_append_right _ hw)
  have hE : EllipsisOK GL GR := ⟨fun _ => hd, hp⟩
  have hE' : EllipsisOK (fillEllipsis es GL) (fillEllipsis es GR) := by
    refine ⟨fun h => absurd h (fill_no_dots hf.name), fun ws hws hm => fill_no_dots hf.name (G := GL) ?_⟩
    exact List.mem_flatMap.2 ⟨_, hws, hm⟩
  have uL := fill_onlyUnits (G := GL) hf.name
  have uR := fill_onlyUnits (G := GR) hf.name
  have wRL := fill_within hf oR oL (fun _ => .inr hd)
  have h1 : KeywordsUsed (fillEllipsis es GL) (fillEllipsis es GR) names ↔ KeywordsUsed GL GR names := by
    unfold KeywordsUsed
    refine forall₂_congr fun w hw => and_congr_right fun hn => ?_
    have he : w ∉ es := fun h => (hf.fresh w h).2 hw
    rw [List.mem_append, List.mem_append, fill_old he (isName_ne_dots hn), fill_old he (isName_ne_dots hn)]
  have h3 : ReduceSides (fillEllipsis es GL) (fillEllipsis es GR) ↔ ReduceSides GL GR :=
    ⟨fun ⟨_, b, c⟩ => ⟨hE, uR.1 b, wRL.1 c⟩, fun ⟨_, b, c⟩ => ⟨hE', uR.2 b, wRL.2 c⟩⟩
  have key : (∀ w ∈ sideWords (fillEllipsis es GR), ¬ IsNumber w → w ∈ sideWords (fillEllipsis es GL) ∨ w ∈ names) ↔
      ∀ w ∈ sideWords GR, ¬ IsNumber w → w ∈ sideWords GL ∨ w ∈ names := by
    constructor
    · intro h w hw hn
      by_cases hwd : w = dots
      · subst hwd; exact .inl hd
      · rw [← fill_old (G := GL) (oR w hw) hwd]
        exact h w ((fill_old (oR w hw) hwd).2 hw) hn
    · intro h w hw hn
      rcases mem_fill.1 hw with ⟨h2, h3⟩ | ⟨h2, h3⟩
      · rw [fill_old (oR w h2) h3]
        exact h w h2 hn
      · exact .inl (mem_fill.2 (.inr ⟨h2, hd⟩))
  unfold WordsOK SidesOK
  rw [h1, h3]
  refine and_congr_left fun _ => ?_
  split
  · rename_i hop
    have wLR := fill_within hf oL oR (fun _ => by
      rcases hc with h | h | h
      · exact .inl h
      · exact .inr h
      · exact absurd hop h.1)
    exact ⟨fun ⟨_, b, c, d, e⟩ => ⟨hE, uL.1 b, uR.1 c, wLR.1 d, wRL.1 e⟩,
      fun ⟨_, b, c, d, e⟩ => ⟨hE', uL.2 b, uR.2 c, wLR.2 d, wRL.2 e⟩⟩
  · split
    · rename_i hop
      have wLR := fill_within hf oL oR (fun _ => by
        rcases hc with h | h | h
        · exact .inl h
        · exact .inr h
        · exact absurd hop h.2)
      exact ⟨fun ⟨_, b, c, d⟩ => ⟨hE, uL.1 b, wLR.1 c, key.1 d⟩, fun ⟨_, b, c, d⟩ => ⟨hE', uL.2 b, wLR.2 c, key.2 d⟩⟩
    · exact Iff.rfl

/-- names given to the axes of the ellipsis -/
def fillName (es : List Str) (w : Str) : Str :=
  if Axis.str w ∈ ellAxes es.length then (es[(ellAxes es.length).idxOf (.str w)]?).getD w else w

omit [PyUnicode] in
theorem stands_fill_ell (side : Nat) (es : List Str) :
    List.Forall₂ (Stands side (fillName es)) (ellAxes es.length) (es.map Axis.str) := by
  rw [List.forall₂_iff_get]
  refine ⟨by simp [ellAxes], fun i h1 h2 => ?_⟩
  simp only [List.get_eq_getElem]
  have hmem := List.getElem_mem h1
  obtain ⟨j, hj, he⟩ := mem_ellAxes.1 hmem
  left
  refine ⟨_, he, ?_⟩
  unfold fillName
  rw [← he, if_pos hmem, (ellAxes_nodup _).idxOf_getElem i h1, List.getElem_map,
    List.getElem?_eq_getElem (by simpa using h2)]
  rfl

omit [PyUnicode] in
theorem fillName_old {w : Str} (h : '…' ∉ w) : fillName es w = w := if_neg (name_not_mem_ellAxes h)

omit [PyUnicode] in
theorem forall₂_nil_iff {r : Axis → Axis → Prop} : List.Forall₂ r [] [] := .nil

theorem stands_fill_word {side k k' : Nat} (hes : ∀ e ∈ es, IsName false e) {w : Str} (hw : '…' ∉ w) :
    List.Forall₂ (Stands side (fillName es))
      ((wordAxes side k w).flatMap (fun a => if a = .str ellipsisStr then ellAxes es.length else [a]))
      ((wordsAxes side k' (fillWord es w)).flatMap (fun a => if a = .str ellipsisStr then [] else [a])) := by
  unfold fillWord
  by_cases hd : w = dots
  · rw [if_pos hd]
    have h1 : ∀ (es : List Str) k', (∀ e ∈ es, IsName false e) →
        (wordsAxes side k' es).flatMap (fun a => if a = .str ellipsisStr then [] else [a]) = es.map Axis.str := by
      intro es
      induction es with
      | nil => intros; rfl
      | cons e es ih =>
        intro k' h
        have he := h e (by simp)
        have hne : e ≠ ellipsisStr := fun hc => isName_no_ell he (by rw [hc]; simp [ellipsisStr])
        simp only [wordsAxes, List.flatMap_append, List.map_cons]
        rw [ih (k' + 1) (fun e he => h e (by simp [he]))]
        simp [wordAxes, isName_ne_dots he, isName_not_number false he, hne]
    rw [h1 es k' hes]
    simp only [wordAxes, hd, if_true, List.flatMap_cons, List.flatMap_nil, List.append_nil]
    exact stands_fill_ell side es
  · rw [if_neg hd]
    simp only [wordsAxes, List.append_nil, wordAxes, if_neg hd]
    by_cases h2 : IsNumber w
    · rw [if_pos h2, if_pos h2]
      split
      · exact .nil
      · simp only [List.flatMap_cons, List.flatMap_nil, List.append_nil, reduceCtorEq, if_false]
        exact .cons (.inr ⟨_, _, _, rfl, rfl⟩) .nil
    · rw [if_neg h2, if_neg h2]
      have hne : w ≠ ellipsisStr := fun hc => hw (by rw [hc]; simp [ellipsisStr])
      simp only [List.flatMap_cons, List.flatMap_nil, List.append_nil, Axis.str.injEq, hne, if_false]
      exact .cons (.inl ⟨_, rfl, by rw [fillName_old hw]⟩) .nil

theorem stands_fill_words {side k k' : Nat} (hes : ∀ e ∈ es, IsName false e) {ws : List Str} (hw : ∀ w ∈ ws, '…' ∉ w) :
    List.Forall₂ (Stands side (fillName es))
      ((wordsAxes side k ws).flatMap (fun a => if a = .str ellipsisStr then ellAxes es.length else [a]))
      ((wordsAxes side k' (ws.flatMap (fillWord es))).flatMap (fun a => if a = .str ellipsisStr then [] else [a])) := by
  induction ws generalizing k k' with
  | nil => exact .nil
  | cons w ws ih =>
    simp only [wordsAxes, List.flatMap_cons, List.flatMap_append]
    rw [wordsAxes_append, List.flatMap_append]
    exact List.rel_append (stands_fill_word hes (hw w (by simp))) (ih (fun v hv => hw v (by simp [hv])))

theorem denote_names {side k : Nat} {G : List Elem} (hes : ∀ e ∈ es, IsName false e) :
    denote side k (es.map Elem.bare ++ G) = es.map (fun e => CompAxis.group [.str e]) ++ denote side (k + es.length) G := by
  induction es generalizing k with
  | nil => simp
  | cons e es ih =>
    have he := hes e (by simp)
    simp only [List.map_cons, List.cons_append, denote]
    rw [ih (fun e h => hes e (by simp [h]))]
    simp [wordAxes, isName_ne_dots he, isName_not_number false he, Nat.add_assoc, Nat.add_comm 1]

omit [PyUnicode] in
theorem spread_append (ell : List Axis) (a c : List CompAxis) : spread ell (a ++ c) = spread ell a ++ spread ell c := by
  induction a with
  | nil => rfl
  | cons x a ih => cases x <;> simp [spread, ih]

theorem spread_names (hes : ∀ e ∈ es, IsName false e) (ell : List Axis) :
    spread ell (es.map (fun e => CompAxis.group [.str e])) = (es.map Axis.str).map (fun a => [a]) := by
  induction es with
  | nil => rfl
  | cons e es ih =>
    have he := hes e (by simp)
    have hne : e ≠ ellipsisStr := fun hc => isName_no_ell he (by rw [hc]; simp [ellipsisStr])
    simp only [List.map_cons, spread]
    rw [ih (fun e h => hes e (by simp [h]))]
    simp [hne]

theorem stands_fill {side k k' : Nat} (hes : ∀ e ∈ es, IsName false e) {G : List Elem} (hw : ∀ w ∈ sideWords G, '…' ∉ w) :
    List.Forall₂ (List.Forall₂ (Stands side (fillName es))) (spread (ellAxes es.length) (denote side k G))
      (spread (ellAxes 0) (denote side k' (fillEllipsis es G))) := by
  induction G generalizing k k' with
  | nil => exact .nil
  | cons e G ih =>
    have hw' : ∀ w ∈ sideWords G, '…' ∉ w := fun w h => hw w (by
      simp only [sideWords, List.flatMap_cons, List.mem_append]; exact .inr h)
    cases e with
    | bare w =>
      have hwe : '…' ∉ w := hw w (by simp [sideWords, Elem.words])
      unfold fillEllipsis
      simp only [List.flatMap_cons, denote]
      by_cases hd : w = dots
      · rw [if_pos hd, if_pos hd, denote_names hes, spread_append, spread_names hes]
        simp only [spread]
        exact List.rel_append (stands_singletons (stands_fill_ell side es)) (ih hw')
      · have h := stands_fill_word (side := side) (k := k) (k' := k') hes hwe
        unfold fillWord at h
        rw [if_neg hd] at h
        simp only [wordsAxes, List.append_nil] at h
        rw [if_neg hd, if_neg hd]
        simp only [List.cons_append, List.nil_append, denote, if_neg hd, spread]
        exact .cons h (ih hw')
    | paren ws =>
      have h := stands_fill_words (side := side) (k := k) (k' := k') (ws := ws) hes (fun w h => hw w (by simp [sideWords, Elem.words, h]))
      unfold fillEllipsis
      simp only [List.flatMap_cons, List.cons_append, List.nil_append, denote, spread]
      exact .cons h (ih hw')

omit [PyUnicode] in
theorem fill_length (es : List Str) (G : List Elem) :
    (fillEllipsis es G).length + G.count (.bare dots) = G.length + G.count (.bare dots) * es.length := by
  unfold fillEllipsis
  induction G with
  | nil => simp
  | cons e G ih =>
    cases e with
    | bare w =>
      simp only [List.flatMap_cons, List.length_append, List.length_cons, List.count_cons]
      by_cases hd : w = dots
      · simp only [hd, if_true, List.length_map, beq_self_eq_true, Nat.add_mul, Nat.one_mul]
        omega
      · simp only [hd, if_false, List.length_cons, List.length_nil]
        rw [if_neg (by simpa using hd)]; simp only [Nat.add_zero]
        omega
    | paren ws =>
      simp only [List.flatMap_cons, List.length_append, List.length_cons, List.length_nil, List.count_cons]
      rw [if_neg (by simp)]; simp only [Nat.add_zero]
      omega

end

theorem reduce_fill {pattern pattern' : Str} {GL GR : List Elem} {es : List Str} (hp : IsPattern pattern GL GR)
    (hp' : IsPattern pattern' (fillEllipsis es GL) (fillEllipsis es GR)) {kw : List (Str × Size)}
    (hn : (kw.map Prod.fst).Nodup) (hf : FreshNames es GL GR (kw.map Prod.fst)) (hd : dots ∈ sideWords GL)
    (hpar : ∀ ws, Elem.paren ws ∈ GL → dots ∉ ws) (x : Tensor α) (hx : x.ndim + 1 = GL.length + es.length)
    (red : Reduction α) (hc : es ≠ [] ∨ dots ∈ sideWords GR ∨ isRed red.kind) (b : Backend α) (so so' : SetOrder) :
    reduce b so' (.one x) pattern' red kw = reduce b so (.one x) pattern red kw := by
  obtain ⟨_, l, r, _, hL, hR⟩ := isPattern_split hp
  obtain ⟨_, l', r', _, hL', hR'⟩ := isPattern_split hp'
  refine reduce_transfer hp hp' red hn hn (fill_wordsOK hf hd hpar hc) (fun hw => ?_) b so so'
  have eL := side_no_ell hL
  have eR := side_no_ell hR
  have hcount : ellCount GL x.ndim = some es.length := by
    unfold ellCount
    have : 0 < GL.length := by
      rcases GL with _ | ⟨e, G⟩
      · simp [sideWords] at hd
      · simp
    rw [if_pos hd, if_neg (by omega)]
    congr 1
    omega
  have hcount' : ellCount (fillEllipsis es GL) x.ndim = some 0 := by
    unfold ellCount
    have h1 := fill_length es GL
    rw [bare_count_of hL.one_ellipsis hpar, if_pos hd] at h1
    rw [if_neg (fill_no_dots hf.name), if_pos (by omega)]
  right
  have hdisj : ∀ w, Axis.str w ∈ (exOf GL GR es.length).left.flatten ++ (exOf GL GR es.length).rght.flatten →
      (Axis.str w ∈ ellAxes es.length ∧ '…' ∈ w) ∨ ('…' ∉ w ∧ w ∈ sideWords GL ++ sideWords GR) := by
    intro w hm
    rcases str_mem_exOf hm with ⟨h1, _⟩ | ⟨h1, _⟩
    · left
      obtain ⟨i, _, h2⟩ := mem_ellAxes.1 h1
      simp only [Axis.str.injEq] at h2
      exact ⟨h1, by rw [h2]; simp [ellipsisStr]⟩
    · right
      refine ⟨?_, h1⟩
      rcases List.mem_append.1 h1 with h | h
      · exact eL w h
      · exact eR w h
  have hell : ∀ w, Axis.str w ∈ ellAxes es.length → ∃ h : (ellAxes es.length).idxOf (.str w) < es.length,
      fillName es w = es[(ellAxes es.length).idxOf (.str w)] := by
    intro w hw
    have h : (ellAxes es.length).idxOf (.str w) < es.length := by
      have := List.idxOf_lt_length_of_mem hw
      simpa [ellAxes] using this
    refine ⟨h, ?_⟩
    unfold fillName
    rw [if_pos hw, List.getElem?_eq_getElem h]
    rfl
  obtain ⟨φ, hφ⟩ := sameUpTo_of_stands (g := fillName es) (n := es.length) (n' := 0) (kw := kw) (kw' := kw) hL hR hL' hR'
    (stands_fill hf.name eL) (stands_fill hf.name eR) (by
      intro w v hw hv h
      rcases hdisj w hw with ⟨h1, _⟩ | ⟨h1, h2⟩ <;> rcases hdisj v hv with ⟨h3, _⟩ | ⟨h3, h4⟩
      · obtain ⟨h5, h6⟩ := hell w h1
        obtain ⟨h7, h8⟩ := hell v h3
        rw [h6, h8, hf.nodup.getElem_inj_iff] at h
        have := (List.idxOf_inj h1).1 h
        simpa using this
      · obtain ⟨h5, h6⟩ := hell w h1
        rw [h6, fillName_old h3] at h
        exact absurd (h ▸ h4) (hf.fresh _ (List.getElem_mem h5)).1
      · obtain ⟨h5, h6⟩ := hell v h3
        rw [h6, fillName_old h1] at h
        exact absurd (h ▸ h2) (hf.fresh _ (List.getElem_mem h5)).1
      · rwa [fillName_old h1, fillName_old h3] at h) (by
      intro w hw'
      rcases hdisj w hw' with ⟨h1, h2⟩ | ⟨h1, h2⟩
      · obtain ⟨h5, h6⟩ := hell w h1
        rw [h6, dictGet_eq_none (hf.fresh _ (List.getElem_mem h5)).2, dictGet_eq_none]
        intro hm
        exact isName_no_ell (hw.2 w hm).1 h2
      · rw [fillName_old h1])
  exact ⟨es.length, 0, φ, hcount, hcount', hφ⟩

end Einops
