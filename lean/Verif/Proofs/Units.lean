import Verif.Proofs.Rewrites

/-! Patterns written from their structure; unit axes. -/

namespace Einops

universe u
variable {α : Type u} [PyUnicode]

/-! ### every legal structure can be written -/

def Tok.render : Tok → Str
  | .lp => ['(']
  | .rp => [')']
  | .word w => w ++ [' ']

omit [PyUnicode] in
theorem lexes_render {T : List Tok} (h : ∀ w, Tok.word w ∈ T → w ≠ [] ∧ ∀ c ∈ w, ¬ isSep c) :
    Lexes (T.flatMap Tok.render) T := by
  induction T with
  | nil => exact .nil
  | cons t T ih =>
    have ih' := ih (fun w hw => h w (by simp [hw]))
    simp only [List.flatMap_cons]
    cases t with
    | lp => exact .lp ih'
    | rp => exact .rp ih'
    | word w =>
      obtain ⟨h1, h2⟩ := h w (by simp)
      simp only [Tok.render, List.append_assoc, List.singleton_append]
      refine .word h1 h2 ?_ (.space ih')
      intro c hc
      simp only [List.head?_cons, Option.mem_def, Option.some.injEq] at hc
      subst hc
      exact .inr (.inr rfl)

/-- the rules for the words of a side -/
def GoodSide (G : List Elem) : Prop :=
  (∀ w ∈ sideWords G, WordOK false w) ∧ (sideWords G).count dots ≤ 1 ∧
    ((sideWords G).filter (unrepeatable false)).Nodup

theorem wordOK_nonempty {u : Bool} {w : Str} (h : WordOK u w) : w ≠ [] := by
  rcases h with rfl | h | h
  · simp [dots]
  · exact h.1.1
  · rintro rfl
    have := isIdentifier_iff.2 h.2.1
    simp [isIdentifier] at this

theorem exists_side {G : List Elem} (h : GoodSide G) : ∃ s, IsSide false false s G := by
  refine ⟨(G.flatMap Elem.toks).flatMap Tok.render, lexes_render ?_, h.1, h.2.1, fun _ => h.2.2⟩
  intro w hw
  have hok := h.1 w (mem_toks_words.1 hw)
  refine ⟨wordOK_nonempty hok, fun c hc hs => ?_⟩
  by_cases hd : w = dots
  · subst hd
    simp only [dots, List.mem_cons, List.not_mem_nil, or_false, or_self] at hc
    subst hc
    exact absurd hs (by decide)
  · exact okChar_not_sep (head_last_ok false hok hd c hc) hs

theorem exists_pattern {GL GR : List Elem} (hL : GoodSide GL) (hR : GoodSide GR) : ∃ pattern, IsPattern pattern GL GR := by
  obtain ⟨l, hl⟩ := exists_side hL
  obtain ⟨r, hr⟩ := exists_side hR
  exact ⟨l ++ ['-', '>'] ++ r, l, r, rfl, hl, hr⟩

theorem IsSide.good {s : Str} {G : List Elem} (h : IsSide false false s G) : GoodSide G :=
  ⟨h.words_ok, h.one_ellipsis, h.nodup rfl⟩

/-! ### units -/

theorem isUnit_number {w : Str} (h : isUnit w = true) : IsNumber w ∧ decimalValue w = 1 := by
  simpa [isUnit] using h

theorem not_unit_dots : isUnit dots = false := by
  simp [isUnit, dots_not_number]

theorem sideWords_dropUnits (G : List Elem) :
    sideWords (G.map Elem.dropUnits) = (sideWords G).filter (fun w => !isUnit w) := by
  unfold sideWords
  rw [List.flatMap_map, List.filter_flatMap]
  congr 1
  funext e
  cases e with
  | bare w =>
    simp only [Elem.dropUnits]
    by_cases h : isUnit w = true
    · simp [h, Elem.words]
    · simp [h, Elem.words]
  | paren ws => simp [Elem.dropUnits, Elem.words]

theorem mem_dropUnits {G : List Elem} {w : Str} :
    w ∈ sideWords (G.map Elem.dropUnits) ↔ w ∈ sideWords G ∧ isUnit w = false := by
  rw [sideWords_dropUnits]; simp

theorem mem_dropUnits_name {G : List Elem} {w : Str} (h : ¬ IsNumber w) :
    w ∈ sideWords (G.map Elem.dropUnits) ↔ w ∈ sideWords G := by
  rw [mem_dropUnits]
  refine ⟨fun h => h.1, fun hw => ⟨hw, ?_⟩⟩
  simp [isUnit, h]

theorem onlyUnits_dropUnits {G : List Elem} : OnlyUnits (G.map Elem.dropUnits) ↔ OnlyUnits G := by
  unfold OnlyUnits
  simp only [mem_dropUnits]
  constructor
  · intro h w hw hn
    by_contra hc
    exact hc (h w ⟨hw, by simp [isUnit, hc]⟩ hn)
  · exact fun h w hw hn => h w hw.1 hn

theorem within_dropUnits {G G' : List Elem} :
    NamesWithin (G.map Elem.dropUnits) (G'.map Elem.dropUnits) ↔ NamesWithin G G' := by
  unfold NamesWithin
  constructor
  · intro h w hw hn
    exact (mem_dropUnits_name hn).1 (h w ((mem_dropUnits_name hn).2 hw) hn)
  · intro h w hw hn
    exact (mem_dropUnits_name hn).2 (h w ((mem_dropUnits_name hn).1 hw) hn)

theorem ellipsisOK_dropUnits {GL GR : List Elem} :
    EllipsisOK (GL.map Elem.dropUnits) (GR.map Elem.dropUnits) ↔ EllipsisOK GL GR := by
  unfold EllipsisOK
  rw [mem_dropUnits_name dots_not_number, mem_dropUnits_name dots_not_number]
  refine and_congr_right fun _ => ?_
  constructor
  · intro h ws hws hd
    refine h (ws.filter (fun w => !isUnit w)) (List.mem_map.2 ⟨_, hws, rfl⟩) ?_
    simp [hd, not_unit_dots]
  · intro h ws hws hd
    obtain ⟨e, he, h1⟩ := List.mem_map.1 hws
    cases e with
    | bare w =>
      simp only [Elem.dropUnits] at h1
      split at h1
      · simp only [Elem.paren.injEq] at h1
        rw [← h1] at hd; cases hd
      · cases h1
    | paren vs =>
      simp only [Elem.dropUnits, Elem.paren.injEq] at h1
      subst h1
      exact h vs he (List.mem_of_mem_filter hd)

theorem wordsOK_dropUnits {op : OpKind} {GL GR : List Elem} {names : List Str} :
    WordsOK op (GL.map Elem.dropUnits) (GR.map Elem.dropUnits) names ↔ WordsOK op GL GR names := by
  have hE := ellipsisOK_dropUnits (GL := GL) (GR := GR)
  have uL := onlyUnits_dropUnits (G := GL)
  have uR := onlyUnits_dropUnits (G := GR)
  have wLR := within_dropUnits (G := GL) (G' := GR)
  have wRL := within_dropUnits (G := GR) (G' := GL)
  have h1 : KeywordsUsed (GL.map Elem.dropUnits) (GR.map Elem.dropUnits) names ↔ KeywordsUsed GL GR names := by
    unfold KeywordsUsed
    refine forall₂_congr fun w _ => and_congr_right fun hn => ?_
    rw [List.mem_append, List.mem_append, mem_dropUnits_name (isName_not_number false hn),
      mem_dropUnits_name (isName_not_number false hn)]
  have h2 : RearrangeSides (GL.map Elem.dropUnits) (GR.map Elem.dropUnits) ↔ RearrangeSides GL GR :=
    ⟨fun ⟨a, b, c, d, e⟩ => ⟨hE.1 a, uL.1 b, uR.1 c, wLR.1 d, wRL.1 e⟩,
      fun ⟨a, b, c, d, e⟩ => ⟨hE.2 a, uL.2 b, uR.2 c, wLR.2 d, wRL.2 e⟩⟩
  have h3 : ReduceSides (GL.map Elem.dropUnits) (GR.map Elem.dropUnits) ↔ ReduceSides GL GR :=
    ⟨fun ⟨a, b, c⟩ => ⟨hE.1 a, uR.1 b, wRL.1 c⟩, fun ⟨a, b, c⟩ => ⟨hE.2 a, uR.2 b, wRL.2 c⟩⟩
  have h4 : RepeatSides (GL.map Elem.dropUnits) (GR.map Elem.dropUnits) names ↔ RepeatSides GL GR names := by
    have key : (∀ w ∈ sideWords (GR.map Elem.dropUnits), ¬ IsNumber w →
          w ∈ sideWords (GL.map Elem.dropUnits) ∨ w ∈ names) ↔
        ∀ w ∈ sideWords GR, ¬ IsNumber w → w ∈ sideWords GL ∨ w ∈ names := by
      constructor
      · intro h w hw hn
        rw [← mem_dropUnits_name hn]
        exact h w ((mem_dropUnits_name hn).2 hw) hn
      · intro h w hw hn
        rw [mem_dropUnits_name hn]
        exact h w ((mem_dropUnits_name hn).1 hw) hn
    exact ⟨fun ⟨a, b, c, d⟩ => ⟨hE.1 a, uL.1 b, wLR.1 c, key.1 d⟩, fun ⟨a, b, c, d⟩ => ⟨hE.2 a, uL.2 b, wLR.2 c, key.2 d⟩⟩
  unfold WordsOK SidesOK
  rw [h1, h2, h3, h4]

theorem wordAxes_unit {side k : Nat} {w : Str} (h : isUnit w = true) : wordAxes side k w = [] := by
  obtain ⟨h1, h2⟩ := isUnit_number h
  unfold wordAxes
  rw [if_neg (number_ne_dots h1), if_pos h1, if_pos h2]

/-- the axes of a word do not depend on its number, up to the labels of numbers -/
theorem stands_wordAxes (side k k' : Nat) (w : Str) :
    List.Forall₂ (Stands side id) (wordAxes side k w) (wordAxes side k' w) := by
  unfold wordAxes
  by_cases h1 : w = dots
  · rw [if_pos h1, if_pos h1]; exact .cons (.inl ⟨_, rfl, rfl⟩) .nil
  rw [if_neg h1, if_neg h1]
  by_cases h2 : IsNumber w
  · rw [if_pos h2, if_pos h2]
    split
    · exact .nil
    · exact .cons (.inr ⟨_, _, _, rfl, rfl⟩) .nil
  · rw [if_neg h2, if_neg h2]; exact .cons (.inl ⟨_, rfl, rfl⟩) .nil

theorem stands_wordsAxes_units (side k k' : Nat) (ws : List Str) :
    List.Forall₂ (Stands side id) (wordsAxes side k ws) (wordsAxes side k' (ws.filter (fun w => !isUnit w))) := by
  induction ws generalizing k k' with
  | nil => exact .nil
  | cons w ws ih =>
    simp only [wordsAxes]
    by_cases h : isUnit w = true
    · rw [wordAxes_unit h, List.filter_cons_of_neg (by simp [h])]
      exact ih _ _
    · rw [List.filter_cons_of_pos (by simpa using h)]
      simp only [wordsAxes]
      exact List.rel_append (stands_wordAxes side k k' w) (ih _ _)

omit [PyUnicode] in
theorem stands_refl_ellAxes (side n : Nat) : List.Forall₂ (Stands side id) (ellAxes n) (ellAxes n) := by
  rw [List.forall₂_same]
  intro a ha
  obtain ⟨i, _, rfl⟩ := mem_ellAxes.1 ha
  exact .inl ⟨_, rfl, rfl⟩

theorem stands_dropUnits (side k k' n : Nat) (G : List Elem) :
    List.Forall₂ (List.Forall₂ (Stands side id)) (spread (ellAxes n) (denote side k G))
      (spread (ellAxes n) (denote side k' (G.map Elem.dropUnits))) := by
  have hm : ∀ w, id w = ellipsisStr ↔ w = ellipsisStr := fun w => Iff.rfl
  induction G generalizing k k' with
  | nil => exact .nil
  | cons e G ih =>
    cases e with
    | bare w =>
      simp only [List.map_cons, Elem.dropUnits]
      by_cases hu : isUnit w = true
      · rw [if_pos hu]
        simp only [denote]
        rw [if_neg (number_ne_dots (isUnit_number hu).1), wordAxes_unit hu]
        simp only [wordsAxes, spread]
        exact .cons .nil (ih _ _)
      · rw [if_neg hu]
        simp only [denote]
        by_cases hd : w = dots
        · rw [if_pos hd, if_pos hd]
          simp only [spread]
          exact List.rel_append (stands_singletons (stands_refl_ellAxes side n)) (ih _ _)
        · rw [if_neg hd, if_neg hd]
          simp only [spread]
          exact .cons (stands_sub (stands_refl_ellAxes side n) hm (stands_wordAxes side k k' w)) (ih _ _)
    | paren ws =>
      simp only [List.map_cons, Elem.dropUnits, denote, spread]
      exact .cons (stands_sub (stands_refl_ellAxes side n) hm (stands_wordsAxes_units side k k' ws)) (ih _ _)

theorem ellCount_dropUnits (GL : List Elem) (ndim : Nat) : ellCount (GL.map Elem.dropUnits) ndim = ellCount GL ndim := by
  unfold ellCount
  rw [List.length_map]
  simp only [mem_dropUnits_name dots_not_number]

theorem reduce_dropUnits {pattern pattern' : Str} {GL GR : List Elem} (hp : IsPattern pattern GL GR)
    (hp' : IsPattern pattern' (GL.map Elem.dropUnits) (GR.map Elem.dropUnits)) {kw : List (Str × Size)}
    (hn : (kw.map Prod.fst).Nodup) (b : Backend α) (x : Tensor α) (red : Reduction α) (so so' : SetOrder) :
    reduce b so' (.one x) pattern' red kw = reduce b so (.one x) pattern red kw := by
  obtain ⟨_, l, r, _, hL, hR⟩ := isPattern_split hp
  obtain ⟨_, l', r', _, hL', hR'⟩ := isPattern_split hp'
  refine reduce_transfer hp hp' red hn hn wordsOK_dropUnits (fun _ => ?_) b so so'
  rw [ellCount_dropUnits]
  rcases hc : ellCount GL x.ndim with _ | n
  · exact .inl ⟨rfl, rfl⟩
  right
  obtain ⟨φ, hφ⟩ := sameUpTo_of_stands (g := id) (n := n) (n' := n) (kw := kw) (kw' := kw) hL hR hL' hR'
    (stands_dropUnits 0 0 0 n GL) (stands_dropUnits 1 0 0 n GR) (fun w v _ _ h => h) (fun w _ => rfl)
  exact ⟨n, n, φ, rfl, rfl, hφ⟩

theorem GoodSide.dropUnits {G : List Elem} (h : GoodSide G) : GoodSide (G.map Elem.dropUnits) := by
  refine ⟨fun w hw => h.1 w (mem_dropUnits.1 hw).1, ?_, ?_⟩
  · rw [sideWords_dropUnits]
    exact le_trans ((List.filter_sublist).count_le dots) h.2.1
  · rw [sideWords_dropUnits]
    exact h.2.2.sublist ((List.filter_sublist).filter _)

/-- patterns that differ in the way of writing units -/
theorem reduce_units {pattern pattern' : Str} {GL GR GL' GR' : List Elem} (hp : IsPattern pattern GL GR)
    (hp' : IsPattern pattern' GL' GR') (hL : GL'.map Elem.dropUnits = GL.map Elem.dropUnits)
    (hR : GR'.map Elem.dropUnits = GR.map Elem.dropUnits) {kw : List (Str × Size)}
    (hn : (kw.map Prod.fst).Nodup) (b : Backend α) (x : Tensor α) (red : Reduction α) (so so' : SetOrder) :
    reduce b so' (.one x) pattern' red kw = reduce b so (.one x) pattern red kw := by
  obtain ⟨_, l, r, _, sL, sR⟩ := isPattern_split hp
  obtain ⟨q, hq⟩ := exists_pattern sL.good.dropUnits sR.good.dropUnits
  rw [← reduce_dropUnits hp hq hn b x red so so, ← reduce_dropUnits hp' (by rw [hL, hR]; exact hq) hn b x red so' so]

end Einops
