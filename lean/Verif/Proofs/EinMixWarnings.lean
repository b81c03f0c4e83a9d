import Verif.EinMixWarnings
import Verif.Proofs.Warnings
import Verif.Proofs.MarkerOthers
import Verif.Proofs.CallMessages

/-! Warnings of the constructor of `EinMix`. -/

namespace Einops

universe u

/-! ### Words -/

theorem wordsOf_cons {c : Char} (hc : notInName c = true) (s : Str) : wordsOf (c :: s) = wordsOf s := by
  have := wordsOf_sep hc [] s
  rwa [List.nil_append, wordsOf_nil, List.nil_append] at this

/-- the words of a token -/
def tokWords : Tok → List Str
  | .word w => wordsOf w
  | _ => []

theorem sep_notInName {c : Char} (h : isSep c) : notInName c = true := by
  unfold isSep at h
  rcases h with rfl | rfl | rfl <;> decide

theorem wordsOf_lexes {s : Str} {T : List Tok} (h : Lexes s T) : wordsOf s = T.flatMap tokWords := by
  induction h with
  | nil => exact wordsOf_nil
  | space _ ih => rw [wordsOf_cons (by decide), ih]
  | lp _ ih => rw [wordsOf_cons (by decide), ih]; rfl
  | rp _ ih => rw [wordsOf_cons (by decide), ih]; rfl
  | @word w s ts _ _ hs _ ih =>
    rw [List.flatMap_cons, ← ih]
    cases s with
    | nil => simp [tokWords, wordsOf_nil]
    | cons c s =>
      have hc := sep_notInName (hs c rfl)
      rw [wordsOf_sep hc, wordsOf_cons hc]
      rfl

theorem wordsOf_mark : wordsOf mark = [] := by decide
theorem wordsOf_dots' : wordsOf dots = [] := by decide

theorem tokWords_put (T : List Tok) : (T.map (Tok.put dots)).flatMap tokWords = T.flatMap tokWords := by
  induction T with
  | nil => rfl
  | cons t T ih =>
    rw [List.map_cons, List.flatMap_cons, List.flatMap_cons, ih]
    congr 1
    cases t with
    | word w =>
      simp only [Tok.put, tokWords]
      split
      · rename_i h; rw [h, wordsOf_mark, wordsOf_dots']
      · rfl
    | lp => rfl
    | rp => rfl

theorem tokWords_toks (G : List Elem) : (G.flatMap Elem.toks).flatMap tokWords = (sideWords G).flatMap wordsOf := by
  induction G with
  | nil => rfl
  | cons e G ih =>
    have : sideWords (e :: G) = e.words ++ sideWords G := rfl
    rw [List.flatMap_cons, List.flatMap_append, ih, this, List.flatMap_append]
    congr 1
    cases e with
    | bare w => rfl
    | paren ws =>
      simp only [Elem.toks, Elem.words, List.flatMap_cons, List.flatMap_append, List.flatMap_nil, tokWords, List.nil_append,
        List.append_nil, List.cons_append]
      rw [List.flatMap_map]
      rfl

theorem lexes_char {c : Char} (hc : ¬ isSep c) {s : Str} {T : List Tok} (h : Lexes s T) (hs : c ∈ s) :
    ∃ w, Tok.word w ∈ T ∧ c ∈ w := by
  have sp : ∀ {d : Char}, isSep d → c ≠ d := fun hd e => hc (e ▸ hd)
  induction h with
  | nil => cases hs
  | space _ ih =>
    rcases List.mem_cons.1 hs with h | h
    · exact absurd h (sp (by decide))
    · exact ih h
  | lp _ ih =>
    rcases List.mem_cons.1 hs with h | h
    · exact absurd h (sp (by decide))
    · obtain ⟨w, hw, h⟩ := ih h
      exact ⟨w, List.mem_cons_of_mem _ hw, h⟩
  | rp _ ih =>
    rcases List.mem_cons.1 hs with h | h
    · exact absurd h (sp (by decide))
    · obtain ⟨w, hw, h⟩ := ih h
      exact ⟨w, List.mem_cons_of_mem _ hw, h⟩
  | @word w _ _ _ _ _ _ ih =>
    rcases List.mem_append.1 hs with h | h
    · exact ⟨w, by simp, h⟩
    · obtain ⟨w, hw, h⟩ := ih h
      exact ⟨w, List.mem_cons_of_mem _ hw, h⟩

theorem word_of_toks {G : List Elem} {w : Str} (h : Tok.word w ∈ G.flatMap Elem.toks) : w ∈ sideWords G := by
  obtain ⟨e, he, hw⟩ := List.mem_flatMap.1 h
  refine List.mem_flatMap.2 ⟨e, he, ?_⟩
  cases e with
  | bare v => simpa [Elem.toks, Elem.words] using hw
  | paren ws => simpa [Elem.toks, Elem.words] using hw

section
variable [PyUnicode]

/-- a side that is parsed, written out -/
theorem parse_words {side : Nat} {s : Str} {pe : ParsedExpression} (h : parseExpression side false false s = .ok pe) :
    ∃ G, pe.composition = denote side 0 G ∧ wordsOf s = (sideWords G).flatMap wordsOf ∧ (∀ w ∈ sideWords G, WordOK false w) ∧
      pe.identifiers = (wordsAxes side 0 (sideWords G)).foldl setAdd [] ∧ (dots ∈ sideWords G ↔ '.' ∈ s ∨ '…' ∈ s) := by
  by_cases hm : '…' ∈ s
  · by_cases hd : '.' ∈ s
    · rw [parse_both side hd hm] at h; cases h
    · obtain ⟨T, hT⟩ := lexes_exists s
      obtain ⟨G, h1, h2, h3, rfl⟩ := (parse_nodots side false false hd hT pe).1 h
      refine ⟨G, rfl, ?_, h3.1, rfl, ?_⟩
      · rw [wordsOf_lexes hT, ← tokWords_put, h1, tokWords_toks]
      · refine iff_of_true (word_of_toks ?_) (.inr hm)
        obtain ⟨w, hw, hc⟩ := lexes_char (by decide) hT hm
        rw [← h1]
        have := h2 w hw hc
        exact List.mem_map.2 ⟨_, hw, by rw [this]; rfl⟩
  · have hell := parse_hasEllipsis side h
    obtain ⟨G, h1, rfl⟩ := (parseExpression_iff side false false s hm pe).1 h
    refine ⟨G, rfl, ?_, h1.words_ok, rfl, ?_⟩
    · rw [wordsOf_lexes h1.lexes, tokWords_toks]
    · rw [← describe_ellipsis (side := side), hell]
      simp [hm]

/-- what is written for an axis -/
def nameOf (a : Axis) : Str :=
  match a with
  | .str s => if s = ellipsisStr then ['.', '.', '.'] else s
  | .anon .. => []

omit [PyUnicode] in
theorem flatNames_eq (c : List CompAxis) : flatNames c = (c.flatMap CompAxis.axes).map nameOf := rfl

/-- The names in the patterns of the two layers deserve the same warnings as the words of the side. -/
theorem wordAxes_warnings {side k : Nat} {w : Str} (hw : WordOK false w) :
    warningsFor (((wordAxes side k w).map nameOf).flatMap wordsOf) = warningsFor (wordsOf w) := by
  unfold wordAxes
  by_cases hd : w = dots
  · subst hd
    simp [wordsOf_dots', nameOf, show wordsOf ['.', '.', '.'] = [] from wordsOf_dots']
  · rw [if_neg hd]
    by_cases hn : IsNumber w
    · have h0 : warningsFor (wordsOf w) = [] := by
        have hc : ∀ c ∈ w, notInName c = false := fun c hc => by
          obtain ⟨d, h⟩ := hn.2 c hc
          exact notInName_of (.inl (PyUnicode.decimal_alnum c d h))
        rw [wordsOf_word hn.1 hc]
        simp [warningsFor, warningOf_number (isNumber_iff.1 hn)]
      rw [if_pos hn, h0]
      split <;> simp [wordsOf_nil, warningsFor, nameOf]
    · rw [if_neg hn]
      have : w ≠ ellipsisStr := by
        rintro rfl
        rcases hw with h | h | h
        · exact hd h
        · exact hn h.1
        · rcases h.1 '…' (by decide) with h | h
          · rw [PyUnicode.special_not_alnum '…' (by decide)] at h; cases h
          · exact absurd h (by decide)
      simp [this, nameOf]

theorem wordsAxes_warnings {side : Nat} {ws : List Str} (hw : ∀ w ∈ ws, WordOK false w) (k : Nat) :
    warningsFor (((wordsAxes side k ws).map nameOf).flatMap wordsOf) = warningsFor (ws.flatMap wordsOf) := by
  induction ws generalizing k with
  | nil => rfl
  | cons w ws ih =>
    rw [wordsAxes, List.map_append, List.flatMap_append, warningsFor_append, wordAxes_warnings (hw w (by simp)),
      ih (fun v hv => hw v (by simp [hv])), List.flatMap_cons, warningsFor_append]

theorem flatNames_warnings {side : Nat} {G : List Elem} (hG : ∀ w ∈ sideWords G, WordOK false w) :
    warningsFor ((flatNames (denote side 0 G)).flatMap wordsOf) = warningsFor ((sideWords G).flatMap wordsOf) := by
  rw [flatNames_eq, denote_axes]
  exact wordsAxes_warnings hG 0

theorem number_words {w : Str} (hn : IsNumber w) : wordsOf w = [w] :=
  wordsOf_word hn.1 (fun c hc => by
    obtain ⟨d, h⟩ := hn.2 c hc
    exact notInName_of (.inl (PyUnicode.decimal_alnum c d h)))

theorem name_words {w : Str} (hn : IsName false w) : wordsOf w = [w] := by
  refine wordsOf_word ?_ (fun c hc => notInName_of (hn.1 c hc))
  obtain ⟨_, _, h, _⟩ := hn.2.1
  rw [h]
  simp

theorem wordAxes_names {side k : Nat} {w : Str} (hw : WordOK false w) {n : Str} (hn : warningOf n ≠ []) :
    n ∈ (wordAxes side k w).map nameOf ↔ n ∈ wordsOf w := by
  have hne : n ≠ [] := by rintro rfl; exact hn (by decide)
  have hnd : n ≠ ['.', '.', '.'] := by rintro rfl; exact hn (by decide)
  unfold wordAxes
  by_cases hd : w = dots
  · subst hd
    simp [wordsOf_dots', nameOf, hnd]
  · rw [if_neg hd]
    by_cases hnum : IsNumber w
    · have : n ≠ w := by rintro rfl; exact hn (warningOf_number (isNumber_iff.1 hnum))
      rw [if_pos hnum, number_words hnum]
      split <;> simp [nameOf, hne, this]
    · rw [if_neg hnum]
      rcases hw with h | h | h
      · exact absurd h hd
      · exact absurd h.1 hnum
      · rw [name_words h]
        have : w ≠ ellipsisStr := by
          rintro rfl
          rcases h.1 '…' (by decide) with h | h
          · rw [PyUnicode.special_not_alnum '…' (by decide)] at h; cases h
          · exact absurd h (by decide)
        simp [nameOf, this]

theorem flatNames_mem {side : Nat} {G : List Elem} (hG : ∀ w ∈ sideWords G, WordOK false w) {n : Str} (hn : warningOf n ≠ []) :
    n ∈ flatNames (denote side 0 G) ↔ n ∈ (sideWords G).flatMap wordsOf := by
  rw [flatNames_eq, denote_axes]
  generalize (0 : Nat) = k
  generalize hg : sideWords G = ws at hG ⊢
  clear hg
  induction ws generalizing k with
  | nil => simp [wordsAxes]
  | cons w ws ih =>
    rw [wordsAxes, List.map_append, List.mem_append, List.flatMap_cons, List.mem_append, wordAxes_names (hG w (by simp)) hn,
      ih _ (fun v hv => hG v (by simp [hv]))]

theorem flatNames_no_arrow {side : Nat} {G : List Elem} (hG : ∀ w ∈ sideWords G, WordOK false w) :
    ∀ n ∈ flatNames (denote side 0 G), '-' ∉ n := by
  rw [flatNames_eq, denote_axes]
  generalize (0 : Nat) = k
  generalize hg : sideWords G = ws at hG ⊢
  clear hg
  induction ws generalizing k with
  | nil => simp [wordsAxes]
  | cons w ws ih =>
    intro n hn
    rw [wordsAxes, List.map_append, List.mem_append] at hn
    rcases hn with hn | hn
    · have hw := hG w (by simp)
      unfold wordAxes at hn
      split at hn
      · simp only [List.map_cons, List.map_nil, List.mem_singleton] at hn
        rw [hn]
        decide
      · rename_i hd
        split at hn
        · split at hn
          · cases hn
          · simp only [List.map_cons, List.map_nil, List.mem_singleton, nameOf] at hn
            simp [hn]
        · rename_i hnum
          simp only [List.map_cons, List.map_nil, List.mem_singleton, nameOf] at hn
          rcases hw with h | h | h
          · exact absurd h hd
          · exact absurd h.1 hnum
          · split at hn
            · rw [hn]; decide
            · rw [hn]
              intro hm
              rcases h.1 '-' hm with h | h
              · rw [PyUnicode.special_not_alnum '-' (by decide)] at h; cases h
              · exact absurd h (by decide)
    · exact ih _ (fun v hv => hG v (by simp [hv])) n hn

theorem flatNames_dot {side : Nat} {G : List Elem} (hG : ∀ w ∈ sideWords G, WordOK false w) :
    (∃ n ∈ flatNames (denote side 0 G), '.' ∈ n) ↔ dots ∈ sideWords G := by
  rw [flatNames_eq, denote_axes]
  generalize (0 : Nat) = k
  generalize hg : sideWords G = ws at hG ⊢
  clear hg
  induction ws generalizing k with
  | nil => simp [wordsAxes]
  | cons w ws ih =>
    have key : (∃ n ∈ (wordAxes side k w).map nameOf, '.' ∈ n) ↔ dots = w := by
      have hw := hG w (by simp)
      unfold wordAxes
      by_cases hd : w = dots
      · subst hd
        simp [nameOf]
      · rw [if_neg hd]
        refine iff_of_false ?_ (fun h => hd h.symm)
        by_cases hnum : IsNumber w
        · rw [if_pos hnum]
          split <;> simp [nameOf]
        · rw [if_neg hnum]
          rcases hw with h | h | h
          · exact absurd h hd
          · exact absurd h.1 hnum
          · have hno : ∀ c ∈ ['.', '…'], c ∉ w := by
              intro c hc hm
              rcases h.1 c hm with h | h
              · rw [PyUnicode.special_not_alnum c (by
                  simp only [List.mem_cons, List.not_mem_nil, or_false] at hc ⊢; tauto)] at h
                cases h
              · subst h; exact absurd hc (by decide)
            have : w ≠ ellipsisStr := by
              rintro rfl
              exact hno '…' (by simp) (by decide)
            simp [nameOf, this, hno '.' (by simp)]
    rw [wordsAxes, List.map_append, List.mem_cons, ← key, ← ih (k + 1) (fun v hv => hG v (by simp [hv]))]
    simp only [List.mem_append, or_and_right, exists_or]

omit [PyUnicode] in
theorem mem_join {c : Char} (hc : c ≠ ' ') (parts : List Str) : c ∈ List.intercalate [' '] parts ↔ ∃ n ∈ parts, c ∈ n := by
  induction parts with
  | nil => simp [List.intercalate]
  | cons a parts ih =>
    cases parts with
    | nil => simp [List.intercalate]
    | cons b parts =>
      rw [intercalate_cons2, List.mem_append, List.mem_append, ih]
      simp [hc]

omit [PyUnicode] in
theorem wordsOf_spaces (parts : List Str) : wordsOf (List.intercalate [' '] parts) = parts.flatMap wordsOf := by
  induction parts with
  | nil => rfl
  | cons a parts ih =>
    cases parts with
    | nil => simp [List.intercalate]
    | cons b parts =>
      rw [intercalate_cons2, List.append_assoc, List.singleton_append, wordsOf_sep (by decide), ih]
      rfl

omit [PyUnicode] in
theorem join_no_arrow {parts : List Str} (h : ∀ n ∈ parts, '-' ∉ n) : ¬ arrow <:+: List.intercalate [' '] parts := by
  rw [arrow_intercalate (by decide) (by decide) (by decide)]
  rintro ⟨s, hs, h'⟩
  exact h s hs (h'.subset (by simp [arrow]))

/-! ### The layers -/

theorem makeRearrange_tells {α : Type u} (so : Nat → SetOrder) {l r : Str} (hl : ¬ arrow <:+: l) (hr : ¬ arrow <:+: r)
    (kw : List (Str × Size)) :
    Tells (fun p => makeRearrangeW (α := α) p so (some (l ++ arrow ++ r, kw))) (makeRearrange so (some (l ++ arrow ++ r, kw)))
      (warningsFor (wordsOf l) ++ (List.replicate (if '.' ∈ l then 8 else 1)
        (warningsFor (wordsOf (l ++ arrow ++ r) ++ kw.map Prod.fst))).flatten) := by
  obtain ⟨n, rfl, _, h⟩ := prepareAllDims_tells so hl hr (Reduction.name "rearrange".toList : Reduction α).kind (kw.map Prod.fst)
  refine Tells.congr (full := _ ++ []) (Tells.andThen h (fun m _ =>
      Tells.silent (.ok (some (⟨l ++ arrow ++ r, .name "rearrange".toList, kw, m⟩ : Layer α))))) (fun p => rfl) ?_ (by simp)
  simp only [makeRearrange, rearrangeLayer, reduceLayer]
  cases prepareAllDims so (l ++ arrow ++ r) (Reduction.name "rearrange".toList : Reduction α).kind (kw.map Prod.fst) <;> rfl

theorem pre_tells {α : Type u} (so : Nat → SetOrder) {l : Str} {left : ParsedExpression} (hl : ¬ arrow <:+: l)
    (hp : parseExpression 0 false false l = .ok left) (kw : List (Str × Size)) :
    Tells (fun p => makeRearrangeW (α := α) p so (preReshape l left kw)) (makeRearrange so (preReshape l left kw))
      (if (preReshape l left kw).isSome then reshapeWarnings (if '.' ∈ l then 8 else 1) l
        ((kw.map Prod.fst).filter (fun n => decide (n ∈ wordsOf l))) else []) := by
  obtain ⟨G, hc, hw, hok, _, _⟩ := parse_words hp
  unfold preReshape
  rw [hc]
  split
  · have hr : ¬ arrow <:+: ' ' :: List.intercalate [' '] (flatNames (denote 0 0 G)) := by
      have := arrow_skip (m := [' ']) (q := List.intercalate [' '] (flatNames (denote 0 0 G))) (by decide)
      rw [List.singleton_append] at this
      rw [this]
      exact join_no_arrow (flatNames_no_arrow hok)
    have h := makeRearrange_tells (α := α) so hl hr (kw.filter (fun p => decide (p.1 ∈ flatNames (denote 0 0 G))))
    have hpat : l ++ arrow ++ ' ' :: List.intercalate [' '] (flatNames (denote 0 0 G)) =
        l ++ ['-', '>', ' '] ++ List.intercalate [' '] (flatNames (denote 0 0 G)) := by simp [arrow]
    refine Tells.congr h (fun p => by rw [hpat]) (by rw [hpat]) ?_
    simp only [Option.isSome_some, if_true, reshapeWarnings]
    congr 3
    rw [wordsOf_arrow, wordsOf_cons (by decide), wordsOf_spaces]
    simp only [warningsFor_append, flatNames_warnings hok, ← hw]
    congr 1
    clear hp hr h hpat
    induction kw with
    | nil => rfl
    | cons q kw ih =>
      have hcons : ∀ (a : Str) (L : List Str), warningsFor (a :: L) = warningOf a ++ warningsFor L := fun a L => rfl
      by_cases hq : warningOf q.1 = []
      · rw [List.map_cons, List.filter_cons, List.filter_cons]
        split_ifs <;> simp [hcons, hq, ih]
      · have := flatNames_mem (side := 0) hok hq
        rw [← hw] at this
        rw [List.map_cons, List.filter_cons, List.filter_cons]
        simp only [this]
        split_ifs <;> simp [hcons, ih]
  · exact Tells.silent (.ok none)

theorem post_tells {α : Type u} (so : Nat → SetOrder) {r : Str} {right : ParsedExpression} (hr : ¬ arrow <:+: r)
    (hp : parseExpression 1 false false r = .ok right) :
    Tells (fun p => makeRearrangeW (α := α) p so ((postReshape r right).map (fun s => (s, []))))
      (makeRearrange so ((postReshape r right).map (fun s => (s, []))))
      (if (postReshape r right).isSome then reshapeWarnings (if '.' ∈ r ∨ '…' ∈ r then 8 else 1) r [] else []) := by
  obtain ⟨G, hc, hw, hok, _, hdots⟩ := parse_words hp
  unfold postReshape
  rw [hc]
  split
  · have hl : ¬ arrow <:+: List.intercalate [' '] (flatNames (denote 1 0 G)) ++ [' '] := by
      have := arrow_apart (m := [' ']) (by decide) (by decide) (by decide) (List.intercalate [' '] (flatNames (denote 1 0 G))) []
      rw [List.append_nil] at this
      rw [this]
      rintro (h | h)
      · exact join_no_arrow (flatNames_no_arrow hok) h
      · simp [arrow] at h
    have h := makeRearrange_tells (α := α) so hl hr []
    have hpat : List.intercalate [' '] (flatNames (denote 1 0 G)) ++ [' '] ++ arrow ++ r =
        List.intercalate [' '] (flatNames (denote 1 0 G)) ++ [' ', '-', '>'] ++ r := by simp [arrow]
    have hdot : ('.' ∈ List.intercalate [' '] (flatNames (denote 1 0 G)) ++ [' ']) ↔ ('.' ∈ r ∨ '…' ∈ r) := by
      rw [← hdots, ← flatNames_dot (side := 1) hok, List.mem_append, mem_join (by decide)]
      simp
    refine Tells.congr h (fun p => by rw [hpat]; rfl) (by rw [hpat]; rfl) ?_
    simp only [Option.isSome_some, if_true, reshapeWarnings, hdot]
    have hwl : warningsFor (wordsOf (List.intercalate [' '] (flatNames (denote 1 0 G)) ++ [' '])) = warningsFor (wordsOf r) := by
      rw [wordsOf_sep (by decide), wordsOf_nil, List.append_nil, wordsOf_spaces, flatNames_warnings hok, ← hw]
    rw [hwl]
    congr 3
    rw [wordsOf_arrow]
    simp only [warningsFor_append, hwl]
    rfl
  · exact Tells.silent (.ok none)

/-! ### The constructor -/

/-- the outcome of the part about the bias -/
def biasOutcome (right : ParsedExpression) (kw : List (Str × Size)) : BiasShape → Py (Option (List Size))
  | .absent => .ok none
  | .other => .error .einops
  | .text s => pyThen (parseExpression 3 false false s) (biasRest right kw)

theorem einmixBiasW_tells (right : ParsedExpression) (kw : List (Str × Size)) (b : BiasShape) :
    Tells (fun p => einmixBiasW p right kw b) (biasOutcome right kw b) (warningsFor (wordsOf b.str)) := by
  cases b with
  | absent => exact Tells.congr (Tells.silent (.ok none)) (fun _ => rfl) rfl (by simp [BiasShape.str, wordsOf_nil, warningsFor])
  | other => exact Tells.fails .einops _
  | text s =>
    exact Tells.congr (full := _ ++ []) (Tells.andThen (parse_tells 3 false false s) (fun bias _ => Tells.silent (biasRest right kw bias)))
      (fun _ => rfl) rfl (by simp [BiasShape.str])

/-- everything after the plan -/
def afterPlan {α : Type u} (so : Nat → SetOrder) (b : BiasShape) (kw : List (Str × Size)) (p : EinmixPlan) : Py (EinMix α) :=
  pyThen (makeRearrange so p.pre) fun pre =>
    pyThen (makeRearrange so (p.post.map (fun s => (s, [])))) fun post =>
      pyThen (einmixSizes p.left p.right p.weight kw) fun _ =>
        pyThen (.ok ()) fun _ =>
          pyThen (einmixWeight p.right p.weight kw) fun w =>
            pyThen (biasOutcome p.right kw b) fun b =>
              einmixFinish p pre post w.1 w.2 b

theorem einmixBias_text (right : ParsedExpression) (kw : List (Str × Size)) (s : Str) :
    einmixBias right kw (some s) = biasOutcome right kw (.text s) := by
  simp only [einmixBias, biasOutcome]
  cases parseExpression 3 false false s <;> rfl

theorem makeEinMixArg_eq {α : Type u} (so : Nat → SetOrder) (pattern weight : Str) (b : BiasShape) (kw : List (Str × Size)) :
    makeEinMixArg (α := α) so pattern weight b kw = pyThen (einmixPlan pattern weight kw) (afterPlan so b kw) := by
  have hmain : ∀ (o : Option Str) (b' : BiasShape), (∀ right, einmixBias right kw o = biasOutcome right kw b') →
      makeEinMix (α := α) so pattern weight o kw = pyThen (einmixPlan pattern weight kw) (afterPlan so b' kw) := by
    intro o b' hb
    unfold makeEinMix afterPlan
    simp only [hb]
    cases einmixPlan pattern weight kw with
    | error e => rfl
    | ok p =>
      simp only [pyThen]
      cases (makeRearrange so p.pre : Py (Option (Layer α))) with
      | error e => rfl
      | ok pre =>
        simp only
        cases (makeRearrange so (p.post.map (fun s => (s, []))) : Py (Option (Layer α))) with
        | error e => rfl
        | ok post =>
          simp only
          cases einmixSizes p.left p.right p.weight kw with
          | error e => rfl
          | ok _ =>
            simp only
            cases einmixWeight p.right p.weight kw with
            | error e => rfl
            | ok w =>
              simp only
              cases biasOutcome p.right kw b' <;> rfl
  cases b with
  | absent => exact hmain none .absent (fun _ => rfl)
  | text s => exact hmain (some s) (.text s) (fun right => einmixBias_text right kw s)
  | other =>
    unfold makeEinMixArg afterPlan
    simp only [biasOutcome]
    cases einmixPlan pattern weight kw with
    | error e => rfl
    | ok p =>
      simp only [pyThen]
      cases (makeRearrange so p.pre : Py (Option (Layer α))) with
      | error e => rfl
      | ok pre =>
        simp only
        cases (makeRearrange so (p.post.map (fun s => (s, []))) : Py (Option (Layer α))) with
        | error e => rfl
        | ok post =>
          simp only
          cases einmixSizes p.left p.right p.weight kw with
          | error e => rfl
          | ok _ =>
            simp only
            cases einmixWeight p.right p.weight kw <;> rfl

theorem einmixPlan_tells {l r weight : Str} (hl : ¬ arrow <:+: l) (hr : ¬ arrow <:+: r) (kw : List (Str × Size)) :
    Tells (fun p => einmixPlanW p (l ++ arrow ++ r) weight kw) (einmixPlan (l ++ arrow ++ r) weight kw)
      (warningsFor (wordsOf l ++ wordsOf r ++ wordsOf weight)) := by
  have hs : splitArrow (l ++ arrow ++ r) = .ok (l, r) := splitArrow_iff.2 ⟨rfl, hl, hr⟩
  refine Tells.congr (Tells.andThen (parse_tells 0 false false l) (fun left _ =>
    Tells.andThen (parse_tells 1 false false r) (fun right _ =>
      Tells.andThen (parse_tells 2 false false weight) (fun w _ =>
        Tells.andThen (Tells.silent (einmixChecks left right w weight)) (fun _ _ =>
          Tells.silent (.ok (⟨left, right, w, preReshape l left kw, postReshape r right⟩ : EinmixPlan)))))))
    (fun p => ?_) ?_ ?_
  · simp only [einmixPlanW, hs, silent, Warned.andThen, List.nil_append]
  · unfold einmixPlan
    simp only [hs]
    cases parseExpression 0 false false l with
    | error e => rfl
    | ok left =>
      simp only [pyThen]
      cases parseExpression 1 false false r with
      | error e => rfl
      | ok right =>
        simp only
        cases parseExpression 2 false false weight with
        | error e => rfl
        | ok w =>
          simp only
          cases einmixChecks left right w weight <;> rfl
  · simp [warningsFor_append]

theorem einmixPlan_ok {l r weight : Str} (hl : ¬ arrow <:+: l) (hr : ¬ arrow <:+: r) {kw : List (Str × Size)} {p : EinmixPlan}
    (h : einmixPlan (l ++ arrow ++ r) weight kw = .ok p) :
    parseExpression 0 false false l = .ok p.left ∧ parseExpression 1 false false r = .ok p.right ∧
      parseExpression 2 false false weight = .ok p.weight ∧ p.pre = preReshape l p.left kw ∧ p.post = postReshape r p.right := by
  have hs : splitArrow (l ++ arrow ++ r) = .ok (l, r) := splitArrow_iff.2 ⟨rfl, hl, hr⟩
  unfold einmixPlan at h
  simp only [hs] at h
  split at h
  · cases h
  · rename_i left h1
    split at h
    · cases h
    · rename_i right h2
      split at h
      · cases h
      · rename_i w h3
        split at h
        · cases h
        · cases h
          exact ⟨h1, h2, h3, rfl, rfl⟩

theorem warn_tells (w : NameWarning) : Tells (fun p => warn p w) (.ok ()) [w] := by
  refine ⟨[w], fun p => ?_, List.prefix_refl _, fun _ _ => rfl⟩
  simp only [warn, cut, silent]
  split <;> rfl

theorem afterPlan_tells {α : Type u} (so : Nat → SetOrder) {l r weight : Str} (hl : ¬ arrow <:+: l) (hr : ¬ arrow <:+: r)
    (b : BiasShape) {kw : List (Str × Size)} {p : EinmixPlan} (h : einmixPlan (l ++ arrow ++ r) weight kw = .ok p) :
    Tells (fun raises => makeEinMixW (α := α) raises so (l ++ arrow ++ r) weight b kw)
      (makeEinMixArg so (l ++ arrow ++ r) weight b kw)
      (mixWarnings l r weight b (kw.map Prod.fst) p.pre.isSome p.post.isSome (decide (p.weight.identifiers = []))) := by
  obtain ⟨h1, h2, _, h4, h5⟩ := einmixPlan_ok hl hr h
  have hpre := pre_tells (α := α) so hl h1 kw
  have hpost := post_tells (α := α) so hr h2
  rw [← h4] at hpre
  rw [← h5] at hpost
  refine Tells.congr (Tells.andThen (einmixPlan_tells hl hr kw) (fun p' hp' => ?_)) (fun _ => rfl)
    (makeEinMixArg_eq so _ weight b kw) rfl
  rw [h] at hp'
  cases hp'
  refine Tells.andThen hpre (fun pre _ => Tells.andThen hpost (fun post _ => Tells.congr (full := [] ++ _)
    (Tells.andThen (Tells.silent _) (fun _ _ => Tells.andThen (c := fun raises => if p.weight.identifiers = [] then
      warn raises .noDimensions else silent (.ok ())) ?_ (fun _ _ => Tells.congr (full := [] ++ (_ ++ [])) (Tells.andThen (Tells.silent _)
        (fun w _ => Tells.andThen (einmixBiasW_tells p.right kw b) (fun bs _ => Tells.silent _))) (fun _ => rfl) rfl (by simp))))
    (fun _ => rfl) rfl rfl))
  by_cases hw : p.weight.identifiers = []
  · simp only [hw, if_true, decide_true]
    exact warn_tells _
  · simp only [hw, if_false, decide_false, Bool.false_eq_true]
    exact Tells.silent _

omit [PyUnicode] in
theorem foldl_setAdd_nil {l s : List Axis} : l.foldl setAdd s = [] ↔ l = [] ∧ s = [] := by
  induction l generalizing s with
  | nil => simp
  | cons a l ih =>
    rw [List.foldl_cons, ih]
    have : setAdd s a ≠ [] := by
      unfold setAdd
      split
      · rename_i h; exact List.ne_nil_of_mem (by simpa using h)
      · simp
    simp [this]

omit [PyUnicode] in
theorem zerosShape_length {s : List Size} {d : List Nat} (h : zerosShape s = .ok d) : d.length = s.length := by
  unfold zerosShape at h
  split at h
  · cases h; simp
  · cases h

/-- Which parts a layer has. -/
theorem makeEinMixArg_parts {α : Type u} {so : Nat → SetOrder} {l r weight : Str} (hl : ¬ arrow <:+: l) (hr : ¬ arrow <:+: r)
    {b : BiasShape} {kw : List (Str × Size)} {p : EinmixPlan} (h : einmixPlan (l ++ arrow ++ r) weight kw = .ok p) {m : EinMix α}
    (hm : makeEinMixArg so (l ++ arrow ++ r) weight b kw = .ok m) :
    p.pre.isSome = m.pre.isSome ∧ p.post.isSome = m.post.isSome ∧ (p.weight.identifiers = [] ↔ m.weightShape = []) := by
  obtain ⟨_, _, h3, _, _⟩ := einmixPlan_ok hl hr h
  rw [makeEinMixArg_eq, h] at hm
  have hopt : ∀ {o : Option (Str × List (Str × Size))} {x : Option (Layer α)}, makeRearrange so o = .ok x → o.isSome = x.isSome := by
    intro o x hx
    cases o with
    | none => cases hx; rfl
    | some q =>
      simp only [makeRearrange] at hx
      cases hq : (rearrangeLayer so q.1 q.2 : Py (Layer α)) with
      | error e => rw [hq] at hx; cases hx
      | ok y => rw [hq] at hx; cases hx; rfl
  have hthen : ∀ {β γ : Type u} {x : Py β} {g : β → Py γ} {y : γ}, pyThen x g = .ok y → ∃ a, x = .ok a ∧ g a = .ok y := by
    intro β γ x g y hx
    cases x with
    | error e => cases hx
    | ok a => exact ⟨a, rfl, hx⟩
  have hthen0 : ∀ {β : Type} {γ : Type u} {x : Py β} {g : β → Py γ} {y : γ}, pyThen x g = .ok y → ∃ a, x = .ok a ∧ g a = .ok y := by
    intro β γ x g y hx
    cases x with
    | error e => cases hx
    | ok a => exact ⟨a, rfl, hx⟩
  simp only [pyThen, afterPlan] at hm
  obtain ⟨pre, e1, hm⟩ := hthen hm
  obtain ⟨post, e2, hm⟩ := hthen hm
  obtain ⟨_, _, hm⟩ := hthen0 hm
  obtain ⟨w, ew, hm⟩ := hthen0 hm
  obtain ⟨bs, _, hm⟩ := hthen0 hm
  unfold einmixFinish at hm
  split at hm
  · cases hm
  split at hm
  · cases hm
  rename_i w' b' hc
  split at hm
  · cases hm
  cases hm
  refine ⟨hopt e1, ?_, ?_⟩
  · rw [← hopt e2]; simp
  have hz : zerosShape w.1 = .ok w' := by
    unfold createParameters at hc
    split at hc
    · cases hc
    · rename_i z hz
      split at hc
      · cases hc; exact hz
      · split at hc
        · cases hc
        · cases hc; exact hz
  unfold einmixWeight at ew
  split at ew
  · cases ew
  rename_i axes ha
  split at ew
  · cases ew
  rename_i shape hs
  split at ew
  · cases ew
  cases ew
  have hlen := (zerosShape_length hz).trans ((mapE_ok_length hs).trans (mapE_ok_length ha))
  obtain ⟨G, hG, _, _, hid, _⟩ := parse_words h3
  rw [hid, foldl_setAdd_nil, ← denote_axes, ← hG]
  simp only [and_true]
  constructor
  · intro hn
    refine List.length_eq_zero_iff.1 (hlen.trans (List.length_eq_zero_iff.2 ?_))
    cases hcomp : p.weight.composition with
    | nil => rfl
    | cons c cs =>
      rw [hcomp, List.flatMap_cons, List.append_eq_nil_iff] at hn
      rw [hcomp] at ha
      simp only [mapE, soleAxis, hn.1] at ha
      cases ha
  · intro hn
    rw [hn] at hlen
    rw [List.length_eq_zero_iff.1 hlen.symm]
    rfl

theorem makeEinMixArg_tells {α : Type u} (so : Nat → SetOrder) {l r : Str} (hl : ¬ arrow <:+: l) (hr : ¬ arrow <:+: r)
    (weight : Str) (b : BiasShape) (kw : List (Str × Size)) :
    ∃ pre post bare, Tells (fun raises => makeEinMixW (α := α) raises so (l ++ arrow ++ r) weight b kw)
      (makeEinMixArg so (l ++ arrow ++ r) weight b kw) (mixWarnings l r weight b (kw.map Prod.fst) pre post bare) ∧
      ∀ m : EinMix α, makeEinMixArg so (l ++ arrow ++ r) weight b kw = .ok m →
        pre = m.pre.isSome ∧ post = m.post.isSome ∧ (bare = true ↔ m.weightShape = []) := by
  cases h : einmixPlan (l ++ arrow ++ r) weight kw with
  | error e =>
    have h1 := einmixPlan_tells (weight := weight) hl hr kw
    rw [h] at h1
    have heq : makeEinMixArg (α := α) so (l ++ arrow ++ r) weight b kw = .error e := by rw [makeEinMixArg_eq, h]; rfl
    refine ⟨false, false, false, ?_, fun m hm => by rw [heq] at hm; cases hm⟩
    exact Tells.congr (Tells.andThen (g := fun p => afterPlan so b kw p) h1 (fun p hp => by cases hp)) (fun _ => rfl) heq rfl
  | ok p =>
    refine ⟨_, _, _, afterPlan_tells so hl hr b h, fun m hm => ?_⟩
    obtain ⟨h1, h2, h3⟩ := makeEinMixArg_parts hl hr h hm
    exact ⟨h1, h2, by rw [decide_eq_true_eq, h3]⟩

/-- a bias shape that is not a string -/
theorem makeEinMixArg_other {α : Type u} (so : Nat → SetOrder) (pattern weight : Str) (kw : List (Str × Size)) :
    (∀ m : EinMix α, makeEinMixArg so pattern weight .other kw ≠ .ok m) ∧
      ∀ b (m : EinMix α), makeEinMixArg so pattern weight b kw = .ok m →
        makeEinMixArg (α := α) so pattern weight .other kw = .error .einops := by
  simp only [makeEinMixArg_eq]
  cases einmixPlan pattern weight kw with
  | error e => exact ⟨(fun m h => by cases h), (fun b m h => by cases h)⟩
  | ok p =>
    simp only [pyThen, afterPlan, biasOutcome]
    cases (makeRearrange so p.pre : Py (Option (Layer α))) with
    | error e => exact ⟨(fun m h => by cases h), (fun b m h => by cases h)⟩
    | ok pre =>
      simp only
      cases (makeRearrange so (p.post.map (fun s => (s, []))) : Py (Option (Layer α))) with
      | error e => exact ⟨(fun m h => by cases h), (fun b m h => by cases h)⟩
      | ok post =>
        simp only
        cases einmixSizes p.left p.right p.weight kw with
        | error e => exact ⟨(fun m h => by cases h), (fun b m h => by cases h)⟩
        | ok _ =>
          simp only
          cases einmixWeight p.right p.weight kw with
          | error e => exact ⟨(fun m h => by cases h), (fun b m h => by cases h)⟩
          | ok w => exact ⟨(fun m h => by cases h), fun b m h => rfl⟩

end
end Einops
