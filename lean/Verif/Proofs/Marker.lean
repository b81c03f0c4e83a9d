import Verif.MarkerSpec
import Verif.Proofs.Relabel
import Verif.Proofs.Spacing
import Verif.Proofs.Rewrites

/-! Patterns with the literal character '…'. -/

namespace Einops

universe u
variable {α : Type u} [PyUnicode]

section
variable (side : Nat) (u d : Bool)

/-- a word in which '…' is glued to other characters is refused -/
theorem addWord_glued {w : Str} (hw : '…' ∈ w) (hne : w ≠ mark) (st : PState) : addWord side u d st w = .error .einops := by
  unfold addWord
  split
  · have hne : w ≠ ellipsisStr := hne
    have hnum : isDecimal w = false := by
      rw [Bool.eq_false_iff]
      intro h
      obtain ⟨d, hd⟩ := (isNumber_iff.2 h).2 '…' hw
      have := PyUnicode.decimal_alnum _ _ hd
      rw [PyUnicode.special_not_alnum '…' (by simp)] at this
      cases this
    have hname : checkAxisName u w = false := by
      rw [Bool.eq_false_iff]
      exact fun h => isIdentifier_no_ell (checkAxisName_ident h) hw
    unfold addAxisName
    split
    · rfl
    · dsimp only
      simp only [hnum, hname, Bool.false_eq_true, false_and, if_false, Bool.or_false, Bool.not_false, if_true, hne]
  · rfl

omit [PyUnicode] in
theorem put_dots_norm {T : List Tok} (h : '.' ∉ tokChars T) : (T.map (Tok.put dots)).map normTok = T := by
  induction T with
  | nil => rfl
  | cons t T ih =>
    cases t with
    | lp => simp only [List.map_cons, Tok.put, normTok]; rw [ih (by simpa [tokChars] using h)]
    | rp => simp only [List.map_cons, Tok.put, normTok]; rw [ih (by simpa [tokChars] using h)]
    | word w =>
      simp only [tokChars, List.mem_append, not_or] at h
      have hw : w ≠ dots := by rintro rfl; simp [dots] at h
      simp only [List.map_cons, Tok.put, normTok]
      rw [ih h.2]
      by_cases hm : w = mark
      · subst hm; simp [norm, mark, ellipsisStr]
      · simp [norm, hm, hw]

omit [PyUnicode] in
theorem mem_put {n w : Str} {T : List Tok} :
    Tok.word w ∈ T.map (Tok.put n) ↔ (w = n ∧ Tok.word mark ∈ T) ∨ (w ≠ mark ∧ Tok.word w ∈ T) := by
  rw [List.mem_map]
  constructor
  · rintro ⟨t, ht, h⟩
    cases t with
    | lp => cases h
    | rp => cases h
    | word v =>
      simp only [Tok.put, Tok.word.injEq] at h
      by_cases hv : v = mark
      · rw [if_pos hv] at h; subst hv; exact .inl ⟨h.symm, ht⟩
      · rw [if_neg hv] at h; subst h; exact .inr ⟨hv, ht⟩
  · rintro (⟨rfl, h⟩ | ⟨h, h'⟩)
    · exact ⟨_, h, by simp [Tok.put]⟩
    · exact ⟨_, h', by simp [Tok.put, h]⟩

omit [PyUnicode] in
theorem mem_tokChars_iff {T : List Tok} {c : Char} : c ∈ tokChars T ↔ ∃ w, Tok.word w ∈ T ∧ c ∈ w := by
  induction T with
  | nil => simp [tokChars]
  | cons t T ih => cases t <;> simp [tokChars, ih, or_and_right, exists_or]

omit [PyUnicode] in
theorem put_no_mark {n : Str} (hn : '…' ∉ n) {T : List Tok} : '…' ∉ tokChars (T.map (Tok.put n)) ↔ Alone T := by
  rw [mem_tokChars_iff]
  constructor
  · intro h w hw hc
    by_contra hm
    exact h ⟨w, mem_put.2 (.inr ⟨hm, hw⟩), hc⟩
  · rintro h ⟨w, hw, hc⟩
    rcases mem_put.1 hw with ⟨rfl, _⟩ | ⟨h1, h2⟩
    · exact hn hc
    · exact h1 (h w h2 hc)

omit [PyUnicode] in
theorem dots_no_mark : '…' ∉ dots := by decide

/-- the parser's loop on a string without dots -/
theorem run_nodots {s : Str} (hdot : '.' ∉ s) {T : List Tok} (hT : Lexes s T) (st : PState) :
    (runChars side u d PState.init s).bind (finishParse side u d) = .ok st ↔
      ∃ G, T.map (Tok.put dots) = G.flatMap Elem.toks ∧ Alone T ∧ GoodWords u d (G.flatMap Elem.words) ∧
        st = prefState side G none := by
  rw [runChars_eq_runToks side u d hT PState.init rfl]
  have hTd : '.' ∉ tokChars T := fun h => hdot (hT.chars h)
  by_cases ha : Alone T
  · have h2 := run_finish_iff side u d (T.map (Tok.put dots)) ((put_no_mark dots_no_mark).2 ha) st
    rw [put_dots_norm hTd] at h2
    rw [h2]
    exact ⟨fun ⟨G, h1, h2, h3⟩ => ⟨G, h1, ha, h2, h3⟩, fun ⟨G, h1, _, h2, h3⟩ => ⟨G, h1, h2, h3⟩⟩
  · constructor
    · intro h
      unfold Alone at ha
      push Not at ha
      obtain ⟨w, hw, hc, hne⟩ := ha
      obtain ⟨T1, T2, rfl⟩ := List.append_of_mem hw
      exact absurd h (runToks_bad_word side u d T1 T2 PState.init (addWord_glued side u d hc hne) st)
    · rintro ⟨_, _, h, _⟩
      exact absurd h ha

/-- **The parser on a string without dots**: the word '…' is treated as the ellipsis, except that the expression does
not claim to have one. -/
theorem parse_nodots {s : Str} (hdot : '.' ∉ s) {T : List Tok} (hT : Lexes s T) (pe : ParsedExpression) :
    parseExpression side u d s = .ok pe ↔
      ∃ G, T.map (Tok.put dots) = G.flatMap Elem.toks ∧ Alone T ∧ GoodWords u d (G.flatMap Elem.words) ∧
        pe = { describe side G with hasEllipsis := false } := by
  rw [parseExpression_eq, prepareDots_nodots hdot]
  have h := run_nodots side u d hdot hT
  simp only [Except.bind] at h ⊢
  constructor
  · intro hp
    split at hp
    · cases hp
    · rename_i st hst
      obtain ⟨G, h1, h2, h3, rfl⟩ := (h st).1 hst
      refine ⟨G, h1, h2, h3, ?_⟩
      cases hp
      simp [describe, prefState, prefWords]
  · rintro ⟨G, h1, h2, h3, rfl⟩
    rw [(h _).2 ⟨G, h1, h2, h3, rfl⟩]
    simp [describe, prefState, prefWords]

end

/-! ### '…' as the name of an axis -/

/-- the same token with another word -/
def Tok.mapWord (f : Str → Str) : Tok → Tok
  | .word w => .word (f w)
  | .lp => .lp
  | .rp => .rp

omit [PyUnicode] in
theorem toks_mapWords (f : Str → Str) (G : List Elem) :
    (G.map (Elem.mapWords f)).flatMap Elem.toks = (G.flatMap Elem.toks).map (Tok.mapWord f) := by
  rw [List.flatMap_map, List.map_flatMap]
  congr 1
  funext e
  cases e with
  | bare w => rfl
  | paren ws => simp [Elem.toks, Elem.mapWords, Tok.mapWord, Function.comp_def]

omit [PyUnicode] in
theorem put_eq (n : Str) : Tok.put n = Tok.mapWord (fun w => if w = mark then n else w) := by
  funext t; cases t <;> rfl

omit [PyUnicode] in
theorem mapWord_comp (f g : Str → Str) (T : List Tok) :
    (T.map (Tok.mapWord f)).map (Tok.mapWord g) = T.map (Tok.mapWord (g ∘ f)) := by
  rw [List.map_map]
  apply List.map_congr_left
  intro t _
  cases t <;> rfl

omit [PyUnicode] in
theorem mapWord_congr {f g : Str → Str} {T : List Tok} (h : ∀ w, Tok.word w ∈ T → f w = g w) :
    T.map (Tok.mapWord f) = T.map (Tok.mapWord g) := by
  apply List.map_congr_left
  intro t ht
  cases t with
  | lp => rfl
  | rp => rfl
  | word w => simp only [Tok.mapWord, h w ht]

theorem good_map {u : Bool} {f : Str → Str} {ws : List Str} (hg : GoodWords u false ws)
    (hok : ∀ w ∈ ws, WordOK u (f w)) (hu : ∀ w ∈ ws, unrepeatable u (f w) = unrepeatable u w)
    (hinj : ∀ w ∈ ws, ∀ v ∈ ws, f w = f v → w = v) : GoodWords u false (ws.map f) := by
  refine ⟨by simpa using hok, fun _ => ?_⟩
  rw [List.filter_map, List.filter_congr (p := unrepeatable u ∘ f) (q := unrepeatable u) (fun w hw => hu w hw)]
  apply List.Nodup.map_on _ (hg.2 rfl)
  intro w hw v hv
  exact hinj w (List.mem_of_mem_filter hw) v (List.mem_of_mem_filter hv)

theorem dots_unrepeatable {u : Bool} : unrepeatable u dots = true := by
  have : dots ≠ ['_'] := by decide
  simp [unrepeatable, dots_not_number, this]

theorem isName_unrepeatable {u : Bool} {n : Str} (hn : IsName false n) : unrepeatable u n = true := by
  have : n ≠ ['_'] := by
    rintro rfl
    rcases hn.2.2 with ⟨h, _⟩ | ⟨h, _⟩
    · exact h rfl
    · cases h
  simp [unrepeatable, isName_not_number false hn, this]

theorem isName_weaken {u : Bool} {n : Str} (hn : IsName false n) : IsName u n := by
  refine ⟨hn.1, hn.2.1, ?_⟩
  rcases hn.2.2 with h | ⟨h, _⟩
  · exact .inl h
  · cases h

/-- `n` for the dots -/
def nameIt (n : Str) (w : Str) : Str := if w = dots then n else w
/-- the dots for `n` -/
def dotIt (n : Str) (w : Str) : Str := if w = n then dots else w

section
variable {u : Bool} {n s s' : Str} {T : List Tok} (hn : IsName false n) (hT' : Lexes s' (T.map (Tok.put n)))
  (hdot : '.' ∉ tokChars T) (hfresh : Tok.word n ∉ T)

include hn hT' hdot hfresh in
theorem name_side {G : List Elem} (h1 : T.map (Tok.put dots) = G.flatMap Elem.toks)
    (h3 : GoodWords u false (G.flatMap Elem.words)) : IsSide u false s' (G.map (Elem.mapWords (nameIt n))) := by
  have hw : (G.map (Elem.mapWords (nameIt n))).flatMap Elem.words = (G.flatMap Elem.words).map (nameIt n) :=
    sideWords_map _ _
  have hmem : ∀ w ∈ G.flatMap Elem.words, w ≠ n := by
    intro w hw' hwn
    subst hwn
    have := mem_toks_words.2 hw'
    rw [← h1] at this
    rcases mem_put.1 this with ⟨h, _⟩ | ⟨_, h⟩
    · exact isName_ne_dots hn h
    · exact hfresh h
  have hgood : GoodWords u false ((G.flatMap Elem.words).map (nameIt n)) := by
    refine good_map h3 ?_ ?_ ?_
    · intro w hw
      unfold nameIt
      split
      · exact .inr (.inr (isName_weaken hn))
      · exact h3.1 w hw
    · intro w _
      unfold nameIt
      split
      · rename_i h; rw [h, dots_unrepeatable, isName_unrepeatable hn]
      · rfl
    · intro w hw v hv h
      unfold nameIt at h
      split_ifs at h with a b b
      · rw [a, b]
      · exact absurd h.symm (hmem v hv)
      · exact absurd h (hmem w hw)
      · exact h
  refine ⟨?_, ?_, ?_, ?_⟩
  · rw [toks_mapWords, ← h1, put_eq, mapWord_comp]
    rw [put_eq] at hT'
    refine (mapWord_congr ?_) ▸ hT'
    intro w hw'
    simp only [Function.comp, nameIt]
    by_cases hm : w = mark
    · simp [hm]
    · have : w ≠ dots := by
        rintro rfl
        exact hdot (mem_tokChars hw' (by simp [dots]))
      simp [hm, this]
  · rw [hw]; exact hgood.1
  · rw [hw, List.count_eq_zero_of_not_mem]
    · omega
    · intro h
      obtain ⟨v, _, hv⟩ := List.mem_map.1 h
      unfold nameIt at hv
      split at hv
      · exact isName_ne_dots hn hv
      · contradiction
  · rw [hw]; exact hgood.2

include hn hT' hdot hfresh in
theorem side_name {G' : List Elem} (h : IsSide u false s' G') :
    ∃ G : List Elem, T.map (Tok.put dots) = G.flatMap Elem.toks ∧ GoodWords u false (G.flatMap Elem.words) ∧
      G' = G.map (Elem.mapWords (nameIt n)) := by
  have hG := hT'.unique h.lexes
  have hnd : ∀ w ∈ G'.flatMap Elem.words, w ≠ dots := by
    intro w hw hd
    subst hd
    have := mem_toks_words.2 hw
    rw [← hG] at this
    rcases mem_put.1 this with ⟨h, _⟩ | ⟨_, h⟩
    · exact isName_ne_dots hn h.symm
    · exact hdot (mem_tokChars h (by simp [dots]))
  have hw : (G'.map (Elem.mapWords (dotIt n))).flatMap Elem.words = (G'.flatMap Elem.words).map (dotIt n) :=
    sideWords_map _ _
  refine ⟨G'.map (Elem.mapWords (dotIt n)), ?_, ?_, ?_⟩
  · rw [toks_mapWords, ← hG, put_eq, put_eq, mapWord_comp]
    apply mapWord_congr
    intro w hw'
    simp only [Function.comp, dotIt]
    by_cases hm : w = mark
    · simp [hm]
    · have : w ≠ n := by rintro rfl; exact hfresh hw'
      simp [hm, this]
  · rw [hw]
    refine good_map ⟨h.words_ok, h.nodup⟩ ?_ ?_ ?_
    · intro w hw
      unfold dotIt
      split
      · exact .inl rfl
      · exact h.words_ok w hw
    · intro w _
      unfold dotIt
      split
      · rename_i h; rw [h, dots_unrepeatable, isName_unrepeatable hn]
      · rfl
    · intro w hw v hv h
      unfold dotIt at h
      split_ifs at h with a b b
      · rw [a, b]
      · exact absurd h.symm (hnd v hv)
      · exact absurd h (hnd w hw)
      · exact h
  · rw [List.map_map]
    conv_lhs => rw [← List.map_id G']
    apply List.map_congr_left
    intro e he
    have hee : ∀ w ∈ e.words, nameIt n (dotIt n w) = w := by
      intro w hw
      have := hnd w (List.mem_flatMap.2 ⟨e, he, hw⟩)
      unfold dotIt nameIt
      by_cases hwn : w = n
      · simp [hwn]
      · simp [hwn, this]
    cases e with
    | bare w => simp only [Function.comp, Elem.mapWords, id, hee w (by simp [Elem.words])]
    | paren ws =>
      simp only [Function.comp, Elem.mapWords, id, List.map_map]
      congr 1
      conv_lhs => rw [← List.map_id ws]
      exact List.map_congr_left (fun w hw => (hee w (by simpa [Elem.words] using hw)).symm)

end

/-- the axis `n` for the marker -/
def nameAxis (n : Str) (a : Axis) : Axis := if a = .str ellipsisStr then .str n else a

section
variable {n : Str} (hn : IsName false n)

omit [PyUnicode] in
theorem nameAxis_str {w : Str} (h : '…' ∉ w) : nameAxis n (.str w) = .str w := by
  unfold nameAxis
  rw [if_neg]
  intro h'
  cases h'
  simp [ellipsisStr] at h

include hn in
theorem wordAxes_name (side k : Nat) {w : Str} (hw : '…' ∉ w) :
    wordAxes side k (nameIt n w) = (wordAxes side k w).map (nameAxis n) := by
  by_cases hd : w = dots
  · subst hd
    simp only [nameIt, if_true, wordAxes, isName_ne_dots hn, isName_not_number false hn, if_false, List.map_cons,
      List.map_nil, nameAxis]
  · have h1 : nameIt n w = w := if_neg hd
    rw [h1]
    unfold wordAxes
    rw [if_neg hd]
    split
    · split
      · rfl
      · simp [nameAxis]
    · simp only [List.map_cons, List.map_nil, nameAxis_str hw]

include hn in
theorem wordsAxes_name (side : Nat) {ws : List Str} (hw : ∀ w ∈ ws, '…' ∉ w) (k : Nat) :
    wordsAxes side k (ws.map (nameIt n)) = (wordsAxes side k ws).map (nameAxis n) := by
  induction ws generalizing k with
  | nil => rfl
  | cons w ws ih =>
    simp only [List.map_cons, wordsAxes, List.map_append]
    rw [wordAxes_name hn side k (hw w (by simp)), ih (fun v hv => hw v (by simp [hv]))]

include hn in
theorem denote_name (side : Nat) {G : List Elem} (hw : ∀ w ∈ sideWords G, '…' ∉ w) (k : Nat) :
    (denote side k (G.map (Elem.mapWords (nameIt n)))).map CompAxis.axes =
      relabel (nameAxis n) ((denote side k G).map CompAxis.axes) := by
  unfold relabel
  induction G generalizing k with
  | nil => rfl
  | cons e G ih =>
    have ih := fun k => ih (fun w hw' => hw w (by
      unfold sideWords; rw [List.flatMap_cons]; exact List.mem_append_right _ hw')) k
    cases e with
    | bare w =>
      have h1 := wordAxes_name hn side k (hw w (by simp [sideWords, Elem.words]))
      simp only [List.map_cons, Elem.mapWords, denote, ih]
      congr 1
      by_cases hd : w = dots
      · subst hd
        have : nameIt n dots = n := if_pos rfl
        rw [this, if_neg (isName_ne_dots hn), if_pos rfl]
        rw [this] at h1
        simp only [CompAxis.axes]
        rw [h1]
        simp [wordAxes]
      · have : nameIt n w = w := if_neg hd
        rw [this] at h1 ⊢
        rw [if_neg hd]
        simpa only [CompAxis.axes] using h1
    | paren ws =>
      simp only [List.map_cons, Elem.mapWords, denote, List.length_map, ih, CompAxis.axes]
      rw [wordsAxes_name hn side (fun w hw' => hw w (by
        unfold sideWords; rw [List.flatMap_cons]; exact List.mem_append_left _ hw')) k]

omit [PyUnicode] in
theorem foldl_setAdd_map {φ : Axis → Axis} (l init : List Axis)
    (hinj : ∀ a ∈ init ++ l, ∀ c ∈ init ++ l, φ a = φ c → a = c) :
    (l.map φ).foldl setAdd (init.map φ) = (l.foldl setAdd init).map φ := by
  induction l generalizing init with
  | nil => rfl
  | cons a l ih =>
    simp only [List.map_cons, List.foldl_cons]
    have h : setAdd (init.map φ) (φ a) = (setAdd init a).map φ := by
      unfold setAdd
      have := mem_relabel (φ := φ) (A := init) (a := a) (fun c hc => hinj a (by simp) c (by simp [hc]))
      by_cases hm : a ∈ init
      · rw [if_pos hm, if_pos (this.2 hm)]
      · rw [if_neg hm, if_neg (fun h => hm (this.1 h))]; simp
    rw [h]
    apply ih
    intro x hx y hy
    have hsub : ∀ z, z ∈ setAdd init a ++ l → z ∈ init ++ a :: l := by
      intro z hz
      unfold setAdd at hz
      split at hz <;> simp at hz ⊢ <;> tauto
    exact hinj x (hsub x hx) y (hsub y hy)

omit [PyUnicode] in
theorem nameAxis_inj {A : List Axis} (hA : Axis.str n ∉ A) :
    ∀ a ∈ A, ∀ c ∈ A, nameAxis n a = nameAxis n c → a = c := by
  intro a ha c hc h
  unfold nameAxis at h
  split_ifs at h with h1 h2 h2
  · rw [h1, h2]
  · exact absurd (h ▸ hc) hA
  · exact absurd (h ▸ ha) hA
  · exact h

omit [PyUnicode] in
theorem map_ne_nil {φ : Axis → Axis} {A : List Axis} : A.map φ ≠ [] ↔ A ≠ [] := by simp

omit [PyUnicode] in
/-- the check of the sides does not see a change of labels -/
theorem checkSides_relabel {φ : Axis → Axis} {pl pr pl' pr' : ParsedExpression} {names : List Str}
    (hl : pl.hasEllipsis = false) (hr : pr.hasEllipsis = false) (hl' : pl'.hasEllipsis = false)
    (hr' : pr'.hasEllipsis = false) (nl : pl'.nonUnitary = pl.nonUnitary) (nr : pr'.nonUnitary = pr.nonUnitary)
    (il : pl'.identifiers = pl.identifiers.map φ) (ir : pr'.identifiers = pr.identifiers.map φ)
    (hinj : ∀ a ∈ pl.identifiers ++ pr.identifiers, ∀ c ∈ pl.identifiers ++ pr.identifiers, φ a = φ c → a = c)
    (hanon : ∀ a, (φ a).isAnon = a.isAnon)
    (hnames : ∀ a ∈ pr.identifiers, (φ a ∈ names.map Axis.str ↔ a ∈ names.map Axis.str)) (op : OpKind) :
    checkSides pl' pr' op names = checkSides pl pr op names := by
  have mL : ∀ a ∈ pr.identifiers, (φ a ∈ pl'.identifiers ↔ a ∈ pl.identifiers) := fun a ha => by
    rw [il]; exact mem_relabel (fun c hc => hinj a (List.mem_append_right _ ha) c (List.mem_append_left _ hc))
  have mR : ∀ a ∈ pl.identifiers, (φ a ∈ pr'.identifiers ↔ a ∈ pr.identifiers) := fun a ha => by
    rw [ir]; exact mem_relabel (fun c hc => hinj a (List.mem_append_left _ ha) c (List.mem_append_right _ hc))
  have f1 : pl'.identifiers.filter (fun a => decide (a ∉ pr'.identifiers)) =
      (pl.identifiers.filter (fun a => decide (a ∉ pr.identifiers))).map φ := by
    conv_lhs => rw [il]
    exact filter_map_relabel (fun a ha => by simp only [mR a ha])
  have f2 : pr'.identifiers.filter (fun a => decide (a ∉ pl'.identifiers)) =
      (pr.identifiers.filter (fun a => decide (a ∉ pl.identifiers))).map φ := by
    conv_lhs => rw [ir]
    exact filter_map_relabel (fun a ha => by simp only [mL a ha])
  have f3 : pr'.identifiers.filter
        (fun a => !a.isAnon && decide (a ∉ pl'.identifiers) && decide (a ∉ names.map Axis.str)) =
      (pr.identifiers.filter
        (fun a => !a.isAnon && decide (a ∉ pl.identifiers) && decide (a ∉ names.map Axis.str))).map φ := by
    conv_lhs => rw [ir]
    exact filter_map_relabel (fun a ha => by simp only [mL a ha, hanon, hnames a ha])
  unfold checkSides
  rw [hl, hr, hl', hr', nl, nr, f1, f2, f3]
  simp only [← List.map_append, map_ne_nil, Bool.false_and]

end

/-- the parsed side with '…' as a name -/
theorem name_ids {n : Str} (hn : IsName false n) (side : Nat) {G : List Elem} (hw : ∀ w ∈ sideWords G, '…' ∉ w)
    (hf : n ∉ sideWords G) :
    Axis.str n ∉ wordsAxes side 0 (sideWords G) ∧
    (describe side (G.map (Elem.mapWords (nameIt n)))).identifiers = (describe side G).identifiers.map (nameAxis n) ∧
    (describe side (G.map (Elem.mapWords (nameIt n)))).nonUnitary = (describe side G).nonUnitary := by
  have h0 : Axis.str n ∉ wordsAxes side 0 (sideWords G) := by
    intro h
    obtain ⟨w, hw', ⟨_, h1⟩ | ⟨_, _, rfl⟩⟩ := str_mem_wordsAxes.1 h
    · exact isName_no_ell hn (h1 ▸ by simp [ellipsisStr])
    · exact hf hw'
  refine ⟨h0, ?_, ?_⟩
  · have : (G.map (Elem.mapWords (nameIt n))).flatMap Elem.words = (sideWords G).map (nameIt n) := sideWords_map _ _
    simp only [describe]
    rw [this, wordsAxes_name hn side hw]
    exact foldl_setAdd_map _ [] (nameAxis_inj (by simpa using h0))
  · have : (G.map (Elem.mapWords (nameIt n))).flatMap Elem.words = (sideWords G).map (nameIt n) := sideWords_map _ _
    simp only [describe]
    rw [this, List.any_map]
    congr 1
    funext w
    simp only [Function.comp, nameIt]
    split
    · rename_i h
      simp [h, dots_not_number, isName_not_number false hn]
    · rfl

/-- what preparation does once the sides are expanded -/
theorem reduce_expanded (b : Backend α) (so : SetOrder) (x : Tensor α) {pattern : Str} {red : Reduction α}
    {kw : List (Str × Size)} (hnd : (kw.map Prod.fst).Nodup) {ex : Expanded} (wf : ExpandedWF ex)
    (hlen : ex.left.length = x.ndim)
    (h : prepareRecipe so pattern red.kind (kw.map Prod.fst) x.ndim = buildRecipe so ex (kw.map Prod.fst)) :
    (namesOK ex (kw.map Prod.fst) ∧ OneUnknown ex.left (kw.map Prod.fst) ∧
      reduce b so (.one x) pattern red kw = runEx b ex kw x red) ∨
    (¬ (namesOK ex (kw.map Prod.fst) ∧ OneUnknown ex.left (kw.map Prod.fst)) ∧
      reduce b so (.one x) pattern red kw = .error .einops) := by
  by_cases hok : namesOK ex (kw.map Prod.fst) ∧ OneUnknown ex.left (kw.map Prod.fst)
  · left
    refine ⟨hok.1, hok.2, ?_⟩
    simp only [reduce, resolveInput]
    rw [h, (buildRecipe_eq so ex wf _).1 hok]
    simp only [applyRecipe]
    rw [reconstruct_recipeOf so ex wf kw (x.shape.map Size.ofNat) hnd hok.1 hok.2 (by simp [hlen, Tensor.ndim])]
    unfold runEx
    cases firstErr kw ex.left (x.shape.map Size.ofNat) <;> rfl
  · right
    refine ⟨hok, ?_⟩
    simp only [reduce, resolveInput]
    rw [h, (buildRecipe_eq so ex wf _).2 hok]

/-- a keyword that is not a name is refused -/
theorem markExpected_bad {names : List Str} {w : Str} (hw : w ∈ names) (hc : checkAxisName false w = false)
    (dct : List (Axis × Int)) : markExpected dct names = .error .einops := by
  induction names generalizing dct with
  | nil => simp at hw
  | cons v names ih =>
    unfold markExpected
    split
    · rfl
    · rename_i h1
      rcases List.mem_cons.1 hw with rfl | hw
      · simp [hc] at h1
      · split
        · rfl
        · exact ih hw _

theorem prepare_bad_keyword {pattern l r : Str} (hs : splitArrow pattern = .ok (l, r)) {names : List Str} {w : Str}
    (hw : w ∈ names) (hc : checkAxisName false w = false) (so : SetOrder) (op : OpKind) (ndim : Nat) :
    prepareRecipe so pattern op names ndim = .error .einops := by
  unfold prepareRecipe
  rw [hs]
  simp only
  rcases hl : parseExpression 0 false false l with e | pl
  · simp only; rw [parseExpression_err 0 false false hl]
  simp only
  rcases hr : parseExpression 1 false false r with e | pr
  · simp only; rw [parseExpression_err 1 false false hr]
  simp only
  have h1 : checkSides pl pr op names = .ok () ∨ checkSides pl pr op names = .error .einops := by
    unfold checkSides
    repeat' split
    all_goals simp
  rcases h1 with h1 | h1
  · rw [h1]
    simp only
    have h2 : (∃ ex, expandSides pl pr ndim = .ok ex) ∨ expandSides pl pr ndim = .error .einops := by
      unfold expandSides
      repeat' split
      all_goals simp
    rcases h2 with ⟨ex, h2⟩ | h2
    · rw [h2]
      simp only [buildRecipe]
      rw [markExpected_bad hw hc]
    · rw [h2]
  · rw [h1]

theorem mark_not_name : checkAxisName false mark = false := by
  rw [Bool.eq_false_iff]
  exact fun h => isIdentifier_no_ell (checkAxisName_ident h) (by simp [mark])

omit [PyUnicode] in
theorem put_arrow {l l' n : Str} {T : List Tok} (hl : Lexes l T) (hl' : Lexes l' (T.map (Tok.put n)))
    (hn : ¬ arrow <:+: n) (h : ¬ arrow <:+: l) : ¬ arrow <:+: l' := by
  rw [hl'.arrow_iff]
  rintro ⟨w, hw, ha⟩
  rcases mem_put.1 hw with ⟨rfl, _⟩ | ⟨_, h2⟩
  · exact hn ha
  · exact h (hl.arrow_iff.2 ⟨w, h2, ha⟩)

section
variable {n l r l' r' : Str} {TL TR : List Tok}

theorem isName_no_arrow {n : Str} (hn : IsName false n) : ¬ arrow <:+: n := by
  rintro ⟨p, q, rfl⟩
  rcases hn.1 '>' (by simp [arrow]) with h | h
  · rw [PyUnicode.special_not_alnum '>' (by simp)] at h; cases h
  · cases h

/-- **'…' is the name of an axis** when there are no dots in the pattern. -/
theorem reduce_name (hn : IsName false n) (hl : Lexes l TL) (hr : Lexes r TR) (hl' : Lexes l' (TL.map (Tok.put n)))
    (hr' : Lexes r' (TR.map (Tok.put n))) (hal : ¬ arrow <:+: l) (har : ¬ arrow <:+: r) (dl : '.' ∉ l) (dr : '.' ∉ r)
    (aL : Alone TL) (aR : Alone TR) (fL : Tok.word n ∉ TL) (fR : Tok.word n ∉ TR)
    {kw : List (Str × Size)} (hnd : (kw.map Prod.fst).Nodup) (hkw : n ∉ kw.map Prod.fst) (b : Backend α)
    (so so' : SetOrder) (x : Tensor α) (red : Reduction α) :
    reduce b so (.one x) (l ++ arrow ++ r) red kw = reduce b so' (.one x) (l' ++ arrow ++ r') red kw := by
  have hna := isName_no_arrow hn
  have hs : splitArrow (l ++ arrow ++ r) = .ok (l, r) := splitArrow_iff.2 ⟨rfl, hal, har⟩
  have hs' : splitArrow (l' ++ arrow ++ r') = .ok (l', r') :=
    splitArrow_iff.2 ⟨rfl, put_arrow hl hl' hna hal, put_arrow hr hr' hna har⟩
  have dTL : '.' ∉ tokChars TL := fun h => dl (hl.chars h)
  have dTR : '.' ∉ tokChars TR := fun h => dr (hr.chars h)
  by_cases hm : mark ∈ kw.map Prod.fst
  · simp only [reduce, resolveInput]
    rw [prepare_bad_keyword hs hm mark_not_name, prepare_bad_keyword hs' hm mark_not_name]
  by_cases hG : (∃ GL : List Elem, TL.map (Tok.put dots) = GL.flatMap Elem.toks ∧
      GoodWords false false (GL.flatMap Elem.words)) ∧
      (∃ GR : List Elem, TR.map (Tok.put dots) = GR.flatMap Elem.toks ∧ GoodWords false false (GR.flatMap Elem.words))
  swap
  · -- both are refused
    have h1 : reduce b so (.one x) (l ++ arrow ++ r) red kw = .error .einops := by
      simp only [reduce, resolveInput, prepareRecipe, hs]
      rcases h1 : parseExpression 0 false false l with e | pl
      · simp only; rw [parseExpression_err 0 false false h1]
      · simp only
        rcases h2 : parseExpression 1 false false r with e | pr
        · simp only; rw [parseExpression_err 1 false false h2]
        · obtain ⟨GL, e1, _, e2, _⟩ := (parse_nodots 0 false false dl hl pl).1 h1
          obtain ⟨GR, e3, _, e4, _⟩ := (parse_nodots 1 false false dr hr pr).1 h2
          exact absurd ⟨⟨GL, e1, e2⟩, GR, e3, e4⟩ hG
    have hell : '…' ∉ l' ++ arrow ++ r' := by
      have e1 : '…' ∉ l' := by
        rw [hl'.mem_iff (by decide)]; exact (put_no_mark (isName_no_ell hn)).2 aL
      have e2 : '…' ∉ r' := by
        rw [hr'.mem_iff (by decide)]; exact (put_no_mark (isName_no_ell hn)).2 aR
      simp [e1, e2, arrow]
    have hno : ¬ ∃ GL GR, IsPattern (l' ++ arrow ++ r') GL GR := by
      rintro ⟨GL, GR, hp⟩
      obtain ⟨_, l1, r1, h3, h4, h5⟩ := isPattern_split hp
      rw [hs'] at h3
      cases h3
      obtain ⟨G1, e1, e2, _⟩ := side_name hn hl' dTL fL h4
      obtain ⟨G2, e3, e4, _⟩ := side_name hn hr' dTR fR h5
      exact hG ⟨⟨G1, e1, e2⟩, G2, e3, e4⟩
    rw [h1]
    rcases prepare_bad hell hno red.kind (kw.map Prod.fst) x.ndim with ⟨_, h⟩ | ⟨h, _⟩
    · simp only [reduce, resolveInput, h so']
    · exact absurd ⟨l', r', splitArrow_iff.1 hs'⟩ h
  obtain ⟨⟨GL, e1, g1⟩, GR, e2, g2⟩ := hG
  have hL' := name_side hn hl' dTL fL e1 g1
  have hR' := name_side hn hr' dTR fR e2 g2
  have wL : ∀ w ∈ sideWords GL, '…' ∉ w := fun w hw => wordOK_no_ell (g1.1 w hw)
  have wR : ∀ w ∈ sideWords GR, '…' ∉ w := fun w hw => wordOK_no_ell (g2.1 w hw)
  have nfresh : ∀ {T : List Tok} {G : List Elem}, Tok.word n ∉ T → T.map (Tok.put dots) = G.flatMap Elem.toks →
      n ∉ sideWords G := by
    intro T G h1 h2 h3
    have h4 := mem_toks_words.2 (show n ∈ G.flatMap Elem.words from h3)
    rw [← h2] at h4
    rcases mem_put.1 h4 with ⟨h, _⟩ | ⟨_, h⟩
    · exact isName_ne_dots hn h
    · exact h1 h
  obtain ⟨iL0, iL, uL⟩ := name_ids hn 0 wL (nfresh fL e1)
  obtain ⟨iR0, iR, uR⟩ := name_ids hn 1 wR (nfresh fR e2)
  have nodotsL : dots ∉ sideWords (GL.map (Elem.mapWords (nameIt n))) := by
    rw [sideWords_map]
    intro h
    obtain ⟨v, _, hv⟩ := List.mem_map.1 h
    unfold nameIt at hv
    split at hv
    · exact isName_ne_dots hn hv
    · contradiction
  have nodotsR : dots ∉ sideWords (GR.map (Elem.mapWords (nameIt n))) := by
    rw [sideWords_map]
    intro h
    obtain ⟨v, _, hv⟩ := List.mem_map.1 h
    unfold nameIt at hv
    split at hv
    · exact isName_ne_dots hn hv
    · contradiction
  have hel : (describe 0 (GL.map (Elem.mapWords (nameIt n)))).hasEllipsis = false := by
    simpa [describe, sideWords] using nodotsL
  have her : (describe 1 (GR.map (Elem.mapWords (nameIt n)))).hasEllipsis = false := by
    simpa [describe, sideWords] using nodotsR
  have hids : ∀ {side : Nat} {G : List Elem} {a : Axis}, a ∈ (describe side G).identifiers ↔
      a ∈ wordsAxes side 0 (sideWords G) := mem_describe_ids
  have hnames : ∀ a ∈ (describe 1 GR).identifiers, (nameAxis n a ∈ (kw.map Prod.fst).map Axis.str ↔
      a ∈ (kw.map Prod.fst).map Axis.str) := by
    intro a _
    unfold nameAxis
    split
    · rename_i h
      subst h
      constructor
      · intro h
        obtain ⟨v, hv, hvn⟩ := List.mem_map.1 h
        cases hvn
        exact absurd hv hkw
      · intro h
        obtain ⟨v, hv, hvn⟩ := List.mem_map.1 h
        cases hvn
        exact absurd hv hm
    · rfl
  have hcheck : checkSides (describe 0 (GL.map (Elem.mapWords (nameIt n)))) (describe 1 (GR.map (Elem.mapWords (nameIt n))))
      red.kind (kw.map Prod.fst) =
      checkSides { describe 0 GL with hasEllipsis := false } { describe 1 GR with hasEllipsis := false }
      red.kind (kw.map Prod.fst) := by
    refine checkSides_relabel (φ := nameAxis n) (pl := { describe 0 GL with hasEllipsis := false })
      (pr := { describe 1 GR with hasEllipsis := false }) rfl rfl hel her uL uR iL iR ?_ ?_ hnames red.kind
    · refine nameAxis_inj ?_
      intro h
      rcases List.mem_append.1 h with h | h
      · exact iL0 (hids.1 h)
      · exact iR0 (hids.1 h)
    · intro a
      unfold nameAxis
      split
      · rename_i h; subst h; rfl
      · rfl
  -- the expanded sides
  set ex : Expanded := ⟨(denote 0 0 GL).map CompAxis.axes, (denote 1 0 GR).map CompAxis.axes,
    (describe 0 GL).identifiers, (describe 1 GR).identifiers⟩ with hex
  set ex' : Expanded := ⟨(denote 0 0 (GL.map (Elem.mapWords (nameIt n)))).map CompAxis.axes,
    (denote 1 0 (GR.map (Elem.mapWords (nameIt n)))).map CompAxis.axes,
    (describe 0 (GL.map (Elem.mapWords (nameIt n)))).identifiers,
    (describe 1 (GR.map (Elem.mapWords (nameIt n)))).identifiers⟩ with hex'
  have flat : ∀ side G, ((denote side 0 G).map CompAxis.axes).flatten = wordsAxes side 0 (sideWords G) := by
    intro side G
    rw [← denote_axes, List.flatMap_def]
  have wf : ExpandedWF ex := ⟨by rw [hex, flat]; exact wordsAxes_nodup wL (g1.2 rfl),
    by rw [hex, flat]; exact wordsAxes_nodup wR (g2.2 rfl), fun a => by rw [hex, flat]; exact hids,
    fun a => by rw [hex, flat]; exact hids, describe_ids_nodup 1 GR⟩
  have wL' := side_no_ell hL'
  have wR' := side_no_ell hR'
  have wf' : ExpandedWF ex' := ⟨by rw [hex', flat]; exact wordsAxes_nodup wL' (hL'.nodup rfl),
    by rw [hex', flat]; exact wordsAxes_nodup wR' (hR'.nodup rfl), fun a => by rw [hex', flat]; exact hids,
    fun a => by rw [hex', flat]; exact hids, describe_ids_nodup 1 _⟩
  have hsame : SameUpTo (nameAxis n) ex ex' kw kw := by
    refine ⟨denote_name hn 0 wL 0, denote_name hn 1 wR 0, ?_, ?_⟩
    · refine nameAxis_inj ?_
      rw [hex, flat, flat]
      intro h
      rcases List.mem_append.1 h with h | h
      · exact iL0 h
      · exact iR0 h
    · intro a _
      unfold nameAxis
      split
      · rename_i h
        subst h
        have k1 : knownSize kw (.str n) = none := knownSize_none.2 (by
          rw [isKnown, decide_eq_false_iff_not]; exact hkw)
        have k2 : knownSize kw (.str ellipsisStr) = none := knownSize_none.2 (by
          rw [isKnown, decide_eq_false_iff_not]; exact hm)
        rw [k1, k2]
      · rfl
  have hp : ∀ so, prepareRecipe so (l ++ arrow ++ r) red.kind (kw.map Prod.fst) x.ndim =
      (match checkSides { describe 0 GL with hasEllipsis := false } { describe 1 GR with hasEllipsis := false }
        red.kind (kw.map Prod.fst) with
      | .error e => .error e
      | .ok () => if x.ndim ≠ GL.length then .error .einops else buildRecipe so ex (kw.map Prod.fst)) := by
    intro so
    unfold prepareRecipe
    rw [hs]
    simp only
    rw [(parse_nodots 0 false false dl hl _).2 ⟨GL, e1, aL, g1, rfl⟩,
      (parse_nodots 1 false false dr hr _).2 ⟨GR, e2, aR, g2, rfl⟩]
    simp only
    congr 1
    funext _
    unfold expandSides
    simp only [Bool.false_eq_true, if_false, show (describe 0 GL).composition = denote 0 0 GL from rfl, denote_length]
    by_cases hlen : x.ndim = GL.length
    · simp only [hlen, ne_eq, not_true_eq_false, if_false]; rfl
    · simp only [hlen, ne_eq, not_false_eq_true, if_true]
  have hlen' : (GL.map (Elem.mapWords (nameIt n))).length = GL.length := List.length_map _
  have hell' : '…' ∉ l' ∧ '…' ∉ r' :=
    ⟨isSide_no_special hL' (by simp), isSide_no_special hR' (by simp)⟩
  have hp' : ∀ so, prepareRecipe so (l' ++ arrow ++ r') red.kind (kw.map Prod.fst) x.ndim =
      (match checkSides { describe 0 GL with hasEllipsis := false } { describe 1 GR with hasEllipsis := false }
        red.kind (kw.map Prod.fst) with
      | .error e => .error e
      | .ok () => if x.ndim ≠ GL.length then .error .einops else buildRecipe so ex' (kw.map Prod.fst)) := by
    intro so
    unfold prepareRecipe
    rw [hs']
    simp only
    rw [(parseExpression_iff 0 false false l' hell'.1 _).2 ⟨_, hL', rfl⟩,
      (parseExpression_iff 1 false false r' hell'.2 _).2 ⟨_, hR', rfl⟩]
    simp only
    rw [hcheck]
    congr 1
    funext _
    unfold expandSides
    rw [hel]
    simp only [Bool.false_eq_true, if_false,
      show (describe 0 (GL.map (Elem.mapWords (nameIt n)))).composition = denote 0 0 _ from rfl, denote_length, hlen']
    by_cases hlen : x.ndim = GL.length
    · simp only [hlen, ne_eq, not_true_eq_false, if_false]; rfl
    · simp only [hlen, ne_eq, not_false_eq_true, if_true]
  rcases hc : checkSides { describe 0 GL with hasEllipsis := false } { describe 1 GR with hasEllipsis := false }
      red.kind (kw.map Prod.fst) with e | _
  · rw [hc] at hp hp'
    simp only [reduce, resolveInput, hp, hp']
  rw [hc] at hp hp'
  simp only at hp hp'
  by_cases hlen : x.ndim = GL.length
  swap
  · simp only [ne_eq, hlen, not_false_eq_true, if_true] at hp hp'
    simp only [reduce, resolveInput, hp, hp']
  have hlen0 : ¬ x.ndim ≠ GL.length := by simpa using hlen
  simp only [if_neg hlen0] at hp hp'
  have hn1 : ex.left.length = x.ndim := by rw [hex, hlen, List.length_map, denote_length]
  have hn2 : ex'.left.length = x.ndim := by rw [hex', hlen, List.length_map, denote_length, hlen']
  have hnames2 : namesOK ex' (kw.map Prod.fst) ↔ namesOK ex (kw.map Prod.fst) := by
    unfold namesOK
    refine forall₂_congr fun w hw => and_congr_right fun hcheck => ?_
    have hwell := isIdentifier_no_ell (checkAxisName_ident hcheck)
    have hfix : nameAxis n (.str w) = .str w := nameAxis_str hwell
    have hwn : w ≠ n := fun h => hkw (h ▸ hw)
    have key : ∀ A : List Axis, Axis.str w ∈ A.map (nameAxis n) ↔ Axis.str w ∈ A := by
      intro A
      constructor
      · intro h
        obtain ⟨c, hc, hcw⟩ := List.mem_map.1 h
        unfold nameAxis at hcw
        split at hcw
        · cases hcw; exact absurd rfl hwn
        · exact hcw ▸ hc
      · intro h; rw [← hfix]; exact List.mem_map_of_mem h
    have hl1 : ex'.left.flatten = ex.left.flatten.map (nameAxis n) := by rw [hsame.left, flatten_relabel]
    rw [hl1, key]
    have : ex'.rghtIds = ex.rghtIds.map (nameAxis n) := iR
    rw [this, key]
  rcases reduce_expanded b so x hnd wf hn1 (hp so) with ⟨a1, a2, a3⟩ | ⟨a1, a2⟩ <;>
    rcases reduce_expanded b so' x hnd wf' hn2 (hp' so') with ⟨b1, b2, b3⟩ | ⟨b1, b2⟩
  · rw [a3, b3, hsame.run wf wf']
  · exact absurd ⟨hnames2.2 a1, hsame.oneUnknown.2 a2⟩ b1
  · exact absurd ⟨hnames2.1 b1, hsame.oneUnknown.1 b2⟩ a1
  · rw [a2, b2]

end

omit [PyUnicode] in
/-- every sequence of proper words can be written -/
theorem lexes_of_toks {T : List Tok} (h : ∀ w, Tok.word w ∈ T → w ≠ [] ∧ ∀ c ∈ w, ¬ isSep c) : ∃ s, Lexes s T := by
  induction T with
  | nil => exact ⟨[], .nil⟩
  | cons t T ih =>
    obtain ⟨s, hs⟩ := ih (fun w hw => h w (by simp [hw]))
    cases t with
    | lp => exact ⟨_, .lp hs⟩
    | rp => exact ⟨_, .rp hs⟩
    | word w =>
      obtain ⟨h1, h2⟩ := h w (by simp)
      exact ⟨w ++ ' ' :: s, .word h1 h2 (by simp [isSep]) (.space hs)⟩

omit [PyUnicode] in
theorem Lexes.words {s : Str} {T : List Tok} (h : Lexes s T) : ∀ w, Tok.word w ∈ T → w ≠ [] ∧ ∀ c ∈ w, ¬ isSep c := by
  induction h with
  | nil => simp
  | space _ ih => exact ih
  | lp _ ih => simpa using ih
  | rp _ ih => simpa using ih
  | word h1 h2 _ _ ih =>
    intro v hv
    rcases List.mem_cons.1 hv with hv | hv
    · cases hv; exact ⟨h1, h2⟩
    · exact ih v hv

omit [PyUnicode] in
theorem put_lexes {s n : Str} {T : List Tok} (h : Lexes s T) (h1 : n ≠ []) (h2 : ∀ c ∈ n, ¬ isSep c) :
    ∃ s', Lexes s' (T.map (Tok.put n)) := by
  apply lexes_of_toks
  intro w hw
  rcases mem_put.1 hw with ⟨rfl, _⟩ | ⟨_, hw⟩
  · exact ⟨h1, h2⟩
  · exact h.words w hw

/-! ### the dots on the left and '…' on the right -/

section
variable {l r r' : Str} {TR : List Tok} {GL GR : List Elem}

/-- the sides when the right one is written with '…' -/
def exMark (GL GR : List Elem) (n : Nat) : Expanded :=
  { exOf GL GR n with rghtIds := (describe 1 GR).identifiers }

omit [PyUnicode] in
theorem checkSides_mark (pl pr : ParsedExpression) (h : pl.hasEllipsis = true) (op : OpKind) (names : List Str) :
    checkSides pl { pr with hasEllipsis := false } op names = checkSides pl pr op names := by
  unfold checkSides
  simp only [h, Bool.not_true, Bool.false_and]

theorem good_side {s : Str} {G : List Elem} (h1 : Lexes s (G.flatMap Elem.toks))
    (h2 : GoodWords false false (G.flatMap Elem.words)) : IsSide false false s G := by
  refine ⟨h1, h2.1, ?_, h2.2⟩
  have := List.nodup_iff_count_le_one.1 (h2.2 rfl) dots
  rwa [List.count_filter dots_unrepeatable] at this

theorem mixed_prepare (hL : IsSide false false l GL) (hd : dots ∈ sideWords GL) (hr : Lexes r TR) (dr : '.' ∉ r)
    (har : ¬ arrow <:+: r) (aR : Alone TR) (e2 : TR.map (Tok.put dots) = GR.flatMap Elem.toks)
    (g2 : GoodWords false false (GR.flatMap Elem.words)) (hR : IsSide false false r' GR) (so : SetOrder) (op : OpKind)
    (names : List Str) (ndim : Nat) :
    (prepareRecipe so (l ++ arrow ++ r) op names ndim = .error .einops ∧
      prepareRecipe so (l ++ arrow ++ r') op names ndim = .error .einops) ∨
    ∃ n, ndim + 1 = GL.length + n ∧ (exOf GL GR n).left.length = ndim ∧
      prepareRecipe so (l ++ arrow ++ r) op names ndim = buildRecipe so (exMark GL GR n) names ∧
      prepareRecipe so (l ++ arrow ++ r') op names ndim = buildRecipe so (exOf GL GR n) names := by
  have hs : splitArrow (l ++ arrow ++ r) = .ok (l, r) := splitArrow_iff.2 ⟨rfl, isSide_no_arrow hL, har⟩
  have hp : IsPattern (l ++ arrow ++ r') GL GR := ⟨l, r', rfl, hL, hR⟩
  have hEl : (describe 0 GL).hasEllipsis = true := by simpa [describe, sideWords] using hd
  have hpos : 1 ≤ GL.length := by
    rcases GL with _ | ⟨e, G⟩
    · simp [sideWords] at hd
    · simp
  rw [prepare_pattern hp]
  have h1 : prepareRecipe so (l ++ arrow ++ r) op names ndim =
      (match checkSides (describe 0 GL) (describe 1 GR) op names with
      | .error e => .error e
      | .ok () => match expandSides (describe 0 GL) { describe 1 GR with hasEllipsis := false } ndim with
        | .error e => .error e
        | .ok ex => buildRecipe so ex names) := by
    unfold prepareRecipe
    rw [hs]
    simp only
    rw [(parseExpression_iff 0 false false l (isSide_no_special hL (by simp)) _).2 ⟨GL, hL, rfl⟩,
      (parse_nodots 1 false false dr hr _).2 ⟨GR, e2, aR, g2, rfl⟩]
    simp only
    rw [checkSides_mark _ _ hEl]
    cases checkSides (describe 0 GL) (describe 1 GR) op names <;> rfl
  rw [h1, checkSides_iff hL hR]
  by_cases hS : SidesOK op GL GR names
  swap
  · left
    rw [if_neg hS, if_neg hS]
    exact ⟨rfl, rfl⟩
  rw [if_pos hS, if_pos hS]
  simp only
  have hE := expandSides_eq hL hR (sidesOK_ellipsis hS) ndim
  have hM : expandSides (describe 0 GL) { describe 1 GR with hasEllipsis := false } ndim =
      match expandSides (describe 0 GL) (describe 1 GR) ndim with
      | .error e => .error e
      | .ok ex => .ok { ex with rghtIds := (describe 1 GR).identifiers } := by
    unfold expandSides
    rw [if_pos hEl, if_pos hEl]
    split <;> rfl
  rw [hM, hE]
  rcases hc : ellCount GL ndim with _ | n
  · left; exact ⟨rfl, rfl⟩
  · right
    obtain ⟨_, _, _, _, hlen⟩ := (groups_iff hL (sidesOK_ellipsis hS) ndim _ _).2 ⟨n, hc, rfl, rfl⟩
    refine ⟨n, ?_, hlen, rfl, rfl⟩
    unfold ellCount at hc
    rw [if_pos hd] at hc
    split at hc
    · cases hc
    · cases hc; omega

theorem exMark_plan (hL : IsSide false false l GL) (hR : IsSide false false r' GR) (hd : dots ∈ sideWords GL) (n : Nat) :
    PlanWF (exMark GL GR n) := by
  have wf := exOf_wf hL hR n
  refine ⟨wf.left_nodup, wf.leftIds_iff, describe_ids_nodup 1 GR, ?_⟩
  intro a ha
  have ha' : a ∈ (spread (ellAxes n) (denote 1 0 GR)).flatten := ha
  rw [flatten_spread, mem_flatMap_subEll] at ha'
  rcases ha' with ⟨h, _⟩ | ⟨h, _⟩
  · exact .inr (mem_describe_ids.2 h)
  · left
    change a ∈ (spread (ellAxes n) (denote 0 0 GL)).flatten
    rw [flatten_spread, mem_flatMap_subEll]
    exact .inr ⟨h, (marker_mem_wordsAxes (side_no_ell hL)).2 hd⟩

theorem exMark_names (hR : IsSide false false r' GR) (n : Nat) (names : List Str) :
    namesOK (exMark GL GR n) names ↔ namesOK (exOf GL GR n) names := by
  unfold namesOK
  refine forall₂_congr fun w _ => and_congr_right fun hcheck => ?_
  have hw := isIdentifier_no_ell (checkAxisName_ident hcheck)
  refine or_congr Iff.rfl ?_
  change Axis.str w ∈ (describe 1 GR).identifiers ↔ Axis.str w ∈ (exOf GL GR n).rghtIds
  simp only [exOf]
  split
  · rw [mem_expandIds]
    constructor
    · intro h
      refine ⟨?_, .inl h⟩
      intro h'
      cases h'
      simp [ellipsisStr] at hw
    · rintro ⟨_, h | h⟩
      · exact h
      · exact absurd h (name_not_mem_ellAxes hw)
  · rfl

theorem marker_not_left (hL : IsSide false false l GL) (n : Nat) : Axis.str ellipsisStr ∉ (exOf GL GR n).left.flatten := by
  intro h
  have h' : Axis.str ellipsisStr ∈ (spread (ellAxes n) (denote 0 0 GL)).flatten := h
  rw [flatten_spread, mem_flatMap_subEll] at h'
  rcases h' with ⟨_, h⟩ | ⟨h, _⟩
  · exact h rfl
  · exact marker_not_mem_ellAxes n h

/-- when the ellipsis stands for no axes, the way the right side is written does not matter -/
theorem exMark_cooked (so : SetOrder) (hL : IsSide false false l GL) (hR : IsSide false false r' GR)
    (kw : List (Str × Size)) (shape : List Size) :
    ({ cookedOf (exMark GL GR 0) kw shape with
          initShapes := if (exMark GL GR 0).left.any (fun g => g.length ≠ 1) then
            some (((elementary so (exMark GL GR 0)).map (axisSize kw (exMark GL GR 0).left shape)).take
              ((exMark GL GR 0).rght.flatten.filter (fun a => a ∈ (exMark GL GR 0).leftIds) ++
                (exMark GL GR 0).left.flatten.filter (fun a => a ∉ (exMark GL GR 0).rghtIds)).length)
            else none } : CookedRecipe) = cookedOf (exOf GL GR 0) kw shape := by
  have wf := exOf_wf hL hR 0
  have hdrop : (exMark GL GR 0).left.flatten.filter (fun a => a ∉ (exMark GL GR 0).rghtIds) =
      (exOf GL GR 0).left.flatten.filter (fun a => a ∉ (exOf GL GR 0).rghtIds) := by
    change (exOf GL GR 0).left.flatten.filter (fun a => a ∉ (describe 1 GR).identifiers) = _
    apply List.filter_congr
    intro a ha
    have hne : a ≠ .str ellipsisStr := fun h => marker_not_left hL 0 (h ▸ ha)
    apply decide_eq_decide.2
    refine not_congr ?_
    simp only [exOf]
    split
    · rw [mem_expandIds]
      simp [hne, ellAxes]
    · rfl
  have h1 : (exMark GL GR 0).left = (exOf GL GR 0).left := rfl
  have h2 : (exMark GL GR 0).rght = (exOf GL GR 0).rght := rfl
  have h3 : (exMark GL GR 0).leftIds = (exOf GL GR 0).leftIds := rfl
  have h4 := take_elementary so (exMark GL GR 0) (axisSize kw (exMark GL GR 0).left shape)
  rw [hdrop, h2, h3, order_length _ wf, ← h1, h4]
  unfold cookedOf
  simp only
  rw [hdrop]
  rfl

section
variable (hL : IsSide false false l GL) (hr : Lexes r TR) (dr : '.' ∉ r)
    (har : ¬ arrow <:+: r) (aR : Alone TR) (hr' : Lexes r' (TR.map (Tok.put dots)))
    (hG : ¬ ∃ GR : List Elem, TR.map (Tok.put dots) = GR.flatMap Elem.toks ∧
      GoodWords false false (GR.flatMap Elem.words))
    {kw : List (Str × Size)} {b : Backend α} {so : SetOrder} {x : Tensor α} {red : Reduction α}

include hL hr dr har hG in
/-- a right side that is not legal is refused -/
theorem mixed_bad : reduce b so (.one x) (l ++ arrow ++ r) red kw = .error .einops := by
  have hs : splitArrow (l ++ arrow ++ r) = .ok (l, r) := splitArrow_iff.2 ⟨rfl, isSide_no_arrow hL, har⟩
  simp only [reduce, resolveInput, prepareRecipe, hs]
  rw [(parseExpression_iff 0 false false l (isSide_no_special hL (by simp)) _).2 ⟨GL, hL, rfl⟩]
  simp only
  rcases h2 : parseExpression 1 false false r with e | pr
  · simp only; rw [parseExpression_err 1 false false h2]
  · obtain ⟨GR, e3, _, e4, _⟩ := (parse_nodots 1 false false dr hr pr).1 h2
    exact absurd ⟨GR, e3, e4⟩ hG

include hL hr har aR hr' hG in
theorem mixed_bad' : reduce b so (.one x) (l ++ arrow ++ r') red kw = .error .einops := by
  have hs : splitArrow (l ++ arrow ++ r') = .ok (l, r') :=
    splitArrow_iff.2 ⟨rfl, isSide_no_arrow hL, put_arrow hr hr' (by decide) har⟩
  have hell : '…' ∉ r' := by rw [hr'.mem_iff (by decide)]; exact (put_no_mark dots_no_mark).2 aR
  simp only [reduce, resolveInput, prepareRecipe, hs]
  rw [(parseExpression_iff 0 false false l (isSide_no_special hL (by simp)) _).2 ⟨GL, hL, rfl⟩]
  simp only
  rcases h2 : parseExpression 1 false false r' with e | pr
  · simp only; rw [parseExpression_err 1 false false h2]
  · obtain ⟨GR, e3, _⟩ := (parseExpression_iff 1 false false r' hell _).1 h2
    exact absurd ⟨GR, hr'.unique e3.lexes, e3.words_ok, e3.nodup⟩ hG

end

/-- **An ellipsis that stands for no axes** may be written '…' on the right. -/
theorem reduce_mixed_none (hL : IsSide false false l GL) (hd : dots ∈ sideWords GL) (hr : Lexes r TR) (dr : '.' ∉ r)
    (har : ¬ arrow <:+: r) (aR : Alone TR) (hr' : Lexes r' (TR.map (Tok.put dots)))
    {kw : List (Str × Size)} (hnd : (kw.map Prod.fst).Nodup) (b : Backend α) (so so' : SetOrder) (x : Tensor α)
    (hx : x.ndim + 1 = GL.length) (red : Reduction α) :
    reduce b so (.one x) (l ++ arrow ++ r) red kw = reduce b so' (.one x) (l ++ arrow ++ r') red kw := by
  by_cases hG : ∃ GR : List Elem, TR.map (Tok.put dots) = GR.flatMap Elem.toks ∧
      GoodWords false false (GR.flatMap Elem.words)
  swap
  · rw [mixed_bad hL hr dr har hG, mixed_bad' hL hr har aR hr' hG]
  obtain ⟨GR, e2, g2⟩ := hG
  have hR := good_side (e2 ▸ hr') g2
  have hp : IsPattern (l ++ arrow ++ r') GL GR := ⟨l, r', rfl, hL, hR⟩
  have hso : reduce b so' (.one x) (l ++ arrow ++ r') red kw = reduce b so (.one x) (l ++ arrow ++ r') red kw := by
    rw [reduce_sides b so' x hp red hnd, reduce_sides b so x hp red hnd]
  rw [hso]
  rcases mixed_prepare hL hd hr dr har aR e2 g2 hR so red.kind (kw.map Prod.fst) x.ndim with ⟨h1, h2⟩ | ⟨n, hn, hlen, h1, h2⟩
  · simp only [reduce, resolveInput, h1, h2]
  obtain rfl : n = 0 := by omega
  have wf := exOf_wf hL hR 0
  have pwf := exMark_plan hL hR hd 0
  rcases reduce_expanded b so x hnd wf hlen h2 with ⟨a1, a2, a3⟩ | ⟨a1, a2⟩
  · rw [a3]
    simp only [reduce, resolveInput]
    rw [h1, (buildRecipe_plan so _ pwf _).1 ⟨(exMark_names hR 0 _).2 a1, a2⟩]
    simp only [applyRecipe]
    rw [reconstruct_plan so _ pwf kw (x.shape.map Size.ofNat) hnd ((exMark_names hR 0 _).2 a1) a2
      (by rw [List.length_map]; exact hlen.symm)]
    rw [exMark_cooked so hL hR]
    unfold runEx
    rw [show (exMark GL GR 0).left = (exOf GL GR 0).left from rfl]
    cases firstErr kw (exOf GL GR 0).left (x.shape.map Size.ofNat) <;> rfl
  · rw [a2]
    simp only [reduce, resolveInput]
    rw [h1, (buildRecipe_plan so _ pwf _).2 (fun h => a1 ⟨(exMark_names hR 0 _).1 h.1, h.2⟩)]

/-- **An ellipsis that stands for some axes** must not be written '…' on the right: nothing is returned. -/
theorem reduce_mixed_some (hL : IsSide false false l GL) (hd : dots ∈ sideWords GL) (hr : Lexes r TR) (dr : '.' ∉ r)
    (har : ¬ arrow <:+: r) (aR : Alone TR) (hm : Tok.word mark ∈ TR)
    {kw : List (Str × Size)} (hnd : (kw.map Prod.fst).Nodup) {b : Backend α} (hb : MoveLawful b) (so : SetOrder)
    (x : Tensor α) (hx : x.ndim + 1 ≠ GL.length) (red : Reduction α) (y : Tensor α) :
    reduce b so (.one x) (l ++ arrow ++ r) red kw ≠ .ok y := by
  intro hy
  by_cases hG : ∃ GR : List Elem, TR.map (Tok.put dots) = GR.flatMap Elem.toks ∧
      GoodWords false false (GR.flatMap Elem.words)
  swap
  · rw [mixed_bad hL hr dr har hG] at hy; cases hy
  obtain ⟨GR, e2, g2⟩ := hG
  obtain ⟨r', hr'⟩ := put_lexes hr (n := dots) (by decide) (by decide)
  have hR := good_side (e2 ▸ hr') g2
  rcases mixed_prepare hL hd hr dr har aR e2 g2 hR so red.kind (kw.map Prod.fst) x.ndim with ⟨h1, _⟩ | ⟨n, hn, hlen, h1, _⟩
  · simp only [reduce, resolveInput, h1] at hy; cases hy
  have pwf := exMark_plan hL hR hd n
  by_cases hok : namesOK (exMark GL GR n) (kw.map Prod.fst) ∧ OneUnknown (exMark GL GR n).left (kw.map Prod.fst)
  swap
  · simp only [reduce, resolveInput] at hy
    rw [h1, (buildRecipe_plan so _ pwf _).2 hok] at hy
    cases hy
  simp only [reduce, resolveInput] at hy
  rw [h1, (buildRecipe_plan so _ pwf _).1 hok] at hy
  simp only [applyRecipe] at hy
  rw [reconstruct_plan so _ pwf kw (x.shape.map Size.ofNat) hnd hok.1 hok.2
      (by rw [List.length_map]; exact hlen.symm)] at hy
  cases hf : firstErr kw (exMark GL GR n).left (x.shape.map Size.ofNat) with
  | some e => rw [hf] at hy; cases hy
  | none =>
    rw [hf] at hy
    simp only [applyCooked] at hy
    obtain ⟨z, _, hz⟩ := bind_ok hy
    obtain ⟨z', hz', _⟩ := bind_ok hz
    clear hy hz
    -- the first axis of the ellipsis is used twice
    have hdR : dots ∈ sideWords GR := by
      have : Tok.word dots ∈ TR.map (Tok.put dots) := mem_put.2 (.inl ⟨rfl, hm⟩)
      rw [e2] at this
      exact mem_toks_words.1 this
    have h0 : Axis.str (ellipsisStr ++ natStr 0) ∈ ellAxes n := mem_ellAxes.2 ⟨0, by omega, rfl⟩
    have hl0 : Axis.str (ellipsisStr ++ natStr 0) ∈ (exMark GL GR n).left.flatten := by
      change _ ∈ (spread (ellAxes n) (denote 0 0 GL)).flatten
      rw [flatten_spread, mem_flatMap_subEll]
      exact .inr ⟨h0, (marker_mem_wordsAxes (side_no_ell hL)).2 hd⟩
    have hr0 : Axis.str (ellipsisStr ++ natStr 0) ∈ (exMark GL GR n).rght.flatten := by
      change _ ∈ (spread (ellAxes n) (denote 1 0 GR)).flatten
      rw [flatten_spread, mem_flatMap_subEll]
      exact .inr ⟨h0, (marker_mem_wordsAxes (side_no_ell hR)).2 hdR⟩
    have hi0 : Axis.str (ellipsisStr ++ natStr 0) ∉ (exMark GL GR n).rghtIds := by
      intro h
      obtain ⟨w, hw, ⟨_, h1⟩ | ⟨_, _, h1⟩⟩ := str_mem_wordsAxes.1 (mem_describe_ids.1 h)
      · exact marker_not_mem_ellAxes n (h1 ▸ h0)
      · exact side_no_ell hR w hw (h1 ▸ by simp [ellipsisStr])
    set order := (exMark GL GR n).rght.flatten.filter (fun a => a ∈ (exMark GL GR n).leftIds) ++
      (exMark GL GR n).left.flatten.filter (fun a => a ∉ (exMark GL GR n).rghtIds) with horder
    have hdup : ¬ (order.map (exMark GL GR n).left.flatten.idxOf).Nodup := by
      intro h
      have h := h.of_map
      rw [horder, List.nodup_append] at h
      exact h.2.2 _ (List.mem_filter.2 ⟨hr0, by simpa using (pwf.leftIds_iff _).2 hl0⟩) _
        (List.mem_filter.2 ⟨hl0, by simpa using hi0⟩) rfl
    have hre : (cookedOf (exMark GL GR n) kw (x.shape.map Size.ofNat)).axesReordering =
        some (order.map (exMark GL GR n).left.flatten.idxOf) := by
      unfold cookedOf
      simp only [← horder]
      rw [if_neg]
      intro h
      apply hdup
      rw [h]
      exact List.nodup_range
    rw [hre] at hz'
    simp only [optTranspose, hb.transpose, Tensor.transpose] at hz'
    rw [if_neg (fun h => hdup h.2.1)] at hz'
    cases hz'

end

/-! ### everything else is refused -/

omit [PyUnicode] in
theorem count_mark {T : List Tok} (h : Alone T) : (tokChars T).count '…' = T.count (.word mark) := by
  induction T with
  | nil => rfl
  | cons t T ih =>
    have ih := ih (fun w hw => h w (by simp [hw]))
    cases t with
    | lp => simpa [tokChars] using ih
    | rp => simpa [tokChars] using ih
    | word w =>
      simp only [tokChars, List.count_append, ih, List.count_cons]
      by_cases hw : '…' ∈ w
      · have := h w (by simp) hw
        subst this
        have : List.count '…' mark = 1 := by decide
        rw [this]; simp; omega
      · have hne : w ≠ mark := by rintro rfl; simp [mark] at hw
        rw [List.count_eq_zero_of_not_mem hw]
        simp [hne]

omit [PyUnicode] in
theorem count_toks_dots (G : List Elem) : (G.flatMap Elem.toks).count (.word dots) = (G.flatMap Elem.words).count dots := by
  induction G with
  | nil => rfl
  | cons e G ih =>
    rw [List.flatMap_cons, List.flatMap_cons, List.count_append, List.count_append, ih]
    congr 1
    cases e with
    | bare w =>
      simp only [Elem.toks, Elem.words, List.count_cons, List.count_nil]
      by_cases h : w = dots <;> simp [h]
    | paren ws =>
      simp only [Elem.toks, Elem.words]
      rw [List.cons_append, List.count_cons, List.count_append]
      have : List.count (Tok.word dots) (ws.map Tok.word) = List.count dots ws :=
        List.count_map_of_injective ws Tok.word (fun a b h => by simpa using h) dots
      rw [this]
      simp

/-- the dots and '…' cannot both occur on a side -/
theorem parse_both (side : Nat) {u : Bool} {s : Str} (hd : '.' ∈ s) (hm : '…' ∈ s) :
    parseExpression side u false s = .error .einops := by
  rcases hp : parseExpression side u false s with e | pe
  · rw [parseExpression_err side u false hp]
  exfalso
  rw [parseExpression_eq] at hp
  rcases prepareDots_cases s with ⟨h, _⟩ | ⟨p, q, rfl, hpp, hqq, h⟩ | ⟨_, _, h⟩
  · exact h hd
  · rw [h] at hp
    obtain ⟨T, hT⟩ := lexes_exists (p ++ ellipsisStr ++ q)
    have hnd : '.' ∉ p ++ ellipsisStr ++ q := by simp [hpp, hqq, ellipsisStr]
    have hrun := run_nodots side u false hnd hT
    simp only [Except.bind] at hp hrun
    split at hp
    · cases hp
    · rename_i st hst
      obtain ⟨G, h1, h2, h3, _⟩ := (hrun st).1 hst
      have c1 : 2 ≤ (p ++ ellipsisStr ++ q).count '…' := by
        have e1 : List.count '…' ellipsisStr = 1 := by decide
        simp only [List.count_append, e1]
        simp only [List.mem_append] at hm
        rcases hm with (hm | hm) | hm
        · have := List.count_pos_iff.2 hm; omega
        · simp [dots] at hm
        · have := List.count_pos_iff.2 hm; omega
      rw [hT.count_char '…' (by decide), count_mark h2] at c1
      have c2 : T.count (.word mark) ≤ (T.map (Tok.put dots)).count (.word dots) :=
        List.count_le_count_map (f := Tok.put dots) (x := Tok.word mark)
      rw [h1, count_toks_dots] at c2
      have c3 := List.nodup_iff_count_le_one.1 (h3.2 rfl) dots
      rw [List.count_filter dots_unrepeatable] at c3
      omega
  · rw [h] at hp; cases hp

theorem parse_glued (side : Nat) {u d : Bool} {s : Str} (hs : '.' ∉ s) {T : List Tok} (hT : Lexes s T) (ha : ¬ Alone T) :
    parseExpression side u d s = .error .einops := by
  rcases hp : parseExpression side u d s with e | pe
  · rw [parseExpression_err side u d hp]
  obtain ⟨_, _, h, _⟩ := (parse_nodots side u d hs hT pe).1 hp
  exact absurd h ha

theorem parse_hasEllipsis (side : Nat) {s : Str} {pe : ParsedExpression} (h : parseExpression side false false s = .ok pe) :
    pe.hasEllipsis = true ↔ '.' ∈ s := by
  rw [parseExpression_eq] at h
  rcases prepareDots_cases s with ⟨hd, hp⟩ | ⟨p, q, rfl, hpp, hqq, hp⟩ | ⟨_, _, hp⟩
  · rw [hp] at h
    obtain ⟨st0, h0, h⟩ := bind_ok h
    cases h0
    obtain ⟨st, _, h⟩ := bind_ok h
    cases h
    simp [hd]
  · rw [hp] at h
    obtain ⟨st0, h0, h⟩ := bind_ok h
    cases h0
    obtain ⟨st, _, h⟩ := bind_ok h
    cases h
    simp [dots]
  · rw [hp] at h; cases h

/-- every other use of '…' is refused -/
theorem prepare_marker {l r : Str} {TL TR : List Tok} (hl : Lexes l TL) (hr : Lexes r TR) (hal : ¬ arrow <:+: l)
    (har : ¬ arrow <:+: r) (hm : '…' ∈ l ∨ '…' ∈ r) (h1 : ¬ ('.' ∉ l ∧ '.' ∉ r ∧ Alone TL ∧ Alone TR))
    (h2 : ¬ ('.' ∈ l ∧ '…' ∉ l ∧ '.' ∉ r ∧ Alone TR)) (so : SetOrder) (op : OpKind) (names : List Str) (ndim : Nat) :
    prepareRecipe so (l ++ arrow ++ r) op names ndim = .error .einops := by
  unfold prepareRecipe
  rw [splitArrow_iff.2 ⟨rfl, hal, har⟩]
  simp only
  rcases hpl : parseExpression 0 false false l with e | pl
  · simp only; rw [parseExpression_err 0 false false hpl]
  simp only
  rcases hpr : parseExpression 1 false false r with e | pr
  · simp only; rw [parseExpression_err 1 false false hpr]
  simp only
  have al : '.' ∉ l → Alone TL := fun h => by
    by_contra ha
    rw [parse_glued 0 h hl ha] at hpl; cases hpl
  have ar : '.' ∉ r → Alone TR := fun h => by
    by_contra ha
    rw [parse_glued 1 h hr ha] at hpr; cases hpr
  have bl : '.' ∈ l → '…' ∉ l := fun h hm => by
    rw [parse_both 0 h hm] at hpl; cases hpl
  have br : '.' ∈ r → '…' ∉ r := fun h hm => by
    rw [parse_both 1 h hm] at hpr; cases hpr
  have hdl : '.' ∉ l := fun h => by
    have hml := bl h
    have hmr : '…' ∈ r := hm.resolve_left hml
    have hdr : '.' ∉ r := fun h => br h hmr
    exact h2 ⟨h, hml, hdr, ar hdr⟩
  have hdr : '.' ∈ r := by
    by_contra h
    exact h1 ⟨hdl, h, al hdl, ar h⟩
  have e1 : pl.hasEllipsis = false := by
    rw [Bool.eq_false_iff]; exact fun h => hdl ((parse_hasEllipsis 0 hpl).1 h)
  have e2 : pr.hasEllipsis = true := (parse_hasEllipsis 1 hpr).2 hdr
  unfold checkSides
  simp [e1, e2]

/-- a fresh name -/
theorem exists_fresh (W : List Str) : ∃ n, IsName false n ∧ n ∉ W := by
  have hname : ∀ k, IsName false (List.replicate (k + 1) 'a') := by
    intro k
    have ha := PyUnicode.ascii_letter 'a' (by decide)
    refine ⟨fun c hc => .inl ?_, ⟨'a', List.replicate k 'a', rfl, .inl ha.2.1, fun c hc => ?_⟩, .inl ⟨by simp [List.replicate_succ], ?_⟩⟩
    · rw [List.eq_of_mem_replicate hc]; exact ha.1
    · rw [List.eq_of_mem_replicate hc]; exact ha.2.2
    · rw [List.replicate_succ', List.getLast?_append]; simp
  refine ⟨List.replicate ((W.map List.length).sum + 1) 'a', hname _, ?_⟩
  intro h
  have hle : ∀ (W : List Str) (w : Str), w ∈ W → w.length ≤ (W.map List.length).sum := by
    intro W w hw
    induction W with
    | nil => simp at hw
    | cons v W ih =>
      rw [List.map_cons, List.sum_cons]
      rcases List.mem_cons.1 hw with rfl | hw
      · omega
      · have := ih hw; omega
  have := hle W _ h
  simp at this

end Einops
