import Verif.Proofs.Parser
import Verif.Proofs.Arrow
import Verif.Apply

/-! # Only the tokens of a side matter -/

namespace Einops

universe u

theorem Lexes.mem_iff {s : Str} {T : List Tok} (h : Lexes s T) {c : Char} (hc : ¬ isSep c) : c ∈ s ↔ c ∈ tokChars T := by
  rw [← List.count_pos_iff, h.count_char c hc, List.count_pos_iff]

theorem dot_not_sep : ¬ isSep '.' := by decide

/-- a string with one ellipsis and no other dots, on the level of tokens -/
theorem Lexes.dots_split {s s' : Str} {T : List Tok} (h : Lexes s T) (h' : Lexes s' T) {p q : Str}
    (hs : s = p ++ dots ++ q) (hp : '.' ∉ p) (hq : '.' ∉ q) :
    ∃ p' q' T', s' = p' ++ dots ++ q' ∧ '.' ∉ p' ∧ '.' ∉ q' ∧ Lexes (p ++ ellipsisStr ++ q) T' ∧
      Lexes (p' ++ ellipsisStr ++ q') T' := by
  subst hs
  have hdots : ∀ c ∈ dots, ¬ isSep c := by simp [dots, isSep]
  have hells : ∀ c ∈ ellipsisStr, ¬ isSep c := by simp [ellipsisStr, isSep]
  have hcount : s'.count '.' = 3 := by
    rw [h'.count_char _ dot_not_sep, ← h.count_char _ dot_not_sep]
    simp [dots, List.count_eq_zero_of_not_mem hp, List.count_eq_zero_of_not_mem hq]
  obtain ⟨t1, a, c, t2, hins⟩ := lexes_insert p q
  have e1 := h.unique (hins dots (by simp [dots]) hdots)
  have hw : a ++ dots ++ c <:+: s' := h'.word_infix (by rw [e1]; simp)
  obtain ⟨u, v, huv⟩ := hw
  have hc3 : List.count '.' dots = 3 := by decide
  have hs' : s' = (u ++ a) ++ dots ++ (c ++ v) := by rw [← huv]; simp
  have hp' : '.' ∉ u ++ a := by
    intro hm
    have := List.count_pos_iff.2 hm
    rw [hs', List.count_append, List.count_append, hc3] at hcount
    omega
  have hq' : '.' ∉ c ++ v := by
    intro hm
    have := List.count_pos_iff.2 hm
    rw [hs', List.count_append, List.count_append, hc3] at hcount
    omega
  obtain ⟨t1', a', c', t2', hins'⟩ := lexes_insert (u ++ a) (c ++ v)
  have e2 := h'.unique (hs' ▸ hins' dots (by simp [dots]) hdots)
  -- dots occur in one token only
  have hT : ∀ {T1 T2 : List Tok} {x y : Str}, T = T1 ++ .word (x ++ dots ++ y) :: T2 →
      '.' ∉ tokChars T1 ∧ '.' ∉ tokChars T2 ∧ '.' ∉ x ∧ '.' ∉ y := by
    intro T1 T2 x y hT
    have hcT : (tokChars T).count '.' = 3 := by rw [← h'.count_char _ dot_not_sep, hcount]
    rw [hT, tokChars_append] at hcT
    simp only [tokChars, List.count_append, hc3] at hcT
    refine ⟨?_, ?_, ?_, ?_⟩ <;> intro hm <;> have := List.count_pos_iff.2 hm <;> omega
  obtain ⟨n1, n2, n3, n4⟩ := hT e1
  obtain ⟨n1', n2', n3', n4'⟩ := hT e2
  have hnot : ∀ {T1 : List Tok}, '.' ∉ tokChars T1 → ∀ x y : Str, Tok.word (x ++ dots ++ y) ∉ T1 := by
    intro T1 hn x y hm
    exact hn (mem_tokChars hm (by simp [dots]))
  have e3 := e1.symm.trans e2
  rw [List.append_cons_inj_of_notMem (hnot n1 _ _) (hnot n2 _ _)] at e3
  obtain ⟨rfl, ew, rfl⟩ := e3
  have hac : a = a' ∧ c = c' := by
    simp only [Tok.word.injEq] at ew
    have hd : ∀ x y : Str, x ++ dots ++ y = x ++ '.' :: ('.' :: '.' :: y) := by simp [dots]
    rw [hd, hd] at ew
    have hdot : ∀ {x y z w : Str}, '.' ∉ x → '.' ∉ z → x ++ '.' :: y = z ++ '.' :: w → x = z ∧ y = w := by
      intro x
      induction x with
      | nil =>
        intro y z w _ hz h
        cases z with
        | nil => simpa using h
        | cons d z => simp at h; simp [← h.1] at hz
      | cons d x ih =>
        intro y z w hx hz h
        cases z with
        | nil => simp at h; simp [h.1] at hx
        | cons e z =>
          simp only [List.cons_append, List.cons.injEq] at h
          obtain ⟨rfl, h⟩ := h
          obtain ⟨rfl, rfl⟩ := ih (fun hm => hx (by simp [hm])) (fun hm => hz (by simp [hm])) h
          exact ⟨rfl, rfl⟩
    obtain ⟨r1, r2⟩ := hdot n3 n3' ew
    exact ⟨r1, by simpa using r2⟩
  obtain ⟨rfl, rfl⟩ := hac
  exact ⟨u ++ a, c ++ v, _, hs', hp', hq', hins ellipsisStr (by simp [ellipsisStr]) hells,
    hins' ellipsisStr (by simp [ellipsisStr]) hells⟩

theorem Lexes.arrow_iff {s : Str} {T : List Tok} (h : Lexes s T) :
    arrow <:+: s ↔ ∃ w, Tok.word w ∈ T ∧ arrow <:+: w := by
  constructor
  · rintro ⟨p, q, rfl⟩
    obtain ⟨t1, a, c, t2, hins⟩ := lexes_insert p q
    have e := h.unique (hins arrow (by simp [arrow]) (by simp [arrow, isSep]))
    exact ⟨a ++ arrow ++ c, by rw [e]; simp, a, c, rfl⟩
  · rintro ⟨w, hw, hi⟩
    exact hi.trans (h.word_infix hw)

/-- there is only one way to cut a string at its only arrow -/
theorem arrow_cut {l r l₀ r₀ : Str} (h : l ++ arrow ++ r = l₀ ++ arrow ++ r₀) (h1 : ¬ arrow <:+: l₀) (h2 : ¬ arrow <:+: r₀) :
    l = l₀ ∧ r = r₀ := by
  rw [List.append_assoc, List.append_assoc, List.append_eq_append_iff] at h
  rcases h with ⟨k, rfl, h⟩ | ⟨k, rfl, h⟩
  · match k, h with
    | [], h => simpa using h
    | [c], h => simp [arrow] at h
    | c :: e :: k, h =>
      simp only [arrow, List.cons_append, List.nil_append, List.cons.injEq] at h
      obtain ⟨rfl, rfl, h⟩ := h
      exact absurd ⟨l, k, by simp [arrow]⟩ h1
  · match k, h with
    | [], h => simpa [eq_comm] using h
    | [c], h => simp [arrow] at h
    | c :: e :: k, h =>
      simp only [arrow, List.cons_append, List.nil_append, List.cons.injEq] at h
      obtain ⟨rfl, rfl, rfl⟩ := h
      exact absurd ⟨k, r, by simp [arrow]⟩ h2

section
variable [PyUnicode] (side : Nat) (u d : Bool)

theorem runChars_tokens {s s' : Str} {T : List Tok} (h : Lexes s T) (h' : Lexes s' T) :
    (runChars side u d PState.init s).bind (finishParse side u d) =
      (runChars side u d PState.init s').bind (finishParse side u d) := by
  rw [runChars_eq_runToks side u d h _ rfl, runChars_eq_runToks side u d h' _ rfl]

/-- Strings with the same tokens parse to the same result. -/
theorem parse_tokens {s s' : Str} {T : List Tok} (h : Lexes s T) (h' : Lexes s' T) :
    parseExpression side u d s = parseExpression side u d s' := by
  rw [parseExpression_eq, parseExpression_eq]
  rcases prepareDots_cases s with ⟨hdot, hp⟩ | ⟨p, q, hs, hpp, hqq, hp⟩ | ⟨hdot, hno, hp⟩
  · have hdot' : '.' ∉ s' := fun hm => hdot ((h.mem_iff dot_not_sep).2 ((h'.mem_iff dot_not_sep).1 hm))
    rw [hp, prepareDots_nodots hdot']
    simp only [Except.bind]
    have := runChars_tokens side u d h h'
    simp only [Except.bind] at this
    rw [this]
  · obtain ⟨p', q', T', rfl, hp', hq', l1, l2⟩ := h.dots_split h' hs hpp hqq
    rw [hp, prepareDots_one hp' hq']
    simp only [Except.bind]
    have := runChars_tokens side u d l1 l2
    simp only [Except.bind] at this
    rw [this]
  · rw [hp]
    rcases prepareDots_cases s' with ⟨hdot', hp'⟩ | ⟨p', q', hs', hpp', hqq', hp'⟩ | ⟨hdot', hno', hp'⟩
    · exact absurd ((h'.mem_iff dot_not_sep).2 ((h.mem_iff dot_not_sep).1 hdot)) hdot'
    · obtain ⟨p, q, _, hs, h1, h2, _⟩ := h'.dots_split h hs' hpp' hqq'
      exact absurd ⟨p, q, hs, h1, h2⟩ hno
    · rw [hp']

/-- Patterns with the same tokens give the same recipe. -/
theorem prepareRecipe_tokens {l r l' r' : Str} {T T' : List Tok} (hl : Lexes l T) (hl' : Lexes l' T) (hr : Lexes r T')
    (hr' : Lexes r' T') (so : SetOrder) (op : OpKind) (names : List Str) (ndim : Nat) :
    prepareRecipe so (l ++ arrow ++ r) op names ndim = prepareRecipe so (l' ++ arrow ++ r') op names ndim := by
  by_cases h : ¬ arrow <:+: l ∧ ¬ arrow <:+: r
  · obtain ⟨h1, h2⟩ := h
    have h1' : ¬ arrow <:+: l' := by rwa [hl'.arrow_iff, ← hl.arrow_iff]
    have h2' : ¬ arrow <:+: r' := by rwa [hr'.arrow_iff, ← hr.arrow_iff]
    unfold prepareRecipe
    rw [splitArrow_iff.2 ⟨rfl, h1, h2⟩, splitArrow_iff.2 ⟨rfl, h1', h2'⟩]
    simp only []
    rw [parse_tokens 0 false false hl hl', parse_tokens 1 false false hr hr']
  · have key : ∀ {l r : Str}, ¬ (¬ arrow <:+: l ∧ ¬ arrow <:+: r) → splitArrow (l ++ arrow ++ r) = .error .value := by
      intro l r h
      have : ∃ e, splitArrow (l ++ arrow ++ r) = .error e := by
        rw [splitArrow_error_iff]
        rintro ⟨l₀, r₀, e, h1, h2⟩
        obtain ⟨rfl, rfl⟩ := arrow_cut e h1 h2
        exact h ⟨h1, h2⟩
      obtain ⟨e, he⟩ := this
      rw [he, splitArrow_err he]
    unfold prepareRecipe
    rw [key h, key (by rwa [hl'.arrow_iff, hr'.arrow_iff, ← hl.arrow_iff, ← hr.arrow_iff])]

end

end Einops
