import Verif.Proofs.Lexing

/-! The parser agrees with the pattern specification. -/

namespace Einops

set_option linter.unusedSectionVars false

variable [PyUnicode]

/-- characters accepted inside words by the parser -/
def okChar (c : Char) : Prop := PyUnicode.isAlnum c = true ∨ c = '_' ∨ c = '…'

instance : DecidablePred (okChar) := fun c => by unfold okChar; infer_instance

theorem okChar_not_sep {c : Char} (h : okChar c) : ¬ isSep c := by
  intro hs
  have : c ∈ ['(', ')', ' ', '.', ',', '-', '>', '*', '_', '…'] := by
    rcases hs with rfl | rfl | rfl <;> simp
  have hh := PyUnicode.special_not_alnum c this
  rcases h with h | rfl | rfl
  · simp [h] at hh
  · exact absurd hs (by decide)
  · exact absurd hs (by decide)

section
variable (side : Nat) (u d : Bool)

theorem push_cur (st : PState) (a t) : (st.push a t).cur = st.cur := by unfold PState.push; split <;> rfl
theorem push_bracket (st : PState) (a t) : (st.push a t).bracket.isSome = st.bracket.isSome := by
  unfold PState.push; split <;> simp_all

theorem addAxisName_err {st : PState} {x : Str} {e : PyErr} (h : addAxisName side u d st x = .error e) :
    e = .einops := by
  unfold addAxisName mkAnon at h
  dsimp only at h
  split_ifs at h
  · simpa using h.symm
  · split at h <;> simp at h
  · simpa using h.symm
  · simpa using h.symm

theorem addAxisName_ok {st st' : PState} {x : Str} (h : addAxisName side u d st x = .ok st') :
    st'.cur = st.cur ∧ st'.bracket.isSome = st.bracket.isSome := by
  unfold addAxisName mkAnon at h
  dsimp only at h
  split_ifs at h
  · cases h; simp [push_cur, push_bracket]
  · split at h <;> cases h <;> simp_all
  · cases h; simp [push_cur, push_bracket]
  · cases h; simp [push_cur, push_bracket]

/-- one word -/
def addWord (st : PState) (w : Str) : Py PState :=
  if ∀ c ∈ w, okChar c then addAxisName side u d st w else .error .einops

def stepTok (st : PState) : Tok → Py PState
  | .lp => openBracket st
  | .rp => closeBracket st
  | .word w => addWord side u d st w

def runToks : PState → List Tok → Py PState
  | st, [] => .ok st
  | st, t :: ts => (stepTok side u d st t).bind (fun st => runToks st ts)

def finishTok (st : PState) : Py PState := if st.bracket.isSome then .error .einops else .ok st

theorem runToks_append (st : PState) (a b : List Tok) :
    runToks side u d st (a ++ b) = (runToks side u d st a).bind (fun st => runToks side u d st b) := by
  induction a generalizing st with
  | nil => rfl
  | cons t ts ih =>
    simp only [List.cons_append, runToks]
    cases stepTok side u d st t with
    | error e => rfl
    | ok st' => simp [Except.bind, ih]

theorem runChars_cons (st : PState) (c : Char) (cs : Str) :
    runChars side u d st (c :: cs) = (stepChar side u d st c).bind (fun st => runChars side u d st cs) := by
  rw [runChars]; cases stepChar side u d st c <;> rfl

theorem runChars_word (st : PState) (w s : Str) (hs : ∀ c ∈ w, ¬ isSep c) (hw : w ≠ []) :
    runChars side u d st (w ++ s) =
      if ∀ c ∈ w, okChar c then runChars side u d { st with cur := some (st.cur.getD [] ++ w) } s
      else .error .einops := by
  induction w generalizing st with
  | nil => exact absurd rfl hw
  | cons c cs ih =>
    have hc : ¬ isSep c := hs c (by simp)
    rw [List.cons_append, runChars_cons]
    unfold stepChar
    rw [if_neg (show ¬ (c = '(' ∨ c = ')' ∨ c = ' ') from hc)]
    by_cases hok : okChar c
    · rw [if_pos (show PyUnicode.isAlnum c = true ∨ c = '_' ∨ c = '…' from hok)]
      simp only [Except.bind]
      by_cases hcs : cs = []
      · subst hcs
        simp [hok]
      · rw [ih _ (fun c hc => hs c (by simp [hc])) hcs]
        simp [hok]
    · rw [if_neg (show ¬ (PyUnicode.isAlnum c = true ∨ c = '_' ∨ c = '…') from hok)]
      simp [Except.bind, hok]

theorem runChars_flush (st : PState) (w : Str) (c : Char) (cs : Str) (hst : st.cur = none) (hc : isSep c) :
    runChars side u d { st with cur := some w } (c :: cs) =
      (addAxisName side u d st w).bind (fun st => runChars side u d st (c :: cs)) := by
  have h0 : { { st with cur := some w } with cur := none } = st := by cases st; simp_all
  rw [runChars_cons]
  have hflush : flushCur side u d { st with cur := some w } = addAxisName side u d st w := by
    simp only [flushCur]
    rw [show ({ ellParen := st.ellParen, identifiers := st.identifiers, nonUnitary := st.nonUnitary, composition := st.composition, bracket := st.bracket, cur := none, fresh := st.fresh } : PState) = st from h0]
  unfold stepChar
  rw [if_pos (show (c = '(' ∨ c = ')' ∨ c = ' ') from hc), hflush]
  rcases h : addAxisName side u d st w with e | st'
  · rfl
  · simp only [Except.bind]
    have hcur : st'.cur = none := by rw [(addAxisName_ok side u d h).1, hst]
    rw [runChars_cons]
    unfold stepChar
    rw [if_pos (show (c = '(' ∨ c = ')' ∨ c = ' ') from hc)]
    simp only [flushCur, hcur]
    rfl

theorem openBracket_cur {st st' : PState} (h : openBracket st = .ok st') : st'.cur = st.cur := by
  unfold openBracket at h; split at h <;> cases h; rfl
theorem closeBracket_cur {st st' : PState} (h : closeBracket st = .ok st') : st'.cur = st.cur := by
  unfold closeBracket at h; split at h <;> cases h; rfl
theorem openBracket_err {st : PState} {e : PyErr} (h : openBracket st = .error e) : e = .einops := by
  unfold openBracket at h; split at h <;> cases h; rfl
theorem closeBracket_err {st : PState} {e : PyErr} (h : closeBracket st = .error e) : e = .einops := by
  unfold closeBracket at h; split at h <;> cases h; rfl

/-- The character loop does what the token loop does. -/
theorem runChars_eq_runToks {s : Str} {ts : List Tok} (h : Lexes s ts) (st : PState) (hst : st.cur = none) :
    (runChars side u d st s).bind (finishParse side u d) = (runToks side u d st ts).bind finishTok := by
  induction h generalizing st with
  | nil =>
    simp [runChars, runToks, Except.bind, finishParse, finishTok, flushCur, hst]
  | space _ ih =>
    rw [runChars_cons]
    have : stepChar side u d st ' ' = .ok st := by simp [stepChar, flushCur, hst]
    rw [this]; exact ih st hst
  | lp _ ih =>
    rw [runChars_cons, runToks]
    have : stepChar side u d st '(' = openBracket st := by simp [stepChar, flushCur, hst]
    rw [this, stepTok]
    rcases ho : openBracket st with e | st'
    · rfl
    · exact ih st' (by rw [openBracket_cur ho, hst])
  | rp _ ih =>
    rw [runChars_cons, runToks]
    have : stepChar side u d st ')' = closeBracket st := by simp [stepChar, flushCur, hst]
    rw [this, stepTok]
    rcases ho : closeBracket st with e | st'
    · rfl
    · exact ih st' (by rw [closeBracket_cur ho, hst])
  | @word w s ts h1 h2 h3 h ih =>
    rw [runChars_word side u d st w s h2 h1, runToks, stepTok, addWord]
    by_cases hok : ∀ c ∈ w, okChar c
    · rw [if_pos hok, if_pos hok]
      simp only [hst, Option.getD_none, List.nil_append]
      cases s with
      | nil =>
        have hts : ts = [] := h.unique .nil
        subst hts
        simp only [runChars, Except.bind, finishParse, runToks]
        have hflush : flushCur side u d { st with cur := some w } = addAxisName side u d st w := by
          simp only [flushCur]
          congr 1
          cases st; simp_all
        rw [hflush]
        rcases ha : addAxisName side u d st w with e | st'
        · rw [addAxisName_err side u d ha]; simp
        · simp only [finishTok, (addAxisName_ok side u d ha).2]
      | cons c cs =>
        rw [runChars_flush side u d st w c cs hst (h3 c (by simp))]
        rcases ha : addAxisName side u d st w with e | st'
        · rfl
        · exact ih st' (by rw [(addAxisName_ok side u d ha).1, hst])
    · rw [if_neg hok, if_neg hok]; rfl

theorem stepTok_err {st : PState} {t : Tok} {e : PyErr} (h : stepTok side u d st t = .error e) : e = .einops := by
  cases t with
  | lp => exact openBracket_err h
  | rp => exact closeBracket_err h
  | word w =>
    simp only [stepTok, addWord] at h
    split at h
    · exact addAxisName_err side u d h
    · simpa using h.symm

theorem runToks_err {st : PState} {ts : List Tok} {e : PyErr} (h : runToks side u d st ts = .error e) :
    e = .einops := by
  induction ts generalizing st with
  | nil => simp [runToks] at h
  | cons t ts ih =>
    rw [runToks] at h
    rcases ht : stepTok side u d st t with e' | st'
    · rw [ht] at h
      simp only [Except.bind, Except.error.injEq] at h
      rw [← h]; exact stepTok_err side u d ht
    · rw [ht] at h
      exact ih h

/-! ### States described by parsed prefixes -/

/-- the ellipsis marker as seen by the parser after replacement of the dots -/
def norm (w : Str) : Str := if w = dots then ellipsisStr else w

def normTok : Tok → Tok
  | .word w => .word (norm w)
  | .lp => .lp
  | .rp => .rp

/-- words of a prefix: complete elements and an open parenthesis -/
def prefWords (G : List Elem) (op : Option (List Str)) : List Str := G.flatMap Elem.words ++ op.getD []

def prefToks (G : List Elem) (op : Option (List Str)) : List Tok :=
  G.flatMap Elem.toks ++ (match op with
    | none => []
    | some ws => .lp :: ws.map .word)

/-- position of the ellipsis: `some true` when in parentheses -/
def ellPos (G : List Elem) (op : Option (List Str)) : Option Bool :=
  let step := fun (acc : Option Bool) (e : Elem) => match e with
    | .bare w => if w = dots then some false else acc
    | .paren ws => if dots ∈ ws then some true else acc
  match op with
  | none => G.foldl step none
  | some ws => step (G.foldl step none) (.paren ws)

/-- the parser state after a prefix -/
def prefState (G : List Elem) (op : Option (List Str)) : PState where
  ellParen := ellPos G op
  identifiers := (wordsAxes side 0 (prefWords G op)).foldl setAdd []
  nonUnitary := (prefWords G op).any (fun w => decide (IsNumber w ∧ decimalValue w ≠ 1))
  composition := denote side 0 G
  bracket := op.map (wordsAxes side (G.flatMap Elem.words).length)
  cur := none
  fresh := (prefWords G op).length

/-- the words of a prefix are legal and not repeated -/
def GoodWords (ws : List Str) : Prop :=
  (∀ w ∈ ws, WordOK u w) ∧ (d = false → (ws.filter (unrepeatable u)).Nodup)

def addToPref (G : List Elem) (op : Option (List Str)) (w : Str) : List Elem × Option (List Str) :=
  match op with
  | none => (G ++ [.bare w], none)
  | some ws => (G, some (ws ++ [w]))

theorem prefWords_add (G op w) : prefWords (addToPref G op w).1 (addToPref G op w).2 = prefWords G op ++ [w] := by
  cases op <;> simp [addToPref, prefWords, Elem.words]

theorem wordsAxes_append (k : Nat) (a b : List Str) :
    wordsAxes side k (a ++ b) = wordsAxes side k a ++ wordsAxes side (k + a.length) b := by
  induction a generalizing k with
  | nil => simp [wordsAxes]
  | cons w ws ih => simp [wordsAxes, ih, Nat.add_assoc, Nat.add_comm 1]

theorem denote_append (k : Nat) (G : List Elem) (e : Elem) :
    denote side k (G ++ [e]) = denote side k G ++ denote side (k + (G.flatMap Elem.words).length) [e] := by
  induction G generalizing k with
  | nil => simp [denote]
  | cons g G ih =>
    cases g with
    | bare w => simp [denote, ih, Elem.words, Nat.add_assoc, Nat.add_comm 1]
    | paren ws => simp [denote, ih, Elem.words, Nat.add_assoc]

theorem mem_foldl_setAdd (l : List Axis) (init : List Axis) (a : Axis) :
    a ∈ l.foldl setAdd init ↔ a ∈ init ∨ a ∈ l := by
  induction l generalizing init with
  | nil => simp
  | cons b l ih =>
    rw [List.foldl_cons, ih]
    unfold setAdd
    split
    · simp only [List.mem_cons]
      constructor
      · rintro (h | h)
        · exact .inl h
        · exact .inr (.inr h)
      · rintro (h | rfl | h)
        · exact .inl h
        · left; assumption
        · exact .inr h
    · simp [or_assoc]

theorem number_ne_dots {w : Str} (h : IsNumber w) : w ≠ dots := by
  rintro rfl
  obtain ⟨d, hd⟩ := h.2 '.' (by simp [dots])
  have := PyUnicode.decimal_alnum _ _ hd
  rw [PyUnicode.special_not_alnum '.' (by simp)] at this
  cases this

theorem number_ne_ell {w : Str} (h : IsNumber w) : w ≠ ellipsisStr := by
  rintro rfl
  obtain ⟨d, hd⟩ := h.2 '…' (by simp [ellipsisStr])
  have := PyUnicode.decimal_alnum _ _ hd
  rw [PyUnicode.special_not_alnum '…' (by simp)] at this
  cases this

theorem isNumber_iff {w : Str} : IsNumber w ↔ isDecimal w = true := by
  unfold IsNumber isDecimal
  simp only [Bool.and_eq_true, decide_eq_true_eq, List.all_eq_true, Option.isSome_iff_exists]

/-- a name string occurs among the axes of the words iff it is one of the words -/
theorem mem_wordsAxes_str {k : Nat} {ws : List Str} {w : Str} (hn : ¬ IsNumber w) (hell : '…' ∉ w)
    (hws : ∀ v ∈ ws, '…' ∉ v) : Axis.str (norm w) ∈ wordsAxes side k ws ↔ w ∈ ws := by
  induction ws generalizing k with
  | nil => simp [wordsAxes]
  | cons v vs ih =>
    rw [wordsAxes, List.mem_append, ih (fun v hv => hws v (by simp [hv])), List.mem_cons]
    refine or_congr ?_ Iff.rfl
    have hv := hws v (by simp)
    unfold wordAxes norm
    by_cases h1 : w = dots
    · rw [if_pos h1]
      by_cases h2 : v = dots
      · simp [h1, h2]
      · rw [if_neg h2]
        have h3 : v ≠ ellipsisStr := by rintro rfl; simp [ellipsisStr] at hv
        have h4 : w ≠ v := by rw [h1]; exact fun h => h2 h.symm
        by_cases h5 : IsNumber v
        · rw [if_pos h5]; split <;> simp [h4]
        · rw [if_neg h5]; simp [h4, h3.symm]
    · rw [if_neg h1]
      have h3 : w ≠ ellipsisStr := by rintro rfl; simp [ellipsisStr] at hell
      by_cases h2 : v = dots
      · simp [h2, h1, h3]
      · rw [if_neg h2]
        by_cases h5 : IsNumber v
        · have : w ≠ v := by rintro rfl; exact hn h5
          rw [if_pos h5]; split <;> simp [this]
        · rw [if_neg h5]; simp

theorem not_mem_wordsAxes_number {k : Nat} {ws : List Str} {w : Str} (hn : IsNumber w) :
    Axis.str w ∉ wordsAxes side k ws := by
  induction ws generalizing k with
  | nil => simp [wordsAxes]
  | cons v vs ih =>
    rw [wordsAxes, List.mem_append, not_or]
    refine ⟨?_, ih⟩
    unfold wordAxes
    split
    · simp; exact fun h => number_ne_ell hn h
    · split
      · split <;> simp
      · rename_i h
        simp; rintro rfl; exact h hn

theorem goodWords_snoc (ws : List Str) (w : Str) :
    GoodWords u d (ws ++ [w]) ↔
      GoodWords u d ws ∧ WordOK u w ∧ (d = false → unrepeatable u w = true → w ∉ ws) := by
  unfold GoodWords
  have h1 : (∀ v ∈ ws ++ [w], WordOK u v) ↔ (∀ v ∈ ws, WordOK u v) ∧ WordOK u w := by
    constructor
    · intro h
      exact ⟨fun v hv => h v (by simp [hv]), h w (by simp)⟩
    · rintro ⟨h, h'⟩ v hv
      rcases List.mem_append.1 hv with hv | hv
      · exact h v hv
      · rw [List.mem_singleton.1 hv]; exact h'
  have h2 : ((ws ++ [w]).filter (unrepeatable u)).Nodup ↔
      (ws.filter (unrepeatable u)).Nodup ∧ (unrepeatable u w = true → w ∉ ws) := by
    rw [List.filter_append]
    by_cases hu : unrepeatable u w = true
    · rw [List.filter_cons_of_pos hu, List.nodup_append]
      simp [hu]
      intro _
      constructor
      · intro h hw
        exact (h w hw hu) rfl
      · rintro h a ha _ rfl
        exact h ha
    · rw [List.filter_cons_of_neg hu]
      simp [hu]
  rw [h1, h2]
  tauto

theorem head_last_ok {w : Str} (h : WordOK u w) (hne : w ≠ dots) (c : Char) (hc : c ∈ w) : okChar c := by
  rcases h with h | h | h
  · exact absurd h hne
  · obtain ⟨d, hd⟩ := h.1.2 c hc
    exact .inl (PyUnicode.decimal_alnum _ _ hd)
  · rcases h.1 c hc with h | h
    · exact .inl h
    · exact .inr (.inl h)

theorem checkAxisName_iff {w : Str} (hw : ∀ c ∈ w, okChar c) (hell : '…' ∉ w) :
    checkAxisName u w = true ↔ IsName u w := by
  unfold checkAxisName IsName
  rw [← isIdentifier_iff]
  have h1 : ∀ c ∈ w, PyUnicode.isAlnum c = true ∨ c = '_' := by
    intro c hc
    rcases hw c hc with h | h | rfl
    · exact .inl h
    · exact .inr h
    · exact absurd hc hell
  by_cases hi : isIdentifier w = true
  · by_cases h2 : w.head? = some '_' ∨ w.getLast? = some '_'
    · simp only [hi, Bool.not_true, Bool.false_eq_true, if_false, if_pos h2, Bool.and_eq_true, beq_iff_eq]
      constructor
      · rintro ⟨h, h'⟩
        exact ⟨h1, trivial, .inr ⟨h', h⟩⟩
      · rintro ⟨_, _, h | h⟩
        · rcases h2 with h2 | h2
          · exact absurd h2 h.1
          · exact absurd h2 h.2
        · exact ⟨h.2, h.1⟩
    · simp only [hi, Bool.not_true, Bool.false_eq_true, if_false, if_neg h2]
      simp only [not_or] at h2
      exact ⟨fun _ => ⟨h1, trivial, .inl h2⟩, fun _ => trivial⟩
  · have hi' : isIdentifier w = false := by simpa using hi
    simp [hi']

theorem isName_not_number {w : Str} (h : IsName u w) : ¬ IsNumber w := by
  intro hn
  obtain ⟨_, hi, _⟩ := h
  rw [← isIdentifier_iff] at hi
  cases w with
  | nil => simp [isIdentifier] at hi
  | cons c cs =>
    obtain ⟨d, hd⟩ := hn.2 c (by simp)
    have h1 := PyUnicode.decimal_not_start _ _ hd
    simp only [isIdentifier, h1, Bool.false_or, Bool.and_eq_true, beq_iff_eq] at hi
    have h2 := PyUnicode.decimal_alnum _ _ hd
    rw [hi.1, PyUnicode.special_not_alnum '_' (by simp)] at h2
    cases h2

theorem ellPos_add (G op w) : ellPos (addToPref G op w).1 (addToPref G op w).2 =
    if w = dots then some op.isSome else ellPos G op := by
  cases op with
  | none => simp [addToPref, ellPos]
  | some ws =>
    simp only [addToPref, ellPos, List.mem_append, List.mem_singleton]
    by_cases h : w = dots
    · simp [h]
    · have h' : ¬ dots = w := fun h' => h h'.symm
      simp [h, h']

/-- Effect of one word on a described state. -/
theorem addWord_pref (G : List Elem) (op : Option (List Str)) (w : Str) (hell : '…' ∉ w)
    (hws : ∀ v ∈ prefWords G op, '…' ∉ v) :
    addWord side u d (prefState side G op) (norm w) =
      if WordOK u w ∧ (d = false → unrepeatable u w = true → w ∉ prefWords G op) then
        .ok (prefState side (addToPref G op w).1 (addToPref G op w).2)
      else .error .einops := by
  unfold addWord
  have hids : ∀ a, a ∈ (prefState side G op).identifiers ↔ a ∈ wordsAxes side 0 (prefWords G op) := by
    intro a
    simp [prefState, mem_foldl_setAdd]
  have hdup : (Axis.str (norm w) ∈ (prefState side G op).identifiers ∧
      ¬ ((u = true ∧ norm w = ['_']) ∨ d = true)) ↔
      ¬ (d = false → unrepeatable u w = true → w ∉ prefWords G op) := by
    rw [hids]
    by_cases hn : IsNumber w
    · have : norm w = w := by simp [norm, number_ne_dots hn]
      rw [this]
      simp [not_mem_wordsAxes_number side hn, unrepeatable, hn]
    · rw [mem_wordsAxes_str side hn hell hws]
      have : norm w = ['_'] ↔ w = ['_'] := by
        unfold norm
        split
        · rename_i h; rw [h]; decide
        · rfl
      rw [this]
      simp only [unrepeatable, hn]
      cases u <;> cases d <;> simp
      tauto
  by_cases hw : w = dots
  · subst hw
    have h1 : norm dots = ellipsisStr := by simp [norm]
    have hok : ∀ c ∈ norm dots, okChar c := by rw [h1]; simp [ellipsisStr, okChar]
    rw [if_pos hok]
    unfold addAxisName
    by_cases hd : (d = false → unrepeatable u dots = true → dots ∉ prefWords G op)
    · have hcond : WordOK u dots ∧ (d = false → unrepeatable u dots = true → dots ∉ prefWords G op) :=
        ⟨.inl rfl, hd⟩
      rw [if_neg (by rw [hdup]; exact not_not.2 hd), if_pos hcond]
      dsimp only
      rw [if_pos h1]
      congr 1
      cases op with
      | none =>
        simp only [PState.push, prefState, Option.map_none, addToPref]
        congr 1
        · simp [ellPos]
        · simp [prefWords, Elem.words, wordsAxes_append, wordsAxes, wordAxes]
        · simp [prefWords, Elem.words]
          intro h; exact absurd rfl (number_ne_dots h)
        · simp [denote_append, denote]
        · simp [prefWords, Elem.words]
      | some ws =>
        simp only [PState.push, prefState, Option.map_some, addToPref]
        congr 1
        · simp [ellPos]
        · simp [prefWords, wordsAxes_append, wordsAxes, wordAxes]
        · have hnd : ¬ IsNumber dots := fun h => absurd rfl (number_ne_dots h)
          simp [prefWords, hnd]
        · simp [wordsAxes_append, wordsAxes, wordAxes]
        · simp [prefWords]; omega
    · rw [if_pos (by rw [hdup]; exact hd), if_neg (fun h => hd h.2)]
  · have h1 : norm w = w := by simp [norm, hw]
    rw [h1] at hdup ⊢
    have hne : w ≠ ellipsisStr := by rintro rfl; simp [ellipsisStr] at hell
    by_cases hok : ∀ c ∈ w, okChar c
    · rw [if_pos hok]
      unfold addAxisName
      by_cases hd : (d = false → unrepeatable u w = true → w ∉ prefWords G op)
      · rw [if_neg (by rw [hdup]; exact not_not.2 hd)]
        dsimp only
        rw [if_neg hne]
        by_cases hn : IsNumber w
        · have hdec := isNumber_iff.1 hn
          have hwa : ∀ k, wordAxes side k w = if decimalValue w = 1 then [] else [.anon side k (decimalValue w)] := by
            intro k; simp [wordAxes, hw, hn]
          by_cases hone : decimalValue w = 1
          · rw [if_pos ⟨hdec, hone⟩, if_pos (show WordOK u w ∧ (d = false → unrepeatable u w = true → w ∉ prefWords G op) from ⟨.inr (.inl ⟨hn, by omega⟩), hd⟩)]
            cases op with
            | none =>
              simp only [prefState, Option.map_none, addToPref]
              congr 2
              · have := ellPos_add G none w; simpa [addToPref, hw] using this.symm
              · simp [prefWords, Elem.words, wordsAxes_append, wordsAxes, hwa, hone]
              · simp [prefWords, Elem.words, hone]
              · simp [denote_append, denote, hw, hwa, hone]
              · simp [prefWords, Elem.words]
            | some ws =>
              simp only [prefState, Option.map_some, addToPref]
              congr 2
              · have := ellPos_add G (some ws) w; simpa [addToPref, hw] using this.symm
              · simp [prefWords, wordsAxes_append, wordsAxes, hwa, hone]
              · simp [prefWords, hone]
              · simp [wordsAxes_append, wordsAxes, hwa, hone]
              · simp [prefWords]; omega
          · rw [if_neg (fun h => hone h.2)]
            simp only [hdec, Bool.true_or, Bool.not_true, if_true, mkAnon]
            by_cases hzero : decimalValue w = 0
            · have hno : ¬ WordOK u w := by
                rintro (h | h | h)
                · exact hw h
                · exact h.2 hzero
                · exact isName_not_number u h hn
              rw [if_neg (show ¬ (WordOK u w ∧ (d = false → unrepeatable u w = true → w ∉ prefWords G op)) from fun h => hno h.1)]
              simp [hzero]
            · have h2 : ¬ decimalValue w ≤ 1 := by omega
              rw [if_pos (show WordOK u w ∧ (d = false → unrepeatable u w = true → w ∉ prefWords G op) from ⟨.inr (.inl ⟨hn, hzero⟩), hd⟩)]
              simp only [h2, if_false]
              cases op with
              | none =>
                simp only [PState.push, prefState, Option.map_none, addToPref]
                simp only [Bool.false_eq_true, if_false]
                congr 2
                · have := ellPos_add G none w; simpa [addToPref, hw] using this.symm
                · simp [prefWords, Elem.words, wordsAxes_append, wordsAxes, hwa, hone]
                · simp [prefWords, Elem.words, hone, hn]
                · simp [denote_append, denote, hw, hwa, hone, prefWords]
                · simp [prefWords, Elem.words]
              | some ws =>
                simp only [PState.push, prefState, Option.map_some, addToPref]
                simp only [Bool.false_eq_true, if_false]
                congr 2
                · have := ellPos_add G (some ws) w; simpa [addToPref, hw] using this.symm
                · simp [prefWords, wordsAxes_append, wordsAxes, hwa, hone]
                · simp [prefWords, hone, hn]
                · simp [wordsAxes_append, wordsAxes, hwa, hone, prefWords]
                · simp [prefWords]; omega
        · have hdec : isDecimal w = false := by
            rw [Bool.eq_false_iff]; exact fun h => hn (isNumber_iff.2 h)
          have hwa : ∀ k, wordAxes side k w = [.str w] := by
            intro k; simp [wordAxes, hw, hn]
          simp only [hdec, Bool.false_or]
          by_cases hname : IsName u w
          · have hc := (checkAxisName_iff u hok hell).2 hname
            rw [if_pos (show WordOK u w ∧ (d = false → unrepeatable u w = true → w ∉ prefWords G op) from ⟨.inr (.inr hname), hd⟩)]
            simp only [hc]
            cases op with
            | none =>
              simp only [PState.push, prefState, Option.map_none, addToPref]
              simp only [Bool.false_eq_true, if_false, false_and, Bool.not_true]
              congr 2
              · have := ellPos_add G none w; simpa [addToPref, hw] using this.symm
              · simp [prefWords, Elem.words, wordsAxes_append, wordsAxes, hwa]
              · simp [prefWords, Elem.words, hn]
              · simp [denote_append, denote, hw, hwa]
              · simp [prefWords, Elem.words]
            | some ws =>
              simp only [PState.push, prefState, Option.map_some, addToPref]
              simp only [Bool.false_eq_true, if_false, false_and, Bool.not_true]
              congr 2
              · have := ellPos_add G (some ws) w; simpa [addToPref, hw] using this.symm
              · simp [prefWords, wordsAxes_append, wordsAxes, hwa]
              · simp [prefWords, hn]
              · simp [wordsAxes_append, wordsAxes, hwa]
              · simp [prefWords]; omega
          · have hc : checkAxisName u w = false := by
              rw [Bool.eq_false_iff]; exact fun h => hname ((checkAxisName_iff u hok hell).1 h)
            have hno : ¬ WordOK u w := by
              rintro (h | h | h)
              · exact hw h
              · exact hn h.1
              · exact hname h
            rw [if_neg (show ¬ (WordOK u w ∧ (d = false → unrepeatable u w = true → w ∉ prefWords G op)) from fun h => hno h.1)]
            simp [hc]
      · rw [if_pos (by rw [hdup]; exact hd), if_neg (fun h => hd h.2)]
    · rw [if_neg hok, if_neg]
      rintro ⟨h, _⟩
      exact hok (head_last_ok u h hw)

theorem prefToks_words {G op} {w : Str} (h : w ∈ prefWords G op) : Tok.word w ∈ prefToks G op := by
  unfold prefWords at h
  unfold prefToks
  rcases List.mem_append.1 h with h | h
  · apply List.mem_append_left
    rw [List.mem_flatMap] at h ⊢
    obtain ⟨e, he, hw⟩ := h
    refine ⟨e, he, ?_⟩
    cases e <;> simp_all [Elem.words, Elem.toks]
  · apply List.mem_append_right
    cases op <;> simp_all

theorem prefToks_none (G : List Elem) : prefToks G none = G.flatMap Elem.toks := by simp [prefToks]

theorem prefState_open (G : List Elem) :
    openBracket (prefState side G none) = .ok (prefState side G (some [])) := by
  simp [openBracket, prefState, prefWords, ellPos, wordsAxes]

theorem prefState_close (G : List Elem) (ws : List Str) :
    closeBracket (prefState side G (some ws)) = .ok (prefState side (G ++ [.paren ws]) none) := by
  simp only [closeBracket, prefState, Option.map_some]
  congr 2
  · simp [ellPos]
  · simp [prefWords, Elem.words]
  · simp [prefWords, Elem.words]
  · simp [denote_append, denote]
  · simp [prefWords, Elem.words]

theorem ell_notin_of_toks {T : List Tok} (h : '…' ∉ tokChars T) {G op} (hT : T = prefToks G op) :
    ∀ v ∈ prefWords G op, '…' ∉ v := by
  intro v hv hc
  subst hT
  exact h (mem_tokChars (prefToks_words hv) hc)

/-- Running the token loop succeeds exactly on prefixes of legal sides and computes the described state. -/
theorem runToks_iff (T : List Tok) (hell : '…' ∉ tokChars T) (st : PState) :
    runToks side u d PState.init (T.map normTok) = .ok st ↔
      ∃ G op, T = prefToks G op ∧ GoodWords u d (prefWords G op) ∧ st = prefState side G op := by
  induction T using List.reverseRecOn generalizing st with
  | nil =>
    simp only [List.map_nil, runToks, Except.ok.injEq]
    constructor
    · rintro rfl
      refine ⟨[], none, by simp [prefToks], ⟨by simp [prefWords], by simp [prefWords]⟩, ?_⟩
      simp [PState.init, prefState, ellPos, prefWords, wordsAxes, denote]
    · rintro ⟨G, op, h1, _, rfl⟩
      have hop : op = none := by 
        cases op with
        | none => rfl
        | some ws => simp [prefToks] at h1
      subst hop
      have hG : G = [] := by
        cases G with
        | nil => rfl
        | cons g G => cases g <;> simp [prefToks, Elem.toks] at h1
      subst hG
      simp [PState.init, prefState, ellPos, prefWords, wordsAxes, denote]
  | append_singleton T t ih =>
    rw [tokChars_append] at hell
    have hell1 : '…' ∉ tokChars T := fun h => hell (List.mem_append_left _ h)
    rw [List.map_append, runToks_append]
    constructor
    · intro h
      rcases hr : runToks side u d PState.init (T.map normTok) with e | st1
      · rw [hr] at h; simp [Except.bind] at h
      · obtain ⟨G, op, hT, hgood, rfl⟩ := (ih hell1 st1).1 hr
        rw [hr] at h
        simp only [Except.bind, List.map_cons, List.map_nil, runToks] at h
        cases t with
        | lp =>
          simp only [normTok, stepTok] at h
          cases op with
          | none =>
            rw [prefState_open] at h
            simp only [Except.ok.injEq] at h
            refine ⟨G, some [], by simp [hT, prefToks], by simpa [prefWords] using hgood, h.symm⟩
          | some ws => simp [openBracket, prefState] at h
        | rp =>
          simp only [normTok, stepTok] at h
          cases op with
          | none => simp [closeBracket, prefState] at h
          | some ws =>
            rw [prefState_close] at h
            simp only [Except.ok.injEq] at h
            refine ⟨G ++ [.paren ws], none, by simp [hT, prefToks, Elem.toks], ?_, h.symm⟩
            simpa [prefWords, Elem.words] using hgood
        | word w =>
          have hw : '…' ∉ w := fun hc => hell (List.mem_append_right _ (by simp [tokChars, hc]))
          simp only [normTok, stepTok] at h
          rw [addWord_pref side u d G op w hw (ell_notin_of_toks hell1 hT)] at h
          by_cases hcond : WordOK u w ∧ (d = false → unrepeatable u w = true → w ∉ prefWords G op)
          · rw [if_pos hcond] at h
            simp only [Except.ok.injEq] at h
            refine ⟨_, _, ?_, ?_, h.symm⟩
            · subst hT
              cases op <;> simp [addToPref, prefToks, Elem.toks]
            · rw [prefWords_add, goodWords_snoc]
              exact ⟨hgood, hcond⟩
          · rw [if_neg hcond] at h
            simp at h
    · rintro ⟨G, op, hT, hgood, rfl⟩
      -- find the last token
      cases op with
      | some ws =>
        induction ws using List.reverseRecOn with
        | nil =>
          have : T = prefToks G none ∧ t = .lp := by
            have := List.append_inj' (t₁ := [t]) (t₂ := [Tok.lp]) (by simpa [prefToks] using hT) (by simp)
            simpa [prefToks] using this
          obtain ⟨hT', rfl⟩ := this
          have hr := (ih hell1 _).2 ⟨G, none, hT', by simpa [prefWords] using hgood, rfl⟩
          rw [hr]
          simp [Except.bind, runToks, normTok, stepTok, prefState_open]
        | append_singleton ws w _ =>
          have : T = prefToks G (some ws) ∧ t = .word w := by
            have := List.append_inj' (s₁ := T) (t₁ := [t]) (s₂ := prefToks G (some ws)) (t₂ := [Tok.word w])
              (by simpa [prefToks] using hT) (by simp)
            simpa using this
          obtain ⟨hT', rfl⟩ := this
          have hgood' : GoodWords u d (prefWords G (some ws) ++ [w]) := by simpa [prefWords] using hgood
          rw [goodWords_snoc] at hgood'
          have hr := (ih hell1 _).2 ⟨G, some ws, hT', hgood'.1, rfl⟩
          rw [hr]
          have hw : '…' ∉ w := fun hc => hell (List.mem_append_right _ (by simp [tokChars, hc]))
          simp only [Except.bind, List.map_cons, List.map_nil, runToks, normTok, stepTok]
          rw [addWord_pref side u d G (some ws) w hw (ell_notin_of_toks hell1 hT'), if_pos hgood'.2]
          rfl
      | none =>
        induction G using List.reverseRecOn with
        | nil => simp [prefToks] at hT
        | append_singleton G e _ =>
          cases e with
          | bare w =>
            have : T = prefToks G none ∧ t = .word w := by
              have := List.append_inj' (s₁ := T) (t₁ := [t]) (s₂ := prefToks G none) (t₂ := [Tok.word w])
                (by simpa [prefToks, Elem.toks] using hT) (by simp)
              simpa using this
            obtain ⟨hT', rfl⟩ := this
            have hgood' : GoodWords u d (prefWords G none ++ [w]) := by simpa [prefWords, Elem.words] using hgood
            rw [goodWords_snoc] at hgood'
            have hr := (ih hell1 _).2 ⟨G, none, hT', hgood'.1, rfl⟩
            rw [hr]
            have hw : '…' ∉ w := fun hc => hell (List.mem_append_right _ (by simp [tokChars, hc]))
            simp only [Except.bind, List.map_cons, List.map_nil, runToks, normTok, stepTok]
            rw [addWord_pref side u d G none w hw (ell_notin_of_toks hell1 hT'), if_pos hgood'.2]
            rfl
          | paren ws =>
            have : T = prefToks G (some ws) ∧ t = .rp := by
              have := List.append_inj' (s₁ := T) (t₁ := [t]) (s₂ := prefToks G (some ws)) (t₂ := [Tok.rp])
                (by simpa [prefToks, Elem.toks] using hT) (by simp)
              simpa using this
            obtain ⟨hT', rfl⟩ := this
            have hr := (ih hell1 _).2 ⟨G, some ws, hT', by simpa [prefWords, Elem.words] using hgood, rfl⟩
            rw [hr]
            simp [Except.bind, runToks, normTok, stepTok, prefState_close]

/-- The parsed expression described by a structure. -/
def describe (G : List Elem) : ParsedExpression where
  hasEllipsis := decide (dots ∈ G.flatMap Elem.words)
  ellParen := ellPos G none
  identifiers := (wordsAxes side 0 (G.flatMap Elem.words)).foldl setAdd []
  nonUnitary := (G.flatMap Elem.words).any (fun w => decide (IsNumber w ∧ decimalValue w ≠ 1))
  composition := denote side 0 G

theorem parseExpression_eq (s : Str) : parseExpression side u d s =
    (prepareDots s).bind (fun r => ((runChars side u d PState.init r.2).bind (finishParse side u d)).bind
      (fun st => .ok ⟨r.1, st.ellParen, st.identifiers, st.nonUnitary, st.composition⟩)) := by
  unfold parseExpression
  rcases prepareDots s with e | ⟨b, t⟩
  · rfl
  · simp only [Except.bind]
    cases runChars side u d PState.init t with
    | error e => rfl
    | ok st =>
      simp only
      cases finishParse side u d st <;> rfl

theorem norm_noop {T : List Tok} (h : '.' ∉ tokChars T) : T.map normTok = T := by
  induction T with
  | nil => rfl
  | cons t T ih =>
    cases t with
    | lp => simp only [List.map_cons, normTok]; rw [ih (by simpa [tokChars] using h)]
    | rp => simp only [List.map_cons, normTok]; rw [ih (by simpa [tokChars] using h)]
    | word w =>
      simp only [tokChars, List.mem_append, not_or] at h
      have : w ≠ dots := by rintro rfl; simp [dots] at h
      simp only [List.map_cons, normTok, norm, this, if_false]
      rw [ih h.2]

theorem finishTok_ok {st st' : PState} : finishTok st = .ok st' ↔ st.bracket = none ∧ st = st' := by
  unfold finishTok
  cases h : st.bracket <;> simp

theorem run_finish_iff (T : List Tok) (hell : '…' ∉ tokChars T) (st : PState) :
    (runToks side u d PState.init (T.map normTok)).bind finishTok = .ok st ↔
      ∃ G, T = G.flatMap Elem.toks ∧ GoodWords u d (G.flatMap Elem.words) ∧ st = prefState side G none := by
  constructor
  · intro h
    rcases hr : runToks side u d PState.init (T.map normTok) with e | st1
    · rw [hr] at h; simp [Except.bind] at h
    · rw [hr] at h
      obtain ⟨hb, rfl⟩ := finishTok_ok.1 h
      obtain ⟨G, op, hT, hg, rfl⟩ := (runToks_iff side u d T hell _).1 hr
      cases op with
      | none => exact ⟨G, by simpa [prefToks] using hT, by simpa [prefWords] using hg, rfl⟩
      | some ws => simp [prefState] at hb
  · rintro ⟨G, hT, hg, rfl⟩
    have := (runToks_iff side u d T hell _).2 ⟨G, none, by simpa [prefToks] using hT, by simpa [prefWords] using hg, rfl⟩
    rw [this]
    exact finishTok_ok.2 ⟨by simp [prefState], rfl⟩

theorem runToks_bad_word {w : Str} (T1 T2 : List Tok) (st : PState)
    (h : ∀ st, addWord side u d st w = .error .einops) :
    ∀ r, (runToks side u d st (T1 ++ .word w :: T2)).bind finishTok ≠ .ok r := by
  intro r hr
  rw [runToks_append] at hr
  rcases h1 : runToks side u d st T1 with e | st1
  · rw [h1] at hr; simp [Except.bind] at hr
  · rw [h1] at hr
    simp [Except.bind, runToks, stepTok, h] at hr

theorem mem_toks_words {G : List Elem} {w : Str} : Tok.word w ∈ G.flatMap Elem.toks ↔ w ∈ G.flatMap Elem.words := by
  simp only [List.mem_flatMap]
  constructor
  · rintro ⟨e, he, h⟩
    exact ⟨e, he, by cases e <;> simp_all [Elem.words, Elem.toks]⟩
  · rintro ⟨e, he, h⟩
    exact ⟨e, he, by cases e <;> simp_all [Elem.words, Elem.toks]⟩

omit [PyUnicode] in
theorem tokChars_flatMap (G : List Elem) : tokChars (G.flatMap Elem.toks) = (G.flatMap Elem.words).flatten := by
  induction G with
  | nil => rfl
  | cons e G ih =>
    rw [List.flatMap_cons, tokChars_append, ih, List.flatMap_cons, List.flatten_append]
    congr 1
    cases e with
    | bare w => simp [Elem.toks, Elem.words, tokChars]
    | paren ws =>
      simp only [Elem.toks, Elem.words, List.cons_append, tokChars, tokChars_append, List.append_nil]
      induction ws with
      | nil => rfl
      | cons w ws ih => simp [tokChars, ih]

omit [PyUnicode] in
theorem count_flatten_dots {W : List Str} (h : ∀ w ∈ W, '.' ∈ w → w = dots) :
    W.flatten.count '.' = 3 * W.count dots := by
  induction W with
  | nil => rfl
  | cons w W ih =>
    rw [List.flatten_cons, List.count_append, ih (fun w hw => h w (by simp [hw])), List.count_cons]
    by_cases hw : '.' ∈ w
    · have := h w (by simp) hw
      subst this
      have h6 : List.count '.' dots = 3 := by decide
      rw [h6]; simp; omega
    · rw [List.count_eq_zero_of_not_mem hw]
      have : w ≠ dots := by rintro rfl; simp [dots] at hw
      simp [this]

omit [PyUnicode] in
theorem Lexes.count_char {s : Str} {T : List Tok} (h : Lexes s T) (c : Char) (hc : ¬ isSep c) :
    s.count c = (tokChars T).count c := by
  have h1 : c ≠ '(' := fun h => hc (.inl h)
  have h2 : c ≠ ')' := fun h => hc (.inr (.inl h))
  have h3 : c ≠ ' ' := fun h => hc (.inr (.inr h))
  induction h with
  | nil => rfl
  | space _ ih => rw [List.count_cons, ih]; simp [h3.symm]
  | lp _ ih => rw [List.count_cons, ih]; simp [h1.symm, tokChars]
  | rp _ ih => rw [List.count_cons, ih]; simp [h2.symm, tokChars]
  | word _ _ _ _ ih => rw [List.count_append, ih, tokChars, List.count_append]

omit [PyUnicode] in
theorem Lexes.word_infix {s : Str} {T : List Tok} (h : Lexes s T) {w : Str} (hw : Tok.word w ∈ T) : w <:+: s := by
  induction h with
  | nil => simp at hw
  | space _ ih => exact List.infix_cons (ih hw)
  | lp _ ih => exact List.infix_cons (ih (by simpa using hw))
  | rp _ ih => exact List.infix_cons (ih (by simpa using hw))
  | @word v s _ _ _ _ _ ih =>
    rcases List.mem_cons.1 hw with h | h
    · cases h
      exact ⟨[], s, by simp⟩
    · obtain ⟨p, q, hpq⟩ := ih h
      exact ⟨v ++ p, q, by simp [← hpq]⟩

/-- **Correctness of the parser** on strings without the internal marker character. -/
theorem parseExpression_iff (s : Str) (hell : '…' ∉ s) (pe : ParsedExpression) :
    parseExpression side u d s = .ok pe ↔ ∃ G, IsSide u d s G ∧ pe = describe side G := by
  rw [parseExpression_eq]
  rcases prepareDots_cases s with ⟨hdot, hp⟩ | ⟨p, q, rfl, hpp, hqq, hp⟩ | ⟨hdot, hno, hp⟩
  · rw [hp]
    simp only [Except.bind]
    obtain ⟨T, hT⟩ := lexes_exists s
    have h1 := runChars_eq_runToks side u d hT PState.init rfl
    simp only [Except.bind] at h1
    rw [h1]
    have hTd : '.' ∉ tokChars T := fun h => hdot (hT.chars h)
    have hTe : '…' ∉ tokChars T := fun h => hell (hT.chars h)
    have h2 := run_finish_iff side u d T hTe
    rw [norm_noop hTd] at h2
    simp only [Except.bind] at h2
    have hnd : ∀ G : List Elem, T = G.flatMap Elem.toks → dots ∉ G.flatMap Elem.words := by
      rintro G rfl hd
      exact hTd (mem_tokChars (mem_toks_words.2 hd) (by simp [dots]))
    constructor
    · intro h
      split at h
      · simp at h
      · rename_i st hst
        obtain ⟨G, hG, hgood, rfl⟩ := (h2 st).1 hst
        refine ⟨G, ⟨hG ▸ hT, hgood.1, ?_, hgood.2⟩, ?_⟩
        · rw [List.count_eq_zero_of_not_mem (hnd G hG)]; omega
        · simp only [Except.ok.injEq] at h
          rw [← h]
          simp only [describe, prefState, prefWords, Option.getD_none, List.append_nil]
          congr 1
          simp [hnd G hG]
    · rintro ⟨G, hs, rfl⟩
      have hG : T = G.flatMap Elem.toks := hT.unique hs.lexes
      have := (h2 (prefState side G none)).2 ⟨G, hG, ⟨hs.words_ok, hs.nodup⟩, rfl⟩
      rw [this]
      simp only [describe, prefState, prefWords, Option.getD_none, List.append_nil]
      congr 2
      simp [hnd G hG]
  · rw [hp]
    simp only [Except.bind]
    obtain ⟨ts1, a, b, ts2, hins⟩ := lexes_insert p q
    have hL1 := hins dots (by simp [dots]) (by simp [dots, isSep])
    have hL2 := hins ellipsisStr (by simp [ellipsisStr]) (by simp [ellipsisStr, isSep])
    have h1 := runChars_eq_runToks side u d hL2 PState.init rfl
    simp only [Except.bind] at h1
    rw [h1]
    have hell1 : '…' ∉ tokChars (ts1 ++ .word (a ++ dots ++ b) :: ts2) := fun h => hell (hL1.chars h)
    have hdot2 : '.' ∉ tokChars (ts1 ++ .word (a ++ ellipsisStr ++ b) :: ts2) := by
      intro h
      have := hL2.chars h
      simp [ellipsisStr, hpp, hqq] at this
    rw [tokChars_append] at hell1 hdot2
    simp only [tokChars, List.mem_append, not_or] at hell1 hdot2
    by_cases hab : a = [] ∧ b = []
    · obtain ⟨rfl, rfl⟩ := hab
      simp only [List.nil_append, List.append_nil] at *
      have hTe : '…' ∉ tokChars (ts1 ++ .word dots :: ts2) := fun h => hell (by simpa using hL1.chars h)
      have h2 := run_finish_iff side u d (ts1 ++ .word dots :: ts2) hTe
      have hmap : (ts1 ++ .word dots :: ts2).map normTok = ts1 ++ .word ellipsisStr :: ts2 := by
        rw [List.map_append, List.map_cons, norm_noop hdot2.1, norm_noop hdot2.2.2]
        simp [normTok, norm]
      rw [hmap] at h2
      simp only [Except.bind] at h2
      have hcount : ∀ G : List Elem, ts1 ++ .word dots :: ts2 = G.flatMap Elem.toks →
          dots ∈ G.flatMap Elem.words ∧ (G.flatMap Elem.words).count dots ≤ 1 := by
        intro G hG
        refine ⟨mem_toks_words.1 (by rw [← hG]; simp), ?_⟩
        have hc : ∀ G : List Elem, (G.flatMap Elem.toks).count (.word dots) = (G.flatMap Elem.words).count dots := by
          intro G
          induction G with
          | nil => rfl
          | cons e G ih =>
            rw [List.flatMap_cons, List.flatMap_cons, List.count_append, List.count_append, ih]
            congr 1
            cases e with
            | bare w =>
              simp only [Elem.toks, Elem.words, List.count_cons, List.count_nil]
              by_cases h : w = dots <;> simp [h]
            | paren ws =>
              simp only [Elem.toks, Elem.words]
              rw [List.cons_append, List.count_cons, List.count_append]
              have : List.count (Tok.word dots) (ws.map Tok.word) = List.count dots ws :=
                List.count_map_of_injective ws Tok.word (fun a b h => by simpa using h) dots
              rw [this]
              simp
        rw [← hc, ← hG, List.count_append, List.count_cons]
        have hz1 : List.count (Tok.word dots) ts1 = 0 := by
          apply List.count_eq_zero_of_not_mem
          intro h
          exact hdot2.1 (mem_tokChars h (by simp [dots]))
        have hz2 : List.count (Tok.word dots) ts2 = 0 := by
          apply List.count_eq_zero_of_not_mem
          intro h
          exact hdot2.2.2 (mem_tokChars h (by simp [dots]))
        rw [hz1, hz2]; simp
      constructor
      · intro h
        split at h
        · simp at h
        · rename_i st hst
          obtain ⟨G, hG, hgood, rfl⟩ := (h2 st).1 hst
          refine ⟨G, ⟨hG ▸ hL1, hgood.1, (hcount G hG).2, hgood.2⟩, ?_⟩
          simp only [Except.ok.injEq] at h
          rw [← h]
          simp only [describe, prefState, prefWords, Option.getD_none, List.append_nil]
          congr 1
          simpa using (hcount G hG).1
      · rintro ⟨G, hs, rfl⟩
        have hG := hL1.unique hs.lexes
        have := (h2 (prefState side G none)).2 ⟨G, hG, ⟨hs.words_ok, hs.nodup⟩, rfl⟩
        rw [this]
        simp only [describe, prefState, prefWords, Option.getD_none, List.append_nil]
        congr 2
        simpa using (hcount G hG).1
    · -- the dots are glued to other characters
      have hbad : ∀ st, addWord side u d st (a ++ ellipsisStr ++ b) = .error .einops := by
        intro st
        unfold addWord
        split
        · rename_i hok
          have hne : a ++ ellipsisStr ++ b ≠ ellipsisStr := by
            intro h
            have := congrArg List.length h
            simp only [List.length_append] at this
            exact hab ⟨List.length_eq_zero_iff.1 (by omega), List.length_eq_zero_iff.1 (by omega)⟩
          have hnum : isDecimal (a ++ ellipsisStr ++ b) = false := by
            rw [Bool.eq_false_iff]
            intro h
            obtain ⟨d, hd⟩ := (isNumber_iff.2 h).2 '…' (by simp [ellipsisStr])
            have := PyUnicode.decimal_alnum _ _ hd
            rw [PyUnicode.special_not_alnum '…' (by simp)] at this
            cases this
          have hname : checkAxisName u (a ++ ellipsisStr ++ b) = false := by
            have hid : isIdentifier (a ++ ellipsisStr ++ b) = false := by
              rw [Bool.eq_false_iff]
              intro h
              have hx := PyUnicode.special_not_xid '…' (by simp)
              cases a with
              | nil => simp [ellipsisStr, isIdentifier, hx.1] at h
              | cons c cs =>
                simp only [List.cons_append, isIdentifier, Bool.and_eq_true, List.all_eq_true] at h
                have := h.2 '…' (by simp [ellipsisStr])
                rw [hx.2] at this; cases this
            unfold checkAxisName
            rw [hid]; rfl
          unfold addAxisName
          split
          · rfl
          · dsimp only
            simp only [hnum, hname, Bool.false_eq_true, false_and, if_false, Bool.or_false, Bool.not_false, if_true,
              hne]
        · rfl
      have hrun := runToks_bad_word side u d ts1 ts2 PState.init hbad
      simp only [Except.bind] at hrun
      constructor
      · intro h
        split at h
        · simp at h
        · rename_i st hst
          exact absurd hst (hrun st)
      · rintro ⟨G, hs, rfl⟩
        exfalso
        have hG := hL1.unique hs.lexes
        have hmem : a ++ dots ++ b ∈ G.flatMap Elem.words := mem_toks_words.1 (by rw [← hG]; simp)
        have hno : PyUnicode.isAlnum '.' = false := PyUnicode.special_not_alnum '.' (by simp)
        rcases hs.words_ok _ hmem with h | h | h
        · have := congrArg List.length h
          simp only [List.length_append] at this
          exact hab ⟨List.length_eq_zero_iff.1 (by omega), List.length_eq_zero_iff.1 (by omega)⟩
        · obtain ⟨d, hd⟩ := h.1.2 '.' (by simp [dots])
          have := PyUnicode.decimal_alnum _ _ hd
          rw [hno] at this; cases this
        · rcases h.1 '.' (by simp [dots]) with h | h
          · rw [hno] at h; cases h
          · cases h
  · rw [hp]
    simp only [Except.bind]
    constructor
    · intro h; simp at h
    · rintro ⟨G, hs, rfl⟩
      exfalso
      -- a legal side with a dot has exactly one ellipsis word
      obtain ⟨a, b, rfl⟩ := List.append_of_mem hdot
      have : ∃ w ∈ G.flatMap Elem.words, '.' ∈ w := by
        obtain ⟨ts1, x, y, ts2, hins⟩ := lexes_insert a b
        have := hins ['.'] (by simp) (by simp [isSep])
        have hG := Lexes.unique (by simpa using this) hs.lexes
        exact ⟨x ++ ['.'] ++ y, mem_toks_words.1 (by rw [← hG]; simp), by simp⟩
      obtain ⟨w, hw, hdw⟩ := this
      have hallw : ∀ w ∈ G.flatMap Elem.words, '.' ∈ w → w = dots := by
        intro w hw hdw
        have hno' : PyUnicode.isAlnum '.' = false := PyUnicode.special_not_alnum '.' (by simp)
        rcases hs.words_ok _ hw with h | h | h
        · exact h
        · obtain ⟨d, hd⟩ := h.1.2 '.' hdw
          have := PyUnicode.decimal_alnum _ _ hd
          rw [hno'] at this; cases this
        · rcases h.1 '.' hdw with h | h
          · rw [hno'] at h; cases h
          · cases h
      have hwd := hallw w hw hdw
      subst hwd
      have h3 := hs.lexes.count_char '.' (by simp [isSep])
      rw [tokChars_flatMap, count_flatten_dots hallw] at h3
      have h4 := hs.lexes.word_infix (mem_toks_words.2 hw)
      obtain ⟨p, q, hpq⟩ := h4
      rw [← hpq] at h3
      have h5 := hs.one_ellipsis
      have h6 : List.count '.' dots = 3 := by decide
      simp only [List.count_append, h6] at h3
      refine hno ⟨p, q, hpq.symm, ?_, ?_⟩
      · intro hm
        have := List.count_pos_iff.2 hm
        omega
      · intro hm
        have := List.count_pos_iff.2 hm
        omega

theorem parseExpression_err {s : Str} {e : PyErr} (h : parseExpression side u d s = .error e) : e = .einops := by
  rw [parseExpression_eq] at h
  rcases prepareDots_cases s with ⟨hdot, hp⟩ | ⟨p, q, rfl, hpp, hqq, hp⟩ | ⟨hdot, hno, hp⟩
  · rw [hp] at h
    simp only [Except.bind] at h
    obtain ⟨T, hT⟩ := lexes_exists s
    have h1 := runChars_eq_runToks side u d hT PState.init rfl
    simp only [Except.bind] at h1
    rw [h1] at h
    rcases hr : runToks side u d PState.init T with e' | st
    · rw [hr] at h
      simp only [Except.error.injEq] at h
      rw [← h]; exact runToks_err side u d hr
    · rw [hr] at h
      simp only [finishTok] at h
      split_ifs at h
      simpa using h.symm
  · rw [hp] at h
    simp only [Except.bind] at h
    obtain ⟨T, hT⟩ := lexes_exists (p ++ ellipsisStr ++ q)
    have h1 := runChars_eq_runToks side u d hT PState.init rfl
    simp only [Except.bind] at h1
    rw [h1] at h
    rcases hr : runToks side u d PState.init T with e' | st
    · rw [hr] at h
      simp only [Except.error.injEq] at h
      rw [← h]; exact runToks_err side u d hr
    · rw [hr] at h
      simp only [finishTok] at h
      split_ifs at h
      simpa using h.symm
  · rw [hp] at h
    simpa [Except.bind] using h.symm

end

end Einops
