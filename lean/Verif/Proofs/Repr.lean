import Verif.Repr
import Verif.ReprSpec
import Verif.Proofs.Sides

/-! What is read back from the `repr` of a layer. -/

namespace Einops

/-! ### Numbers -/

theorem hexVal_digitChar : ∀ d < 16, hexVal (Nat.digitChar d) = some d := by decide

theorem readHex_append (w : Nat) : ∀ (n a : Nat) (v : Nat) (rest : Str), n < 16 ^ w →
    readHex (w + v) a (hexDigits w n ++ rest) = readHex v (a * 16 ^ w + n) rest := by
  induction w with
  | zero => intro n a v rest h; simp at h; simp [hexDigits, h]
  | succ w ih =>
    intro n a v rest h
    have h1 : n / 16 < 16 ^ w := by
      rw [pow_succ] at h
      exact Nat.div_lt_of_lt_mul (by omega)
    have h2 := ih (n / 16) a (v + 1) (Nat.digitChar (n % 16) :: rest) h1
    rw [show w + 1 + v = w + (v + 1) by omega, hexDigits, List.append_assoc, List.singleton_append, h2]
    simp only [readHex, hexVal_digitChar _ (Nat.mod_lt n (by norm_num : 16 > 0))]
    congr 1
    rw [pow_succ]
    have := Nat.div_add_mod n 16
    ring_nf
    ring_nf at this
    omega

theorem readHex_hexDigits {w n : Nat} (h : n < 16 ^ w) (rest : Str) :
    readHex w 0 (hexDigits w n ++ rest) = some (n, rest) := by
  have := readHex_append w n 0 0 rest h
  simpa [readHex] using this

theorem charOf_toNat (c : Char) : charOf c.toNat = some c := by
  have h : c.toNat.isValidChar := by
    have := c.valid
    exact this
  unfold charOf
  rw [dif_pos h]
  congr 1

theorem char_lt (c : Char) : c.toNat < 16 ^ 8 := by
  have := c.val.toNat_lt
  have h : c.toNat = c.val.toNat := rfl
  rw [h]
  norm_num at this ⊢
  omega

/-! ### String literals -/

theorem readLiteral_escape {printable : Char → Bool} {q : Char} (hq : q = '\'' ∨ q = '"') (s : Str) :
    ∀ (n : Nat) (rest : Str), (s.flatMap (escapeChar printable q)).length < n →
      readLiteral q n (s.flatMap (escapeChar printable q) ++ q :: rest) = some (s, rest) := by
  induction s with
  | nil =>
    intro n rest hn
    cases n with
    | zero => simp at hn
    | succ n => simp [readLiteral]
  | cons c s ih =>
    intro n rest hn
    rw [List.flatMap_cons, List.append_assoc]
    rw [List.flatMap_cons, List.length_append] at hn
    obtain ⟨m, rfl⟩ : ∃ m, n = m + 1 := ⟨n - 1, by omega⟩
    have hqb : q ≠ '\\' := by rcases hq with rfl | rfl <;> decide
    generalize s.flatMap (escapeChar printable q) = F at *
    have esc : ∀ (e : Str) (d : Char), (readEscape (e ++ (F ++ q :: rest)) =
        some (d, F ++ q :: rest)) →
        ('\\' :: e).length + F.length < m + 1 →
        readLiteral q (m + 1) (('\\' :: e) ++ (F ++ q :: rest)) =
          some (d :: s, rest) := by
      intro e d he hl
      rw [List.cons_append, readLiteral, if_neg (Ne.symm hqb), if_neg (by decide), if_pos rfl, he]
      simp only [List.length_cons] at hl
      simp only
      rw [ih m rest (by omega)]
      rfl
    unfold escapeChar at hn ⊢
    by_cases h1 : c = q ∨ c = '\\'
    · rw [if_pos h1] at hn ⊢
      refine esc [c] c ?_ hn
      rw [List.singleton_append, readEscape, if_pos]
      rcases h1 with rfl | rfl
      · tauto
      · tauto
    rw [if_neg h1] at hn ⊢
    by_cases h2 : c = '\t'
    · rw [if_pos h2] at hn ⊢
      subst h2
      exact esc ['t'] '\t' rfl hn
    rw [if_neg h2] at hn ⊢
    by_cases h3 : c = '\n'
    · rw [if_pos h3] at hn ⊢
      subst h3
      exact esc ['n'] '\n' rfl hn
    rw [if_neg h3] at hn ⊢
    by_cases h4 : c = '\r'
    · rw [if_pos h4] at hn ⊢
      subst h4
      exact esc ['r'] '\r' rfl hn
    rw [if_neg h4] at hn ⊢
    have hx : c.toNat < 256 → readEscape (('x' :: hexDigits 2 c.toNat) ++
        (F ++ q :: rest)) = some (c, F ++ q :: rest) := by
      intro hc
      rw [List.cons_append, readEscape, if_neg (by decide), if_neg (by decide), if_neg (by decide), if_neg (by decide),
        if_pos rfl, readHex_hexDigits (by norm_num; omega)]
      simp [charOf_toNat]
    have plain : ∀ hn : ([c] : Str).length + F.length < m + 1,
        readLiteral q (m + 1) ([c] ++ (F ++ q :: rest)) = some (c :: s, rest) := by
      intro hl
      push Not at h1
      rw [List.singleton_append, readLiteral, if_neg h1.1, if_neg (by tauto), if_neg h1.2,
        ih m rest (by simp at hl; omega)]
      rfl
    by_cases h5 : c.toNat < 32 ∨ c.toNat = 127
    · rw [if_pos h5] at hn ⊢
      exact esc ('x' :: hexDigits 2 c.toNat) c (hx (by omega)) hn
    rw [if_neg h5] at hn ⊢
    by_cases h6 : c.toNat < 127
    · rw [if_pos h6] at hn ⊢
      exact plain hn
    rw [if_neg h6] at hn ⊢
    by_cases h7 : printable c = true
    · rw [if_pos h7] at hn ⊢
      exact plain hn
    rw [if_neg h7] at hn ⊢
    by_cases h8 : c.toNat < 256
    · rw [if_pos h8] at hn ⊢
      exact esc ('x' :: hexDigits 2 c.toNat) c (hx (by omega)) hn
    rw [if_neg h8] at hn ⊢
    by_cases h9 : c.toNat < 65536
    · rw [if_pos h9] at hn ⊢
      refine esc ('u' :: hexDigits 4 c.toNat) c ?_ hn
      rw [List.cons_append, readEscape, if_neg (by decide), if_neg (by decide), if_neg (by decide), if_neg (by decide),
        if_neg (by decide), if_pos rfl, readHex_hexDigits (by norm_num; omega)]
      simp [charOf_toNat]
    · rw [if_neg h9] at hn ⊢
      refine esc ('U' :: hexDigits 8 c.toNat) c ?_ hn
      rw [List.cons_append, readEscape, if_neg (by decide), if_neg (by decide), if_neg (by decide), if_neg (by decide),
        if_neg (by decide), if_neg (by decide), readHex_hexDigits (char_lt c)]
      simp [charOf_toNat]

theorem readLiteral_plain {q : Char} (s : Str) (hs : ∀ c ∈ s, c ≠ q ∧ c ≠ '\\' ∧ c ≠ '\n' ∧ c ≠ '\r') :
    ∀ (n : Nat) (rest : Str), s.length < n → readLiteral q n (s ++ q :: rest) = some (s, rest) := by
  induction s with
  | nil =>
    intro n rest hn
    cases n with
    | zero => simp at hn
    | succ n => simp [readLiteral]
  | cons c s ih =>
    intro n rest hn
    obtain ⟨m, rfl⟩ : ∃ m, n = m + 1 := ⟨n - 1, by simp at hn; omega⟩
    obtain ⟨h1, h2, h3, h4⟩ := hs c (by simp)
    rw [List.cons_append, readLiteral, if_neg h1, if_neg (by tauto), if_neg h2,
      ih (fun d hd => hs d (by simp [hd])) m rest (by simp at hn; omega)]
    rfl

theorem reprQuote_or (s : Str) : reprQuote s = '\'' ∨ reprQuote s = '"' := by
  unfold reprQuote; split <;> simp

/-! ### Numbers of the keywords -/

theorem natStr_head (n : Nat) (hn : 0 < n) : (natStr n).head? ≠ some '0' := by
  induction n using Nat.strong_induction_on with
  | _ n ih =>
    unfold natStr
    by_cases h : n < 10
    · rw [Nat.toDigits_of_lt_base h]
      exact (by decide : ∀ n < 10, 0 < n → [Nat.digitChar n].head? ≠ some '0') n h hn
    · rw [Nat.toDigits_of_base_le (by omega) (by omega),
        List.head?_append_of_ne_nil _ Nat.toDigits_ne_nil]
      exact ih (n / 10) (by omega) (by omega)

theorem readNat_natStr (n : Nat) {rest : Str} (hr : ∀ c ∈ rest.head?, c.isDigit = false) :
    readNat (natStr n ++ rest) = some (n, rest) := by
  have hdig : ∀ c ∈ natStr n, c.isDigit = true := fun c hc => Nat.isDigit_of_mem_toDigits (by omega) (by omega) hc
  have hno : rest.takeWhile Char.isDigit = [] ∧ rest.dropWhile Char.isDigit = rest := by
    cases rest with
    | nil => simp
    | cons c r =>
      have := hr c (by simp)
      simp [this]
  have htk : (natStr n ++ rest).takeWhile Char.isDigit = natStr n := by
    rw [List.takeWhile_append_of_pos hdig, hno.1, List.append_nil]
  have hdr : (natStr n ++ rest).dropWhile Char.isDigit = rest := by
    rw [List.dropWhile_append_of_pos hdig, hno.2]
  unfold readNat
  simp only [htk, hdr]
  have hz : ¬ (natStr n = [] ∨ ((natStr n).head? = some '0' ∧ natStr n ≠ ['0'])) := by
    rintro (h | ⟨h1, h2⟩)
    · exact natStr_ne_nil n h
    · rcases Nat.eq_zero_or_pos n with rfl | hn
      · exact h2 (Nat.toDigits_zero 10)
      · exact natStr_head n hn h1
  rw [if_neg hz]
  congr 2
  have h := Nat.ofDigitChars_toDigits (b := 10) (n := n) (by omega) (by omega)
  refine Eq.trans ?_ h
  unfold natStr Nat.ofDigitChars
  congr 1
  funext a c
  rw [Nat.mul_comm]
  rfl

theorem readInt_intStr (n : Int) {rest : Str} (hr : ∀ c ∈ rest.head?, c.isDigit = false) :
    readInt (intStr n ++ rest) = some (n, rest) := by
  unfold intStr
  by_cases h : n < 0
  · rw [if_pos h, List.cons_append, readInt, readNat_natStr _ hr]
    have : -((n.natAbs : Nat) : Int) = n := by omega
    rw [Option.map_some, this]
  · rw [if_neg h]
    have hne : ∀ s, natStr n.natAbs ++ rest ≠ '-' :: s := by
      intro s hs
      rcases hn : natStr n.natAbs with _ | ⟨c, l⟩
      · exact natStr_ne_nil _ hn
      · rw [hn] at hs
        have : c = '-' := by simpa using congrArg List.head? hs
        subst this
        have := Nat.isDigit_of_mem_toDigits (b := 10) (n := n.natAbs) (c := '-') (by omega) (by omega)
          (by show '-' ∈ natStr n.natAbs; rw [hn]; simp)
        exact absurd this (by decide)
    have : ((n.natAbs : Nat) : Int) = n := by omega
    rw [readInt.eq_2 _ hne, readNat_natStr _ hr, Option.map_some, this]

/-! ### Names and keywords -/

variable [PyUnicode]

/-- sizes for which the keywords of a `repr` can be read -/
def PlainSizes (L : PyLang) (kw : List (Str × Size)) : Prop :=
  (∀ p ∈ kw, PlainName L p.1) ∧ (kw.map Prod.fst).Nodup

/-- what is read from the sizes -/
def plainSizes (kw : List (Str × Size)) : List (Str × Int) := kw.map (fun p => (p.1, p.2.val))

theorem isIdentifier_all {w : Str} (L : PyLang) (h : isIdentifier w = true) : ∀ c ∈ w, PyUnicode.xidContinue c = true := by
  cases w with
  | nil => simp
  | cons a w =>
    simp only [isIdentifier, Bool.and_eq_true, Bool.or_eq_true, List.all_eq_true] at h
    intro c hc
    rcases List.mem_cons.1 hc with rfl | hc
    · rcases h.1 with h | h
      · exact L.start_continue _ h
      · rw [beq_iff_eq] at h
        subst h
        exact PyUnicode.underscore_xid.2
    · exact h.2 c hc

theorem readName_append {L : PyLang} {w : Str} (h : PlainName L w) {c : Char} (hc : PyUnicode.xidContinue c = false)
    (rest : Str) : readName L (w ++ c :: rest) = some (w, c :: rest) := by
  have hall := isIdentifier_all L h.1
  unfold readName
  simp only [List.takeWhile_append_of_pos hall, List.dropWhile_append_of_pos hall, List.takeWhile_cons,
    List.dropWhile_cons, hc, Bool.false_eq_true, if_false, List.append_nil]
  simp [h.1, h.2.1, h.2.2]

omit [PyUnicode] in
theorem reprSizes_cons (p : Str × Size) (kw : List (Str × Size)) :
    reprSizes (p :: kw) = ',' :: ' ' :: (p.1 ++ '=' :: (intStr p.2.val ++ reprSizes kw)) := by
  simp [reprSizes]

theorem readKeywords_sizes {L : PyLang} (kw : List (Str × Size)) : ∀ (p : Str × Size) (n : Nat) (seen : List Str),
    PlainSizes L (p :: kw) → (∀ q ∈ p :: kw, q.1 ∉ seen) → kw.length < n →
    readKeywords L n seen (p.1 ++ '=' :: (intStr p.2.val ++ (reprSizes kw ++ [')']))) = some (plainSizes (p :: kw)) := by
  induction kw with
  | nil =>
    intro p n seen hp hs hn
    obtain ⟨m, rfl⟩ : ∃ m, n = m + 1 := ⟨n - 1, by simp at hn; omega⟩
    rw [readKeywords, readName_append (hp.1 p (by simp)) (L.xid '=' (by simp)).2]
    simp only
    rw [if_neg (hs p (by simp)), show reprSizes [] ++ [')'] = [')'] from rfl,
      readInt_intStr _ (by intro c hc; simp at hc; subst hc; decide)]
    rfl
  | cons p' kw ih =>
    intro p n seen hp hs hn
    obtain ⟨m, rfl⟩ : ∃ m, n = m + 1 := ⟨n - 1, by simp at hn; omega⟩
    rw [readKeywords, readName_append (hp.1 p (by simp)) (L.xid '=' (by simp)).2]
    simp only
    rw [if_neg (hs p (by simp)), reprSizes_cons, List.cons_append, List.cons_append,
      readInt_intStr _ (by intro c hc; simp at hc; subst hc; decide)]
    simp only [List.append_assoc, List.cons_append]
    have hnd := hp.2
    rw [List.map_cons, List.nodup_cons] at hnd
    rw [ih p' m (p.1 :: seen) ⟨fun q hq => hp.1 q (List.mem_cons_of_mem _ hq), hnd.2⟩ ?_ (by simp at hn; omega)]
    · rfl
    · intro q hq hm
      rcases List.mem_cons.1 hm with h | h
      · exact hnd.1 (h ▸ List.mem_map_of_mem hq)
      · exact hs q (List.mem_cons_of_mem _ hq) h

theorem xid_not_quote {L : PyLang} {w : Str} (h : isIdentifier w = true) : ∃ c r, w = c :: r ∧ c ≠ '\'' ∧ c ≠ '"' := by
  cases w with
  | nil => simp [isIdentifier] at h
  | cons c r =>
    refine ⟨c, r, rfl, ?_, ?_⟩ <;> rintro rfl
    · have := isIdentifier_all L h '\'' (by simp)
      rw [(L.xid '\'' (by simp)).2] at this
      exact absurd this (by decide)
    · have := isIdentifier_all L h '"' (by simp)
      rw [(L.xid '"' (by simp)).2] at this
      exact absurd this (by decide)

omit [PyUnicode] in
theorem reprSizes_length (kw : List (Str × Size)) : kw.length ≤ (reprSizes kw).length := by
  induction kw with
  | nil => simp
  | cons p kw ih => rw [reprSizes_cons]; simp; omega

theorem readArgs_last {L : PyLang} {q : Char} (hq : q = '\'' ∨ q = '"') {s v : Str} {kw : List (Str × Size)}
    (h : readLiteral q s.length s = some (v, reprSizes kw ++ [')'])) (hk : PlainSizes L kw) (n : Nat) :
    readArgs L (n + 2) (q :: s) = some ([v], plainSizes kw) := by
  rw [readArgs, if_pos hq, h]
  cases kw with
  | nil => rfl
  | cons p kw =>
    rw [reprSizes_cons]
    simp only [List.cons_append, List.append_assoc]
    obtain ⟨c, r, hcr, h1, h2⟩ := xid_not_quote (L := L) (hk.1 p (by simp)).1
    have key := readKeywords_sizes kw p
      ((r ++ '=' :: (intStr p.2.val ++ (reprSizes kw ++ [')']))).length + 1) [] hk (by simp)
      (by have := reprSizes_length kw; simp; omega)
    rw [hcr, List.cons_append] at key ⊢
    rw [readArgs, if_neg (by tauto), key]
    rfl

theorem readArgs_more {L : PyLang} {q : Char} (hq : q = '\'' ∨ q = '"') {s v r : Str} {vs : List Str}
    {k : List (Str × Int)} (h : readLiteral q s.length s = some (v, ',' :: ' ' :: r)) {n : Nat}
    (hr : readArgs L n r = some (vs, k)) : readArgs L (n + 1) (q :: s) = some (v :: vs, k) := by
  rw [readArgs, if_pos hq, h]
  simp only [hr]
  rfl

theorem readLiteral_repr (printable : Char → Bool) (s rest : Str) :
    readLiteral (reprQuote s) (s.flatMap (escapeChar printable (reprQuote s)) ++ reprQuote s :: rest).length
      (s.flatMap (escapeChar printable (reprQuote s)) ++ reprQuote s :: rest) = some (s, rest) :=
  readLiteral_escape (reprQuote_or s) s _ rest (by simp)

theorem readLiteral_quoted {s : Str} (hs : ∀ c ∈ s, c ≠ '\'' ∧ c ≠ '\\' ∧ c ≠ '\n' ∧ c ≠ '\r') (rest : Str) :
    readLiteral '\'' (s ++ '\'' :: rest).length (s ++ '\'' :: rest) = some (s, rest) :=
  readLiteral_plain s hs _ rest (by simp)

theorem readCall_of {L : PyLang} {cls r : Str} (hc : PlainName L cls) {vs : List Str} {k : List (Str × Int)}
    (h : readArgs L r.length r = some (vs, k)) : readCall L (cls ++ '(' :: r) = some ⟨cls, vs, k⟩ := by
  rw [readCall, readName_append hc (PyUnicode.special_not_xid '(' (by simp)).2]
  simp only [h]
  rfl

theorem readArgs_ge {L : PyLang} : ∀ {n m : Nat} {r : Str} {o}, readArgs L n r = some o → n ≤ m →
    readArgs L m r = some o := by
  intro n
  induction n with
  | zero => intro m r o h; simp [readArgs] at h
  | succ n ih =>
    intro m r o h hm
    obtain ⟨m, rfl⟩ : ∃ k, m = k + 1 := ⟨m - 1, by omega⟩
    cases r with
    | nil => simp [readArgs] at h
    | cons c s =>
      rw [readArgs] at h ⊢
      by_cases hc : c = '\'' ∨ c = '"'
      · rw [if_pos hc] at h ⊢
        split at h
        · rename_i hl
          exact h
        · rename_i v r hl
          cases hr : readArgs L n r with
          | none => rw [hr] at h; simp at h
          | some o' => rw [ih hr (by omega)]; rw [hr] at h; exact h
        · cases h
      · rw [if_neg hc] at h ⊢
        exact h

/-- **`Rearrange`** -/
theorem read_reprRearrange {L : PyLang} {cls : Str} (hc : PlainName L cls) (pattern : Str) {kw : List (Str × Size)}
    (hk : PlainSizes L kw) :
    readCall L (reprRearrange L.printable cls pattern kw) = some ⟨cls, [pattern], plainSizes kw⟩ := by
  have h := readArgs_last (reprQuote_or pattern) (readLiteral_repr L.printable pattern (reprSizes kw ++ [')'])) hk 0
  have := readCall_of hc (readArgs_ge h (m := _) (by simp; omega))
  rw [← this]
  simp [reprRearrange, reprStr]

/-- **`Reduce`** -/
theorem read_reprReduce {L : PyLang} {cls : Str} (hc : PlainName L cls) (pattern reduction : Str)
    {kw : List (Str × Size)} (hk : PlainSizes L kw) :
    readCall L (reprReduce L.printable cls pattern reduction kw) = some ⟨cls, [pattern, reduction], plainSizes kw⟩ := by
  have h := readArgs_last (reprQuote_or reduction) (readLiteral_repr L.printable reduction (reprSizes kw ++ [')'])) hk 0
  have h := readArgs_more (reprQuote_or pattern) (readLiteral_repr L.printable pattern _) h
  have := readCall_of hc (readArgs_ge h (m := _) (by simp; omega))
  rw [← this]
  simp [reprReduce, reprStr]

/-- **`EinMix`** -/
theorem read_reprEinMix {L : PyLang} {cls : Str} (hc : PlainName L cls) (pattern : Str) {weight : Str} {bias : Option Str}
    {kw : List (Str × Size)} (hk : PlainSizes L kw)
    (hw : ∀ c ∈ weight, c ≠ '\'' ∧ c ≠ '\\' ∧ c ≠ '\n' ∧ c ≠ '\r')
    (hb : ∀ b ∈ bias, ∀ c ∈ b, c ≠ '\'' ∧ c ≠ '\\' ∧ c ≠ '\n' ∧ c ≠ '\r') :
    readCall L (reprEinMix L.printable cls pattern weight bias kw) =
      some ⟨cls, pattern :: weight :: bias.toList, plainSizes kw⟩ := by
  cases bias with
  | none =>
    have h := readArgs_last (.inl rfl) (readLiteral_quoted hw (reprSizes kw ++ [')'])) hk 0
    have h := readArgs_more (reprQuote_or pattern) (readLiteral_repr L.printable pattern _) h
    have := readCall_of hc (readArgs_ge h (m := _) (by simp; omega))
    rw [Option.toList_none, ← this]
    simp [reprEinMix, reprStr]
  | some b =>
    have h := readArgs_last (.inl rfl) (readLiteral_quoted (hb b rfl) (reprSizes kw ++ [')'])) hk 0
    have h := readArgs_more (.inl rfl) (readLiteral_quoted hw _) h
    have h := readArgs_more (reprQuote_or pattern) (readLiteral_repr L.printable pattern _) h
    have := readCall_of hc (readArgs_ge h (m := _) (by simp; omega))
    rw [Option.toList_some, ← this]
    simp [reprEinMix, reprStr]

end Einops
