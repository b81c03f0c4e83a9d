import Verif.Proofs.Parser
import Verif.Proofs.Plan
import Verif.Proofs.Arrow

/-! From pattern strings to the groups of axes used by recipes. -/

namespace Einops

/-! ### axes standing for the ellipsis -/

theorem natStr_inj {i j : Nat} (h : natStr i = natStr j) : i = j := by
  unfold natStr at h
  have h1 := Nat.ofDigitChars_toDigits (b := 10) (n := i) (by omega) (by omega)
  have h2 := Nat.ofDigitChars_toDigits (b := 10) (n := j) (by omega) (by omega)
  rw [h] at h1
  exact h1.symm.trans h2

theorem ellAxes_nodup (n : Nat) : (ellAxes n).Nodup := by
  unfold ellAxes
  apply List.nodup_range.map
  intro i j h
  simp only [Axis.str.injEq] at h
  exact natStr_inj (List.append_cancel_left h)

theorem natStr_ne_nil (i : Nat) : natStr i ≠ [] := by
  unfold natStr
  intro h
  have := Nat.length_toDigits_pos (b := 10) (n := i)
  rw [h] at this
  simp at this

theorem mem_ellAxes {n : Nat} {a : Axis} : a ∈ ellAxes n ↔ ∃ i < n, a = .str (ellipsisStr ++ natStr i) := by
  simp [ellAxes, eq_comm]

theorem marker_not_mem_ellAxes (n : Nat) : Axis.str ellipsisStr ∉ ellAxes n := by
  rw [mem_ellAxes]
  rintro ⟨i, _, h⟩
  simp only [Axis.str.injEq] at h
  have := congrArg List.length h
  simp only [List.length_append] at this
  exact natStr_ne_nil i (List.length_eq_zero_iff.1 (by omega))

theorem name_not_mem_ellAxes {n : Nat} {w : Str} (h : '…' ∉ w) : Axis.str w ∉ ellAxes n := by
  rw [mem_ellAxes]
  rintro ⟨i, _, he⟩
  simp only [Axis.str.injEq] at he
  rw [he] at h
  simp [ellipsisStr] at h

/-- substitution of the ellipsis -/
def subEll (ell : List Axis) (a : Axis) : List Axis := if a = .str ellipsisStr then ell else [a]

theorem spread_flatten (ell : List Axis) (c : List CompAxis) :
    (spread ell c).flatten = (c.flatMap CompAxis.axes).flatMap (subEll ell) := by
  induction c with
  | nil => rfl
  | cons x c ih =>
    cases x with
    | ell =>
      simp only [spread, List.flatten_append, ih, List.flatMap_cons, CompAxis.axes, List.cons_append, List.nil_append]
      congr 1
      unfold subEll
      rw [if_pos rfl]
      clear ih
      induction ell with
      | nil => rfl
      | cons a l ihl => simp only [List.map_cons, List.flatten_cons, List.cons_append, List.nil_append, ihl]
    | group g =>
      simp only [spread, List.flatten_cons, ih, List.flatMap_cons, CompAxis.axes, List.flatMap_append]
      rfl

theorem mem_flatMap_subEll {ell A : List Axis} {a : Axis} :
    a ∈ A.flatMap (subEll ell) ↔ (a ∈ A ∧ a ≠ .str ellipsisStr) ∨ (a ∈ ell ∧ .str ellipsisStr ∈ A) := by
  simp only [List.mem_flatMap, subEll]
  constructor
  · rintro ⟨b, hb, h⟩
    split at h
    · rename_i he; subst he; exact .inr ⟨h, hb⟩
    · rename_i he
      simp only [List.mem_singleton] at h
      subst h
      exact .inl ⟨hb, he⟩
  · rintro (⟨h1, h2⟩ | ⟨h1, h2⟩)
    · exact ⟨a, h1, by rw [if_neg h2]; simp⟩
    · exact ⟨_, h2, by rw [if_pos rfl]; exact h1⟩

theorem nodup_flatMap_subEll {ell A : List Axis} (hell : ell.Nodup) (hA : A.Nodup) (hd : ∀ a ∈ A, a ∉ ell) :
    (A.flatMap (subEll ell)).Nodup := by
  rw [List.nodup_flatMap]
  refine ⟨?_, ?_⟩
  · intro a _
    unfold subEll
    split
    · exact hell
    · simp
  · refine List.Nodup.pairwise_of_forall_ne hA ?_
    intro a ha b hb hab
    simp only [Function.onFun, List.disjoint_left]
    intro c hc1 hc2
    unfold subEll at hc1 hc2
    split at hc1 <;> split at hc2
    · rename_i h1 h2; exact hab (h1.trans h2.symm)
    · simp only [List.mem_singleton] at hc2
      subst hc2
      exact hd _ hb hc1
    · simp only [List.mem_singleton] at hc1
      subst hc1
      exact hd _ ha hc2
    · simp only [List.mem_singleton] at hc1 hc2
      exact hab (hc1.symm.trans hc2)

variable [PyUnicode]

theorem denote_axes (side k : Nat) (G : List Elem) :
    (denote side k G).flatMap CompAxis.axes = wordsAxes side k (sideWords G) := by
  induction G generalizing k with
  | nil => rfl
  | cons e G ih =>
    unfold sideWords at *
    cases e with
    | bare w =>
      simp only [denote, List.flatMap_cons, ih, Elem.words, List.cons_append, List.nil_append, wordsAxes]
      congr 1
      split
      · rename_i h; subst h; simp [CompAxis.axes, wordAxes]
      · rfl
    | paren ws =>
      simp only [denote, List.flatMap_cons, ih, Elem.words, CompAxis.axes]
      rw [wordsAxes_append]

theorem denote_length (side k : Nat) (G : List Elem) : (denote side k G).length = G.length := by
  induction G generalizing k with
  | nil => rfl
  | cons e G ih => cases e <;> simp [denote, ih]

/-- words of legal sides only contain letters, digits, underscores or dots -/
theorem wordOK_chars {u : Bool} {w : Str} (h : WordOK u w) {c : Char} (hc : c ∈ w) :
    PyUnicode.isAlnum c = true ∨ c = '_' ∨ c = '.' := by
  rcases h with rfl | ⟨h, _⟩ | h
  · simp [dots] at hc; exact .inr (.inr hc)
  · obtain ⟨d, hd⟩ := h.2 c hc
    exact .inl (PyUnicode.decimal_alnum _ _ hd)
  · rcases h.1 c hc with h | h
    · exact .inl h
    · exact .inr (.inl h)

theorem wordOK_no_special {u : Bool} {w : Str} (h : WordOK u w) {c : Char} (hc : c ∈ w)
    (hs : c ∈ ['(', ')', ' ', ',', '-', '>', '*', '…']) : False := by
  rcases wordOK_chars h hc with h1 | rfl | rfl
  · rw [PyUnicode.special_not_alnum c (by
      simp only [List.mem_cons, List.not_mem_nil, or_false] at hs ⊢; tauto)] at h1
    cases h1
  · simp at hs
  · simp at hs

theorem wordOK_no_ell {u : Bool} {w : Str} (h : WordOK u w) : '…' ∉ w := fun hc =>
  wordOK_no_special h hc (by simp)

theorem isSide_chars {u d : Bool} {s : Str} {G : List Elem} (h : IsSide u d s G) {c : Char} (hc : c ∈ s) :
    isSep c ∨ ∃ w ∈ sideWords G, c ∈ w := by
  by_cases hsep : isSep c
  · exact .inl hsep
  · right
    have h1 := h.lexes.count_char c hsep
    have h2 : 0 < s.count c := List.count_pos_iff.2 hc
    rw [h1, List.count_pos_iff, tokChars_flatMap, List.mem_flatten] at h2
    exact h2

theorem isSide_no_special {u d : Bool} {s : Str} {G : List Elem} (h : IsSide u d s G) {c : Char}
    (hc : c ∈ [',', '-', '>', '*', '…']) : c ∉ s := by
  intro hcs
  rcases isSide_chars h hcs with hsep | ⟨w, hw, hcw⟩
  · simp only [List.mem_cons, List.not_mem_nil, or_false] at hc
    unfold isSep at hsep
    rcases hc with rfl | rfl | rfl | rfl | rfl <;> simp at hsep
  · exact wordOK_no_special (h.words_ok w hw) hcw (by
      simp only [List.mem_cons, List.not_mem_nil, or_false] at hc ⊢; tauto)

theorem isSide_no_arrow {u d : Bool} {s : Str} {G : List Elem} (h : IsSide u d s G) : ¬ arrow <:+: s := by
  intro hi
  exact isSide_no_special h (c := '-') (by simp) (hi.subset (by simp [arrow]))

omit [PyUnicode] in
theorem paren_split {ws ws' : List Str} {A B : List Tok}
    (h : ws.map Tok.word ++ .rp :: A = ws'.map Tok.word ++ .rp :: B) : ws = ws' ∧ A = B := by
  induction ws generalizing ws' with
  | nil => cases ws' <;> simp_all
  | cons w ws ih =>
    cases ws' with
    | nil => simp at h
    | cons w' ws' =>
      simp only [List.map_cons, List.cons_append, List.cons.injEq, Tok.word.injEq] at h
      obtain ⟨h1, h2⟩ := ih h.2
      exact ⟨by rw [h.1, h1], h2⟩

omit [PyUnicode] in
/-- tokens determine the structure -/
theorem toks_inj {G G' : List Elem} (h : G.flatMap Elem.toks = G'.flatMap Elem.toks) : G = G' := by
  induction G generalizing G' with
  | nil =>
    cases G' with
    | nil => rfl
    | cons e G' => cases e <;> simp [Elem.toks] at h
  | cons e G ih =>
    cases G' with
    | nil => cases e <;> simp [Elem.toks] at h
    | cons e' G' =>
      cases e with
      | bare w =>
        cases e' with
        | bare w' =>
          simp only [List.flatMap_cons, Elem.toks, List.cons_append, List.nil_append, List.cons.injEq,
            Tok.word.injEq] at h
          rw [h.1, ih h.2]
        | paren ws' => simp [Elem.toks] at h
      | paren ws =>
        cases e' with
        | bare w' => simp [Elem.toks] at h
        | paren ws' =>
          simp only [List.flatMap_cons, Elem.toks, List.cons_append, List.append_assoc, List.nil_append,
            List.cons.injEq, true_and] at h
          obtain ⟨h1, h2⟩ := paren_split h
          rw [h1, ih h2]

theorem IsSide.unique {u d u' d' : Bool} {s : Str} {G G' : List Elem} (h : IsSide u d s G) (h' : IsSide u' d' s G') :
    G = G' := toks_inj (h.lexes.unique h'.lexes)

/-! ### axes of words -/

section
variable {side : Nat}

theorem str_mem_wordAxes {k : Nat} {w s : Str} :
    Axis.str s ∈ wordAxes side k w ↔ (w = dots ∧ s = ellipsisStr) ∨ (w ≠ dots ∧ ¬ IsNumber w ∧ s = w) := by
  unfold wordAxes
  by_cases h1 : w = dots
  · simp [h1]
  · rw [if_neg h1]
    by_cases h2 : IsNumber w
    · rw [if_pos h2]
      split <;> simp [h1, h2]
    · rw [if_neg h2]; simp [h1, h2]

theorem anon_mem_wordAxes {k : Nat} {w : Str} {sd i v : Nat} :
    Axis.anon sd i v ∈ wordAxes side k w ↔
      sd = side ∧ i = k ∧ IsNumber w ∧ decimalValue w ≠ 1 ∧ v = decimalValue w := by
  unfold wordAxes
  by_cases h1 : w = dots
  · rw [if_pos h1]
    simp only [List.mem_singleton, reduceCtorEq, false_iff, not_and]
    intro _ _ h
    exact absurd h1 (number_ne_dots h)
  · rw [if_neg h1]
    by_cases h2 : IsNumber w
    · rw [if_pos h2]
      split
      · rename_i h; simp [h]
      · rename_i h; simp [h, h2]
    · rw [if_neg h2]; simp [h2]

theorem mem_wordsAxes {k : Nat} {ws : List Str} {a : Axis} :
    a ∈ wordsAxes side k ws ↔ ∃ i, ∃ h : i < ws.length, a ∈ wordAxes side (k + i) ws[i] := by
  induction ws generalizing k with
  | nil => simp [wordsAxes]
  | cons w ws ih =>
    rw [wordsAxes, List.mem_append, ih]
    constructor
    · rintro (h | ⟨i, hi, h⟩)
      · exact ⟨0, by simp, by simpa using h⟩
      · exact ⟨i + 1, by simpa using hi, by simpa [Nat.add_assoc, Nat.add_comm 1] using h⟩
    · rintro ⟨i, hi, h⟩
      cases i with
      | zero => exact .inl (by simpa using h)
      | succ i => exact .inr ⟨i, by simpa using hi, by simpa [Nat.add_assoc, Nat.add_comm 1] using h⟩

theorem str_mem_wordsAxes {k : Nat} {ws : List Str} {s : Str} :
    Axis.str s ∈ wordsAxes side k ws ↔ ∃ w ∈ ws, (w = dots ∧ s = ellipsisStr) ∨ (w ≠ dots ∧ ¬ IsNumber w ∧ s = w) := by
  rw [mem_wordsAxes]
  simp only [str_mem_wordAxes]
  constructor
  · rintro ⟨i, hi, h⟩; exact ⟨_, List.getElem_mem hi, h⟩
  · rintro ⟨w, hw, h⟩
    obtain ⟨i, hi, rfl⟩ := List.getElem_of_mem hw
    exact ⟨i, hi, h⟩

theorem anon_mem_wordsAxes {k : Nat} {ws : List Str} {sd i v : Nat} (h : Axis.anon sd i v ∈ wordsAxes side k ws) :
    sd = side ∧ k ≤ i ∧ ∃ hi : i - k < ws.length, IsNumber ws[i - k] ∧ decimalValue ws[i - k] ≠ 1 ∧
      v = decimalValue ws[i - k] := by
  rw [mem_wordsAxes] at h
  obtain ⟨j, hj, h⟩ := h
  rw [anon_mem_wordAxes] at h
  obtain ⟨h1, h2, h3, h4, h5⟩ := h
  refine ⟨h1, by omega, ?_⟩
  have : i - k = j := by omega
  subst this
  exact ⟨hj, h3, h4, h5⟩

theorem marker_mem_wordsAxes {k : Nat} {ws : List Str} (hws : ∀ w ∈ ws, '…' ∉ w) :
    Axis.str ellipsisStr ∈ wordsAxes side k ws ↔ dots ∈ ws := by
  rw [str_mem_wordsAxes]
  constructor
  · rintro ⟨w, hw, ⟨rfl, _⟩ | ⟨_, _, h⟩⟩
    · exact hw
    · exact absurd (by rw [← h]; simp [ellipsisStr]) (hws w hw)
  · intro h; exact ⟨dots, h, .inl ⟨rfl, rfl⟩⟩

theorem dots_not_number : ¬ IsNumber dots := fun h => number_ne_dots h rfl

theorem wordsAxes_nodup {k : Nat} {ws : List Str} (hws : ∀ w ∈ ws, '…' ∉ w)
    (hn : (ws.filter (unrepeatable false)).Nodup) : (wordsAxes side k ws).Nodup := by
  induction ws generalizing k with
  | nil => simp [wordsAxes]
  | cons w ws ih =>
    have hws' : ∀ v ∈ ws, '…' ∉ v := fun v hv => hws v (by simp [hv])
    have hn' : (ws.filter (unrepeatable false)).Nodup :=
      hn.sublist ((List.sublist_cons_self w ws).filter _)
    rw [wordsAxes, List.nodup_append]
    refine ⟨?_, ih hws' hn', ?_⟩
    · unfold wordAxes; split_ifs <;> simp
    · rintro a ha b hb rfl
      cases a with
      | anon sd i v =>
        have h1 := (anon_mem_wordAxes.1 ha).2.1
        have h2 := (anon_mem_wordsAxes hb).2.1
        omega
      | str s =>
        have hrep : ¬ IsNumber w → w ∈ ws → False := by
          intro h1 h2
          have hu : unrepeatable false w = true := by simp [unrepeatable, h1]
          rw [List.filter_cons_of_pos hu, List.nodup_cons] at hn
          exact hn.1 (List.mem_filter.2 ⟨h2, hu⟩)
        rcases str_mem_wordAxes.1 ha with ⟨h1, h2⟩ | ⟨h1, h2, h3⟩
        · subst h1 h2
          rw [marker_mem_wordsAxes hws'] at hb
          exact hrep dots_not_number hb
        · subst h3
          obtain ⟨v, hv, ⟨_, h5⟩ | ⟨_, _, h6⟩⟩ := str_mem_wordsAxes.1 hb
          · have := hws s (by simp)
            rw [h5] at this
            simp [ellipsisStr] at this
          · subst h6
            exact hrep h2 hv

end

omit [PyUnicode] in
theorem foldl_setAdd_nodup (l init : List Axis) (h : init.Nodup) : (l.foldl setAdd init).Nodup := by
  induction l generalizing init with
  | nil => exact h
  | cons a l ih =>
    rw [List.foldl_cons]
    apply ih
    unfold setAdd
    split
    · exact h
    · rename_i hn
      rw [List.nodup_append]
      refine ⟨h, by simp, ?_⟩
      intro x hx y hy hxy
      simp only [List.mem_singleton] at hy
      subst hy hxy
      exact hn hx

theorem mem_expandIds {ell ids : List Axis} {a : Axis} :
    a ∈ expandIds ell ids ↔ a ≠ .str ellipsisStr ∧ (a ∈ ids ∨ a ∈ ell) := by
  unfold expandIds
  rw [List.mem_filter, mem_foldl_setAdd]
  simp only [decide_eq_true_eq]
  exact and_comm

omit [PyUnicode] in
theorem expandRight_eq (ell : List Axis) (c : List CompAxis) : expandRight ell c = spread ell c := by
  induction c with
  | nil => rfl
  | cons x c ih =>
    unfold expandRight at *
    cases x with
    | ell => simp [spread, ih]
    | group g => simp [spread, ih]

/-- no marker inside a group -/
def noGroupEll (c : List CompAxis) : Prop := ∀ g, CompAxis.group g ∈ c → Axis.str ellipsisStr ∉ g

omit [PyUnicode] in
theorem flatMap_sub_id {ell g : List Axis} (h : Axis.str ellipsisStr ∉ g) :
    g.flatMap (fun a => if a = .str ellipsisStr then ell else [a]) = g := by
  induction g with
  | nil => rfl
  | cons a g ih =>
    have h1 : a ≠ .str ellipsisStr := fun h' => h (by simp [h'])
    rw [List.flatMap_cons, ih (fun h' => h (by simp [h'])), if_neg h1]
    rfl

omit [PyUnicode] in
theorem expandLeft_eq {ell : List Axis} {c : List CompAxis} (h : noGroupEll c) : expandLeft ell c = spread ell c := by
  induction c with
  | nil => rfl
  | cons x c ih =>
    have ih' := ih (fun g hg => h g (by simp [hg]))
    unfold expandLeft at *
    cases x with
    | ell => simp [spread, ih']
    | group g =>
      simp only [List.flatMap_cons, spread, ih', flatMap_sub_id (h g (by simp))]
      rfl

omit [PyUnicode] in
theorem axes_eq_spread {c : List CompAxis} (h : noGroupEll c) (hell : CompAxis.ell ∉ c) (ell : List Axis) :
    c.map CompAxis.axes = spread ell c := by
  induction c with
  | nil => rfl
  | cons x c ih =>
    have ih' := ih (fun g hg => h g (by simp [hg])) (fun h' => hell (by simp [h']))
    cases x with
    | ell => simp at hell
    | group g =>
      simp only [List.map_cons, spread, ih', flatMap_sub_id (h g (by simp))]
      rfl

theorem denote_ell {side k : Nat} {G : List Elem} : CompAxis.ell ∈ denote side k G ↔ Elem.bare dots ∈ G := by
  induction G generalizing k with
  | nil => simp [denote]
  | cons e G ih =>
    cases e with
    | bare w =>
      simp only [denote, List.mem_cons, ih, Elem.bare.injEq]
      refine or_congr ?_ Iff.rfl
      split
      · rename_i h; simp [h]
      · rename_i h; simp [Ne.symm h]
    | paren ws => simp [denote, ih]

theorem denote_noGroupEll {side k : Nat} {G : List Elem} (hws : ∀ w ∈ sideWords G, '…' ∉ w)
    (hp : ∀ ws, Elem.paren ws ∈ G → dots ∉ ws) : noGroupEll (denote side k G) := by
  induction G generalizing k with
  | nil => intro g hg; simp [denote] at hg
  | cons e G ih =>
    unfold sideWords at *
    have ih' := fun k => ih (k := k) (fun w hw => hws w (by simp only [List.flatMap_cons, List.mem_append]; exact .inr hw))
      (fun ws hws' => hp ws (by simp [hws']))
    intro g hg
    cases e with
    | bare w =>
      simp only [denote, List.mem_cons] at hg
      rcases hg with h | h
      · split at h
        · cases h
        · rename_i hw
          cases h
          rw [str_mem_wordAxes]
          rintro (⟨h1, _⟩ | ⟨_, _, h1⟩)
          · exact hw h1
          · have := hws w (by simp [Elem.words])
            rw [← h1] at this
            simp [ellipsisStr] at this
      · exact ih' _ g h
    | paren ws =>
      simp only [denote, List.mem_cons] at hg
      rcases hg with h | h
      · cases h
        rw [marker_mem_wordsAxes (fun w hw => hws w (by simp [Elem.words, hw]))]
        exact hp ws (by simp)
      · exact ih' _ g h

/-- length after expansion of one bare ellipsis -/
theorem spread_length {side k : Nat} {G : List Elem} (ell : List Axis) :
    (spread ell (denote side k G)).length + G.count (.bare dots) = G.length + G.count (.bare dots) * ell.length := by
  induction G generalizing k with
  | nil => simp [denote, spread]
  | cons e G ih =>
    cases e with
    | bare w =>
      by_cases h : w = dots
      · subst h
        simp only [denote, if_true, spread, List.length_append, List.length_map, List.count_cons_self, List.length_cons]
        have := ih (k := k + 1)
        ring_nf at this ⊢
        omega
      · have h' : ¬ Elem.bare w = Elem.bare dots := fun h' => h (by simpa using h')
        rw [List.count_cons_of_ne h']
        simp only [denote, if_neg h, spread, List.length_cons]
        have := ih (k := k + 1)
        omega
    | paren ws =>
      rw [List.count_cons_of_ne (by simp)]
      simp only [denote, spread, List.length_cons]
      have := ih (k := k + ws.length)
      omega

omit [PyUnicode] in
theorem count_bare_le {G : List Elem} (h : (sideWords G).count dots ≤ 1) : G.count (.bare dots) ≤ (sideWords G).count dots := by
  clear h
  unfold sideWords
  induction G with
  | nil => simp
  | cons e G ih =>
    cases e with
    | bare w =>
      simp only [List.flatMap_cons, List.count_append, Elem.words, List.count_cons, List.count_nil]
      by_cases hw : w = dots
      · simp [hw]; omega
      · simp [hw]; omega
    | paren ws =>
      simp only [List.flatMap_cons, List.count_append, Elem.words]
      rw [List.count_cons_of_ne (by simp)]
      omega

omit [PyUnicode] in
/-- recorded position of the ellipsis -/
theorem ellPos_paren {G : List Elem} (h1 : (sideWords G).count dots ≤ 1) :
    ellPos G none = some true ↔ ∃ ws, Elem.paren ws ∈ G ∧ dots ∈ ws := by
  unfold ellPos
  simp only
  induction G using List.reverseRecOn with
  | nil => simp
  | append_singleton G e ih =>
    have hc : (sideWords (G ++ [e])).count dots = (sideWords G).count dots + e.words.count dots := by
      simp [sideWords]
    rw [List.foldl_append, List.foldl_cons, List.foldl_nil]
    have hnone : (sideWords G).count dots = 0 → ¬ ∃ ws, Elem.paren ws ∈ G ∧ dots ∈ ws := by
      rintro h0 ⟨ws, hws, hd⟩
      rw [List.count_eq_zero] at h0
      exact h0 (List.mem_flatMap.2 ⟨_, hws, by simpa [Elem.words] using hd⟩)
    have ih' := ih (by omega)
    cases e with
    | bare w =>
      by_cases hw : w = dots
      · subst hw
        simp only [if_true]
        have h0 : (sideWords G).count dots = 0 := by
          simp only [Elem.words, List.count_singleton_self] at hc
          omega
        have := hnone h0
        simp only [Option.some.injEq, Bool.false_eq_true, List.mem_append, List.mem_singleton, reduceCtorEq, or_false,
          false_iff]
        exact this
      · simp only [hw, if_false]
        rw [ih']
        simp
    | paren ws =>
      by_cases hw : dots ∈ ws
      · simp only [hw, if_true, true_iff]
        exact ⟨ws, by simp, hw⟩
      · simp only [hw, if_false]
        rw [ih']
        constructor
        · rintro ⟨v, hv, hd⟩; exact ⟨v, by simp [hv], hd⟩
        · rintro ⟨v, hv, hd⟩
          simp only [List.mem_append, List.mem_singleton, Elem.paren.injEq] at hv
          rcases hv with hv | rfl
          · exact ⟨v, hv, hd⟩
          · exact absurd hd hw

end Einops
