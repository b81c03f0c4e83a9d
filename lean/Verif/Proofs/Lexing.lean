import Verif.PatternSpec

/-! Facts about `Lexes` and about the Python string functions used by the parser. -/

namespace Einops

theorem lexes_exists (s : Str) : ∃ ts, Lexes s ts := by
  induction h : s.length using Nat.strongRecOn generalizing s with
  | _ n ih =>
    cases s with
    | nil => exact ⟨[], .nil⟩
    | cons c cs =>
      by_cases hc : isSep c
      · obtain ⟨ts, hts⟩ := ih cs.length (by simp at h; omega) cs rfl
        rcases hc with rfl | rfl | rfl
        · exact ⟨_, .lp hts⟩
        · exact ⟨_, .rp hts⟩
        · exact ⟨_, .space hts⟩
      · have hlen : ((c :: cs).dropWhile (fun c => ¬ isSep c)).length < n := by
          simp only [List.dropWhile_cons, hc, not_false_eq_true, decide_true, if_true]
          have := (List.dropWhile_suffix (fun c => decide (¬ isSep c)) (l := cs)).length_le
          simp at h; omega
        obtain ⟨ts, hts⟩ := ih _ hlen _ rfl
        refine ⟨.word ((c :: cs).takeWhile (fun c => ¬ isSep c)) :: ts, ?_⟩
        rw [← List.takeWhile_append_dropWhile (p := fun c => decide (¬ isSep c)) (l := c :: cs)]
        rw [List.takeWhile_append_dropWhile]
        have := Lexes.word (w := (c :: cs).takeWhile (fun c => ¬ isSep c)) (by simp [hc])
          (fun a ha => by simpa using List.mem_takeWhile_imp ha) (fun a ha => by
            have := List.head?_dropWhile_not (fun c => decide (¬ isSep c)) (c :: cs)
            rw [ha] at this
            simpa using this) hts
        rwa [List.takeWhile_append_dropWhile] at this

theorem word_unique {w w' s s' : Str} (hw : ∀ c ∈ w, ¬ isSep c) (hs : ∀ c ∈ s.head?, isSep c)
    (hw' : ∀ c ∈ w', ¬ isSep c) (hs' : ∀ c ∈ s'.head?, isSep c) (h : w ++ s = w' ++ s') : w = w' ∧ s = s' := by
  induction w generalizing w' with
  | nil =>
    cases w' with
    | nil => exact ⟨rfl, by simpa using h⟩
    | cons c cs =>
      simp at h
      subst h
      exact absurd (hs c (by simp)) (hw' c (by simp))
  | cons a as ih =>
    cases w' with
    | nil =>
      simp at h
      subst h
      exact absurd (hs' a (by simp)) (hw a (by simp))
    | cons c cs =>
      simp at h
      obtain ⟨rfl, h⟩ := h
      obtain ⟨h1, h2⟩ := ih (fun c hc => hw c (by simp [hc])) (fun c hc => hw' c (by simp [hc])) h
      exact ⟨by rw [h1], h2⟩

theorem Lexes.unique {s : Str} {ts ts' : List Tok} (h : Lexes s ts) (h' : Lexes s ts') : ts = ts' := by
  induction h generalizing ts' with
  | nil =>
    generalize hs : ([] : Str) = s at h'
    cases h' with
    | nil => rfl
    | space _ => simp at hs
    | lp _ => simp at hs
    | rp _ => simp at hs
    | word h1 _ _ _ => simp at hs; exact absurd hs.1 h1
  | @space s ts h ih =>
    generalize hs : (' ' :: s) = s' at h'
    cases h' with
    | nil => simp at hs
    | space h2 => simp at hs; subst hs; exact ih h2
    | lp h2 => simp at hs
    | rp h2 => simp at hs
    | @word w s2 _ h1 h2 h3 h4 =>
      cases w with
      | nil => exact absurd rfl h1
      | cons c cs => simp at hs; exact absurd (Or.inr (Or.inr hs.1.symm)) (h2 c (by simp))
  | @lp s ts h ih =>
    generalize hs : ('(' :: s) = s' at h'
    cases h' with
    | nil => simp at hs
    | space h2 => simp at hs
    | lp h2 => simp at hs; subst hs; rw [ih h2]
    | rp h2 => simp at hs
    | @word w s2 _ h1 h2 h3 h4 =>
      cases w with
      | nil => exact absurd rfl h1
      | cons c cs => simp at hs; exact absurd (Or.inl hs.1.symm) (h2 c (by simp))
  | @rp s ts h ih =>
    generalize hs : (')' :: s) = s' at h'
    cases h' with
    | nil => simp at hs
    | space h2 => simp at hs
    | lp h2 => simp at hs
    | rp h2 => simp at hs; subst hs; rw [ih h2]
    | @word w s2 _ h1 h2 h3 h4 =>
      cases w with
      | nil => exact absurd rfl h1
      | cons c cs => simp at hs; exact absurd (Or.inr (Or.inl hs.1.symm)) (h2 c (by simp))
  | @word w s ts h1 h2 h3 h ih =>
    generalize hs : (w ++ s) = s' at h'
    cases h' with
    | nil => simp at hs; exact absurd hs.1 h1
    | space h2' =>
      cases w with
      | nil => exact absurd rfl h1
      | cons c cs => simp at hs; exact absurd (Or.inr (Or.inr hs.1)) (h2 c (by simp))
    | lp h2' =>
      cases w with
      | nil => exact absurd rfl h1
      | cons c cs => simp at hs; exact absurd (Or.inl hs.1) (h2 c (by simp))
    | rp h2' =>
      cases w with
      | nil => exact absurd rfl h1
      | cons c cs => simp at hs; exact absurd (Or.inr (Or.inl hs.1)) (h2 c (by simp))
    | @word w' s2 _ h1' h2' h3' h4' =>
      obtain ⟨rfl, rfl⟩ := word_unique h2 h3 h2' h3' hs
      rw [ih h4']

theorem Lexes.append {s r : Str} {ts tr : List Tok} (h : Lexes s ts) (hl : ∀ c ∈ s.getLast?, isSep c)
    (hr : Lexes r tr) : Lexes (s ++ r) (ts ++ tr) := by
  induction h with
  | nil => exact hr
  | @space s ts h ih =>
    refine .space (ih ?_)
    cases s with
    | nil => simp
    | cons c cs => simpa [List.getLast?_cons_cons] using hl
  | @lp s ts h ih =>
    refine .lp (ih ?_)
    cases s with
    | nil => simp
    | cons c cs => simpa [List.getLast?_cons_cons] using hl
  | @rp s ts h ih =>
    refine .rp (ih ?_)
    cases s with
    | nil => simp
    | cons c cs => simpa [List.getLast?_cons_cons] using hl
  | @word w s ts h1 h2 h3 h ih =>
    cases s with
    | nil =>
      simp only [List.append_nil] at hl
      have hm := List.getLast_mem h1
      exact absurd (hl _ (by rw [List.getLast?_eq_getLast_of_ne_nil h1]; simp)) (h2 _ hm)
    | cons c cs =>
      rw [List.append_assoc, List.cons_append]
      refine .word h1 h2 (by simpa using h3) ?_
      rw [← List.cons_append]
      refine ih ?_
      rw [List.getLast?_append_of_ne_nil _ (by simp)] at hl
      exact hl

/-- all characters of the words of a token list -/
def tokChars : List Tok → List Char
  | [] => []
  | .word w :: ts => w ++ tokChars ts
  | .lp :: ts => tokChars ts
  | .rp :: ts => tokChars ts

theorem tokChars_append (a b : List Tok) : tokChars (a ++ b) = tokChars a ++ tokChars b := by
  induction a with
  | nil => rfl
  | cons t ts ih => cases t <;> simp [tokChars, ih]

theorem Lexes.chars {s : Str} {ts : List Tok} (h : Lexes s ts) {c : Char} (hc : c ∈ tokChars ts) : c ∈ s := by
  induction h with
  | nil => simp [tokChars] at hc
  | space _ ih => simp [ih hc]
  | lp _ ih => simp [ih hc]
  | rp _ ih => simp [ih hc]
  | word _ _ _ _ ih =>
    simp only [tokChars, List.mem_append] at hc
    rcases hc with hc | hc
    · simp [hc]
    · simp [ih hc]

theorem mem_tokChars {w : Str} {ts : List Tok} (h : Tok.word w ∈ ts) {c : Char} (hc : c ∈ w) : c ∈ tokChars ts := by
  induction ts with
  | nil => simp at h
  | cons t ts ih =>
    rcases List.mem_cons.1 h with rfl | h'
    · simp [tokChars, hc]
    · have := ih h'
      cases t <;> simp [tokChars, this]

/-- Replacing a piece of non-separator characters changes one word only. -/
theorem lexes_insert (p q : Str) : ∃ ts1 a b ts2, ∀ m : Str, m ≠ [] → (∀ c ∈ m, ¬ isSep c) →
    Lexes (p ++ m ++ q) (ts1 ++ .word (a ++ m ++ b) :: ts2) := by
  -- p = p0 ++ a
  obtain ⟨p0, a, rfl, ha, hp0⟩ : ∃ p0 a, p = p0 ++ a ∧ (∀ c ∈ a, ¬ isSep c) ∧ (∀ c ∈ p0.getLast?, isSep c) := by
    induction p using List.reverseRecOn with
    | nil => exact ⟨[], [], rfl, by simp, by simp⟩
    | append_singleton p c ih =>
      obtain ⟨p0, a, rfl, ha, hp0⟩ := ih
      by_cases hc : isSep c
      · exact ⟨p0 ++ a ++ [c], [], by simp, by simp, by simp [hc]⟩
      · refine ⟨p0, a ++ [c], by simp, ?_, hp0⟩
        intro d hd
        rcases List.mem_append.1 hd with hd | hd
        · exact ha d hd
        · rw [List.mem_singleton.1 hd]; exact hc
  obtain ⟨b, q0, rfl, hb, hq0⟩ : ∃ b q0, q = b ++ q0 ∧ (∀ c ∈ b, ¬ isSep c) ∧ (∀ c ∈ q0.head?, isSep c) := by
    induction q with
    | nil => exact ⟨[], [], rfl, by simp, by simp⟩
    | cons c q ih =>
      by_cases hc : isSep c
      · exact ⟨[], c :: q, rfl, by simp, by simp [hc]⟩
      · obtain ⟨b, q0, rfl, hb, hq0⟩ := ih
        refine ⟨c :: b, q0, rfl, ?_, hq0⟩
        intro d hd
        rcases List.mem_cons.1 hd with rfl | hd
        · exact hc
        · exact hb d hd
  obtain ⟨ts1, h1⟩ := lexes_exists p0
  obtain ⟨ts2, h2⟩ := lexes_exists q0
  refine ⟨ts1, a, b, ts2, fun m hm hms => ?_⟩
  have : p0 ++ a ++ m ++ (b ++ q0) = p0 ++ ((a ++ m ++ b) ++ q0) := by simp
  rw [this]
  refine h1.append hp0 (.word (by simp [hm]) ?_ hq0 h2)
  intro c hc
  simp only [List.mem_append] at hc
  rcases hc with (hc | hc) | hc
  · exact ha c hc
  · exact hms c hc
  · exact hb c hc

/-! ### `split`, `count`, `replace`, `in` -/

theorem containsSub_iff {sep s : Str} : containsSub sep s = true ↔ sep <:+: s := by
  unfold containsSub
  simp only [List.any_eq_true, List.mem_tails, List.isPrefixOf_iff_prefix]
  constructor
  · rintro ⟨t, ht, hp⟩
    exact hp.isInfix.trans ht.isInfix
  · rintro ⟨a, b, h⟩
    exact ⟨sep ++ b, ⟨a, by simpa using h⟩, ⟨b, rfl⟩⟩

theorem splitGo_single_length (c : Char) (s acc : Str) : (splitGo [c] 0 s acc).length = s.count c + 1 := by
  induction s generalizing acc with
  | nil => simp [splitGo]
  | cons a as ih =>
    simp only [splitGo]
    by_cases h : a = c
    · subst h
      simp [List.isPrefixOf, ih]
    · have h' : c ≠ a := fun h' => h h'.symm
      simp [List.isPrefixOf, h', ih, h]

theorem countSub_single (c : Char) (s : Str) : countSub [c] s = s.count c := by
  simp [countSub, splitOn, splitGo_single_length]

theorem splitGo_notin {sep : Str} {c0 : Char} {sep' : Str} (hsep : sep = c0 :: sep') (q acc : Str) (hq : c0 ∉ q) :
    splitGo sep 0 q acc = [acc.reverse ++ q] := by
  subst hsep
  induction q generalizing acc with
  | nil => simp [splitGo]
  | cons a as ih =>
    have h1 : c0 ≠ a := fun h => hq (by simp [h])
    have h2 : c0 ∉ as := fun h => hq (by simp [h])
    simp [splitGo, List.isPrefixOf, h1, ih (a :: acc) h2]

theorem splitGo_skip (sep w q acc : Str) : splitGo sep w.length (w ++ q) acc = splitGo sep 0 q acc := by
  induction w with
  | nil => rfl
  | cons a as ih => simpa [splitGo] using ih

theorem splitGo_app {sep : Str} {c0 : Char} {sep' : Str} (hsep : sep = c0 :: sep') (p q acc : Str) (hp : c0 ∉ p) :
    splitGo sep 0 (p ++ sep ++ q) acc = (acc.reverse ++ p) :: splitGo sep 0 q [] := by
  induction p generalizing acc with
  | nil =>
    subst hsep
    simp only [List.nil_append, List.cons_append, splitGo]
    have : (c0 :: sep').isPrefixOf (c0 :: (sep' ++ q)) = true := by
      rw [List.isPrefixOf_iff_prefix]; exact ⟨q, by simp⟩
    rw [if_pos this]
    simp only [List.length_cons, Nat.add_sub_cancel, List.append_nil]
    congr 1
    rw [splitGo_skip]
  | cons a as ih =>
    have h1 : c0 ≠ a := fun h => hp (by simp [h])
    have h2 : c0 ∉ as := fun h => hp (by simp [h])
    subst hsep
    simp only [List.cons_append, splitGo]
    rw [if_neg (by simp [List.isPrefixOf, h1])]
    have := ih (a :: acc) h2
    simpa using this

theorem prepareDots_nodots {s : Str} (h : '.' ∉ s) : prepareDots s = .ok (false, s) := by
  have : containsSub ['.'] s = false := by
    rw [Bool.eq_false_iff]; intro h'
    rw [containsSub_iff] at h'
    obtain ⟨a, b, rfl⟩ := h'
    simp at h
  simp [prepareDots, this]

theorem prepareDots_one {p q : Str} (hp : '.' ∉ p) (hq : '.' ∉ q) :
    prepareDots (p ++ dots ++ q) = .ok (true, p ++ ellipsisStr ++ q) := by
  have h1 : containsSub ['.'] (p ++ dots ++ q) = true := containsSub_iff.2 ⟨p, ['.', '.'] ++ q, by simp [dots]⟩
  have h2 : containsSub ['.', '.', '.'] (p ++ dots ++ q) = true := containsSub_iff.2 ⟨p, q, by simp [dots]⟩
  have h3 : splitOn ['.', '.', '.'] (p ++ dots ++ q) = [p, q] := by
    have := splitGo_app (sep := ['.', '.', '.']) rfl p q [] hp
    rw [splitGo_notin rfl q [] hq] at this
    simpa [splitOn, dots] using this
  have h4 : countSub ['.'] (p ++ dots ++ q) = 3 := by
    rw [countSub_single]
    simp [dots, List.count_eq_zero_of_not_mem hp, List.count_eq_zero_of_not_mem hq]
  have h5 : countSub ['.', '.', '.'] (p ++ dots ++ q) = 1 := by rw [countSub, h3]; rfl
  simp only [prepareDots, h1, h2, h4, h5, h3, replaceSub]
  simp [List.intercalate]

/-- The three outcomes of the treatment of dots. -/
theorem prepareDots_cases (s : Str) :
    ('.' ∉ s ∧ prepareDots s = .ok (false, s)) ∨
    (∃ p q, s = p ++ dots ++ q ∧ '.' ∉ p ∧ '.' ∉ q ∧ prepareDots s = .ok (true, p ++ ellipsisStr ++ q)) ∨
    ('.' ∈ s ∧ (¬ ∃ p q, s = p ++ dots ++ q ∧ '.' ∉ p ∧ '.' ∉ q) ∧ prepareDots s = .error .einops) := by
  by_cases h : '.' ∈ s
  · right
    by_cases h' : ∃ p q, s = p ++ dots ++ q ∧ '.' ∉ p ∧ '.' ∉ q
    · left
      obtain ⟨p, q, rfl, hp, hq⟩ := h'
      exact ⟨p, q, rfl, hp, hq, prepareDots_one hp hq⟩
    · right
      refine ⟨h, h', ?_⟩
      have h1 : containsSub ['.'] s = true := by
        rw [containsSub_iff]
        obtain ⟨a, b, rfl⟩ := List.append_of_mem h
        exact ⟨a, b, by simp⟩
      unfold prepareDots
      rw [if_pos h1]
      split
      · rfl
      · rename_i h2
        simp only [Bool.not_eq_true, Bool.not_eq_false'] at h2
        split
        · rfl
        · rename_i h3
          exfalso
          apply h'
          simp only [ne_eq, not_or, not_not, countSub_single] at h3
          have h2' := containsSub_iff.1 (by simpa using h2)
          obtain ⟨p, q, rfl⟩ := h2'
          refine ⟨p, q, by simp [dots], ?_, ?_⟩
          · intro hp
            have := List.count_pos_iff.2 hp
            have h4 := h3.2
            simp at h4
            omega
          · intro hp
            have := List.count_pos_iff.2 hp
            have h4 := h3.2
            simp at h4
            omega
  · left
    exact ⟨h, prepareDots_nodots h⟩

end Einops
