import Verif.Proofs.Lexing
import Verif.Recipe

/-! `pattern.split("->")`. -/

namespace Einops

/-- the separator of the two sides -/
def arrow : Str := ['-', '>']

theorem splitGo_arrow_none (s acc : Str) (h : ¬ arrow <:+: s) : splitGo arrow 0 s acc = [acc.reverse ++ s] := by
  induction s generalizing acc with
  | nil => simp [splitGo]
  | cons c cs ih =>
    have h1 : ¬ arrow.isPrefixOf (c :: cs) = true := by
      rw [List.isPrefixOf_iff_prefix]
      exact fun hp => h hp.isInfix
    have h2 : ¬ arrow <:+: cs := fun hi => h (hi.trans (List.suffix_cons c cs).isInfix)
    simp only [splitGo, h1, if_false, ih (c :: acc) h2]
    simp

theorem splitGo_arrow_some (l q acc : Str) (h : ¬ arrow <:+: l) :
    splitGo arrow 0 (l ++ arrow ++ q) acc = (acc.reverse ++ l) :: splitGo arrow 0 q [] := by
  induction l generalizing acc with
  | nil =>
    have h1 : arrow.isPrefixOf ('-' :: '>' :: q) = true := by
      rw [List.isPrefixOf_iff_prefix]; exact ⟨q, rfl⟩
    simp only [List.nil_append, arrow, List.cons_append]
    rw [splitGo, show ['-', '>'] = arrow from rfl, if_pos h1]
    simp [arrow, splitGo]
  | cons c cs ih =>
    have h1 : ¬ arrow.isPrefixOf (c :: (cs ++ arrow ++ q)) = true := by
      rw [List.isPrefixOf_iff_prefix]
      intro hp
      cases cs with
      | nil =>
        obtain ⟨t, ht⟩ := hp
        simp only [arrow, List.cons_append, List.nil_append, List.cons.injEq] at ht
        exact absurd ht.2.1 (by decide)
      | cons c' cs =>
        obtain ⟨t, ht⟩ := hp
        simp only [arrow, List.cons_append, List.nil_append, List.cons.injEq] at ht
        apply h
        exact ⟨[], cs, by simp only [arrow, List.nil_append, List.cons_append, List.cons.injEq, and_true]; exact ⟨ht.1, ht.2.1⟩⟩
    have h2 : ¬ arrow <:+: cs := fun hi => h (hi.trans (List.suffix_cons c cs).isInfix)
    rw [List.cons_append, List.cons_append, splitGo, if_neg h1, ih (c :: acc) h2]
    simp

/-- a string splits at its first arrow -/
theorem first_arrow (s : Str) (h : arrow <:+: s) : ∃ l q, s = l ++ arrow ++ q ∧ ¬ arrow <:+: l := by
  induction s with
  | nil => obtain ⟨a, b, hab⟩ := h; simp [arrow] at hab
  | cons c cs ih =>
    by_cases hp : arrow <+: c :: cs
    · obtain ⟨t, ht⟩ := hp
      refine ⟨[], t, by simpa using ht.symm, ?_⟩
      rintro ⟨a, b, hab⟩
      simp [arrow] at hab
    · have hi : arrow <:+: cs := by
        rcases List.infix_cons_iff.1 h with h | h
        · exact absurd h hp
        · exact h
      obtain ⟨l, q, rfl, hl⟩ := ih hi
      refine ⟨c :: l, q, by simp, ?_⟩
      intro hc
      rcases List.infix_cons_iff.1 hc with hc | hc
      · apply hp
        obtain ⟨t, ht⟩ := hc
        exact ⟨t ++ arrow ++ q, by rw [← List.append_assoc, ← List.append_assoc, ht]; simp⟩
      · exact hl hc

theorem splitGo_ne_nil (sep s acc : Str) (k : Nat) : splitGo sep k s acc ≠ [] := by
  induction s generalizing acc k with
  | nil => cases k <;> simp [splitGo]
  | cons c cs ih =>
    cases k with
    | zero => simp only [splitGo]; split <;> simp [ih]
    | succ k => simpa [splitGo] using ih acc k

theorem splitArrow_iff {pattern l r : Str} :
    splitArrow pattern = .ok (l, r) ↔ pattern = l ++ arrow ++ r ∧ ¬ arrow <:+: l ∧ ¬ arrow <:+: r := by
  constructor
  · intro h
    unfold splitArrow at h
    split at h
    · rename_i l' r' hs
      cases h
      have hinf : arrow <:+: pattern := by
        by_contra hc
        have := splitGo_arrow_none pattern [] hc
        rw [show splitOn ['-', '>'] pattern = splitGo arrow 0 pattern [] from rfl, this] at hs
        simp at hs
      obtain ⟨l1, q, rfl, hl1⟩ := first_arrow pattern hinf
      rw [show splitOn ['-', '>'] (l1 ++ arrow ++ q) = splitGo arrow 0 (l1 ++ arrow ++ q) [] from rfl,
        splitGo_arrow_some _ _ _ hl1] at hs
      simp only [List.reverse_nil, List.nil_append, List.cons.injEq] at hs
      obtain ⟨rfl, hs⟩ := hs
      have hq : ¬ arrow <:+: q := by
        intro hq
        obtain ⟨l2, q2, rfl, hl2⟩ := first_arrow q hq
        rw [splitGo_arrow_some _ _ _ hl2] at hs
        simp [splitGo_ne_nil] at hs
      rw [splitGo_arrow_none _ _ hq] at hs
      simp only [List.reverse_nil, List.nil_append, List.cons.injEq, and_true] at hs
      subst hs
      exact ⟨rfl, hl1, hq⟩
    · cases h
  · rintro ⟨rfl, hl, hr⟩
    unfold splitArrow
    rw [show splitOn ['-', '>'] (l ++ arrow ++ r) = splitGo arrow 0 (l ++ arrow ++ r) [] from rfl,
      splitGo_arrow_some _ _ _ hl, splitGo_arrow_none _ _ hr]
    simp

theorem splitArrow_err {pattern : Str} {e : PyErr} (h : splitArrow pattern = .error e) : e = .value := by
  unfold splitArrow at h
  split at h
  · cases h
  · cases h; rfl

theorem splitArrow_error_iff {pattern : Str} :
    (∃ e, splitArrow pattern = .error e) ↔ ¬ ∃ l r, pattern = l ++ arrow ++ r ∧ ¬ arrow <:+: l ∧ ¬ arrow <:+: r := by
  constructor
  · rintro ⟨e, he⟩ ⟨l, r, h⟩
    rw [splitArrow_iff.2 h] at he
    cases he
  · intro h
    cases hs : splitArrow pattern with
    | error e => exact ⟨e, rfl⟩
    | ok p => exact absurd ⟨p.1, p.2, splitArrow_iff.1 hs⟩ h

end Einops
