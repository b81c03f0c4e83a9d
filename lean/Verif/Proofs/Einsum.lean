import Verif.EinsumSpec
import Verif.Proofs.Prepare
import Verif.Proofs.Algebra
import Mathlib.Data.List.Dedup

/-!
# Proofs about `einsum`
-/

namespace Einops

universe u

/-! ### `split(",")` -/

theorem splitGo_comma (s acc : Str) (hacc : ',' ∉ acc) :
    List.intercalate [','] (splitGo [','] 0 s acc) = acc.reverse ++ s ∧ ∀ p ∈ splitGo [','] 0 s acc, ',' ∉ p := by
  induction s generalizing acc with
  | nil => simp [splitGo, List.intercalate, hacc]
  | cons c s ih =>
    simp only [splitGo]
    by_cases h : c = ','
    · subst h
      obtain ⟨h1, h2⟩ := ih [] (by simp)
      rw [if_pos (by simp)]
      simp only [List.length_singleton, Nat.sub_self]
      refine ⟨?_, ?_⟩
      · rcases hs : splitGo [','] 0 s [] with _ | ⟨p, ps⟩
        · exact absurd hs (splitGo_ne_nil _ _ _ _)
        · rw [hs] at h1
          have e : List.intercalate [','] (acc.reverse :: p :: ps) =
              acc.reverse ++ ',' :: List.intercalate [','] (p :: ps) := by simp [List.intercalate]
          rw [e, h1]
          simp
      · simp only [List.mem_cons]
        rintro p (rfl | hp)
        · simpa using hacc
        · exact h2 p hp
    · rw [if_neg (by simp [List.isPrefixOf]; exact fun hc => h hc.symm)]
      obtain ⟨h1, h2⟩ := ih (c :: acc) (by simp [hacc]; exact fun hc => h hc.symm)
      exact ⟨by rw [h1]; simp, h2⟩

theorem splitGo_piece (p acc : Str) (hp : ',' ∉ p) : splitGo [','] 0 p acc = [acc.reverse ++ p] := by
  induction p generalizing acc with
  | nil => simp [splitGo]
  | cons c p ih =>
    simp only [List.mem_cons, not_or] at hp
    simp only [splitGo]
    rw [if_neg (by simp [List.isPrefixOf]; exact hp.1), ih _ hp.2]
    simp

theorem splitGo_piece_comma (p s acc : Str) (hp : ',' ∉ p) :
    splitGo [','] 0 (p ++ ',' :: s) acc = (acc.reverse ++ p) :: splitGo [','] 0 s [] := by
  induction p generalizing acc with
  | nil => simp [splitGo]
  | cons c p ih =>
    simp only [List.mem_cons, not_or] at hp
    simp only [List.cons_append, splitGo]
    rw [if_neg (by simp [List.isPrefixOf]; exact hp.1), ih _ hp.2]
    simp

theorem splitOn_comma_join {parts : List Str} (hne : parts ≠ []) (h : ∀ p ∈ parts, ',' ∉ p) :
    splitOn [','] (List.intercalate [','] parts) = parts := by
  unfold splitOn
  induction parts with
  | nil => exact absurd rfl hne
  | cons p ps ih =>
    cases ps with
    | nil => rw [show List.intercalate [','] [p] = p by simp [List.intercalate], splitGo_piece _ _ (h p (by simp))]; simp
    | cons q qs =>
      have e : List.intercalate [','] (p :: q :: qs) = p ++ ',' :: List.intercalate [','] (q :: qs) := by
        simp [List.intercalate]
      rw [e, splitGo_piece_comma _ _ _ (h p (by simp)), ih (by simp) (fun r hr => h r (by simp [hr]))]
      simp

theorem splitOn_comma (s : Str) : List.intercalate [','] (splitOn [','] s) = s ∧ splitOn [','] s ≠ [] ∧
    ∀ p ∈ splitOn [','] s, ',' ∉ p := by
  obtain ⟨h1, h2⟩ := splitGo_comma s [] (by simp)
  exact ⟨by simpa [splitOn] using h1, splitGo_ne_nil _ _ _ _, h2⟩

theorem mem_intercalate {c : Char} {parts : List Str} (h : c ∈ List.intercalate [','] parts) :
    c = ',' ∨ ∃ p ∈ parts, c ∈ p := by
  induction parts with
  | nil => simp [List.intercalate] at h
  | cons p ps ih =>
    cases ps with
    | nil =>
      right
      exact ⟨p, by simp, by simpa [List.intercalate] using h⟩
    | cons q qs =>
      have e : List.intercalate [','] (p :: q :: qs) = p ++ ',' :: List.intercalate [','] (q :: qs) := by
        simp [List.intercalate]
      rw [e] at h
      simp only [List.mem_append, List.mem_cons] at h
      rcases h with h | h | h
      · exact .inr ⟨p, by simp, h⟩
      · exact .inl h
      · rcases ih h with h | ⟨r, hr, hc⟩
        · exact .inl h
        · exact .inr ⟨r, List.mem_cons_of_mem _ hr, hc⟩

/-! ### assignment of letters -/

/-- names in the order of their first occurrence, continuing a list -/
def grow (K : List Str) (ws : List Str) : List Str := ws.foldl (fun K w => if w ∈ K then K else K ++ [w]) K

theorem grow_cons (K : List Str) (w : Str) (ws : List Str) :
    grow K (w :: ws) = grow (if w ∈ K then K else K ++ [w]) ws := rfl

theorem grow_append (K ws vs : List Str) : grow K (ws ++ vs) = grow (grow K ws) vs := by
  simp [grow, List.foldl_append]

theorem grow_prefix (K ws : List Str) : K <+: grow K ws := by
  induction ws generalizing K with
  | nil => exact List.prefix_rfl
  | cons w ws ih =>
    rw [grow_cons]
    split
    · exact ih K
    · exact (List.prefix_append K [w]).trans (ih _)

theorem mem_grow {K ws : List Str} {w : Str} : w ∈ grow K ws ↔ w ∈ K ∨ w ∈ ws := by
  induction ws generalizing K with
  | nil => simp [grow]
  | cons v ws ih =>
    rw [grow_cons, ih]
    split
    · rename_i h
      constructor
      · rintro (h' | h')
        · exact .inl h'
        · exact .inr (by simp [h'])
      · rintro (h' | h')
        · exact .inl h'
        · rcases List.mem_cons.1 h' with rfl | h'
          · exact .inl h
          · exact .inr h'
    · simp only [List.mem_append, List.mem_cons, List.not_mem_nil, or_false]; tauto

theorem grow_nodup {K ws : List Str} (h : K.Nodup) : (grow K ws).Nodup := by
  induction ws generalizing K with
  | nil => exact h
  | cons v ws ih =>
    rw [grow_cons]
    apply ih
    split
    · exact h
    · rename_i hv
      rw [List.nodup_append]
      refine ⟨h, by simp, ?_⟩
      rintro a ha b hb rfl
      simp only [List.mem_singleton] at hb
      exact hv (hb ▸ ha)

theorem grow_length (ws : List Str) : (grow [] ws).length = distinct ws := by
  unfold distinct
  apply List.Perm.length_eq
  rw [List.perm_ext_iff_of_nodup (grow_nodup List.nodup_nil) (List.nodup_dedup ws)]
  intro a
  rw [mem_grow, List.mem_dedup]
  simp

/-- the letter of an axis name -/
def letterOf (K : List Str) (w : Str) : Char := asciiLetters.getD (K.idxOf w) 'a'

/-- the mapping from names to letters -/
def letterDict (K : List Str) : List (Str × Char) := K.zip asciiLetters

theorem asciiLetters_length : asciiLetters.length = 52 := rfl

theorem asciiLetters_nodup : asciiLetters.Nodup := by decide

theorem letterOf_prefix {K K' : List Str} (h : K <+: K') {w : Str} (hw : w ∈ K) : letterOf K' w = letterOf K w := by
  obtain ⟨t, rfl⟩ := h
  unfold letterOf
  rw [List.idxOf_append_of_mem hw]

theorem dictGet_zip {K : List Str} {L : List Char} (hl : K.length ≤ L.length) (w : Str) :
    dictGet (K.zip L) w = if w ∈ K then L[K.idxOf w]? else none := by
  induction K generalizing L with
  | nil => simp [dictGet]
  | cons k K ih =>
    cases L with
    | nil => simp at hl
    | cons l L =>
      simp only [List.zip_cons_cons, dictGet]
      by_cases h : k = w
      · subst h; simp
      · rw [if_neg h, ih (by simpa using hl), List.idxOf_cons_ne _ h]
        simp [show w ≠ k from fun hc => h hc.symm]

theorem dictGet_letter {K : List Str} (hl : K.length ≤ 52) (w : Str) :
    dictGet (letterDict K) w = if w ∈ K then some (letterOf K w) else none := by
  unfold letterDict
  rw [dictGet_zip (by rw [asciiLetters_length]; exact hl)]
  by_cases h : w ∈ K
  · rw [if_pos h, if_pos h]
    unfold letterOf
    have : K.idxOf w < asciiLetters.length := by
      rw [asciiLetters_length]
      exact lt_of_lt_of_le (List.idxOf_lt_length_iff.2 h) hl
    simp [List.getD, List.getElem?_eq_getElem this]
  · rw [if_neg h, if_neg h]

theorem letterDict_set {κ ν : Type} [DecidableEq κ] {d : List (κ × ν)} {k : κ} {v : ν} (h : dictGet d k = none) :
    dictSet d k v = d ++ [(k, v)] := by
  induction d with
  | nil => rfl
  | cons p d ih =>
    obtain ⟨k', v'⟩ := p
    simp only [dictGet] at h
    split at h
    · cases h
    · rename_i hk
      simp [dictSet, hk, ih h]

theorem zip_snoc {κ ν : Type} {K : List κ} {L : List ν} {w : κ} {l : ν} (h : L[K.length]? = some l) :
    (K ++ [w]).zip L = K.zip L ++ [(w, l)] := by
  induction K generalizing L with
  | nil => cases L <;> simp_all
  | cons k K ih =>
    cases L with
    | nil => simp at h
    | cons x L => simpa using ih (by simpa using h)

theorem letterDict_snoc {K : List Str} {w : Str} {l : Char} (h : asciiLetters[K.length]? = some l) :
    letterDict (K ++ [w]) = letterDict K ++ [(w, l)] := zip_snoc h

/-! ### the loops -/

/-- What the composition of a side is, for sides of names and ellipses. -/
def symComp : ESym → CompAxis
  | .ell => .ell
  | .name w => .group [.str w]

section
variable [PyUnicode]

theorem wordsAxes_of_units {side k : Nat} {ws : List Str}
    (h : ws.filter (fun w => decide (¬ (IsNumber w ∧ decimalValue w = 1))) = []) : wordsAxes side k ws = [] := by
  induction ws generalizing k with
  | nil => rfl
  | cons w ws ih =>
    rw [List.filter_cons] at h
    split at h
    · cases h
    · rename_i hw
      simp only [decide_not, Bool.not_eq_true', decide_eq_false_iff_not, not_not] at hw
      simp only [wordsAxes, ih h, List.append_nil]
      simp [wordAxes, number_ne_dots hw.1, hw.1, hw.2]

theorem wordsAxes_filter {side k : Nat} {ws : List Str} {w : Str} {rest : List Str}
    (h : ws.filter (fun w => decide (¬ (IsNumber w ∧ decimalValue w = 1))) = w :: rest) :
    ∃ i j ws', wordsAxes side k ws = wordAxes side i w ++ wordsAxes side j ws' ∧
      ws'.filter (fun w => decide (¬ (IsNumber w ∧ decimalValue w = 1))) = rest := by
  induction ws generalizing k with
  | nil => cases h
  | cons v ws ih =>
    rw [List.filter_cons] at h
    split at h
    · cases h
      exact ⟨k, k + 1, ws, rfl, rfl⟩
    · rename_i hw
      simp only [decide_not, Bool.not_eq_true', decide_eq_false_iff_not, not_not] at hw
      obtain ⟨i, j, ws', h1, h2⟩ := ih (k := k + 1) h
      refine ⟨i, j, ws', ?_, h2⟩
      rw [← h1]
      simp [wordsAxes, wordAxes, number_ne_dots hw.1, hw.1, hw.2]

theorem denote_elem (side k : Nat) (e : Elem) (G : List Elem) :
    ∃ j, denote side k (e :: G) = denote side k [e] ++ denote side j G := by
  cases e with
  | bare w => exact ⟨k + 1, rfl⟩
  | paren ws => exact ⟨k + ws.length, rfl⟩

theorem readElem_some {side k : Nat} {e : Elem} {t : ESym} (h : readElem e = some t) :
    denote side k [e] = [symComp t] := by
  cases e with
  | bare w =>
    simp only [readElem, readWord] at h
    simp only [denote, List.cons.injEq, and_true]
    split at h
    · cases h; simp [symComp, *]
    · split at h
      · cases h
      · cases h
        rename_i hd hn
        simp [symComp, wordAxes, hd, hn]
  | paren ws =>
    simp only [readElem] at h
    split at h
    · rename_i w hw
      obtain ⟨i, j, ws', h1, h2⟩ := wordsAxes_filter (side := side) (k := k) hw
      simp only [denote, h1, wordsAxes_of_units h2, List.append_nil]
      simp only [readWord] at h
      split at h
      · cases h
        rename_i hd
        simp [symComp, wordAxes, hd]
      · split at h
        · cases h
        · cases h
          rename_i hd hn
          simp [symComp, wordAxes, hd, hn]
    · cases h

theorem readElem_denote {side k : Nat} {G : List Elem} {t : List ESym} (h : G.map readElem = t.map some) :
    denote side k G = t.map symComp := by
  induction G generalizing t k with
  | nil =>
    cases t with
    | nil => rfl
    | cons a t => simp at h
  | cons e G ih =>
    cases t with
    | nil => simp at h
    | cons a t =>
      simp only [List.map_cons, List.cons.injEq] at h
      obtain ⟨j, hj⟩ := denote_elem side k e G
      rw [hj, readElem_some h.1, ih h.2]
      rfl

theorem wordAxes_ne_nil {side k : Nat} {w : Str} (h : ¬ (IsNumber w ∧ decimalValue w = 1)) :
    ∃ a, wordAxes side k w = [a] := by
  unfold wordAxes
  split
  · exact ⟨_, rfl⟩
  · split
    · rename_i hn
      rw [if_neg (fun hc => h ⟨hn, hc⟩)]
      exact ⟨_, rfl⟩
    · exact ⟨_, rfl⟩

/-- composition elements without a meaning -/
theorem readElem_none {side k : Nat} {e : Elem} (h : readElem e = none) :
    ∃ g, denote side k [e] = [.group g] ∧ einsumAxisName g = .error .notImplemented := by
  cases e with
  | bare w =>
    simp only [readElem, readWord] at h
    split at h
    · cases h
    · split at h
      · rename_i hd hn
        simp only [denote, if_neg hd]
        refine ⟨_, rfl, ?_⟩
        simp only [wordAxes, if_neg hd, if_pos hn]
        split <;> rfl
      · cases h
  | paren ws =>
    refine ⟨_, rfl, ?_⟩
    simp only [readElem] at h
    split at h
    · rename_i w hw
      obtain ⟨i, j, ws', h1, h2⟩ := wordsAxes_filter (side := side) (k := k) hw
      simp only [h1, wordsAxes_of_units h2, List.append_nil]
      simp only [readWord] at h
      split at h
      · cases h
      · split at h
        · rename_i hd hn
          simp only [wordAxes, if_neg hd, if_pos hn]
          split <;> rfl
        · cases h
    · rename_i hno
      rcases hw : ws.filter (fun w => decide (¬ (IsNumber w ∧ decimalValue w = 1))) with _ | ⟨w, _ | ⟨w', rest⟩⟩
      · rw [wordsAxes_of_units hw]; rfl
      · exact absurd hw (hno w)
      · obtain ⟨i, j, ws', h1, h2⟩ := wordsAxes_filter (side := side) (k := k) hw
        obtain ⟨i', j', ws'', h1', h2'⟩ := wordsAxes_filter (side := side) (k := j) h2
        have hm : ∀ v ∈ ws.filter (fun w => decide (¬ (IsNumber w ∧ decimalValue w = 1))),
            ¬ (IsNumber v ∧ decimalValue v = 1) := fun v hv => of_decide_eq_true (List.mem_filter.1 hv).2
        rw [hw] at hm
        obtain ⟨a, ha⟩ := wordAxes_ne_nil (side := side) (k := i) (hm w (by simp))
        obtain ⟨a', ha'⟩ := wordAxes_ne_nil (side := side) (k := i') (hm w' (by simp))
        rw [h1, h1', ha, ha']
        simp only [List.cons_append, List.nil_append]
        cases a <;> rfl

end

theorem writeSyms_congr {f g : Str → Char} {t : List ESym} (h : ∀ w ∈ symNames t, f w = g w) :
    writeSyms f t = writeSyms g t := by
  induction t with
  | nil => rfl
  | cons a t ih =>
    cases a with
    | ell => simp only [writeSyms, symNames] at h ⊢; rw [ih h]
    | name w =>
      simp only [writeSyms, symNames, List.mem_cons, forall_eq_or_imp] at h ⊢
      rw [h.1, ih h.2]

theorem einsumLeft_syms {K : List Str} (hK : K.length ≤ 52) {t : List ESym} (ht : ∀ w ∈ symNames t, w ≠ [])
    (rest : List CompAxis) :
    einsumLeft (letterDict K) K.length (t.map symComp ++ rest) =
      if (grow K (symNames t)).length ≤ 52 then
        match einsumLeft (letterDict (grow K (symNames t))) (grow K (symNames t)).length rest with
        | .error e => .error e
        | .ok (r, m, i) => .ok (writeSyms (letterOf (grow K (symNames t))) t ++ r, m, i)
      else .error .runtime := by
  induction t generalizing K with
  | nil =>
    rw [show grow K (symNames []) = K from rfl, if_pos hK]
    simp only [List.map_nil, List.nil_append, writeSyms]
    rcases einsumLeft (letterDict K) K.length rest with e | ⟨r, m, i⟩ <;> rfl
  | cons a t ih =>
    cases a with
    | ell =>
      rw [show symNames (ESym.ell :: t) = symNames t from rfl] at ht ⊢
      simp only [List.map_cons, symComp, List.cons_append, einsumLeft, einsumLeftStep]
      rw [ih hK ht]
      by_cases hl : (grow K (symNames t)).length ≤ 52
      · rw [if_pos hl, if_pos hl]
        rcases einsumLeft (letterDict (grow K (symNames t))) _ rest with e | ⟨r, m, i⟩ <;> rfl
      · rw [if_neg hl, if_neg hl]
    | name w =>
      simp only [List.map_cons, symComp, List.cons_append, einsumLeft, einsumLeftStep, symNames] at ht ⊢
      have hw : w ≠ [] := ht w (by simp)
      have ht' : ∀ v ∈ symNames t, v ≠ [] := fun v hv => ht v (by simp [hv])
      simp only [einsumAxisName, if_neg hw, dictGet_letter hK, grow_cons]
      by_cases hm : w ∈ K
      · simp only [if_pos hm]
        rw [ih hK ht']
        by_cases hl : (grow K (symNames t)).length ≤ 52
        · simp only [if_pos hl]
          rcases einsumLeft (letterDict (grow K (symNames t))) _ rest with e | ⟨r, m, i⟩
          · rfl
          · simp only [writeSyms, letterOf_prefix (grow_prefix K (symNames t)) hm, List.cons_append, List.nil_append]
        · simp only [if_neg hl]
      · simp only [if_neg hm]
        have hp := grow_prefix (K ++ [w]) (symNames t)
        by_cases h52 : K.length < 52
        · have hl' : asciiLetters[K.length]? = some (letterOf (K ++ [w]) w) := by
            unfold letterOf
            rw [List.idxOf_append_of_notMem hm]
            simp only [List.idxOf_cons_self, Nat.add_zero]
            rw [List.getElem?_eq_getElem (by rw [asciiLetters_length]; exact h52)]
            simp [List.getD, List.getElem?_eq_getElem (show K.length < asciiLetters.length by rw [asciiLetters_length]; exact h52)]
          have hd : dictSet (letterDict K) w (letterOf (K ++ [w]) w) = letterDict (K ++ [w]) := by
            rw [letterDict_snoc hl', letterDict_set]
            rw [dictGet_letter hK, if_neg hm]
          simp only [hl', hd]
          have := ih (K := K ++ [w]) (by simp; omega) ht'
          rw [List.length_append, List.length_singleton] at this
          rw [this]
          by_cases hl : (grow (K ++ [w]) (symNames t)).length ≤ 52
          · simp only [if_pos hl]
            rcases einsumLeft (letterDict (grow (K ++ [w]) (symNames t))) _ rest with e | ⟨r, m, i⟩
            · rfl
            · simp only [writeSyms, letterOf_prefix hp (show w ∈ K ++ [w] by simp), List.cons_append, List.nil_append]
          · simp only [if_neg hl]
        · have hn : asciiLetters[K.length]? = none := by
            rw [List.getElem?_eq_none]; rw [asciiLetters_length]; omega
          have : ¬ (grow (K ++ [w]) (symNames t)).length ≤ 52 := by
            have := hp.length_le
            simp at this
            omega
          simp only [hn, if_neg this]

theorem einsumLefts_syms {K : List Str} (hK : K.length ≤ 52) {ps : List ParsedExpression} {terms : List (List ESym)}
    (hps : List.Forall₂ (fun p t => p.composition = t.map symComp) ps terms)
    (ht : ∀ t ∈ terms, ∀ w ∈ symNames t, w ≠ []) :
    einsumLefts (letterDict K) K.length ps =
      if (grow K (terms.flatMap symNames)).length ≤ 52 then
        .ok (terms.map (writeSyms (letterOf (grow K (terms.flatMap symNames)))),
          letterDict (grow K (terms.flatMap symNames)))
      else .error .runtime := by
  induction hps generalizing K with
  | nil =>
    rw [show grow K (List.flatMap symNames []) = K from rfl, if_pos hK]
    rfl
  | @cons p t ps terms hp hps ih =>
    rw [List.flatMap_cons, grow_append]
    have h1 := einsumLeft_syms hK (ht t (by simp)) []
    rw [List.append_nil, ← hp] at h1
    simp only [einsumLefts, h1]
    have hpre := grow_prefix (grow K (symNames t)) (terms.flatMap symNames)
    by_cases hl : (grow K (symNames t)).length ≤ 52
    · simp only [if_pos hl, einsumLeft, List.append_nil]
      rw [ih hl (fun t ht' => ht t (by simp [ht']))]
      by_cases hl' : (grow (grow K (symNames t)) (terms.flatMap symNames)).length ≤ 52
      · simp only [if_pos hl', List.map_cons]
        rw [writeSyms_congr (fun w hw => letterOf_prefix hpre (mem_grow.2 (.inr hw)))]
      · simp only [if_neg hl']
    · have : ¬ (grow (grow K (symNames t)) (terms.flatMap symNames)).length ≤ 52 := by
        have := hpre.length_le; omega
      simp only [if_neg hl, if_neg this]

theorem einsumRight_syms {K : List Str} (hK : K.length ≤ 52) {t : List ESym} (ht : ∀ w ∈ symNames t, w ≠ []) :
    ((∀ w ∈ symNames t, w ∈ K) → einsumRight (letterDict K) (t.map symComp) = .ok (writeSyms (letterOf K) t)) ∧
    ((¬ ∀ w ∈ symNames t, w ∈ K) → einsumRight (letterDict K) (t.map symComp) = .error .einops) := by
  induction t with
  | nil => exact ⟨fun _ => rfl, fun h => absurd (by simp [symNames]) h⟩
  | cons a t ih =>
    cases a with
    | ell =>
      obtain ⟨h1, h2⟩ := ih ht
      simp only [List.map_cons, symComp, einsumRight]
      exact ⟨fun h => by rw [h1 h]; rfl, fun h => by rw [h2 h]⟩
    | name w =>
      obtain ⟨h1, h2⟩ := ih (fun v hv => ht v (by simp [symNames, hv]))
      have hw : w ≠ [] := ht w (by simp [symNames])
      simp only [List.map_cons, symComp, einsumRight, einsumAxisName, if_neg hw, dictGet_letter hK]
      refine ⟨fun h => ?_, fun h => ?_⟩
      · rw [h1 (fun v hv => h v (by simp [symNames, hv])), if_pos (h w (by simp [symNames]))]
        rfl
      · by_cases hm : w ∈ K
        · rw [if_pos hm, h2 (fun hc => h (by simpa [symNames, hm] using hc))]
        · rw [if_neg hm]

section
variable [PyUnicode]

/-- a side is readable, or there is a first element without meaning -/
theorem readable_or (G : List Elem) : (∃ t : List ESym, G.map readElem = t.map some) ∨
    ∃ (G₁ : List Elem) (e : Elem) (G₂ : List Elem) (t : List ESym), G = G₁ ++ e :: G₂ ∧ G₁.map readElem = t.map some ∧ readElem e = none := by
  induction G with
  | nil => exact .inl ⟨[], rfl⟩
  | cons e G ih =>
    cases he : readElem e with
    | none => exact .inr ⟨[], e, G, [], rfl, rfl, he⟩
    | some a =>
      rcases ih with ⟨t, ht⟩ | ⟨G₁, e', G₂, t, rfl, ht, he'⟩
      · exact .inl ⟨a :: t, by simp [he, ht]⟩
      · exact .inr ⟨e :: G₁, e', G₂, a :: t, rfl, by simp [he, ht], he'⟩

theorem denote_split (side k : Nat) (G G' : List Elem) : ∃ j, denote side k (G ++ G') = denote side k G ++ denote side j G' := by
  induction G generalizing k with
  | nil => exact ⟨k, rfl⟩
  | cons e G ih =>
    obtain ⟨j, hj⟩ := denote_elem side k e (G ++ G')
    cases e with
    | bare w =>
      obtain ⟨j', h⟩ := ih (k + 1)
      exact ⟨j', by simp [denote, h]⟩
    | paren ws =>
      obtain ⟨j', h⟩ := ih (k + ws.length)
      exact ⟨j', by simp [denote, h]⟩

/-- the names a list of elements mentions, numbers and unusable parentheses left out -/
def elemNames (G : List Elem) : List Str := symNames (G.filterMap readElem)

omit [PyUnicode] in
theorem symNames_append (a b : List ESym) : symNames (a ++ b) = symNames a ++ symNames b := by
  induction a with
  | nil => rfl
  | cons x a ih => cases x <;> simp [symNames, ih]

theorem elemNames_read {G : List Elem} {t : List ESym} (h : G.map readElem = t.map some) : elemNames G = symNames t := by
  unfold elemNames
  congr 1
  have := congrArg (List.filterMap id) h
  simpa [List.filterMap_map] using this

theorem elemNames_append (a b : List Elem) : elemNames (a ++ b) = elemNames a ++ elemNames b := by
  simp [elemNames, symNames_append]

theorem wordOK_ne_nil {u : Bool} {w : Str} (h : WordOK u w) : w ≠ [] := by
  rcases h with rfl | h | h
  · simp [dots]
  · exact h.1.1
  · rintro rfl
    simp [IsName, IsIdentifier] at h

theorem readElem_ne_nil {u : Bool} {e : Elem} (h : ∀ w ∈ e.words, WordOK u w) {w : Str} (hw : readElem e = some (.name w)) :
    w ≠ [] := by
  have key : ∀ v d, v ∈ e.words → (d = .ell ∨ d = .name ellipsisStr) → readWord v d = some (.name w) → w ≠ [] := by
    intro v d hv hd hr
    unfold readWord at hr
    split at hr
    · rcases hd with rfl | rfl
      · cases hr
      · cases hr; simp [ellipsisStr]
    · split at hr
      · cases hr
      · cases hr; exact wordOK_ne_nil (h _ hv)
  cases e with
  | bare v => exact key v _ (by simp [Elem.words]) (.inl rfl) hw
  | paren ws =>
    simp only [readElem] at hw
    split at hw
    · rename_i v hv
      refine key v _ ?_ (.inr rfl) hw
      have : v ∈ ws.filter (fun w => decide (¬ (IsNumber w ∧ decimalValue w = 1))) := by rw [hv]; simp
      exact (List.mem_filter.1 this).1
    · cases hw

theorem read_ne_nil {u d : Bool} {s : Str} {G : List Elem} (h : IsSide u d s G) {w : Str} (hw : w ∈ elemNames G) : w ≠ [] := by
  have key : ∀ G' : List Elem, (∀ e ∈ G', e ∈ G) → w ∈ elemNames G' → w ≠ [] := by
    intro G'
    induction G' with
    | nil => intro _ h; simp [elemNames, symNames] at h
    | cons e G' ih =>
      intro hsub hw
      unfold elemNames at hw
      cases he : readElem e with
      | none =>
        rw [List.filterMap_cons_none he] at hw
        exact ih (fun e he => hsub e (by simp [he])) hw
      | some a =>
        rw [List.filterMap_cons_some he] at hw
        cases a with
        | ell => exact ih (fun e he => hsub e (by simp [he])) hw
        | name v =>
          simp only [symNames, List.mem_cons] at hw
          rcases hw with rfl | hw
          · exact readElem_ne_nil (fun w hw => h.words_ok w (List.mem_flatMap.2 ⟨e, hsub e (by simp), hw⟩)) he
          · exact ih (fun e he => hsub e (by simp [he])) hw
  exact key G (fun _ h => h) hw

/-- inputs with a meaningless element are refused -/
theorem einsumLefts_bad {K : List Str} (hK : K.length ≤ 52) {ps : List ParsedExpression} {Gs : List (List Elem)}
    (hps : List.Forall₂ (fun p G => p.composition = denote 0 0 G) ps Gs) (hw : ∀ G ∈ Gs, ∀ w ∈ elemNames G, w ≠ [])
    (hbad : ¬ ∃ terms : List (List ESym), List.Forall₂ (fun (G : List Elem) t => G.map readElem = t.map some) Gs terms) :
    (einsumLefts (letterDict K) K.length ps = .error .notImplemented ∨
      einsumLefts (letterDict K) K.length ps = .error .runtime) ∧
    ((grow K (Gs.flatMap elemNames)).length ≤ 52 →
      einsumLefts (letterDict K) K.length ps = .error .notImplemented) := by
  induction hps generalizing K with
  | nil => exact absurd ⟨[], .nil⟩ hbad
  | @cons p G ps Gs hp hps ih =>
    rw [List.flatMap_cons, grow_append]
    rcases readable_or G with ⟨t, ht⟩ | ⟨G₁, e, G₂, t, rfl, ht, he⟩
    · have hn := elemNames_read ht
      have h1 := einsumLeft_syms hK (t := t) (fun w h => hw G (by simp) w (hn ▸ h)) []
      rw [List.append_nil, ← readElem_denote (side := 0) (k := 0) ht, ← hp] at h1
      simp only [einsumLefts, h1, hn]
      by_cases hl : (grow K (symNames t)).length ≤ 52
      · simp only [if_pos hl, einsumLeft, List.append_nil]
        have hb : ¬ ∃ terms : List (List ESym), List.Forall₂ (fun (G : List Elem) t => G.map readElem = t.map some) Gs terms :=
          fun ⟨terms, h⟩ => hbad ⟨t :: terms, .cons ht h⟩
        obtain ⟨h2, h3⟩ := ih hl (fun G hG => hw G (by simp [hG])) hb
        refine ⟨?_, fun h => by rw [h3 h]⟩
        rcases h2 with h2 | h2
        · exact .inl (by rw [h2])
        · exact .inr (by rw [h2])
      · simp only [if_neg hl]
        refine ⟨.inr trivial, fun h => ?_⟩
        have := (grow_prefix (grow K (symNames t)) (Gs.flatMap elemNames)).length_le
        omega
    · have hn := elemNames_read ht
      obtain ⟨j, hj⟩ := denote_split 0 0 G₁ (e :: G₂)
      obtain ⟨j', hj'⟩ := denote_elem 0 j e G₂
      obtain ⟨g, hg, hge⟩ := readElem_none (side := 0) (k := j) he
      rw [hj', hg, readElem_denote ht] at hj
      have hall : ∀ w ∈ symNames t, w ≠ [] := fun w h => hw (G₁ ++ e :: G₂) (by simp) w (by rw [elemNames_append, hn]; simp [h])
      have h1 := einsumLeft_syms hK hall ([.group g] ++ denote 0 j' G₂)
      rw [← hj, ← hp] at h1
      simp only [List.cons_append, List.nil_append, einsumLeft, einsumLeftStep, hge] at h1
      simp only [einsumLefts, h1]
      by_cases hl : (grow K (symNames t)).length ≤ 52
      · simp only [if_pos hl]
        exact ⟨.inl trivial, fun _ => trivial⟩
      · simp only [if_neg hl]
        refine ⟨.inr trivial, fun h => ?_⟩
        rw [elemNames_append, hn, grow_append] at h
        have h4 := (grow_prefix (grow K (symNames t)) (elemNames (e :: G₂))).length_le
        have h5 := (grow_prefix (grow (grow K (symNames t)) (elemNames (e :: G₂))) (Gs.flatMap elemNames)).length_le
        omega

/-- an output with a meaningless element is refused -/
theorem einsumRight_bad {K : List Str} (hK : K.length ≤ 52) {G : List Elem} (hw : ∀ w ∈ elemNames G, w ≠ [])
    (hbad : ¬ ∃ t : List ESym, G.map readElem = t.map some) (side k : Nat) :
    (einsumRight (letterDict K) (denote side k G) = .error .notImplemented ∨
      einsumRight (letterDict K) (denote side k G) = .error .einops) ∧
    ((∀ w ∈ elemNames G, w ∈ K) → einsumRight (letterDict K) (denote side k G) = .error .notImplemented) := by
  induction G generalizing k with
  | nil => exact absurd ⟨[], rfl⟩ hbad
  | cons e G ih =>
    obtain ⟨j, hj⟩ := denote_elem side k e G
    cases he : readElem e with
    | none =>
      obtain ⟨g, hg, hge⟩ := readElem_none (side := side) (k := k) he
      rw [hj, hg]
      simp only [List.cons_append, List.nil_append, einsumRight, hge]
      exact ⟨.inl trivial, fun _ => trivial⟩
    | some a =>
      have hb : ¬ ∃ t : List ESym, G.map readElem = t.map some := fun ⟨t, h⟩ => hbad ⟨a :: t, by simp [he, h]⟩
      have en : elemNames (e :: G) = symNames [a] ++ elemNames G := by
        unfold elemNames
        rw [List.filterMap_cons_some he]
        exact symNames_append [a] _
      obtain ⟨h1, h2⟩ := ih (fun w h => hw w (by rw [en]; simp [h])) hb j
      rw [hj, readElem_some he]
      cases a with
      | ell =>
        simp only [symComp, List.cons_append, List.nil_append, einsumRight]
        refine ⟨?_, fun h => by rw [h2 (fun w hw' => h w (by rw [en]; simp [hw']))]⟩
        rcases h1 with h1 | h1
        · exact .inl (by rw [h1])
        · exact .inr (by rw [h1])
      | name w =>
        have hwn : w ≠ [] := hw w (by rw [en]; simp [symNames])
        simp only [symComp, List.cons_append, List.nil_append, einsumRight, einsumAxisName, if_neg hwn, dictGet_letter hK]
        by_cases hm : w ∈ K
        · simp only [if_pos hm]
          refine ⟨?_, fun h => by rw [h2 (fun w hw' => h w (by rw [en]; simp [hw']))]⟩
          rcases h1 with h1 | h1
          · exact .inl (by rw [h1])
          · exact .inr (by rw [h1])
        · simp only [if_neg hm]
          exact ⟨.inr trivial, fun h => absurd (h w (by rw [en]; simp [symNames])) hm⟩

/-! ### the whole function -/

theorem compactify_sides {pattern : Str} {Gs : List (List Elem)} {G : List Elem} (h : EinsumSides pattern Gs G) :
    ∃ (ps : List ParsedExpression) (p : ParsedExpression),
      List.Forall₂ (fun (p : ParsedExpression) (G : List Elem) => p.composition = denote 0 0 G) ps Gs ∧ p.composition = denote 1 0 G ∧
      compactify pattern =
        match einsumLefts [] 0 ps with
        | .error e => .error e
        | .ok (ss, m) =>
          match einsumRight m p.composition with
          | .error e => .error e
          | .ok t => .ok (List.intercalate [','] ss ++ ['-', '>'] ++ t) := by
  obtain ⟨parts, r, hne, rfl, hl, hr⟩ := h.written
  have hsp : ∀ p ∈ parts, ∀ c ∈ [',', '-', '>', '*', '…'], c ∉ p := by
    intro p hp c hc
    obtain ⟨i, hi, rfl⟩ := List.getElem_of_mem hp
    have hi' : i < Gs.length := by rw [← hl.length_eq]; exact hi
    exact isSide_no_special (hl.get hi hi') hc
  have harrow : ¬ arrow <:+: List.intercalate [','] parts := by
    intro hi
    rcases mem_intercalate (hi.subset (show '-' ∈ arrow by simp [arrow])) with h | ⟨p, hp, h⟩
    · cases h
    · exact hsp p hp '-' (by simp) h
  have hsplit := splitArrow_iff.2 ⟨rfl, harrow, isSide_no_arrow hr⟩
  have hcont : containsSub ['-', '>'] (List.intercalate [','] parts ++ ['-', '>'] ++ r) = true :=
    containsSub_iff.2 ⟨_, r, rfl⟩
  have hcomma := splitOn_comma_join hne (fun p hp => hsp p hp ',' (by simp))
  have hm : mapE (parseExpression 0 true true) parts = .ok (Gs.map (describe 0)) := by
    clear hsplit hcont hcomma harrow hne h
    induction hl with
    | nil => rfl
    | @cons p G parts Gs h1 h2 ih =>
      have := (parseExpression_iff 0 true true p (fun hc => hsp p (by simp) '…' (by simp) hc) _).2 ⟨G, h1, rfl⟩
      simp only [mapE, this, ih (fun p hp => hsp p (by simp [hp])), List.map_cons]
  have hp := (parseExpression_iff 1 true false r (isSide_no_special hr (by simp)) _).2 ⟨G, hr, rfl⟩
  refine ⟨Gs.map (describe 0), describe 1 G, ?_, rfl, ?_⟩
  · rw [List.forall₂_map_left_iff, List.forall₂_same]
    intro G _
    rfl
  · unfold compactify
    rw [show arrow = ['-', '>'] from rfl] at hsplit
    simp only [hcont, Bool.not_true, Bool.false_eq_true, if_false, hsplit, hcomma, hm, hp]
    rfl

/-- Outcome when the sides are not well formed. -/
theorem compactify_not_sides {pattern : Str} (hell : '…' ∉ pattern) (h : ¬ ∃ Gs G, EinsumSides pattern Gs G) :
    ((∃ l r, pattern = l ++ arrow ++ r ∧ ¬ arrow <:+: l ∧ ¬ arrow <:+: r) → compactify pattern = .error .einops) ∧
    ((¬ ∃ l r, pattern = l ++ arrow ++ r ∧ ¬ arrow <:+: l ∧ ¬ arrow <:+: r) → compactify pattern = .error .value) := by
  constructor
  · rintro ⟨l, r, hpat, hl, hr⟩
    have hsplit := splitArrow_iff.2 ⟨hpat, hl, hr⟩
    have hcont : containsSub ['-', '>'] pattern = true := containsSub_iff.2 ⟨l, r, hpat.symm⟩
    unfold compactify
    simp only [hcont, Bool.not_true, Bool.false_eq_true, if_false, hsplit]
    obtain ⟨hj, hne, hcomma⟩ := splitOn_comma l
    have hlell : '…' ∉ l := fun hc => hell (by rw [hpat]; simp [hc])
    have hrell : '…' ∉ r := fun hc => hell (by rw [hpat]; simp [hc])
    have hpell : ∀ p ∈ splitOn [','] l, '…' ∉ p := by
      intro p hp hc
      apply hlell
      rw [← hj]
      have : ∀ parts : List Str, p ∈ parts → '…' ∈ List.intercalate [','] parts := by
        intro parts
        induction parts with
        | nil => simp
        | cons q qs ih =>
          intro hm
          cases qs with
          | nil => simp at hm; subst hm; simpa [List.intercalate] using hc
          | cons q' qs =>
            rw [show List.intercalate [','] (q :: q' :: qs) = q ++ ',' :: List.intercalate [','] (q' :: qs) by
              simp [List.intercalate]]
            rcases List.mem_cons.1 hm with rfl | hm
            · simp [hc]
            · simp [ih hm]
      exact this _ hp
    have hmap : (∃ Gs, List.Forall₂ (IsSide true true) (splitOn [','] l) Gs ∧
        mapE (parseExpression 0 true true) (splitOn [','] l) = .ok (Gs.map (describe 0))) ∨
        mapE (parseExpression 0 true true) (splitOn [','] l) = .error .einops := by
      revert hpell
      generalize splitOn [','] l = parts
      intro hpell
      induction parts with
      | nil => exact .inl ⟨[], .nil, rfl⟩
      | cons p parts ih =>
        simp only [mapE]
        cases hp : parseExpression 0 true true p with
        | error e => exact .inr (by rw [parseExpression_err _ _ _ hp])
        | ok pe =>
          obtain ⟨G, hG, rfl⟩ := (parseExpression_iff 0 true true p (hpell p (by simp)) pe).1 hp
          rcases ih (fun p hp => hpell p (by simp [hp])) with ⟨Gs, h1, h2⟩ | h2
          · exact .inl ⟨G :: Gs, .cons hG h1, by simp only [h2, List.map_cons]⟩
          · exact .inr (by simp only [h2])
    rcases hmap with ⟨Gs, h1, h2⟩ | h2
    · simp only [h2]
      cases hp : parseExpression 1 true false r with
      | error e => simp only [parseExpression_err _ _ _ hp]
      | ok pe =>
        obtain ⟨G, hG, rfl⟩ := (parseExpression_iff 1 true false r hrell pe).1 hp
        exact absurd ⟨Gs, G, ⟨_, r, hne, by rw [hj, hpat]; rfl, h1, hG⟩⟩ h
    · simp only [h2]
  · intro hn
    unfold compactify
    cases hs : splitArrow pattern with
    | ok p => exact absurd ⟨p.1, p.2, splitArrow_iff.1 hs⟩ hn
    | error e =>
      rw [splitArrow_err hs]
      split <;> rfl

theorem EinsumSides.unique {pattern : Str} {Gs Gs' : List (List Elem)} {G G' : List Elem} (h : EinsumSides pattern Gs G)
    (h' : EinsumSides pattern Gs' G') : Gs = Gs' ∧ G = G' := by
  obtain ⟨parts, r, hne, hp, hl, hr⟩ := h.written
  obtain ⟨parts', r', hne', hp', hl', hr'⟩ := h'.written
  have hsp : ∀ {parts : List Str} {Gs : List (List Elem)}, List.Forall₂ (IsSide true true) parts Gs →
      ∀ p ∈ parts, ∀ c ∈ [',', '-', '>', '*', '…'], c ∉ p := by
    intro parts Gs hl p hp c hc
    obtain ⟨i, hi, rfl⟩ := List.getElem_of_mem hp
    exact isSide_no_special (hl.get hi (by rw [← hl.length_eq]; exact hi)) hc
  have harrow : ∀ {parts : List Str} {Gs : List (List Elem)}, List.Forall₂ (IsSide true true) parts Gs →
      ¬ arrow <:+: List.intercalate [','] parts := by
    intro parts Gs hl hi
    rcases mem_intercalate (hi.subset (show '-' ∈ arrow by simp [arrow])) with h | ⟨p, hp, h⟩
    · cases h
    · exact hsp hl p hp '-' (by simp) h
  have e1 := splitArrow_iff.2 ⟨hp, harrow hl, isSide_no_arrow hr⟩
  have e2 := splitArrow_iff.2 ⟨hp', harrow hl', isSide_no_arrow hr'⟩
  rw [e1] at e2
  simp only [Except.ok.injEq, Prod.mk.injEq] at e2
  obtain ⟨e2, rfl⟩ := e2
  have e3 : parts = parts' := by
    rw [← splitOn_comma_join hne (fun p hp => hsp hl p hp ',' (by simp)), e2,
      splitOn_comma_join hne' (fun p hp => hsp hl' p hp ',' (by simp))]
  subst e3
  refine ⟨?_, hr.unique hr'⟩
  clear e1 e2 hp hp' hne hne' h h'
  induction hl generalizing Gs' with
  | nil => cases hl'; rfl
  | cons h1 h2 ih =>
    cases hl' with
    | cons h1' h2' => rw [h1.unique h1', ih h2']

theorem IsEinsum.ne_nil {pattern : Str} {terms : List (List ESym)} {out : List ESym} (h : IsEinsum pattern terms out) :
    ∀ t ∈ out :: terms, ∀ w ∈ symNames t, w ≠ [] := by
  obtain ⟨Gs, G, ⟨parts, r, hne, rfl, hl, hr⟩, h1, h2⟩ := h
  intro t ht w hw
  rcases List.mem_cons.1 ht with rfl | ht
  · exact read_ne_nil hr (elemNames_read h2 ▸ hw)
  · obtain ⟨i, hi, rfl⟩ := List.getElem_of_mem ht
    have hi' : i < Gs.length := by rw [h1.length_eq]; exact hi
    have hi'' : i < parts.length := by rw [hl.length_eq]; exact hi'
    exact read_ne_nil (hl.get hi'' hi') (elemNames_read (h1.get hi' hi) ▸ hw)

/-- the outcome for well formed patterns of names and ellipses -/
theorem compactify_syms {pattern : Str} {terms : List (List ESym)} {out : List ESym} (h : IsEinsum pattern terms out) :
    compactify pattern =
      if distinct (terms.flatMap symNames) ≤ 52 then
        if ∀ w ∈ symNames out, ∃ t ∈ terms, w ∈ symNames t then
          .ok (writeEinsum (letterOf (grow [] (terms.flatMap symNames))) terms out)
        else .error .einops
      else .error .runtime := by
  have hne := h.ne_nil
  obtain ⟨Gs, G, hs, h1, h2⟩ := h
  obtain ⟨ps, p, hps, hp, hc⟩ := compactify_sides hs
  have hps' : List.Forall₂ (fun (p : ParsedExpression) t => p.composition = t.map symComp) ps terms := by
    clear hs hc hp hne
    induction h1 generalizing ps with
    | nil => cases hps; exact .nil
    | cons a b ih => cases hps with
      | cons a' b' => exact .cons (by rw [a', readElem_denote a]) (ih _ b')
  have e1 := einsumLefts_syms (K := []) (by simp) hps' (fun t ht => hne t (by simp [ht]))
  rw [show letterDict [] = [] from rfl, List.length_nil] at e1
  rw [hc, e1, grow_length]
  by_cases hl : distinct (terms.flatMap symNames) ≤ 52
  · obtain ⟨e2, e3⟩ := einsumRight_syms (K := grow [] (terms.flatMap symNames)) (by rw [grow_length]; exact hl)
      (hne out (by simp))
    have hiff : (∀ w ∈ symNames out, w ∈ grow [] (terms.flatMap symNames)) ↔ ∀ w ∈ symNames out, ∃ t ∈ terms, w ∈ symNames t := by
      simp [mem_grow, List.mem_flatMap]
    simp only [if_pos hl, hp, readElem_denote h2]
    by_cases hr : ∀ w ∈ symNames out, ∃ t ∈ terms, w ∈ symNames t
    · rw [if_pos hr, e2 (hiff.2 hr)]
      rfl
    · rw [if_neg hr, e3 (fun h => hr (hiff.1 h))]
  · simp only [if_neg hl]

/-- the outcome for well formed patterns with other elements -/
theorem compactify_bad {pattern : Str} {Gs : List (List Elem)} {G : List Elem} (h : EinsumSides pattern Gs G)
    (hbad : ¬ ∃ terms out, IsEinsum pattern terms out) :
    (compactify pattern = .error .notImplemented ∨ compactify pattern = .error .runtime ∨
      compactify pattern = .error .einops) ∧
    (distinct (Gs.flatMap elemNames) ≤ 52 → (∀ w ∈ elemNames G, ∃ G' ∈ Gs, w ∈ elemNames G') →
      compactify pattern = .error .notImplemented) := by
  obtain ⟨ps, p, hps, hp, hc⟩ := compactify_sides h
  obtain ⟨parts, r, hne, hpat, hl, hr⟩ := h.written
  have hw : ∀ G ∈ Gs, ∀ w ∈ elemNames G, w ≠ [] := by
    intro G hG w hw
    obtain ⟨i, hi, rfl⟩ := List.getElem_of_mem hG
    exact read_ne_nil (hl.get (by rw [hl.length_eq]; exact hi) hi) hw
  rw [hc]
  by_cases hread : ∃ terms : List (List ESym), List.Forall₂ (fun (G : List Elem) t => G.map readElem = t.map some) Gs terms
  · obtain ⟨terms, ht⟩ := hread
    have hps' : List.Forall₂ (fun (p : ParsedExpression) t => p.composition = t.map symComp) ps terms := by
      clear hc hp hbad h hl hw
      induction ht generalizing ps with
      | nil => cases hps; exact .nil
      | cons a b ih => cases hps with
        | cons a' b' => exact .cons (by rw [a', readElem_denote a]) (ih _ b')
    have hen : Gs.flatMap elemNames = terms.flatMap symNames := by
      clear hc hp hbad h hl hw hps hps'
      induction ht with
      | nil => rfl
      | cons a b ih => simp only [List.flatMap_cons, ih, elemNames_read a]
    have htn : ∀ t ∈ terms, ∀ w ∈ symNames t, w ≠ [] := by
      intro t ht' w hw'
      have : w ∈ Gs.flatMap elemNames := by rw [hen]; exact List.mem_flatMap.2 ⟨t, ht', hw'⟩
      obtain ⟨G', hG', hw''⟩ := List.mem_flatMap.1 this
      exact hw G' hG' w hw''
    have e1 := einsumLefts_syms (K := []) (by simp) hps' htn
    rw [show letterDict [] = [] from rfl, List.length_nil] at e1
    rw [e1, grow_length, hen]
    by_cases h52 : distinct (terms.flatMap symNames) ≤ 52
    · simp only [if_pos h52, hp]
      have hb : ¬ ∃ t : List ESym, G.map readElem = t.map some := fun ⟨t, h'⟩ => hbad ⟨terms, t, Gs, G, h, ht, h'⟩
      obtain ⟨e2, e3⟩ := einsumRight_bad (K := grow [] (terms.flatMap symNames)) (by rw [grow_length]; exact h52)
        (fun w hw' => read_ne_nil hr hw') hb 1 0
      refine ⟨?_, fun _ h4 => ?_⟩
      · rcases e2 with e2 | e2
        · exact .inl (by rw [e2])
        · exact .inr (.inr (by rw [e2]))
      · rw [e3]
        intro w hw'
        obtain ⟨G', hG', hw''⟩ := h4 w hw'
        rw [mem_grow, ← hen]
        exact .inr (List.mem_flatMap.2 ⟨G', hG', hw''⟩)
    · simp only [if_neg h52]
      exact ⟨.inr (.inl trivial), fun h => absurd h h52⟩
  · obtain ⟨e2, e3⟩ := einsumLefts_bad (K := []) (by simp) hps hw hread
    rw [show letterDict [] = [] from rfl, List.length_nil] at e2 e3
    refine ⟨?_, fun h5 _ => by rw [e3 (by rw [grow_length]; exact h5)]⟩
    rcases e2 with e2 | e2
    · exact .inl (by rw [e2])
    · exact .inr (.inl (by rw [e2]))

omit [PyUnicode] in
theorem letterOf_mem {K : List Str} (hK : K.length ≤ 52) {w : Str} (hw : w ∈ K) : (letterOf K w).isAlpha = true := by
  have hall : ∀ c ∈ asciiLetters, c.isAlpha = true := by decide
  apply hall
  unfold letterOf
  have : K.idxOf w < asciiLetters.length := by
    rw [asciiLetters_length]; exact lt_of_lt_of_le (List.idxOf_lt_length_iff.2 hw) hK
  simp [List.getD, List.getElem?_eq_getElem this]

omit [PyUnicode] in
theorem letterOf_inj {K : List Str} (hK : K.length ≤ 52) {v w : Str} (hv : v ∈ K) (hw : w ∈ K)
    (h : letterOf K v = letterOf K w) : v = w := by
  have h1 : K.idxOf v < asciiLetters.length := by
    rw [asciiLetters_length]; exact lt_of_lt_of_le (List.idxOf_lt_length_iff.2 hv) hK
  have h2 : K.idxOf w < asciiLetters.length := by
    rw [asciiLetters_length]; exact lt_of_lt_of_le (List.idxOf_lt_length_iff.2 hw) hK
  unfold letterOf at h
  simp only [List.getD, List.getElem?_eq_getElem h1, List.getElem?_eq_getElem h2, Option.getD_some] at h
  have := (List.Nodup.getElem_inj_iff asciiLetters_nodup).1 h
  exact (List.idxOf_inj hv).1 this

end

end Einops
