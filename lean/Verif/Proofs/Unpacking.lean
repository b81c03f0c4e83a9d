import Verif.PackSpec
import Verif.Proofs.Packing

/-! `pack` and `unpack` satisfy their specification. -/

namespace Einops

universe u
variable {α : Type u}

theorem prod_ne_zero' {l : List Nat} : l.prod ≠ 0 ↔ 0 ∉ l := by
  induction l with
  | nil => simp
  | cons a l ih =>
    rw [List.prod_cons, List.mem_cons, not_or, ← ih, Nat.mul_ne_zero_iff]
    exact ⟨fun h => ⟨Ne.symm h.1, h.2⟩, fun h => ⟨Ne.symm h.1, h.2⟩⟩

/-! ### Shapes with an unknown length -/

theorem Fills.length {s : List Int} {t : List Nat} (h : Fills s t) : s.length = t.length := h.length_eq

theorem Fills.append {s s' : List Int} {t t' : List Nat} (h : Fills s t) (h' : Fills s' t') : Fills (s ++ s') (t ++ t') :=
  List.rel_append h h'

theorem fills_ofNat (t : List Nat) : Fills (t.map Int.ofNat) t := by
  induction t with
  | nil => exact .nil
  | cons a t ih => exact .cons (.inl rfl) ih

theorem Fills.known {s : List Int} {t : List Nat} (h : Fills s t) (hs : -1 ∉ s) : s = t.map Int.ofNat := by
  induction h with
  | nil => rfl
  | cons h1 _ ih =>
    simp only [List.mem_cons, not_or] at hs
    rw [List.map_cons, ← ih hs.2]
    rcases h1 with h1 | h1
    · rw [h1]; rfl
    · exact absurd h1.symm hs.1

theorem Fills.ofNat {s t : List Nat} (h : Fills (s.map Int.ofNat) t) : t = s := by
  have : -1 ∉ s.map Int.ofNat := by
    simp only [List.mem_map, not_exists, not_and]
    intro a _ h
    have : (0 : Int) ≤ Int.ofNat a := by simp
    omega
  have h1 := h.known this
  exact (List.map_injective_iff.2 (fun a b h => by simpa using h) h1).symm

theorem Fills.split {s s' : List Int} {t : List Nat} (h : Fills (s ++ s') t) : ∃ a b, t = a ++ b ∧ Fills s a ∧ Fills s' b := by
  induction s generalizing t with
  | nil => exact ⟨[], t, rfl, .nil, h⟩
  | cons d s ih =>
    obtain ⟨n, t', h1, h2, rfl⟩ := List.forall₂_cons_left_iff.1 h
    obtain ⟨a, b, rfl, fa, fb⟩ := ih h2
    exact ⟨n :: a, b, rfl, .cons h1 fa, fb⟩

/-- entries that are not unknown -/
def knownPart (s : List Int) : List Nat := (s.filter (fun d => decide (0 ≤ d))).map Int.toNat

theorem Fills.unknown {s : List Int} {t : List Nat} (h : Fills s t) (hs : s.count (-1) = 1) :
    ∃ v, t.prod = (knownPart s).prod * v ∧ t = s.map (fun d => if d < 0 then v else d.toNat) := by
  induction h with
  | nil => simp at hs
  | @cons d n s t h1 h2 ih =>
    by_cases hd : d = -1
    · subst hd
      rw [List.count_cons_self] at hs
      have h0 : -1 ∉ s := List.count_eq_zero.1 (by omega)
      have e := Fills.known h2 h0
      have hk : knownPart (-1 :: s) = t := by
        unfold knownPart
        rw [List.filter_cons_of_neg (by simp), e, List.filter_eq_self.2 (by simp), List.map_map]
        exact List.map_id _
      refine ⟨n, ?_, ?_⟩
      · rw [hk, List.prod_cons, Nat.mul_comm]
      · rw [List.map_cons, if_pos (by simp)]
        congr 1
        rw [e, List.map_map]
        conv_lhs => rw [← List.map_id t]
        exact List.map_congr_left (fun a _ => by simp)
    · have hn : d = (n : Int) := h1.resolve_right hd
      rw [List.count_cons_of_ne hd] at hs
      obtain ⟨v, e1, e2⟩ := ih hs
      refine ⟨v, ?_, ?_⟩
      · unfold knownPart at *
        rw [List.filter_cons_of_pos (by simp [hn]), List.map_cons, List.prod_cons, List.prod_cons, e1, hn, Int.toNat_natCast,
          Nat.mul_assoc]
      · rw [List.map_cons, ← e2, if_neg (by omega), hn, Int.toNat_natCast]

theorem filter_neg_count {s : List Int} (h : ∀ d ∈ s, -1 ≤ d) :
    (s.filter (fun d => decide (d < 0))).length = s.count (-1) := by
  rw [List.count_eq_length_filter]
  congr 1
  apply List.filter_congr
  intro d hd
  have := h d hd
  rw [Bool.eq_iff_iff]
  simp only [decide_eq_true_eq, beq_iff_eq]
  omega

theorem knownPart_ne_zero {s : List Int} : (knownPart s).prod ≠ 0 ↔ (0 : Int) ∉ s := by
  rw [prod_ne_zero']
  unfold knownPart
  simp only [List.mem_map, List.mem_filter, decide_eq_true_eq, not_exists, not_and, and_imp]
  constructor
  · intro h hm
    exact h 0 hm (le_refl _) rfl
  · intro h d hd h0 he
    have : d = 0 := by omega
    exact h (this ▸ hd)

/-- `reshape` with at most one unknown length -/
theorem reshape_iff {x y : Tensor α} {s : List Int} (hs : ∀ d ∈ s, -1 ≤ d) :
    x.reshape s = .ok y ↔ ∃ t, Fills s t ∧ s.count (-1) ≤ 1 ∧ (-1 ∈ s → (0 : Int) ∉ s) ∧ x.withShape t = .ok y := by
  have hc := filter_neg_count hs
  by_cases h0 : s.count (-1) = 0
  · have hm : -1 ∉ s := List.count_eq_zero.1 h0
    constructor
    · intro h
      refine ⟨s.map Int.toNat, ?_, by omega, fun h' => absurd h' hm, ?_⟩
      · have : s = (s.map Int.toNat).map Int.ofNat := by
          rw [List.map_map]
          conv_lhs => rw [← List.map_id s]
          refine List.map_congr_left (fun d hd => ?_)
          have := hs d hd
          have : d ≠ -1 := fun he => hm (he ▸ hd)
          simp
          omega
        conv_lhs => rw [this]
        exact fills_ofNat _
      · unfold Tensor.reshape resolveShape at h
        simp only [hc, h0] at h
        exact h
    · rintro ⟨t, h1, -, -, h2⟩
      rw [h1.known hm, reshape_nonneg]
      exact h2
  · by_cases h1 : s.count (-1) = 1
    · have hmem : -1 ∈ s := List.count_pos_iff.1 (by omega)
      constructor
      · intro h
        unfold Tensor.reshape resolveShape at h
        simp only [hc, h1] at h
        split at h
        · cases h
        · rename_i t ht
          split at ht
          · cases ht
          · rename_i hk
            cases ht
            refine ⟨_, ?_, by omega, fun _ => ?_, h⟩
            · unfold Fills
              rw [List.forall₂_map_right_iff, List.forall₂_same]
              intro d hd
              have := hs d hd
              split
              · right; omega
              · left; omega
            · exact knownPart_ne_zero.1 (fun h => hk (.inl h))
      · rintro ⟨t, h2, -, h3, h4⟩
        obtain ⟨v, e1, e2⟩ := h2.unknown h1
        have hk := knownPart_ne_zero.2 (h3 hmem)
        have hp : t.prod = x.shape.prod := by
          obtain ⟨a, b⟩ := withShape_ok.1 h4
          rw [← a, ← y.wf, ← x.wf, b]
        unfold Tensor.reshape resolveShape
        simp only [hc, h1]
        have hdiv : x.shape.prod / (knownPart s).prod = v := by
          rw [← hp, e1, Nat.mul_div_cancel_left _ (Nat.pos_of_ne_zero hk)]
        have hmod : x.shape.prod % (knownPart s).prod = 0 := by rw [← hp, e1, Nat.mul_mod_right]
        rw [if_neg (by
          rintro (h | h)
          · exact hk h
          · exact h hmod)]
        simp only
        have : s.map (fun d => if d < 0 then x.shape.prod / (knownPart s).prod else d.toNat) = t := by rw [hdiv, ← e2]
        unfold knownPart at this
        rw [this]
        exact h4
    · constructor
      · intro h
        unfold Tensor.reshape resolveShape at h
        simp only [hc] at h
        cases h
      · rintro ⟨t, _, h, _⟩
        omega

theorem PackModelled.reshape {ops : PackOps α} (h : PackModelled ops) {x : Tensor α} {s : List Int} (hs : ∀ d ∈ s, -1 ≤ d) :
    ops.reshape x s = x.reshape s := by
  cases h with
  | numpy => rfl
  | strict =>
    show x.reshapeStrict s = _
    unfold Tensor.reshapeStrict
    rw [if_neg]
    rintro ⟨d, hd, h⟩
    have := hs d hd
    omega

theorem PackModelled.concat {ops : PackOps α} (h : PackModelled ops) : ops.concat = Tensor.concat := by cases h <;> rfl
theorem PackModelled.slice {ops : PackOps α} (h : PackModelled ops) : ops.slice = Tensor.slice := by cases h <;> rfl

/-! ### Uniqueness -/

theorem Packs.whole_unique {pre post : List Nat} {xs : List (Tensor α)} {rs : List (List Nat)} {y y' : Tensor α}
    (h : Packs pre post xs rs y) (h' : Packs pre post xs rs y') : y = y' := by
  refine Tensor.ext_at? (h.whole.trans h'.whole.symm) ?_
  intro t ht
  rw [h.whole] at ht
  obtain ⟨i, s, j, rfl, hi, hs, hj⟩ := inBounds_split (mid := [_]) (by simpa using ht)
  obtain ⟨q, rfl⟩ : ∃ q, s = [q] := List.length_eq_one_iff.1 (by simpa using inBounds_length hs)
  simp only [inBounds_cons, inBounds_nil, and_true] at hs
  obtain ⟨k, m, n, h1, h2, rfl⟩ := exists_offset _ q hs
  rw [List.getElem?_map, Option.map_eq_some_iff] at h1
  obtain ⟨r, hr, rfl⟩ := h1
  obtain ⟨s, hsb, rfl⟩ := ravel_surj h2
  have hlt : k < xs.length := by rw [← h.count]; exact (List.getElem?_eq_some_iff.1 hr).1
  have hx : xs[k]? = some xs[k] := by simp [hlt]
  rw [List.append_assoc, List.singleton_append, h.entry k _ r hx hr i s j hi hsb hj, h'.entry k _ r hx hr i s j hi hsb hj]

theorem Packs.parts_unique {pre post : List Nat} {xs xs' : List (Tensor α)} {rs : List (List Nat)} {y : Tensor α}
    (h : Packs pre post xs rs y) (h' : Packs pre post xs' rs y) : xs = xs' := by
  apply List.ext_getElem?
  intro k
  cases hk : rs[k]? with
  | none =>
    rw [List.getElem?_eq_none_iff] at hk
    rw [List.getElem?_eq_none (by rw [← h.count]; exact hk), List.getElem?_eq_none (by rw [← h'.count]; exact hk)]
  | some r =>
    have hlt : k < rs.length := (List.getElem?_eq_some_iff.1 hk).1
    have hx : xs[k]? = some (xs[k]'(by rw [← h.count]; exact hlt)) := by simp [← h.count, hlt]
    have hx' : xs'[k]? = some (xs'[k]'(by rw [← h'.count]; exact hlt)) := by simp [← h'.count, hlt]
    rw [hx, hx']
    congr 1
    refine Tensor.ext_at? ((h.part k _ r hx hk).trans (h'.part k _ r hx' hk).symm) ?_
    intro t ht
    rw [h.part k _ r hx hk] at ht
    obtain ⟨i, s, j, rfl, hi, hs, hj⟩ := inBounds_split ht
    rw [← h.entry k _ r hx hk i s j hi hs hj, ← h'.entry k _ r hx' hk i s j hi hs hj]

/-! ### The pattern -/

section
variable [PyUnicode]

theorem checkAxisName_pack {w : Str} : checkAxisName false w = true ↔ IsPackName w := by
  unfold checkAxisName IsPackName
  rw [← isIdentifier_iff]
  cases h : isIdentifier w with
  | false => simp
  | true =>
    simp only [Bool.not_true, Bool.false_eq_true, if_false, true_and]
    split
    · rename_i h2
      simp only [Bool.and_false, Bool.false_eq_true, false_iff, not_and, ne_eq, not_not]
      intro h3
      exact h2.resolve_left h3
    · rename_i h2
      rw [not_or] at h2
      simp [h2]

theorem star_not_name : ¬ IsPackName ['*'] := by
  rintro ⟨h, _⟩
  rw [← isIdentifier_iff] at h
  have h1 := (PyUnicode.special_not_xid '*' (by simp)).1
  simp [isIdentifier, h1] at h

theorem splitWsGo_word {w : Str} (hw : ∀ c ∈ w, PyUnicode.isSpace c = false) (s cur : Str) :
    splitWsGo (w ++ s) cur = splitWsGo s (w.reverse ++ cur) := by
  induction w generalizing cur with
  | nil => rfl
  | cons c w ih =>
    rw [List.cons_append, splitWsGo, if_neg (by rw [hw c (by simp)]; simp), ih (fun d hd => hw d (by simp [hd]))]
    simp

theorem words_iff {s : Str} {ws : List Str} : Words s ws ↔ splitWs s = ws := by
  constructor
  · intro h
    unfold splitWs
    induction h with
    | nil => rfl
    | space hc _ ih => rw [splitWsGo, if_pos hc, if_pos rfl, ih]
    | @last w h1 h2 =>
      have := splitWsGo_word h2 [] []
      rw [List.append_nil, List.append_nil] at this
      rw [this, splitWsGo, if_neg (by simpa using h1), List.reverse_reverse]
    | word h1 h2 hc _ ih =>
      rw [splitWsGo_word h2, List.append_nil, splitWsGo, if_pos hc, if_neg (by simpa using h1), List.reverse_reverse, ih]
  · rintro rfl
    have key : ∀ (s cur : Str), (∀ c ∈ cur, PyUnicode.isSpace c = false) → Words (cur.reverse ++ s) (splitWsGo s cur) := by
      intro s
      induction s with
      | nil =>
        intro cur hcur
        rw [splitWsGo, List.append_nil]
        split
        · rename_i h; subst h; exact .nil
        · rename_i h; exact .last (by simpa using h) (fun c hc => hcur c (by simpa using hc))
      | cons c s ih =>
        intro cur hcur
        rw [splitWsGo]
        split
        · rename_i hc
          split
          · rename_i h; subst h; exact .space hc (ih [] (by simp))
          · rename_i h
            exact .word (by simpa using h) (fun c hc => hcur c (by simpa using hc)) hc (ih [] (by simp))
        · rename_i hc
          have := ih (c :: cur) (fun d hd => by
            rcases List.mem_cons.1 hd with rfl | hd
            · simpa using hc
            · exact hcur d hd)
          simpa using this
    exact key s [] (by simp)

theorem analyzePattern_iff {pattern : Str} {b a m : Nat} :
    analyzePattern pattern = .ok (b, a, m) ↔ IsPackPattern pattern b a ∧ m = b + a := by
  unfold analyzePattern
  simp only
  have hdd : (splitWs pattern).length ≠ (splitWs pattern).dedup.length ↔ ¬ (splitWs pattern).Nodup := by
    constructor
    · intro h hn
      rw [hn.dedup] at h
      exact h rfl
    · intro h he
      apply h
      rw [← (List.dedup_sublist _).eq_of_length he.symm]
      exact List.nodup_dedup _
  constructor
  · intro h
    split at h
    · cases h
    · rename_i h1
      split at h
      · cases h
      · rename_i h2
        split at h
        · cases h
        · rename_i h3
          rw [hdd, not_not] at h1
          rw [not_not] at h2
          obtain ⟨A, B, hAB⟩ := List.append_of_mem h2
          have hA : ['*'] ∉ A := by
            rw [hAB] at h1
            intro hm
            exact (List.nodup_append.1 h1).2.2 _ hm _ (by simp) rfl
          have hB : ['*'] ∉ B := by
            rw [hAB] at h1
            exact (List.nodup_cons.1 (List.nodup_append.1 h1).2.1).1
          have hidx : (splitWs pattern).idxOf ['*'] = A.length := by
            rw [hAB, List.idxOf_append_of_notMem hA]
            simp
          have hlen : (splitWs pattern).length = A.length + 1 + B.length := by
            rw [hAB]
            simp
            omega
          rw [hidx, hlen] at h
          simp only [Except.ok.injEq, Prod.mk.injEq] at h
          obtain ⟨rfl, ha, rfl⟩ := h
          have ha' : B.length = a := by omega
          refine ⟨⟨A, B, words_iff.2 hAB, rfl, ha', ?_, ?_⟩, by omega⟩
          · rw [hAB] at h1
            exact (List.nodup_append.1 h1).2.1.tail |> fun hb => List.nodup_append.2
              ⟨(List.nodup_append.1 h1).1, hb, fun x hx y hy => (List.nodup_append.1 h1).2.2 x hx y (by simp [show y ∈ B from hy])⟩
          · intro w hw
            have hne : w ≠ ['*'] := by
              rintro rfl
              rcases List.mem_append.1 hw with h | h
              · exact hA h
              · exact hB h
            rw [← checkAxisName_pack]
            by_contra hc
            apply h3
            rw [List.any_eq_true]
            refine ⟨w, ?_, by simp [hne, hc]⟩
            rw [hAB]
            rcases List.mem_append.1 hw with h | h <;> simp [h]
  · rintro ⟨⟨A, B, hAB, rfl, rfl, hn, hw⟩, rfl⟩
    rw [words_iff] at hAB
    have hA : ['*'] ∉ A := fun h => star_not_name (hw _ (by simp [h]))
    have hB : ['*'] ∉ B := fun h => star_not_name (hw _ (by simp [h]))
    have hnd : (splitWs pattern).Nodup := by
      rw [hAB]
      have h1 := List.nodup_append.1 hn
      refine List.nodup_append.2 ⟨h1.1, List.nodup_cons.2 ⟨hB, h1.2.1⟩, ?_⟩
      intro x hx y hy
      rcases List.mem_cons.1 hy with rfl | hy
      · rintro rfl; exact hA hx
      · exact h1.2.2 x hx y hy
    rw [if_neg (by rw [hdd, not_not]; exact hnd), if_neg (by rw [hAB]; simp), if_neg]
    · have hidx : (splitWs pattern).idxOf ['*'] = A.length := by
        rw [hAB, List.idxOf_append_of_notMem hA]
        simp
      rw [hidx, hAB]
      simp
    · rw [List.any_eq_true]
      rintro ⟨w, hm, hc⟩
      simp only [Bool.and_eq_true, decide_eq_true_eq, Bool.not_eq_true'] at hc
      have : w ∈ A ++ B := by
        rw [hAB] at hm
        rcases List.mem_append.1 hm with h | h
        · simp [h]
        · rcases List.mem_cons.1 h with h | h
          · exact absurd h hc.1
          · simp [h]
      rw [checkAxisName_pack.2 (hw w this)] at hc
      exact absurd hc.2 (by simp)

theorem analyzePattern_err {pattern : Str} {e : PyErr} (h : analyzePattern pattern = .error e) : e = .einops := by
  unfold analyzePattern at h
  simp only at h
  split at h
  · cases h; rfl
  · split at h
    · cases h; rfl
    · split at h
      · cases h; rfl
      · cases h

theorem IsPackPattern.unique {pattern : Str} {b a b' a' : Nat} (h : IsPackPattern pattern b a) (h' : IsPackPattern pattern b' a') :
    b = b' ∧ a = a' := by
  have h1 := analyzePattern_iff.2 ⟨h, rfl⟩
  have h2 := analyzePattern_iff.2 ⟨h', rfl⟩
  rw [h1] at h2
  simp only [Except.ok.injEq, Prod.mk.injEq] at h2
  exact ⟨h2.1, h2.2.1⟩

end

/-! ### pack -/

theorem three_parts {s pre r post : List Nat} (h : s = pre ++ r ++ post) :
    s.take pre.length = pre ∧ s.drop (s.length - post.length) = post ∧
      (s.take (s.length - post.length)).drop pre.length = r := by
  subst h
  refine ⟨by simp, ?_, ?_⟩
  · have : (pre ++ r ++ post).length - post.length = (pre ++ r).length := by simp; omega
    rw [this]
    simp
  · have : (pre ++ r ++ post).length - post.length = (pre ++ r).length := by simp; omega
    rw [this, List.take_left, List.drop_left]

theorem count_pre_post (pre post : List Nat) :
    ((pre.map Int.ofNat) ++ (-1) :: (post.map Int.ofNat)).count (-1) = 1 := by
  have h : ∀ l : List Nat, (l.map Int.ofNat).count (-1) = 0 := by
    intro l
    rw [List.count_eq_zero]
    simp only [List.mem_map, not_exists, not_and]
    intro a _ h
    have : (0 : Int) ≤ Int.ofNat a := by simp
    omega
  rw [List.count_append, List.count_cons_self, h, h]

theorem ge_pre_post (pre post : List Nat) : ∀ d ∈ (pre.map Int.ofNat) ++ (-1) :: (post.map Int.ofNat), -1 ≤ d := by
  intro d hd
  simp only [List.mem_append, List.mem_map, List.mem_cons] at hd
  rcases hd with ⟨a, _, rfl⟩ | rfl | ⟨a, _, rfl⟩ <;> simp

theorem zero_pre_post (pre post : List Nat) :
    (0 : Int) ∈ (pre.map Int.ofNat) ++ (-1) :: (post.map Int.ofNat) ↔ 0 ∈ pre ∨ 0 ∈ post := by
  simp

/-- the loop on tensors that share the other dimensions -/
theorem packLoop_ok {ops : PackOps α} (ho : PackModelled ops) {pre post : List Nat} (h0 : 0 ∉ pre ∧ 0 ∉ post)
    {xs : List (Tensor α)} {rs : List (List Nat)} (h : List.Forall₂ (fun x r => x.shape = pre ++ r ++ post) xs rs) :
    ∃ zs, packLoop ops pre.length post.length (pre.length + post.length) xs = .ok (zs, rs) ∧
      List.Forall₂ (fun (x z : Tensor α) => x.data = z.data) xs zs ∧
      List.Forall₂ (fun z r => z.shape = pre ++ r.prod :: post) zs rs := by
  induction h with
  | nil => exact ⟨[], rfl, .nil, .nil⟩
  | @cons x r xs rs h1 h2 ih =>
    obtain ⟨zs, e1, e2, e3⟩ := ih
    obtain ⟨p1, p2, p3⟩ := three_parts h1
    have hprod : (pre ++ r.prod :: post).prod = x.shape.prod := by simp [h1]
    obtain ⟨z, hz⟩ : ∃ z, x.withShape (pre ++ r.prod :: post) = .ok z := by
      unfold Tensor.withShape
      rw [dif_pos hprod]
      exact ⟨_, rfl⟩
    have hr : ops.reshape x ((x.shape.take pre.length).map Int.ofNat ++ (-1) ::
        (x.shape.drop (x.shape.length - post.length)).map Int.ofNat) = .ok z := by
      rw [p1, p2, ho.reshape (ge_pre_post pre post), reshape_iff (ge_pre_post pre post)]
      refine ⟨pre ++ r.prod :: post, ?_, (count_pre_post pre post).le, ?_, hz⟩
      · exact (fills_ofNat pre).append (.cons (.inr rfl) (fills_ofNat post))
      · intro _
        rw [zero_pre_post]
        rintro (h | h)
        · exact h0.1 h
        · exact h0.2 h
    obtain ⟨s1, s2⟩ := withShape_ok.1 hz
    refine ⟨z :: zs, ?_, .cons s2.symm e2, .cons s1 e3⟩
    rw [packLoop, if_neg (by rw [h1]; simp)]
    simp only [hr, e1, p3]

theorem forall₂_get {A B : Type*} {R : A → B → Prop} {as : List A} {bs : List B} (h : List.Forall₂ R as bs) (k : Nat)
    {a : A} {b : B} (ha : as[k]? = some a) (hb : bs[k]? = some b) : R a b := by
  induction h generalizing k with
  | nil => simp at ha
  | cons h1 _ ih =>
    cases k with
    | zero => simp only [List.getElem?_cons_zero, Option.some.injEq] at ha hb; subst ha hb; exact h1
    | succ k => exact ih k (by simpa using ha) (by simpa using hb)

theorem forall₂_of_get {A B : Type*} {R : A → B → Prop} {as : List A} {bs : List B} (hl : as.length = bs.length)
    (h : ∀ (k : Nat) (a : A) (b : B), as[k]? = some a → bs[k]? = some b → R a b) : List.Forall₂ R as bs := by
  induction as generalizing bs with
  | nil =>
    cases bs with
    | nil => exact .nil
    | cons => simp at hl
  | cons a as ih =>
    cases bs with
    | nil => simp at hl
    | cons b bs =>
      exact .cons (h 0 a b (by simp) (by simp)) (ih (by simpa using hl) (fun k a b ha hb => h (k + 1) a b (by simpa) (by simpa)))

section
variable [PyUnicode]

/-- tensors that share the other, non-zero dimensions can be packed -/
theorem pack_exists {ops : PackOps α} (ho : PackModelled ops) {pattern : Str} {pre post : List Nat}
    (hp : IsPackPattern pattern pre.length post.length) (h0 : 0 ∉ pre ∧ 0 ∉ post)
    {xs : List (Tensor α)} {rs : List (List Nat)} (hne : xs ≠ [])
    (h : List.Forall₂ (fun x r => x.shape = pre ++ r ++ post) xs rs) :
    ∃ y, pack ops xs pattern = .ok (y, rs) ∧ Packs pre post xs rs y := by
  obtain ⟨zs, e1, e2, e3⟩ := packLoop_ok ho h0 h
  have hlz : zs.length = rs.length := e3.length_eq
  have hlx : xs.length = rs.length := h.length_eq
  obtain ⟨y, hy, hys, hye⟩ := concat_ok (pre := pre) (post := post) (zs := zs) (ns := rs.map List.prod)
    (by
      rintro rfl
      rw [List.length_nil] at hlz
      exact hne (List.length_eq_zero_iff.1 (by omega)))
    (by simp [hlz])
    (by
      intro k z n hz hn
      rw [List.getElem?_map, Option.map_eq_some_iff] at hn
      obtain ⟨r, hr, rfl⟩ := hn
      exact forall₂_get e3 k hz hr)
  refine ⟨y, ?_, hlx.symm, ?_, hys, ?_⟩
  · unfold pack
    rw [analyzePattern_iff.2 ⟨hp, rfl⟩]
    cases xs with
    | nil => exact absurd rfl hne
    | cons x xs =>
      simp only [e1, ho.concat, hy]
  · exact fun k x r hx hr => forall₂_get h k hx hr
  · intro k x r hx hr i s j hi hs hj
    have hk : k < zs.length := by rw [hlz]; exact (List.getElem?_eq_some_iff.1 hr).1
    have hz : zs[k]? = some zs[k] := by simp [hk]
    rw [hye k zs[k] r.prod hz (by simp [hr]) i (ravel r s) j hi (ravel_lt hs) hj]
    exact at?_merge (forall₂_get e2 k hx hz) (forall₂_get h k hx hr) (forall₂_get e3 k hz hr) hi hs hj

omit [PyUnicode] in
/-- what a successful loop says about the shapes -/
theorem packLoop_shapes {ops : PackOps α} (ho : PackModelled ops) {before after : Nat} {xs : List (Tensor α)}
    {zs : List (Tensor α)} {ps : List (List Nat)} (h : packLoop ops before after (before + after) xs = .ok (zs, ps)) :
    List.Forall₂ (fun x z => ∃ pre r post n, x.shape = pre ++ r ++ post ∧ pre.length = before ∧ post.length = after ∧
      z.shape = pre ++ n :: post ∧ 0 ∉ pre ∧ 0 ∉ post) xs zs := by
  induction xs generalizing zs ps with
  | nil => simp only [packLoop, Except.ok.injEq, Prod.mk.injEq] at h; rw [← h.1]; exact .nil
  | cons x xs ih =>
    rw [packLoop] at h
    split at h
    · cases h
    · rename_i hl
      simp only at h
      split at h
      · cases h
      · rename_i z hz
        split at h
        · cases h
        · rename_i zs' ps' hrec
          simp only [Except.ok.injEq, Prod.mk.injEq] at h
          rw [← h.1]
          refine .cons ?_ (ih hrec)
          rw [ho.reshape (ge_pre_post _ _), reshape_iff (ge_pre_post _ _)] at hz
          obtain ⟨t, hf, -, hzero, hw⟩ := hz
          rw [zero_pre_post] at hzero
          have hz0 := hzero (by simp)
          rw [not_or] at hz0
          obtain ⟨hs, -⟩ := withShape_ok.1 hw
          have : ∃ n, t = x.shape.take before ++ n :: x.shape.drop (x.shape.length - after) := by
            obtain ⟨a, b, rfl, fa, fb⟩ := hf.split
            obtain ⟨n, b, -, fb', rfl⟩ := List.forall₂_cons_left_iff.1 fb
            rw [fa.ofNat, Fills.ofNat fb']
            exact ⟨n, rfl⟩
          obtain ⟨n, hn⟩ := this
          refine ⟨x.shape.take before, (x.shape.take (x.shape.length - after)).drop before,
            x.shape.drop (x.shape.length - after), n, ?_, by simp; omega, by simp; omega, hs.trans hn, hz0⟩
          conv_lhs => rw [← List.take_append_drop (x.shape.length - after) x.shape,
            ← List.take_append_drop before (x.shape.take (x.shape.length - after))]
          rw [List.take_take, Nat.min_eq_left (by omega)]

/-- exactly which tensors can be packed, and the result -/
theorem pack_iff {ops : PackOps α} (ho : PackModelled ops) {pattern : Str} {xs : List (Tensor α)} {y : Tensor α}
    {ps : List (List Nat)} :
    pack ops xs pattern = .ok (y, ps) ↔ xs ≠ [] ∧ ∃ pre post, IsPackPattern pattern pre.length post.length ∧
      0 ∉ pre ∧ 0 ∉ post ∧ Packs pre post xs ps y := by
  constructor
  · intro h
    have h' := h
    unfold pack at h
    cases ha : analyzePattern pattern with
    | error e => rw [ha] at h; cases h
    | ok v =>
      obtain ⟨b, a, m⟩ := v
      obtain ⟨hp, rfl⟩ := analyzePattern_iff.1 ha
      rw [ha] at h
      cases xs with
      | nil => cases h
      | cons x xs =>
        simp only at h
        split at h
        · cases h
        · rename_i zs ps' hloop
          split at h
          · cases h
          · rename_i y' hy'
            have hsh := packLoop_shapes ho hloop
            rw [ho.concat] at hy'
            cases zs with
            | nil => cases hsh
            | cons z zs =>
              obtain ⟨⟨pre, r, post, n, e1, e2, e3, e4, e5, e6⟩, hrest⟩ := List.forall₂_cons.1 hsh
              have hcs := concat_shapes hy'
              have hall : ∀ x' ∈ xs, ∃ r, x'.shape = pre ++ r ++ post := by
                intro x' hx'
                obtain ⟨k, hk⟩ := List.getElem?_of_mem hx'
                have hlt : k < zs.length := by
                  rw [← hrest.length_eq]; exact (List.getElem?_eq_some_iff.1 hk).1
                obtain ⟨pre', r', post', n', f1, f2, f3, f4, f5, f6⟩ := forall₂_get hrest k hk (b := zs[k]) (by simp [hlt])
                have hc := hcs zs[k] (List.getElem_mem _)
                rw [f4, e4] at hc
                rw [← f2] at hc
                rw [set_mid, set_mid' (by rw [e2, f2])] at hc
                obtain ⟨rfl, hc2⟩ := List.append_inj hc (by rw [e2, f2])
                simp only [List.cons.injEq, true_and] at hc2
                subst hc2
                exact ⟨r', f1⟩
              obtain ⟨rs, hrs⟩ : ∃ rs, List.Forall₂ (fun x r => x.shape = pre ++ r ++ post) xs rs := by
                clear hrest hcs hsh h hloop hy' h'
                induction xs with
                | nil => exact ⟨[], .nil⟩
                | cons x' xs ih =>
                  obtain ⟨r', hr'⟩ := hall x' (by simp)
                  obtain ⟨rs, hrs⟩ := ih (fun x hx => hall x (by simp [hx]))
                  exact ⟨r' :: rs, .cons hr' hrs⟩
              have hpp : IsPackPattern pattern pre.length post.length := by rw [e2, e3]; exact hp
              obtain ⟨y'', hy'', hpk⟩ := pack_exists ho hpp ⟨e5, e6⟩ (xs := x :: xs) (rs := r :: rs) (by simp) (.cons e1 hrs)
              rw [hy''] at h'
              simp only [Except.ok.injEq, Prod.mk.injEq] at h'
              obtain ⟨rfl, rfl⟩ := h'
              exact ⟨by simp, pre, post, hpp, e5, e6, hpk⟩
  · rintro ⟨hne, pre, post, hp, h1, h2, hpk⟩
    obtain ⟨y', hy', hpk'⟩ := pack_exists ho hp ⟨h1, h2⟩ (xs := xs) (rs := ps) hne
      (forall₂_of_get hpk.count.symm hpk.part)
    rw [hy', hpk.whole_unique hpk']

end

/-! ### Split positions -/

theorem pyProd_eq (s : List Int) : pyProd s = s.prod := by
  unfold pyProd
  rw [List.prod_eq_foldl]

theorem prod_ofNat (t : List Nat) : (t.map Int.ofNat).prod = (t.prod : Int) := by
  induction t with
  | nil => rfl
  | cons a t ih => simp [ih]

/-- the forward loop -/
theorem fold_forward (ds : List Int) (k : Nat) (sp : List Int) (hk : k + ds.length < sp.length) :
    let r := (ds.zipIdx k).foldl (fun sp p => sp.set (p.2 + 1) (sp.getD p.2 0 + p.1)) sp
    r.length = sp.length ∧ (∀ i, i ≤ ds.length → r.getD (k + i) 0 = sp.getD k 0 + (ds.take i).sum) ∧
      (∀ i, i < k ∨ k + ds.length < i → r.getD i 0 = sp.getD i 0) := by
  induction ds generalizing k sp with
  | nil => simp
  | cons d ds ih =>
    simp only [List.zipIdx_cons, List.foldl_cons]
    simp only [List.length_cons] at hk
    obtain ⟨h1, h2, h3⟩ := ih (k + 1) (sp.set (k + 1) (sp.getD k 0 + d)) (by simp; omega)
    refine ⟨by rw [h1]; simp, ?_, ?_⟩
    · intro i hi
      cases i with
      | zero =>
        rw [h3 (k + 0) (by omega)]
        simp [List.getD_eq_getElem?_getD]
      | succ i =>
        have := h2 i (by simpa using hi)
        rw [show k + (i + 1) = k + 1 + i from by omega, this]
        simp only [List.getD_eq_getElem?_getD, List.getElem?_set_self (show k + 1 < sp.length by omega), Option.getD_some,
          List.take_succ_cons, List.sum_cons]
        ring
    · intro i hi
      simp only [List.length_cons] at hi
      rw [h3 i (by omega)]
      simp only [List.getD_eq_getElem?_getD]
      rw [List.getElem?_set_ne (by omega)]

/-- the backward loop -/
theorem fold_backward (l : List Int) (a c : Nat) (sp : List Int) (hl : a + c ≤ l.length) (hs : a + c < sp.length) :
    let r := (List.range' a c).reverse.foldl (fun sp j => sp.set j (sp.getD (j + 1) 0 - l.getD j 0)) sp
    r.length = sp.length ∧
      (∀ j, a ≤ j → j ≤ a + c → r.getD j 0 = sp.getD (a + c) 0 - ((l.take (a + c)).sum - (l.take j).sum)) ∧
      (∀ j, j < a ∨ a + c ≤ j → r.getD j 0 = sp.getD j 0) := by
  induction c generalizing sp with
  | zero =>
    refine ⟨rfl, ?_, fun _ _ => rfl⟩
    intro j h1 h2
    have : j = a := by omega
    subst this
    simp
  | succ c ih =>
    have hrev : (List.range' a (c + 1)).reverse = (a + c) :: (List.range' a c).reverse := by
      rw [List.range'_concat]
      simp
    simp only [hrev, List.foldl_cons]
    obtain ⟨h1, h2, h3⟩ := ih (sp.set (a + c) (sp.getD (a + c + 1) 0 - l.getD (a + c) 0)) (by omega) (by simp; omega)
    have hsum : (l.take (a + c + 1)).sum = (l.take (a + c)).sum + l.getD (a + c) 0 := by
      rw [List.take_add_one, List.sum_append]
      congr 1
      rw [List.getD_eq_getElem?_getD, List.getElem?_eq_getElem (by omega)]
      simp
    refine ⟨by rw [h1]; simp, ?_, ?_⟩
    · intro j hj1 hj2
      by_cases hj : j ≤ a + c
      · rw [h2 j hj1 hj]
        simp only [List.getD_eq_getElem?_getD, List.getElem?_set_self (show a + c < sp.length by omega), Option.getD_some]
        rw [show a + (c + 1) = a + c + 1 from by omega, hsum]
        simp only [List.getD_eq_getElem?_getD]
        ring
      · have : j = a + (c + 1) := by omega
        subst this
        rw [h3 _ (by omega)]
        simp only [List.getD_eq_getElem?_getD]
        rw [List.getElem?_set_ne (by omega)]
        ring
    · intro j hj
      rw [h3 j (by omega)]
      simp only [List.getD_eq_getElem?_getD]
      rw [List.getElem?_set_ne (by omega)]

theorem init_getD (n N : Nat) (i : Nat) (hi : i < n) : (List.replicate n (0 : Int) ++ [(N : Int)]).getD i 0 = 0 := by
  rw [List.getD_eq_getElem?_getD, List.getElem?_append_left (by simpa using hi)]
  simp [hi]

theorem init_last (n N : Nat) : (List.replicate n (0 : Int) ++ [(N : Int)]).getD n 0 = N := by
  rw [List.getD_eq_getElem?_getD, List.getElem?_append_right (by simp)]
  simp

/-- positions when every length is known -/
theorem splitPositions_known (N : Nat) (l : List Int) (hl : -1 ∉ l) :
    (∀ i, i < l.length → (splitPositions N l).getD i 0 = (l.take i).sum) ∧ (splitPositions N l).getD l.length 0 = N := by
  unfold splitPositions
  simp only [List.count_eq_zero.2 hl, if_true]
  cases hn : l.length with
  | zero =>
    have : l = [] := List.length_eq_zero_iff.1 hn
    subst this
    simp
  | succ n =>
    obtain ⟨-, h2, h3⟩ := fold_forward l.dropLast 0 (List.replicate (n + 1) (0 : Int) ++ [(N : Int)]) (by simp [hn]; omega)
    refine ⟨?_, ?_⟩
    · intro i hi
      have := h2 i (by simp [hn]; omega)
      rw [Nat.zero_add] at this
      rw [this, init_getD _ _ _ (by omega), zero_add, List.dropLast_eq_take, List.take_take, Nat.min_eq_left (by omega)]
    · rw [h3 (n + 1) (.inr (by simp [hn])), init_last]

/-- positions with an unknown length -/
theorem splitPositions_unknown (N : Nat) (A B : List Int) (hA : -1 ∉ A) :
    (∀ i, i ≤ A.length → (splitPositions N (A ++ -1 :: B)).getD i 0 = (A.take i).sum) ∧
    (∀ j, A.length < j → j ≤ (A ++ -1 :: B).length →
      (splitPositions N (A ++ -1 :: B)).getD j 0 = N - ((A ++ -1 :: B).drop j).sum) := by
  have hc : (A ++ -1 :: B).count (-1) ≠ 0 := by simp
  have hu : (A ++ -1 :: B).idxOf (-1) = A.length := by
    rw [List.idxOf_append_of_notMem hA]
    simp
  unfold splitPositions
  simp only [hc, if_false, hu]
  generalize hl : A ++ -1 :: B = l
  have hlen : l.length = A.length + 1 + B.length := by rw [← hl]; simp; omega
  have hfor : (List.range A.length).foldl (fun (sp : List Int) i => sp.set (i + 1) (sp.getD i 0 + l.getD i 0))
      (List.replicate l.length (0 : Int) ++ [(N : Int)]) =
      (A.zipIdx 0).foldl (fun sp p => sp.set (p.2 + 1) (sp.getD p.2 0 + p.1)) (List.replicate l.length (0 : Int) ++ [(N : Int)]) := by
    have : A.zipIdx 0 = (List.range A.length).map (fun i => (l.getD i 0, i)) := by
      apply List.ext_getElem
      · simp
      · intro k h1 h2
        simp only [List.length_zipIdx] at h1
        simp only [List.getElem_zipIdx, Nat.zero_add, List.getElem_map, List.getElem_range, Prod.mk.injEq, and_true]
        rw [← hl, List.getD_eq_getElem?_getD, List.getElem?_append_left h1]
        simp [h1]
    rw [this, List.foldl_map]
  rw [hfor]
  obtain ⟨f1, f2, f3⟩ := fold_forward A 0 (List.replicate l.length (0 : Int) ++ [(N : Int)]) (by simp; omega)
  generalize (A.zipIdx 0).foldl (fun sp p => sp.set (p.2 + 1) (sp.getD p.2 0 + p.1))
    (List.replicate l.length (0 : Int) ++ [(N : Int)]) = sp at f1 f2 f3
  obtain ⟨b1, b2, b3⟩ := fold_backward l (A.length + 1) (l.length - (A.length + 1)) sp (by omega) (by rw [f1]; simp; omega)
  constructor
  · intro i hi
    rw [b3 i (by omega)]
    have := f2 i hi
    rw [Nat.zero_add] at this
    rw [this, init_getD _ _ _ (by omega), zero_add]
  · intro j h1 h2
    rw [b2 j (by omega) (by omega), show A.length + 1 + (l.length - (A.length + 1)) = l.length from by omega,
      f3 _ (by omega), init_last, List.take_length]
    have : l.sum = (l.take j).sum + (l.drop j).sum := by rw [← List.sum_append, List.take_append_drop]
    rw [this]
    ring

/-! ### Lengths of packed shapes -/

theorem composedLengths_known {ps : List (List Int)} {rs : List (List Nat)} (h : List.Forall₂ Fills ps rs)
    (hk : -1 ∉ ps.flatten) : composedLengths ps = (rs.map List.prod).map Int.ofNat := by
  induction h with
  | nil => rfl
  | @cons s t ps rs h1 h2 ih =>
    rw [List.flatten_cons, List.mem_append, not_or] at hk
    unfold composedLengths at *
    rw [List.map_cons, ih hk.2, if_neg hk.1, pyProd_eq, h1.known hk.1, prod_ofNat]
    rfl

theorem forall₂_split_left {A B : Type*} {R : A → B → Prop} {s s' : List A} {t : List B} (h : List.Forall₂ R (s ++ s') t) :
    ∃ a b, List.Forall₂ R s a ∧ List.Forall₂ R s' b ∧ t = a ++ b := by
  induction s generalizing t with
  | nil => exact ⟨[], t, .nil, h, rfl⟩
  | cons d s ih =>
    obtain ⟨n, t', h1, h2, rfl⟩ := List.forall₂_cons_left_iff.1 h
    obtain ⟨a, b, fa, fb, rfl⟩ := ih h2
    exact ⟨n :: a, b, .cons h1 fa, fb, rfl⟩

theorem sum_ofNat (l : List Nat) : (l.map Int.ofNat).sum = (l.sum : Int) := by
  induction l with
  | nil => rfl
  | cons a l ih => simp [ih]

theorem neg_one_not_mem_ofNat (l : List Nat) : -1 ∉ l.map Int.ofNat := by
  simp only [List.mem_map, not_exists, not_and]
  intro a _ h
  have : (0 : Int) ≤ Int.ofNat a := by simp
  omega

/-- split at the shape with the unknown length -/
theorem unknown_split {ps : List (List Int)} (h : -1 ∈ ps.flatten) (hone : ps.flatten.count (-1) ≤ 1) :
    ∃ A s B, ps = A ++ s :: B ∧ -1 ∈ s ∧ -1 ∉ A.flatten ∧ -1 ∉ B.flatten := by
  obtain ⟨s, hs, hm⟩ := List.mem_flatten.1 h
  obtain ⟨A, B, rfl⟩ := List.append_of_mem hs
  rw [List.flatten_append, List.flatten_cons, List.count_append, List.count_append] at hone
  have := List.count_pos_iff.2 hm
  refine ⟨A, s, B, rfl, hm, ?_, ?_⟩
  · intro h'
    have := List.count_pos_iff.2 h'
    omega
  · intro h'
    have := List.count_pos_iff.2 h'
    omega

theorem composedLengths_append (A B : List (List Int)) :
    composedLengths (A ++ B) = composedLengths A ++ composedLengths B := by simp [composedLengths]

theorem composedLengths_cons_unknown {s : List Int} (B : List (List Int)) (h : -1 ∈ s) :
    composedLengths (s :: B) = -1 :: composedLengths B := by simp [composedLengths, h]

/-- the split positions are the offsets of the resolved shapes -/
theorem splitPositions_resolved {ps : List (List Int)} {N : Nat} {rs : List (List Nat)} (h : Resolves ps N rs) (i : Nat)
    (hi : i ≤ rs.length) :
    (splitPositions N (composedLengths ps)).getD i 0 = (((rs.map List.prod).take i).sum : Nat) := by
  by_cases hu : -1 ∈ ps.flatten
  · obtain ⟨A, s, B, rfl, hs, hA, hB⟩ := unknown_split hu h.one
    obtain ⟨RA, R', fA, f', rfl⟩ : ∃ RA R', List.Forall₂ Fills A RA ∧ List.Forall₂ Fills (s :: B) R' ∧ rs = RA ++ R' :=
      forall₂_split_left h.fills
    obtain ⟨t, RB, ht, fB, rfl⟩ := List.forall₂_cons_left_iff.1 f'
    have hLA := composedLengths_known fA hA
    have hLB := composedLengths_known fB hB
    rw [composedLengths_append, composedLengths_cons_unknown B hs, hLA, hLB]
    obtain ⟨s1, s2⟩ := splitPositions_unknown N ((RA.map List.prod).map Int.ofNat) ((RB.map List.prod).map Int.ofNat)
      (neg_one_not_mem_ofNat _)
    have hlA : ((RA.map List.prod).map Int.ofNat).length = RA.length := by simp
    by_cases hiA : i ≤ RA.length
    · rw [s1 i (by rw [hlA]; exact hiA), ← List.map_take, sum_ofNat, List.map_append, List.take_append_of_le_length (by simpa using hiA)]
    · rw [s2 i (by rw [hlA]; omega) (by simp at hi ⊢; omega)]
      have htot := h.total
      have hd : (((RA.map List.prod).map Int.ofNat ++ -1 :: (RB.map List.prod).map Int.ofNat).drop i) =
          (((RA ++ t :: RB).map List.prod).drop i).map Int.ofNat := by
        obtain ⟨k, rfl⟩ : ∃ k, i = RA.length + (k + 1) := ⟨i - RA.length - 1, by omega⟩
        have key : ∀ {T : Type} (X Y : List T), X.length = RA.length → (X ++ Y).drop (RA.length + (k + 1)) = Y.drop (k + 1) := by
          intro T X Y hX
          rw [List.drop_append, List.drop_of_length_le (by omega), hX]
          simp
        rw [key _ _ (by simp), List.map_append, key _ _ (by simp)]
        simp
      rw [hd, sum_ofNat]
      have : ((RA ++ t :: RB).map List.prod).sum =
          (((RA ++ t :: RB).map List.prod).take i).sum + (((RA ++ t :: RB).map List.prod).drop i).sum := by
        rw [← List.sum_append, List.take_append_drop]
      omega
  · rw [composedLengths_known h.fills hu]
    obtain ⟨s1, s2⟩ := splitPositions_known N ((rs.map List.prod).map Int.ofNat) (neg_one_not_mem_ofNat _)
    have hl : ((rs.map List.prod).map Int.ofNat).length = rs.length := by simp
    rw [hl] at s1 s2
    by_cases hi' : i < rs.length
    · rw [s1 i hi', ← List.map_take, sum_ofNat]
    · have : i = rs.length := by omega
      subst this
      rw [s2, ← h.total, List.take_of_length_le (by simp)]

/-! ### unpack -/

theorem mapE_all_ok {A B : Type*} {f : A → Py B} {l : List A} (h : ∀ a ∈ l, ∃ b, f a = .ok b) : ∃ bs, mapE f l = .ok bs := by
  induction l with
  | nil => exact ⟨[], rfl⟩
  | cons a l ih =>
    obtain ⟨b, hb⟩ := h a (by simp)
    obtain ⟨bs, hbs⟩ := ih (fun a ha => h a (by simp [ha]))
    exact ⟨b :: bs, by rw [mapE, hb]; simp only [hbs]⟩

theorem fills_ge {s : List Int} {t : List Nat} (h : Fills s t) : ∀ d ∈ s, -1 ≤ d := by
  induction h with
  | nil => simp
  | cons h1 _ ih =>
    intro d hd
    rcases List.mem_cons.1 hd with rfl | hd
    · rcases h1 with h1 | h1 <;> omega
    · exact ih d hd

theorem count_ofNat (l : List Nat) : (l.map Int.ofNat).count (-1) = 0 := List.count_eq_zero.2 (neg_one_not_mem_ofNat l)

theorem clipSlice_nat (N k : Nat) (h : k ≤ N) : clipSlice N (k : Int) = k := by
  unfold clipSlice
  rw [if_neg (by omega)]
  simp [h]

theorem ge_around (pre post : List Nat) {s : List Int} (h : ∀ d ∈ s, -1 ≤ d) :
    ∀ d ∈ pre.map Int.ofNat ++ s ++ post.map Int.ofNat, -1 ≤ d := by
  intro d hd
  simp only [List.mem_append, List.mem_map] at hd
  rcases hd with (⟨a, _, rfl⟩ | hd) | ⟨a, _, rfl⟩
  · simp
  · exact h d hd
  · simp

theorem count_around (pre post : List Nat) (s : List Int) :
    (pre.map Int.ofNat ++ s ++ post.map Int.ofNat).count (-1) = s.count (-1) := by
  rw [List.count_append, List.count_append, count_ofNat, count_ofNat]
  omega

theorem neg_around (pre post : List Nat) (s : List Int) :
    -1 ∈ pre.map Int.ofNat ++ s ++ post.map Int.ofNat ↔ -1 ∈ s := by
  rw [← List.count_pos_iff, count_around, List.count_pos_iff]

theorem zero_around (pre post : List Nat) (s : List Int) :
    (0 : Int) ∈ pre.map Int.ofNat ++ s ++ post.map Int.ofNat ↔ 0 ∈ pre ∨ 0 ∈ s ∨ 0 ∈ post := by
  simp

/-- One piece whose slice has the right length. -/
theorem unpackPiece_ok {ops : PackOps α} (ho : PackModelled ops) {x : Tensor α} {pre post : List Nat} {N : Nat}
    (hx : x.shape = pre ++ N :: post) {sp : List Int} {s : List Int} {r : List Nat} {k lo : Nat} (hf : Fills s r)
    (hc : s.count (-1) ≤ 1) (hz : -1 ∈ s → (0 : Int) ∉ s ∧ 0 ∉ pre ∧ 0 ∉ post) (h1 : sp.getD k 0 = (lo : Int))
    (h2 : sp.getD (k + 1) 0 = ((lo + r.prod : Nat) : Int)) (hN : lo + r.prod ≤ N) :
    ∃ y, unpackPiece ops x pre.length sp s k = .ok y ∧ y.shape = pre ++ r ++ post ∧
      ∀ i t j, inBounds i pre = true → inBounds t r = true → inBounds j post = true →
        x.at? (i ++ (lo + ravel r t) :: j) = y.at? (i ++ t ++ j) := by
  obtain ⟨z, hz1, hz2, hz3⟩ := slice_ok hx (sp.getD k 0) (sp.getD (k + 1) 0)
  rw [h1, h2, clipSlice_nat N lo (by omega), clipSlice_nat N _ hN, Nat.add_sub_cancel_left] at hz2 hz3
  have hprod : (pre ++ r ++ post).prod = z.shape.prod := by simp [hz2]
  obtain ⟨y, hy⟩ : ∃ y, z.withShape (pre ++ r ++ post) = .ok y := by
    unfold Tensor.withShape
    rw [dif_pos hprod]
    exact ⟨_, rfl⟩
  have p1 : x.shape.take pre.length = pre := by rw [hx]; simp
  have p2 : x.shape.drop (pre.length + 1) = post := by
    rw [hx, List.drop_append, List.drop_of_length_le (by omega)]
    simp
  obtain ⟨y1, y2⟩ := withShape_ok.1 hy
  refine ⟨y, ?_, y1, ?_⟩
  · unfold unpackPiece
    rw [ho.slice, hz1]
    simp only
    have hge := ge_around pre post (fills_ge hf)
    rw [p1, p2, ho.reshape hge, reshape_iff hge]
    refine ⟨_, ((fills_ofNat pre).append hf).append (fills_ofNat post), ?_, ?_, hy⟩
    · rw [count_around]; exact hc
    · rw [neg_around, zero_around]
      intro h
      obtain ⟨a, b, c⟩ := hz h
      rintro (h | h | h)
      · exact b h
      · exact a h
      · exact c h
  · intro i t j hi ht hj
    rw [← at?_merge y2 y1 hz2 hi ht hj, hz3 i _ j hi (ravel_lt ht) hj]

theorem take_drop_mid (pre post : List Nat) (N : Nat) :
    (pre ++ N :: post).take pre.length = pre ∧ (pre ++ N :: post).drop (pre.length + 1) = post := by
  refine ⟨by simp, ?_⟩
  rw [List.drop_append, List.drop_of_length_le (by omega)]
  simp

/-- what a successful piece says -/
theorem unpackPiece_shape {ops : PackOps α} (ho : PackModelled ops) {x : Tensor α} {pre post : List Nat} {N : Nat}
    (hx : x.shape = pre ++ N :: post) {sp : List Int} {s : List Int} {k : Nat} (hs : ∀ d ∈ s, -1 ≤ d)
    (h0 : 0 ∉ pre ∧ 0 ∉ post) {y : Tensor α}
    (h : unpackPiece ops x pre.length sp s k = .ok y) :
    ∃ r, Fills s r ∧ s.count (-1) ≤ 1 ∧ (-1 ∈ s → (0 : Int) ∉ s) ∧
      r.prod = clipSlice N (sp.getD (k + 1) 0) - clipSlice N (sp.getD k 0) := by
  obtain ⟨z, hz1, hz2, -⟩ := slice_ok hx (sp.getD k 0) (sp.getD (k + 1) 0)
  unfold unpackPiece at h
  rw [ho.slice, hz1] at h
  simp only at h
  have hge := ge_around pre post hs
  rw [hx, (take_drop_mid pre post N).1, (take_drop_mid pre post N).2, ho.reshape hge, reshape_iff hge] at h
  obtain ⟨t, hf, hc, hz, hw⟩ := h
  rw [count_around] at hc
  rw [neg_around, zero_around] at hz
  obtain ⟨a, b, rfl, fa, fb⟩ := hf.split
  obtain ⟨a', r, rfl, fa', fr⟩ := fa.split
  rw [fa'.ofNat, fb.ofNat] at hw
  obtain ⟨w1, w2⟩ := withShape_ok.1 hw
  refine ⟨r, fr, hc, fun h h' => hz h (.inr (.inl h')), ?_⟩
  have hp : (pre ++ r ++ post).prod = z.shape.prod := by rw [← w1, ← y.wf, ← z.wf, w2]
  rw [hz2] at hp
  simp only [List.prod_append, List.prod_cons] at hp
  have n1 : pre.prod ≠ 0 := prod_ne_zero'.2 h0.1
  have n2 : post.prod ≠ 0 := prod_ne_zero'.2 h0.2
  rw [Nat.mul_assoc] at hp
  exact Nat.eq_of_mul_eq_mul_right (Nat.pos_of_ne_zero n2) (Nat.eq_of_mul_eq_mul_left (Nat.pos_of_ne_zero n1) hp)

theorem composedLengths_count {ps : List (List Int)} (hge : ∀ s ∈ ps, ∀ d ∈ s, -1 ≤ d) :
    (composedLengths ps).count (-1) = (ps.filter (fun s => decide (-1 ∈ s))).length := by
  induction ps with
  | nil => rfl
  | cons s ps ih =>
    have ih := ih (fun t ht => hge t (by simp [ht]))
    by_cases h : -1 ∈ s
    · rw [composedLengths_cons_unknown ps h, List.count_cons_self, ih, List.filter_cons_of_pos (by simpa using h)]
      rfl
    · have hp : pyProd s ≠ -1 := by
        rw [pyProd_eq]
        have : 0 ≤ s.prod := by
          have hs := hge s (by simp)
          clear ih hge
          induction s with
          | nil => simp
          | cons d s ih =>
            rw [List.mem_cons, not_or] at h
            rw [List.prod_cons]
            have h1 := hs d (by simp)
            exact Int.mul_nonneg (by omega) (ih h.2 (fun e he => hs e (by simp [he])))
        omega
      have : composedLengths (s :: ps) = pyProd s :: composedLengths ps := by simp [composedLengths, h]
      rw [this, List.count_cons_of_ne hp, ih, List.filter_cons_of_neg (by simpa using h)]

theorem filter_unknown_le {ps : List (List Int)} : (ps.filter (fun s => decide (-1 ∈ s))).length ≤ ps.flatten.count (-1) := by
  induction ps with
  | nil => simp
  | cons s ps ih =>
    rw [List.flatten_cons, List.count_append]
    by_cases h : -1 ∈ s
    · rw [List.filter_cons_of_pos (by simpa using h), List.length_cons]
      have := List.count_pos_iff.2 h
      omega
    · rw [List.filter_cons_of_neg (by simpa using h)]
      omega

theorem flatten_count_le {ps : List (List Int)} (h : ∀ s ∈ ps, s.count (-1) ≤ 1) :
    ps.flatten.count (-1) ≤ (ps.filter (fun s => decide (-1 ∈ s))).length := by
  induction ps with
  | nil => simp
  | cons s ps ih =>
    have ih := ih (fun t ht => h t (by simp [ht]))
    have hs := h s (by simp)
    rw [List.flatten_cons, List.count_append]
    by_cases h : -1 ∈ s
    · rw [List.filter_cons_of_pos (by simpa using h), List.length_cons]
      omega
    · rw [List.filter_cons_of_neg (by simpa using h), List.count_eq_zero.2 h]
      omega

theorem sum_telescope (c : Nat → Nat) (n : Nat) (h : ∀ i, i < n → c i ≤ c (i + 1)) :
    ((List.range n).map (fun i => c (i + 1) - c i)).sum = c n - c 0 ∧ c 0 ≤ c n := by
  induction n with
  | zero => simp
  | succ n ih =>
    obtain ⟨h1, h2⟩ := ih (fun i hi => h i (by omega))
    have := h n (by omega)
    rw [List.range_succ, List.map_append, List.sum_append, h1]
    simp
    omega

theorem sum_nonneg' {l : List Int} (h : ∀ d ∈ l, 0 ≤ d) : 0 ≤ l.sum := by
  induction l with
  | nil => simp
  | cons d l ih =>
    rw [List.sum_cons]
    have := h d (by simp)
    have := ih (fun e he => h e (by simp [he]))
    omega

section
variable [PyUnicode]

/-- if the lengths add up, `unpack` succeeds and returns the pieces -/
theorem unpack_exists {ops : PackOps α} (ho : PackModelled ops) {pattern : Str} {pre post : List Nat} {N : Nat}
    (hp : IsPackPattern pattern pre.length post.length) {x : Tensor α} (hx : x.shape = pre ++ N :: post)
    {ps : List (List Int)} {rs : List (List Nat)} (h : Resolves ps N rs)
    (h0 : -1 ∈ ps.flatten → 0 ∉ pre ∧ 0 ∉ post) :
    ∃ ys, unpack ops x ps pattern = .ok ys ∧ Packs pre post ys rs x := by
  have hlen : ps.length = rs.length := h.fills.length_eq
  have hpiece : ∀ k s r, ps[k]? = some s → rs[k]? = some r →
      ∃ y, unpackPiece ops x pre.length (splitPositions N (composedLengths ps)) s k = .ok y ∧ y.shape = pre ++ r ++ post ∧
      ∀ i t j, inBounds i pre = true → inBounds t r = true → inBounds j post = true →
        x.at? (i ++ (((rs.map List.prod).take k).sum + ravel r t) :: j) = y.at? (i ++ t ++ j) := by
    intro k s r hs hr
    have hk : k < rs.length := (List.getElem?_eq_some_iff.1 hr).1
    have hmem : s ∈ ps := List.mem_of_getElem? hs
    have hsucc := offset_succ (rs.map List.prod) k r.prod (by simp [hr])
    refine unpackPiece_ok ho hx (forall₂_get h.fills k hs hr) ?_ ?_ ?_ ?_ ?_
    · refine le_trans ?_ h.one
      obtain ⟨A, B, rfl⟩ := List.append_of_mem hmem
      rw [List.flatten_append, List.flatten_cons, List.count_append, List.count_append]
      omega
    · exact fun hm => ⟨h.nonzero s hmem hm, h0 (List.mem_flatten.2 ⟨s, hmem, hm⟩)⟩
    · exact splitPositions_resolved h k (by omega)
    · rw [splitPositions_resolved h (k + 1) (by omega), hsucc]
    · rw [← hsucc, ← h.total]
      exact offset_le _ _
  obtain ⟨ys, hys⟩ := mapE_all_ok (f := fun p : List Int × Nat =>
      unpackPiece ops x pre.length (splitPositions N (composedLengths ps)) p.1 p.2) (l := ps.zipIdx) (by
    rintro ⟨s, k⟩ hm
    rw [List.mem_zipIdx_iff_getElem?] at hm
    have hk : k < rs.length := by rw [← hlen]; exact (List.getElem?_eq_some_iff.1 hm).1
    obtain ⟨y, hy, -⟩ := hpiece k s rs[k] hm (by simp [hk])
    exact ⟨y, hy⟩)
  have hyl := mapE_length hys
  rw [List.length_zipIdx] at hyl
  have hyk : ∀ (k : Nat) (y : Tensor α) (r : List Nat), ys[k]? = some y → rs[k]? = some r → y.shape = pre ++ r ++ post ∧
      ∀ i t j, inBounds i pre = true → inBounds t r = true → inBounds j post = true →
        x.at? (i ++ (((rs.map List.prod).take k).sum + ravel r t) :: j) = y.at? (i ++ t ++ j) := by
    intro k y r hy hr
    have hk : k < ps.length := by rw [← hyl]; exact (List.getElem?_eq_some_iff.1 hy).1
    obtain ⟨y', e1, e2⟩ := mapE_ok hys k (by simpa using hk)
    obtain ⟨y'', f1, f2⟩ := hpiece k ps[k] r (by simp [hk]) hr
    simp only [List.getElem_zipIdx, Nat.zero_add] at e1
    rw [f1] at e1
    rw [hy] at e2
    cases e1
    cases e2
    exact f2
  refine ⟨ys, ?_, by omega, fun k y r hy hr => (hyk k y r hy hr).1, ?_, fun k y r hy hr => (hyk k y r hy hr).2⟩
  · unfold unpack
    rw [analyzePattern_iff.2 ⟨hp, rfl⟩]
    simp only
    rw [if_neg (by rw [hx]; simp; omega)]
    have hge : ∀ s ∈ ps, ∀ d ∈ s, -1 ≤ d := by
      intro s hs
      obtain ⟨k, hk⟩ := List.getElem?_of_mem hs
      have hlt : k < rs.length := by rw [← hlen]; exact (List.getElem?_eq_some_iff.1 hk).1
      exact fills_ge (forall₂_get h.fills k hk (b := rs[k]) (by simp [hlt]))
    rw [if_neg (by
      rw [composedLengths_count hge]
      have := filter_unknown_le (ps := ps)
      have := h.one
      omega)]
    have hN : nth x.shape pre.length = N := by rw [hx, nth_mid]
    rw [hN, hys]
  · rw [hx, h.total]

/-- `unpack` succeeds only if the lengths add up (no dimension zero, and the known lengths not too large) -/
theorem unpack_resolves {ops : PackOps α} (ho : PackModelled ops) {pattern : Str} {pre post : List Nat} {N : Nat}
    (hp : IsPackPattern pattern pre.length post.length) {x : Tensor α} (hx : x.shape = pre ++ N :: post)
    (h0 : 0 ∉ pre ∧ 0 ∉ post) {ps : List (List Int)} (hne : ps ≠ []) (hge : ∀ s ∈ ps, ∀ d ∈ s, -1 ≤ d)
    (hk : -1 ∉ ps.flatten ∨ knownTotal ps ≤ N) {ys : List (Tensor α)} (h : unpack ops x ps pattern = .ok ys) :
    ∃ rs, Resolves ps N rs := by
  unfold unpack at h
  rw [analyzePattern_iff.2 ⟨hp, rfl⟩] at h
  simp only at h
  rw [if_neg (by rw [hx]; simp; omega)] at h
  split at h
  · cases h
  · rename_i hcnt
    have hN : nth x.shape pre.length = N := by rw [hx, nth_mid]
    rw [hN] at h
    split at h
    · cases h
    · rename_i ys' hys
      generalize hsp : splitPositions N (composedLengths ps) = sp at hys
      have hpiece : ∀ (k : Nat) (s : List Int), ps[k]? = some s → ∃ r, Fills s r ∧ s.count (-1) ≤ 1 ∧
          (-1 ∈ s → (0 : Int) ∉ s) ∧ r.prod = clipSlice N (sp.getD (k + 1) 0) - clipSlice N (sp.getD k 0) := by
        intro k s hs
        have hlt : k < ps.length := (List.getElem?_eq_some_iff.1 hs).1
        obtain ⟨y, e1, -⟩ := mapE_ok hys k (by simpa using hlt)
        simp only [List.getElem_zipIdx, Nat.zero_add] at e1
        have : ps[k] = s := by simpa [hlt] using hs
        rw [this] at e1
        exact unpackPiece_shape ho hx (hge s (List.mem_of_getElem? hs)) h0 e1
      -- the resolved shapes
      obtain ⟨rs, hrs, hrp⟩ : ∃ rs, List.Forall₂ Fills ps rs ∧
          rs.map List.prod = (List.range ps.length).map (fun k => clipSlice N (sp.getD (k + 1) 0) - clipSlice N (sp.getD k 0)) := by
        have hall : ∀ k : Fin ps.length, ∃ r, Fills ps[k] r ∧
            r.prod = clipSlice N (sp.getD (k + 1) 0) - clipSlice N (sp.getD k 0) := by
          intro k
          obtain ⟨r, a, -, -, b⟩ := hpiece k ps[k] (by simp)
          exact ⟨r, a, b⟩
        choose f hf1 hf2 using hall
        refine ⟨List.ofFn f, ?_, ?_⟩
        · refine forall₂_of_get (by simp) ?_
          intro k s r hs hr
          have hlt : k < ps.length := (List.getElem?_eq_some_iff.1 hs).1
          rw [List.getElem?_ofFn, dif_pos hlt] at hr
          have e : ps[k] = s := by simpa [hlt] using hs
          cases hr
          rw [← e]
          exact hf1 ⟨k, hlt⟩
        · apply List.ext_getElem
          · simp
          · intro k h1 h2
            simp only [List.length_map, List.length_ofFn] at h1
            simp [hf2]
      have hcs : ∀ s ∈ ps, s.count (-1) ≤ 1 ∧ (-1 ∈ s → (0 : Int) ∉ s) := by
        intro s hs
        obtain ⟨k, hk⟩ := List.getElem?_of_mem hs
        obtain ⟨r, -, a, b, -⟩ := hpiece k s hk
        exact ⟨a, b⟩
      have hone : ps.flatten.count (-1) ≤ 1 := by
        have h1 := flatten_count_le (fun s hs => (hcs s hs).1)
        rw [composedLengths_count hge] at hcnt
        omega
      refine ⟨rs, hrs, hone, fun s hs => (hcs s hs).2, ?_⟩
      -- clipped positions increase from 0 to N
      suffices hmono : (∀ i, i < ps.length → clipSlice N (sp.getD i 0) ≤ clipSlice N (sp.getD (i + 1) 0)) ∧
          clipSlice N (sp.getD 0 0) = 0 ∧ clipSlice N (sp.getD ps.length 0) = N by
        rw [hrp, (sum_telescope (fun k => clipSlice N (sp.getD k 0)) ps.length hmono.1).1]
        rw [hmono.2.1, hmono.2.2]
        omega
      have hpos : 0 < ps.length := List.length_pos_iff.2 hne
      have hlenL : (composedLengths ps).length = ps.length := by simp [composedLengths]
      by_cases hu : -1 ∈ ps.flatten
      · have hkt := hk.resolve_left (fun h => h hu)
        obtain ⟨A, s, B, rfl, hs, hA, hB⟩ := unknown_split hu hone
        obtain ⟨RA, R', fA, f', rfl⟩ := forall₂_split_left hrs
        obtain ⟨t, RB, ht, fB, rfl⟩ := List.forall₂_cons_left_iff.1 f'
        have hLA := composedLengths_known fA hA
        have hLB := composedLengths_known fB hB
        have hkt' : (((RA.map List.prod).sum + (RB.map List.prod).sum : Nat) : Int) ≤ N := by
          have : knownTotal (A ++ s :: B) = (((RA.map List.prod).sum + (RB.map List.prod).sum : Nat) : Int) := by
            have key : ∀ {P : List (List Int)} {R : List (List Nat)}, List.Forall₂ Fills P R → -1 ∉ P.flatten →
                knownTotal P = ((R.map List.prod).sum : Nat) := by
              intro P R hf
              induction hf with
              | nil => intro _; rfl
              | cons h1 h2 ih =>
                intro hn
                rw [List.flatten_cons, List.mem_append, not_or] at hn
                have ih := ih hn.2
                unfold knownTotal at *
                rw [List.filter_cons_of_pos (by simpa using hn.1), List.map_cons, List.sum_cons, ih, Fills.known h1 hn.1,
                  prod_ofNat]
                simp
            have e : knownTotal (A ++ s :: B) = knownTotal A + knownTotal B := by
              unfold knownTotal
              rw [List.filter_append, List.filter_cons_of_neg (by simpa using hs)]
              simp
            rw [e, key fA hA, key fB hB]
            simp
          rw [← this]; exact hkt
        rw [composedLengths_append, composedLengths_cons_unknown B hs, hLA, hLB] at hsp
        obtain ⟨s1, s2⟩ := splitPositions_unknown N ((RA.map List.prod).map Int.ofNat) ((RB.map List.prod).map Int.ofNat)
          (neg_one_not_mem_ofNat _)
        rw [hsp] at s1 s2
        have lA : A.length = RA.length := fA.length_eq
        have lB : B.length = RB.length := fB.length_eq
        have hlo : ∀ i, i ≤ RA.length → sp.getD i 0 = (((RA.map List.prod).take i).sum : Nat) := by
          intro i hi
          rw [s1 i (by simpa using hi), ← List.map_take, sum_ofNat]
        have hhi : ∀ j, j ≤ RB.length → sp.getD (RA.length + 1 + j) 0 = ((N - ((RB.map List.prod).drop j).sum : Nat) : Int) := by
          intro j hj
          rw [s2 _ (by simp; omega) (by simp; omega)]
          have hd : (((RA.map List.prod).map Int.ofNat ++ -1 :: (RB.map List.prod).map Int.ofNat).drop (RA.length + 1 + j)) =
              ((RB.map List.prod).drop j).map Int.ofNat := by
            rw [List.drop_append, List.drop_of_length_le (by simp; omega)]
            simp only [List.length_map, show RA.length + 1 + j - RA.length = j + 1 from by omega, List.drop_succ_cons,
              List.nil_append, List.map_drop]
          rw [hd, sum_ofNat]
          have : ((RB.map List.prod).drop j).sum ≤ (RB.map List.prod).sum := by
            conv_rhs => rw [← List.take_append_drop j (RB.map List.prod), List.sum_append]
            omega
          omega
        have hAle : ∀ i, ((RA.map List.prod).take i).sum ≤ (RA.map List.prod).sum := offset_le _
        refine ⟨?_, ?_, ?_⟩
        · intro i hi
          simp only [List.length_append, List.length_cons] at hi
          rcases Nat.lt_trichotomy i RA.length with h1 | h1 | h1
          · rw [hlo i (by omega), hlo (i + 1) (by omega), clipSlice_nat _ _ (by have := hAle i; omega),
              clipSlice_nat _ _ (by have := hAle (i + 1); omega)]
            rw [offset_succ _ i ((RA.map List.prod)[i]'(by simpa using h1)) (by simp [h1])]
            omega
          · subst h1
            have h2 := hhi 0 (by omega)
            rw [Nat.add_zero] at h2
            rw [hlo _ (le_refl _), h2, clipSlice_nat _ _ (by have := hAle RA.length; omega), clipSlice_nat _ _ (by omega)]
            have := hAle RA.length
            simp only [List.drop_zero]
            omega
          · obtain ⟨j, rfl⟩ : ∃ j, i = RA.length + 1 + j := ⟨i - RA.length - 1, by omega⟩
            rw [hhi j (by omega), show RA.length + 1 + j + 1 = RA.length + 1 + (j + 1) from by omega, hhi (j + 1) (by omega),
              clipSlice_nat _ _ (by omega), clipSlice_nat _ _ (by omega)]
            have : ((RB.map List.prod).drop (j + 1)).sum ≤ ((RB.map List.prod).drop j).sum := by
              rw [List.drop_eq_getElem_cons (i := j) (by simp; omega), List.sum_cons]
              omega
            omega
        · rw [hlo 0 (by omega)]
          simp [clipSlice]
        · have h2 := hhi RB.length (le_refl _)
          rw [List.length_append, List.length_cons, lA, lB, show RA.length + (RB.length + 1) = RA.length + 1 + RB.length from by omega,
            h2, clipSlice_nat _ _ (by omega), List.drop_of_length_le (by simp)]
          rfl
      · rw [composedLengths_known hrs hu] at hsp
        obtain ⟨s1, s2⟩ := splitPositions_known N ((rs.map List.prod).map Int.ofNat) (neg_one_not_mem_ofNat _)
        have hl : ((rs.map List.prod).map Int.ofNat).length = ps.length := by simp [hrs.length_eq]
        rw [hl, hsp] at s1 s2
        have hclip : ∀ i, i < ps.length → clipSlice N (sp.getD i 0) = min ((rs.map List.prod).take i).sum N := by
          intro i hi
          rw [s1 i hi, ← List.map_take, sum_ofNat]
          unfold clipSlice
          rw [if_neg (by omega)]
          simp
        have hlast : clipSlice N (sp.getD ps.length 0) = N := by rw [s2, clipSlice_nat _ _ (le_refl _)]
        refine ⟨?_, ?_, hlast⟩
        · intro i hi
          by_cases hi' : i + 1 < ps.length
          · rw [hclip i hi, hclip (i + 1) hi', offset_succ _ i ((rs.map List.prod)[i]'(by simp [← hrs.length_eq, hi]))
              (by simp [← hrs.length_eq, hi])]
            omega
          · have : i + 1 = ps.length := by omega
            rw [this, hlast]
            exact clipSlice_le _ _
        · rw [hclip 0 hpos, List.take_zero]
          exact Nat.zero_min N

end
theorem resolves_self (ps : List (List Nat)) :
    Resolves (ps.map (fun r => r.map Int.ofNat)) (ps.map List.prod).sum ps := by
  have hm : ∀ s ∈ ps.map (fun r => r.map Int.ofNat), -1 ∉ s := by
    intro s hs
    obtain ⟨r, -, rfl⟩ := List.mem_map.1 hs
    exact neg_one_not_mem_ofNat r
  refine ⟨?_, ?_, fun s hs h => absurd h (hm s hs), rfl⟩
  · rw [List.forall₂_map_left_iff, List.forall₂_same]
    exact fun r _ => fills_ofNat r
  · rw [List.count_eq_zero.2]
    · omega
    · intro h
      obtain ⟨s, hs, h'⟩ := List.mem_flatten.1 h
      exact hm s hs h'

end Einops
