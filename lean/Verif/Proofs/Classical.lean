import Verif.Proofs.PackLaws
import Verif.Proofs.Algebra
import Verif.Proofs.ComposeMoves
import Verif.Proofs.Layers

/-! Functions of tensor libraries written as einops calls: patterns made of names. -/

namespace Einops

universe u

section
variable {α : Type u} [PyUnicode]

/-- the groups of axes of a side made of names -/
def nameGroups (G : List Elem) : List (List Axis) := G.map fun e => e.words.map Axis.str

theorem spread_nameGroups (side k : Nat) (ell : List Axis) {G : List Elem} (hG : ∀ w ∈ sideWords G, IsName false w) :
    spread ell (denote side k G) = nameGroups G := by
  induction G generalizing k with
  | nil => rfl
  | cons e G ih =>
    have h1 : ∀ w ∈ e.words, IsName false w := fun w h => hG w (by rw [words_cons]; exact List.mem_append_left _ h)
    have h2 : ∀ w ∈ sideWords G, IsName false w := fun w h => hG w (by rw [words_cons]; exact List.mem_append_right _ h)
    cases e with
    | bare w =>
      have hw := h1 w (by simp [Elem.words])
      rw [denote, if_neg (isName_ne_dots hw), spread, ih _ h2]
      have : wordAxes side k w = [w].map Axis.str := by
        simp [wordAxes, isName_ne_dots hw, isName_not_number false hw]
      rw [this, flatMap_names _ (by simpa [Elem.words] using h1)]
      rfl
    | paren ws =>
      rw [denote, spread, ih _ h2]
      have : wordsAxes side k ws = ws.map Axis.str := by
        have := wordsAxes_names side k (A := ws) (by simpa [Elem.words] using h1) []
        simpa [wordsAxes] using this
      rw [this, flatMap_names _ (by simpa [Elem.words] using h1)]
      rfl

omit [PyUnicode] in
theorem nameGroups_flatten (G : List Elem) : (nameGroups G).flatten = (sideWords G).map Axis.str := by
  induction G with
  | nil => rfl
  | cons e G ih => rw [words_cons, List.map_append, ← ih]; rfl

omit [PyUnicode] in
theorem nameGroups_bares (A : List Str) : nameGroups (A.map Elem.bare) = (A.map Axis.str).map fun a => [a] := by
  unfold nameGroups
  rw [List.map_map, List.map_map]
  rfl

/-- A call whose left side is a list of names, whose right side is made of names, is legal when the number of dimensions
is right and the names obey the rules of the operation. -/
theorem names_accepted {op : OpKind} {q : Str} {A : List Str} {GR : List Elem} {kw : List (Str × Size)}
    (hA : ∀ w ∈ A, IsName false w) (hR : ∀ w ∈ sideWords GR, IsName false w) (hq : IsPattern q (A.map Elem.bare) GR)
    (hop : op = .name "rearrange".toList ∧ (∀ w, w ∈ A ↔ w ∈ sideWords GR) ∨
      op = .name "repeat".toList ∧ (∀ w ∈ A, w ∈ sideWords GR) ∧ (∀ w ∈ sideWords GR, w ∈ A ∨ w ∈ kw.map Prod.fst) ∨
      isRed op ∧ (∀ s, op = .name s → s ∈ builtins) ∧ ∀ w ∈ sideWords GR, w ∈ A)
    (hkw : ∀ n ∈ kw.map Prod.fst, n ∈ sideWords GR) {s : List Nat} (hs : s.length = A.length) {len : AxisMap}
    (hlen : (A.map Axis.str).map len = s) (hlk : ∀ n z, (n, z) ∈ kw → (len (.str n) : Int) = z.val) :
    Accepted op q kw s (A.map Elem.bare) GR ((A.map Axis.str).map fun a => [a]) (nameGroups GR) len := by
  have wL : sideWords (A.map Elem.bare) = A := words_bares A
  have dL : dots ∉ A := fun h => isName_ne_dots (hA _ h) rfl
  have dR : dots ∉ sideWords GR := fun h => isName_ne_dots (hR _ h) rfl
  have hell : EllipsisOK (A.map Elem.bare) GR := by
    refine ⟨fun h => absurd h dR, fun ws h => ?_⟩
    obtain ⟨w, -, hw⟩ := List.mem_map.1 h
    cases hw
  have uL : OnlyUnits (A.map Elem.bare) := units_of_names (by rw [wL]; exact fun w h => .inr (hA w h))
  have uR : OnlyUnits GR := units_of_names (fun w h => .inr (hR w h))
  refine ⟨hq, ⟨?_, ?_, ⟨0, fun _ => rfl, ?_, ?_, ?_⟩, oneUnknown_singles _ _⟩, ⟨?_, hlk, ?_⟩, determinate_singles _ _ _⟩
  · rcases hop with ⟨rfl, h⟩ | ⟨rfl, h, h'⟩ | ⟨h0, h, h'⟩
    · rw [SidesOK, if_pos rfl]
      exact ⟨hell, uL, uR, fun w hw _ => (h w).1 (by rwa [wL] at hw), fun w hw _ => by rw [wL]; exact (h w).2 hw⟩
    · rw [SidesOK, if_neg (by decide), if_pos rfl]
      exact ⟨hell, uL, fun w hw _ => h w (by rwa [wL] at hw), fun w hw _ => by rw [wL]; exact h' w hw⟩
    · rw [SidesOK, if_neg h0.1, if_neg h0.2]
      exact ⟨h, hell, uR, fun w hw _ => by rw [wL]; exact h' w hw⟩
  · exact fun n hn => ⟨hR _ (hkw n hn), List.mem_append_right _ (hkw n hn)⟩
  · rw [spread_nameGroups _ _ _ (by rw [wL]; exact hA), nameGroups_bares]
  · rw [spread_nameGroups _ _ _ hR]
  · simp [hs]
  · rw [singles_size, hlen]
  · intro sd i v h
    rw [singles_flatten, nameGroups_flatten] at h
    simp at h

/-- names of a side without repetitions -/
theorem side_names_nodup {s : Str} {G : List Elem} (h : IsSide false false s G) (hG : ∀ w ∈ sideWords G, IsName false w) :
    ((sideWords G).map Axis.str).Nodup := by
  have := side_flatten_nodup h 0 0
  rwa [spread_nameGroups _ _ _ hG, nameGroups_flatten] at this

omit [PyUnicode] in
/-- coordinates `i`, `t`, `j` for the names `A`, `ws`, `B` -/
theorem envOf_parts {A ws B : List Str} (hn : ((A ++ ws ++ B).map Axis.str).Nodup) {i t j : List Nat} (hi : i.length = A.length)
    (ht : t.length = ws.length) (hj : j.length = B.length) :
    ∃ env : AxisMap, (A.map Axis.str).map env = i ∧ (ws.map Axis.str).map env = t ∧ (B.map Axis.str).map env = j := by
  have h := map_envOf hn (i := i ++ t ++ j) (by simp [hi, ht, hj])
  refine ⟨envOf ((A ++ ws ++ B).map Axis.str) (i ++ t ++ j), ?_⟩
  generalize envOf ((A ++ ws ++ B).map Axis.str) (i ++ t ++ j) = env at h
  rw [List.map_append, List.map_append, List.map_append, List.map_append] at h
  obtain ⟨h1, h2⟩ := List.append_inj h (by simp [hi, ht])
  obtain ⟨h3, h4⟩ := List.append_inj h1 (by simp [hi])
  exact ⟨h3, h4, h2⟩

omit [PyUnicode] in
theorem words_mid (A B : List Str) (e : Elem) : sideWords (A.map Elem.bare ++ e :: B.map Elem.bare) = A ++ e.words ++ B := by
  rw [words_append, words_bares, words_cons, words_bares, List.append_assoc]

omit [PyUnicode] in
theorem nameGroups_mid (A B : List Str) (e : Elem) : nameGroups (A.map Elem.bare ++ e :: B.map Elem.bare) =
    ((A.map Axis.str).map fun a => [a]) ++ e.words.map Axis.str :: ((B.map Axis.str).map fun a => [a]) := by
  rw [← nameGroups_bares, ← nameGroups_bares]
  simp [nameGroups]

/-- An operation that moves elements from a tensor with dimensions `P` to one with dimensions `A`, one group of axes,
and `B`. -/
theorem mid_moves {E : ElemOps α} {b : Backend α} (hb : Modelled E b) {op : Str} {q : Str} {P A B : List Str} {e : Elem}
    {kw : List (Str × Size)} (hkw : IntKw kw) (hP : ∀ w ∈ P, IsName false w) (hn : ∀ w ∈ A ++ e.words ++ B, IsName false w)
    (hq : IsPattern q (P.map Elem.bare) (A.map Elem.bare ++ e :: B.map Elem.bare))
    (hop : op = "rearrange".toList ∧ (∀ w, w ∈ P ↔ w ∈ A ++ e.words ++ B) ∨
      op = "repeat".toList ∧ (∀ w ∈ P, w ∈ A ++ e.words ++ B) ∧ (∀ w ∈ A ++ e.words ++ B, w ∈ P ∨ w ∈ kw.map Prod.fst))
    (hku : ∀ n ∈ kw.map Prod.fst, n ∈ A ++ e.words ++ B) {pre ks post : List Nat} (hpre : pre.length = A.length)
    (hks : ks.length = e.words.length) (hpost : post.length = B.length) {x : Tensor α}
    (hx : ∀ len : AxisMap, (A.map Axis.str).map len = pre → (e.words.map Axis.str).map len = ks → (B.map Axis.str).map len = post →
      (P.map Axis.str).map len = x.shape ∧ ∀ n z, (n, z) ∈ kw → (len (.str n) : Int) = z.val) :
    ∃ y, (∀ so, reduce b so (.one x) q (.name op) kw = .ok y) ∧ y.shape = pre ++ ks.prod :: post ∧
      ∀ i t j, inBounds i pre = true → inBounds t ks = true → inBounds j post = true →
        ∃ env : AxisMap, (A.map Axis.str).map env = i ∧ (e.words.map Axis.str).map env = t ∧ (B.map Axis.str).map env = j ∧
          y.at? (i ++ ravel ks t :: j) = x.at? ((P.map Axis.str).map env) := by
  have wR := words_mid A B e
  have hnd : ((A ++ e.words ++ B).map Axis.str).Nodup := by
    obtain ⟨l, r, _, _, hR⟩ := hq
    have := side_names_nodup hR (by rw [wR]; exact hn)
    rwa [wR] at this
  obtain ⟨len, l1, l2, l3⟩ := envOf_parts hnd hpre hks hpost
  obtain ⟨hsh, hlk⟩ := hx len l1 l2 l3
  have hacc := names_accepted (op := .name op) (kw := kw) hP (by rw [wR]; exact hn) hq
    (by
      rw [wR]
      rcases hop with ⟨rfl, h⟩ | ⟨rfl, h⟩
      · exact .inl ⟨rfl, h⟩
      · exact .inr (.inl ⟨rfl, h⟩)) (by rw [wR]; exact hku) (s := x.shape) (by rw [← hsh]; simp) hsh hlk
  have hsub : ∀ w ∈ P, w ∈ A ++ e.words ++ B := by
    rcases hop with ⟨-, h⟩ | ⟨-, h, -⟩
    · exact fun w hw => (h w).1 hw
    · exact h
  obtain ⟨y, h1, h2, h3⟩ := hacc.moves (red := .name op) hb.lawful hkw (by
    rw [singles_flatten, nameGroups_flatten, wR]
    intro a ha
    obtain ⟨w, hw, rfl⟩ := List.mem_map.1 ha
    exact List.mem_map_of_mem (hsub w hw))
  refine ⟨y, h1, ?_, ?_⟩
  · rw [h2, nameGroups_mid, List.map_append, singles_size, l1, List.map_cons, singles_size, l3, groupSize, l2]
  · intro i t j hi ht hj
    obtain ⟨env, e1, e2, e3⟩ := envOf_parts hnd ((inBounds_length hi).trans hpre) ((inBounds_length ht).trans hks)
      ((inBounds_length hj).trans hpost)
    refine ⟨env, e1, e2, e3, ?_⟩
    have hin : InRange len ((A ++ e.words ++ B).map Axis.str) env := by
      rw [← inBounds_map]
      simp only [List.map_append]
      rw [inBounds_append (by simp), inBounds_append (by simp), e1, e2, e3, l1, l2, l3]
      exact ⟨⟨hi, ht⟩, hj⟩
    obtain ⟨v, h4, h5⟩ := h3 env (by
      rw [singles_flatten, nameGroups_flatten, wR]
      intro a ha
      rcases List.mem_append.1 ha with ha | ha
      · obtain ⟨w, hw, rfl⟩ := List.mem_map.1 ha
        exact hin _ (List.mem_map_of_mem (hsub w hw))
      · exact hin a ha)
    rw [singles_at] at h4
    unfold Tensor.atAxes at h5
    rw [nameGroups_mid, List.map_append, singles_pos, e1, List.map_cons, singles_pos, e3, ← ravel_map, e2, l2] at h5
    rw [h5, h4]

/-- a list of tensors of one shape, as an operand -/
theorem many_eq_one {E : ElemOps α} {b : Backend α} (hb : Modelled E b) {xs : List (Tensor α)} (hne : xs ≠ []) {s : List Nat}
    (hs : ∀ x ∈ xs, x.shape = s) :
    ∃ z : Tensor α, z.shape = xs.length :: s ∧ (∀ k i, z.at? (k :: i) = (xs[k]?).bind (fun x => x.at? i)) ∧
      ∀ so pattern red kw, reduce b so (.many xs) pattern red kw = reduce b so (.one z) pattern red kw := by
  obtain ⟨z, h1, h2, h3⟩ := stack_spec hne hs
  refine ⟨z, h2, h3, fun so pattern red kw => ?_⟩
  have : resolveInput b (.many xs) = .ok z := by
    cases xs with
    | nil => exact absurd rfl hne
    | cons x xs => simp only [resolveInput]; rw [hb.lawful.stack, h1]
  simp only [reduce, this]
  rfl

/-- axes of words without numbers other than 1 -/
theorem wordsAxes_words (side k : Nat) {ws : List Str} (h : ∀ w ∈ ws, IsNumber w → decimalValue w = 1) :
    wordsAxes side k ws = (ws.filter (fun w => decide (¬ IsNumber w))).map (fun w => Axis.str (if w = dots then ellipsisStr else w)) := by
  induction ws generalizing k with
  | nil => rfl
  | cons w ws ih =>
    rw [wordsAxes, ih (k + 1) (fun w hw => h w (List.mem_cons_of_mem _ hw)), wordAxes]
    by_cases hd : w = dots
    · rw [if_pos hd, List.filter_cons_of_pos (by rw [hd]; exact decide_eq_true dots_not_number), List.map_cons, if_pos hd]
      rfl
    · by_cases hnum : IsNumber w
      · rw [if_neg hd, if_pos hnum, if_pos (h w (by simp) hnum), List.filter_cons_of_neg (by simp [hnum])]
        rfl
      · rw [if_neg hd, if_neg hnum, List.filter_cons_of_pos (by simp [hnum]), List.map_cons, if_neg hd]
        rfl

/-- the same axes in the same order: the same elements in the same order -/
theorem Moves.data {len : AxisMap} {L R : List (List Axis)} {x y : Tensor α} (hL : L.flatten.Nodup) (h : L.flatten = R.flatten)
    (hx : x.shape = L.map (groupSize len)) (hm : Moves len L R x y) : y.data = x.data := by
  have h1 := data_eq_loops hL hx (fun _ => 0)
  have h2 := data_eq_loops (h ▸ hL) hm.1 (fun _ => 0)
  rw [← h] at h2
  have : y.data.map some = x.data.map some := by
    rw [h1, h2]
    apply List.map_congr_left
    intro e he
    obtain ⟨v, h3, h4⟩ := hm.2 e (by
      rw [← h]
      intro a ha
      exact (mem_loops he).2 hL a ((List.mem_append.1 ha).elim id id))
    rw [h3, h4]
  exact List.map_injective_iff.2 (Option.some_injective _) this

end

end Einops
