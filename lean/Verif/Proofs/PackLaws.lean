import Verif.Proofs.Unpacking
import Verif.Proofs.EinsumLaws
import Verif.Proofs.Calls
import Verif.Proofs.Elementwise

/-! `pack` and `unpack` as `rearrange`, and in stages. -/

namespace Einops

universe u

section
variable {α : Type u} [PyUnicode]

/-! ### Sides made of names and one special element -/

theorem denote_bares (side k : Nat) {A : List Str} (hA : ∀ w ∈ A, IsName false w) :
    denote side k (A.map Elem.bare) = A.map (fun e => CompAxis.group [.str e]) := by
  have := denote_names (side := side) (k := k) (G := []) hA
  simpa [denote] using this

theorem wordsAxes_names (side k : Nat) {A : List Str} (hA : ∀ w ∈ A, IsName false w) (ws : List Str) :
    wordsAxes side k (A ++ ws) = A.map Axis.str ++ wordsAxes side (k + A.length) ws := by
  induction A generalizing k with
  | nil => simp
  | cons e A ih =>
    have he := hA e (by simp)
    simp only [List.cons_append, wordsAxes, List.map_cons]
    rw [ih _ (fun e h => hA e (by simp [h]))]
    simp [wordAxes, isName_ne_dots he, isName_not_number false he, Nat.add_assoc, Nat.add_comm 1]

theorem name_ne_ell {w : Str} (h : IsName false w) : Axis.str w ≠ .str ellipsisStr := by
  intro hc
  rw [Axis.str.injEq] at hc
  exact isName_no_ell h (by rw [hc]; simp [ellipsisStr])

theorem flatMap_names (ell : List Axis) {A : List Str} (hA : ∀ w ∈ A, IsName false w) :
    (A.map Axis.str).flatMap (fun a => if a = .str ellipsisStr then ell else [a]) = A.map Axis.str := by
  induction A with
  | nil => rfl
  | cons e A ih =>
    rw [List.map_cons, List.flatMap_cons, ih (fun w h => hA w (by simp [h])), if_neg (name_ne_ell (hA e (by simp)))]
    rfl

/-- names, the ellipsis, names -/
theorem spread_bare_ell (side k : Nat) (ell : List Axis) {A B : List Str} (hA : ∀ w ∈ A, IsName false w)
    (hB : ∀ w ∈ B, IsName false w) :
    spread ell (denote side k (A.map Elem.bare ++ .bare dots :: B.map Elem.bare)) =
      ((A.map Axis.str ++ ell ++ B.map Axis.str).map fun a => [a]) := by
  rw [denote_names hA, spread_append, spread_names hA, denote, if_pos rfl, spread, denote_bares _ _ hB, spread_names hB]
  simp

/-- names, a group, names -/
theorem spread_paren (side k : Nat) (ell : List Axis) {A B : List Str} (hA : ∀ w ∈ A, IsName false w)
    (hB : ∀ w ∈ B, IsName false w) (ws : List Str) :
    spread ell (denote side k (A.map Elem.bare ++ .paren ws :: B.map Elem.bare)) =
      ((A.map Axis.str).map fun a => [a]) ++
        ((wordsAxes side (k + A.length) ws).flatMap fun a => if a = .str ellipsisStr then ell else [a]) ::
        ((B.map Axis.str).map fun a => [a]) := by
  rw [denote_names hA, spread_append, spread_names hA, denote, spread, denote_bares _ _ hB, spread_names hB]

omit [PyUnicode] in
theorem words_bares (A : List Str) : sideWords (A.map Elem.bare) = A := by
  induction A with
  | nil => rfl
  | cons a A ih =>
    unfold sideWords at *
    simp [Elem.words, ih]

omit [PyUnicode] in
theorem words_append (G H : List Elem) : sideWords (G ++ H) = sideWords G ++ sideWords H := by
  simp [sideWords]

omit [PyUnicode] in
theorem words_cons (e : Elem) (H : List Elem) : sideWords (e :: H) = e.words ++ sideWords H := by
  simp [sideWords]

/-- sides of names and at most the ellipsis contain no numbers -/
theorem units_of_names {G : List Elem} (h : ∀ w ∈ sideWords G, w = dots ∨ IsName false w) : OnlyUnits G := by
  intro w hw hn
  rcases h w hw with rfl | h
  · exact absurd hn dots_not_number
  · exact absurd hn (isName_not_number false h)

omit [PyUnicode] in
theorem oneUnknown_singles (A : List Axis) (names : List Str) : OneUnknown (A.map fun a => [a]) names := by
  intro g hg
  obtain ⟨a, -, rfl⟩ := List.mem_map.1 hg
  exact (List.length_filter_le _ _).trans (by simp)

omit [PyUnicode] in
theorem determinate_singles (A : List Axis) (names : List Str) (len : AxisMap) : Determinate (A.map fun a => [a]) names len := by
  intro g hg hu
  obtain ⟨a, -, rfl⟩ := List.mem_map.1 hg
  obtain ⟨a', ha', hu⟩ := hu
  rw [List.mem_singleton] at ha'
  subst ha'
  rw [List.filter_cons_of_neg (by simp [hu])]
  simp [groupSize]

/-! ### Merging into one axis -/

/-- `K A ... B -> A (K ...) B` is a legal `rearrange` of every tensor with enough dimensions -/
theorem merge_accepted {q : Str} {K A B : List Str} (hn : ∀ w ∈ K ++ (A ++ B), IsName false w)
    (hq : IsPattern q ((K ++ A).map Elem.bare ++ .bare dots :: B.map Elem.bare)
      (A.map Elem.bare ++ .paren (K ++ [dots]) :: B.map Elem.bare))
    {ks pre r post : List Nat} (hk : ks.length = K.length) (ha : pre.length = A.length) (hb : post.length = B.length) :
    ∃ len : AxisMap, (K.map Axis.str).map len = ks ∧ (A.map Axis.str).map len = pre ∧ (ellAxes r.length).map len = r ∧
      (B.map Axis.str).map len = post ∧
      Accepted (.name "rearrange".toList) q [] (ks ++ (pre ++ r ++ post)) ((K ++ A).map Elem.bare ++ .bare dots :: B.map Elem.bare)
        (A.map Elem.bare ++ .paren (K ++ [dots]) :: B.map Elem.bare)
        (((K ++ A).map Axis.str ++ ellAxes r.length ++ B.map Axis.str).map fun a => [a])
        (((A.map Axis.str).map fun a => [a]) ++ (K.map Axis.str ++ ellAxes r.length) :: ((B.map Axis.str).map fun a => [a]))
        len := by
  have hK : ∀ w ∈ K, IsName false w := fun w h => hn w (by simp [h])
  have hA : ∀ w ∈ A, IsName false w := fun w h => hn w (by simp [h])
  have hB : ∀ w ∈ B, IsName false w := fun w h => hn w (by simp [h])
  have hKA : ∀ w ∈ K ++ A, IsName false w := fun w h => hn w (by
    rcases List.mem_append.1 h with h | h <;> simp [h])
  have eL := spread_bare_ell 0 0 (ellAxes r.length) hKA hB
  have eR := spread_paren 1 0 (ellAxes r.length) hA hB (K ++ [dots])
  have e1 : wordsAxes 1 (0 + A.length) (K ++ [dots]) = K.map Axis.str ++ [.str ellipsisStr] := by
    rw [wordsAxes_names _ _ hK]
    simp [wordsAxes, wordAxes]
  rw [e1, List.flatMap_append, flatMap_names _ hK, List.flatMap_cons, if_pos rfl, List.flatMap_nil, List.append_nil] at eR
  obtain ⟨l, rr, hqe, hL, hR⟩ := hq
  have hnd := side_flatten_nodup hL 0 r.length
  rw [eL, singles_flatten] at hnd
  have hle : (ellAxes r.length).length = r.length := by simp [ellAxes]
  let len := envOf ((K ++ A).map Axis.str ++ ellAxes r.length ++ B.map Axis.str) (ks ++ pre ++ r ++ post)
  have hlen : ((K ++ A).map Axis.str ++ ellAxes r.length ++ B.map Axis.str).map len = ks ++ pre ++ r ++ post :=
    map_envOf hnd (by simp [ha, hb, hk, hle])
  have h1 := hlen
  rw [List.map_append, List.map_append, List.map_append, List.map_append] at h1
  obtain ⟨h2, h5⟩ := List.append_inj h1 (by simp [ha, hk, hle])
  obtain ⟨h3, h4⟩ := List.append_inj h2 (by simp [ha, hk])
  obtain ⟨h6, h7⟩ := List.append_inj h3 (by simp [hk])
  have wL : sideWords ((K ++ A).map Elem.bare ++ .bare dots :: B.map Elem.bare) = K ++ A ++ dots :: B := by
    rw [words_append, words_bares, words_cons, words_bares]; rfl
  have wR : sideWords (A.map Elem.bare ++ .paren (K ++ [dots]) :: B.map Elem.bare) = A ++ ((K ++ [dots]) ++ B) := by
    rw [words_append, words_bares, words_cons, words_bares]; rfl
  refine ⟨len, h6, h7, h4, h5, ⟨l, rr, hqe, hL, hR⟩, ⟨?_, fun n hn => by simp at hn, ⟨r.length, ?_, eL.symm, eR.symm, ?_⟩, ?_⟩,
    ⟨?_, fun n s h => by simp at h, ?_⟩, ?_⟩
  · rw [SidesOK, if_pos rfl]
    refine ⟨⟨fun _ => by rw [wL]; simp, ?_⟩, units_of_names ?_, units_of_names ?_, ?_, ?_⟩
    · intro ws hw
      rcases List.mem_append.1 hw with hw | hw
      · simp at hw
      · simp at hw
    · rw [wL]
      intro w hw
      simp only [List.mem_append, List.mem_cons] at hw
      rcases hw with (h | h) | (h | h)
      · exact .inr (hK w h)
      · exact .inr (hA w h)
      · exact .inl h
      · exact .inr (hB w h)
    · rw [wR]
      intro w hw
      simp only [List.mem_append, List.mem_cons, List.not_mem_nil, or_false] at hw
      rcases hw with h | ((h | h) | h)
      · exact .inr (hA w h)
      · exact .inr (hK w h)
      · exact .inl h
      · exact .inr (hB w h)
    · intro w hw _
      rw [wL] at hw
      rw [wR]
      simp only [List.mem_append, List.mem_cons, List.not_mem_nil, or_false] at hw ⊢
      tauto
    · intro w hw _
      rw [wR] at hw
      rw [wL]
      simp only [List.mem_append, List.mem_cons, List.not_mem_nil, or_false] at hw ⊢
      tauto
  · intro h
    rw [wL] at h
    simp at h
  · simp [hk, ha, hb, hle]
  · exact oneUnknown_singles _ _
  · rw [singles_size, hlen]; simp
  · intro sd i v h
    simp [ellAxes] at h
  · exact determinate_singles _ _ _

omit [PyUnicode] in
theorem singles_pos (len env : AxisMap) (A : List Axis) : (A.map (fun a => [a])).map (groupPos len env) = A.map env := by
  rw [List.map_map]
  exact List.map_congr_left (fun a _ => groupPos_singleton len env a)

variable {ops : PackOps α} {pat : Str}

omit [PyUnicode] in
theorem packPattern_lengths [PyUnicode] {a b c d : Nat} (h : IsPackPattern pat a b) (h' : IsPackPattern pat c d) : a = c ∧ b = d := by
  have h1 := analyzePattern_iff.2 ⟨h, rfl⟩
  have h2 := analyzePattern_iff.2 ⟨h', rfl⟩
  rw [h1] at h2
  simp only [Except.ok.injEq, Prod.mk.injEq] at h2
  exact ⟨h2.1, h2.2.1⟩

/-- the result of `K A ... B -> A (K ...) B` -/
theorem merge_result {E : ElemOps α} {b : Backend α} (hb : Modelled E b) (so : SetOrder) {q : Str} {K A B : List Str}
    (hn : ∀ w ∈ K ++ (A ++ B), IsName false w)
    (hq : IsPattern q ((K ++ A).map Elem.bare ++ .bare dots :: B.map Elem.bare)
      (A.map Elem.bare ++ .paren (K ++ [dots]) :: B.map Elem.bare))
    {ks pre r post : List Nat} (hk : ks.length = K.length) (ha : pre.length = A.length) (hl : post.length = B.length)
    {x y : Tensor α} (hx : x.shape = ks ++ (pre ++ r ++ post)) (hy : y.shape = pre ++ (ks.prod * r.prod) :: post)
    (hent : ∀ k i s j, inBounds k ks = true → inBounds i pre = true → inBounds s r = true → inBounds j post = true →
      y.at? (i ++ (ravel ks k * r.prod + ravel r s) :: j) = x.at? (k ++ (i ++ s ++ j))) :
    rearrange b so (.one x) q [] = .ok y := by
  obtain ⟨len, l0, l1, l2, l3, hacc⟩ := merge_accepted hn hq (r := r) hk ha hl
  rw [← hx] at hacc
  obtain ⟨z, e2, hz⟩ := hacc.moves (red := .name "rearrange".toList) hb.lawful intKw_nil (hacc.move_sub (.inl rfl))
  refine (e2 so).trans ?_
  congr 1
  refine Moves.unique hacc.nodup.2 (hacc.move_sub (.inl rfl)) hz ⟨?_, ?_⟩
  · rw [hy, List.map_append, singles_size, l1, List.map_cons, singles_size, l3]
    simp only [groupSize, List.map_append, l0, l2, List.prod_append]
  · intro env henv
    have hin : ∀ a ∈ (K ++ A).map Axis.str ++ ellAxes r.length ++ B.map Axis.str, env a < len a := fun a ha =>
      henv a (by rw [singles_flatten]; exact List.mem_append_left _ ha)
    rw [List.map_append] at hin
    have i0 : inBounds ((K.map Axis.str).map env) ks = true := by
      rw [← l0, inBounds_map]; exact fun a ha => hin a (by simp only [List.mem_append]; exact .inl (.inl (.inl ha)))
    have i1 : inBounds ((A.map Axis.str).map env) pre = true := by
      rw [← l1, inBounds_map]; exact fun a ha => hin a (by simp only [List.mem_append]; exact .inl (.inl (.inr ha)))
    have i2 : inBounds ((ellAxes r.length).map env) r = true := by
      nth_rw 2 [← l2]; rw [inBounds_map]; exact fun a ha => hin a (by simp only [List.mem_append]; exact .inl (.inr ha))
    have i3 : inBounds ((B.map Axis.str).map env) post = true := by
      rw [← l3, inBounds_map]; exact fun a ha => hin a (by simp only [List.mem_append]; exact .inr ha)
    have he := hent _ _ _ _ i0 i1 i2 i3
    have bx : inBounds ((K.map Axis.str).map env ++ ((A.map Axis.str).map env ++ (ellAxes r.length).map env ++
        (B.map Axis.str).map env)) x.shape = true := by
      rw [hx, inBounds_append (inBounds_length i0), List.append_assoc, List.append_assoc, inBounds_append (inBounds_length i1),
        inBounds_append (inBounds_length i2)]
      exact ⟨i0, i1, i2, i3⟩
    obtain ⟨v, hv⟩ := x.at?_isSome bx
    refine ⟨v, ?_, ?_⟩
    · rw [singles_at, List.map_append, List.map_append, List.map_append, List.map_append, ← hv]
      simp only [List.append_assoc]
    · unfold Tensor.atAxes
      rw [List.map_append, singles_pos, List.map_cons, singles_pos, groupPos_append, ← ravel_map, ← ravel_map, l0, l2, groupSize,
        l2, he, hv]

/-- packing one tensor merges its dimensions at the star -/
theorem pack_one_rearrange {E : ElemOps α} {b : Backend α} (hb : Modelled E b) (so : SetOrder) (ho : PackModelled ops)
    {A B : List Str} (hn : ∀ w ∈ A ++ B, IsName false w) (hp : IsPackPattern pat A.length B.length) {q : Str}
    (hq : IsPattern q (A.map Elem.bare ++ .bare dots :: B.map Elem.bare) (A.map Elem.bare ++ .paren [dots] :: B.map Elem.bare))
    {x y : Tensor α} {ps : List (List Nat)} (h : pack ops [x] pat = .ok (y, ps)) :
    rearrange b so (.one x) q [] = .ok y := by
  obtain ⟨-, pre, post, hp', h0, h1, hP⟩ := (pack_iff ho).1 h
  obtain ⟨ea, eb⟩ := packPattern_lengths hp hp'
  obtain ⟨r, rfl⟩ : ∃ r, ps = [r] := List.length_eq_one_iff.1 (by simpa using hP.count)
  have hx := hP.part 0 x r rfl rfl
  refine merge_result hb so (K := []) hn hq (ks := []) (r := r) rfl ea.symm eb.symm (by simpa using hx)
    (by rw [hP.whole]; simp) ?_
  intro k i s j hk hi hs hj
  obtain rfl : k = [] := List.length_eq_zero_iff.1 (inBounds_length hk)
  have := hP.entry 0 x r rfl rfl i s j hi hs hj
  simpa [ravel] using this

/-- packing tensors of one shape is `rearrange` of the list -/
theorem pack_list_rearrange {E : ElemOps α} {b : Backend α} (hb : Modelled E b) (so : SetOrder) (ho : PackModelled ops)
    {A B : List Str} {n : Str} (hn : ∀ w ∈ n :: (A ++ B), IsName false w) (hp : IsPackPattern pat A.length B.length) {q : Str}
    (hq : IsPattern q (.bare n :: A.map Elem.bare ++ .bare dots :: B.map Elem.bare)
      (A.map Elem.bare ++ .paren [n, dots] :: B.map Elem.bare))
    {xs : List (Tensor α)} {sh : List Nat} (hsh : ∀ x ∈ xs, x.shape = sh) {y : Tensor α} {ps : List (List Nat)}
    (h : pack ops xs pat = .ok (y, ps)) :
    rearrange b so (.many xs) q [] = .ok y := by
  obtain ⟨hne, pre, post, hp', h0, h1, hP⟩ := (pack_iff ho).1 h
  obtain ⟨ea, eb⟩ := packPattern_lengths hp hp'
  obtain ⟨z, z1, z2, z3⟩ := stack_spec hne hsh
  have hred : rearrange b so (.many xs) q [] = rearrange b so (.one z) q [] := by
    have : resolveInput b (.many xs) = .ok z := by
      cases xs with
      | nil => exact absurd rfl hne
      | cons x xs => simp only [resolveInput]; rw [hb.lawful.stack, z1]
    simp only [rearrange, reduce, this]
    rfl
  rw [hred]
  obtain ⟨r, hr⟩ : ∃ r, sh = pre ++ r ++ post := by
    cases xs with
    | nil => exact absurd rfl hne
    | cons x xs =>
      cases ps with
      | nil => exact absurd hP.count (by simp)
      | cons r ps => exact ⟨r, by rw [← hsh x (by simp)]; exact hP.part 0 x r rfl rfl⟩
  have hps : ps = List.replicate xs.length r := by
    rw [List.eq_replicate_iff]
    refine ⟨hP.count, ?_⟩
    intro r' hr'
    obtain ⟨k, hk⟩ := List.getElem?_of_mem hr'
    have hlt : k < xs.length := by rw [← hP.count]; exact (List.getElem?_eq_some_iff.1 hk).1
    have hpart := hP.part k xs[k] r' (by simp [hlt]) hk
    rw [hsh _ (List.getElem_mem _), hr] at hpart
    rw [List.append_assoc, List.append_assoc] at hpart
    exact (List.append_cancel_right (List.append_cancel_left hpart)).symm
  refine merge_result hb so (K := [n]) hn hq (ks := [xs.length]) (pre := pre) (r := r) (post := post) rfl ea.symm eb.symm
    (by rw [z2, hr]; rfl) (by rw [hP.whole, hps]; simp) ?_
  intro k i s j hk hi hs hj
  obtain ⟨m, rfl⟩ : ∃ m, k = [m] := List.length_eq_one_iff.1 (by simpa using inBounds_length hk)
  simp only [inBounds_cons, inBounds_nil, and_true] at hk
  have hxm : xs[m]? = some xs[m] := by simp [hk]
  have := hP.entry m xs[m] r hxm (by rw [hps]; simp [hk]) i s j hi hs hj
  rw [hps, List.map_replicate, List.take_replicate, List.sum_replicate, min_eq_left hk.le, show m • r.prod = m * r.prod from rfl] at this
  rw [List.singleton_append, z3, hxm, Option.bind_some, ← this]
  simp [ravel]

/-! ### Splitting one axis -/

omit [PyUnicode] in
theorem mem_sizesOf {C : List Str} {s : List Int} {c : Str} {v : Size} :
    (c, v) ∈ sizesOf C s ↔ ∃ d, (c, d) ∈ C.zip s ∧ d ≠ -1 ∧ v = ⟨d, true⟩ := by
  unfold sizesOf
  simp only [List.mem_map, List.mem_filter, decide_eq_true_eq, Prod.mk.injEq, Prod.exists]
  constructor
  · rintro ⟨a, d, ⟨h1, h2⟩, rfl, rfl⟩; exact ⟨d, h1, h2, rfl⟩
  · rintro ⟨d, h1, h2, rfl⟩; exact ⟨c, d, ⟨h1, h2⟩, rfl, rfl⟩

omit [PyUnicode] in
theorem sizesOf_names (C : List Str) (s : List Int) :
    (sizesOf C s).map Prod.fst = ((C.zip s).filter fun p => decide (p.2 ≠ -1)).map Prod.fst := by
  unfold sizesOf
  rw [List.map_map]; rfl

omit [PyUnicode] in
theorem sizesOf_sublist (C : List Str) (s : List Int) : ((sizesOf C s).map Prod.fst).Sublist C := by
  rw [sizesOf_names]
  refine (List.filter_sublist.map _).trans ?_
  induction C generalizing s with
  | nil => simp
  | cons c C ih =>
    cases s with
    | nil => simp
    | cons d s => simpa using ih s

omit [PyUnicode] in
/-- an axis without a size has -1 in its place -/
theorem sizesOf_unknown {C : List Str} {s : List Int} {c : Str} {d : Int} (h : (c, d) ∈ C.zip s)
    (hu : c ∉ (sizesOf C s).map Prod.fst) : d = -1 := by
  by_contra hd
  refine hu (List.mem_map.2 ⟨(c, ⟨d, true⟩), mem_sizesOf.2 ⟨d, h, hd, rfl⟩, rfl⟩)

omit [PyUnicode] in
theorem sizesOf_oneUnknown {C : List Str} {s : List Int} (hl : C.length = s.length) (h1 : s.count (-1) ≤ 1) :
    (C.filter fun c => !decide (c ∈ (sizesOf C s).map Prod.fst)).length ≤ 1 := by
  have e : C = (C.zip s).map Prod.fst := by rw [List.map_fst_zip (le_of_eq hl)]
  have e' : s = (C.zip s).map Prod.snd := by rw [List.map_snd_zip (le_of_eq hl.symm)]
  generalize hN : (sizesOf C s).map Prod.fst = N
  have : (C.filter fun c => !decide (c ∈ N)).length ≤ s.count (-1) := by
    rw [List.count_eq_length_filter]
    conv_lhs => rw [e]
    conv_rhs => rw [e']
    rw [List.filter_map, List.filter_map, List.length_map, List.length_map, ← List.countP_eq_length_filter,
      ← List.countP_eq_length_filter]
    refine List.countP_mono_left ?_
    rintro ⟨c, d⟩ hp hc
    simp only [Function.comp, Bool.not_eq_true', decide_eq_false_iff_not, beq_iff_eq] at hc ⊢
    exact sizesOf_unknown hp (hN ▸ hc)
  omega

omit [PyUnicode] in
theorem Fills.zip {s : List Int} {r : List Nat} (h : Fills s r) {C : List Str} {len : AxisMap}
    (hr : (C.map Axis.str).map len = r) {c : Str} {d : Int} (hc : (c, d) ∈ C.zip s) : d = (len (.str c) : Int) ∨ d = -1 := by
  induction C generalizing s r with
  | nil => simp at hc
  | cons c' C ih =>
    cases h with
    | nil => simp at hr
    | cons h1 h2 =>
      simp only [List.map_cons, List.cons.injEq] at hr
      simp only [List.zip_cons_cons, List.mem_cons, Prod.mk.injEq] at hc
      rcases hc with ⟨rfl, rfl⟩ | hc
      · rw [hr.1]; exact h1
      · exact ih h2 hr.2 hc

/-- `A (C) B -> A C B` with the sizes of a packed shape is a legal `rearrange` -/
theorem split_accepted {q : Str} {A B C : List Str} (hn : ∀ w ∈ A ++ C ++ B, IsName false w)
    (hq : IsPattern q (A.map Elem.bare ++ .paren C :: B.map Elem.bare) ((A ++ C ++ B).map Elem.bare))
    {pre r post : List Nat} (ha : pre.length = A.length) (hc : r.length = C.length) (hb : post.length = B.length)
    {s : List Int} (hs : Fills s r) (h1 : s.count (-1) ≤ 1) (h0 : -1 ∈ s → (0 : Int) ∉ s) :
    IntKw (sizesOf C s) ∧
    ∃ len : AxisMap, (A.map Axis.str).map len = pre ∧ (C.map Axis.str).map len = r ∧
      (B.map Axis.str).map len = post ∧
      Accepted (.name "rearrange".toList) q (sizesOf C s) (pre ++ r.prod :: post)
        (A.map Elem.bare ++ .paren C :: B.map Elem.bare) ((A ++ C ++ B).map Elem.bare)
        (((A.map Axis.str).map fun a => [a]) ++ C.map Axis.str :: ((B.map Axis.str).map fun a => [a]))
        ((A.map Axis.str ++ C.map Axis.str ++ B.map Axis.str).map fun a => [a]) len := by
  have hA : ∀ w ∈ A, IsName false w := fun w h => hn w (by simp [h])
  have hC : ∀ w ∈ C, IsName false w := fun w h => hn w (by simp [h])
  have hB : ∀ w ∈ B, IsName false w := fun w h => hn w (by simp [h])
  have eL := spread_paren 0 0 (ellAxes 0) hA hB C
  have e1 : wordsAxes 0 (0 + A.length) C = C.map Axis.str := by
    have := wordsAxes_names 0 (0 + A.length) hC []
    simpa [wordsAxes] using this
  rw [e1, flatMap_names _ hC] at eL
  have eR : spread (ellAxes 0) (denote 1 0 ((A ++ C ++ B).map Elem.bare)) =
      (A.map Axis.str ++ C.map Axis.str ++ B.map Axis.str).map fun a => [a] := by
    rw [denote_bares _ _ hn, spread_names hn]; simp
  obtain ⟨l, rr, hqe, hL, hR⟩ := hq
  have hnd := side_flatten_nodup hR 1 0
  rw [eR, singles_flatten] at hnd
  have hCn : C.Nodup := ((List.nodup_append.1 (List.nodup_append.1 hnd).1).2.1).of_map
  have hls : C.length = s.length := by rw [hs.length, hc]
  refine ⟨⟨(sizesOf_sublist C s).nodup hCn, ?_⟩, ?_⟩
  · rintro ⟨c, v⟩ hp
    obtain ⟨d, -, -, rfl⟩ := mem_sizesOf.1 hp
    rfl
  let len := envOf (A.map Axis.str ++ C.map Axis.str ++ B.map Axis.str) (pre ++ r ++ post)
  have hlen : (A.map Axis.str ++ C.map Axis.str ++ B.map Axis.str).map len = pre ++ r ++ post :=
    map_envOf hnd (by simp [ha, hb, hc])
  have h2 := hlen
  rw [List.map_append, List.map_append] at h2
  obtain ⟨h3, l3⟩ := List.append_inj h2 (by simp [ha, hc])
  obtain ⟨l1, l2⟩ := List.append_inj h3 (by simp [ha])
  have wL : sideWords (A.map Elem.bare ++ .paren C :: B.map Elem.bare) = A ++ (C ++ B) := by
    rw [words_append, words_bares, words_cons, words_bares]; rfl
  have wR : sideWords ((A ++ C ++ B).map Elem.bare) = A ++ C ++ B := words_bares _
  have hdots : dots ∉ A ++ C ++ B := fun h => isName_ne_dots (hn _ h) rfl
  have hkey : ∀ c v, (c, v) ∈ sizesOf C s → (len (.str c) : Int) = v.val ∧ (-1 ∈ s → len (.str c) ≠ 0) := by
    intro c v hv
    obtain ⟨d, h4, h5, rfl⟩ := mem_sizesOf.1 hv
    have h6 := (hs.zip l2 h4).resolve_right h5
    refine ⟨h6.symm, fun h7 h8 => h0 h7 ?_⟩
    have h9 := (List.of_mem_zip h4).2
    rw [h6, h8] at h9
    exact h9
  refine ⟨len, l1, l2, l3, ⟨l, rr, hqe, hL, hR⟩, ⟨?_, ?_, ⟨0, fun _ => rfl, eL.symm, eR.symm, ?_⟩, ?_⟩, ⟨?_, fun c v h => (hkey c v h).1, ?_⟩, ?_⟩
  · rw [SidesOK, if_pos rfl]
    refine ⟨⟨fun h => absurd (wR ▸ h) hdots, ?_⟩, units_of_names ?_, units_of_names ?_, ?_, ?_⟩
    · intro ws hw
      rcases List.mem_append.1 hw with hw | hw
      · simp at hw
      · simp only [List.mem_cons, Elem.paren.injEq, List.mem_map, reduceCtorEq, and_false, exists_false, or_false] at hw
        subst hw
        exact fun h => hdots (by simp [h])
    · rw [wL, ← List.append_assoc]; exact fun w h => .inr (hn w h)
    · rw [wR]; exact fun w h => .inr (hn w h)
    · intro w hw _; rw [wL, ← List.append_assoc] at hw; rwa [wR]
    · intro w hw _; rw [wR] at hw; rwa [wL, ← List.append_assoc]
  · intro n h
    have := (sizesOf_sublist C s).subset h
    refine ⟨hC n this, ?_⟩
    rw [wL]; simp [this]
  · simp [ha, hb]
  · intro g hg
    rw [List.mem_append, List.mem_cons] at hg
    rcases hg with hg | rfl | hg
    · exact oneUnknown_singles _ _ g hg
    · rw [List.filter_map, List.length_map]
      exact sizesOf_oneUnknown hls h1
    · exact oneUnknown_singles _ _ g hg
  · rw [List.map_append, singles_size, List.map_cons, singles_size, l1, l3, groupSize, l2]
  · intro sd i v h
    simp at h
  · intro g hg hu
    rw [List.mem_append, List.mem_cons] at hg
    rcases hg with hg | rfl | hg
    · exact determinate_singles _ _ _ g hg hu
    · obtain ⟨a, ha, hu⟩ := hu
      obtain ⟨c, hc', rfl⟩ := List.mem_map.1 ha
      have hm : -1 ∈ s := by
        obtain ⟨i, hi, rfl⟩ := List.getElem_of_mem hc'
        have hz : (C[i], s[i]'(hls ▸ hi)) ∈ C.zip s := by
          rw [List.mem_iff_getElem]; exact ⟨i, by simp [hi, hls ▸ hi], by simp⟩
        rw [← sizesOf_unknown hz (by simpa [isKnown] using hu)]
        exact List.getElem_mem _
      unfold groupSize
      rw [prod_ne_zero']
      intro hz
      obtain ⟨a, ha', hz⟩ := List.mem_map.1 hz
      rw [List.mem_filter] at ha'
      obtain ⟨c', -, rfl⟩ := List.mem_map.1 ha'.1
      have hk : c' ∈ (sizesOf C s).map Prod.fst := by simpa [isKnown] using ha'.2
      obtain ⟨⟨c'', v⟩, hk', rfl⟩ := List.mem_map.1 hk
      exact (hkey _ _ hk').2 hm hz
    · exact determinate_singles _ _ _ g hg hu

/-- unpacking one tensor splits the axis at the star -/
theorem unpack_one_rearrange {E : ElemOps α} {b : Backend α} (hb : Modelled E b) (so : SetOrder) (ho : PackModelled ops)
    {A B C : List Str} (hn : ∀ w ∈ A ++ C ++ B, IsName false w) (hp : IsPackPattern pat A.length B.length) {q : Str}
    (hq : IsPattern q (A.map Elem.bare ++ .paren C :: B.map Elem.bare) ((A ++ C ++ B).map Elem.bare))
    {s : List Int} {r pre post : List Nat} (hc : s.length = C.length) (hs : Resolves [s] N [r])
    {x : Tensor α} (hx : x.shape = pre ++ N :: post) (ha : pre.length = A.length) (hl : post.length = B.length)
    (h0 : -1 ∈ s → 0 ∉ pre ∧ 0 ∉ post) :
    ∃ z, unpack ops x [s] pat = .ok [z] ∧ rearrange b so (.one x) q (sizesOf C s) = .ok z := by
  have hF : Fills s r := by cases hs.fills with | cons h _ => exact h
  have hN : N = r.prod := by have := hs.total; simpa using this.symm
  subst hN
  obtain ⟨zs, hz, hP⟩ := unpack_exists ho (pre := pre) (post := post) (by rw [ha, hl]; exact hp) hx hs (by simpa using h0)
  obtain ⟨z, rfl⟩ : ∃ z, zs = [z] := List.length_eq_one_iff.1 (by simpa using hP.count.symm)
  refine ⟨z, hz, ?_⟩
  obtain ⟨hkw, len, l1, l2, l3, hacc⟩ := split_accepted hn hq ha (by rw [← hc, hF.length]) hl hF
    (by have := hs.one; simpa using this) (hs.nonzero s (by simp))
  rw [← hx] at hacc
  obtain ⟨z', e2, hz'⟩ := hacc.moves (red := .name "rearrange".toList) hb.lawful hkw (hacc.move_sub (.inl rfl))
  refine (e2 so).trans ?_
  congr 1
  refine Moves.unique hacc.nodup.2 (hacc.move_sub (.inl rfl)) hz' ⟨?_, ?_⟩
  · rw [singles_size, List.map_append, List.map_append, l1, l2, l3]
    exact hP.part 0 z r rfl rfl
  · intro env henv
    have hin : ∀ a ∈ A.map Axis.str ++ C.map Axis.str ++ B.map Axis.str, env a < len a := fun a ha =>
      henv a (by rw [singles_flatten]; exact List.mem_append_right _ ha)
    have i1 : inBounds ((A.map Axis.str).map env) pre = true := by
      rw [← l1, inBounds_map]; exact fun a ha => hin a (by simp only [List.mem_append]; exact .inl (.inl ha))
    have i2 : inBounds ((C.map Axis.str).map env) r = true := by
      rw [← l2, inBounds_map]; exact fun a ha => hin a (by simp only [List.mem_append]; exact .inl (.inr ha))
    have i3 : inBounds ((B.map Axis.str).map env) post = true := by
      rw [← l3, inBounds_map]; exact fun a ha => hin a (by simp only [List.mem_append]; exact .inr ha)
    have he := hP.entry 0 z r rfl rfl _ _ _ i1 i2 i3
    have bz : inBounds ((A.map Axis.str).map env ++ (C.map Axis.str).map env ++ (B.map Axis.str).map env) z.shape = true := by
      rw [hP.part 0 z r rfl rfl, List.append_assoc, List.append_assoc, inBounds_append (inBounds_length i1),
        inBounds_append (inBounds_length i2)]
      exact ⟨i1, i2, i3⟩
    obtain ⟨v, hv⟩ := z.at?_isSome bz
    refine ⟨v, ?_, ?_⟩
    · unfold Tensor.atAxes
      rw [List.map_append, singles_pos, List.map_cons, singles_pos, ← ravel_map, l2, ← hv, ← he]
      simp
    · rw [singles_at, List.map_append, List.map_append, hv]

/-! ### Packing in stages -/

omit [PyUnicode] in
/-- the tensors stand one after the other in `y`, from position `off` on -/
def PacksAt (pre post : List Nat) (y : Tensor α) : Nat → List (Tensor α) → List (List Nat) → Prop
  | _, [], [] => True
  | off, x :: xs, r :: rs => (x.shape = pre ++ r ++ post ∧ ∀ i s j, inBounds i pre = true → inBounds s r = true →
      inBounds j post = true → y.at? (i ++ (off + ravel r s) :: j) = x.at? (i ++ s ++ j)) ∧
      PacksAt pre post y (off + r.prod) xs rs
  | _, _, _ => False

omit [PyUnicode] in
theorem packsAt_iff {pre post : List Nat} {y : Tensor α} {off : Nat} {xs : List (Tensor α)} {rs : List (List Nat)} :
    PacksAt pre post y off xs rs ↔ rs.length = xs.length ∧
      ∀ (k : Nat) (x : Tensor α) (r : List Nat), xs[k]? = some x → rs[k]? = some r → x.shape = pre ++ r ++ post ∧
        ∀ i s j, inBounds i pre = true → inBounds s r = true → inBounds j post = true →
          y.at? (i ++ (off + ((rs.map List.prod).take k).sum + ravel r s) :: j) = x.at? (i ++ s ++ j) := by
  induction xs generalizing off rs with
  | nil => cases rs <;> simp [PacksAt]
  | cons x xs ih =>
    cases rs with
    | nil => simp [PacksAt]
    | cons r rs =>
      rw [PacksAt, ih]
      constructor
      · rintro ⟨h1, h2, h3⟩
        refine ⟨by simp [h2], ?_⟩
        intro k x' r' hx hr
        cases k with
        | zero =>
          simp only [List.getElem?_cons_zero, Option.some.injEq] at hx hr
          subst hx; subst hr
          simpa using h1
        | succ k =>
          have := h3 k x' r' (by simpa using hx) (by simpa using hr)
          simpa [Nat.add_assoc] using this
      · rintro ⟨h1, h2⟩
        refine ⟨by simpa using h2 0 x r rfl rfl, by simpa using h1, ?_⟩
        intro k x' r' hx hr
        have := h2 (k + 1) x' r' (by simpa using hx) (by simpa using hr)
        simpa [Nat.add_assoc] using this

omit [PyUnicode] in
theorem packs_iff_at {pre post : List Nat} {y : Tensor α} {xs : List (Tensor α)} {rs : List (List Nat)} :
    Packs pre post xs rs y ↔ y.shape = pre ++ (rs.map List.prod).sum :: post ∧ PacksAt pre post y 0 xs rs := by
  rw [packsAt_iff]
  constructor
  · intro h
    refine ⟨h.whole, h.count, fun k x r hx hr => ⟨h.part k x r hx hr, ?_⟩⟩
    have := h.entry k x r hx hr
    simpa using this
  · rintro ⟨h1, h2, h3⟩
    refine ⟨h2, fun k x r hx hr => (h3 k x r hx hr).1, h1, fun k x r hx hr => ?_⟩
    have := (h3 k x r hx hr).2
    simpa using this

omit [PyUnicode] in
theorem packsAt_append {pre post : List Nat} {y : Tensor α} {off : Nat} {xs zs : List (Tensor α)} {rs ss : List (List Nat)}
    (hl : rs.length = xs.length) :
    PacksAt pre post y off (xs ++ zs) (rs ++ ss) ↔
      PacksAt pre post y off xs rs ∧ PacksAt pre post y (off + (rs.map List.prod).sum) zs ss := by
  induction xs generalizing off rs with
  | nil =>
    obtain rfl : rs = [] := List.length_eq_zero_iff.1 hl
    simp [PacksAt]
  | cons x xs ih =>
    cases rs with
    | nil => simp at hl
    | cons r rs =>
      simp only [List.cons_append, PacksAt, List.map_cons, List.sum_cons]
      rw [ih (by simpa using hl), ← and_assoc, Nat.add_assoc]

omit [PyUnicode] in
/-- a packed tensor stands for its parts -/
theorem packsAt_whole {pre post : List Nat} {y w : Tensor α} {off : Nat} {xs : List (Tensor α)} {rs : List (List Nat)}
    (h : Packs pre post xs rs w) :
    PacksAt pre post y off [w] [[(rs.map List.prod).sum]] ↔ PacksAt pre post y off xs rs := by
  have hw := h.whole
  constructor
  · rintro ⟨⟨-, h2⟩, -⟩
    rw [packsAt_iff]
    refine ⟨h.count, fun k x r hx hr => ⟨h.part k x r hx hr, fun i s j hi hs hj => ?_⟩⟩
    have hb : ((rs.map List.prod).take k).sum + ravel r s < (rs.map List.prod).sum := by
      have h3 := offset_succ (rs.map List.prod) k r.prod (by simp [hr])
      have h4 := offset_le (rs.map List.prod) (k + 1)
      have := ravel_lt hs
      omega
    have := h2 i [((rs.map List.prod).take k).sum + ravel r s] j hi (by simpa using hb) hj
    rw [← h.entry k x r hx hr i s j hi hs hj]
    simpa [ravel, Nat.add_assoc] using this
  · intro h2
    rw [packsAt_iff] at h2
    refine ⟨⟨by rw [hw]; simp, ?_⟩, trivial⟩
    intro i m j hi hm hj
    obtain ⟨m, rfl⟩ : ∃ q, m = [q] := List.length_eq_one_iff.1 (by simpa using inBounds_length hm)
    simp only [inBounds_cons, inBounds_nil, and_true] at hm
    obtain ⟨k, m', n, h3, h4, rfl⟩ := exists_offset _ m hm
    rw [List.getElem?_map, Option.map_eq_some_iff] at h3
    obtain ⟨r, hr, rfl⟩ := h3
    obtain ⟨s, hsb, rfl⟩ := ravel_surj h4
    have hlt : k < xs.length := by rw [← h.count]; exact (List.getElem?_eq_some_iff.1 hr).1
    have hx : xs[k]? = some xs[k] := by simp [hlt]
    have e1 := (h2.2 k _ r hx hr).2 i s j hi hsb hj
    have e2 := h.entry k _ r hx hr i s j hi hsb hj
    rw [List.append_assoc, List.singleton_append, e2, ← e1]
    simp [ravel, Nat.add_assoc]

omit [PyUnicode] in
/-- some of the tensors may be packed first -/
theorem packs_segment {pre post : List Nat} {y w : Tensor α} {us xs vs : List (Tensor α)} {ps rs qs : List (List Nat)}
    (hl : ps.length = us.length) (h : Packs pre post xs rs w) :
    Packs pre post (us ++ w :: vs) (ps ++ [(rs.map List.prod).sum] :: qs) y ↔
      Packs pre post (us ++ xs ++ vs) (ps ++ rs ++ qs) y := by
  rw [packs_iff_at, packs_iff_at, packsAt_append (xs := us ++ xs) (by simp [hl, h.count]), packsAt_append hl, packsAt_append hl,
    show w :: vs = [w] ++ vs from rfl, show [(rs.map List.prod).sum] :: qs = [[(rs.map List.prod).sum]] ++ qs from rfl,
    packsAt_append (xs := [w]) rfl, packsAt_whole h]
  simp only [List.map_append, List.map_cons, List.map_nil, List.prod_cons, List.prod_nil, List.sum_append,
    List.sum_cons, List.sum_nil, Nat.mul_one, Nat.add_zero, Nat.add_assoc, and_assoc, Nat.zero_add]

omit [PyUnicode] in
theorem sides_unique {pre post pre' post' m m' : List Nat} (h : pre ++ m ++ post = pre' ++ m' ++ post')
    (h1 : pre.length = pre'.length) (h2 : post.length = post'.length) : pre = pre' ∧ m = m' ∧ post = post' := by
  obtain ⟨h3, h4⟩ := List.append_inj' h h2
  obtain ⟨h5, h6⟩ := List.append_inj h3 h1
  exact ⟨h5, h6, h4⟩

theorem pack_segment (ho : PackModelled ops) {y w : Tensor α} {us xs vs : List (Tensor α)} {ps rs qs : List (List Nat)}
    (hl : ps.length = us.length) (h : pack ops xs pat = .ok (w, rs)) :
    pack ops (us ++ w :: vs) pat = .ok (y, ps ++ [(rs.map List.prod).sum] :: qs) ↔
      pack ops (us ++ xs ++ vs) pat = .ok (y, ps ++ rs ++ qs) := by
  obtain ⟨hne, pre, post, hp, z1, z2, hP⟩ := (pack_iff ho).1 h
  rw [pack_iff ho, pack_iff ho]
  constructor
  · rintro ⟨-, pre', post', hp', z1', z2', hP'⟩
    have hsh := hP'.part us.length w [(rs.map List.prod).sum] (by simp) (by rw [← hl]; simp)
    rw [hP.whole] at hsh
    obtain ⟨e1, e2⟩ := packPattern_lengths hp hp'
    obtain ⟨rfl, -, rfl⟩ := sides_unique (m := [(rs.map List.prod).sum]) (m' := [(rs.map List.prod).sum]) (by simpa using hsh) e1 e2
    exact ⟨by simp [hne], pre, post, hp, z1, z2, (packs_segment hl hP).1 hP'⟩
  · rintro ⟨-, pre', post', hp', z1', z2', hP'⟩
    obtain ⟨x, xs, rfl⟩ := List.exists_cons_of_ne_nil hne
    obtain ⟨r, rs, rfl⟩ := List.exists_cons_of_ne_nil (l := rs) (by rintro rfl; exact absurd hP.count (by simp))
    have hsh := hP'.part us.length x r (by simp) (by rw [← hl]; simp)
    rw [hP.part 0 x r rfl rfl] at hsh
    obtain ⟨e1, e2⟩ := packPattern_lengths hp hp'
    obtain ⟨rfl, -, rfl⟩ := sides_unique hsh e1 e2
    exact ⟨by simp, pre, post, hp, z1, z2, (packs_segment hl hP).2 hP'⟩

/-- packing one tensor with a single dimension at the star changes nothing -/
theorem pack_single (ho : PackModelled ops) {x y : Tensor α} {n : Nat} (h : pack ops [x] pat = .ok (y, [[n]])) : y = x := by
  obtain ⟨-, pre, post, -, -, -, hP⟩ := (pack_iff ho).1 h
  have hx := hP.part 0 x [n] rfl rfl
  have hy := hP.whole
  refine Tensor.ext_at? (by rw [hx, hy]; simp) ?_
  intro t ht
  rw [hy] at ht
  obtain ⟨i, s, j, rfl, hi, hs, hj⟩ := inBounds_split (mid := [_]) (by simpa using ht)
  obtain ⟨q, rfl⟩ : ∃ q, s = [q] := List.length_eq_one_iff.1 (by simpa using inBounds_length hs)
  have := hP.entry 0 x [n] rfl rfl i [q] j hi (by simpa using hs) hj
  simpa [ravel] using this

/-- unpacking in stages -/
theorem unpack_segment (ho : PackModelled ops) {x : Tensor α} {pre post : List Nat} {N : Nat}
    (hp : IsPackPattern pat pre.length post.length) (hx : x.shape = pre ++ N :: post) {ps rs qs : List (List Nat)}
    (hN : ((ps ++ rs ++ qs).map List.prod).sum = N) :
    ∃ us xs vs w, us.length = ps.length ∧ vs.length = qs.length ∧
      unpack ops x ((ps ++ [(rs.map List.prod).sum] :: qs).map fun r => r.map Int.ofNat) pat = .ok (us ++ w :: vs) ∧
      unpack ops w (rs.map fun r => r.map Int.ofNat) pat = .ok xs ∧
      unpack ops x ((ps ++ rs ++ qs).map fun r => r.map Int.ofNat) pat = .ok (us ++ xs ++ vs) := by
  have hno : ∀ L : List (List Nat), (-1 : Int) ∈ (L.map fun r => r.map Int.ofNat).flatten → 0 ∉ pre ∧ 0 ∉ post := by
    intro L h
    obtain ⟨s, hs, h⟩ := List.mem_flatten.1 h
    obtain ⟨r, -, rfl⟩ := List.mem_map.1 hs
    exact absurd h (neg_one_not_mem_ofNat r)
  have hN' : ((ps ++ [(rs.map List.prod).sum] :: qs).map List.prod).sum = N := by rw [← hN]; simp [Nat.add_assoc]
  obtain ⟨zs, e1, hP⟩ := unpack_exists ho hp hx (hN' ▸ resolves_self (ps ++ [(rs.map List.prod).sum] :: qs)) (hno _)
  have hc := hP.count
  obtain ⟨us, tl, hzs, hul⟩ : ∃ us tl, zs = us ++ tl ∧ us.length = ps.length :=
    ⟨zs.take ps.length, zs.drop ps.length, (List.take_append_drop _ _).symm, by simp at hc ⊢; omega⟩
  subst hzs
  obtain ⟨w, vs, rfl⟩ : ∃ w vs, tl = w :: vs := List.exists_cons_of_ne_nil (by rintro rfl; simp at hc; omega)
  have hw := hP.part us.length w [(rs.map List.prod).sum] (by simp) (by rw [hul]; simp)
  obtain ⟨xs, e2, hQ⟩ := unpack_exists ho hp (x := w) (by rw [hw]; simp) (resolves_self rs) (hno _)
  refine ⟨us, xs, vs, w, hul, by simp at hc; omega, e1, e2, ?_⟩
  obtain ⟨zs', e3, hP'⟩ := unpack_exists ho hp hx (hN ▸ resolves_self (ps ++ rs ++ qs)) (hno _)
  rw [e3]
  congr 1
  exact Packs.parts_unique hP' ((packs_segment hul.symm hQ).1 hP)

end

/-! ### Elementwise functions -/

section
variable {α β : Type u}

theorem locate_elem (f : α → β) (ys : List (Tensor α)) (p : Nat × Nat) (i : List Nat) (axis : Nat) :
    (match (ys.map (Tensor.map f))[p.1]? with
      | some y => y.getE (i.set axis p.2)
      | none => (.error .index : Py β)) =
    Except.map f (match ys[p.1]? with
      | some y => y.getE (i.set axis p.2)
      | none => .error .index) := by
  rw [List.getElem?_map]
  cases ys[p.1]? with
  | none => rfl
  | some y => exact Tensor.getE_map f y _

theorem concat_elem (f : α → β) (xs : List (Tensor α)) (axis : Nat) :
    Tensor.concat (xs.map (Tensor.map f)) axis = (Tensor.concat xs axis).map (Tensor.map f) := by
  cases xs with
  | nil => rfl
  | cons x rest =>
    rw [List.map_cons]
    unfold Tensor.concat
    simp only
    by_cases h : axis < x.ndim ∧ ∀ y ∈ rest, y.ndim = x.ndim ∧ y.shape.set axis 0 = x.shape.set axis 0
    · have h' : axis < (x.map f).ndim ∧ ∀ y ∈ rest.map (Tensor.map f), y.ndim = (x.map f).ndim ∧
          y.shape.set axis 0 = (x.map f).shape.set axis 0 :=
        ⟨h.1, fun y hy => by obtain ⟨z, hz, rfl⟩ := List.mem_map.1 hy; exact h.2 z hz⟩
      rw [if_pos h, if_pos h']
      have e : (x.map f :: rest.map (Tensor.map f)).map (fun y => nth y.shape axis) =
          (x :: rest).map (fun y => nth y.shape axis) := by
        rw [List.map_cons, List.map_cons, List.map_map]; rfl
      rw [e]
      exact Tensor.build_map (fun i => locate_elem f (x :: rest) _ i axis)
    · have h' : ¬ (axis < (x.map f).ndim ∧ ∀ y ∈ rest.map (Tensor.map f), y.ndim = (x.map f).ndim ∧
          y.shape.set axis 0 = (x.map f).shape.set axis 0) := fun h' =>
        h ⟨h'.1, fun y hy => h'.2 (y.map f) (List.mem_map.2 ⟨y, hy, rfl⟩)⟩
      rw [if_neg h, if_neg h']
      rfl

theorem slice_elem (f : α → β) (x : Tensor α) (axis : Nat) (lo hi : Int) :
    (x.map f).slice axis lo hi = (x.slice axis lo hi).map (Tensor.map f) := by
  unfold Tensor.slice
  rw [show (x.map f).ndim = x.ndim from rfl, show (x.map f).shape = x.shape from rfl]
  split
  · exact Tensor.build_map (fun i => Tensor.getE_map f x _)
  · rfl

variable {ops : PackOps α} {ops' : PackOps β}

theorem SamePack.reshape (h : SamePack ops ops') (f : α → β) (x : Tensor α) (s : List Int) :
    ops'.reshape (x.map f) s = (ops.reshape x s).map (Tensor.map f) := by
  cases h with
  | numpy => exact reshape_elem f x s
  | strict => exact reshapeStrict_elem f x s

theorem SamePack.concat (h : SamePack ops ops') (f : α → β) (xs : List (Tensor α)) (axis : Nat) :
    ops'.concat (xs.map (Tensor.map f)) axis = (ops.concat xs axis).map (Tensor.map f) := by
  cases h <;> exact concat_elem f xs axis

theorem SamePack.slice (h : SamePack ops ops') (f : α → β) (x : Tensor α) (axis : Nat) (lo hi : Int) :
    ops'.slice (x.map f) axis lo hi = (ops.slice x axis lo hi).map (Tensor.map f) := by
  cases h <;> exact slice_elem f x axis lo hi

theorem packLoop_elem (h : SamePack ops ops') (f : α → β) (bf af m : Nat) (xs : List (Tensor α)) :
    packLoop ops' bf af m (xs.map (Tensor.map f)) =
      (packLoop ops bf af m xs).map (fun p => (p.1.map (Tensor.map f), p.2)) := by
  induction xs with
  | nil => rfl
  | cons x xs ih =>
    rw [List.map_cons]
    unfold packLoop
    rw [show (x.map f).shape = x.shape from rfl]
    simp only
    rw [h.reshape, ih]
    split
    · rfl
    · cases ops.reshape x _ with
      | error e => rfl
      | ok y =>
        cases packLoop ops bf af m xs with
        | error e => rfl
        | ok p => rfl

theorem pack_elem [PyUnicode] (h : SamePack ops ops') (f : α → β) (xs : List (Tensor α)) (pat : Str) :
    pack ops' (xs.map (Tensor.map f)) pat = (pack ops xs pat).map (fun p => (p.1.map f, p.2)) := by
  unfold pack
  cases analyzePattern pat with
  | error e => rfl
  | ok v =>
    obtain ⟨bf, af, m⟩ := v
    cases xs with
    | nil => rfl
    | cons x xs =>
      simp only [List.map_cons]
      rw [← List.map_cons, packLoop_elem h]
      cases packLoop ops bf af m (x :: xs) with
      | error e => rfl
      | ok p =>
        obtain ⟨ys, ps⟩ := p
        simp only [Except.map]
        rw [h.concat]
        cases ops.concat ys bf <;> rfl

theorem unpackPiece_elem (h : SamePack ops ops') (f : α → β) (x : Tensor α) (axis : Nat) (sp s : List Int) (i : Nat) :
    unpackPiece ops' (x.map f) axis sp s i = (unpackPiece ops x axis sp s i).map (Tensor.map f) := by
  unfold unpackPiece
  rw [h.slice, show (x.map f).shape = x.shape from rfl]
  cases ops.slice x axis (sp.getD i 0) (sp.getD (i + 1) 0) with
  | error e => rfl
  | ok y => exact h.reshape f y _

theorem unpack_elem [PyUnicode] (h : SamePack ops ops') (f : α → β) (x : Tensor α) (ps : List (List Int)) (pat : Str) :
    unpack ops' (x.map f) ps pat = (unpack ops x ps pat).map (List.map (Tensor.map f)) := by
  unfold unpack
  cases analyzePattern pat with
  | error e => rfl
  | ok v =>
    obtain ⟨bf, af, m⟩ := v
    simp only
    rw [show (x.map f).shape = x.shape from rfl]
    split
    · rfl
    · split
      · rfl
      · rw [mapE_post (F := fun p : List Int × Nat => unpackPiece ops x bf
          (splitPositions (nth x.shape bf) (composedLengths ps)) p.1 p.2) (g := Tensor.map f)
          (fun p _ => unpackPiece_elem h f x bf _ p.1 p.2)]
        cases mapE (fun p : List Int × Nat => unpackPiece ops x bf
          (splitPositions (nth x.shape bf) (composedLengths ps)) p.1 p.2) ps.zipIdx <;> rfl

end

end Einops
