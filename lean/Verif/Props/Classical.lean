import Verif.Proofs.Classical
import Verif.Props.Examples

/-!
# Functions of tensor libraries written as einops calls

`transpose`, `reshape`, `concatenate`, `stack`, `tile`, `repeat`, `broadcast_to`, and reductions along one or all axes, with
indices that are lists of numbers: no axis names, lengths of axes or groups occur in what the results are.
-/

namespace Einops

universe u

section
variable {α : Type u} [PyUnicode] {E : ElemOps α} {b : Backend α} {so : SetOrder} {x y : Tensor α} {q : Str}

/-! ### C59 -/

/-- **C59** `transpose(x, p)`: with names on the left and the same names in the order of the positions `p` on the right,
dimension `k` of the result is dimension `p[k]` of the operand, and so are the coordinates. -/
theorem C59_transpose (hb : Modelled E b) {ns : List Str} (hn : ∀ w ∈ ns, IsName false w) {p : List Nat}
    (hp : p.Perm (List.range ns.length))
    (hq : IsPattern q (ns.map Elem.bare) (p.map fun k => Elem.bare (ns.getD k [])))
    (hx : x.shape.length = ns.length) :
    ∃ y, (∀ so, rearrange b so (.one x) q [] = .ok y) ∧ y.shape = p.map (fun k => x.shape.getD k 0) ∧
      ∀ i, i.length = x.shape.length → y.at? (p.map fun k => i.getD k 0) = x.at? i := by
  have hGR : (p.map fun k => Elem.bare (ns.getD k [])) = (p.map fun k => ns.getD k []).map Elem.bare := by
    rw [List.map_map]; rfl
  rw [hGR] at hq
  have hlt : ∀ k ∈ p, k < ns.length := fun k hk => List.mem_range.1 (hp.subset hk)
  have hmem : ∀ w, w ∈ ns ↔ w ∈ p.map fun k => ns.getD k [] := by
    intro w
    constructor
    · intro hw
      obtain ⟨k, hk, rfl⟩ := List.getElem_of_mem hw
      exact List.mem_map.2 ⟨k, hp.symm.subset (List.mem_range.2 hk), by simp [hk]⟩
    · intro hw
      obtain ⟨k, hk, rfl⟩ := List.mem_map.1 hw
      have := hlt k hk
      simp [this]
  have hnd : (ns.map Axis.str).Nodup := by
    obtain ⟨l, r, _, hL, _⟩ := hq
    have := side_names_nodup hL (by rw [words_bares]; exact hn)
    rwa [words_bares] at this
  have hread : ∀ (f : AxisMap), ((p.map fun k => ns.getD k []).map Axis.str).map f =
      p.map fun k => ((ns.map Axis.str).map f).getD k 0 := by
    intro f
    rw [List.map_map, List.map_map]
    refine List.map_congr_left fun k hk => ?_
    have := hlt k hk
    simp [this]
  have hlen := map_envOf hnd (i := x.shape) (by simp [hx])
  generalize envOf (ns.map Axis.str) x.shape = len at hlen
  have hacc := names_accepted (op := .name "rearrange".toList) (kw := []) hn
    (by rw [words_bares]; exact fun w hw => hn w ((hmem w).2 hw)) hq (.inl ⟨rfl, by rw [words_bares]; exact hmem⟩)
    (by simp) hx hlen (by simp)
  rw [nameGroups_bares] at hacc
  obtain ⟨y, h1, h2, h3⟩ := hacc.moves (red := .name "rearrange".toList) hb.lawful intKw_nil (hacc.move_sub (.inl rfl))
  refine ⟨y, h1, ?_, ?_⟩
  · rw [h2, singles_size, hread, hlen]
  · intro i hi
    have he := map_envOf hnd (i := i) (by simp [hi, hx])
    generalize envOf (ns.map Axis.str) i = env at he
    have hys : y.shape = p.map (fun k => x.shape.getD k 0) := by rw [h2, singles_size, hread, hlen]
    by_cases hin : inBounds i x.shape = true
    · obtain ⟨v, h4, h5⟩ := h3 env (by
        have hr : InRange len (ns.map Axis.str) env := by rw [← inBounds_map, he, hlen]; exact hin
        rw [singles_flatten, singles_flatten]
        intro a ha
        rcases List.mem_append.1 ha with ha | ha
        · exact hr a ha
        · obtain ⟨w, hw, rfl⟩ := List.mem_map.1 ha
          exact hr _ (List.mem_map_of_mem ((hmem w).2 hw)))
      rw [singles_at, he] at h4
      rw [singles_at, hread, he] at h5
      rw [h4, h5]
    · have hout : ¬ inBounds (p.map fun k => i.getD k 0) y.shape = true := by
        intro hc
        apply hin
        rw [hys, ← hlen, ← hread, ← he, ← hread, inBounds_map] at hc
        rw [← he, ← hlen, inBounds_map]
        intro a ha
        obtain ⟨w, hw, rfl⟩ := List.mem_map.1 ha
        exact hc _ (List.mem_map_of_mem ((hmem w).1 hw))
      unfold Tensor.at?
      rw [if_neg hin, if_neg hout]

/-- **C59** `reshape`: a `rearrange` whose two sides have the same axes in the same order (grouped in any way, with any
units) only changes the shape: the elements stay in the same (C) order. -/
theorem C59_reshape (hb : Modelled E b) {kw : List (Str × Size)} (hkw : IntKw kw) {GL GR : List Elem} (hq : IsPattern q GL GR)
    (hw : (sideWords GL).filter (fun w => decide (¬ IsNumber w)) = (sideWords GR).filter (fun w => decide (¬ IsNumber w)))
    (h : rearrange b so (.one x) q kw = .ok y) : y.data = x.data := by
  obtain ⟨GL', GR', L, R, len, ha, hm⟩ :=
    (move_iff hb.lawful so (isPattern_split hq).1 hkw (.inl rfl) (fun h => by cases h) y).1 h
  obtain ⟨rfl, rfl⟩ := isPattern_unique hq ha.pattern
  refine hm.data ha.nodup.1 ?_ ha.fits.shape_eq
  obtain ⟨n, -, rfl, rfl, -⟩ := ha.prepared.groups
  have hs := ha.prepared.sides
  rw [SidesOK, if_pos rfl] at hs
  rw [flatten_spread, flatten_spread, wordsAxes_words _ _ hs.units_left, wordsAxes_words _ _ hs.units_right, hw]

/-- **C59** `concatenate(xs, axis)`: a list of tensors of one shape, `axis` being the number of names in `A`. -/
theorem C59_concatenate (hb : Modelled E b) {n k : Str} {A B : List Str} (hn : ∀ w ∈ n :: k :: (A ++ B), IsName false w)
    (hq : IsPattern q (Elem.bare n :: (A.map Elem.bare ++ .bare k :: B.map Elem.bare))
      (A.map Elem.bare ++ .paren [n, k] :: B.map Elem.bare))
    {xs : List (Tensor α)} (hne : xs ≠ []) {pre post : List Nat} {d : Nat} (hpre : pre.length = A.length)
    (hpost : post.length = B.length) (hxs : ∀ x ∈ xs, x.shape = pre ++ d :: post) :
    ∃ y, (∀ so, rearrange b so (.many xs) q [] = .ok y) ∧ y.shape = pre ++ (xs.length * d) :: post ∧
      ∀ m x, xs[m]? = some x → ∀ i c j, inBounds i pre = true → c < d → inBounds j post = true →
        y.at? (i ++ (m * d + c) :: j) = x.at? (i ++ c :: j) := by
  obtain ⟨z, z1, z2, z3⟩ := many_eq_one hb hne hxs
  obtain ⟨y, h1, h2, h3⟩ := mid_moves hb (op := "rearrange".toList) (P := n :: (A ++ k :: B)) (A := A) (B := B)
    (e := .paren [n, k]) (q := q) intKw_nil
    (fun w hw => hn w (by simp only [List.mem_cons, List.mem_append] at hw ⊢; tauto))
    (fun w hw => hn w (by simp only [Elem.words, List.mem_cons, List.mem_append, List.not_mem_nil, or_false] at hw ⊢; tauto))
    (by simpa using hq)
    (.inl ⟨rfl, fun w => by simp only [Elem.words, List.mem_cons, List.mem_append, List.not_mem_nil, or_false]; tauto⟩)
    (by simp) (pre := pre) (ks := [xs.length, d]) hpre rfl hpost (x := z) (by
      intro len l1 l2 l3
      simp only [Elem.words, List.map_cons, List.map_nil, List.cons.injEq, and_true] at l2
      refine ⟨?_, by simp⟩
      rw [z1, List.map_cons, List.map_cons, l2.1, List.map_append, List.map_append, l1, List.map_cons, List.map_cons, l2.2, l3])
  refine ⟨y, fun so => (z3 so _ _ _).trans (h1 so), by simpa using h2, ?_⟩
  intro m x hm i c j hi hc hj
  have hml : m < xs.length := (List.getElem?_eq_some_iff.1 hm).1
  obtain ⟨env, e1, e2, e3, e4⟩ := h3 i [m, c] j hi (by simp [inBounds, hml, hc]) hj
  simp only [Elem.words, List.map_cons, List.map_nil, List.cons.injEq, and_true] at e2
  rw [List.map_cons, List.map_cons, e2.1, List.map_append, List.map_append, e1, List.map_cons, List.map_cons, e2.2, e3, z2, hm] at e4
  simpa [ravel] using e4

/-- **C59** `stack(xs, axis)`: the new axis is in front of the dimensions named by `B`. -/
theorem C59_stack (hb : Modelled E b) {n : Str} {A B : List Str} (hn : ∀ w ∈ n :: (A ++ B), IsName false w)
    (hq : IsPattern q (Elem.bare n :: (A.map Elem.bare ++ B.map Elem.bare)) (A.map Elem.bare ++ .bare n :: B.map Elem.bare))
    {xs : List (Tensor α)} (hne : xs ≠ []) {pre post : List Nat} (hpre : pre.length = A.length)
    (hpost : post.length = B.length) (hxs : ∀ x ∈ xs, x.shape = pre ++ post) :
    ∃ y, (∀ so, rearrange b so (.many xs) q [] = .ok y) ∧ y.shape = pre ++ xs.length :: post ∧
      ∀ m x, xs[m]? = some x → ∀ i j, inBounds i pre = true → inBounds j post = true →
        y.at? (i ++ m :: j) = x.at? (i ++ j) := by
  obtain ⟨z, z1, z2, z3⟩ := many_eq_one hb hne hxs
  obtain ⟨y, h1, h2, h3⟩ := mid_moves hb (op := "rearrange".toList) (P := n :: (A ++ B)) (A := A) (B := B)
    (e := .bare n) (q := q) intKw_nil hn
    (fun w hw => hn w (by simp only [Elem.words, List.mem_cons, List.mem_append, List.not_mem_nil, or_false] at hw ⊢; tauto))
    (by simpa using hq)
    (.inl ⟨rfl, fun w => by simp only [Elem.words, List.mem_cons, List.mem_append, List.not_mem_nil, or_false]; tauto⟩)
    (by simp) (pre := pre) (ks := [xs.length]) hpre rfl hpost (x := z) (by
      intro len l1 l2 l3
      simp only [Elem.words, List.map_cons, List.map_nil, List.cons.injEq, and_true] at l2
      refine ⟨?_, by simp⟩
      rw [z1, List.map_cons, List.map_cons, l2, List.map_append, List.map_append, l1, l3])
  refine ⟨y, fun so => (z3 so _ _ _).trans (h1 so), by simpa using h2, ?_⟩
  intro m x hm i j hi hj
  have hml : m < xs.length := (List.getElem?_eq_some_iff.1 hm).1
  obtain ⟨env, e1, e2, e3, e4⟩ := h3 i [m] j hi (by simp [inBounds, hml]) hj
  simp only [Elem.words, List.map_cons, List.map_nil, List.cons.injEq, and_true] at e2
  rw [List.map_cons, List.map_cons, e2, List.map_append, List.map_append, e1, e3, z2, hm] at e4
  simpa [ravel] using e4

omit [PyUnicode] in
/-- one keyword with a natural number -/
theorem intKw_one (r : Str) (c : Nat) : IntKw [(r, Size.mk (c : Int) true)] :=
  ⟨by simp, by simp⟩

/-- **C59** `repeat(x, c, axis)`: every element `c` times in a row. -/
theorem C59_repeat (hb : Modelled E b) {k r : Str} {A B : List Str} (hn : ∀ w ∈ r :: k :: (A ++ B), IsName false w)
    (hq : IsPattern q (A.map Elem.bare ++ .bare k :: B.map Elem.bare) (A.map Elem.bare ++ .paren [k, r] :: B.map Elem.bare))
    {pre post : List Nat} {c d : Nat} (hpre : pre.length = A.length) (hpost : post.length = B.length)
    (hx : x.shape = pre ++ d :: post) :
    ∃ y, (∀ so, repeat_ b so (.one x) q [(r, ⟨c, true⟩)] = .ok y) ∧ y.shape = pre ++ (d * c) :: post ∧
      ∀ i a m j, inBounds i pre = true → a < d → m < c → inBounds j post = true →
        y.at? (i ++ (a * c + m) :: j) = x.at? (i ++ a :: j) := by
  obtain ⟨y, h1, h2, h3⟩ := mid_moves hb (op := "repeat".toList) (P := A ++ k :: B) (A := A) (B := B)
    (e := .paren [k, r]) (q := q) (intKw_one r c)
    (fun w hw => hn w (by simp only [List.mem_cons, List.mem_append] at hw ⊢; tauto))
    (fun w hw => hn w (by simp only [Elem.words, List.mem_cons, List.mem_append, List.not_mem_nil, or_false] at hw ⊢; tauto))
    (by simpa using hq)
    (.inr ⟨rfl, fun w => by simp only [Elem.words, List.mem_cons, List.mem_append, List.not_mem_nil, or_false]; tauto, fun w => by
      simp only [Elem.words, List.mem_cons, List.mem_append, List.not_mem_nil, or_false, List.map_cons, List.map_nil]; tauto⟩)
    (by simp [Elem.words]) (pre := pre) (ks := [d, c]) hpre rfl hpost (x := x) (by
      intro len l1 l2 l3
      simp only [Elem.words, List.map_cons, List.map_nil, List.cons.injEq, and_true] at l2
      refine ⟨?_, by simp [l2.2]⟩
      rw [hx, List.map_append, List.map_append, l1, List.map_cons, List.map_cons, l2.1, l3])
  refine ⟨y, h1, by simpa using h2, ?_⟩
  intro i a m j hi ha hm hj
  obtain ⟨env, e1, e2, e3, e4⟩ := h3 i [a, m] j hi (by simp [inBounds, ha, hm]) hj
  simp only [Elem.words, List.map_cons, List.map_nil, List.cons.injEq, and_true] at e2
  rw [List.map_append, List.map_append, e1, List.map_cons, List.map_cons, e2.1, e3] at e4
  simpa [ravel] using e4

/-- **C59** `tile` along one axis: the tensor `c` times in a row. -/
theorem C59_tile (hb : Modelled E b) {k r : Str} {A B : List Str} (hn : ∀ w ∈ r :: k :: (A ++ B), IsName false w)
    (hq : IsPattern q (A.map Elem.bare ++ .bare k :: B.map Elem.bare) (A.map Elem.bare ++ .paren [r, k] :: B.map Elem.bare))
    {pre post : List Nat} {c d : Nat} (hpre : pre.length = A.length) (hpost : post.length = B.length)
    (hx : x.shape = pre ++ d :: post) :
    ∃ y, (∀ so, repeat_ b so (.one x) q [(r, ⟨c, true⟩)] = .ok y) ∧ y.shape = pre ++ (c * d) :: post ∧
      ∀ i a m j, inBounds i pre = true → a < d → m < c → inBounds j post = true →
        y.at? (i ++ (m * d + a) :: j) = x.at? (i ++ a :: j) := by
  obtain ⟨y, h1, h2, h3⟩ := mid_moves hb (op := "repeat".toList) (P := A ++ k :: B) (A := A) (B := B)
    (e := .paren [r, k]) (q := q) (intKw_one r c)
    (fun w hw => hn w (by simp only [List.mem_cons, List.mem_append] at hw ⊢; tauto))
    (fun w hw => hn w (by simp only [Elem.words, List.mem_cons, List.mem_append, List.not_mem_nil, or_false] at hw ⊢; tauto))
    (by simpa using hq)
    (.inr ⟨rfl, fun w => by simp only [Elem.words, List.mem_cons, List.mem_append, List.not_mem_nil, or_false]; tauto, fun w => by
      simp only [Elem.words, List.mem_cons, List.mem_append, List.not_mem_nil, or_false, List.map_cons, List.map_nil]; tauto⟩)
    (by simp [Elem.words]) (pre := pre) (ks := [c, d]) hpre rfl hpost (x := x) (by
      intro len l1 l2 l3
      simp only [Elem.words, List.map_cons, List.map_nil, List.cons.injEq, and_true] at l2
      refine ⟨?_, by simp [l2.1]⟩
      rw [hx, List.map_append, List.map_append, l1, List.map_cons, List.map_cons, l2.2, l3])
  refine ⟨y, h1, by simpa using h2, ?_⟩
  intro i a m j hi ha hm hj
  obtain ⟨env, e1, e2, e3, e4⟩ := h3 i [m, a] j hi (by simp [inBounds, ha, hm]) hj
  simp only [Elem.words, List.map_cons, List.map_nil, List.cons.injEq, and_true] at e2
  rw [List.map_append, List.map_append, e1, List.map_cons, List.map_cons, e2.2, e3] at e4
  simpa [ravel] using e4

/-- **C59** `expand_dims` and `broadcast_to`: a new axis along which the tensor is repeated. -/
theorem C59_new_axis (hb : Modelled E b) {r : Str} {A B : List Str} (hn : ∀ w ∈ r :: (A ++ B), IsName false w)
    (hq : IsPattern q (A.map Elem.bare ++ B.map Elem.bare) (A.map Elem.bare ++ .bare r :: B.map Elem.bare))
    {pre post : List Nat} {c : Nat} (hpre : pre.length = A.length) (hpost : post.length = B.length)
    (hx : x.shape = pre ++ post) :
    ∃ y, (∀ so, repeat_ b so (.one x) q [(r, ⟨c, true⟩)] = .ok y) ∧ y.shape = pre ++ c :: post ∧
      ∀ i m j, inBounds i pre = true → m < c → inBounds j post = true → y.at? (i ++ m :: j) = x.at? (i ++ j) := by
  obtain ⟨y, h1, h2, h3⟩ := mid_moves hb (op := "repeat".toList) (P := A ++ B) (A := A) (B := B)
    (e := .bare r) (q := q) (intKw_one r c)
    (fun w hw => hn w (by simp only [List.mem_cons, List.mem_append] at hw ⊢; tauto))
    (fun w hw => hn w (by simp only [Elem.words, List.mem_cons, List.mem_append, List.not_mem_nil, or_false] at hw ⊢; tauto))
    (by simpa using hq)
    (.inr ⟨rfl, fun w => by simp only [Elem.words, List.mem_cons, List.mem_append, List.not_mem_nil, or_false]; tauto, fun w => by
      simp only [Elem.words, List.mem_cons, List.mem_append, List.not_mem_nil, or_false, List.map_cons, List.map_nil]; tauto⟩)
    (by simp [Elem.words]) (pre := pre) (ks := [c]) hpre rfl hpost (x := x) (by
      intro len l1 l2 l3
      simp only [Elem.words, List.map_cons, List.map_nil, List.cons.injEq, and_true] at l2
      refine ⟨?_, by simp [l2]⟩
      rw [hx, List.map_append, List.map_append, l1, l3])
  refine ⟨y, h1, by simpa using h2, ?_⟩
  intro i m j hi hm hj
  obtain ⟨env, e1, e2, e3, e4⟩ := h3 i [m] j hi (by simp [inBounds, hm]) hj
  rw [List.map_append, List.map_append, e1, e3] at e4
  simpa [ravel] using e4

/-- **C59** A reduction along one axis. -/
theorem C59_reduce_axis {o : Str} (hb : Computes E o b) (ho : o ∈ builtins) (hf : o = "mean".toList → b.isFloat x = true)
    {k : Str} {A B : List Str} (hn : ∀ w ∈ k :: (A ++ B), IsName false w)
    (hq : IsPattern q (A.map Elem.bare ++ .bare k :: B.map Elem.bare) (A.map Elem.bare ++ B.map Elem.bare))
    {pre post : List Nat} {d : Nat} (hpre : pre.length = A.length) (hpost : post.length = B.length)
    (hx : x.shape = pre ++ d :: post) :
    reduce b so (.one x) q (.name o) [] = .ok y ↔ y.shape = pre ++ post ∧
      ∀ i j, inBounds i pre = true → inBounds j post = true →
        ∃ vs v, (List.range d).map (fun c => x.at? (i ++ c :: j)) = vs.map some ∧ E.op o vs = .ok v ∧ y.at? (i ++ j) = some v := by
  have hnd : ((A ++ [k] ++ B).map Axis.str).Nodup := by
    obtain ⟨l, r, _, hL, _⟩ := hq
    have := side_names_nodup hL (by rw [words_mid]; intro w hw; exact hn w (by
      simp only [Elem.words, List.mem_cons, List.mem_append, List.not_mem_nil, or_false] at hw ⊢; tauto))
    rwa [words_mid] at this
  have hAk : Axis.str k ∉ (A ++ B).map Axis.str := by
    simp only [List.map_append, List.map_cons, List.map_nil, List.nodup_append, List.nodup_cons] at hnd
    simp only [List.map_append, List.mem_append, not_or]
    refine ⟨fun h => ?_, fun h => ?_⟩
    · exact hnd.1.2.2 _ h _ (by simp) rfl
    · exact hnd.2.2 _ (by simp) _ h rfl
  obtain ⟨len, l1, l2, l3⟩ := envOf_parts hnd (i := pre) (t := [d]) (j := post) hpre rfl hpost
  have lk : len (.str k) = d := by simpa using l2
  have hL : (A.map Elem.bare ++ .bare k :: B.map Elem.bare) = (A ++ k :: B).map Elem.bare := by simp
  have hR : (A.map Elem.bare ++ B.map Elem.bare) = (A ++ B).map Elem.bare := by simp
  rw [hL, hR] at hq
  have hsh : ((A ++ k :: B).map Axis.str).map len = x.shape := by
    rw [List.map_append, List.map_append, l1, List.map_cons, List.map_cons, lk, l3, hx]
  have hacc := names_accepted (op := .name o) (kw := [])
    (fun w hw => hn w (by simp only [List.mem_cons, List.mem_append] at hw ⊢; tauto))
    (by rw [words_bares]; exact fun w hw => hn w (List.mem_cons_of_mem _ hw)) hq
    (.inr (.inr ⟨red_names_isRed ho, fun s hs => by cases hs; exact ho, fun w hw => by
      rw [words_bares] at hw; simp only [List.mem_cons, List.mem_append] at hw ⊢; tauto⟩))
    (by simp) (by rw [← hsh]; simp) hsh (by simp)
  rw [nameGroups_bares] at hacc
  have hd : Drops (((A ++ k :: B).map Axis.str).map fun a => [a]) (((A ++ B).map Axis.str).map fun a => [a]) := by
    unfold Drops
    rw [singles_flatten, singles_flatten]
    exact ⟨.str k, by simp, hAk⟩
  have hfil : ((A ++ k :: B).map Axis.str).filter (fun a => a ∉ (A ++ B).map Axis.str) = [.str k] := by
    have hin : ∀ w, w ∈ A ∨ w ∈ B → Axis.str w ∈ (A ++ B).map Axis.str := fun w hw =>
      List.mem_map_of_mem (List.mem_append.2 hw)
    generalize (A ++ B).map Axis.str = C at hAk hin
    rw [List.map_append, List.map_cons, List.filter_append, List.filter_cons_of_pos (by simpa using hAk),
      List.filter_eq_nil_iff.2, List.filter_eq_nil_iff.2]
    · rfl
    · intro a ha
      obtain ⟨w, hw, rfl⟩ := List.mem_map.1 ha
      simp [hin w (.inr hw)]
    · intro a ha
      obtain ⟨w, hw, rfl⟩ := List.mem_map.1 ha
      simp [hin w (.inl hw)]
  have hvals : ∀ (env : AxisMap) (i j : List Nat), (A.map Axis.str).map env = i → (B.map Axis.str).map env = j →
      (loops len [Axis.str k] env).map (x.atAxes (((A ++ k :: B).map Axis.str).map fun a => [a]) len) =
        (List.range d).map fun c => x.at? (i ++ c :: j) := by
    intro env i j e1 e3
    have hloop : loops len [Axis.str k] env = (List.range d).map (fun c => setCoord env (.str k) c) := by
      simp only [loops, lk]
      rw [List.map_eq_flatMap]
    rw [hloop, List.map_map]
    refine List.map_congr_left fun c _ => ?_
    have hkeep : ∀ C : List Str, (∀ w ∈ C, w ∈ A ++ B) → (C.map Axis.str).map (setCoord env (.str k) c) = (C.map Axis.str).map env := by
      intro C hC
      refine List.map_congr_left fun a ha => ?_
      unfold setCoord
      rw [if_neg]
      rintro rfl
      obtain ⟨w, hw, hwk⟩ := List.mem_map.1 ha
      exact hAk (hwk ▸ List.mem_map_of_mem (hC w hw))
    rw [Function.comp_apply, singles_at, List.map_append, List.map_append, List.map_cons, List.map_cons,
      hkeep A (fun w h => List.mem_append_left _ h), hkeep B (fun w h => List.mem_append_right _ h), e1, e3]
    simp [setCoord]
  rw [reduce_of_accepted hb ho intKw_nil (isPattern_split hq).1 hacc]
  constructor
  · rintro (⟨h, -⟩ | ⟨-, -, h1, h2⟩)
    · exact absurd hd h
    · refine ⟨by rw [h1, singles_size, List.map_append, List.map_append, l1, l3], ?_⟩
      intro i j hi hj
      obtain ⟨env, e1, -, e3⟩ := envOf_parts hnd (i := i) (t := [0]) (j := j) ((inBounds_length hi).trans hpre) rfl
        ((inBounds_length hj).trans hpost)
      obtain ⟨vs, v, h3, h4, h5⟩ := h2 env (by
        rw [singles_flatten, ← inBounds_map, List.map_append, List.map_append, List.map_append, e1, e3, l1, l3,
          inBounds_append (inBounds_length hi)]
        exact ⟨hi, hj⟩)
      rw [singles_flatten, singles_flatten, hfil, hvals env i j e1 e3] at h3
      rw [singles_at, List.map_append, List.map_append, e1, e3] at h5
      exact ⟨vs, v, h3, h4, h5⟩
  · rintro ⟨h1, h2⟩
    refine .inr ⟨hd, hf, by rw [h1, singles_size, List.map_append, List.map_append, l1, l3], ?_⟩
    intro env henv
    rw [singles_flatten, ← inBounds_map, List.map_append, List.map_append, List.map_append, l1, l3,
      inBounds_append (by rw [← l1]; simp)] at henv
    obtain ⟨vs, v, h3, h4, h5⟩ := h2 _ _ henv.1 henv.2
    refine ⟨vs, v, ?_, h4, ?_⟩
    · rw [singles_flatten, singles_flatten, hfil, hvals env _ _ rfl rfl, h3]
    · rw [singles_at, List.map_append, List.map_append, h5]

/-- **C59** A reduction of all elements. -/
theorem C59_reduce_all {o : Str} (hb : Computes E o b) (ho : o ∈ builtins) (hf : o = "mean".toList → b.isFloat x = true)
    {ns : List Str} (hne : ns ≠ []) (hn : ∀ w ∈ ns, IsName false w) (hq : IsPattern q (ns.map Elem.bare) [])
    (hx : x.shape.length = ns.length) :
    reduce b so (.one x) q (.name o) [] = .ok y ↔ y.shape = [] ∧ ∃ v, E.op o x.data = .ok v ∧ y.data = [v] := by
  have hnd : (ns.map Axis.str).Nodup := by
    obtain ⟨l, r, _, hL, _⟩ := hq
    have := side_names_nodup hL (by rw [words_bares]; exact hn)
    rwa [words_bares] at this
  have hlen := map_envOf hnd (i := x.shape) (by simp [hx])
  generalize envOf (ns.map Axis.str) x.shape = len at hlen
  have hacc := names_accepted (op := .name o) (kw := []) hn (by simp [sideWords]) hq
    (.inr (.inr ⟨red_names_isRed ho, fun s hs => by cases hs; exact ho, by simp [sideWords]⟩)) (by simp) hx hlen (by simp)
  have hd : Drops ((ns.map Axis.str).map fun a => [a]) (nameGroups []) := by
    obtain ⟨w, hw⟩ := List.exists_mem_of_ne_nil _ hne
    exact ⟨.str w, by rw [singles_flatten]; exact List.mem_map_of_mem hw, by simp [nameGroups]⟩
  have hvals : ∀ env, (loops len (((ns.map Axis.str).map fun a => [a]).flatten.filter (fun a => a ∉ (nameGroups []).flatten)) env).map
      (x.atAxes ((ns.map Axis.str).map fun a => [a]) len) = x.data.map some := by
    intro env
    rw [List.filter_eq_self.2 (fun a _ => by simp [nameGroups])]
    exact (data_eq_loops (by rw [singles_flatten]; exact hnd) (by rw [singles_size, hlen]) env).symm
  have hat : ∀ (y : Tensor α) (env : AxisMap) v, y.shape = [] → (y.atAxes (nameGroups []) len env = some v ↔ y.data = [v]) := by
    intro y env v hy
    obtain ⟨w, hw⟩ : ∃ w, y.data = [w] := List.length_eq_one_iff.1 (by rw [y.wf, hy]; rfl)
    simp [Tensor.atAxes, nameGroups, Tensor.at?, hy, ravel, hw]
  rw [reduce_of_accepted hb ho intKw_nil (isPattern_split hq).1 hacc]
  constructor
  · rintro (⟨h, -⟩ | ⟨-, -, h1, h2⟩)
    · exact absurd hd h
    · obtain ⟨vs, v, h3, h4, h5⟩ := h2 (fun _ => 0) (by simp [InRange, nameGroups])
      rw [hvals] at h3
      obtain rfl : vs = x.data := (List.map_injective_iff.2 (Option.some_injective _) h3).symm
      exact ⟨h1, v, h4, (hat y _ v h1).1 h5⟩
  · rintro ⟨h1, v, h4, h5⟩
    exact .inr ⟨hd, hf, h1, fun env _ => ⟨x.data, v, hvals env, h4, (hat y _ v h1).2 h5⟩⟩

end

section
attribute [local instance] asciiUnicode

-- transpose
example : IsPattern "a b c -> c a b".toList (["a".toList, "b".toList, "c".toList].map Elem.bare)
    ([2, 0, 1].map fun k => Elem.bare (["a".toList, "b".toList, "c".toList].getD k [])) :=
  ⟨"a b c ".toList, " c a b".toList, by decide, isSide_of (by decide) (by decide) (by decide) (by decide),
    isSide_of (by decide) (by decide) (by decide) (by decide)⟩
example : [2, 0, 1].Perm (List.range 3) := by decide
def i231 : Tensor ℤ := ⟨[2, 3, 1], [0, 1, 2, 3, 4, 5], rfl⟩
example : rearrange (numpyBackend intOps true) idOrder (.one i231) "a b c -> c b a".toList [] =
    .ok ⟨[1, 3, 2], [0, 3, 1, 4, 2, 5], rfl⟩ := by rfl
-- reshape: groups, units and the ellipsis
example : rearrange (torchBackend intOps true) idOrder (.one t43) "(a b) ... -> 1 a (b ...)".toList [kwInt "a" 2] =
    .ok ⟨[1, 2, 6], t43.data, rfl⟩ := by rfl
example : (sideWords [.paren ["a".toList, "b".toList], .bare dots]).filter (fun w => decide (¬ IsNumber w)) =
    (sideWords [.bare "1".toList, .bare "a".toList, .paren ["b".toList, dots]]).filter (fun w => decide (¬ IsNumber w)) := by
  decide
-- concatenate and stack along axis 1
example : IsPattern "n a k -> a (n k)".toList (Elem.bare "n".toList :: (["a".toList].map Elem.bare ++ .bare "k".toList :: [].map Elem.bare))
    (["a".toList].map Elem.bare ++ .paren ["n".toList, "k".toList] :: [].map Elem.bare) :=
  ⟨"n a k ".toList, " a (n k)".toList, by decide, isSide_of (by decide) (by decide) (by decide) (by decide),
    isSide_of (by decide) (by decide) (by decide) (by decide)⟩
example : rearrange (numpyBackend intOps true) idOrder (.many [t23, t23.map (· + 10)]) "n a k -> a (n k)".toList [] =
    .ok ⟨[2, 6], [0, 1, 2, 10, 11, 12, 3, 4, 5, 13, 14, 15], rfl⟩ := by rfl
example : rearrange (numpyBackend intOps true) idOrder (.many [t23, t23.map (· + 10)]) "n a k -> a n k".toList [] =
    .ok ⟨[2, 2, 3], [0, 1, 2, 10, 11, 12, 3, 4, 5, 13, 14, 15], rfl⟩ := by rfl
-- repeat, tile, new axis
example : repeat_ (numpyBackend intOps true) idOrder (.one t23) "a k -> a (k r)".toList [("r".toList, ⟨(2 : Nat), true⟩)] =
    .ok ⟨[2, 6], [0, 0, 1, 1, 2, 2, 3, 3, 4, 4, 5, 5], rfl⟩ := by rfl
example : repeat_ (torchBackend intOps true) idOrder (.one t23) "a k -> a (r k)".toList [("r".toList, ⟨(2 : Nat), true⟩)] =
    .ok ⟨[2, 6], [0, 1, 2, 0, 1, 2, 3, 4, 5, 3, 4, 5], rfl⟩ := by rfl
example : repeat_ (tinygradBackend intOps true) idOrder (.one t23) "a k -> a r k".toList [("r".toList, ⟨(2 : Nat), true⟩)] =
    .ok ⟨[2, 2, 3], [0, 1, 2, 0, 1, 2, 3, 4, 5, 3, 4, 5], rfl⟩ := by rfl
-- reductions
example : reduce (numpyBackend intOps true) idOrder (.one t23) "a k -> k".toList (.name "sum".toList) [] =
    .ok ⟨[3], [3, 5, 7], rfl⟩ := by rfl
example : reduce (torchBackend intOps true) idOrder (.one t23) "a k -> ".toList (.name "max".toList) [] =
    .ok ⟨[], [5], rfl⟩ := by rfl
end

end Einops
