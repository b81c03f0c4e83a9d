import Verif.Props.EinMix
import Verif.Props.Documented
import Verif.Props.EinsumLaws
import Verif.Props.SizeLaws

/-!
# C71: the documented uses of `einsum` and `parse_shape`, for all sizes

The examples in the docstrings of `einsum` (einops/einops.py:853-892) and `parse_shape` (einops/einops.py:657-668).
-/

namespace Einops

universe u

section
variable {α : Type u} [CommSemiring α] [PyUnicode] {f : Str → List (Tensor α) → Py (Tensor α)} {p : Str}

/-- **C71** `einsum(x, y, z, "a b c, c b d, a g k -> a b k")`: the formula of the documentation -/
theorem C71_formula (hf : EinsumLawful f) {a b c d g k : Str} (hn : [a, b, c, d, g, k].Nodup)
    (hp : IsEinsum p [[.name a, .name b, .name c], [.name c, .name b, .name d], [.name a, .name g, .name k]]
      [.name a, .name b, .name k])
    {A B C D G K : Nat} {x y z : Tensor α} (hx : x.shape = [A, B, C]) (hy : y.shape = [C, B, D]) (hz : z.shape = [A, G, K]) :
    ∃ t, einsum f [.tensor x, .tensor y, .tensor z, .str p] = .ok t ∧ t.shape = [A, B, K] ∧
      ∀ i j l, i < A → j < B → l < K → t.at? [i, j, l] =
        some (((List.range C).flatMap fun u => (List.range D).flatMap fun v => (List.range G).map fun w =>
          entry x [i, j, u] * entry y [u, j, v] * entry z [i, w, l]).sum) := by
  obtain ⟨val, hv⟩ := values_of_names hn (vs := [A, B, C, D, G, K]) rfl
  simp only [List.map_cons, List.map_nil, List.cons.injEq, and_true] at hv
  have hn1 := hn
  have hn2 := List.nodup_reverse.2 hn
  simp at hn1 hn2
  obtain ⟨t, h1, h2, h3⟩ := C27_einsum hf hp (len := ofNames val) (n := 0) (xs := [x, y, z])
    ((List.Sublist.length_le (List.dedup_sublist _)).trans (by simp [symNames]))
    { some_input := by simp
      shapes := by simp [symAxes, ofNames, hv, hx, hy, hz]
      nodup := by simp [symAxes, hn1, hn2]
      within := by simp [symNames]
      ellipsis := by simp }
  refine ⟨t, h1, by rw [h2]; simp [symAxes, ofNames, hv], fun i j l hi hj hl => ?_⟩
  obtain ⟨cc, hc⟩ := values_of_names hn (vs := [i, j, 0, 0, 0, l]) rfl
  simp only [List.map_cons, List.map_nil, List.cons.injEq, and_true] at hc
  have := h3 [.str c, .str d, .str g] (by simp [hn1]) (by
    intro s
    simp [symAxes]
    constructor
    · rintro (rfl | rfl | rfl) <;> simp [hn1, hn2]
    · rintro ⟨h, h', h'', h'''⟩
      simp only [h', h'', h''', false_or, or_false] at h
      rcases h with h | (h | h) | h <;> simp [h]) (ofNames cc) (by simp [InRange, symAxes, ofNames, hc, hv, hi, hj, hl])
  simp only [symAxes, List.map_cons, List.map_nil, ofNames, hc] at this
  rw [this]
  simp [loops, ofNames, hv, termProd, setCoord, hn1, hn2, hc, List.map_flatMap, List.flatMap_assoc, mul_assoc, List.flatMap_map]
  simp only [List.map_eq_flatMap]

/-- **C71** "Filter a set of images": `einsum(images, filters, "batch h w, h w channel -> batch channel")` -/
theorem C71_filter (hf : EinsumLawful f) {b h w c : Str} (hn : [b, h, w, c].Nodup)
    (hp : IsEinsum p [[.name b, .name h, .name w], [.name h, .name w, .name c]] [.name b, .name c])
    {B H W C : Nat} {x y : Tensor α} (hx : x.shape = [B, H, W]) (hy : y.shape = [H, W, C]) :
    ∃ t, einsum f [.tensor x, .tensor y, .str p] = .ok t ∧ t.shape = [B, C] ∧
      ∀ i k, i < B → k < C → t.at? [i, k] =
        some (((List.range H).flatMap fun u => (List.range W).map fun v => entry x [i, u, v] * entry y [u, v, k]).sum) := by
  obtain ⟨val, hv⟩ := values_of_names hn (vs := [B, H, W, C]) rfl
  simp only [List.map_cons, List.map_nil, List.cons.injEq, and_true] at hv
  have hn1 := hn
  have hn2 := List.nodup_reverse.2 hn
  simp at hn1 hn2
  obtain ⟨t, h1, h2, h3⟩ := C27_einsum hf hp (len := ofNames val) (n := 0) (xs := [x, y])
    ((List.Sublist.length_le (List.dedup_sublist _)).trans (by simp [symNames]))
    { some_input := by simp
      shapes := by simp [symAxes, ofNames, hv, hx, hy]
      nodup := by simp [symAxes, hn1, hn2]
      within := by simp [symNames]
      ellipsis := by simp }
  refine ⟨t, h1, by rw [h2]; simp [symAxes, ofNames, hv], fun i k hi hk => ?_⟩
  obtain ⟨cc, hc⟩ := values_of_names hn (vs := [i, 0, 0, k]) rfl
  simp only [List.map_cons, List.map_nil, List.cons.injEq, and_true] at hc
  have := h3 [.str h, .str w] (by simp [hn1]) (by
    intro s
    simp [symAxes]
    constructor
    · rintro (rfl | rfl) <;> simp [hn1, hn2]
    · rintro ⟨h, h', h''⟩
      simp only [h', h'', false_or, or_false] at h
      rcases h with (h | h) | (h | h) <;> simp [h]) (ofNames cc) (by simp [InRange, symAxes, ofNames, hc, hv, hi, hk])
  simp only [symAxes, List.map_cons, List.map_nil, ofNames, hc] at this
  rw [this]
  simp [loops, ofNames, hv, termProd, setCoord, hn1, hn2, hc, List.map_flatMap]
  simp only [List.map_eq_flatMap]

/-- **C71** "Matrix multiplication, with an unknown input shape":
`einsum(weights, data, "out_dim in_dim, ... in_dim -> ... out_dim")` -/
theorem C71_matmul (hf : EinsumLawful f) {o i : Str} (hn : o ≠ i) (hoe : '…' ∉ o) (hie : '…' ∉ i)
    (hp : IsEinsum p [[.name o, .name i], [.ell, .name i]] [.ell, .name o])
    {O I : Nat} {batch : List Nat} {w x : Tensor α} (hw : w.shape = [O, I]) (hx : x.shape = batch ++ [I]) :
    ∃ t, einsum f [.tensor w, .tensor x, .str p] = .ok t ∧ t.shape = batch ++ [O] ∧
      ∀ l k, inBounds l batch = true → k < O → t.at? (l ++ [k]) =
        some (((List.range I).map fun j => entry w [k, j] * entry x (l ++ [j])).sum) := by
  have hnd : (ellAxes batch.length ++ [Axis.str o, .str i]).Nodup := by
    rw [List.nodup_append]
    refine ⟨ellAxes_nodup _, by simp [hn], ?_⟩
    rintro a ha c hc rfl
    simp only [List.mem_cons, List.not_mem_nil, or_false] at hc
    rcases hc with rfl | rfl
    · exact name_not_mem_ellAxes hoe ha
    · exact name_not_mem_ellAxes hie ha
  have hlen : (ellAxes batch.length).length = batch.length := by simp [ellAxes]
  have hval : ∀ (l : List Nat) (u v : Nat), l.length = batch.length → ∃ m : AxisMap, (ellAxes batch.length).map m = l ∧
      m (.str o) = u ∧ m (.str i) = v := by
    intro l u v hl
    have := map_envOf hnd (i := l ++ [u, v]) (by simp [hlen, hl])
    rw [List.map_append] at this
    obtain ⟨h1, h2⟩ := List.append_inj this (by simp [hlen, hl])
    simp only [List.map_cons, List.map_nil, List.cons.injEq, and_true] at h2
    exact ⟨_, h1, h2⟩
  obtain ⟨len, hl1, hl2, hl3⟩ := hval batch O I rfl
  obtain ⟨t, h1, h2, h3⟩ := C27_einsum hf hp (len := len) (n := batch.length) (xs := [w, x])
    ((List.Sublist.length_le (List.dedup_sublist _)).trans (by simp [symNames]))
    { some_input := by simp
      shapes := by simp [symAxes, hl1, hl2, hl3, hw, hx]
      nodup := by
        refine hnd.sublist ?_
        simp [symAxes]
      within := by simp [symNames]
      ellipsis := by simp }
  refine ⟨t, h1, by rw [h2]; simp [symAxes, hl1, hl2], fun l k hl hk => ?_⟩
  obtain ⟨env, e1, e2, e3⟩ := hval l k 0 (inBounds_length hl)
  have hii : Axis.str i ∉ ellAxes batch.length := name_not_mem_ellAxes hie
  have hr : InRange len (symAxes batch.length [.ell, .name o]) env := by
    intro a ha
    simp only [symAxes, List.mem_append, List.mem_cons, List.not_mem_nil, or_false] at ha
    rcases ha with ha | rfl
    · have : ∀ (A : List Axis), inBounds (A.map env) (A.map len) = true → ∀ a ∈ A, env a < len a := by
        intro A
        induction A with
        | nil => simp
        | cons a A ih =>
          intro h
          simp only [List.map_cons, inBounds_cons] at h
          simp only [List.mem_cons, forall_eq_or_imp]
          exact ⟨h.1, ih h.2⟩
      exact this _ (by rw [e1, hl1]; exact hl) a ha
    · rw [e2, hl2]; exact hk
  have := h3 [.str i] (by simp) (by
    intro s
    simp [symAxes]
    constructor
    · rintro rfl; simp [hn.symm, hii]
    · rintro ⟨h, h', h''⟩
      simp only [h', h'', false_or] at h
      rcases h with h | h <;> exact h) env hr
  simp only [symAxes, List.map_append, List.map_cons, List.map_nil, e1, e2] at this
  rw [this]
  have hmap : ∀ j, (ellAxes batch.length).map (setCoord env (.str i) j) = l := by
    intro j
    rw [← e1]
    refine List.map_congr_left fun a ha => ?_
    unfold setCoord
    rw [if_neg]
    rintro rfl
    exact hii ha
  have ho : ∀ j, setCoord env (.str i) j (.str o) = k := fun j => by simp [setCoord, hn, e2]
  have hi : ∀ j, setCoord env (.str i) j (.str i) = j := fun j => by simp [setCoord]
  simp [loops, termProd, hl3, List.map_flatMap, ho, hi, hmap]
  simp only [List.map_eq_flatMap]

/-- **C71** "Matrix trace on a single tensor": `einsum(matrix, "i i ->")` -/
theorem C71_trace (hf : EinsumLawful f) {i : Str} (hp : IsEinsum p [[.name i, .name i]] []) {N : Nat} {x : Tensor α}
    (hx : x.shape = [N, N]) :
    ∃ t, einsum f [.tensor x, .str p] = .ok t ∧ t.shape = [] ∧
      t.at? [] = some (((List.range N).map fun k => entry x [k, k]).sum) := by
  obtain ⟨t, h1, h2, h3⟩ := C27_einsum hf hp (len := fun _ => N) (n := 0) (xs := [x])
    ((List.Sublist.length_le (List.dedup_sublist _)).trans (by simp [symNames]))
    { some_input := by simp
      shapes := by simp [symAxes, hx]
      nodup := by simp [symAxes]
      within := by simp [symNames]
      ellipsis := by simp }
  refine ⟨t, h1, h2, ?_⟩
  have := h3 [.str i] (by simp) (by simp [symAxes]) (fun _ => 0) (by simp [InRange, symAxes])
  simp only [symAxes, List.map_nil] at this
  rw [this]
  simp [loops, termProd, List.map_flatMap, setCoord, symAxes]
  simp only [List.map_eq_flatMap]

end

section
variable {α : Type u} [PyUnicode] {E : ElemOps α} {b : Backend α} {p q : Str}

/-- **C71** `parse_shape(x, 'batch _ h w')` -/
theorem C71_parse_shape {n h w : Str} (hn : ∀ s ∈ [n, h, w], IsName false s)
    (hp : IsSide true false p [.bare n, .bare ['_'], .bare h, .bare w]) {N C H W : Nat} :
    parseShape [N, C, H, W] p = .ok [(n, N), (h, H), (w, W)] := by
  simp only [List.mem_cons, List.not_mem_nil, or_false, forall_eq_or_imp, forall_eq] at hn
  refine (C22_parse_shape _ _ (isSide_no_special hp (by simp)) _).2 ⟨_, hp, ?_⟩
  have hcore : ∀ s, IsName false s → (Elem.bare s).core = [s] := by
    intro s hs
    simp [Elem.core, Elem.words, isUnit, isName_not_number false hs]
  refine .name (hcore n hn.1) hn.1 (.skip ?_ (.name (hcore h hn.2.1) hn.2.1 (.name (hcore w hn.2.2) hn.2.2 .nil)))
  simp [Elem.core, Elem.words, isUnit, underscore_not_number]

/-- **C71** `rearrange(y, '(b c h w) -> b c h w', **parse_shape(x, 'b _ h w'))`: the sizes come from another tensor, the
remaining one is found. -/
theorem C71_sizes (hb : Modelled E b) {n c h w : Str} (hn : ∀ s ∈ [n, c, h, w], IsName false s)
    (hp : IsSide true false p [.bare n, .bare ['_'], .bare h, .bare w])
    (hq : IsPattern q [.paren [n, c, h, w]] [.bare n, .bare c, .bare h, .bare w])
    {N C C' H W : Nat} (hN : N ≠ 0) (hH : H ≠ 0) (hW : W ≠ 0) {x y : Tensor α} (hx : x.shape = [N, C', H, W])
    (hy : y.shape = [N * C * H * W]) :
    ∃ d z, parseShape x.shape p = .ok d ∧ (∀ so, rearrange b so (.one y) q (asSizes d) = .ok z) ∧ z.shape = [N, C, H, W] ∧
      ∀ i j k l, i < N → j < C → k < H → l < W → z.at? [i, j, k, l] = y.at? [((i * C + j) * H + k) * W + l] := by
  have hn' := hn
  simp only [List.mem_cons, List.not_mem_nil, or_false, forall_eq_or_imp, forall_eq] at hn'
  have hd : parseShape x.shape p = .ok [(n, N), (h, H), (w, W)] := by
    rw [hx]
    exact C71_parse_shape (by simp [hn']) hp
  have nL : List.flatMap Elem.names [.paren [n, c, h, w]] = [n, c, h, w] := by
    simp [names_bare, names_paren, hn']
  have nR : List.flatMap Elem.names [.bare n, .bare c, .bare h, .bare w] = [n, c, h, w] := by
    simp [names_bare, names_paren, hn']
  have hR : ∀ s ∈ sideWords [.bare n, .bare c, .bare h, .bare w], Plain s :=
    fun s hs => .inl (hn s (by simpa [sideWords, Elem.words] using hs))
  have hL : ∀ s ∈ sideWords [.paren [n, c, h, w]], Plain s :=
    fun s hs => .inl (hn s (by simpa [sideWords, Elem.words] using hs))
  have hnd := plain_nodup hq.choose_spec.choose_spec.2.2 hR
  rw [nR] at hnd
  obtain ⟨val, hv⟩ := values_of_names hnd (vs := [N, C, H, W]) rfl
  simp only [List.map_cons, List.map_nil, List.cons.injEq, and_true] at hv
  have hnd1 := hnd
  have hnd2 := List.nodup_reverse.2 hnd
  simp at hnd1 hnd2
  obtain ⟨z, g1, g2, g3⟩ := plain_moves hb (op := "rearrange".toList) (q := q) (kw := asSizes [(n, N), (h, H), (w, W)]) (x := y)
    (val := val) ⟨by simp [asSizes, hnd1, hnd2], by simp [asSizes]⟩ hL hR hq
    (.inl ⟨rfl, fun s => by rw [nL, nR]⟩)
    (by simp only [nL, nR]; simp [asSizes]) (by simp [hy, Elem.size, names_bare, names_paren, hn', hv, mul_assoc])
    (by simp [asSizes, hv])
    (by simp [asSizes, names_bare, names_paren, hn', hnd1, hnd2])
    (by simp [asSizes, names_bare, names_paren, hn', hnd1, hnd2, hv] <;> omega)
  refine ⟨_, z, hd, g1, by rw [g2]; simp [Elem.size, names_bare, names_paren, hn', hv], ?_⟩
  intro i j k l lt_i lt_j lt_k lt_l
  obtain ⟨cc, hc⟩ := values_of_names hnd (vs := [i, j, k, l]) rfl
  simp only [List.map_cons, List.map_nil, List.cons.injEq, and_true] at hc
  have := g3 cc (by rw [nR]; simp [hc, hv]; omega)
  simp only [List.map_cons, List.map_nil, Elem.pos, names_bare, names_paren, hn', List.mem_cons, List.not_mem_nil, or_false,
    forall_eq_or_imp, forall_eq, and_self, List.foldl_cons, List.foldl_nil, hc, hv, Nat.zero_mul, Nat.zero_add] at this
  exact this

/-- Whether an ASCII pattern of `einsum` is legal, and what it means, does not depend on Unicode tables. -/
theorem C71_ascii {terms : List (List ESym)} {out : List ESym} (h : @IsEinsum asciiUnicode p terms out) : IsEinsum p terms out := by
  obtain ⟨Gs, G, hs, h1, h2⟩ := h
  obtain ⟨parts, r, g1, g2, g3, g4⟩ := @EinsumSides.written asciiUnicode _ _ _ hs
  have hword : ∀ w d, @WordOK asciiUnicode true w → @readWord asciiUnicode w d = readWord w d := by
    intro w d hw
    simp only [readWord, (wordOK_ascii hw).2]
  have hunit : ∀ w, @WordOK asciiUnicode true w → ((IsNumber w ∧ decimalValue w = 1) ↔
      (@IsNumber asciiUnicode w ∧ @decimalValue asciiUnicode w = 1)) := by
    intro w hw
    constructor
    · rintro ⟨a, b⟩
      have := (wordOK_ascii hw).2.1 a
      exact ⟨this, by rw [← (number_ascii this).2]; exact b⟩
    · rintro ⟨a, b⟩
      exact ⟨(number_ascii a).1, by rw [(number_ascii a).2]; exact b⟩
  have hread : ∀ (G : List Elem), (∀ w ∈ sideWords G, @WordOK asciiUnicode true w) →
      G.map (@readElem asciiUnicode) = G.map readElem := by
    intro G hG
    refine List.map_congr_left fun e he => ?_
    have hwe : ∀ w ∈ e.words, @WordOK asciiUnicode true w := fun w hw => hG w (List.mem_flatMap.2 ⟨e, he, hw⟩)
    cases e with
    | bare w => exact hword w _ (hwe w (by simp [Elem.words]))
    | paren ws =>
      have hf : ws.filter (fun w => decide (¬ (@IsNumber asciiUnicode w ∧ @decimalValue asciiUnicode w = 1))) =
          ws.filter (fun w => decide (¬ (IsNumber w ∧ decimalValue w = 1))) := by
        refine List.filter_congr fun w hw => ?_
        exact decide_eq_decide.2 (not_congr (hunit w (hwe w hw)).symm)
      simp only [readElem]
      rw [hf]
      cases hl : ws.filter (fun w => decide (¬ (IsNumber w ∧ decimalValue w = 1))) with
      | nil => rfl
      | cons w l =>
        cases l with
        | nil =>
          have : w ∈ ws := (List.mem_filter.1 (by rw [hl]; simp : w ∈ ws.filter _)).1
          exact hword w _ (hwe w this)
        | cons => rfl
  refine ⟨Gs, G, ⟨parts, r, g1, g2, g3.imp fun _ _ h => isSide_ascii h, isSide_ascii g4⟩, ?_, ?_⟩
  · clear h2 hs g4 g2 g1
    induction g3 generalizing terms with
    | nil => cases h1; exact .nil
    | cons a _ ih =>
      cases h1 with
      | cons c d => exact .cons (by rw [← hread _ (@IsSide.words_ok asciiUnicode _ _ _ _ a)]; exact c) (ih d)
  · rw [← hread _ (@IsSide.words_ok asciiUnicode _ _ _ _ g4)]; exact h2

end

section
attribute [local instance] asciiUnicode

-- the documented patterns, whatever the Unicode tables
theorem formula_pattern : @IsEinsum asciiUnicode "a b c, c b d, a g k -> a b k".toList
    [[sy "a", sy "b", sy "c"], [sy "c", sy "b", sy "d"], [sy "a", sy "g", sy "k"]] [sy "a", sy "b", sy "k"] :=
  ⟨[[word "a", word "b", word "c"], [word "c", word "b", word "d"], [word "a", word "g", word "k"]],
    [word "a", word "b", word "k"],
    ⟨["a b c".toList, " c b d".toList, " a g k ".toList], " a b k".toList, by decide, rfl,
      .cons (by decide) (.cons (by decide) (.cons (by decide) .nil)), by decide⟩,
    .cons (by decide) (.cons (by decide) (.cons (by decide) .nil)), by decide⟩
theorem filter_pattern : @IsEinsum asciiUnicode "batch h w, h w channel -> batch channel".toList
    [[sy "batch", sy "h", sy "w"], [sy "h", sy "w", sy "channel"]] [sy "batch", sy "channel"] :=
  ⟨[[word "batch", word "h", word "w"], [word "h", word "w", word "channel"]], [word "batch", word "channel"],
    ⟨["batch h w".toList, " h w channel ".toList], " batch channel".toList, by decide, rfl,
      .cons (by decide) (.cons (by decide) .nil), by decide⟩,
    .cons (by decide) (.cons (by decide) .nil), by decide⟩
theorem matmul_pattern : @IsEinsum asciiUnicode "out_dim in_dim, ... in_dim -> ... out_dim".toList
    [[sy "out_dim", sy "in_dim"], [.ell, sy "in_dim"]] [.ell, sy "out_dim"] :=
  ⟨[[word "out_dim", word "in_dim"], [.bare dots, word "in_dim"]], [.bare dots, word "out_dim"],
    ⟨["out_dim in_dim".toList, " ... in_dim ".toList], " ... out_dim".toList, by decide, rfl,
      .cons (by decide) (.cons (by decide) .nil), by decide⟩,
    .cons (by decide) (.cons (by decide) .nil), by decide⟩
theorem trace_pattern : @IsEinsum asciiUnicode "i i ->".toList [[sy "i", sy "i"]] [] :=
  ⟨[[word "i", word "i"]], [], ⟨["i i ".toList], [], by decide, rfl, .cons (by decide) .nil, by decide⟩,
    .cons (by decide) .nil, by decide⟩
example (U : PyUnicode) : @IsEinsum U "a b c, c b d, a g k -> a b k".toList
    [[sy "a", sy "b", sy "c"], [sy "c", sy "b", sy "d"], [sy "a", sy "g", sy "k"]] [sy "a", sy "b", sy "k"] :=
  C71_ascii formula_pattern
example (U : PyUnicode) : @IsEinsum U "batch h w, h w channel -> batch channel".toList
    [[sy "batch", sy "h", sy "w"], [sy "h", sy "w", sy "channel"]] [sy "batch", sy "channel"] := C71_ascii filter_pattern
example (U : PyUnicode) : @IsEinsum U "out_dim in_dim, ... in_dim -> ... out_dim".toList
    [[sy "out_dim", sy "in_dim"], [.ell, sy "in_dim"]] [.ell, sy "out_dim"] := C71_ascii matmul_pattern
example (U : PyUnicode) : @IsEinsum U "i i ->".toList [[sy "i", sy "i"]] [] := C71_ascii trace_pattern
example : ["a".toList, "b".toList, "c".toList, "d".toList, "g".toList, "k".toList].Nodup := by decide

-- the documented shapes, smaller
example : einsum refEinsum [.tensor (⟨[1, 2, 1], [2, 3], rfl⟩ : Tensor ℤ), .tensor ⟨[1, 2, 2], [1, 2, 3, 4], rfl⟩,
    .tensor ⟨[1, 2, 1], [5, 6], rfl⟩, .str "a b c, c b d, a g k -> a b k".toList] = .ok ⟨[1, 2, 1], [66, 231], rfl⟩ := by
  decide +kernel
example : einsum refEinsum [.tensor (⟨[2, 1, 2], [1, 2, 3, 4], rfl⟩ : Tensor ℤ), .tensor ⟨[1, 2, 1], [5, 6], rfl⟩,
    .str "batch h w, h w channel -> batch channel".toList] = .ok ⟨[2, 1], [17, 39], rfl⟩ := by decide +kernel
example : einsum refEinsum [.tensor (⟨[1, 2], [5, 6], rfl⟩ : Tensor ℤ), .tensor ⟨[2, 1, 2], [1, 2, 3, 4], rfl⟩,
    .str "out_dim in_dim, ... in_dim -> ... out_dim".toList] = .ok ⟨[2, 1, 1], [17, 39], rfl⟩ := by decide +kernel
example : einsum refEinsum [.tensor (⟨[2, 2], [1, 2, 3, 4], rfl⟩ : Tensor ℤ), .str "i i ->".toList] = .ok ⟨[], [5], rfl⟩ := by
  decide +kernel

-- the documented sizes
theorem skip_pattern : @IsSide asciiUnicode true false "b _ h w".toList [word "b", word "_", word "h", word "w"] :=
  isSide_of (by decide) (by decide) (by decide) (by decide)
theorem skip_names : ∀ s ∈ ["b".toList, "h".toList, "w".toList], @IsName asciiUnicode false s := by decide
theorem regroup_pattern : @IsPattern asciiUnicode "(b c h w) -> b c h w".toList
    [.paren ["b".toList, "c".toList, "h".toList, "w".toList]] [word "b", word "c", word "h", word "w"] :=
  ⟨"(b c h w) ".toList, " b c h w".toList, by decide, isSide_of (by decide) (by decide) (by decide) (by decide),
    isSide_of (by decide) (by decide) (by decide) (by decide)⟩
example (U : PyUnicode) : @IsSide U true false "b _ h w".toList [word "b", word "_", word "h", word "w"] := isSide_ascii skip_pattern
example (U : PyUnicode) : @parseShape U [2, 3, 5, 7] "b _ h w".toList = .ok [("b".toList, 2), ("h".toList, 5), ("w".toList, 7)] :=
  C71_parse_shape (fun s hs => isName_ascii (skip_names s hs))
    (isSide_ascii skip_pattern)
example : ∃ z : Tensor ℤ, rearrange (numpyBackend intOps true) idOrder (.one ⟨[24], (List.range 24).map Int.ofNat, rfl⟩)
    "(b c h w) -> b c h w".toList (asSizes [("b".toList, 2), ("h".toList, 1), ("w".toList, 3)]) = .ok z ∧ z.shape = [2, 4, 1, 3] :=
  ⟨_, rfl, rfl⟩

end

end Einops
