import Verif.Proofs.Documented
import Verif.Props.Algebra

/-!
# C63: the documented examples, for all sizes

The examples in the documentation of `rearrange`, `reduce` and `repeat` (einops/einops.py:460-640), for every size, with the
element at every place.
-/

namespace Einops

universe u

section
variable {α : Type u} [PyUnicode] {E : ElemOps α} {b : Backend α} {q : Str}

/-- **C63** `rearrange(images, 'b h w c -> b h w c')` -/
theorem C63_images (hb : Modelled E b) {n h w c : Str} (hn : ∀ s ∈ [n, h, w, c], IsName false s)
    (hq : IsPattern q [.bare n, .bare h, .bare w, .bare c]
      [.bare n, .bare h, .bare w, .bare c])
    {N H W C : Nat} {X : Input α} {f : Nat → List Nat → Option α} (hX : Batch X N [H, W, C] f) :
    ∃ y, (∀ so, rearrange b so X q [] = .ok y) ∧ y.shape = [N, H, W, C] ∧
      ∀ m i j d, m < N → i < H → j < W → d < C →
        y.at? [m, i, j, d] = f m [i, j, d] := by
  obtain ⟨x, hx, hf, hred⟩ := hX.one_tensor hb
  have hn' := hn
  simp only [List.mem_cons, List.not_mem_nil, or_false, forall_eq_or_imp, forall_eq] at hn'
  have nL : List.flatMap Elem.names [.bare n, .bare h, .bare w, .bare c] = [n, h, w, c] := by
    simp [names_bare, names_paren, hn']
  have nR : List.flatMap Elem.names [.bare n, .bare h, .bare w, .bare c] = [n, h, w, c] := by
    simp [names_bare, names_paren, hn']
  have hR : ∀ s ∈ sideWords [.bare n, .bare h, .bare w, .bare c], Plain s :=
    fun s hs => .inl (hn s (by simpa [sideWords, Elem.words] using hs))
  have hL : ∀ s ∈ sideWords [.bare n, .bare h, .bare w, .bare c], Plain s :=
    fun s hs => .inl (hn s (by simp [sideWords, Elem.words] at hs ⊢; tauto))
  have hnd := plain_nodup hq.choose_spec.choose_spec.2.2 hR
  rw [nR] at hnd
  obtain ⟨val, hv⟩ := values_of_names hnd (vs := [N, H, W, C]) rfl
  simp only [List.map_cons, List.map_nil, List.cons.injEq, and_true] at hv
  have hnd1 := hnd
  have hnd2 := List.nodup_reverse.2 hnd
  simp at hnd1 hnd2
  obtain ⟨y, g1, g2, g3⟩ := plain_moves hb (op := "rearrange".toList) (q := q) (kw := []) (x := x) (val := val)
    ⟨by simp [hnd1, hnd2], by simp⟩ hL hR hq
    (.inl ⟨rfl, fun s => by simp only [nL, nR]⟩)
    (by simp only [nL, nR]; simp) (by simp [hx, Elem.size, names_bare, names_paren, hn', hv]) (by simp [hv])
    (by simp [names_bare, names_paren, hn', hnd1, hnd2])
    (by simp [names_bare, names_paren, hn', hnd1, hnd2, hv] <;> omega)
  refine ⟨y, fun so => (hred so _ _ _).trans (g1 so), by rw [g2]; simp [Elem.size, names_bare, names_paren, hn', hv, mul_assoc], ?_⟩
  intro m i j d lt_m lt_i lt_j lt_d
  obtain ⟨cc, hc⟩ := values_of_names hnd (vs := [m, i, j, d]) rfl
  simp only [List.map_cons, List.map_nil, List.cons.injEq, and_true] at hc
  have := g3 cc (by rw [nR]; simp [hc, hv]; omega)
  simp only [List.map_cons, List.map_nil, Elem.pos, names_bare, names_paren, hn', List.mem_cons, List.not_mem_nil, or_false,
    forall_eq_or_imp, forall_eq, and_self, List.foldl_cons, List.foldl_nil, hc, hv, Nat.zero_mul, Nat.zero_add] at this
  rw [hf] at this
  exact this

/-- **C63** `rearrange(images, 'b h w c -> b c h w')` -/
theorem C63_channels_first (hb : Modelled E b) {n c h w : Str} (hn : ∀ s ∈ [n, c, h, w], IsName false s)
    (hq : IsPattern q [.bare n, .bare h, .bare w, .bare c]
      [.bare n, .bare c, .bare h, .bare w])
    {N C H W : Nat} {X : Input α} {f : Nat → List Nat → Option α} (hX : Batch X N [H, W, C] f) :
    ∃ y, (∀ so, rearrange b so X q [] = .ok y) ∧ y.shape = [N, C, H, W] ∧
      ∀ m d i j, m < N → d < C → i < H → j < W →
        y.at? [m, d, i, j] = f m [i, j, d] := by
  obtain ⟨x, hx, hf, hred⟩ := hX.one_tensor hb
  have hn' := hn
  simp only [List.mem_cons, List.not_mem_nil, or_false, forall_eq_or_imp, forall_eq] at hn'
  have nL : List.flatMap Elem.names [.bare n, .bare h, .bare w, .bare c] = [n, h, w, c] := by
    simp [names_bare, names_paren, hn']
  have nR : List.flatMap Elem.names [.bare n, .bare c, .bare h, .bare w] = [n, c, h, w] := by
    simp [names_bare, names_paren, hn']
  have hR : ∀ s ∈ sideWords [.bare n, .bare c, .bare h, .bare w], Plain s :=
    fun s hs => .inl (hn s (by simpa [sideWords, Elem.words] using hs))
  have hL : ∀ s ∈ sideWords [.bare n, .bare h, .bare w, .bare c], Plain s :=
    fun s hs => .inl (hn s (by simp [sideWords, Elem.words] at hs ⊢; tauto))
  have hnd := plain_nodup hq.choose_spec.choose_spec.2.2 hR
  rw [nR] at hnd
  obtain ⟨val, hv⟩ := values_of_names hnd (vs := [N, C, H, W]) rfl
  simp only [List.map_cons, List.map_nil, List.cons.injEq, and_true] at hv
  have hnd1 := hnd
  have hnd2 := List.nodup_reverse.2 hnd
  simp at hnd1 hnd2
  obtain ⟨y, g1, g2, g3⟩ := plain_moves hb (op := "rearrange".toList) (q := q) (kw := []) (x := x) (val := val)
    ⟨by simp [hnd1, hnd2], by simp⟩ hL hR hq
    (.inl ⟨rfl, fun s => by rw [nL, nR]; simp; tauto⟩)
    (by simp only [nL, nR]; simp) (by simp [hx, Elem.size, names_bare, names_paren, hn', hv]) (by simp [hv])
    (by simp [names_bare, names_paren, hn', hnd1, hnd2])
    (by simp [names_bare, names_paren, hn', hnd1, hnd2, hv] <;> omega)
  refine ⟨y, fun so => (hred so _ _ _).trans (g1 so), by rw [g2]; simp [Elem.size, names_bare, names_paren, hn', hv, mul_assoc], ?_⟩
  intro m d i j lt_m lt_d lt_i lt_j
  obtain ⟨cc, hc⟩ := values_of_names hnd (vs := [m, d, i, j]) rfl
  simp only [List.map_cons, List.map_nil, List.cons.injEq, and_true] at hc
  have := g3 cc (by rw [nR]; simp [hc, hv]; omega)
  simp only [List.map_cons, List.map_nil, Elem.pos, names_bare, names_paren, hn', List.mem_cons, List.not_mem_nil, or_false,
    forall_eq_or_imp, forall_eq, and_self, List.foldl_cons, List.foldl_nil, hc, hv, Nat.zero_mul, Nat.zero_add] at this
  rw [hf] at this
  exact this

/-- **C63** `rearrange(images, 'b h w c -> (b h) w c')` -/
theorem C63_along_height (hb : Modelled E b) {n h w c : Str} (hn : ∀ s ∈ [n, h, w, c], IsName false s)
    (hq : IsPattern q [.bare n, .bare h, .bare w, .bare c]
      [.paren [n, h], .bare w, .bare c])
    {N H W C : Nat} {X : Input α} {f : Nat → List Nat → Option α} (hX : Batch X N [H, W, C] f) :
    ∃ y, (∀ so, rearrange b so X q [] = .ok y) ∧ y.shape = [N * H, W, C] ∧
      ∀ m i j d, m < N → i < H → j < W → d < C →
        y.at? [m * H + i, j, d] = f m [i, j, d] := by
  obtain ⟨x, hx, hf, hred⟩ := hX.one_tensor hb
  have hn' := hn
  simp only [List.mem_cons, List.not_mem_nil, or_false, forall_eq_or_imp, forall_eq] at hn'
  have nL : List.flatMap Elem.names [.bare n, .bare h, .bare w, .bare c] = [n, h, w, c] := by
    simp [names_bare, names_paren, hn']
  have nR : List.flatMap Elem.names [.paren [n, h], .bare w, .bare c] = [n, h, w, c] := by
    simp [names_bare, names_paren, hn']
  have hR : ∀ s ∈ sideWords [.paren [n, h], .bare w, .bare c], Plain s :=
    fun s hs => .inl (hn s (by simpa [sideWords, Elem.words] using hs))
  have hL : ∀ s ∈ sideWords [.bare n, .bare h, .bare w, .bare c], Plain s :=
    fun s hs => .inl (hn s (by simp [sideWords, Elem.words] at hs ⊢; tauto))
  have hnd := plain_nodup hq.choose_spec.choose_spec.2.2 hR
  rw [nR] at hnd
  obtain ⟨val, hv⟩ := values_of_names hnd (vs := [N, H, W, C]) rfl
  simp only [List.map_cons, List.map_nil, List.cons.injEq, and_true] at hv
  have hnd1 := hnd
  have hnd2 := List.nodup_reverse.2 hnd
  simp at hnd1 hnd2
  obtain ⟨y, g1, g2, g3⟩ := plain_moves hb (op := "rearrange".toList) (q := q) (kw := []) (x := x) (val := val)
    ⟨by simp [hnd1, hnd2], by simp⟩ hL hR hq
    (.inl ⟨rfl, fun s => by simp only [nL, nR]⟩)
    (by simp only [nL, nR]; simp) (by simp [hx, Elem.size, names_bare, names_paren, hn', hv]) (by simp [hv])
    (by simp [names_bare, names_paren, hn', hnd1, hnd2])
    (by simp [names_bare, names_paren, hn', hnd1, hnd2, hv] <;> omega)
  refine ⟨y, fun so => (hred so _ _ _).trans (g1 so), by rw [g2]; simp [Elem.size, names_bare, names_paren, hn', hv, mul_assoc], ?_⟩
  intro m i j d lt_m lt_i lt_j lt_d
  obtain ⟨cc, hc⟩ := values_of_names hnd (vs := [m, i, j, d]) rfl
  simp only [List.map_cons, List.map_nil, List.cons.injEq, and_true] at hc
  have := g3 cc (by rw [nR]; simp [hc, hv]; omega)
  simp only [List.map_cons, List.map_nil, Elem.pos, names_bare, names_paren, hn', List.mem_cons, List.not_mem_nil, or_false,
    forall_eq_or_imp, forall_eq, and_self, List.foldl_cons, List.foldl_nil, hc, hv, Nat.zero_mul, Nat.zero_add] at this
  rw [hf] at this
  exact this

/-- **C63** `rearrange(images, 'b h w c -> h (b w) c')` -/
theorem C63_along_width (hb : Modelled E b) {h n w c : Str} (hn : ∀ s ∈ [h, n, w, c], IsName false s)
    (hq : IsPattern q [.bare n, .bare h, .bare w, .bare c]
      [.bare h, .paren [n, w], .bare c])
    {H N W C : Nat} {X : Input α} {f : Nat → List Nat → Option α} (hX : Batch X N [H, W, C] f) :
    ∃ y, (∀ so, rearrange b so X q [] = .ok y) ∧ y.shape = [H, N * W, C] ∧
      ∀ i m j d, i < H → m < N → j < W → d < C →
        y.at? [i, m * W + j, d] = f m [i, j, d] := by
  obtain ⟨x, hx, hf, hred⟩ := hX.one_tensor hb
  have hn' := hn
  simp only [List.mem_cons, List.not_mem_nil, or_false, forall_eq_or_imp, forall_eq] at hn'
  have nL : List.flatMap Elem.names [.bare n, .bare h, .bare w, .bare c] = [n, h, w, c] := by
    simp [names_bare, names_paren, hn']
  have nR : List.flatMap Elem.names [.bare h, .paren [n, w], .bare c] = [h, n, w, c] := by
    simp [names_bare, names_paren, hn']
  have hR : ∀ s ∈ sideWords [.bare h, .paren [n, w], .bare c], Plain s :=
    fun s hs => .inl (hn s (by simpa [sideWords, Elem.words] using hs))
  have hL : ∀ s ∈ sideWords [.bare n, .bare h, .bare w, .bare c], Plain s :=
    fun s hs => .inl (hn s (by simp [sideWords, Elem.words] at hs ⊢; tauto))
  have hnd := plain_nodup hq.choose_spec.choose_spec.2.2 hR
  rw [nR] at hnd
  obtain ⟨val, hv⟩ := values_of_names hnd (vs := [H, N, W, C]) rfl
  simp only [List.map_cons, List.map_nil, List.cons.injEq, and_true] at hv
  have hnd1 := hnd
  have hnd2 := List.nodup_reverse.2 hnd
  simp at hnd1 hnd2
  obtain ⟨y, g1, g2, g3⟩ := plain_moves hb (op := "rearrange".toList) (q := q) (kw := []) (x := x) (val := val)
    ⟨by simp [hnd1, hnd2], by simp⟩ hL hR hq
    (.inl ⟨rfl, fun s => by rw [nL, nR]; simp; tauto⟩)
    (by simp only [nL, nR]; simp) (by simp [hx, Elem.size, names_bare, names_paren, hn', hv]) (by simp [hv])
    (by simp [names_bare, names_paren, hn', hnd1, hnd2])
    (by simp [names_bare, names_paren, hn', hnd1, hnd2, hv] <;> omega)
  refine ⟨y, fun so => (hred so _ _ _).trans (g1 so), by rw [g2]; simp [Elem.size, names_bare, names_paren, hn', hv, mul_assoc], ?_⟩
  intro i m j d lt_i lt_m lt_j lt_d
  obtain ⟨cc, hc⟩ := values_of_names hnd (vs := [i, m, j, d]) rfl
  simp only [List.map_cons, List.map_nil, List.cons.injEq, and_true] at hc
  have := g3 cc (by rw [nR]; simp [hc, hv]; omega)
  simp only [List.map_cons, List.map_nil, Elem.pos, names_bare, names_paren, hn', List.mem_cons, List.not_mem_nil, or_false,
    forall_eq_or_imp, forall_eq, and_self, List.foldl_cons, List.foldl_nil, hc, hv, Nat.zero_mul, Nat.zero_add] at this
  rw [hf] at this
  exact this

/-- **C63** `rearrange(images, 'b h w c -> b (c h w)')` -/
theorem C63_flatten (hb : Modelled E b) {n c h w : Str} (hn : ∀ s ∈ [n, c, h, w], IsName false s)
    (hq : IsPattern q [.bare n, .bare h, .bare w, .bare c]
      [.bare n, .paren [c, h, w]])
    {N C H W : Nat} {X : Input α} {f : Nat → List Nat → Option α} (hX : Batch X N [H, W, C] f) :
    ∃ y, (∀ so, rearrange b so X q [] = .ok y) ∧ y.shape = [N, C * H * W] ∧
      ∀ m d i j, m < N → d < C → i < H → j < W →
        y.at? [m, (d * H + i) * W + j] = f m [i, j, d] := by
  obtain ⟨x, hx, hf, hred⟩ := hX.one_tensor hb
  have hn' := hn
  simp only [List.mem_cons, List.not_mem_nil, or_false, forall_eq_or_imp, forall_eq] at hn'
  have nL : List.flatMap Elem.names [.bare n, .bare h, .bare w, .bare c] = [n, h, w, c] := by
    simp [names_bare, names_paren, hn']
  have nR : List.flatMap Elem.names [.bare n, .paren [c, h, w]] = [n, c, h, w] := by
    simp [names_bare, names_paren, hn']
  have hR : ∀ s ∈ sideWords [.bare n, .paren [c, h, w]], Plain s :=
    fun s hs => .inl (hn s (by simpa [sideWords, Elem.words] using hs))
  have hL : ∀ s ∈ sideWords [.bare n, .bare h, .bare w, .bare c], Plain s :=
    fun s hs => .inl (hn s (by simp [sideWords, Elem.words] at hs ⊢; tauto))
  have hnd := plain_nodup hq.choose_spec.choose_spec.2.2 hR
  rw [nR] at hnd
  obtain ⟨val, hv⟩ := values_of_names hnd (vs := [N, C, H, W]) rfl
  simp only [List.map_cons, List.map_nil, List.cons.injEq, and_true] at hv
  have hnd1 := hnd
  have hnd2 := List.nodup_reverse.2 hnd
  simp at hnd1 hnd2
  obtain ⟨y, g1, g2, g3⟩ := plain_moves hb (op := "rearrange".toList) (q := q) (kw := []) (x := x) (val := val)
    ⟨by simp [hnd1, hnd2], by simp⟩ hL hR hq
    (.inl ⟨rfl, fun s => by rw [nL, nR]; simp; tauto⟩)
    (by simp only [nL, nR]; simp) (by simp [hx, Elem.size, names_bare, names_paren, hn', hv]) (by simp [hv])
    (by simp [names_bare, names_paren, hn', hnd1, hnd2])
    (by simp [names_bare, names_paren, hn', hnd1, hnd2, hv] <;> omega)
  refine ⟨y, fun so => (hred so _ _ _).trans (g1 so), by rw [g2]; simp [Elem.size, names_bare, names_paren, hn', hv, mul_assoc], ?_⟩
  intro m d i j lt_m lt_d lt_i lt_j
  obtain ⟨cc, hc⟩ := values_of_names hnd (vs := [m, d, i, j]) rfl
  simp only [List.map_cons, List.map_nil, List.cons.injEq, and_true] at hc
  have := g3 cc (by rw [nR]; simp [hc, hv]; omega)
  simp only [List.map_cons, List.map_nil, Elem.pos, names_bare, names_paren, hn', List.mem_cons, List.not_mem_nil, or_false,
    forall_eq_or_imp, forall_eq, and_self, List.foldl_cons, List.foldl_nil, hc, hv, Nat.zero_mul, Nat.zero_add] at this
  rw [hf] at this
  exact this

/-- **C63** `rearrange(images, 'b (h1 h) (w1 w) c -> (b h1 w1) h w c', h1=…, w1=…)` -/
theorem C63_split (hb : Modelled E b) {n h1 w1 h w c : Str} (hn : ∀ s ∈ [n, h1, w1, h, w, c], IsName false s)
    (hq : IsPattern q [.bare n, .paren [h1, h], .paren [w1, w], .bare c]
      [.paren [n, h1, w1], .bare h, .bare w, .bare c])
    {N k l H W C : Nat} (hk : 0 < k) (hl : 0 < l) {X : Input α} {f : Nat → List Nat → Option α} (hX : Batch X N [k * H, l * W, C] f) :
    ∃ y, (∀ so, rearrange b so X q [(h1, ⟨(k : Nat), true⟩), (w1, ⟨(l : Nat), true⟩)] = .ok y) ∧ y.shape = [N * k * l, H, W, C] ∧
      ∀ m u v i j d, m < N → u < k → v < l → i < H → j < W → d < C →
        y.at? [(m * k + u) * l + v, i, j, d] = f m [u * H + i, v * W + j, d] := by
  obtain ⟨x, hx, hf, hred⟩ := hX.one_tensor hb
  have hn' := hn
  simp only [List.mem_cons, List.not_mem_nil, or_false, forall_eq_or_imp, forall_eq] at hn'
  have nL : List.flatMap Elem.names [.bare n, .paren [h1, h], .paren [w1, w], .bare c] = [n, h1, h, w1, w, c] := by
    simp [names_bare, names_paren, hn']
  have nR : List.flatMap Elem.names [.paren [n, h1, w1], .bare h, .bare w, .bare c] = [n, h1, w1, h, w, c] := by
    simp [names_bare, names_paren, hn']
  have hR : ∀ s ∈ sideWords [.paren [n, h1, w1], .bare h, .bare w, .bare c], Plain s :=
    fun s hs => .inl (hn s (by simpa [sideWords, Elem.words] using hs))
  have hL : ∀ s ∈ sideWords [.bare n, .paren [h1, h], .paren [w1, w], .bare c], Plain s :=
    fun s hs => .inl (hn s (by simp [sideWords, Elem.words] at hs ⊢; tauto))
  have hnd := plain_nodup hq.choose_spec.choose_spec.2.2 hR
  rw [nR] at hnd
  obtain ⟨val, hv⟩ := values_of_names hnd (vs := [N, k, l, H, W, C]) rfl
  simp only [List.map_cons, List.map_nil, List.cons.injEq, and_true] at hv
  have hnd1 := hnd
  have hnd2 := List.nodup_reverse.2 hnd
  simp at hnd1 hnd2
  obtain ⟨y, g1, g2, g3⟩ := plain_moves hb (op := "rearrange".toList) (q := q) (kw := [(h1, ⟨(k : Nat), true⟩), (w1, ⟨(l : Nat), true⟩)]) (x := x) (val := val)
    ⟨by simp [hnd1, hnd2], by simp⟩ hL hR hq
    (.inl ⟨rfl, fun s => by rw [nL, nR]; simp; tauto⟩)
    (by simp only [nL, nR]; simp) (by simp [hx, Elem.size, names_bare, names_paren, hn', hv]) (by simp [hv])
    (by simp [names_bare, names_paren, hn', hnd1, hnd2])
    (by simp [names_bare, names_paren, hn', hnd1, hnd2, hv] <;> omega)
  refine ⟨y, fun so => (hred so _ _ _).trans (g1 so), by rw [g2]; simp [Elem.size, names_bare, names_paren, hn', hv, mul_assoc], ?_⟩
  intro m u v i j d lt_m lt_u lt_v lt_i lt_j lt_d
  obtain ⟨cc, hc⟩ := values_of_names hnd (vs := [m, u, v, i, j, d]) rfl
  simp only [List.map_cons, List.map_nil, List.cons.injEq, and_true] at hc
  have := g3 cc (by rw [nR]; simp [hc, hv]; omega)
  simp only [List.map_cons, List.map_nil, Elem.pos, names_bare, names_paren, hn', List.mem_cons, List.not_mem_nil, or_false,
    forall_eq_or_imp, forall_eq, and_self, List.foldl_cons, List.foldl_nil, hc, hv, Nat.zero_mul, Nat.zero_add] at this
  rw [hf] at this
  exact this

/-- **C63** `rearrange(images, 'b (h h1) (w w1) c -> b h w (c h1 w1)', h1=…, w1=…)` -/
theorem C63_space_to_depth (hb : Modelled E b) {n h w c h1 w1 : Str} (hn : ∀ s ∈ [n, h, w, c, h1, w1], IsName false s)
    (hq : IsPattern q [.bare n, .paren [h, h1], .paren [w, w1], .bare c]
      [.bare n, .bare h, .bare w, .paren [c, h1, w1]])
    {N H W C k l : Nat} (hk : 0 < k) (hl : 0 < l) {X : Input α} {f : Nat → List Nat → Option α} (hX : Batch X N [H * k, W * l, C] f) :
    ∃ y, (∀ so, rearrange b so X q [(h1, ⟨(k : Nat), true⟩), (w1, ⟨(l : Nat), true⟩)] = .ok y) ∧ y.shape = [N, H, W, C * k * l] ∧
      ∀ m i j d u v, m < N → i < H → j < W → d < C → u < k → v < l →
        y.at? [m, i, j, (d * k + u) * l + v] = f m [i * k + u, j * l + v, d] := by
  obtain ⟨x, hx, hf, hred⟩ := hX.one_tensor hb
  have hn' := hn
  simp only [List.mem_cons, List.not_mem_nil, or_false, forall_eq_or_imp, forall_eq] at hn'
  have nL : List.flatMap Elem.names [.bare n, .paren [h, h1], .paren [w, w1], .bare c] = [n, h, h1, w, w1, c] := by
    simp [names_bare, names_paren, hn']
  have nR : List.flatMap Elem.names [.bare n, .bare h, .bare w, .paren [c, h1, w1]] = [n, h, w, c, h1, w1] := by
    simp [names_bare, names_paren, hn']
  have hR : ∀ s ∈ sideWords [.bare n, .bare h, .bare w, .paren [c, h1, w1]], Plain s :=
    fun s hs => .inl (hn s (by simpa [sideWords, Elem.words] using hs))
  have hL : ∀ s ∈ sideWords [.bare n, .paren [h, h1], .paren [w, w1], .bare c], Plain s :=
    fun s hs => .inl (hn s (by simp [sideWords, Elem.words] at hs ⊢; tauto))
  have hnd := plain_nodup hq.choose_spec.choose_spec.2.2 hR
  rw [nR] at hnd
  obtain ⟨val, hv⟩ := values_of_names hnd (vs := [N, H, W, C, k, l]) rfl
  simp only [List.map_cons, List.map_nil, List.cons.injEq, and_true] at hv
  have hnd1 := hnd
  have hnd2 := List.nodup_reverse.2 hnd
  simp at hnd1 hnd2
  obtain ⟨y, g1, g2, g3⟩ := plain_moves hb (op := "rearrange".toList) (q := q) (kw := [(h1, ⟨(k : Nat), true⟩), (w1, ⟨(l : Nat), true⟩)]) (x := x) (val := val)
    ⟨by simp [hnd1, hnd2], by simp⟩ hL hR hq
    (.inl ⟨rfl, fun s => by rw [nL, nR]; simp; tauto⟩)
    (by simp only [nL, nR]; simp) (by simp [hx, Elem.size, names_bare, names_paren, hn', hv]) (by simp [hv])
    (by simp [names_bare, names_paren, hn', hnd1, hnd2])
    (by simp [names_bare, names_paren, hn', hnd1, hnd2, hv] <;> omega)
  refine ⟨y, fun so => (hred so _ _ _).trans (g1 so), by rw [g2]; simp [Elem.size, names_bare, names_paren, hn', hv, mul_assoc], ?_⟩
  intro m i j d u v lt_m lt_i lt_j lt_d lt_u lt_v
  obtain ⟨cc, hc⟩ := values_of_names hnd (vs := [m, i, j, d, u, v]) rfl
  simp only [List.map_cons, List.map_nil, List.cons.injEq, and_true] at hc
  have := g3 cc (by rw [nR]; simp [hc, hv]; omega)
  simp only [List.map_cons, List.map_nil, Elem.pos, names_bare, names_paren, hn', List.mem_cons, List.not_mem_nil, or_false,
    forall_eq_or_imp, forall_eq, and_self, List.foldl_cons, List.foldl_nil, hc, hv, Nat.zero_mul, Nat.zero_add] at this
  rw [hf] at this
  exact this

/-- **C63** `repeat(image, 'h w -> h w c', c=…)` -/
theorem C63_to_channels (hb : Modelled E b) {h w c : Str} (hn : ∀ s ∈ [h, w, c], IsName false s)
    (hq : IsPattern q [.bare h, .bare w]
      [.bare h, .bare w, .bare c])
    {H W C : Nat} {x : Tensor α} (hx : x.shape = [H, W]) :
    ∃ y, (∀ so, repeat_ b so (.one x) q [(c, ⟨(C : Nat), true⟩)] = .ok y) ∧ y.shape = [H, W, C] ∧
      ∀ i j d, i < H → j < W → d < C →
        y.at? [i, j, d] = x.at? [i, j] := by
  have hn' := hn
  simp only [List.mem_cons, List.not_mem_nil, or_false, forall_eq_or_imp, forall_eq] at hn'
  have nL : List.flatMap Elem.names [.bare h, .bare w] = [h, w] := by
    simp [names_bare, names_paren, hn']
  have nR : List.flatMap Elem.names [.bare h, .bare w, .bare c] = [h, w, c] := by
    simp [names_bare, names_paren, hn']
  have hR : ∀ s ∈ sideWords [.bare h, .bare w, .bare c], Plain s :=
    fun s hs => .inl (hn s (by simpa [sideWords, Elem.words] using hs))
  have hL : ∀ s ∈ sideWords [.bare h, .bare w], Plain s :=
    fun s hs => .inl (hn s (by simp [sideWords, Elem.words] at hs ⊢; tauto))
  have hnd := plain_nodup hq.choose_spec.choose_spec.2.2 hR
  rw [nR] at hnd
  obtain ⟨val, hv⟩ := values_of_names hnd (vs := [H, W, C]) rfl
  simp only [List.map_cons, List.map_nil, List.cons.injEq, and_true] at hv
  have hnd1 := hnd
  have hnd2 := List.nodup_reverse.2 hnd
  simp at hnd1 hnd2
  obtain ⟨y, g1, g2, g3⟩ := plain_moves hb (op := "repeat".toList) (q := q) (kw := [(c, ⟨(C : Nat), true⟩)]) (x := x) (val := val)
    ⟨by simp [hnd1, hnd2], by simp⟩ hL hR hq
    (.inr ⟨rfl, fun s => by rw [nL, nR]; simp; tauto, fun s => by rw [nL, nR]; simp; tauto⟩)
    (by simp only [nL, nR]; simp) (by simp [hx, Elem.size, names_bare, names_paren, hn', hv]) (by simp [hv])
    (by simp [names_bare, names_paren, hn', hnd1, hnd2])
    (by simp [names_bare, names_paren, hn', hnd1, hnd2, hv] <;> omega)
  refine ⟨y, g1, by rw [g2]; simp [Elem.size, names_bare, names_paren, hn', hv, mul_assoc], ?_⟩
  intro i j d lt_i lt_j lt_d
  obtain ⟨cc, hc⟩ := values_of_names hnd (vs := [i, j, d]) rfl
  simp only [List.map_cons, List.map_nil, List.cons.injEq, and_true] at hc
  have := g3 cc (by rw [nR]; simp [hc, hv]; omega)
  simp only [List.map_cons, List.map_nil, Elem.pos, names_bare, names_paren, hn', List.mem_cons, List.not_mem_nil, or_false,
    forall_eq_or_imp, forall_eq, and_self, List.foldl_cons, List.foldl_nil, hc, hv, Nat.zero_mul, Nat.zero_add] at this
  exact this

/-- **C63** `repeat(image, 'h w -> (repeat h) w', repeat=…)` -/
theorem C63_repeat_height (hb : Modelled E b) {r h w : Str} (hn : ∀ s ∈ [r, h, w], IsName false s)
    (hq : IsPattern q [.bare h, .bare w]
      [.paren [r, h], .bare w])
    {k H W : Nat} {x : Tensor α} (hx : x.shape = [H, W]) :
    ∃ y, (∀ so, repeat_ b so (.one x) q [(r, ⟨(k : Nat), true⟩)] = .ok y) ∧ y.shape = [k * H, W] ∧
      ∀ u i j, u < k → i < H → j < W →
        y.at? [u * H + i, j] = x.at? [i, j] := by
  have hn' := hn
  simp only [List.mem_cons, List.not_mem_nil, or_false, forall_eq_or_imp, forall_eq] at hn'
  have nL : List.flatMap Elem.names [.bare h, .bare w] = [h, w] := by
    simp [names_bare, names_paren, hn']
  have nR : List.flatMap Elem.names [.paren [r, h], .bare w] = [r, h, w] := by
    simp [names_bare, names_paren, hn']
  have hR : ∀ s ∈ sideWords [.paren [r, h], .bare w], Plain s :=
    fun s hs => .inl (hn s (by simpa [sideWords, Elem.words] using hs))
  have hL : ∀ s ∈ sideWords [.bare h, .bare w], Plain s :=
    fun s hs => .inl (hn s (by simp [sideWords, Elem.words] at hs ⊢; tauto))
  have hnd := plain_nodup hq.choose_spec.choose_spec.2.2 hR
  rw [nR] at hnd
  obtain ⟨val, hv⟩ := values_of_names hnd (vs := [k, H, W]) rfl
  simp only [List.map_cons, List.map_nil, List.cons.injEq, and_true] at hv
  have hnd1 := hnd
  have hnd2 := List.nodup_reverse.2 hnd
  simp at hnd1 hnd2
  obtain ⟨y, g1, g2, g3⟩ := plain_moves hb (op := "repeat".toList) (q := q) (kw := [(r, ⟨(k : Nat), true⟩)]) (x := x) (val := val)
    ⟨by simp [hnd1, hnd2], by simp⟩ hL hR hq
    (.inr ⟨rfl, fun s => by rw [nL, nR]; simp; tauto, fun s => by rw [nL, nR]; simp; tauto⟩)
    (by simp only [nL, nR]; simp) (by simp [hx, Elem.size, names_bare, names_paren, hn', hv]) (by simp [hv])
    (by simp [names_bare, names_paren, hn', hnd1, hnd2])
    (by simp [names_bare, names_paren, hn', hnd1, hnd2, hv] <;> omega)
  refine ⟨y, g1, by rw [g2]; simp [Elem.size, names_bare, names_paren, hn', hv, mul_assoc], ?_⟩
  intro u i j lt_u lt_i lt_j
  obtain ⟨cc, hc⟩ := values_of_names hnd (vs := [u, i, j]) rfl
  simp only [List.map_cons, List.map_nil, List.cons.injEq, and_true] at hc
  have := g3 cc (by rw [nR]; simp [hc, hv]; omega)
  simp only [List.map_cons, List.map_nil, Elem.pos, names_bare, names_paren, hn', List.mem_cons, List.not_mem_nil, or_false,
    forall_eq_or_imp, forall_eq, and_self, List.foldl_cons, List.foldl_nil, hc, hv, Nat.zero_mul, Nat.zero_add] at this
  exact this

/-- **C63** `repeat(image, 'h w -> (h2 h) (w3 w)', h2=…, w3=…)` -/
theorem C63_repeat_both (hb : Modelled E b) {h2 h w2 w : Str} (hn : ∀ s ∈ [h2, h, w2, w], IsName false s)
    (hq : IsPattern q [.bare h, .bare w]
      [.paren [h2, h], .paren [w2, w]])
    {k H l W : Nat} {x : Tensor α} (hx : x.shape = [H, W]) :
    ∃ y, (∀ so, repeat_ b so (.one x) q [(h2, ⟨(k : Nat), true⟩), (w2, ⟨(l : Nat), true⟩)] = .ok y) ∧ y.shape = [k * H, l * W] ∧
      ∀ u i v j, u < k → i < H → v < l → j < W →
        y.at? [u * H + i, v * W + j] = x.at? [i, j] := by
  have hn' := hn
  simp only [List.mem_cons, List.not_mem_nil, or_false, forall_eq_or_imp, forall_eq] at hn'
  have nL : List.flatMap Elem.names [.bare h, .bare w] = [h, w] := by
    simp [names_bare, names_paren, hn']
  have nR : List.flatMap Elem.names [.paren [h2, h], .paren [w2, w]] = [h2, h, w2, w] := by
    simp [names_bare, names_paren, hn']
  have hR : ∀ s ∈ sideWords [.paren [h2, h], .paren [w2, w]], Plain s :=
    fun s hs => .inl (hn s (by simpa [sideWords, Elem.words] using hs))
  have hL : ∀ s ∈ sideWords [.bare h, .bare w], Plain s :=
    fun s hs => .inl (hn s (by simp [sideWords, Elem.words] at hs ⊢; tauto))
  have hnd := plain_nodup hq.choose_spec.choose_spec.2.2 hR
  rw [nR] at hnd
  obtain ⟨val, hv⟩ := values_of_names hnd (vs := [k, H, l, W]) rfl
  simp only [List.map_cons, List.map_nil, List.cons.injEq, and_true] at hv
  have hnd1 := hnd
  have hnd2 := List.nodup_reverse.2 hnd
  simp at hnd1 hnd2
  obtain ⟨y, g1, g2, g3⟩ := plain_moves hb (op := "repeat".toList) (q := q) (kw := [(h2, ⟨(k : Nat), true⟩), (w2, ⟨(l : Nat), true⟩)]) (x := x) (val := val)
    ⟨by simp [hnd1, hnd2], by simp⟩ hL hR hq
    (.inr ⟨rfl, fun s => by rw [nL, nR]; simp; tauto, fun s => by rw [nL, nR]; simp; tauto⟩)
    (by simp only [nL, nR]; simp) (by simp [hx, Elem.size, names_bare, names_paren, hn', hv]) (by simp [hv])
    (by simp [names_bare, names_paren, hn', hnd1, hnd2])
    (by simp [names_bare, names_paren, hn', hnd1, hnd2, hv] <;> omega)
  refine ⟨y, g1, by rw [g2]; simp [Elem.size, names_bare, names_paren, hn', hv, mul_assoc], ?_⟩
  intro u i v j lt_u lt_i lt_v lt_j
  obtain ⟨cc, hc⟩ := values_of_names hnd (vs := [u, i, v, j]) rfl
  simp only [List.map_cons, List.map_nil, List.cons.injEq, and_true] at hc
  have := g3 cc (by rw [nR]; simp [hc, hv]; omega)
  simp only [List.map_cons, List.map_nil, Elem.pos, names_bare, names_paren, hn', List.mem_cons, List.not_mem_nil, or_false,
    forall_eq_or_imp, forall_eq, and_self, List.foldl_cons, List.foldl_nil, hc, hv, Nat.zero_mul, Nat.zero_add] at this
  exact this

/-- **C63** `repeat(image, 'h w -> (h h2) (w w2)', h2=…, w2=…)`: every pixel becomes a block -/
theorem C63_upsample (hb : Modelled E b) {h h2 w w2 : Str} (hn : ∀ s ∈ [h, h2, w, w2], IsName false s)
    (hq : IsPattern q [.bare h, .bare w]
      [.paren [h, h2], .paren [w, w2]])
    {H k W l : Nat} {x : Tensor α} (hx : x.shape = [H, W]) :
    ∃ y, (∀ so, repeat_ b so (.one x) q [(h2, ⟨(k : Nat), true⟩), (w2, ⟨(l : Nat), true⟩)] = .ok y) ∧ y.shape = [H * k, W * l] ∧
      ∀ i u j v, i < H → u < k → j < W → v < l →
        y.at? [i * k + u, j * l + v] = x.at? [i, j] := by
  have hn' := hn
  simp only [List.mem_cons, List.not_mem_nil, or_false, forall_eq_or_imp, forall_eq] at hn'
  have nL : List.flatMap Elem.names [.bare h, .bare w] = [h, w] := by
    simp [names_bare, names_paren, hn']
  have nR : List.flatMap Elem.names [.paren [h, h2], .paren [w, w2]] = [h, h2, w, w2] := by
    simp [names_bare, names_paren, hn']
  have hR : ∀ s ∈ sideWords [.paren [h, h2], .paren [w, w2]], Plain s :=
    fun s hs => .inl (hn s (by simpa [sideWords, Elem.words] using hs))
  have hL : ∀ s ∈ sideWords [.bare h, .bare w], Plain s :=
    fun s hs => .inl (hn s (by simp [sideWords, Elem.words] at hs ⊢; tauto))
  have hnd := plain_nodup hq.choose_spec.choose_spec.2.2 hR
  rw [nR] at hnd
  obtain ⟨val, hv⟩ := values_of_names hnd (vs := [H, k, W, l]) rfl
  simp only [List.map_cons, List.map_nil, List.cons.injEq, and_true] at hv
  have hnd1 := hnd
  have hnd2 := List.nodup_reverse.2 hnd
  simp at hnd1 hnd2
  obtain ⟨y, g1, g2, g3⟩ := plain_moves hb (op := "repeat".toList) (q := q) (kw := [(h2, ⟨(k : Nat), true⟩), (w2, ⟨(l : Nat), true⟩)]) (x := x) (val := val)
    ⟨by simp [hnd1, hnd2], by simp⟩ hL hR hq
    (.inr ⟨rfl, fun s => by rw [nL, nR]; simp; tauto, fun s => by rw [nL, nR]; simp; tauto⟩)
    (by simp only [nL, nR]; simp) (by simp [hx, Elem.size, names_bare, names_paren, hn', hv]) (by simp [hv])
    (by simp [names_bare, names_paren, hn', hnd1, hnd2])
    (by simp [names_bare, names_paren, hn', hnd1, hnd2, hv] <;> omega)
  refine ⟨y, g1, by rw [g2]; simp [Elem.size, names_bare, names_paren, hn', hv, mul_assoc], ?_⟩
  intro i u j v lt_i lt_u lt_j lt_v
  obtain ⟨cc, hc⟩ := values_of_names hnd (vs := [i, u, j, v]) rfl
  simp only [List.map_cons, List.map_nil, List.cons.injEq, and_true] at hc
  have := g3 cc (by rw [nR]; simp [hc, hv]; omega)
  simp only [List.map_cons, List.map_nil, Elem.pos, names_bare, names_paren, hn', List.mem_cons, List.not_mem_nil, or_false,
    forall_eq_or_imp, forall_eq, and_self, List.foldl_cons, List.foldl_nil, hc, hv, Nat.zero_mul, Nat.zero_add] at this
  exact this

/-- **C63** `reduce(x, 'b c (h1 h2) (w1 w2) -> b c h1 w1', …, h2=…, w2=…)`: pooling with the given kernel -/
theorem C63_pool {o : Str} (hb : Computes E o b) (ho : o ∈ builtins) {n c h1 h2 w1 w2 : Str}
    (hn : ∀ s ∈ [n, c, h1, h2, w1, w2], IsName false s)
    (hq : IsPattern q [.bare n, .bare c, .paren [h1, h2], .paren [w1, w2]]
      [.bare n, .bare c, .bare h1, .bare w1])
    {N C H k W l : Nat} (hk : 0 < k) (hl : 0 < l) {x : Tensor α} (hf : o = "mean".toList → b.isFloat x = true)
    (hx : x.shape = [N, C, H * k, W * l]) (so : SetOrder) (y : Tensor α) :
    reduce b so (.one x) q (.name o) [(h2, ⟨(k : Nat), true⟩), (w2, ⟨(l : Nat), true⟩)] = .ok y ↔ y.shape = [N, C, H, W] ∧
      ∀ i j p r, i < N → j < C → p < H → r < W →
        ∃ vs v, ((List.range k).flatMap fun u => (List.range l).map fun t => x.at? [i, j, p * k + u, r * l + t]) = vs.map some ∧
          E.op o vs = .ok v ∧ y.at? [i, j, p, r] = some v := by
  have hn' := hn
  simp only [List.mem_cons, List.not_mem_nil, or_false, forall_eq_or_imp, forall_eq] at hn'
  have nL : List.flatMap Elem.names [.bare n, .bare c, .paren [h1, h2], .paren [w1, w2]] = [n, c, h1, h2, w1, w2] := by
    simp [names_bare, names_paren, hn']
  have nR : List.flatMap Elem.names [.bare n, .bare c, .bare h1, .bare w1] = [n, c, h1, w1] := by
    simp [names_bare, names_paren, hn']
  have hL : ∀ s ∈ sideWords [.bare n, .bare c, .paren [h1, h2], .paren [w1, w2]], Plain s :=
    fun s hs => .inl (hn s (by simpa [sideWords, Elem.words] using hs))
  have hR : ∀ s ∈ sideWords [.bare n, .bare c, .bare h1, .bare w1], Plain s :=
    fun s hs => .inl (hn s (by simp [sideWords, Elem.words] at hs ⊢; tauto))
  have hnd := plain_nodup hq.choose_spec.choose_spec.2.1 hL
  rw [nL] at hnd
  obtain ⟨val, hv⟩ := values_of_names hnd (vs := [N, C, H, k, W, l]) rfl
  simp only [List.map_cons, List.map_nil, List.cons.injEq, and_true] at hv
  have hnd1 := hnd
  have hnd2 := List.nodup_reverse.2 hnd
  simp at hnd1 hnd2
  have hfil : [n, c, h1, h2, w1, w2].filter (fun s => decide (s ∉ [n, c, h1, w1])) = [h2, w2] := by
    simp [hnd1, hnd2]
  have key := plain_reduces hb ho (q := q) (kw := [(h2, ⟨(k : Nat), true⟩), (w2, ⟨(l : Nat), true⟩)]) (x := x) (val := val)
    ⟨by simp [hnd1, hnd2], by simp⟩ hf hL hR hq (fun s => by rw [nL, nR]; simp; tauto)
    (by rw [nL, nR]; exact ⟨h2, by simp, by simp [hnd1, hnd2]⟩)
    (by simp only [nL, nR]; simp) (by simp [hx, Elem.size, names_bare, names_paren, hn', hv]) (by simp [hv])
    (by simp [names_bare, names_paren, hn', hnd1, hnd2])
    (by simp [names_bare, names_paren, hn', hnd1, hnd2, hv] <;> omega) so y
  rw [key, nL, nR, hfil]
  refine and_congr (by simp [Elem.size, names_bare, names_paren, hn', hv]) ?_
  have hvals : ∀ cc : Str → Nat, (coords val [h2, w2] cc).map
      (fun e => x.at? ([.bare n, .bare c, .paren [h1, h2], .paren [w1, w2]].map (Elem.pos val e))) =
        ((fun i j p r => (List.range k).flatMap fun u => (List.range l).map fun t => x.at? [i, j, p * k + u, r * l + t]) (cc n) (cc c) (cc h1) (cc w1)) := by
    intro cc
    simp [coords, List.map_flatMap, Elem.pos, names_bare, names_paren, hn', hv, hnd1, hnd2]
    simp only [List.map_eq_flatMap]
  have hidx : ∀ cc : Str → Nat, [.bare n, .bare c, .bare h1, .bare w1].map (Elem.pos val cc) =
      ((fun i j p r => [i, j, p, r]) (cc n) (cc c) (cc h1) (cc w1)) := by
    intro cc
    simp [Elem.pos, names_bare, names_paren, hn', hv]
  simp only [hvals, hidx]
  constructor
  · intro hyp i j p r lt_i lt_j lt_p lt_r
    obtain ⟨cc, hc⟩ := values_of_names hnd (vs := [i, j, p, 0, r, 0]) rfl
    simp only [List.map_cons, List.map_nil, List.cons.injEq, and_true] at hc
    have := hyp cc (by simp [hc, hv]; omega)
    simpa only [hc] using this
  · intro hyp cc hcc
    simp [hv] at hcc
    exact hyp (cc n) (cc c) (cc h1) (cc w1) (by omega) (by omega) (by omega) (by omega)

/-- **C63** `reduce(x, 'b c (h1 h2) (w1 w2) -> b c h1 w1', …, h1=…, w1=…)`: pooling to the given grid -/
theorem C63_pool_adaptive {o : Str} (hb : Computes E o b) (ho : o ∈ builtins) {n c h1 h2 w1 w2 : Str}
    (hn : ∀ s ∈ [n, c, h1, h2, w1, w2], IsName false s)
    (hq : IsPattern q [.bare n, .bare c, .paren [h1, h2], .paren [w1, w2]]
      [.bare n, .bare c, .bare h1, .bare w1])
    {N C H k W l : Nat} (hH : 0 < H) (hW : 0 < W) {x : Tensor α} (hf : o = "mean".toList → b.isFloat x = true)
    (hx : x.shape = [N, C, H * k, W * l]) (so : SetOrder) (y : Tensor α) :
    reduce b so (.one x) q (.name o) [(h1, ⟨(H : Nat), true⟩), (w1, ⟨(W : Nat), true⟩)] = .ok y ↔ y.shape = [N, C, H, W] ∧
      ∀ i j p r, i < N → j < C → p < H → r < W →
        ∃ vs v, ((List.range k).flatMap fun u => (List.range l).map fun t => x.at? [i, j, p * k + u, r * l + t]) = vs.map some ∧
          E.op o vs = .ok v ∧ y.at? [i, j, p, r] = some v := by
  have hn' := hn
  simp only [List.mem_cons, List.not_mem_nil, or_false, forall_eq_or_imp, forall_eq] at hn'
  have nL : List.flatMap Elem.names [.bare n, .bare c, .paren [h1, h2], .paren [w1, w2]] = [n, c, h1, h2, w1, w2] := by
    simp [names_bare, names_paren, hn']
  have nR : List.flatMap Elem.names [.bare n, .bare c, .bare h1, .bare w1] = [n, c, h1, w1] := by
    simp [names_bare, names_paren, hn']
  have hL : ∀ s ∈ sideWords [.bare n, .bare c, .paren [h1, h2], .paren [w1, w2]], Plain s :=
    fun s hs => .inl (hn s (by simpa [sideWords, Elem.words] using hs))
  have hR : ∀ s ∈ sideWords [.bare n, .bare c, .bare h1, .bare w1], Plain s :=
    fun s hs => .inl (hn s (by simp [sideWords, Elem.words] at hs ⊢; tauto))
  have hnd := plain_nodup hq.choose_spec.choose_spec.2.1 hL
  rw [nL] at hnd
  obtain ⟨val, hv⟩ := values_of_names hnd (vs := [N, C, H, k, W, l]) rfl
  simp only [List.map_cons, List.map_nil, List.cons.injEq, and_true] at hv
  have hnd1 := hnd
  have hnd2 := List.nodup_reverse.2 hnd
  simp at hnd1 hnd2
  have hfil : [n, c, h1, h2, w1, w2].filter (fun s => decide (s ∉ [n, c, h1, w1])) = [h2, w2] := by
    simp [hnd1, hnd2]
  have key := plain_reduces hb ho (q := q) (kw := [(h1, ⟨(H : Nat), true⟩), (w1, ⟨(W : Nat), true⟩)]) (x := x) (val := val)
    ⟨by simp [hnd1, hnd2], by simp⟩ hf hL hR hq (fun s => by rw [nL, nR]; simp; tauto)
    (by rw [nL, nR]; exact ⟨h2, by simp, by simp [hnd1, hnd2]⟩)
    (by simp only [nL, nR]; simp) (by simp [hx, Elem.size, names_bare, names_paren, hn', hv]) (by simp [hv])
    (by simp [names_bare, names_paren, hn', hnd1, hnd2])
    (by simp [names_bare, names_paren, hn', hnd1, hnd2, hv] <;> omega) so y
  rw [key, nL, nR, hfil]
  refine and_congr (by simp [Elem.size, names_bare, names_paren, hn', hv]) ?_
  have hvals : ∀ cc : Str → Nat, (coords val [h2, w2] cc).map
      (fun e => x.at? ([.bare n, .bare c, .paren [h1, h2], .paren [w1, w2]].map (Elem.pos val e))) =
        ((fun i j p r => (List.range k).flatMap fun u => (List.range l).map fun t => x.at? [i, j, p * k + u, r * l + t]) (cc n) (cc c) (cc h1) (cc w1)) := by
    intro cc
    simp [coords, List.map_flatMap, Elem.pos, names_bare, names_paren, hn', hv, hnd1, hnd2]
    simp only [List.map_eq_flatMap]
  have hidx : ∀ cc : Str → Nat, [.bare n, .bare c, .bare h1, .bare w1].map (Elem.pos val cc) =
      ((fun i j p r => [i, j, p, r]) (cc n) (cc c) (cc h1) (cc w1)) := by
    intro cc
    simp [Elem.pos, names_bare, names_paren, hn', hv]
  simp only [hvals, hidx]
  constructor
  · intro hyp i j p r lt_i lt_j lt_p lt_r
    obtain ⟨cc, hc⟩ := values_of_names hnd (vs := [i, j, p, 0, r, 0]) rfl
    simp only [List.map_cons, List.map_nil, List.cons.injEq, and_true] at hc
    have := hyp cc (by simp [hc, hv]; omega)
    simpa only [hc] using this
  · intro hyp cc hcc
    simp [hv] at hcc
    exact hyp (cc n) (cc c) (cc h1) (cc w1) (by omega) (by omega) (by omega) (by omega)

/-- **C63** `reduce(x, 'b c h w -> b c', …)` -/
theorem C63_pool_global {o : Str} (hb : Computes E o b) (ho : o ∈ builtins) {n c h w : Str}
    (hn : ∀ s ∈ [n, c, h, w], IsName false s)
    (hq : IsPattern q [.bare n, .bare c, .bare h, .bare w]
      [.bare n, .bare c])
    {N C H W : Nat} {x : Tensor α} (hf : o = "mean".toList → b.isFloat x = true)
    (hx : x.shape = [N, C, H, W]) (so : SetOrder) (y : Tensor α) :
    reduce b so (.one x) q (.name o) [] = .ok y ↔ y.shape = [N, C] ∧
      ∀ i j, i < N → j < C →
        ∃ vs v, ((List.range H).flatMap fun p => (List.range W).map fun r => x.at? [i, j, p, r]) = vs.map some ∧
          E.op o vs = .ok v ∧ y.at? [i, j] = some v := by
  have hn' := hn
  simp only [List.mem_cons, List.not_mem_nil, or_false, forall_eq_or_imp, forall_eq] at hn'
  have nL : List.flatMap Elem.names [.bare n, .bare c, .bare h, .bare w] = [n, c, h, w] := by
    simp [names_bare, names_paren, hn']
  have nR : List.flatMap Elem.names [.bare n, .bare c] = [n, c] := by
    simp [names_bare, names_paren, hn']
  have hL : ∀ s ∈ sideWords [.bare n, .bare c, .bare h, .bare w], Plain s :=
    fun s hs => .inl (hn s (by simpa [sideWords, Elem.words] using hs))
  have hR : ∀ s ∈ sideWords [.bare n, .bare c], Plain s :=
    fun s hs => .inl (hn s (by simp [sideWords, Elem.words] at hs ⊢; tauto))
  have hnd := plain_nodup hq.choose_spec.choose_spec.2.1 hL
  rw [nL] at hnd
  obtain ⟨val, hv⟩ := values_of_names hnd (vs := [N, C, H, W]) rfl
  simp only [List.map_cons, List.map_nil, List.cons.injEq, and_true] at hv
  have hnd1 := hnd
  have hnd2 := List.nodup_reverse.2 hnd
  simp at hnd1 hnd2
  have hfil : [n, c, h, w].filter (fun s => decide (s ∉ [n, c])) = [h, w] := by
    simp [hnd1, hnd2]
  have key := plain_reduces hb ho (q := q) (kw := []) (x := x) (val := val)
    ⟨by simp [hnd1, hnd2], by simp⟩ hf hL hR hq (fun s => by rw [nL, nR]; simp; tauto)
    (by rw [nL, nR]; exact ⟨h, by simp, by simp [hnd1, hnd2]⟩)
    (by simp only [nL, nR]; simp) (by simp [hx, Elem.size, names_bare, names_paren, hn', hv]) (by simp [hv])
    (by simp [names_bare, names_paren, hn', hnd1, hnd2])
    (by simp [names_bare, names_paren, hn', hnd1, hnd2, hv] <;> omega) so y
  rw [key, nL, nR, hfil]
  refine and_congr (by simp [Elem.size, names_bare, names_paren, hn', hv]) ?_
  have hvals : ∀ cc : Str → Nat, (coords val [h, w] cc).map
      (fun e => x.at? ([.bare n, .bare c, .bare h, .bare w].map (Elem.pos val e))) =
        ((fun i j => (List.range H).flatMap fun p => (List.range W).map fun r => x.at? [i, j, p, r]) (cc n) (cc c)) := by
    intro cc
    simp [coords, List.map_flatMap, Elem.pos, names_bare, names_paren, hn', hv, hnd1, hnd2]
    simp only [List.map_eq_flatMap]
  have hidx : ∀ cc : Str → Nat, [.bare n, .bare c].map (Elem.pos val cc) =
      ((fun i j => [i, j]) (cc n) (cc c)) := by
    intro cc
    simp [Elem.pos, names_bare, names_paren, hn', hv]
  simp only [hvals, hidx]
  constructor
  · intro hyp i j lt_i lt_j
    obtain ⟨cc, hc⟩ := values_of_names hnd (vs := [i, j, 0, 0]) rfl
    simp only [List.map_cons, List.map_nil, List.cons.injEq, and_true] at hc
    have := hyp cc (by simp [hc, hv]; omega)
    simpa only [hc] using this
  · intro hyp cc hcc
    simp [hv] at hcc
    exact hyp (cc n) (cc c) (by omega) (by omega)

/-- **C63** `reduce(x, 'b c h w -> 1 c 1 1', …)` -/
theorem C63_per_channel {o : Str} (hb : Computes E o b) (ho : o ∈ builtins) {n c h w : Str}
    (hn : ∀ s ∈ [n, c, h, w], IsName false s) {e1 e2 e3 : Elem} (he : ∀ e ∈ [e1, e2, e3], UnitElem e)
    (hq : IsPattern q [.bare n, .bare c, .bare h, .bare w]
      [e1, .bare c, e2, e3])
    {N C H W : Nat} {x : Tensor α} (hf : o = "mean".toList → b.isFloat x = true)
    (hx : x.shape = [N, C, H, W]) (so : SetOrder) (y : Tensor α) :
    reduce b so (.one x) q (.name o) [] = .ok y ↔ y.shape = [1, C, 1, 1] ∧
      ∀ j, j < C →
        ∃ vs v, ((List.range N).flatMap fun i => (List.range H).flatMap fun p => (List.range W).map fun r => x.at? [i, j, p, r]) = vs.map some ∧
          E.op o vs = .ok v ∧ y.at? [0, j, 0, 0] = some v := by
  have hn' := hn
  simp only [List.mem_cons, List.not_mem_nil, or_false, forall_eq_or_imp, forall_eq] at hn'
  have he0 := fun e h => isUnit_names (he e h)
  have he1 := fun e h => isUnit_words (he e h)
  simp only [List.mem_cons, List.not_mem_nil, or_false, forall_eq_or_imp, forall_eq] at he0 he1
  have nL : List.flatMap Elem.names [.bare n, .bare c, .bare h, .bare w] = [n, c, h, w] := by
    simp [names_bare, names_paren, hn']
  have nR : List.flatMap Elem.names [e1, .bare c, e2, e3] = [c] := by
    simp [names_bare, names_paren, hn', he0]
  have hL : ∀ s ∈ sideWords [.bare n, .bare c, .bare h, .bare w], Plain s :=
    fun s hs => .inl (hn s (by simpa [sideWords, Elem.words] using hs))
  have hR : ∀ s ∈ sideWords [e1, .bare c, e2, e3], Plain s := by
    intro s hs
    by_cases hsn : IsNumber s
    · simp [sideWords, Elem.words] at hs
      have he2 := he1
      rcases hs with hs | hs | hs | hs
      · exact .inr (he1.1 s hs)
      · exact .inl (hn s (by simp [hs]))
      · exact .inr (he1.2.1 s hs)
      · exact .inr (he1.2.2 s hs)
    · have hs' := mem_names.2 ⟨hs, hsn⟩
      rw [nR] at hs'
      exact .inl (hn s (by simp at hs' ⊢; tauto))
  have hnd := plain_nodup hq.choose_spec.choose_spec.2.1 hL
  rw [nL] at hnd
  obtain ⟨val, hv⟩ := values_of_names hnd (vs := [N, C, H, W]) rfl
  simp only [List.map_cons, List.map_nil, List.cons.injEq, and_true] at hv
  have hnd1 := hnd
  have hnd2 := List.nodup_reverse.2 hnd
  simp at hnd1 hnd2
  have hfil : [n, c, h, w].filter (fun s => decide (s ∉ [c])) = [n, h, w] := by
    simp [hnd1, hnd2]
  have key := plain_reduces hb ho (q := q) (kw := []) (x := x) (val := val)
    ⟨by simp [hnd1, hnd2], by simp⟩ hf hL hR hq (fun s => by rw [nL, nR]; simp; tauto)
    (by rw [nL, nR]; exact ⟨n, by simp, by simp [hnd1, hnd2]⟩)
    (by simp only [nL, nR]; simp) (by simp [hx, Elem.size, names_bare, names_paren, hn', hv]) (by simp [hv])
    (by simp [names_bare, names_paren, hn', hnd1, hnd2])
    (by simp [names_bare, names_paren, hn', hnd1, hnd2, hv] <;> omega) so y
  rw [key, nL, nR, hfil]
  refine and_congr (by simp [Elem.size, names_bare, names_paren, hn', he0, hv]) ?_
  have hvals : ∀ cc : Str → Nat, (coords val [n, h, w] cc).map
      (fun e => x.at? ([.bare n, .bare c, .bare h, .bare w].map (Elem.pos val e))) =
        ((fun j => (List.range N).flatMap fun i => (List.range H).flatMap fun p => (List.range W).map fun r => x.at? [i, j, p, r]) (cc c)) := by
    intro cc
    simp [coords, List.map_flatMap, Elem.pos, names_bare, names_paren, hn', hv, hnd1, hnd2]
    simp only [List.map_eq_flatMap]
  have hidx : ∀ cc : Str → Nat, [e1, .bare c, e2, e3].map (Elem.pos val cc) =
      ((fun j => [0, j, 0, 0]) (cc c)) := by
    intro cc
    simp [Elem.pos, names_bare, names_paren, hn', he0, hv]
  simp only [hvals, hidx]
  constructor
  · intro hyp j lt_j
    obtain ⟨cc, hc⟩ := values_of_names hnd (vs := [0, j, 0, 0]) rfl
    simp only [List.map_cons, List.map_nil, List.cons.injEq, and_true] at hc
    have := hyp cc (by simp [hc, hv]; omega)
    simpa only [hc] using this
  · intro hyp cc hcc
    simp [hv] at hcc
    exact hyp (cc c) (by omega)

/-- **C63** `reduce(x, 'b c h w -> b c 1 1', …)` and `reduce(x, 'b c h w -> b c () ()', …)` -/
theorem C63_per_image {o : Str} (hb : Computes E o b) (ho : o ∈ builtins) {n c h w : Str}
    (hn : ∀ s ∈ [n, c, h, w], IsName false s) {e1 e2 : Elem} (he : ∀ e ∈ [e1, e2], UnitElem e)
    (hq : IsPattern q [.bare n, .bare c, .bare h, .bare w]
      [.bare n, .bare c, e1, e2])
    {N C H W : Nat} {x : Tensor α} (hf : o = "mean".toList → b.isFloat x = true)
    (hx : x.shape = [N, C, H, W]) (so : SetOrder) (y : Tensor α) :
    reduce b so (.one x) q (.name o) [] = .ok y ↔ y.shape = [N, C, 1, 1] ∧
      ∀ i j, i < N → j < C →
        ∃ vs v, ((List.range H).flatMap fun p => (List.range W).map fun r => x.at? [i, j, p, r]) = vs.map some ∧
          E.op o vs = .ok v ∧ y.at? [i, j, 0, 0] = some v := by
  have hn' := hn
  simp only [List.mem_cons, List.not_mem_nil, or_false, forall_eq_or_imp, forall_eq] at hn'
  have he0 := fun e h => isUnit_names (he e h)
  have he1 := fun e h => isUnit_words (he e h)
  simp only [List.mem_cons, List.not_mem_nil, or_false, forall_eq_or_imp, forall_eq] at he0 he1
  have nL : List.flatMap Elem.names [.bare n, .bare c, .bare h, .bare w] = [n, c, h, w] := by
    simp [names_bare, names_paren, hn']
  have nR : List.flatMap Elem.names [.bare n, .bare c, e1, e2] = [n, c] := by
    simp [names_bare, names_paren, hn', he0]
  have hL : ∀ s ∈ sideWords [.bare n, .bare c, .bare h, .bare w], Plain s :=
    fun s hs => .inl (hn s (by simpa [sideWords, Elem.words] using hs))
  have hR : ∀ s ∈ sideWords [.bare n, .bare c, e1, e2], Plain s := by
    intro s hs
    by_cases hsn : IsNumber s
    · simp [sideWords, Elem.words] at hs
      have he2 := he1
      rcases hs with hs | hs | hs | hs
      · exact .inl (hn s (by simp [hs]))
      · exact .inl (hn s (by simp [hs]))
      · exact .inr (he1.1 s hs)
      · exact .inr (he1.2 s hs)
    · have hs' := mem_names.2 ⟨hs, hsn⟩
      rw [nR] at hs'
      exact .inl (hn s (by simp at hs' ⊢; tauto))
  have hnd := plain_nodup hq.choose_spec.choose_spec.2.1 hL
  rw [nL] at hnd
  obtain ⟨val, hv⟩ := values_of_names hnd (vs := [N, C, H, W]) rfl
  simp only [List.map_cons, List.map_nil, List.cons.injEq, and_true] at hv
  have hnd1 := hnd
  have hnd2 := List.nodup_reverse.2 hnd
  simp at hnd1 hnd2
  have hfil : [n, c, h, w].filter (fun s => decide (s ∉ [n, c])) = [h, w] := by
    simp [hnd1, hnd2]
  have key := plain_reduces hb ho (q := q) (kw := []) (x := x) (val := val)
    ⟨by simp [hnd1, hnd2], by simp⟩ hf hL hR hq (fun s => by rw [nL, nR]; simp; tauto)
    (by rw [nL, nR]; exact ⟨h, by simp, by simp [hnd1, hnd2]⟩)
    (by simp only [nL, nR]; simp) (by simp [hx, Elem.size, names_bare, names_paren, hn', hv]) (by simp [hv])
    (by simp [names_bare, names_paren, hn', hnd1, hnd2])
    (by simp [names_bare, names_paren, hn', hnd1, hnd2, hv] <;> omega) so y
  rw [key, nL, nR, hfil]
  refine and_congr (by simp [Elem.size, names_bare, names_paren, hn', he0, hv]) ?_
  have hvals : ∀ cc : Str → Nat, (coords val [h, w] cc).map
      (fun e => x.at? ([.bare n, .bare c, .bare h, .bare w].map (Elem.pos val e))) =
        ((fun i j => (List.range H).flatMap fun p => (List.range W).map fun r => x.at? [i, j, p, r]) (cc n) (cc c)) := by
    intro cc
    simp [coords, List.map_flatMap, Elem.pos, names_bare, names_paren, hn', hv, hnd1, hnd2]
    simp only [List.map_eq_flatMap]
  have hidx : ∀ cc : Str → Nat, [.bare n, .bare c, e1, e2].map (Elem.pos val cc) =
      ((fun i j => [i, j, 0, 0]) (cc n) (cc c)) := by
    intro cc
    simp [Elem.pos, names_bare, names_paren, hn', he0, hv]
  simp only [hvals, hidx]
  constructor
  · intro hyp i j lt_i lt_j
    obtain ⟨cc, hc⟩ := values_of_names hnd (vs := [i, j, 0, 0]) rfl
    simp only [List.map_cons, List.map_nil, List.cons.injEq, and_true] at hc
    have := hyp cc (by simp [hc, hv]; omega)
    simpa only [hc] using this
  · intro hyp cc hcc
    simp [hv] at hcc
    exact hyp (cc n) (cc c) (by omega) (by omega)

/-- **C63** `reduce(image, '(h h2) (w w2) -> h w', …, h2=…, w2=…)` -/
theorem C63_downsample {o : Str} (hb : Computes E o b) (ho : o ∈ builtins) {h h2 w w2 : Str}
    (hn : ∀ s ∈ [h, h2, w, w2], IsName false s)
    (hq : IsPattern q [.paren [h, h2], .paren [w, w2]]
      [.bare h, .bare w])
    {H k W l : Nat} (hk : 0 < k) (hl : 0 < l) {x : Tensor α} (hf : o = "mean".toList → b.isFloat x = true)
    (hx : x.shape = [H * k, W * l]) (so : SetOrder) (y : Tensor α) :
    reduce b so (.one x) q (.name o) [(h2, ⟨(k : Nat), true⟩), (w2, ⟨(l : Nat), true⟩)] = .ok y ↔ y.shape = [H, W] ∧
      ∀ p r, p < H → r < W →
        ∃ vs v, ((List.range k).flatMap fun u => (List.range l).map fun t => x.at? [p * k + u, r * l + t]) = vs.map some ∧
          E.op o vs = .ok v ∧ y.at? [p, r] = some v := by
  have hn' := hn
  simp only [List.mem_cons, List.not_mem_nil, or_false, forall_eq_or_imp, forall_eq] at hn'
  have nL : List.flatMap Elem.names [.paren [h, h2], .paren [w, w2]] = [h, h2, w, w2] := by
    simp [names_bare, names_paren, hn']
  have nR : List.flatMap Elem.names [.bare h, .bare w] = [h, w] := by
    simp [names_bare, names_paren, hn']
  have hL : ∀ s ∈ sideWords [.paren [h, h2], .paren [w, w2]], Plain s :=
    fun s hs => .inl (hn s (by simpa [sideWords, Elem.words] using hs))
  have hR : ∀ s ∈ sideWords [.bare h, .bare w], Plain s :=
    fun s hs => .inl (hn s (by simp [sideWords, Elem.words] at hs ⊢; tauto))
  have hnd := plain_nodup hq.choose_spec.choose_spec.2.1 hL
  rw [nL] at hnd
  obtain ⟨val, hv⟩ := values_of_names hnd (vs := [H, k, W, l]) rfl
  simp only [List.map_cons, List.map_nil, List.cons.injEq, and_true] at hv
  have hnd1 := hnd
  have hnd2 := List.nodup_reverse.2 hnd
  simp at hnd1 hnd2
  have hfil : [h, h2, w, w2].filter (fun s => decide (s ∉ [h, w])) = [h2, w2] := by
    simp [hnd1, hnd2]
  have key := plain_reduces hb ho (q := q) (kw := [(h2, ⟨(k : Nat), true⟩), (w2, ⟨(l : Nat), true⟩)]) (x := x) (val := val)
    ⟨by simp [hnd1, hnd2], by simp⟩ hf hL hR hq (fun s => by rw [nL, nR]; simp; tauto)
    (by rw [nL, nR]; exact ⟨h2, by simp, by simp [hnd1, hnd2]⟩)
    (by simp only [nL, nR]; simp) (by simp [hx, Elem.size, names_bare, names_paren, hn', hv]) (by simp [hv])
    (by simp [names_bare, names_paren, hn', hnd1, hnd2])
    (by simp [names_bare, names_paren, hn', hnd1, hnd2, hv] <;> omega) so y
  rw [key, nL, nR, hfil]
  refine and_congr (by simp [Elem.size, names_bare, names_paren, hn', hv]) ?_
  have hvals : ∀ cc : Str → Nat, (coords val [h2, w2] cc).map
      (fun e => x.at? ([.paren [h, h2], .paren [w, w2]].map (Elem.pos val e))) =
        ((fun p r => (List.range k).flatMap fun u => (List.range l).map fun t => x.at? [p * k + u, r * l + t]) (cc h) (cc w)) := by
    intro cc
    simp [coords, List.map_flatMap, Elem.pos, names_bare, names_paren, hn', hv, hnd1, hnd2]
    simp only [List.map_eq_flatMap]
  have hidx : ∀ cc : Str → Nat, [.bare h, .bare w].map (Elem.pos val cc) =
      ((fun p r => [p, r]) (cc h) (cc w)) := by
    intro cc
    simp [Elem.pos, names_bare, names_paren, hn', hv]
  simp only [hvals, hidx]
  constructor
  · intro hyp p r lt_p lt_r
    obtain ⟨cc, hc⟩ := values_of_names hnd (vs := [p, 0, r, 0]) rfl
    simp only [List.map_cons, List.map_nil, List.cons.injEq, and_true] at hc
    have := hyp cc (by simp [hc, hv]; omega)
    simpa only [hc] using this
  · intro hyp cc hcc
    simp [hv] at hcc
    exact hyp (cc h) (cc w) (by omega) (by omega)

/-- **C63** `pixelate`: downsampling by a reduction and upsampling again fills every block with the reduction of the block. -/
theorem C63_pixelate {o : Str} (hb : Computes E o b) (ho : o ∈ builtins) {h h2 w w2 q' : Str}
    (hn : ∀ s ∈ [h, h2, w, w2], IsName false s) (hq : IsPattern q [.paren [h, h2], .paren [w, w2]] [.bare h, .bare w])
    (hq' : IsPattern q' [.bare h, .bare w] [.paren [h, h2], .paren [w, w2]])
    {H k W l : Nat} (hk : 0 < k) (hl : 0 < l) {x : Tensor α} (hf : o = "mean".toList → b.isFloat x = true)
    (hx : x.shape = [H * k, W * l]) {so : SetOrder} {y : Tensor α}
    (hy : reduce b so (.one x) q (.name o) [(h2, ⟨(k : Nat), true⟩), (w2, ⟨(l : Nat), true⟩)] = .ok y) :
    ∃ z, (∀ so', repeat_ b so' (.one y) q' [(h2, ⟨(k : Nat), true⟩), (w2, ⟨(l : Nat), true⟩)] = .ok z) ∧ z.shape = x.shape ∧
      ∀ p r, p < H → r < W →
        ∃ vs v, ((List.range k).flatMap fun u => (List.range l).map fun t => x.at? [p * k + u, r * l + t]) = vs.map some ∧
          E.op o vs = .ok v ∧ ∀ u t, u < k → t < l → z.at? [p * k + u, r * l + t] = some v := by
  obtain ⟨h1, hv⟩ := (C63_downsample hb ho hn hq hk hl hf hx so y).1 hy
  obtain ⟨z, g1, g2, g3⟩ := C63_upsample hb.modelled hn hq' h1
  refine ⟨z, g1, g2.trans hx.symm, fun p r hp hr => ?_⟩
  obtain ⟨vs, v, e1, e2, e3⟩ := hv p r hp hr
  exact ⟨vs, v, e1, e2, fun u t hu ht => (g3 p u r t hp hu hr ht).trans e3⟩

/-- **C63** `reduce(x, 'b c (h1 2) (w1 2) -> b c h1 w1', …)` is the same as with named axes. -/
theorem C63_pool_numbers {n c h1 h2 w1 w2 K L q' : Str} (hn : ∀ s ∈ [n, c, h1, h2, w1, w2], IsName false s)
    (hK : IsNumber K ∧ decimalValue K ≠ 1) (hL : IsNumber L ∧ decimalValue L ≠ 1)
    (hq : IsPattern q [.bare n, .bare c, .paren [h1, K], .paren [w1, L]] [.bare n, .bare c, .bare h1, .bare w1])
    (hq' : IsPattern q' [.bare n, .bare c, .paren [h1, h2], .paren [w1, w2]] [.bare n, .bare c, .bare h1, .bare w1])
    (X : Input α) (red : Reduction α) (so so' : SetOrder) :
    reduce b so X q red [] =
      reduce b so' X q' red [(h2, ⟨(decimalValue K : Nat), true⟩), (w2, ⟨(decimalValue L : Nat), true⟩)] := by
  have hn' := hn
  simp only [List.mem_cons, List.not_mem_nil, or_false, forall_eq_or_imp, forall_eq] at hn'
  have hnd := plain_nodup hq'.choose_spec.choose_spec.2.1 (fun s hs => .inl (hn s (by simpa [sideWords, Elem.words] using hs)))
  simp only [List.flatMap_cons, List.flatMap_nil, List.append_nil, names_bare, names_paren, hn', List.mem_cons, List.not_mem_nil,
    or_false, forall_eq_or_imp, forall_eq, and_self] at hnd
  have hnd2 := List.nodup_reverse.2 hnd
  simp at hnd hnd2
  have hc : ∀ s, IsName false s → isCount s = false := fun s h => by simp [isCount, isName_not_number false h]
  have hK' : isCount K = true := by simp [isCount, hK]
  have hL' : isCount L = true := by simp [isCount, hL]
  have hne : ∀ s, IsName false s → s ≠ K ∧ s ≠ L :=
    fun s h => ⟨fun e => isName_not_number false h (e ▸ hK.1), fun e => isName_not_number false h (e ▸ hL.1)⟩
  exact (C42_numbers_are_names (nmL := fun k => if k = 3 then h2 else w2) (nmR := fun _ => h2) (pattern := q) (pattern' := q')
    (kw := []) hq (by simpa [nameCountsSide, nameCounts, hc, hn', hK', hL'] using hq')
    (new := [(h2, ⟨(decimalValue K : Nat), true⟩), (w2, ⟨(decimalValue L : Nat), true⟩)])
    (by simp [countSizes, sideWords, Elem.words, hc, hn', hK', hL']) (by simp [hn'])
    (by simp [sideWords, Elem.words, hnd, hnd2, hne, hn']) (by simp [hnd]) b X red so so').symm

/-- **C63** The patterns of the documentation are ASCII, and ASCII patterns do not depend on Unicode tables. -/
theorem C63_ascii {GL GR : List Elem} (h : @IsPattern asciiUnicode q GL GR) : IsPattern q GL GR := isPattern_ascii h

end

section
attribute [local instance] asciiUnicode

-- the documented patterns, whatever the Unicode tables
theorem space_to_depth_pattern : @IsPattern asciiUnicode "b (h h1) (w w1) c -> b h w (c h1 w1)".toList
    [.bare "b".toList, .paren ["h".toList, "h1".toList], .paren ["w".toList, "w1".toList], .bare "c".toList]
    [.bare "b".toList, .bare "h".toList, .bare "w".toList, .paren ["c".toList, "h1".toList, "w1".toList]] :=
  ⟨"b (h h1) (w w1) c ".toList, " b h w (c h1 w1)".toList, by decide, isSide_of (by decide) (by decide) (by decide) (by decide),
    isSide_of (by decide) (by decide) (by decide) (by decide)⟩
example (U : PyUnicode) : @IsPattern U "b (h h1) (w w1) c -> b h w (c h1 w1)".toList
    [.bare "b".toList, .paren ["h".toList, "h1".toList], .paren ["w".toList, "w1".toList], .bare "c".toList]
    [.bare "b".toList, .bare "h".toList, .bare "w".toList, .paren ["c".toList, "h1".toList, "w1".toList]] :=
  C63_ascii space_to_depth_pattern
-- a list of two images of shape 2 x 2 x 1
def img221 : Tensor ℤ := ⟨[2, 2, 1], [0, 1, 2, 3], rfl⟩
example : Batch (.many [img221, img221.map (· + 10)]) 2 [1 * 2, 1 * 2, 1]
    (fun m i => ([img221, img221.map (· + 10)][m]?).bind fun x => x.at? i) :=
  .many (by simp) (by simp [img221, Tensor.map])
example : Batch (.one (⟨[1, 2, 2, 1], [0, 1, 2, 3], rfl⟩ : Tensor ℤ)) 1 [2, 2, 1]
    (fun m i => (⟨[1, 2, 2, 1], [0, 1, 2, 3], rfl⟩ : Tensor ℤ).at? (m :: i)) := .one rfl
example : rearrange (numpyBackend intOps true) idOrder (.many [img221, img221.map (· + 10)])
    "b (h h1) (w w1) c -> b h w (c h1 w1)".toList [kwInt "h1" 2, kwInt "w1" 2] =
      .ok ⟨[2, 1, 1, 4], [0, 1, 2, 3, 10, 11, 12, 13], rfl⟩ := by rfl
example : rearrange (numpyBackend intOps true) idOrder (.many [img221, img221.map (· + 10)]) "b h w c -> h (b w) c".toList [] =
    .ok ⟨[2, 4, 1], [0, 1, 10, 11, 2, 3, 12, 13], rfl⟩ := by rfl
example : rearrange (numpyBackend intOps true) idOrder (.many [img221, img221.map (· + 10)])
    "b (h1 h) (w1 w) c -> (b h1 w1) h w c".toList [kwInt "h1" 2, kwInt "w1" 1] =
      .ok ⟨[4, 1, 2, 1], [0, 1, 2, 3, 10, 11, 12, 13], rfl⟩ := by rfl
-- a kernel of size 0 is refused: the other factor is not determined
example : rearrange (numpyBackend intOps true) idOrder (.one (⟨[1, 0, 2, 1], [], rfl⟩ : Tensor ℤ))
    "b (h h1) (w w1) c -> b h w (c h1 w1)".toList [kwInt "h1" 0, kwInt "w1" 1] = .error .zeroDivision := by rfl
def img24 : Tensor ℤ := ⟨[2, 4], [0, 1, 2, 3, 4, 5, 6, 7], rfl⟩
example : reduce (numpyBackend intOps true) idOrder (.one img24) "(h h2) (w w2) -> h w".toList (.name "max".toList)
    [kwInt "h2" 2, kwInt "w2" 2] = .ok ⟨[1, 2], [5, 7], rfl⟩ := by rfl
example : repeat_ (numpyBackend intOps true) idOrder (.one (⟨[1, 2], [5, 7], rfl⟩ : Tensor ℤ)) "h w -> (h h2) (w w2)".toList
    [kwInt "h2" 2, kwInt "w2" 2] = .ok ⟨[2, 4], [5, 5, 7, 7, 5, 5, 7, 7], rfl⟩ := by rfl
example : repeat_ (torchBackend intOps true) idOrder (.one t23) "h w -> (repeat h) w".toList [kwInt "repeat" 2] =
    .ok ⟨[4, 3], [0, 1, 2, 3, 4, 5, 0, 1, 2, 3, 4, 5], rfl⟩ := by rfl
def img1224 : Tensor ℤ := ⟨[1, 2, 2, 2], [0, 1, 2, 3, 4, 5, 6, 7], rfl⟩
example : reduce (numpyBackend intOps true) idOrder (.one img1224) "b c (h1 2) (w1 2) -> b c h1 w1".toList (.name "max".toList) [] =
    .ok ⟨[1, 2, 1, 1], [3, 7], rfl⟩ := by rfl
example : reduce (numpyBackend intOps true) idOrder (.one img1224) "b c (h1 h2) (w1 w2) -> b c h1 w1".toList (.name "max".toList)
    [kwInt "h1" 1, kwInt "w1" 2] = .ok ⟨[1, 2, 1, 2], [2, 3, 6, 7], rfl⟩ := by rfl
example : reduce (numpyBackend intOps true) idOrder (.one img1224) "b c h w -> 1 c 1 1".toList (.name "sum".toList) [] =
    .ok ⟨[1, 2, 1, 1], [6, 22], rfl⟩ := by rfl
example : reduce (torchBackend intOps true) idOrder (.one img1224) "b c h w -> b c () ()".toList (.name "sum".toList) [] =
    reduce (torchBackend intOps true) idOrder (.one img1224) "b c h w -> b c 1 1".toList (.name "sum".toList) [] := by rfl
end

end Einops
