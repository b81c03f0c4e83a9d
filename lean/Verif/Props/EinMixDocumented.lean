import Verif.Proofs.EinMixNamed
import Verif.Props.Documented

/-!
# C69: the documented `EinMix` layers, for all sizes

The examples in the documentation of `EinMix` (einops/layers/_einmix.py:26-39) and the patch embedding of its tutorial
(docs/3-einmix-layer.ipynb), for every size, with the element at every place.
-/

namespace Einops

universe u

section
variable {α : Type u} [CommSemiring α] [PyUnicode] {so : Nat → SetOrder} {q weight bias : Str}

/-- **C69** `EinMix('t b cin -> t b cout', weight_shape='cin cout', bias_shape='cout', cin=I, cout=O)`: a linear layer -/
theorem C69_linear {t b ci co : Str} (hn : ∀ s ∈ [t, b, ci, co], IsName false s)
    (hq : IsPattern q [.bare t, .bare b, .bare ci] [.bare t, .bare b, .bare co])
    (hw : IsSide false false weight [.bare ci, .bare co]) (hb : IsSide false false bias [.bare co])
    {call : Layer α → Tensor α → Py (Tensor α)} {f : Str → List (Tensor α) → Py (Tensor α)} (hcall : LayerCall call) (hf : EinsumLawful f)
    {T B I O : Nat} (hI : I ≠ 0) {x w c : Tensor α}
    (hx : x.shape = [T, B, I]) (hws : w.shape = [I, O]) (hc : c.shape = [1, 1, O]) :
    ∃ (m : EinMix α) (y : Tensor α), makeEinMix so q weight (some bias) [(ci, ⟨I, true⟩), (co, ⟨O, true⟩)] = .ok m ∧
      m.weightShape = w.shape ∧ m.biasShape = some c.shape ∧ m.forward call f w (some c) x = .ok y ∧
      y.shape = [T, B, O] ∧ ∀ i j k, i < T → j < B → k < O →
        y.at? [i, j, k] = some (((List.range I).map fun l => entry x [i, j, l] * entry w [l, k]).sum + entry c [0, 0, k]) := by
  have hn' := hn
  simp only [List.mem_cons, List.not_mem_nil, or_false, forall_eq_or_imp, forall_eq] at hn'
  have hL : ∀ s ∈ sideWords [.bare t, .bare b, .bare ci], Plain s :=
    fun s hs => .inl (hn s (by
      simp [sideWords, Elem.words] at hs
      rcases hs with rfl | rfl | rfl <;> simp))
  have hR : ∀ s ∈ sideWords [.bare t, .bare b, .bare co], Plain s :=
    fun s hs => .inl (hn s (by
      simp [sideWords, Elem.words] at hs
      rcases hs with rfl | rfl | rfl <;> simp))
  have hW : ∀ s ∈ sideWords [.bare ci, .bare co], IsName false s :=
    fun s hs => hn s (by
      simp [sideWords, Elem.words] at hs
      rcases hs with rfl | rfl <;> simp)
  have hB : ∀ s ∈ sideWords [.bare co], Plain s :=
    fun s hs => .inl (hn s (by
      simp [sideWords, Elem.words] at hs
      simp [hs]))
  have nL : List.flatMap Elem.names [.bare t, .bare b, .bare ci] = [t, b, ci] := by
    simp [names_bare, names_paren, hn']
  have nR : List.flatMap Elem.names [.bare t, .bare b, .bare co] = [t, b, co] := by
    simp [names_bare, names_paren, hn']
  have nW : List.flatMap Elem.names [.bare ci, .bare co] = [ci, co] := by
    simp [names_bare, names_paren, hn']
  have nB : List.flatMap Elem.names [.bare co] = [co] := by
    simp [names_bare, names_paren, hn']
  have wW : sideWords [.bare ci, .bare co] = [ci, co] := rfl
  have d1 := plain_nodup hq.choose_spec.choose_spec.2.1 hL
  have d2 := plain_nodup hq.choose_spec.choose_spec.2.2 hR
  have d3 := plain_nodup hw (fun s hs => .inl (hW s hs))
  rw [nL] at d1
  rw [nR] at d2
  rw [nW] at d3
  have d1' := List.nodup_reverse.2 d1
  have d2' := List.nodup_reverse.2 d2
  have d3' := List.nodup_reverse.2 d3
  have hnd : [t, b, ci, co].Nodup := by
    simp at d1 d2 d3 d1' d2' d3'
    simp [d1, d2, d3, d1', d2', d3']
  have hnd1 := hnd
  have hnd2 := List.nodup_reverse.2 hnd
  simp at hnd1 hnd2
  obtain ⟨val, hv⟩ := values_of_names hnd (vs := [T, B, I, O]) rfl
  simp only [List.map_cons, List.map_nil, List.cons.injEq, and_true] at hv
  obtain ⟨m, g1, g2, g3, g4⟩ := plain_mix (α := α) (so := so) (bias := some bias) (GB := [.bare co]) (ks := [ci, co]) (val := val)
    hL hR hW hB hq hw (fun t ht => by cases ht; exact hb) (by simp [hnd1, hnd2]) (by simp only [nR, nL, wW]; simp) (by simp)
    (by simp [names_bare, names_paren, hn', hnd1, hnd2]) (by rw [wW]; simp) (by rw [nL, wW]; simp) (by simp only [nL, nR, wW]; simp)
    (by rw [nR, nB]; simp)
    (by rw [wW, nR]; simp [hI, hv, hnd1, hnd2])
    (by
      simp only [nL, nR, wW]
      exact (List.Sublist.length_le (List.dedup_sublist _)).trans (by simp))
    (by simp [names_bare, names_paren, hn', hnd1, hnd2, hI, hv])
  simp only [sizesFor, List.map_cons, List.map_nil, hv] at g1
  rw [wW] at g2
  simp only [List.map_cons, List.map_nil, hv] at g2
  rw [nR, nB] at g3
  simp only [List.map_cons, List.map_nil, Option.map_some, List.mem_cons, List.not_mem_nil, or_false, hnd1, hnd2, or_self, true_or, or_true, if_false, if_true, hv] at g3
  obtain ⟨y, f1, f2, f3⟩ := g4 call f x w (some c) hcall hf (by simp [hx, Elem.size, names_bare, names_paren, hn', hv, mul_assoc]) (hws.trans g2.symm)
    (by rw [g3]; simp [hc])
  refine ⟨m, y, g1, g2.trans hws.symm, g3.trans (by rw [hc]), f1, by rw [f2]; simp [Elem.size, names_bare, names_paren, hn', hv, mul_assoc], ?_⟩
  intro i j k lt_i lt_j lt_k
  obtain ⟨cc, hcc⟩ := values_of_names hnd (vs := [i, j, 0, k]) rfl
  simp only [List.map_cons, List.map_nil, List.cons.injEq, and_true] at hcc
  have := f3 [ci] (by simp [hnd1, hnd2]) (by
    intro v
    simp only [nL, nR, wW]
    simp only [List.mem_cons, List.not_mem_nil, or_false]
    exact ⟨fun h => by (rcases h with rfl) <;> simp [hnd1, hnd2], fun h => by
      obtain ⟨h, h'⟩ := h
      simp only [not_or] at h'
      simpa [h'] using h⟩) cc
    (by rw [nR]; simp [hcc, hv]; omega)
  rw [nR, nB, wW] at this
  simp only [List.map_cons, List.map_nil, Elem.pos, names_bare, names_paren, hn', List.mem_cons, List.not_mem_nil, or_false,
    forall_eq_or_imp, forall_eq, and_self, List.foldl_cons, List.foldl_nil, hcc, hv, Nat.zero_mul, Nat.zero_add, coords,
    List.map_flatMap, Option.elim, hnd1, hnd2, or_self, true_or, or_true, if_false, if_true] at this
  rw [this]
  simp only [← List.map_eq_flatMap]

/-- **C69** `EinMix('h w c -> hout w c', weight_shape='h hout', bias_shape='hout', h=H, hout=O)`: mixing along another axis -/
theorem C69_height {h ho v ch : Str} (hn : ∀ s ∈ [h, ho, v, ch], IsName false s)
    (hq : IsPattern q [.bare h, .bare v, .bare ch] [.bare ho, .bare v, .bare ch])
    (hw : IsSide false false weight [.bare h, .bare ho]) (hb : IsSide false false bias [.bare ho])
    {call : Layer α → Tensor α → Py (Tensor α)} {f : Str → List (Tensor α) → Py (Tensor α)} (hcall : LayerCall call) (hf : EinsumLawful f)
    {H O W C : Nat} (hH : H ≠ 0) {x w c : Tensor α}
    (hx : x.shape = [H, W, C]) (hws : w.shape = [H, O]) (hc : c.shape = [O, 1, 1]) :
    ∃ (m : EinMix α) (y : Tensor α), makeEinMix so q weight (some bias) [(h, ⟨H, true⟩), (ho, ⟨O, true⟩)] = .ok m ∧
      m.weightShape = w.shape ∧ m.biasShape = some c.shape ∧ m.forward call f w (some c) x = .ok y ∧
      y.shape = [O, W, C] ∧ ∀ i j k, i < O → j < W → k < C →
        y.at? [i, j, k] = some (((List.range H).map fun l => entry x [l, j, k] * entry w [l, i]).sum + entry c [i, 0, 0]) := by
  have hn' := hn
  simp only [List.mem_cons, List.not_mem_nil, or_false, forall_eq_or_imp, forall_eq] at hn'
  have hL : ∀ s ∈ sideWords [.bare h, .bare v, .bare ch], Plain s :=
    fun s hs => .inl (hn s (by
      simp [sideWords, Elem.words] at hs
      rcases hs with rfl | rfl | rfl <;> simp))
  have hR : ∀ s ∈ sideWords [.bare ho, .bare v, .bare ch], Plain s :=
    fun s hs => .inl (hn s (by
      simp [sideWords, Elem.words] at hs
      rcases hs with rfl | rfl | rfl <;> simp))
  have hW : ∀ s ∈ sideWords [.bare h, .bare ho], IsName false s :=
    fun s hs => hn s (by
      simp [sideWords, Elem.words] at hs
      rcases hs with rfl | rfl <;> simp)
  have hB : ∀ s ∈ sideWords [.bare ho], Plain s :=
    fun s hs => .inl (hn s (by
      simp [sideWords, Elem.words] at hs
      simp [hs]))
  have nL : List.flatMap Elem.names [.bare h, .bare v, .bare ch] = [h, v, ch] := by
    simp [names_bare, names_paren, hn']
  have nR : List.flatMap Elem.names [.bare ho, .bare v, .bare ch] = [ho, v, ch] := by
    simp [names_bare, names_paren, hn']
  have nW : List.flatMap Elem.names [.bare h, .bare ho] = [h, ho] := by
    simp [names_bare, names_paren, hn']
  have nB : List.flatMap Elem.names [.bare ho] = [ho] := by
    simp [names_bare, names_paren, hn']
  have wW : sideWords [.bare h, .bare ho] = [h, ho] := rfl
  have d1 := plain_nodup hq.choose_spec.choose_spec.2.1 hL
  have d2 := plain_nodup hq.choose_spec.choose_spec.2.2 hR
  have d3 := plain_nodup hw (fun s hs => .inl (hW s hs))
  rw [nL] at d1
  rw [nR] at d2
  rw [nW] at d3
  have d1' := List.nodup_reverse.2 d1
  have d2' := List.nodup_reverse.2 d2
  have d3' := List.nodup_reverse.2 d3
  have hnd : [h, ho, v, ch].Nodup := by
    simp at d1 d2 d3 d1' d2' d3'
    simp [d1, d2, d3, d1', d2', d3']
  have hnd1 := hnd
  have hnd2 := List.nodup_reverse.2 hnd
  simp at hnd1 hnd2
  obtain ⟨val, hv⟩ := values_of_names hnd (vs := [H, O, W, C]) rfl
  simp only [List.map_cons, List.map_nil, List.cons.injEq, and_true] at hv
  obtain ⟨m, g1, g2, g3, g4⟩ := plain_mix (α := α) (so := so) (bias := some bias) (GB := [.bare ho]) (ks := [h, ho]) (val := val)
    hL hR hW hB hq hw (fun t ht => by cases ht; exact hb) (by simp [hnd1, hnd2]) (by simp only [nR, nL, wW]; simp) (by simp)
    (by simp [names_bare, names_paren, hn', hnd1, hnd2]) (by rw [wW]; simp) (by rw [nL, wW]; simp) (by simp only [nL, nR, wW]; simp)
    (by rw [nR, nB]; simp)
    (by rw [wW, nR]; simp [hH, hv, hnd1, hnd2])
    (by
      simp only [nL, nR, wW]
      exact (List.Sublist.length_le (List.dedup_sublist _)).trans (by simp))
    (by simp [names_bare, names_paren, hn', hnd1, hnd2, hH, hv])
  simp only [sizesFor, List.map_cons, List.map_nil, hv] at g1
  rw [wW] at g2
  simp only [List.map_cons, List.map_nil, hv] at g2
  rw [nR, nB] at g3
  simp only [List.map_cons, List.map_nil, Option.map_some, List.mem_cons, List.not_mem_nil, or_false, hnd1, hnd2, or_self, true_or, or_true, if_false, if_true, hv] at g3
  obtain ⟨y, f1, f2, f3⟩ := g4 call f x w (some c) hcall hf (by simp [hx, Elem.size, names_bare, names_paren, hn', hv, mul_assoc]) (hws.trans g2.symm)
    (by rw [g3]; simp [hc])
  refine ⟨m, y, g1, g2.trans hws.symm, g3.trans (by rw [hc]), f1, by rw [f2]; simp [Elem.size, names_bare, names_paren, hn', hv, mul_assoc], ?_⟩
  intro i j k lt_i lt_j lt_k
  obtain ⟨cc, hcc⟩ := values_of_names hnd (vs := [0, i, j, k]) rfl
  simp only [List.map_cons, List.map_nil, List.cons.injEq, and_true] at hcc
  have := f3 [h] (by simp [hnd1, hnd2]) (by
    intro v
    simp only [nL, nR, wW]
    simp only [List.mem_cons, List.not_mem_nil, or_false]
    exact ⟨fun h => by (rcases h with rfl) <;> simp [hnd1, hnd2], fun h => by
      obtain ⟨h, h'⟩ := h
      simp only [not_or] at h'
      simpa [h'] using h⟩) cc
    (by rw [nR]; simp [hcc, hv]; omega)
  rw [nR, nB, wW] at this
  simp only [List.map_cons, List.map_nil, Elem.pos, names_bare, names_paren, hn', List.mem_cons, List.not_mem_nil, or_false,
    forall_eq_or_imp, forall_eq, and_self, List.foldl_cons, List.foldl_nil, hcc, hv, Nat.zero_mul, Nat.zero_add, coords,
    List.map_flatMap, Option.elim, hnd1, hnd2, or_self, true_or, or_true, if_false, if_true] at this
  rw [this]
  simp only [← List.map_eq_flatMap]

/-- **C69** `EinMix('t b c -> t b c', weight_shape='c', c=C)`: multiplication of channels -/
theorem C69_channels {t b ch : Str} (hn : ∀ s ∈ [t, b, ch], IsName false s)
    (hq : IsPattern q [.bare t, .bare b, .bare ch] [.bare t, .bare b, .bare ch])
    (hw : IsSide false false weight [.bare ch])
    {call : Layer α → Tensor α → Py (Tensor α)} {f : Str → List (Tensor α) → Py (Tensor α)} (hcall : LayerCall call) (hf : EinsumLawful f)
    {T B C : Nat} {x w : Tensor α}
    (hx : x.shape = [T, B, C]) (hws : w.shape = [C]) :
    ∃ (m : EinMix α) (y : Tensor α), makeEinMix so q weight none [(ch, ⟨C, true⟩)] = .ok m ∧
      m.weightShape = w.shape ∧ m.biasShape = none ∧ m.forward call f w none x = .ok y ∧
      y.shape = [T, B, C] ∧ ∀ i j k, i < T → j < B → k < C →
        y.at? [i, j, k] = some (entry x [i, j, k] * entry w [k]) := by
  have hn' := hn
  simp only [List.mem_cons, List.not_mem_nil, or_false, forall_eq_or_imp, forall_eq] at hn'
  have hL : ∀ s ∈ sideWords [.bare t, .bare b, .bare ch], Plain s :=
    fun s hs => .inl (hn s (by
      simp [sideWords, Elem.words] at hs
      rcases hs with rfl | rfl | rfl <;> simp))
  have hR : ∀ s ∈ sideWords [.bare t, .bare b, .bare ch], Plain s :=
    fun s hs => .inl (hn s (by
      simp [sideWords, Elem.words] at hs
      rcases hs with rfl | rfl | rfl <;> simp))
  have hW : ∀ s ∈ sideWords [.bare ch], IsName false s :=
    fun s hs => hn s (by
      simp [sideWords, Elem.words] at hs
      simp [hs])
  have nL : List.flatMap Elem.names [.bare t, .bare b, .bare ch] = [t, b, ch] := by
    simp [names_bare, names_paren, hn']
  have nR : List.flatMap Elem.names [.bare t, .bare b, .bare ch] = [t, b, ch] := by
    simp [names_bare, names_paren, hn']
  have nW : List.flatMap Elem.names [.bare ch] = [ch] := by
    simp [names_bare, names_paren, hn']
  have wW : sideWords [.bare ch] = [ch] := rfl
  have d1 := plain_nodup hq.choose_spec.choose_spec.2.1 hL
  have d2 := plain_nodup hq.choose_spec.choose_spec.2.2 hR
  have d3 := plain_nodup hw (fun s hs => .inl (hW s hs))
  rw [nL] at d1
  rw [nR] at d2
  rw [nW] at d3
  have d1' := List.nodup_reverse.2 d1
  have d2' := List.nodup_reverse.2 d2
  have d3' := List.nodup_reverse.2 d3
  have hnd : [t, b, ch].Nodup := by
    simp at d1 d2 d3 d1' d2' d3'
    simp [d1, d2, d3, d1', d2', d3']
  have hnd1 := hnd
  have hnd2 := List.nodup_reverse.2 hnd
  simp at hnd1 hnd2
  obtain ⟨val, hv⟩ := values_of_names hnd (vs := [T, B, C]) rfl
  simp only [List.map_cons, List.map_nil, List.cons.injEq, and_true] at hv
  obtain ⟨m, g1, g2, g3, g4⟩ := plain_mix (α := α) (so := so) (bias := none) (GB := []) (ks := [ch]) (val := val)
    hL hR hW (by simp [sideWords]) hq hw (fun t ht => by cases ht) (by simp [hnd1, hnd2]) (by simp only [nR, nL, wW]; simp) (by simp)
    (by simp [names_bare, names_paren, hn', hnd1, hnd2]) (by rw [wW]; simp) (by rw [nL, wW]; simp) (by simp only [nL, nR, wW]; simp)
    (fun h => absurd rfl h)
    (by rw [wW, nR]; simp [hv, hnd1, hnd2])
    (by
      simp only [nL, nR, wW]
      exact (List.Sublist.length_le (List.dedup_sublist _)).trans (by simp))
    (by simp [names_bare, names_paren, hn', hnd1, hnd2, hv])
  simp only [sizesFor, List.map_cons, List.map_nil, hv] at g1
  rw [wW] at g2
  simp only [List.map_cons, List.map_nil, hv] at g2
  simp only [Option.map_none] at g3
  obtain ⟨y, f1, f2, f3⟩ := g4 call f x w none hcall hf (by simp [hx, Elem.size, names_bare, names_paren, hn', hv, mul_assoc]) (hws.trans g2.symm)
    (by rw [g3]; rfl)
  refine ⟨m, y, g1, g2.trans hws.symm, g3, f1, by rw [f2]; simp [Elem.size, names_bare, names_paren, hn', hv, mul_assoc], ?_⟩
  intro i j k lt_i lt_j lt_k
  obtain ⟨cc, hcc⟩ := values_of_names hnd (vs := [i, j, k]) rfl
  simp only [List.map_cons, List.map_nil, List.cons.injEq, and_true] at hcc
  have := f3 [] (by simp [hnd1, hnd2]) (by
    intro v
    simp only [nL, nR, wW]
    simp only [List.mem_cons, List.not_mem_nil, or_false]
    tauto) cc
    (by rw [nR]; simp [hcc, hv]; omega)
  rw [nR, wW] at this
  simp only [List.map_cons, List.map_nil, Elem.pos, names_bare, names_paren, hn', List.mem_cons, List.not_mem_nil, or_false,
    forall_eq_or_imp, forall_eq, and_self, List.foldl_cons, List.foldl_nil, hcc, hv, Nat.zero_mul, Nat.zero_add, coords,
    List.map_flatMap, Option.elim, hnd1, hnd2, or_self, true_or, or_true, if_false, if_true] at this
  rw [this]
  simp

/-- **C69** `EinMix('t b (head cin) -> t b (head cout)', weight_shape='head cin cout', head=H, cin=I, cout=O)`: every head is a linear layer of its own -/
theorem C69_heads {t b hd ci co : Str} (hn : ∀ s ∈ [t, b, hd, ci, co], IsName false s)
    (hq : IsPattern q [.bare t, .bare b, .paren [hd, ci]] [.bare t, .bare b, .paren [hd, co]])
    (hw : IsSide false false weight [.bare hd, .bare ci, .bare co])
    {call : Layer α → Tensor α → Py (Tensor α)} {f : Str → List (Tensor α) → Py (Tensor α)} (hcall : LayerCall call) (hf : EinsumLawful f)
    {T B H I O : Nat} (hI : I ≠ 0) {x w : Tensor α}
    (hx : x.shape = [T, B, H * I]) (hws : w.shape = [H, I, O]) :
    ∃ (m : EinMix α) (y : Tensor α), makeEinMix so q weight none [(hd, ⟨H, true⟩), (ci, ⟨I, true⟩), (co, ⟨O, true⟩)] = .ok m ∧
      m.weightShape = w.shape ∧ m.biasShape = none ∧ m.forward call f w none x = .ok y ∧
      y.shape = [T, B, H * O] ∧ ∀ i j h k, i < T → j < B → h < H → k < O →
        y.at? [i, j, h * O + k] = some (((List.range I).map fun l => entry x [i, j, h * I + l] * entry w [h, l, k]).sum) := by
  have hn' := hn
  simp only [List.mem_cons, List.not_mem_nil, or_false, forall_eq_or_imp, forall_eq] at hn'
  have hL : ∀ s ∈ sideWords [.bare t, .bare b, .paren [hd, ci]], Plain s :=
    fun s hs => .inl (hn s (by
      simp [sideWords, Elem.words] at hs
      rcases hs with rfl | rfl | rfl | rfl <;> simp))
  have hR : ∀ s ∈ sideWords [.bare t, .bare b, .paren [hd, co]], Plain s :=
    fun s hs => .inl (hn s (by
      simp [sideWords, Elem.words] at hs
      rcases hs with rfl | rfl | rfl | rfl <;> simp))
  have hW : ∀ s ∈ sideWords [.bare hd, .bare ci, .bare co], IsName false s :=
    fun s hs => hn s (by
      simp [sideWords, Elem.words] at hs
      rcases hs with rfl | rfl | rfl <;> simp)
  have nL : List.flatMap Elem.names [.bare t, .bare b, .paren [hd, ci]] = [t, b, hd, ci] := by
    simp [names_bare, names_paren, hn']
  have nR : List.flatMap Elem.names [.bare t, .bare b, .paren [hd, co]] = [t, b, hd, co] := by
    simp [names_bare, names_paren, hn']
  have nW : List.flatMap Elem.names [.bare hd, .bare ci, .bare co] = [hd, ci, co] := by
    simp [names_bare, names_paren, hn']
  have wW : sideWords [.bare hd, .bare ci, .bare co] = [hd, ci, co] := rfl
  have d1 := plain_nodup hq.choose_spec.choose_spec.2.1 hL
  have d2 := plain_nodup hq.choose_spec.choose_spec.2.2 hR
  have d3 := plain_nodup hw (fun s hs => .inl (hW s hs))
  rw [nL] at d1
  rw [nR] at d2
  rw [nW] at d3
  have d1' := List.nodup_reverse.2 d1
  have d2' := List.nodup_reverse.2 d2
  have d3' := List.nodup_reverse.2 d3
  have hnd : [t, b, hd, ci, co].Nodup := by
    simp at d1 d2 d3 d1' d2' d3'
    simp [d1, d2, d3, d1', d2', d3']
  have hnd1 := hnd
  have hnd2 := List.nodup_reverse.2 hnd
  simp at hnd1 hnd2
  obtain ⟨val, hv⟩ := values_of_names hnd (vs := [T, B, H, I, O]) rfl
  simp only [List.map_cons, List.map_nil, List.cons.injEq, and_true] at hv
  obtain ⟨m, g1, g2, g3, g4⟩ := plain_mix (α := α) (so := so) (bias := none) (GB := []) (ks := [hd, ci, co]) (val := val)
    hL hR hW (by simp [sideWords]) hq hw (fun t ht => by cases ht) (by simp [hnd1, hnd2]) (by simp only [nR, nL, wW]; simp) (by simp)
    (by simp [names_bare, names_paren, hn', hnd1, hnd2]) (by rw [wW]; simp) (by rw [nL, wW]; simp) (by simp only [nL, nR, wW]; simp)
    (fun h => absurd rfl h)
    (by rw [wW, nR]; simp [hI, hv, hnd1, hnd2])
    (by
      simp only [nL, nR, wW]
      exact (List.Sublist.length_le (List.dedup_sublist _)).trans (by simp))
    (by simp [names_bare, names_paren, hn', hnd1, hnd2, hI, hv])
  simp only [sizesFor, List.map_cons, List.map_nil, hv] at g1
  rw [wW] at g2
  simp only [List.map_cons, List.map_nil, hv] at g2
  simp only [Option.map_none] at g3
  obtain ⟨y, f1, f2, f3⟩ := g4 call f x w none hcall hf (by simp [hx, Elem.size, names_bare, names_paren, hn', hv, mul_assoc]) (hws.trans g2.symm)
    (by rw [g3]; rfl)
  refine ⟨m, y, g1, g2.trans hws.symm, g3, f1, by rw [f2]; simp [Elem.size, names_bare, names_paren, hn', hv, mul_assoc], ?_⟩
  intro i j h k lt_i lt_j lt_h lt_k
  obtain ⟨cc, hcc⟩ := values_of_names hnd (vs := [i, j, h, 0, k]) rfl
  simp only [List.map_cons, List.map_nil, List.cons.injEq, and_true] at hcc
  have := f3 [ci] (by simp [hnd1, hnd2]) (by
    intro v
    simp only [nL, nR, wW]
    simp only [List.mem_cons, List.not_mem_nil, or_false]
    exact ⟨fun h => by (rcases h with rfl) <;> simp [hnd1, hnd2], fun h => by
      obtain ⟨h, h'⟩ := h
      simp only [not_or] at h'
      simpa [h'] using h⟩) cc
    (by rw [nR]; simp [hcc, hv]; omega)
  rw [nR, wW] at this
  simp only [List.map_cons, List.map_nil, Elem.pos, names_bare, names_paren, hn', List.mem_cons, List.not_mem_nil, or_false,
    forall_eq_or_imp, forall_eq, and_self, List.foldl_cons, List.foldl_nil, hcc, hv, Nat.zero_mul, Nat.zero_add, coords,
    List.map_flatMap, Option.elim, hnd1, hnd2, or_self, true_or, or_true, if_false, if_true] at this
  rw [this]
  simp only [← List.map_eq_flatMap, add_zero]

/-- **C69** `EinMix('b c_in (h hp) (w wp) -> b (h w) c', weight_shape='c_in hp wp c', bias_shape='c', c_in=I, hp=P, wp=Q, c=O)`: the patch embedding of
the tutorial, a convolution whose stride is its kernel size -/
theorem C69_patches {b h v co ci hp wp : Str} (hn : ∀ s ∈ [b, h, v, co, ci, hp, wp], IsName false s)
    (hq : IsPattern q [.bare b, .bare ci, .paren [h, hp], .paren [v, wp]] [.bare b, .paren [h, v], .bare co])
    (hw : IsSide false false weight [.bare ci, .bare hp, .bare wp, .bare co]) (hb : IsSide false false bias [.bare co])
    {call : Layer α → Tensor α → Py (Tensor α)} {f : Str → List (Tensor α) → Py (Tensor α)} (hcall : LayerCall call) (hf : EinsumLawful f)
    {B H W O I P Q : Nat} (hI : I ≠ 0) (hP : P ≠ 0) (hQ : Q ≠ 0) {x w c : Tensor α}
    (hx : x.shape = [B, I, H * P, W * Q]) (hws : w.shape = [I, P, Q, O]) (hc : c.shape = [1, 1, 1, O]) :
    ∃ (m : EinMix α) (y : Tensor α), makeEinMix so q weight (some bias) [(co, ⟨O, true⟩), (ci, ⟨I, true⟩), (hp, ⟨P, true⟩), (wp, ⟨Q, true⟩)] = .ok m ∧
      m.weightShape = w.shape ∧ m.biasShape = some c.shape ∧ m.forward call f w (some c) x = .ok y ∧
      y.shape = [B, H * W, O] ∧ ∀ n i j k, n < B → i < H → j < W → k < O →
        y.at? [n, i * W + j, k] = some (((List.range I).flatMap fun l => (List.range P).flatMap fun r => (List.range Q).map fun s =>
          entry x [n, l, i * P + r, j * Q + s] * entry w [l, r, s, k]).sum + entry c [0, 0, 0, k]) := by
  have hn' := hn
  simp only [List.mem_cons, List.not_mem_nil, or_false, forall_eq_or_imp, forall_eq] at hn'
  have hL : ∀ s ∈ sideWords [.bare b, .bare ci, .paren [h, hp], .paren [v, wp]], Plain s :=
    fun s hs => .inl (hn s (by
      simp [sideWords, Elem.words] at hs
      rcases hs with rfl | rfl | rfl | rfl | rfl | rfl <;> simp))
  have hR : ∀ s ∈ sideWords [.bare b, .paren [h, v], .bare co], Plain s :=
    fun s hs => .inl (hn s (by
      simp [sideWords, Elem.words] at hs
      rcases hs with rfl | rfl | rfl | rfl <;> simp))
  have hW : ∀ s ∈ sideWords [.bare ci, .bare hp, .bare wp, .bare co], IsName false s :=
    fun s hs => hn s (by
      simp [sideWords, Elem.words] at hs
      rcases hs with rfl | rfl | rfl | rfl <;> simp)
  have hB : ∀ s ∈ sideWords [.bare co], Plain s :=
    fun s hs => .inl (hn s (by
      simp [sideWords, Elem.words] at hs
      simp [hs]))
  have nL : List.flatMap Elem.names [.bare b, .bare ci, .paren [h, hp], .paren [v, wp]] = [b, ci, h, hp, v, wp] := by
    simp [names_bare, names_paren, hn']
  have nR : List.flatMap Elem.names [.bare b, .paren [h, v], .bare co] = [b, h, v, co] := by
    simp [names_bare, names_paren, hn']
  have nW : List.flatMap Elem.names [.bare ci, .bare hp, .bare wp, .bare co] = [ci, hp, wp, co] := by
    simp [names_bare, names_paren, hn']
  have nB : List.flatMap Elem.names [.bare co] = [co] := by
    simp [names_bare, names_paren, hn']
  have wW : sideWords [.bare ci, .bare hp, .bare wp, .bare co] = [ci, hp, wp, co] := rfl
  have d1 := plain_nodup hq.choose_spec.choose_spec.2.1 hL
  have d2 := plain_nodup hq.choose_spec.choose_spec.2.2 hR
  have d3 := plain_nodup hw (fun s hs => .inl (hW s hs))
  rw [nL] at d1
  rw [nR] at d2
  rw [nW] at d3
  have d1' := List.nodup_reverse.2 d1
  have d2' := List.nodup_reverse.2 d2
  have d3' := List.nodup_reverse.2 d3
  have hnd : [b, h, v, co, ci, hp, wp].Nodup := by
    simp at d1 d2 d3 d1' d2' d3'
    simp [d1, d2, d3, d1', d2', d3']
  have hnd1 := hnd
  have hnd2 := List.nodup_reverse.2 hnd
  simp at hnd1 hnd2
  obtain ⟨val, hv⟩ := values_of_names hnd (vs := [B, H, W, O, I, P, Q]) rfl
  simp only [List.map_cons, List.map_nil, List.cons.injEq, and_true] at hv
  obtain ⟨m, g1, g2, g3, g4⟩ := plain_mix (α := α) (so := so) (bias := some bias) (GB := [.bare co]) (ks := [co, ci, hp, wp]) (val := val)
    hL hR hW hB hq hw (fun t ht => by cases ht; exact hb) (by simp [hnd1, hnd2]) (by simp only [nR, nL, wW]; simp) (by simp)
    (by simp [names_bare, names_paren, hn', hnd1, hnd2]) (by rw [wW]; simp) (by rw [nL, wW]; simp) (by simp only [nL, nR, wW]; simp)
    (by rw [nR, nB]; simp)
    (by rw [wW, nR]; simp [hI, hP, hQ, hv, hnd1, hnd2])
    (by
      simp only [nL, nR, wW]
      exact (List.Sublist.length_le (List.dedup_sublist _)).trans (by simp))
    (by simp [names_bare, names_paren, hn', hnd1, hnd2, hI, hP, hQ, hv])
  simp only [sizesFor, List.map_cons, List.map_nil, hv] at g1
  rw [wW] at g2
  simp only [List.map_cons, List.map_nil, hv] at g2
  rw [nR, nB] at g3
  simp only [List.map_cons, List.map_nil, Option.map_some, List.mem_cons, List.not_mem_nil, or_false, hnd1, hnd2, or_self, true_or, or_true, if_false, if_true, hv] at g3
  obtain ⟨y, f1, f2, f3⟩ := g4 call f x w (some c) hcall hf (by simp [hx, Elem.size, names_bare, names_paren, hn', hv, mul_assoc]) (hws.trans g2.symm)
    (by rw [g3]; simp [hc])
  refine ⟨m, y, g1, g2.trans hws.symm, g3.trans (by rw [hc]), f1, by rw [f2]; simp [Elem.size, names_bare, names_paren, hn', hv, mul_assoc], ?_⟩
  intro n i j k lt_n lt_i lt_j lt_k
  obtain ⟨cc, hcc⟩ := values_of_names hnd (vs := [n, i, j, k, 0, 0, 0]) rfl
  simp only [List.map_cons, List.map_nil, List.cons.injEq, and_true] at hcc
  have := f3 [ci, hp, wp] (by simp [hnd1, hnd2]) (by
    intro v
    simp only [nL, nR, wW]
    simp only [List.mem_cons, List.not_mem_nil, or_false]
    exact ⟨fun h => by (rcases h with rfl | rfl | rfl) <;> simp [hnd1, hnd2], fun h => by
      obtain ⟨h, h'⟩ := h
      simp only [not_or] at h'
      simpa [h'] using h⟩) cc
    (by rw [nR]; simp [hcc, hv]; omega)
  rw [nR, nB, wW] at this
  simp only [List.map_cons, List.map_nil, Elem.pos, names_bare, names_paren, hn', List.mem_cons, List.not_mem_nil, or_false,
    forall_eq_or_imp, forall_eq, and_self, List.foldl_cons, List.foldl_nil, hcc, hv, Nat.zero_mul, Nat.zero_add, coords,
    List.map_flatMap, Option.elim, hnd1, hnd2, or_self, true_or, or_true, if_false, if_true] at this
  rw [this]
  simp only [← List.map_eq_flatMap]

end

/-! ### Examples -/

section
attribute [local instance] asciiUnicode

theorem linear_pattern : IsPattern "t b cin -> t b cout".toList [word "t", word "b", word "cin"] [word "t", word "b", word "cout"] :=
  ⟨"t b cin ".toList, " t b cout".toList, rfl, isSide_of (by decide) (by decide) (by decide) (by decide), isSide_of (by decide) (by decide) (by decide) (by decide)⟩
theorem height_pattern : IsPattern "h w c-> hout w c".toList [word "h", word "w", word "c"] [word "hout", word "w", word "c"] :=
  ⟨"h w c".toList, " hout w c".toList, rfl, isSide_of (by decide) (by decide) (by decide) (by decide), isSide_of (by decide) (by decide) (by decide) (by decide)⟩
theorem heads_pattern : IsPattern "t b (head cin) -> t b (head cout)".toList
    [word "t", word "b", .paren ["head".toList, "cin".toList]] [word "t", word "b", .paren ["head".toList, "cout".toList]] :=
  ⟨"t b (head cin) ".toList, " t b (head cout)".toList, rfl, isSide_of (by decide) (by decide) (by decide) (by decide), isSide_of (by decide) (by decide) (by decide) (by decide)⟩
theorem patches_pattern : IsPattern "b c_in (h hp) (w wp) -> b (h w) c".toList
    [word "b", word "c_in", .paren ["h".toList, "hp".toList], .paren ["w".toList, "wp".toList]]
    [word "b", .paren ["h".toList, "w".toList], word "c"] :=
  ⟨"b c_in (h hp) (w wp) ".toList, " b (h w) c".toList, rfl, isSide_of (by decide) (by decide) (by decide) (by decide), isSide_of (by decide) (by decide) (by decide) (by decide)⟩
theorem patches_names : ∀ s ∈ ["b".toList, "h".toList, "w".toList, "c".toList, "c_in".toList, "hp".toList, "wp".toList], IsName false s := by
  intro s hs
  simp only [List.mem_cons, List.not_mem_nil, or_false] at hs
  rcases hs with rfl | rfl | rfl | rfl | rfl | rfl | rfl <;> decide

end

-- the documented patterns are patterns of this kind, whatever the Unicode tables are
example (U : PyUnicode) : @IsPattern U "t b cin -> t b cout".toList [word "t", word "b", word "cin"] [word "t", word "b", word "cout"] :=
  C63_ascii linear_pattern
example (U : PyUnicode) : @IsPattern U "h w c-> hout w c".toList [word "h", word "w", word "c"] [word "hout", word "w", word "c"] :=
  C63_ascii height_pattern
example (U : PyUnicode) : @IsPattern U "t b (head cin) -> t b (head cout)".toList
    [word "t", word "b", .paren ["head".toList, "cin".toList]] [word "t", word "b", .paren ["head".toList, "cout".toList]] :=
  C63_ascii heads_pattern
example (U : PyUnicode) : @IsPattern U "b c_in (h hp) (w wp) -> b (h w) c".toList
    [word "b", word "c_in", .paren ["h".toList, "hp".toList], .paren ["w".toList, "wp".toList]]
    [word "b", .paren ["h".toList, "w".toList], word "c"] :=
  C63_ascii patches_pattern
example (U : PyUnicode) : ∀ s ∈ ["b".toList, "h".toList, "w".toList, "c".toList, "c_in".toList, "hp".toList, "wp".toList], @IsName U false s :=
  fun s hs => isName_ascii (patches_names s hs)

section
attribute [local instance] asciiUnicode

/-- the layers of the examples -/
def docMix (pattern weight : String) (bias : Option String) (kw : List (Str × Size)) : Py (EinMix Int) :=
  makeEinMix (fun _ => idOrder) pattern.toList weight.toList (bias.map String.toList) kw

example : callMix (docMix "t b cin -> t b cout" "cin cout" (some "cout") [kwInt "cin" 3, kwInt "cout" 2])
    ⟨[3, 2], [1, 2, 3, 4, 5, 6], rfl⟩ (some ⟨[1, 1, 2], [100, 200], rfl⟩) ⟨[1, 2, 3], [0, 1, 2, 3, 4, 5], rfl⟩ =
    .ok ⟨[1, 2, 2], [113, 216, 140, 252], rfl⟩ := by rfl
example : callMix (docMix "h w c-> hout w c" "h hout" (some "hout") [kwInt "h" 2, kwInt "hout" 1])
    ⟨[2, 1], [1, 10], rfl⟩ (some ⟨[1, 1, 1], [100], rfl⟩) ⟨[2, 2, 1], [1, 2, 3, 4], rfl⟩ = .ok ⟨[1, 2, 1], [131, 142], rfl⟩ := by rfl
example : callMix (docMix "t b c -> t b c" "c" none [kwInt "c" 2]) ⟨[2], [1, 10], rfl⟩ none ⟨[1, 2, 2], [1, 2, 3, 4], rfl⟩ =
    .ok ⟨[1, 2, 2], [1, 20, 3, 40], rfl⟩ := by rfl
example : callMix (docMix "t b (head cin) -> t b (head cout)" "head cin cout" none [kwInt "head" 2, kwInt "cin" 2, kwInt "cout" 1])
    ⟨[2, 2, 1], [1, 10, 100, 1000], rfl⟩ none ⟨[1, 1, 4], [1, 2, 3, 4], rfl⟩ = .ok ⟨[1, 1, 2], [21, 4300], rfl⟩ := by rfl
example : callMix (docMix "b c_in (h hp) (w wp) -> b (h w) c" "c_in hp wp c" (some "c") [kwInt "c_in" 1, kwInt "hp" 1, kwInt "wp" 2, kwInt "c" 1])
    ⟨[1, 1, 2, 1], [1, 10], rfl⟩ (some ⟨[1, 1, 1, 1], [500], rfl⟩) ⟨[1, 1, 2, 4], [1, 2, 3, 4, 5, 6, 7, 8], rfl⟩ =
    .ok ⟨[1, 4, 1], [521, 543, 565, 587], rfl⟩ := by rfl

/-- A layer as written in the tutorial (`docs/3-einmix-layer.ipynb`, ResMLP-like block): the axis is called `hid`, the size is
given for `hidden`.  It is refused. -/
theorem C69_tutorial_refused :
    docMix "b hw c -> b hid c" "hw hid" (some "hid") [kwInt "hw" 2, kwInt "hidden" 3] = .error .einops := by rfl

end

end Einops
