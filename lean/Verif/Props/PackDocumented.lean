import Verif.PackUses
import Verif.Proofs.PackLaws
import Verif.Props.Documented
import Verif.Props.Packing

/-!
# C70: the documented uses of `pack` and `unpack`, for all sizes

The example in the docstrings (einops/packing.py:46-66, 115-137) and the cells of docs/4-pack-and-unpack.ipynb, for every
size (dimensions around the star must not be 0 in `pack`), with the element at every place.
-/

namespace Einops

universe u

section
variable {α β : Type u} [PyUnicode] {ops : PackOps α} {ops' : PackOps β} {p p' : Str}

theorem at?_none_of {x : Tensor α} {i : List Nat} (h : ¬ inBounds i x.shape = true) : x.at? i = none := by
  cases hx : x.at? i with
  | none => rfl
  | some a => exact absurd (x.at?_some_inBounds hx) h

/-- `pack([Z([I, J, K]), Z([I, J, N, K]), Z([I, J, M, L, K])], 'i j * k')` -/
theorem C70_docstring (ho : PackModelled ops) (hp : IsPackPattern p 2 1) {x y z : Tensor α} {I J K N M L : Nat}
    (hI : I ≠ 0) (hJ : J ≠ 0) (hK : K ≠ 0) (hx : x.shape = [I, J, K]) (hy : y.shape = [I, J, N, K])
    (hz : z.shape = [I, J, M, L, K]) :
    ∃ t, pack ops [x, y, z] p = .ok (t, [[], [N], [M, L]]) ∧ t.shape = [I, J, 1 + N + M * L, K] ∧
      unpack ops t [[], [(N : Int)], [(M : Int), (L : Int)]] p = .ok [x, y, z] ∧
      ∀ i j k, i < I → j < J → k < K → t.at? [i, j, 0, k] = x.at? [i, j, k] ∧
        (∀ n, n < N → t.at? [i, j, 1 + n, k] = y.at? [i, j, n, k]) ∧
        (∀ m l, m < M → l < L → t.at? [i, j, 1 + N + (m * L + l), k] = z.at? [i, j, m, l, k]) := by
  obtain ⟨t, h1, h2⟩ := pack_exists (pre := [I, J]) (post := [K]) (xs := [x, y, z]) (rs := [[], [N], [M, L]]) ho hp
    (by simp; omega) (by simp) (by simp [hx, hy, hz])
  have h3 := (C24_unpack_pack ho h1).1
  obtain ⟨hs, hat⟩ := packs_iff_at.1 h2
  obtain ⟨⟨-, a1⟩, ⟨-, a2⟩, ⟨-, a3⟩, -⟩ := hat
  refine ⟨t, h1, by simpa [Nat.add_assoc] using hs, h3, fun i j k hi hj hk => ⟨?_, fun n hn => ?_, fun m l hm hl => ?_⟩⟩
  · simpa [ravel] using a1 [i, j] [] [k] (by simp [hi, hj]) rfl (by simp [hk])
  · simpa [ravel] using a2 [i, j] [n] [k] (by simp [hi, hj]) (by simp [hn]) (by simp [hk])
  · simpa [ravel] using a3 [i, j] [m, l] [k] (by simp [hi, hj]) (by simp [hm, hl]) (by simp [hk])

/-- "Stacking data layers": `pack([image_rgb, image_depth], 'h w *')` appends the depth as one more layer. -/
theorem C70_rgbd (ho : PackModelled ops) (hp : IsPackPattern p 2 0) {x y : Tensor α} {H W C : Nat} (hH : H ≠ 0) (hW : W ≠ 0)
    (hx : x.shape = [H, W, C]) (hy : y.shape = [H, W]) :
    ∃ t, pack ops [x, y] p = .ok (t, [[C], []]) ∧ t.shape = [H, W, C + 1] ∧
      unpack ops t [[(C : Int)], []] p = .ok [x, y] ∧
      ∀ i j, i < H → j < W → t.at? [i, j, C] = y.at? [i, j] ∧ ∀ k, k < C → t.at? [i, j, k] = x.at? [i, j, k] := by
  obtain ⟨t, h1, h2⟩ := pack_exists (pre := [H, W]) (post := []) (xs := [x, y]) (rs := [[C], []]) ho hp
    (by simp; omega) (by simp) (by simp [hx, hy])
  have h3 := (C24_unpack_pack ho h1).1
  obtain ⟨hs, hat⟩ := packs_iff_at.1 h2
  obtain ⟨⟨-, a1⟩, ⟨-, a2⟩, -⟩ := hat
  refine ⟨t, h1, by simpa using hs, h3, fun i j hi hj => ⟨?_, fun k hk => ?_⟩⟩
  · simpa [ravel] using a2 [i, j] [] [] (by simp [hi, hj]) rfl rfl
  · simpa [ravel] using a1 [i, j] [k] [] (by simp [hi, hj]) (by simp [hk]) rfl

/-- `unpack(image, [[m], [n]], 'h w *')` splits the last axis. -/
theorem C70_split (ho : PackModelled ops) (hp : IsPackPattern p 2 0) {x : Tensor α} {H W M N : Nat}
    (hx : x.shape = [H, W, M + N]) :
    ∃ y z, unpack ops x [[(M : Int)], [(N : Int)]] p = .ok [y, z] ∧ y.shape = [H, W, M] ∧ z.shape = [H, W, N] ∧
      ∀ i j, i < H → j < W → (∀ k, k < M → y.at? [i, j, k] = x.at? [i, j, k]) ∧
        ∀ k, k < N → z.at? [i, j, k] = x.at? [i, j, M + k] := by
  have hr := resolves_self [[M], [N]]
  obtain ⟨ys, h1, h2⟩ := unpack_exists (pre := [H, W]) (post := []) (N := M + N) ho hp hx (by simpa using hr)
    (by simp)
  obtain ⟨hs, hat⟩ := packs_iff_at.1 h2
  match ys, hat with
  | [y, z], hat =>
    obtain ⟨⟨s1, a1⟩, ⟨s2, a2⟩, -⟩ := hat
    refine ⟨y, z, h1, by simpa using s1, by simpa using s2, fun i j hi hj => ⟨fun k hk => ?_, fun k hk => ?_⟩⟩
    · simpa [ravel] using (a1 [i, j] [k] [] (by simp [hi, hj]) (by simp [hk]) rfl).symm
    · simpa [ravel] using (a2 [i, j] [k] [] (by simp [hi, hj]) (by simp [hk]) rfl).symm

/-- `unpack(image, [[]] * n, 'h w *')` is "unstack over last axis". -/
theorem C70_unstack (ho : PackModelled ops) (hp : IsPackPattern p 2 0) {x : Tensor α} {H W N : Nat}
    (hx : x.shape = [H, W, N]) :
    ∃ ys, unpack ops x (List.replicate N []) p = .ok ys ∧ ys.length = N ∧
      ∀ k y, ys[k]? = some y → y.shape = [H, W] ∧ ∀ i j, i < H → j < W → y.at? [i, j] = x.at? [i, j, k] := by
  have hr := resolves_self (List.replicate N [])
  have hone : ∀ n, (List.map List.prod (List.replicate n ([] : List Nat))).sum = n := by intro n; simp
  rw [hone] at hr
  obtain ⟨ys, h1, h2⟩ := unpack_exists (pre := [H, W]) (post := []) (N := N) ho hp hx hr (by simp)
  refine ⟨ys, by simpa using h1, by have := h2.count; simpa using this.symm, fun k y hy => ?_⟩
  have hk : k < N := by
    have := (List.getElem?_eq_some_iff.1 hy).1
    have := h2.count
    simp at this
    omega
  have hr : (List.replicate N ([] : List Nat))[k]? = some [] := by simp [hk]
  refine ⟨by simpa using h2.part k y [] hy hr, fun i j hi hj => ?_⟩
  have := h2.entry k y [] hy hr [i, j] [] [] (by simp [hi, hj]) rfl rfl
  rw [← List.map_take, List.take_replicate, min_eq_left hk.le, hone] at this
  simpa [ravel] using this.symm

/-- `unpack(model_output, [[]] * 5 + [[mask_h, mask_w], [n_classes]], 'b h w *')`: no need to memorize offsets. -/
theorem C70_detection (ho : PackModelled ops) (hp : IsPackPattern p 3 0) {x : Tensor α} {B H W P Q C : Nat}
    (hx : x.shape = [B, H, W, 5 + P * Q + C]) :
    ∃ c u v w h m s, unpack ops x (List.replicate 5 [] ++ [[(P : Int), (Q : Int)], [(C : Int)]]) p = .ok [c, u, v, w, h, m, s] ∧
      c.shape = [B, H, W] ∧ u.shape = [B, H, W] ∧ v.shape = [B, H, W] ∧ w.shape = [B, H, W] ∧ h.shape = [B, H, W] ∧
      m.shape = [B, H, W, P, Q] ∧ s.shape = [B, H, W, C] ∧
      ∀ b i j, b < B → i < H → j < W → c.at? [b, i, j] = x.at? [b, i, j, 0] ∧ u.at? [b, i, j] = x.at? [b, i, j, 1] ∧
        v.at? [b, i, j] = x.at? [b, i, j, 2] ∧ w.at? [b, i, j] = x.at? [b, i, j, 3] ∧ h.at? [b, i, j] = x.at? [b, i, j, 4] ∧
        (∀ k l, k < P → l < Q → m.at? [b, i, j, k, l] = x.at? [b, i, j, 5 + (k * Q + l)]) ∧
        (∀ k, k < C → s.at? [b, i, j, k] = x.at? [b, i, j, 5 + P * Q + k]) := by
  have hr := resolves_self ([[], [], [], [], [], [P, Q], [C]])
  have hsum : (List.map List.prod [[], [], [], [], [], [P, Q], [C]]).sum = 5 + P * Q + C := by simp; omega
  rw [hsum] at hr
  obtain ⟨ys, h1, h2⟩ := unpack_exists (pre := [B, H, W]) (post := []) ho hp hx hr (by simp)
  obtain ⟨hs, hat⟩ := packs_iff_at.1 h2
  match ys, hat with
  | [c, u, v, w, h, m, s], hat =>
    obtain ⟨⟨s1, a1⟩, ⟨s2, a2⟩, ⟨s3, a3⟩, ⟨s4, a4⟩, ⟨s5, a5⟩, ⟨s6, a6⟩, ⟨s7, a7⟩, -⟩ := hat
    refine ⟨c, u, v, w, h, m, s, h1, by simpa using s1, by simpa using s2, by simpa using s3, by simpa using s4,
      by simpa using s5, by simpa using s6, by simpa using s7, fun b i j hb hi hj => ?_⟩
    have hb' : inBounds [b, i, j] [B, H, W] = true := by simp [hb, hi, hj]
    refine ⟨?_, ?_, ?_, ?_, ?_, fun k l hk hl => ?_, fun k hk => ?_⟩
    · simpa [ravel] using (a1 _ [] [] hb' rfl rfl).symm
    · simpa [ravel] using (a2 _ [] [] hb' rfl rfl).symm
    · simpa [ravel] using (a3 _ [] [] hb' rfl rfl).symm
    · simpa [ravel] using (a4 _ [] [] hb' rfl rfl).symm
    · simpa [ravel] using (a5 _ [] [] hb' rfl rfl).symm
    · simpa [ravel] using (a6 _ [k, l] [] hb' (by simp [hk, hl]) rfl).symm
    · simpa [ravel] using (a7 _ [k] [] hb' (by simp [hk]) rfl).symm

/-- "reinforcement learning": `unpack(predictions, [[A], [], [A], [A]], 'b step *')` -/
theorem C70_actions (ho : PackModelled ops) (hp : IsPackPattern p 2 0) {x : Tensor α} {B T A : Nat}
    (hx : x.shape = [B, T, A + 1 + A + A]) :
    ∃ y r q e, unpack ops x [[(A : Int)], [], [(A : Int)], [(A : Int)]] p = .ok [y, r, q, e] ∧
      y.shape = [B, T, A] ∧ r.shape = [B, T] ∧ q.shape = [B, T, A] ∧ e.shape = [B, T, A] ∧
      ∀ b t, b < B → t < T → r.at? [b, t] = x.at? [b, t, A] ∧ ∀ k, k < A → y.at? [b, t, k] = x.at? [b, t, k] ∧
        q.at? [b, t, k] = x.at? [b, t, A + 1 + k] ∧ e.at? [b, t, k] = x.at? [b, t, A + 1 + A + k] := by
  have hr := resolves_self ([[A], [], [A], [A]])
  have hsum : (List.map List.prod [[A], [], [A], [A]]).sum = A + 1 + A + A := by simp; omega
  rw [hsum] at hr
  obtain ⟨ys, h1, h2⟩ := unpack_exists (pre := [B, T]) (post := []) ho hp hx hr (by simp)
  obtain ⟨hs, hat⟩ := packs_iff_at.1 h2
  match ys, hat with
  | [y, r, q, e], hat =>
    obtain ⟨⟨s1, a1⟩, ⟨s2, a2⟩, ⟨s3, a3⟩, ⟨s4, a4⟩, -⟩ := hat
    refine ⟨y, r, q, e, h1, by simpa using s1, by simpa using s2, by simpa using s3, by simpa using s4,
      fun b t hb ht => ?_⟩
    have hb' : inBounds [b, t] [B, T] = true := by simp [hb, ht]
    refine ⟨?_, fun k hk => ⟨?_, ?_, ?_⟩⟩
    · simpa [ravel] using (a2 _ [] [] hb' rfl rfl).symm
    · simpa [ravel] using (a1 _ [k] [] hb' (by simp [hk]) rfl).symm
    · simpa [ravel] using (a3 _ [k] [] hb' (by simp [hk]) rfl).symm
    · simpa [ravel] using (a4 _ [k] [] hb' (by simp [hk]) rfl).symm

/-- Packing, a model that handles each item of a batch on its own, unpacking: tensors of items with any leading
dimensions, the k-th one `leads[k]`, become tensors with the same leading dimensions, and every item was handled on its
own. -/
theorem C70_batches (ho : PackModelled ops) (ho' : PackModelled ops') {item out : List Nat} (h0 : 0 ∉ item)
    (hp : IsPackPattern p 0 item.length) (hp' : IsPackPattern p' 0 out.length) {model : Tensor α → Py (Tensor β)}
    {g : (List Nat → Option α) → List Nat → Option β} (hm : PerItem model item out g) {xs : List (Tensor α)}
    (hne : xs ≠ []) {leads : List (List Nat)} (hx : List.Forall₂ (fun x lead => x.shape = lead ++ item) xs leads) :
    ∃ ys, throughModel ops ops' model p p' xs = .ok ys ∧ ys.length = xs.length ∧
      ∀ (k : Nat) (x : Tensor α) (y : Tensor β) (lead : List Nat), xs[k]? = some x → ys[k]? = some y → leads[k]? = some lead → y.shape = lead ++ out ∧
        ∀ l o, inBounds l lead = true → inBounds o out = true → y.at? (l ++ o) = g (fun i => x.at? (l ++ i)) o := by
  obtain ⟨t, h1, h2⟩ := pack_exists (pre := []) (post := item) (xs := xs) (rs := leads) ho hp ⟨by simp, h0⟩ hne
    (by simpa using hx)
  obtain ⟨z, h3, h4, h5⟩ := hm _ t h2.whole
  obtain ⟨ys, h6, h7⟩ := unpack_exists (pre := []) (post := out) ho' hp' h4 (resolves_self leads) (by
    intro hmem
    rw [List.mem_flatten] at hmem
    obtain ⟨r, hr, hd⟩ := hmem
    obtain ⟨r, -, rfl⟩ := List.mem_map.1 hr
    exact absurd hd (neg_one_not_mem_ofNat r))
  refine ⟨ys, ?_, by rw [← h7.count, h2.count], ?_⟩
  · simp only [throughModel, h1, h3, h6]
  · intro k x y lead hxk hyk hlk
    refine ⟨by simpa using h7.part k y lead hyk hlk, fun l o hl hob => ?_⟩
    have hoff : ((leads.map List.prod).take k).sum + ravel lead l < (leads.map List.prod).sum := by
      have h3 := offset_succ (leads.map List.prod) k lead.prod (by simp [hlk])
      have h4 := offset_le (leads.map List.prod) (k + 1)
      have := ravel_lt hl
      omega
    have e1 := h7.entry k y lead hyk hlk [] l o rfl hl hob
    simp only [List.nil_append] at e1
    rw [← e1, h5 _ _ hoff hob]
    congr 1
    funext i
    by_cases hi : inBounds i item = true
    · have := h2.entry k x lead hxk hlk [] l i rfl hl hi
      simpa using this
    · have hxs := h2.part k x lead hxk hlk
      simp only [List.nil_append] at hxs
      rw [at?_none_of, at?_none_of]
      · rw [hxs, inBounds_append (inBounds_length hl)]
        exact fun h => hi h.2
      · rw [h2.whole]
        simp only [List.nil_append, inBounds_cons]
        exact fun h => hi h.2

/-- "Auto-batching": `universal_predict` works with a single item, a batch of items, a batch of videos (any leading
dimensions). -/
theorem C70_universal (ho : PackModelled ops) (ho' : PackModelled ops') {item out : List Nat} (h0 : 0 ∉ item)
    (hp : IsPackPattern p 0 item.length) (hp' : IsPackPattern p' 0 out.length) {model : Tensor α → Py (Tensor β)}
    {g : (List Nat → Option α) → List Nat → Option β} (hm : PerItem model item out g) {x : Tensor α} {lead : List Nat}
    (hx : x.shape = lead ++ item) :
    ∃ y, universalPredict ops ops' model p p' x = .ok y ∧ y.shape = lead ++ out ∧
      ∀ l o, inBounds l lead = true → inBounds o out = true → y.at? (l ++ o) = g (fun i => x.at? (l ++ i)) o := by
  obtain ⟨ys, h1, h2, h3⟩ := C70_batches ho ho' h0 hp hp' hm (xs := [x]) (by simp) (leads := [lead]) (by simpa using hx)
  match ys, h2 with
  | [y], _ =>
    refine ⟨y, by rw [universalPredict, h1], ?_⟩
    exact h3 0 x y lead rfl rfl rfl

/-- "Packing data coming from different sources together": batches that go through the model together have the results
they have alone. -/
theorem C70_sources (ho : PackModelled ops) (ho' : PackModelled ops') {item out : List Nat} (h0 : 0 ∉ item)
    (hp : IsPackPattern p 0 item.length) (hp' : IsPackPattern p' 0 out.length) {model : Tensor α → Py (Tensor β)}
    {g : (List Nat → Option α) → List Nat → Option β} (hm : PerItem model item out g) {xs : List (Tensor α)}
    (hne : xs ≠ []) (hx : ∀ x ∈ xs, ∃ n, x.shape = n :: item) :
    ∃ ys, throughModel ops ops' model p p' xs = .ok ys ∧ List.Forall₂ (fun x y => model x = .ok y) xs ys := by
  have hl : ∃ leads : List (List Nat), List.Forall₂ (fun x lead => x.shape = lead ++ item ∧ ∃ n, lead = [n]) xs leads := by
    clear hne
    induction xs with
    | nil => exact ⟨[], .nil⟩
    | cons x xs ih =>
      obtain ⟨n, hn⟩ := hx x (by simp)
      obtain ⟨ls, hls⟩ := ih fun x h => hx x (by simp [h])
      exact ⟨[n] :: ls, .cons ⟨by simpa using hn, n, rfl⟩ hls⟩
  obtain ⟨leads, hl⟩ := hl
  obtain ⟨ys, h1, h2, h3⟩ := C70_batches ho ho' h0 hp hp' hm hne (hl.imp fun _ _ h => h.1)
  refine ⟨ys, h1, forall₂_of_get h2.symm fun k x y hxk hyk => ?_⟩
  have hk : k < leads.length := by
    rw [← hl.length_eq]
    exact (List.getElem?_eq_some_iff.1 hxk).1
  obtain ⟨h4, h5⟩ := h3 k x y leads[k] hxk hyk (by simp [hk])
  obtain ⟨h6, n, hn⟩ := forall₂_get hl k hxk (show leads[k]? = some leads[k] by simp [hk])
  rw [hn] at h4 h5 h6
  obtain ⟨z, h7, h8, h9⟩ := hm n x h6
  rw [h7]
  congr 1
  refine Tensor.ext_at? (h8.trans h4.symm) fun i hi => ?_
  rw [h8] at hi
  match i, hi with
  | m :: o, hi =>
    rw [inBounds_cons] at hi
    exact (h9 m o hi.1 hi.2).trans (h5 [m] o (by simp [hi.1]) hi.2).symm

/-- "Class token in VIT": the tokens are packed into one sequence, the class token first; whatever the model makes of the
sequence, its output at the first place is the embedding of the class token, and the other places, in rows of the image,
are the embeddings of the patches. -/
theorem C70_vit (ho : PackModelled ops) (ho' : PackModelled ops') (hp : IsPackPattern p 1 1) (hp' : IsPackPattern p' 1 1)
    {c x : Tensor α} {B H W C D : Nat} (hB : B ≠ 0) (hC : C ≠ 0) (hc : c.shape = [B, C]) (hx : x.shape = [B, H, W, C])
    {model : Tensor α → Py (Tensor β)} :
    ∃ t, t.shape = [B, 1 + H * W, C] ∧
      (∀ b k, b < B → k < C → t.at? [b, 0, k] = c.at? [b, k] ∧
        ∀ i j, i < H → j < W → t.at? [b, 1 + (i * W + j), k] = x.at? [b, i, j, k]) ∧
      (∀ e, model t = .error e → throughModel ops ops' model p p' [c, x] = .error e) ∧
      ∀ z, model t = .ok z → z.shape = [B, 1 + H * W, D] →
        ∃ c' x', throughModel ops ops' model p p' [c, x] = .ok [c', x'] ∧ c'.shape = [B, D] ∧ x'.shape = [B, H, W, D] ∧
          ∀ b k, b < B → k < D → c'.at? [b, k] = z.at? [b, 0, k] ∧
            ∀ i j, i < H → j < W → x'.at? [b, i, j, k] = z.at? [b, 1 + (i * W + j), k] := by
  obtain ⟨t, h1, h2⟩ := pack_exists (pre := [B]) (post := [C]) (xs := [c, x]) (rs := [[], [H, W]]) ho hp
    (by simp; omega) (by simp) (by simp [hc, hx])
  obtain ⟨hs, hat⟩ := packs_iff_at.1 h2
  obtain ⟨⟨-, a1⟩, ⟨-, a2⟩, -⟩ := hat
  refine ⟨t, by simpa using hs, fun b k hb hk => ⟨?_, fun i j hi hj => ?_⟩, fun e he => ?_, fun z hz hzs => ?_⟩
  · simpa [ravel] using a1 [b] [] [k] (by simp [hb]) rfl (by simp [hk])
  · simpa [ravel] using a2 [b] [i, j] [k] (by simp [hb]) (by simp [hi, hj]) (by simp [hk])
  · simp only [throughModel, h1, he]
  · have hr := resolves_self [[], [H, W]]
    have hsum : (List.map List.prod [[], [H, W]]).sum = 1 + H * W := by simp
    rw [hsum] at hr
    obtain ⟨ys, h3, h4⟩ := unpack_exists (pre := [B]) (post := [D]) ho' hp' hzs hr (by simp)
    obtain ⟨-, hat⟩ := packs_iff_at.1 h4
    match ys, hat with
    | [c', x'], hat =>
      obtain ⟨⟨s1, b1⟩, ⟨s2, b2⟩, -⟩ := hat
      refine ⟨c', x', by simp only [throughModel, h1, hz]; exact h3, by simpa using s1, by simpa using s2,
        fun b k hb hk => ⟨?_, fun i j hi hj => ?_⟩⟩
      · simpa [ravel] using (b1 [b] [] [k] (by simp [hb]) rfl (by simp [hk])).symm
      · simpa [ravel] using (b2 [b] [i, j] [k] (by simp [hb]) (by simp [hi, hj]) (by simp [hk])).symm

section
variable {E : ElemOps α} {b : Backend α} {q : Str}

theorem classifier_iff {o : Str} (hb : Computes E o b) (ho : o ∈ builtins) {n c h w : Str}
    (hn : ∀ s ∈ [n, h, w, c], IsName false s)
    (hq : IsPattern q [.bare n, .bare h, .bare w, .bare c]
      [.bare n, .bare c])
    {N C H W : Nat} {x : Tensor α} (hf : o = "mean".toList → b.isFloat x = true)
    (hx : x.shape = [N, H, W, C]) (so : SetOrder) (y : Tensor α) :
    reduce b so (.one x) q (.name o) [(h, ⟨(H : Nat), true⟩), (w, ⟨(W : Nat), true⟩), (c, ⟨(C : Nat), true⟩)] = .ok y ↔ y.shape = [N, C] ∧
      ∀ i j, i < N → j < C →
        ∃ vs v, ((List.range H).flatMap fun p => (List.range W).map fun r => x.at? [i, p, r, j]) = vs.map some ∧
          E.op o vs = .ok v ∧ y.at? [i, j] = some v := by
  have hn' := hn
  simp only [List.mem_cons, List.not_mem_nil, or_false, forall_eq_or_imp, forall_eq] at hn'
  have nL : List.flatMap Elem.names [.bare n, .bare h, .bare w, .bare c] = [n, h, w, c] := by
    simp [names_bare, names_paren, hn']
  have nR : List.flatMap Elem.names [.bare n, .bare c] = [n, c] := by
    simp [names_bare, names_paren, hn']
  have hL : ∀ s ∈ sideWords [.bare n, .bare h, .bare w, .bare c], Plain s :=
    fun s hs => .inl (hn s (by simpa [sideWords, Elem.words] using hs))
  have hR : ∀ s ∈ sideWords [.bare n, .bare c], Plain s :=
    fun s hs => .inl (hn s (by simp [sideWords, Elem.words] at hs ⊢; tauto))
  have hnd := plain_nodup hq.choose_spec.choose_spec.2.1 hL
  rw [nL] at hnd
  obtain ⟨val, hv⟩ := values_of_names hnd (vs := [N, H, W, C]) rfl
  simp only [List.map_cons, List.map_nil, List.cons.injEq, and_true] at hv
  have hnd1 := hnd
  have hnd2 := List.nodup_reverse.2 hnd
  simp at hnd1 hnd2
  have hfil : [n, h, w, c].filter (fun s => decide (s ∉ [n, c])) = [h, w] := by
    simp [hnd1, hnd2]
  have key := plain_reduces hb ho (q := q) (kw := [(h, ⟨(H : Nat), true⟩), (w, ⟨(W : Nat), true⟩), (c, ⟨(C : Nat), true⟩)]) (x := x) (val := val)
    ⟨by simp [hnd1, hnd2], by simp⟩ hf hL hR hq (fun s => by rw [nL, nR]; simp; tauto)
    (by rw [nL, nR]; exact ⟨h, by simp, by simp [hnd1, hnd2]⟩)
    (by simp only [nL, nR]; simp) (by simp [hx, Elem.size, names_bare, names_paren, hn', hv]) (by simp [hv])
    (by simp [names_bare, names_paren, hn', hnd1, hnd2])
    (by simp [names_bare, names_paren, hn', hnd1, hnd2, hv] <;> omega) so y
  rw [key, nL, nR, hfil]
  refine and_congr (by simp [Elem.size, names_bare, names_paren, hn', hv]) ?_
  have hvals : ∀ cc : Str → Nat, (coords val [h, w] cc).map
      (fun e => x.at? ([.bare n, .bare h, .bare w, .bare c].map (Elem.pos val e))) =
        ((fun i j => (List.range H).flatMap fun p => (List.range W).map fun r => x.at? [i, p, r, j]) (cc n) (cc c)) := by
    intro cc
    simp [coords, List.map_flatMap, Elem.pos, names_bare, names_paren, hn', hv, hnd1, hnd2]
    simp only [List.map_eq_flatMap]
  have hidx : ∀ cc : Str → Nat, [.bare n, .bare c].map (Elem.pos val cc) =
      ((fun i j => [i, j]) (cc n) (cc c)) := by
    intro cc
    simp [Elem.pos, names_bare, names_paren, hn', hv]
  simp only [hvals, hidx]
  constructor
  · intro hyp i j lt_i lt_j
    obtain ⟨cc, hc⟩ := values_of_names hnd (vs := [i, 0, 0, j]) rfl
    simp only [List.map_cons, List.map_nil, List.cons.injEq, and_true] at hc
    have := hyp cc (by simp [hc, hv]; omega)
    simpa only [hc] using this
  · intro hyp cc hcc
    simp [hv] at hcc
    exact hyp (cc n) (cc c) (by omega) (by omega)

omit [PyUnicode] in
theorem all_some {l : List (Option α)} (h : ∀ e ∈ l, ∃ a, e = some a) : ∃ vs : List α, l = vs.map some := by
  induction l with
  | nil => exact ⟨[], rfl⟩
  | cons e l ih =>
    obtain ⟨a, rfl⟩ := h e (by simp)
    obtain ⟨vs, rfl⟩ := ih fun e he => h e (by simp [he])
    exact ⟨a :: vs, rfl⟩

/-- what `image_classifier` of the tutorial computes from the entries of one image -/
def pooled (E : ElemOps α) (o : Str) (H W : Nat) (f : List Nat → Option α) (k : List Nat) : Option α :=
  ((((List.range H).flatMap fun p => (List.range W).map fun r => f ([p, r] ++ k)).mapM id).bind fun vs => (E.op o vs).toOption)

/-- `image_classifier` of the tutorial: `reduce(images, 'b h w c -> b c', 'mean', h=H, w=W, c=C)` handles each image on its
own. -/
theorem C70_classifier {o : Str} (hb : Computes E o b) (ho : o ∈ builtins) {n c h w : Str} (hn : ∀ s ∈ [n, h, w, c], IsName false s)
    (hq : IsPattern q [.bare n, .bare h, .bare w, .bare c] [.bare n, .bare c]) {C H W : Nat} (hH : H ≠ 0) (hW : W ≠ 0)
    (hf : o = "mean".toList → ∀ x, b.isFloat x = true) (hdef : ∀ vs, vs ≠ [] → ∃ v, E.op o vs = .ok v) (so : SetOrder) :
    PerItem (fun x => reduce b so (.one x) q (.name o) [(h, ⟨(H : Nat), true⟩), (w, ⟨(W : Nat), true⟩), (c, ⟨(C : Nat), true⟩)]) [H, W, C] [C] (pooled E o H W) := by
  intro N x hx
  have hvals : ∀ i j, i < N → j < C → ∃ vs v,
      ((List.range H).flatMap fun p => (List.range W).map fun r => x.at? [i, p, r, j]) = vs.map some ∧ E.op o vs = .ok v := by
    intro i j hi hj
    have hall : ∀ e ∈ ((List.range H).flatMap fun p => (List.range W).map fun r => x.at? [i, p, r, j]), ∃ a, e = some a := by
      intro e he
      simp only [List.mem_flatMap, List.mem_map, List.mem_range] at he
      obtain ⟨p, hp, r, hr, rfl⟩ := he
      exact x.at?_isSome (by simp [hx, hi, hj, hp, hr])
    obtain ⟨vs, hvs⟩ := all_some hall
    obtain ⟨v, hv⟩ := hdef vs (by
      rintro rfl
      have := congrArg List.length hvs
      simp [List.length_flatMap, hH, hW] at this)
    exact ⟨vs, v, hvs, hv⟩
  have hmapM : ∀ vs : List α, (vs.map some).mapM id = some vs := by
    intro vs
    induction vs with
    | nil => rfl
    | cons a vs ih => simp [ih]
  have hpool : ∀ i j vs v, ((List.range H).flatMap fun p => (List.range W).map fun r => x.at? [i, p, r, j]) = vs.map some →
      E.op o vs = .ok v → pooled E o H W (fun k => x.at? (i :: k)) [j] = some v := by
    intro i j vs v h1 h2
    simp only [pooled, List.cons_append, List.nil_append]
    rw [h1, hmapM, Option.bind_some, h2]
    rfl
  obtain ⟨y, hy, hys, hye⟩ := Tensor.build_total (shape := [N, C])
    (f := fun i => (pooled E o H W (fun k => x.at? (i.headD 0 :: k)) i.tail).elim (.error .index) .ok) (by
      intro i hi
      obtain ⟨i, j, rfl⟩ := List.length_eq_two.1 (inBounds_length hi)
      simp only [inBounds_cons, inBounds_nil, and_true] at hi
      obtain ⟨vs, v, h1, h2⟩ := hvals i j hi.1 hi.2
      refine ⟨v, ?_⟩
      simp only [List.headD_cons, List.tail_cons]
      rw [hpool i j vs v h1 h2]
      rfl)
  have hval : ∀ i j vs v, i < N → j < C → ((List.range H).flatMap fun p => (List.range W).map fun r => x.at? [i, p, r, j]) = vs.map some →
      E.op o vs = .ok v → y.at? [i, j] = some v := by
    intro i j vs v hi hj h1 h2
    have := hye [i, j] (by simp [hi, hj])
    simp only [List.headD_cons, List.tail_cons] at this
    rw [hpool i j vs v h1 h2] at this
    cases hz : y.at? [i, j] with
    | none => rw [hz] at this; cases this
    | some a => rw [hz] at this; cases this; rfl
  refine ⟨y, ?_, hys, ?_⟩
  · rw [classifier_iff hb ho hn hq (fun h => hf h x) hx so y]
    refine ⟨hys, fun i j hi hj => ?_⟩
    obtain ⟨vs, v, h1, h2⟩ := hvals i j hi hj
    exact ⟨vs, v, h1, h2, hval i j vs v hi hj h1 h2⟩
  · intro i k hi hk
    obtain ⟨j, rfl⟩ := List.length_eq_one_iff.1 (inBounds_length hk)
    simp only [inBounds_cons, inBounds_nil, and_true] at hk
    obtain ⟨vs, v, h1, h2⟩ := hvals i j hi hk
    rw [hval i j vs v hi hk h1 h2, hpool i j vs v h1 h2]

end

/-- the characters of the documented patterns -/
def simpleChar (c : Char) : Bool := c == ' ' || c == '*' || c == '_' || c.isAlpha || c.isDigit

theorem simple_space {c : Char} (h : simpleChar c = true) : PyUnicode.isSpace c = (c == ' ') := by
  simp only [simpleChar, Bool.or_eq_true, beq_iff_eq] at h
  rcases h with (((rfl | rfl) | rfl) | h) | h
  · rw [PyUnicode.space_space]; rfl
  · rw [PyUnicode.special_not_space _ (by decide)]; rfl
  · rw [PyUnicode.special_not_space _ (by decide)]; rfl
  · rw [PyUnicode.alnum_not_space _ (PyUnicode.ascii_letter c h).1]
    symm
    rw [beq_eq_false_iff_ne]
    rintro rfl
    exact absurd h (by decide)
  · rw [PyUnicode.alnum_not_space _ (PyUnicode.ascii_digit c h).1]
    symm
    rw [beq_eq_false_iff_ne]
    rintro rfl
    exact absurd h (by decide)

theorem words_ascii {s : Str} {ws : List Str} (h : @Words asciiUnicode s ws) (hs : ∀ c ∈ s, simpleChar c = true) : Words s ws := by
  have hsame : ∀ c, simpleChar c = true → PyUnicode.isSpace c = asciiUnicode.isSpace c := fun c hc =>
    (simple_space hc).trans (@simple_space asciiUnicode c hc).symm
  induction h with
  | nil => exact .nil
  | space h1 _ ih => exact .space ((hsame _ (hs _ (by simp))).trans h1) (ih fun c hc => hs c (by simp [hc]))
  | last h1 h2 => exact .last h1 fun c hc => (hsame _ (hs c hc)).trans (h2 c hc)
  | word h1 h2 h3 _ ih =>
    exact .word h1 (fun c hc => (hsame _ (hs c (by simp [hc]))).trans (h2 c hc)) ((hsame _ (hs _ (by simp))).trans h3)
      (ih fun c hc => hs c (by simp [hc]))

/-- Whether a pattern of ASCII letters, digits, `_`, `*` and blanks is legal does not depend on Unicode tables. -/
theorem C70_ascii {b a : Nat} (h : @IsPackPattern asciiUnicode p b a) (hs : ∀ c ∈ p, simpleChar c = true) :
    IsPackPattern p b a := by
  obtain ⟨A, B, h1, h2, h3, h4, h5⟩ := h
  refine ⟨A, B, words_ascii h1 hs, h2, h3, h4, fun w hw => ?_⟩
  obtain ⟨⟨c, cs, rfl, g1, g2⟩, g3⟩ := h5 w hw
  refine ⟨⟨c, cs, rfl, g1.imp_left fun h => (PyUnicode.ascii_letter c h).2.1, fun d hd => ?_⟩, g3⟩
  have := g2 d hd
  simp only [PyUnicode.xidContinue, Bool.or_eq_true, beq_iff_eq] at this
  rcases this with h | rfl
  · exact (ascii_alnum h).2
  · exact PyUnicode.underscore_xid.2

end

section
attribute [local instance] asciiUnicode

-- the documented patterns, whatever the Unicode tables
theorem pack_hw : @IsPackPattern asciiUnicode "h w *".toList 2 0 :=
  (analyzePattern_iff.1 (show analyzePattern "h w *".toList = .ok (2, 0, 2) by rfl)).1
theorem pack_ijk : @IsPackPattern asciiUnicode "i j * k".toList 2 1 :=
  (analyzePattern_iff.1 (show analyzePattern "i j * k".toList = .ok (2, 1, 3) by rfl)).1
theorem pack_bc : @IsPackPattern asciiUnicode "b * c".toList 1 1 :=
  (analyzePattern_iff.1 (show analyzePattern "b * c".toList = .ok (1, 1, 2) by rfl)).1
theorem pack_bc_out : @IsPackPattern asciiUnicode "b * c_out".toList 1 1 :=
  (analyzePattern_iff.1 (show analyzePattern "b * c_out".toList = .ok (1, 1, 2) by rfl)).1
theorem pack_hwc : @IsPackPattern asciiUnicode "* h w c".toList 0 3 :=
  (analyzePattern_iff.1 (show analyzePattern "* h w c".toList = .ok (0, 3, 3) by rfl)).1
theorem pack_cls : @IsPackPattern asciiUnicode "* cls".toList 0 1 :=
  (analyzePattern_iff.1 (show analyzePattern "* cls".toList = .ok (0, 1, 1) by rfl)).1
theorem pack_bhw : @IsPackPattern asciiUnicode "b h w *".toList 3 0 :=
  (analyzePattern_iff.1 (show analyzePattern "b h w *".toList = .ok (3, 0, 3) by rfl)).1
example (U : PyUnicode) : @IsPackPattern U "h w *".toList 2 0 := C70_ascii pack_hw (by decide)
example (U : PyUnicode) : @IsPackPattern U "i j * k".toList 2 1 := C70_ascii pack_ijk (by decide)
example (U : PyUnicode) : @IsPackPattern U "b * c".toList 1 1 := C70_ascii pack_bc (by decide)
example (U : PyUnicode) : @IsPackPattern U "b * c_out".toList 1 1 := C70_ascii pack_bc_out (by decide)
example (U : PyUnicode) : @IsPackPattern U "* h w c".toList 0 3 := C70_ascii pack_hwc (by decide)
example (U : PyUnicode) : @IsPackPattern U "* cls".toList 0 1 := C70_ascii pack_cls (by decide)
example (U : PyUnicode) : @IsPackPattern U "b h w *".toList 3 0 := C70_ascii pack_bhw (by decide)

def rgb : Tensor ℤ := ⟨[1, 2, 3], [1, 2, 3, 4, 5, 6], rfl⟩
def depth : Tensor ℤ := ⟨[1, 2], [7, 8], rfl⟩
def rgbd : Tensor ℤ := ⟨[1, 2, 4], [1, 2, 3, 7, 4, 5, 6, 8], rfl⟩
example : pack numpyPack [rgb, depth] "h w *".toList = .ok (rgbd, [[3], []]) := by rfl
example : rgb.shape = [1, 2, 3] ∧ depth.shape = [1, 2] := ⟨rfl, rfl⟩
example : unpack numpyPack rgbd [[3], [1]] "h w *".toList =
    .ok [rgb, ⟨[1, 2, 1], [7, 8], rfl⟩] := by rfl
example : unpack numpyPack rgbd [[], [], [], []] "h w *".toList =
    .ok [⟨[1, 2], [1, 4], rfl⟩, ⟨[1, 2], [2, 5], rfl⟩, ⟨[1, 2], [3, 6], rfl⟩, depth] := by rfl
example : unpack strictPack (⟨[1, 1, 1, 8], [0, 1, 2, 3, 4, 5, 6, 7], rfl⟩ : Tensor ℤ) [[], [], [], [], [], [1, 2], [1]]
    "b h w *".toList = .ok [⟨[1, 1, 1], [0], rfl⟩, ⟨[1, 1, 1], [1], rfl⟩, ⟨[1, 1, 1], [2], rfl⟩, ⟨[1, 1, 1], [3], rfl⟩,
      ⟨[1, 1, 1], [4], rfl⟩, ⟨[1, 1, 1, 1, 2], [5, 6], rfl⟩, ⟨[1, 1, 1, 1], [7], rfl⟩] := by rfl

-- the image classifier with sums over integers
theorem classify_pattern : @IsPattern asciiUnicode "b h w c -> b c".toList
    [.bare "b".toList, .bare "h".toList, .bare "w".toList, .bare "c".toList] [.bare "b".toList, .bare "c".toList] :=
  ⟨"b h w c ".toList, " b c".toList, by decide, isSide_of (by decide) (by decide) (by decide) (by decide),
    isSide_of (by decide) (by decide) (by decide) (by decide)⟩
def classify (x : Tensor ℤ) : Py (Tensor ℤ) := reduce (numpyBackend intOps true) idOrder (.one x) "b h w c -> b c".toList
  (.name "sum".toList) [("h".toList, ⟨(1 : Nat), true⟩), ("w".toList, ⟨(2 : Nat), true⟩), ("c".toList, ⟨(3 : Nat), true⟩)]
theorem classify_each : PerItem classify [1, 2, 3] [3] (pooled intOps "sum".toList 1 2) :=
  C70_classifier (.numpy true) (by decide) (by decide) classify_pattern (by decide) (by decide) (fun _ _ => rfl)
    (fun vs _ => ⟨_, rfl⟩) idOrder
-- one image, and a batch of one video of one image
example : universalPredict numpyPack numpyPack classify "* h w c".toList "* cls".toList rgb = .ok ⟨[3], [5, 7, 9], rfl⟩ := by rfl
example : universalPredict numpyPack numpyPack classify "* h w c".toList "* cls".toList (⟨[1, 1, 1, 2, 3], rgb.data, rfl⟩ : Tensor ℤ) =
    .ok ⟨[1, 1, 3], [5, 7, 9], rfl⟩ := by rfl
example : ∃ y, universalPredict numpyPack numpyPack classify "* h w c".toList "* cls".toList rgb = .ok y ∧ y.shape = [3] := by
  obtain ⟨y, h1, h2, -⟩ := C70_universal .numpy .numpy (by decide) pack_hwc pack_cls classify_each (x := rgb) (lead := []) rfl
  exact ⟨y, h1, h2⟩
example : throughModel numpyPack numpyPack classify "* h w c".toList "* cls".toList
    [⟨[1, 1, 2, 3], rgb.data, rfl⟩, ⟨[2, 1, 2, 3], rgb.data ++ rgb.data.map (10 * ·), rfl⟩] =
      .ok [⟨[1, 3], [5, 7, 9], rfl⟩, ⟨[2, 3], [5, 7, 9, 50, 70, 90], rfl⟩] := by rfl
-- a class token and 1 x 2 patches, the model doubles
example : throughModel numpyPack numpyPack (fun x => .ok (x.map (2 * ·))) "b * c".toList "b * c_out".toList
    [(⟨[1, 1], [5], rfl⟩ : Tensor ℤ), ⟨[1, 1, 2, 1], [7, 8], rfl⟩] =
      .ok [⟨[1, 1], [10], rfl⟩, ⟨[1, 1, 2, 1], [14, 16], rfl⟩] := by rfl
-- the dimensions around the star must not be 0
example : pack numpyPack [(⟨[0, 2, 3], [], rfl⟩ : Tensor ℤ), ⟨[0, 2], [], rfl⟩] "h w *".toList = .error .backend := by rfl

end

end Einops
