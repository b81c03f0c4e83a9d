import Verif.Props.TorchSequences
import Verif.Proofs.TorchProducts
import Verif.Proofs.Optimize
import Verif.Props.Shapes
import Verif.EinsumRef

/-!
# C75: programs with products and their rewrites

Gram matrix, attention, multi-head attention and self-attention of scripts/pytorch_examples_source/Pytorch.ipynb: the programs
written with `view`, `permute` and `bmm` and the programs written with `rearrange` and `einsum` have the same results.
-/

namespace Einops

universe u

open Torch

section
attribute [local instance] asciiUnicode

theorem picture_side_ascii : @IsSide asciiUnicode true false "b c h w".toList [.bare ['b'], .bare ['c'], .bare ['h'], .bare ['w']] :=
  isSide_of (by decide) (by decide) (by decide) (by decide)

theorem picture_names_ascii : ∀ w ∈ [['b'], ['c'], ['h'], ['w']], @IsName asciiUnicode false w := by decide

end

section
variable {α : Type u}

/-- **C75** Style transfer: the two Gram matrices differ by the factor `ch` that the old code divides by. -/
theorem C75_gram [Field α] {f : Str → List (Tensor α) → Py (Tensor α)} (hf : EinsumLawful f) {y : Tensor α} {B C H W : Nat}
    (hy : y.shape = [B, C, H, W]) :
    ∃ g, gramNew f y = .ok g ∧ gramOld y = .ok (g.map fun a => a / (C : α)) := by
  have h4 := Has4.of (0 : α) hy
  obtain ⟨v, v1, -, v2⟩ := h4.mergeLast
  obtain ⟨t, t1, t2⟩ := v2.swap
  obtain ⟨m, m1, m2⟩ := v2.bmm t2
  obtain ⟨z, z1, z2, z3⟩ := letters hf "bchw".toList "bdhw".toList "bcd".toList ['h', 'w'] (x := y) (y := y)
    (val := fun c => if c = 'b' then B else if c = 'c' then C else if c = 'd' then C else if c = 'h' then H else W)
    (by decide) (by decide) (by decide) (by decide) (by decide) (by decide) (by rw [hy]; rfl) (by rw [hy]; rfl)
  have hz : Has3 z B C C (fun b c d => ((List.range H).flatMap fun i => (List.range W).flatMap fun j =>
      [entry y [b, c, i, j] * entry y [b, d, i, j]]).sum) := by
    refine ⟨z2, fun b c d hb hc hd => ?_⟩
    have := z3 (fun l => if l = 'b' then b else if l = 'c' then c else d) (by simpa using ⟨hb, hc, hd⟩)
    simpa [charLoops, List.map_flatMap] using this
  have hzm : z = m := by
    refine hz.unique m2 fun b c d hb hc hd => ?_
    rw [List.map_eq_flatMap, ← range_mul_flatMap]
    congr 1
    refine List.flatMap_congr fun i hi => List.flatMap_congr fun j hj => ?_
    have hj := List.mem_range.1 hj
    have e1 : (i * W + j) / W = i := by rw [Nat.mul_comm, Nat.mul_add_div (by omega), Nat.div_eq_of_lt hj, Nat.add_zero]
    have e2 : (i * W + j) % W = j := by rw [Nat.mul_comm, Nat.mul_add_mod, Nat.mod_eq_of_lt hj]
    simp only [e1, e2]
    rfl
  subst hzm
  refine ⟨z.map fun a => a / ((H * W : Nat) : α), ?_, ?_⟩
  · unfold gramNew
    rw [hy]
    simp only
    rw [show "bchw,bdhw->bcd".toList = "bchw".toList ++ ',' :: "bdhw".toList ++ ['-', '>'] ++ "bcd".toList from by decide, z1]
    rfl
  · unfold gramOld
    rw [hy]
    simp only
    have e := view_nat y [B, C, W * H]
    simp only [List.map_cons, List.map_nil, Int.ofNat_eq_natCast] at e
    rw [e, Nat.mul_comm W H, v1]
    simp only [Except.bind]
    rw [t1]
    simp only
    rw [m1]
    simp only
    congr 1
    refine Tensor.eq_of rfl ?_
    simp only [Tensor.map, List.map_map]
    congr 1
    funext a
    simp only [Function.comp, Nat.cast_mul, div_div]
    congr 1
    ring

/-- **C75** Attention -/
theorem C75_attention [CommSemiring α] {f : Str → List (Tensor α) → Py (Tensor α)} (hf : EinsumLawful f) {scale : Nat → α → α}
    {soft : Tensor α → Py (Tensor α)} (hs : ∀ x, ∃ y, soft x = .ok y ∧ y.shape = x.shape) {K V Q : Tensor α} {B C T L : Nat}
    (hK : K.shape = [B, C, T]) (hV : V.shape = [B, C, T]) (hQ : Q.shape = [B, C, L]) :
    ∃ R, attentionOld scale soft K V Q = .ok R ∧ attentionNew f scale soft K V Q = .ok R ∧ R.shape = [B, C + C, L] := by
  have hk := Has3.of (0 : α) hK
  have hv := Has3.of (0 : α) hV
  have hq := Has3.of (0 : α) hQ
  obtain ⟨t, t1, t2⟩ := hk.swap
  obtain ⟨m, m1, m2⟩ := t2.bmm hq
  obtain ⟨z, z1, z2, z3⟩ := letters hf "bct".toList "bcl".toList "btl".toList ['c'] (x := K) (y := Q)
    (val := fun c => if c = 'b' then B else if c = 'c' then C else if c = 't' then T else L)
    (by decide) (by decide) (by decide) (by decide) (by decide) (by decide) (by rw [hK]; rfl) (by rw [hQ]; rfl)
  have hz : Has3 z B T L (fun b t l => ((List.range C).map fun c => entry K [b, c, t] * entry Q [b, c, l]).sum) := by
    refine ⟨z2, fun b t l hb ht hl => ?_⟩
    have := z3 (fun e => if e = 'b' then b else if e = 't' then t else l) (by simpa using ⟨hb, ht, hl⟩)
    simpa [charLoops_one, Function.comp_def] using this
  obtain rfl : z = m := hz.unique m2 fun _ _ _ _ _ _ => rfl
  obtain ⟨A, A1, A2⟩ := hs (z.map (scale C))
  have hA := Has3.of (0 : α) (A2.trans (show (z.map (scale C)).shape = [B, T, L] from z2))
  obtain ⟨r, r1, r2⟩ := hv.bmm hA
  obtain ⟨w, w1, w2, w3⟩ := letters hf "bct".toList "btl".toList "bcl".toList ['t'] (x := V) (y := A)
    (val := fun c => if c = 'b' then B else if c = 'c' then C else if c = 't' then T else L)
    (by decide) (by decide) (by decide) (by decide) (by decide) (by decide) (by rw [hV]; rfl) (by rw [hA.1]; rfl)
  have hw : Has3 w B C L (fun b c l => ((List.range T).map fun t => entry V [b, c, t] * entry A [b, t, l]).sum) := by
    refine ⟨w2, fun b c l hb hc hl => ?_⟩
    have := w3 (fun e => if e = 'b' then b else if e = 'c' then c else l) (by simpa using ⟨hb, hc, hl⟩)
    simpa [charLoops_one, Function.comp_def] using this
  obtain rfl : w = r := hw.unique r2 fun _ _ _ _ _ _ => rfl
  obtain ⟨R, R1, R2, -⟩ := concat_ok (zs := [w, Q]) (ns := [C, C]) (pre := [B]) (post := [L]) (by simp) rfl (by
    intro k z n hz hn
    match k with
    | 0 => cases hz; cases hn; exact w2
    | 1 => cases hz; cases hn; exact hQ
    | k + 2 => cases hz)
  refine ⟨R, ?_, ?_, by rw [R2]; simp⟩
  · unfold attentionOld
    rw [t1]
    simp only [Except.bind]
    rw [m1]
    simp only
    rw [if_pos (by simp [Tensor.ndim, hQ]), hQ, show nth [B, C, L] 1 = C from rfl, A1]
    simp only
    rw [r1]
    exact R1
  · unfold attentionNew
    rw [hK]
    simp only
    rw [show "bct,bcl->btl".toList = "bct".toList ++ ',' :: "bcl".toList ++ ['-', '>'] ++ "btl".toList from by decide, z1]
    simp only [Except.bind]
    rw [A1]
    simp only
    rw [show "bct,btl->bcl".toList = "bct".toList ++ ',' :: "btl".toList ++ ['-', '>'] ++ "bcl".toList from by decide, w1]
    exact R1

end

section
variable {α : Type u} [CommSemiring α] [PyUnicode] {E : ElemOps α} {b : Backend α} {f : Str → List (Tensor α) → Py (Tensor α)}

/-- the heads of a tensor, in the old program -/
theorem split_heads (hb : Modelled E b) {x : Tensor α} {B L n k : Nat} (hx : x.shape = [B, L, n * k]) (hn : 0 < n) (hL : 0 < L)
    (hk : 0 < k) :
    ∃ y, splitHeadsOld x n k = .ok y ∧ Has3 y (n * B) L k (fun i l c => entry x [i % B, l, i / B * k + c]) := by
  obtain ⟨y, h1, h2, h3⟩ := heads_moves hb hn hx
  have hx3 := Has3.of (0 : α) hx
  have h4 : Has4 y n B L k (fun h b l c => entry x [b, l, h * k + c]) :=
    ⟨h2, fun h b l c kh kb kl kc => by
      rw [h3 b l h c kb kl kh kc, hx3.2 b l _ kb kl (by nlinarith)]
      rfl⟩
  obtain ⟨z, z1, -, z2⟩ := h4.merge
  refine ⟨z, ?_, z2⟩
  rw [C74_heads hb idOrder hx hn hL hk, h1]
  exact z1

theorem keys_heads (hb : Modelled E b) {x : Tensor α} {B L n k : Nat} (hx : x.shape = [B, L, n * k]) (hn : 0 < n) :
    ∃ y, (∀ so, rearrange b so (.one x) "b t (head k) -> head b t k".toList [("head".toList, ⟨(n : Nat), true⟩)] = .ok y) ∧
      Has4 y n B L k (fun h b l c => entry x [b, l, h * k + c]) := by
  obtain ⟨y, h1, h2, h3⟩ := keys_moves hb hn hx
  exact ⟨y, h1, h2, fun h b l c kh kb kl kc => by
    rw [h3 b l h c kb kl kh kc, (Has3.of (0 : α) hx).2 b l _ kb kl (by nlinarith)]
    rfl⟩

theorem vals_heads (hb : Modelled E b) {x : Tensor α} {B L n k : Nat} (hx : x.shape = [B, L, n * k]) (hn : 0 < n) :
    ∃ y, (∀ so, rearrange b so (.one x) "b t (head v) -> head b t v".toList [("head".toList, ⟨(n : Nat), true⟩)] = .ok y) ∧
      Has4 y n B L k (fun h b l c => entry x [b, l, h * k + c]) := by
  obtain ⟨y, h1, h2, h3⟩ := vals_moves hb hn hx
  exact ⟨y, h1, h2, fun h b l c kh kb kl kc => by
    rw [h3 b l h c kb kl kh kc, (Has3.of (0 : α) hx).2 b l _ kb kl (by nlinarith)]
    rfl⟩

theorem queries_heads (hb : Modelled E b) {x : Tensor α} {B L n k : Nat} (hx : x.shape = [B, L, n * k]) (hn : 0 < n) :
    ∃ y, (∀ so, rearrange b so (.one x) "b l (head k) -> head b l k".toList [("head".toList, ⟨(n : Nat), true⟩)] = .ok y) ∧
      Has4 y n B L k (fun h b l c => entry x [b, l, h * k + c]) := by
  obtain ⟨y, h1, h2, h3⟩ := heads_moves hb hn hx
  exact ⟨y, h1, h2, fun h b l c kh kb kl kc => by
    rw [h3 b l h c kb kl kh kc, (Has3.of (0 : α) hx).2 b l _ kb kl (by nlinarith)]
    rfl⟩

omit [PyUnicode] in
/-- `torch.einsum('hblk,hbtk->hblt', [q, k])` -/
theorem energies (hf : EinsumLawful f) {q k : Tensor α} {n B L T d : Nat} {F G : Nat → Nat → Nat → Nat → α} (hq : Has4 q n B L d F)
    (hk : Has4 k n B T d G) :
    ∃ z, f "hblk,hbtk->hblt".toList [q, k] = .ok z ∧
      Has4 z n B L T (fun h b l t => ((List.range d).map fun c => F h b l c * G h b t c).sum) := by
  obtain ⟨z, z1, z2, z3⟩ := letters hf "hblk".toList "hbtk".toList "hblt".toList ['k'] (x := q) (y := k)
    (val := fun c => if c = 'h' then n else if c = 'b' then B else if c = 'l' then L else if c = 't' then T else d)
    (by decide) (by decide) (by decide) (by decide) (by decide) (by decide) (by rw [hq.1]; rfl) (by rw [hk.1]; rfl)
  refine ⟨z, z1, z2, fun h b l t kh kb kl kt => ?_⟩
  have := z3 (fun e => if e = 'h' then h else if e = 'b' then b else if e = 'l' then l else t) (by simpa using ⟨kh, kb, kl, kt⟩)
  rw [charLoops_one, List.map_map] at this
  refine Eq.trans this (congrArg (fun l => some (List.sum l)) (List.map_congr_left fun c hc => ?_))
  have hc := List.mem_range.1 hc
  simp [entry, hq.2 h b l c kh kb kl hc, hk.2 h b t c kh kb kt hc]

omit [PyUnicode] in
/-- `torch.einsum('hblt,hbtv->hblv', [attn, v])` -/
theorem weighted (hf : EinsumLawful f) {a v : Tensor α} {n B L T d : Nat} {F G : Nat → Nat → Nat → Nat → α} (ha : Has4 a n B L T F)
    (hv : Has4 v n B T d G) :
    ∃ z, f "hblt,hbtv->hblv".toList [a, v] = .ok z ∧
      Has4 z n B L d (fun h b l c => ((List.range T).map fun t => F h b l t * G h b t c).sum) := by
  obtain ⟨z, z1, z2, z3⟩ := letters hf "hblt".toList "hbtv".toList "hblv".toList ['t'] (x := a) (y := v)
    (val := fun c => if c = 'h' then n else if c = 'b' then B else if c = 'l' then L else if c = 't' then T else d)
    (by decide) (by decide) (by decide) (by decide) (by decide) (by decide) (by rw [ha.1]; rfl) (by rw [hv.1]; rfl)
  refine ⟨z, z1, z2, fun h b l c kh kb kl kc => ?_⟩
  have := z3 (fun e => if e = 'h' then h else if e = 'b' then b else if e = 'l' then l else c) (by simpa using ⟨kh, kb, kl, kc⟩)
  rw [charLoops_one, List.map_map] at this
  refine Eq.trans this (congrArg (fun l => some (List.sum l)) (List.map_congr_left fun t ht => ?_))
  have ht := List.mem_range.1 ht
  simp [entry, ha.2 h b l t kh kb kl ht, hv.2 h b t c kh kb ht kc]

/-- **C75** Transformer: the multi-head attention.  The outputs of the two programs are the same; the old program returns the
matrices of attention with the axis of heads merged into the batch. -/
theorem C75_multi_head (hb : Modelled E b) (so : SetOrder) (hf : EinsumLawful f) (scale : Nat → α → α) (inf : α) (sm : List α → Nat → α)
    {n B L T k v : Nat} (hn : 0 < n) (hB : 0 < B) (hL : 0 < L) (hT : 0 < T) (hk : 0 < k) (hv : 0 < v) {q kk vv : Tensor α}
    {mask : Tensor Bool} (hq : q.shape = [B, L, n * k]) (hkk : kk.shape = [B, T, n * k]) (hvv : vv.shape = [B, T, n * v])
    (hm : mask.shape = [B, L, T]) :
    ∃ out attn attn', multiHeadOld scale inf sm n k v q kk vv (some mask) = .ok (out, attn) ∧
      multiHeadNew b so f scale inf sm n q kk vv (some mask) = .ok (out, attn') ∧ out.shape = [B, L, n * v] ∧
      attn'.shape = [n, B, L, T] ∧ attn'.withShape [n * B, L, T] = .ok attn := by
  have hmask := Has3.of false hm
  -- the new program
  obtain ⟨q4, q41, q42⟩ := queries_heads hb hq hn
  obtain ⟨k4, k41, k42⟩ := keys_heads hb hkk hn
  obtain ⟨v4, v41, v42⟩ := vals_heads hb hvv hn
  obtain ⟨e4, e41, e42⟩ := energies hf q42 k42
  obtain ⟨m4, m41, m42⟩ := hmask.none
  obtain ⟨f4, f41, f42⟩ := (e42.map (scale k)).fill m42 inf
  obtain ⟨s4, s41, s42⟩ := f42.lastAxis sm
  obtain ⟨o4, o41, o42⟩ := weighted hf s42 v42
  obtain ⟨r, r1, r2, -⟩ := merge_moves hb o42.1
  -- the old program
  obtain ⟨q3, q31, q32⟩ := split_heads hb hq hn hL hk
  obtain ⟨k3, k31, k32⟩ := split_heads hb hkk hn hT hk
  obtain ⟨v3, v31, v32⟩ := split_heads hb hvv hn hT hv
  obtain ⟨t3, t31, t32⟩ := k32.swap
  obtain ⟨e3, e31, e32⟩ := q32.bmm t32
  obtain ⟨m3, m31, m32⟩ := hmask.tile n
  obtain ⟨f3, f31, f32⟩ := (e32.map (scale k)).fill m32 inf
  obtain ⟨s3, s31, s32⟩ := f32.lastAxis sm
  obtain ⟨o3, o31, o32⟩ := s32.bmm v32
  obtain ⟨w, w1, -, w2⟩ := s42.merge
  obtain rfl : w = s3 := w2.unique s32 fun _ _ _ _ _ _ => rfl
  obtain ⟨p, p1, -, p2⟩ := o32.split
  obtain rfl : o4 = p := o42.unique p2 fun h b l c _ kb _ _ => by
    have e1 : (h * B + b) / B = h := by rw [Nat.mul_comm, Nat.mul_add_div (by omega), Nat.div_eq_of_lt kb, Nat.add_zero]
    have e2 : (h * B + b) % B = b := by rw [Nat.mul_comm, Nat.mul_add_mod, Nat.mod_eq_of_lt kb]
    simp only [e1, e2]
  have hj : joinHeadsOld o3 n B L v = .ok r := by
    rw [C74_join hb so o32.1 hB hL, p1]
    exact r1 so
  refine ⟨r, w, s4, ?_, ?_, r2, s42.1, w1⟩
  · unfold multiHeadOld scaledAttentionOld
    simp only [q31, k31, v31, m31, t31, e31, f31, s31, o31, Except.bind, hq]
    rw [show nth [B, L, n * k] 0 = B from rfl, show nth [B, L, n * k] 1 = L from rfl, hj]
  · unfold multiHeadNew
    have hd : nth q4.shape (q4.ndim - 1) = k := by rw [Tensor.ndim, q42.1]; rfl
    simp only [q41, k41, v41, e41, m41, hd, f41, s41, o41, r1]

/-- **C75** ... Without a mask the old program fails, the new one computes what it computes with a mask that hides nothing. -/
theorem C75_no_mask (hb : Modelled E b) (so : SetOrder) (hf : EinsumLawful f) (scale : Nat → α → α) (inf : α) (sm : List α → Nat → α)
    {n B L T k v : Nat} (hn : 0 < n) (hL : 0 < L) (hT : 0 < T) (hk : 0 < k) (hv : 0 < v) {q kk vv : Tensor α}
    {mask : Tensor Bool} (hq : q.shape = [B, L, n * k]) (hkk : kk.shape = [B, T, n * k]) (hvv : vv.shape = [B, T, n * v])
    (hm : mask.shape = [B, L, T]) (hfalse : ∀ c ∈ mask.data, c = false) :
    multiHeadOld scale inf sm n k v q kk vv none = .error .type ∧
      ∃ r, multiHeadNew b so f scale inf sm n q kk vv none = .ok r ∧ multiHeadNew b so f scale inf sm n q kk vv (some mask) = .ok r := by
  have hmask : Has3 mask B L T (fun _ _ _ => false) := by
    refine ⟨hm, fun a c d ha hc hd => ?_⟩
    have hi : inBounds [a, c, d] mask.shape = true := by rw [hm]; exact inBounds_three.2 ⟨a, c, d, rfl, ha, hc, hd⟩
    obtain ⟨w, hw⟩ := mask.at?_isSome hi
    rw [hw]
    rw [Tensor.at?_of_inBounds _ hi] at hw
    rw [hfalse w (List.mem_of_getElem? hw)]
  obtain ⟨q4, q41, q42⟩ := queries_heads hb hq hn
  obtain ⟨k4, k41, k42⟩ := keys_heads hb hkk hn
  obtain ⟨v4, v41, v42⟩ := vals_heads hb hvv hn
  obtain ⟨e4, e41, e42⟩ := energies hf q42 k42
  obtain ⟨m4, m41, m42⟩ := hmask.none
  obtain ⟨f4, f41, f42⟩ := (e42.map (scale k)).fill m42 inf
  obtain ⟨s4, s41, s42⟩ := f42.lastAxis sm
  obtain ⟨o4, o41, o42⟩ := weighted hf s42 v42
  obtain ⟨r, r1, r2, -⟩ := merge_moves hb o42.1
  obtain rfl : e4.map (scale k) = f4 := (e42.map (scale k)).unique f42 fun _ _ _ _ _ _ _ _ => by simp
  obtain ⟨q3, q31, q32⟩ := split_heads hb hq hn hL hk
  obtain ⟨k3, k31, k32⟩ := split_heads hb hkk hn hT hk
  obtain ⟨v3, v31, v32⟩ := split_heads hb hvv hn hT hv
  have hd : nth q4.shape (q4.ndim - 1) = k := by rw [Tensor.ndim, q42.1]; rfl
  refine ⟨?_, (r, s4), ?_, ?_⟩
  · unfold multiHeadOld
    simp only [q31, k31, v31]
  · unfold multiHeadNew
    simp only [q41, k41, v41, e41, hd, s41, o41, r1]
  · unfold multiHeadNew
    simp only [q41, k41, v41, e41, m41, hd, f41, s41, o41, r1]

omit [PyUnicode] [CommSemiring α] in
/-- `.view(b, -1, h * w)` -/
theorem view_lines {x : Tensor α} {B C H W : Nat} {F : Nat → Nat → Nat → Nat → α} (hx : Has4 x B C H W F) (hB : 0 < B) (hH : 0 < H)
    (hW : 0 < W) :
    ∃ y, x.view [(B : Int), -1, ((H * W : Nat) : Int)] = .ok y ∧ Has3 y B C (H * W) (fun b c i => F b c (i / W) (i % W)) := by
  obtain ⟨y, h1, -, h2⟩ := hx.mergeLast
  refine ⟨y, ?_, h2⟩
  have e := view_infer (x := x) (y := y) [B] [H * W]
  simp only [List.map_cons, List.map_nil, Int.ofNat_eq_natCast, List.cons_append, List.nil_append] at e
  rw [e]
  refine ⟨?_, C, h1⟩
  have : 0 < H * W := Nat.mul_pos hH hW
  simp only [List.mem_cons, List.not_mem_nil, or_false]
  omega

theorem picture_sizes (B C H W : Nat) :
    parseShape [B, C, H, W] "b c h w".toList = .ok [(['b'], B), (['c'], C), (['h'], H), (['w'], W)] := by
  have hname : ∀ w ∈ [['b'], ['c'], ['h'], ['w']], IsName false w := fun w hw => isName_ascii (picture_names_ascii w hw)
  refine (C22_parse_shape _ _ (by decide) _).2 ⟨_, isSide_ascii picture_side_ascii, ?_⟩
  have hcore : ∀ s, IsName false s → (Elem.bare s).core = [s] := by
    intro s hs
    simp [Elem.core, Elem.words, isUnit, isName_not_number false hs]
  simp only [List.mem_cons, List.not_mem_nil, or_false, forall_eq_or_imp, forall_eq] at hname
  obtain ⟨h1, h2, h3, h4⟩ := hname
  exact .name (hcore _ h1) h1 (.name (hcore _ h2) h2 (.name (hcore _ h3) h3 (.name (hcore _ h4) h4 .nil)))

/-- **C75** Self-attention: the outputs and the matrices of attention of the two programs are the same. -/
theorem C75_self_attention (hb : Modelled E b) (so : SetOrder) (sm : List α → Nat → α) {B C D H W : Nat} (hB : 0 < B) (hH : 0 < H)
    (hW : 0 < W) {x query key value : Tensor α} (hx : x.shape = [B, C, H, W]) (hq : query.shape = [B, D, H, W])
    (hk : key.shape = [B, D, H, W]) (hv : value.shape = [B, C, H, W]) :
    ∃ out attention, selfAttentionOld sm x query key value = .ok (out, attention) ∧
      selfAttentionNew b so sm x query key value = .ok (out, attention) ∧ out.shape = [B, C, H, W] ∧
      attention.shape = [B, H * W, H * W] := by
  have hq4 := Has4.of (0 : α) hq
  have hk4 := Has4.of (0 : α) hk
  have hv4 := Has4.of (0 : α) hv
  obtain ⟨q1, q11, q12⟩ := view_lines hq4 hB hH hW
  obtain ⟨q2, q21, q22⟩ := q12.swap
  obtain ⟨k1, k11, k12⟩ := view_lines hk4 hB hH hW
  obtain ⟨v1, v11, v12⟩ := view_lines hv4 hB hH hW
  obtain ⟨e, e1, e2⟩ := q22.bmm k12
  obtain ⟨a, a1, a2⟩ := e2.lastAxis sm
  obtain ⟨t, t1, t2⟩ := a2.swap
  obtain ⟨o, o1, o2⟩ := v12.bmm t2
  obtain ⟨r, r1, -, r2⟩ := o2.splitLast
  obtain ⟨qn, qn1, qn2, qn3⟩ := pixels_moves hb hq
  obtain ⟨kn, kn1, kn2, kn3⟩ := lines_moves hb hk
  obtain ⟨vn, vn1, vn2, vn3⟩ := pixels_moves hb hv
  have hdm : ∀ i, i < H * W → i / W < H ∧ i % W < W ∧ i / W * W + i % W = i := fun i hi =>
    ⟨(Nat.div_lt_iff_lt_mul hW).2 hi, Nat.mod_lt _ hW, Nat.div_add_mod' i W⟩
  have px : ∀ {y z : Tensor α} {D : Nat}, y.shape = [B, D, H, W] → z.shape = [B, H * W, D] → (∀ ib ic ih iw, ib < B → ic < D → ih < H →
      iw < W → z.at? [ib, ih * W + iw, ic] = y.at? [ib, ic, ih, iw]) →
      Has3 z B (H * W) D (fun b i c => (y.at? [b, c, i / W, i % W]).getD 0) := by
    intro y z D hy hz h
    refine ⟨hz, fun b i c hb hi hc => ?_⟩
    obtain ⟨h1, h2, h3⟩ := hdm i hi
    have := h b c (i / W) (i % W) hb hc h1 h2
    rw [h3] at this
    rw [this]
    exact (Has4.of (0 : α) hy).2 b c _ _ hb hc h1 h2
  obtain rfl : qn = q2 := (px hq qn2 qn3).unique q22 fun _ _ _ _ _ _ => rfl
  obtain rfl : kn = k1 := by
    refine ext_three kn2 k12.1 fun b c i hb hc hi => ?_
    obtain ⟨h1, h2, h3⟩ := hdm i hi
    have := kn3 b c (i / W) (i % W) hb hc h1 h2
    rw [h3] at this
    rw [this, k12.2 b c i hb hc hi, hk4.2 b c _ _ hb hc h1 h2]
  obtain ⟨p, p1, p2⟩ := a2.bmm (px hv vn2 vn3)
  obtain ⟨z, z1, z2, z3⟩ := unpixels_moves hb p2.1
  obtain rfl : z = r := by
    refine ext_four z2 r2.1 fun b c h w hb hc hh hw => ?_
    have hi : h * W + w < H * W := by nlinarith
    rw [z3 b h w c hb hh hw hc, p2.2 b _ c hb hi hc, r2.2 b c h w hb hc hh hw]
    exact congrArg (fun l => some (List.sum l)) (List.map_congr_left fun i _ => mul_comm _ _)
  refine ⟨z, a, ?_, ?_, z2, a2.1⟩
  · unfold selfAttentionOld
    rw [hx]
    simp only [q11, q21, k11, v11, e1, a1, t1, o1, Except.bind]
    have e := view_nat o [B, C, H, W]
    simp only [List.map_cons, List.map_nil, Int.ofNat_eq_natCast] at e
    rw [e, r1]
  · unfold selfAttentionNew
    simp only [qn1, kn1, vn1, e1, a1, p1, Except.bind]
    rw [hx, picture_sizes]
    simp only [List.map_cons, List.map_nil]
    have := z1 so
    rw [show "b".toList = ['b'] from rfl, show "c".toList = ['c'] from rfl, show "h".toList = ['h'] from rfl,
      show "w".toList = ['w'] from rfl] at this
    rw [this]

end

/-! ### Cases -/

section
attribute [local instance] asciiUnicode

/-- a picture with two channels: the products of the channels divided by 4 and by 2 -/
example : (gramOld ((ramp [1, 2, 2, 2]).map fun n : Int => (n : ℚ))).map Tensor.data = .ok [14 / 8, 38 / 8, 38 / 8, 126 / 8] ∧
    ∃ g, gramNew refEinsum ((ramp [1, 2, 2, 2]).map fun n : Int => (n : ℚ)) = .ok g ∧
      gramOld ((ramp [1, 2, 2, 2]).map fun n : Int => (n : ℚ)) = .ok (g.map fun a => a / ((2 : Nat) : ℚ)) :=
  ⟨by decide +kernel, C75_gram refEinsum_lawful (B := 1) (H := 2) (W := 2) rfl⟩

/-- no softmax, products multiplied by the number of channels -/
example : (attentionOld (fun c a => (c : Int) * a) .ok (ramp [1, 2, 1]) (ramp [1, 2, 1]) (ramp [1, 2, 2])).map Tensor.data =
      .ok [0, 0, 4, 6, 0, 1, 2, 3] ∧
    ∃ R, attentionOld (fun c a => (c : Int) * a) .ok (ramp [1, 2, 1]) (ramp [1, 2, 1]) (ramp [1, 2, 2]) = .ok R ∧
      attentionNew refEinsum (fun c a => (c : Int) * a) .ok (ramp [1, 2, 1]) (ramp [1, 2, 1]) (ramp [1, 2, 2]) = .ok R ∧ R.shape = [1, 2 + 2, 2] :=
  ⟨by decide +kernel, C75_attention refEinsum_lawful (fun x => ⟨x, rfl, rfl⟩) rfl rfl rfl⟩

/-- the second of two words is hidden -/
example : (multiHeadOld (fun c a => (c : Int) * a) 100 (fun row t => row.getD t 0 + row.sum) 2 1 1 (ramp [1, 2, 2]) (ramp [1, 2, 2]) (ramp [1, 2, 2])
      (some ⟨[1, 2, 2], [false, true, false, true], rfl⟩)).map (fun r => (r.1.data, r.2.data)) =
      .ok ([400, 705, 400, 715], [100, 200, 100, 200, 102, 201, 106, 203]) ∧
    ∃ out attn attn', multiHeadOld (fun c a => (c : Int) * a) 100 (fun row t => row.getD t 0 + row.sum) 2 1 1 (ramp [1, 2, 2]) (ramp [1, 2, 2])
        (ramp [1, 2, 2]) (some ⟨[1, 2, 2], [false, true, false, true], rfl⟩) = .ok (out, attn) ∧
      multiHeadNew (numpyBackend intOps true) idOrder refEinsum (fun c a => (c : Int) * a) 100 (fun row t => row.getD t 0 + row.sum) 2 (ramp [1, 2, 2])
        (ramp [1, 2, 2]) (ramp [1, 2, 2]) (some ⟨[1, 2, 2], [false, true, false, true], rfl⟩) = .ok (out, attn') ∧
      out.shape = [1, 2, 2 * 1] ∧ attn'.shape = [2, 1, 2, 2] ∧ attn'.withShape [2 * 1, 2, 2] = .ok attn :=
  ⟨by decide +kernel, C75_multi_head (Computes.numpy (o := []) true).modelled idOrder refEinsum_lawful _ _ _ (by decide) (by decide)
    (by decide) (by decide) (by decide) (by decide) rfl rfl rfl rfl⟩

example : ∃ r, multiHeadNew (numpyBackend intOps true) idOrder refEinsum (fun c a => (c : Int) * a) 100 (fun row t => row.getD t 0 + row.sum) 2
    (ramp [1, 2, 2]) (ramp [1, 2, 2]) (ramp [1, 2, 2]) none = .ok r :=
  let ⟨r, h, _⟩ := (C75_no_mask (Computes.numpy (o := []) true).modelled idOrder refEinsum_lawful (fun c a => (c : Int) * a) 100
    (fun row t => row.getD t 0 + row.sum) (n := 2) (B := 1) (L := 2) (T := 2) (k := 1) (v := 1) (by decide) (by decide) (by decide)
    (by decide) (by decide) (q := ramp [1, 2, 2]) (kk := ramp [1, 2, 2]) (vv := ramp [1, 2, 2])
    (mask := ⟨[1, 2, 2], [false, false, false, false], rfl⟩) rfl rfl rfl rfl (by decide)).2
  ⟨r, h⟩

example : (selfAttentionOld (fun row t => row.getD t 0) (ramp [1, 2, 1, 2]) (ramp [1, 1, 1, 2]) (ramp [1, 1, 1, 2]) (ramp [1, 2, 1, 2])).map
      (fun r => (r.1.data, r.2.data)) = .ok ([0, 1, 0, 3], [0, 0, 0, 1]) ∧
    ∃ out attention, selfAttentionOld (fun row t => row.getD t 0) (ramp [1, 2, 1, 2]) (ramp [1, 1, 1, 2]) (ramp [1, 1, 1, 2])
        (ramp [1, 2, 1, 2]) = .ok (out, attention) ∧
      selfAttentionNew (numpyBackend intOps true) idOrder (fun row t => row.getD t 0) (ramp [1, 2, 1, 2]) (ramp [1, 1, 1, 2])
        (ramp [1, 1, 1, 2]) (ramp [1, 2, 1, 2]) = .ok (out, attention) ∧
      out.shape = [1, 2, 1, 2] ∧ attention.shape = [1, 1 * 2, 1 * 2] :=
  ⟨by decide +kernel, C75_self_attention (Computes.numpy (o := []) true).modelled idOrder _ (by decide) (by decide) (by decide) rfl rfl rfl rfl⟩

end

end Einops
