import Verif.Props.TorchRewrites

/-!
# C74, continued: lists of tensors, pieces of tensors, pooling, heads
-/

namespace Einops

universe u

section
attribute [local instance] asciiUnicode

theorem words_pattern_ascii : @IsPattern asciiUnicode "t b c -> b c".toList
    (([] : List Str).map Elem.bare ++ .bare ['t'] :: [['b'], ['c']].map Elem.bare)
    (([] : List Str).map Elem.bare ++ [['b'], ['c']].map Elem.bare) :=
  ⟨"t b c ".toList, " b c".toList, by decide, isSide_of (by decide) (by decide) (by decide) (by decide),
    isSide_of (by decide) (by decide) (by decide) (by decide)⟩

theorem words_names_ascii : ∀ w ∈ ['t'] :: (([] : List Str) ++ [['b'], ['c']]), @IsName asciiUnicode false w := by decide

end

theorem words_pattern [U : PyUnicode] : IsPattern "t b c -> b c".toList
    (([] : List Str).map Elem.bare ++ .bare ['t'] :: [['b'], ['c']].map Elem.bare)
    (([] : List Str).map Elem.bare ++ [['b'], ['c']].map Elem.bare) := isPattern_ascii words_pattern_ascii

theorem words_names [U : PyUnicode] : ∀ w ∈ ['t'] :: (([] : List Str) ++ [['b'], ['c']]), IsName false w :=
  fun w hw => isName_ascii (words_names_ascii w hw)

section
variable {α : Type u} [PyUnicode] {E : ElemOps α} {b : Backend α} {x y : Tensor α}

open Torch

/-- **C74** Text classification by convolutions: `torch.cat(ps, dim=1)` -/
theorem C74_cat (hb : Modelled E b) (so : SetOrder) {B C : Nat} {ps : List (Tensor α)} (hne : ps ≠ []) (hp : ∀ p ∈ ps, p.shape = [B, C]) :
    Tensor.concat ps 1 = rearrange b so (.many ps) "filter b c -> b (filter c)".toList [] := by
  obtain ⟨z, z1, z2, z3⟩ := many_eq_one hb hne hp
  obtain ⟨y, h1, h2, h3⟩ := filters_moves hb z1
  unfold rearrange at h1 ⊢
  rw [z3, h1]
  have hlen : ∀ {k : Nat} {p : Tensor α}, ps[k]? = some p → k < ps.length := fun h => (List.getElem?_eq_some_iff.1 h).1
  obtain ⟨w, w1, w2, w3⟩ := concat_ok (zs := ps) (ns := ps.map fun _ => C) (pre := [B]) (post := []) hne (by simp) (by
    intro k z n hz hn
    rw [List.getElem?_map, hz] at hn
    cases hn
    exact hp z (List.mem_of_getElem? hz))
  rw [show ([B] : List Nat).length = 1 from rfl] at w1
  rw [w1]
  congr 1
  refine ext_two (A := B) (B := ps.length * C) (by rw [w2]; simp) h2 fun a c k1 k2 => ?_
  have hC : 0 < C := Nat.pos_of_ne_zero (by rintro rfl; simp at k2)
  have hk : c / C < ps.length := (Nat.div_lt_iff_lt_mul hC).2 k2
  have hm : c % C < C := Nat.mod_lt _ hC
  have e0 := List.getElem?_eq_getElem hk
  have e1 := w3 (c / C) _ C e0 (by rw [List.getElem?_map, e0]; rfl) [a] (c % C) [] (by simp [inBounds, k1]) hm (by simp [inBounds])
  have e2 := h3 (c / C) a (c % C) hk k1 hm
  rw [z2, e0] at e2
  have e3 : ((ps.map fun _ => C).take (c / C)).sum = c / C * C := by
    rw [← List.map_take, List.map_const', List.length_take, Nat.min_eq_left hk.le]
    simp
  rw [e3, Nat.div_add_mod'] at e1
  rw [Nat.div_add_mod'] at e2
  simp only [List.cons_append, List.nil_append, Option.bind_some] at e1 e2
  rw [e1, e2]

/-- **C74** The module CBHG: `torch.cat(xs, dim=1)` -/
theorem C74_banks (hb : Modelled E b) (so : SetOrder) {B C T : Nat} {ps : List (Tensor α)} (hne : ps ≠ [])
    (hp : ∀ p ∈ ps, p.shape = [B, C, T]) :
    Tensor.concat ps 1 = rearrange b so (.many ps) "bank b c t -> b (bank c) t".toList [("c".toList, ⟨(C : Nat), true⟩)] := by
  obtain ⟨z, z1, z2, z3⟩ := many_eq_one hb hne hp
  obtain ⟨y, h1, h2, h3⟩ := banks_moves hb z1
  unfold rearrange at h1 ⊢
  rw [z3, h1]
  obtain ⟨w, w1, w2, w3⟩ := concat_ok (zs := ps) (ns := ps.map fun _ => C) (pre := [B]) (post := [T]) hne (by simp) (by
    intro k z n hz hn
    rw [List.getElem?_map, hz] at hn
    cases hn
    exact hp z (List.mem_of_getElem? hz))
  rw [show ([B] : List Nat).length = 1 from rfl] at w1
  rw [w1]
  congr 1
  refine ext_three (A := B) (B := ps.length * C) (C := T) (by rw [w2]; simp) h2 fun a c t k1 k2 k3 => ?_
  have hC : 0 < C := Nat.pos_of_ne_zero (by rintro rfl; simp at k2)
  have hk : c / C < ps.length := (Nat.div_lt_iff_lt_mul hC).2 k2
  have hm : c % C < C := Nat.mod_lt _ hC
  have e0 := List.getElem?_eq_getElem hk
  have e1 := w3 (c / C) _ C e0 (by rw [List.getElem?_map, e0]; rfl) [a] (c % C) [t] (by simp [inBounds, k1]) hm (by simp [inBounds, k3])
  have e2 := h3 (c / C) a (c % C) t hk k1 hm k3
  rw [z2, e0] at e2
  have e3 : ((ps.map fun _ => C).take (c / C)).sum = c / C * C := by
    rw [← List.map_take, List.map_const', List.length_take, Nat.min_eq_left hk.le]
    simp
  rw [e3, Nat.div_add_mod'] at e1
  rw [Nat.div_add_mod'] at e2
  simp only [List.cons_append, List.nil_append, Option.bind_some] at e1 e2
  rw [e1, e2]

/-- **C74** Gated convolutions: `torch.chunk(x, s, 1)` are the tensors that the result of the new code is unpacked to. -/
theorem C74_gates (hb : Modelled E b) (so : SetOrder) {B C T s : Nat} (hx : x.shape = [B, s * C, T]) (hs : 0 < s) :
    x.chunk s 1 = (rearrange b so (.one x) "b (split c) t -> split b c t".toList [("split".toList, ⟨(s : Nat), true⟩)]).bind
      Tensor.unbind := by
  obtain ⟨y, h1, h2, h3⟩ := gates_moves hb hs hx
  rw [h1]
  obtain ⟨ys, y1, y2, y3⟩ := chunk_ok (pre := [B]) (post := [T]) hx hs
  rw [show ([B] : List Nat).length = 1 from rfl] at y1
  rw [y1]
  simp only [Except.bind]
  unfold Tensor.unbind
  rw [h2]
  refine (mapE_iff.2 (forall₂_of_get (by simpa using y2.symm) fun m a c ha hc => ?_)).symm
  have hm : m < s := y2 ▸ (List.getElem?_eq_some_iff.1 hc).1
  rw [List.getElem?_range hm] at ha
  cases ha
  obtain ⟨r, r1, r2, r3⟩ := select_ok (pre := []) h2 (k := (m : Int)) (j := m) (by rw [if_neg (by omega)]) hm
  obtain ⟨c1, c2⟩ := y3 m c hc
  rw [show ([] : List Nat).length = 0 from rfl] at r1
  rw [r1]
  congr 1
  refine ext_three r2 c1 fun i j t k1 k2 k3 => ?_
  have e1 := r3 [] [i, j, t] rfl
  have e2 := c2 [i] j [t] (by simp [inBounds, k1]) k2 (by simp [inBounds, k3])
  simp only [List.cons_append, List.nil_append] at e1 e2
  rw [e1, e2, h3 i m j t k1 hm k2 k3]

/-- **C74** Time series: `x.chunk(x.size(1), dim=1)` are the tensors that a loop over the result of the new code runs through. -/
theorem C74_steps (hb : Modelled E b) (so : SetOrder) {B T : Nat} (hx : x.shape = [B, T]) (hT : 0 < T) :
    x.chunk T 1 = (rearrange b so (.one x) "b t -> t b ()".toList []).bind Tensor.unbind := by
  obtain ⟨y, h1, h2, h3⟩ := steps_moves hb hx
  rw [h1]
  obtain ⟨ys, y1, y2, y3⟩ := chunk_ok (x := x) (pre := [B]) (post := []) (k := T) (c := 1) (by rw [hx]; simp) hT
  rw [show ([B] : List Nat).length = 1 from rfl] at y1
  rw [y1]
  simp only [Except.bind]
  unfold Tensor.unbind
  rw [h2]
  refine (mapE_iff.2 (forall₂_of_get (by simpa using y2.symm) fun m a c ha hc => ?_)).symm
  have hm : m < T := y2 ▸ (List.getElem?_eq_some_iff.1 hc).1
  rw [List.getElem?_range hm] at ha
  cases ha
  obtain ⟨r, r1, r2, r3⟩ := select_ok (pre := []) h2 (k := (m : Int)) (j := m) (by rw [if_neg (by omega)]) hm
  obtain ⟨c1, c2⟩ := y3 m c hc
  rw [show ([] : List Nat).length = 0 from rfl] at r1
  rw [r1]
  congr 1
  refine ext_two r2 c1 fun i j k1 k2 => ?_
  obtain rfl : j = 0 := by omega
  have e1 := r3 [] [i, 0] rfl
  have e2 := c2 [i] 0 [] (by simp [inBounds, k1]) k2 (by simp [inBounds])
  simp only [List.cons_append, List.nil_append, Nat.mul_one, Nat.add_zero] at e1 e2
  rw [e1, e2, h3 i m k1 hm]

/-- **C74** Time series: `torch.stack(outputs, 1).squeeze(2)` -/
theorem C74_outputs (hb : Modelled E b) (so : SetOrder) {B : Nat} {ps : List (Tensor α)} (hne : ps ≠ []) (hp : ∀ p ∈ ps, p.shape = [B, 1]) :
    outputsOld ps = rearrange b so (.many ps) "t b () -> b t".toList [] := by
  obtain ⟨z, z1, z2, z3⟩ := many_eq_one hb hne hp
  obtain ⟨y, h1, h2, h3⟩ := series_moves hb z1
  unfold rearrange at h1 ⊢
  rw [z3, h1]
  obtain ⟨w, w1, w2, w3⟩ := stackAt_ok (pre := [B]) (post := [1]) hne hp
  obtain ⟨v, v1, v2, v3, v4⟩ := squeeze_ok (x := w) (pre := [B, ps.length]) (post := []) w2
  rw [show ([B] : List Nat).length = 1 from rfl] at w1
  rw [show ([B, ps.length] : List Nat).length = 2 from rfl] at v1
  unfold outputsOld
  rw [w1]
  simp only [Except.bind]
  rw [v1]
  congr 1
  refine ext_two v2 h2 fun a t k1 k2 => ?_
  have e0 := List.getElem?_eq_getElem k2
  have e1 := v4 [a, t] [] rfl
  have e2 := w3 t _ e0 [a] [0] (by simp [inBounds, k1]) (by simp [inBounds])
  have e3 := h3 t a k2 k1
  rw [z2, e0] at e3
  simp only [List.cons_append, List.nil_append, Option.bind_some] at e1 e2 e3
  rw [e1, e2, e3]

/-- **C74** Transformer: the tensor of the heads -/
theorem C74_heads (hb : Modelled E b) (so : SetOrder) {B L n k : Nat} (hx : x.shape = [B, L, n * k]) (hn : 0 < n) (hL : 0 < L)
    (hk : 0 < k) :
    splitHeadsOld x n k = (rearrange b so (.one x) "b l (head k) -> head b l k".toList [("head".toList, ⟨(n : Nat), true⟩)]).bind
      fun y => y.withShape [n * B, L, k] := by
  obtain ⟨y, h1, h2, h3⟩ := heads_moves hb hn hx
  have h0 := h1 so
  rw [heads_by_hand hb hn hx so] at h0
  rw [h1]
  unfold byHand at h0
  unfold splitHeadsOld
  rw [hx]
  simp only
  have e1 := view_nat x [B, L, n, k]
  simp only [List.map_cons, List.map_nil, Int.ofNat_eq_natCast] at e1
  obtain ⟨t, t1, t2⟩ := bind_ok_iff.1 h0
  obtain ⟨v, v1, v2⟩ := bind_ok_iff.1 t2
  rw [e1, t1]
  simp only [Except.bind]
  rw [v1]
  simp only
  obtain ⟨q1, q2⟩ := withShape_ok.1 v2
  obtain ⟨r, r1, r2, r3⟩ := y.withShape_ok (s := [n * B, L, k]) (by rw [h2]; simp; ring)
  rw [r1]
  have e2 := view_infer (x := v) (y := r) [] [L, k]
  simp only [List.map_cons, List.map_nil, Int.ofNat_eq_natCast, List.nil_append] at e2
  rw [e2]
  exact ⟨by simp; omega, n * B, withShape_ok.2 ⟨r2, r3.trans q2⟩⟩

/-- **C74** Transformer: the heads joined -/
theorem C74_join (hb : Modelled E b) (so : SetOrder) {B L n v : Nat} (hx : x.shape = [n * B, L, v]) (hB : 0 < B) (hL : 0 < L) :
    joinHeadsOld x n B L v = (x.withShape [n, B, L, v]).bind fun y =>
      rearrange b so (.one y) "head b l v -> b l (head v)".toList [] := by
  obtain ⟨t, t1, t2, t3⟩ := x.withShape_ok (s := [n, B, L, v]) (by rw [hx]; simp; ring)
  obtain ⟨y, h1, h2, h3⟩ := merge_moves hb t2
  have h0 := h1 so
  rw [merge_by_hand hb t2 so] at h0
  unfold byHand at h0
  obtain ⟨t', t1', t2'⟩ := bind_ok_iff.1 h0
  obtain rfl : t' = t := by
    rw [withShape_ok.2 ⟨t2, rfl⟩] at t1'
    cases t1'
    rfl
  obtain ⟨w, v1, v2⟩ := bind_ok_iff.1 t2'
  unfold joinHeadsOld
  have e1 := view_nat x [n, B, L, v]
  simp only [List.map_cons, List.map_nil, Int.ofNat_eq_natCast] at e1
  rw [e1, t1]
  simp only [Except.bind]
  rw [v1, h1]
  simp only
  have e2 := view_infer (x := w) (y := y) [B, L] []
  simp only [List.map_cons, List.map_nil, Int.ofNat_eq_natCast, List.cons_append, List.nil_append] at e2
  rw [e2]
  exact ⟨by simp; omega, n * v, v2⟩

omit [PyUnicode] in
/-- the words of a text, read in the transposed tensor -/
theorem words_row {x' : Tensor α} {T B C : Nat} (hx : x.shape = [T, B, C])
    (h : ∀ a t c, a < B → t < T → c < C → x'.at? [a, t, c] = x.at? [t, a, c]) {a c : Nat} (ha : a < B) (hc : c < C) :
    ∃ vs : List α, (List.range T).map (fun t => x.at? [t, a, c]) = vs.map some ∧
      mapE (fun r => x'.getE [a, 0 * T + nth r 0, c * 1 + nth r 1]) (indices [T, 1]) = .ok vs := by
  have e : indices [T, 1] = (List.range T).map fun t => [t, 0] := by
    simp only [indices, List.range_one, List.flatMap_cons, List.flatMap_nil, List.map_cons, List.map_nil, List.append_nil]
    rw [List.flatMap_def, ← List.flatMap_def]
    induction List.range T with
    | nil => rfl
    | cons t l ih => simp [ih]
  obtain ⟨vs, hv⟩ := mapE_all_ok (f := fun t => x.getE [t, a, c]) (l := List.range T) (fun t ht => by
    obtain ⟨v, hv, -⟩ := getE_ok (x := x) (i := [t, a, c]) (by
      rw [hx, inBounds_three]
      exact ⟨_, _, _, rfl, List.mem_range.1 ht, ha, hc⟩)
    exact ⟨v, hv⟩)
  have hm := mapE_eq_ok_iff.1 hv
  refine ⟨vs, ?_, ?_⟩
  · refine List.ext_getElem? fun k => ?_
    have hk := congrArg (fun l => l[k]?) hm
    simp only [List.getElem?_map] at hk ⊢
    cases h1 : (List.range T)[k]? with
    | none => rw [h1] at hk; cases h2 : vs[k]? <;> simp_all
    | some t =>
      rw [h1] at hk
      cases h2 : vs[k]? with
      | none => rw [h2] at hk; simp at hk
      | some v =>
        rw [h2] at hk
        simp only [Option.map_some, Option.some.injEq] at hk ⊢
        unfold Tensor.getE at hk
        cases h3 : x.at? [t, a, c] with
        | none => rw [h3] at hk; cases hk
        | some w => rw [h3] at hk; cases hk; rfl
  · rw [mapE_eq_ok_iff, e, List.map_map, ← hm]
    refine List.map_congr_left fun t ht => ?_
    simp only [Function.comp, nth, List.getD_cons_zero, List.getD_cons_succ, Nat.zero_mul, Nat.zero_add, Nat.mul_one, Nat.add_zero]
    unfold Tensor.getE
    rw [h a t c ha (List.mem_range.1 ht) hc]

/-- **C74** FastText: the mean over the words -/
theorem C74_fasttext (hb : Computes E "mean".toList b) (so : SetOrder) {T B C : Nat} (hx : x.shape = [T, B, C])
    (hf : b.isFloat x = true) (hT : 0 < T) (hC : 0 < C) :
    fastTextOld (E.op "mean".toList) x = .ok y ↔ reduce b so (.one x) "t b c -> b c".toList (.name "mean".toList) [] = .ok y := by
  obtain ⟨z, z1, z2, z3⟩ := build_reads (x := x) (s := [B, T, C])
    (g := fun i => (List.range x.ndim).map (fun k => nth i (([1, 0, 2] : List Nat).idxOf k))) (by
      intro i hi
      obtain ⟨a, t, c, rfl, k1, k2, k3⟩ := inBounds_three.1 hi
      rw [show x.ndim = 3 from by simp [Tensor.ndim, hx], hx, inBounds_three]
      exact ⟨t, a, c, rfl, k2, k1, k3⟩)
  have zt : x.transpose [1, 0, 2] = .ok z := by
    unfold Tensor.transpose
    rw [if_pos (by rw [show x.ndim = 3 from by simp [Tensor.ndim, hx]]; decide), hx]
    exact z1
  have zat : ∀ a t c, a < B → t < T → c < C → z.at? [a, t, c] = x.at? [t, a, c] := by
    intro a t c k1 k2 k3
    rw [z3 _ (inBounds_three.2 ⟨a, t, c, rfl, k1, k2, k3⟩), show x.ndim = 3 from by simp [Tensor.ndim, hx]]
    rfl
  have hrow := fun {a c : Nat} (ha : a < B) (hc : c < C) => words_row hx zat ha hc
  have hred := C59_reduce_axis (so := so) (y := y) hb (by decide) (fun _ => hf) (k := ['t']) (A := []) (B := [['b'], ['c']])
    (fun w hw => words_names w hw) words_pattern (pre := []) (post := [B, C]) rfl rfl hx
  simp only [List.nil_append] at hred
  rw [hred]
  have hdef : fastTextOld (E.op "mean".toList) x = (Tensor.build [B, T / T, C / 1] (fun i =>
      (mapE (fun r => z.getE [nth i 0, nth i 1 * T + nth r 0, nth i 2 * 1 + nth r 1]) (indices [T, 1])).bind
        (E.op "mean".toList))).bind fun w => w.squeeze 1 := by
    unfold fastTextOld
    rw [zt]
    simp only [Except.bind]
    unfold Tensor.avgPool2d
    rw [z2]
    simp only [nth, List.getD_cons_zero, List.getD_cons_succ]
    rw [if_neg (by omega)]
    rfl
  rw [hdef, Nat.div_self hT, Nat.div_one, bind_ok_iff]
  have sq : ∀ w : Tensor α, w.shape = [B, 1, C] → ∃ v, w.squeeze 1 = .ok v ∧ v.shape = [B, C] ∧ ∀ a c, v.at? [a, c] = w.at? [a, 0, c] := by
    intro w hw
    obtain ⟨v, v1, v2, -, v4⟩ := squeeze_ok (x := w) (pre := [B]) (post := [C]) hw
    exact ⟨v, v1, v2, fun a c => v4 [a] [c] rfl⟩
  constructor
  · rintro ⟨w, w1, w2⟩
    obtain ⟨w3, w4⟩ := Tensor.build_ok w1
    obtain ⟨v, v1, v2, v3⟩ := sq w w3
    rw [v1] at w2
    cases w2
    refine ⟨v2, fun i j hi hj => ?_⟩
    obtain rfl : i = [] := List.length_eq_zero_iff.1 (inBounds_length hi)
    obtain ⟨a, c, rfl, k1, k2⟩ := inBounds_two.1 hj
    obtain ⟨vs, h1, h2⟩ := hrow k1 k2
    obtain ⟨u, u1, u2⟩ := w4 [a, 0, c] (inBounds_three.2 ⟨_, _, _, rfl, k1, Nat.one_pos, k2⟩)
    simp only [nth, List.getD_cons_zero, List.getD_cons_succ] at u1 h2
    rw [h2] at u1
    exact ⟨vs, u, h1, u1, by rw [← u2]; exact v3 a c⟩
  · rintro ⟨y1, y2⟩
    obtain ⟨w, w1, w2, w3⟩ := Tensor.build_total (shape := [B, 1, C]) (f := fun i =>
      (mapE (fun r => z.getE [nth i 0, nth i 1 * T + nth r 0, nth i 2 * 1 + nth r 1]) (indices [T, 1])).bind
        (E.op "mean".toList)) (by
      intro i hi
      obtain ⟨a, t, c, rfl, k1, k2, k3⟩ := inBounds_three.1 hi
      obtain rfl : t = 0 := by omega
      obtain ⟨vs, h1, h2⟩ := hrow k1 k3
      obtain ⟨vs', v, h3, h4, -⟩ := y2 [] [a, c] rfl (inBounds_two.2 ⟨_, _, rfl, k1, k3⟩)
      simp only [List.nil_append] at h3
      rw [h1] at h3
      have : vs = vs' := List.map_injective_iff.2 (Option.some_injective _) h3
      subst this
      simp only [nth, List.getD_cons_zero, List.getD_cons_succ] at h2 ⊢
      rw [h2]
      exact ⟨v, h4⟩)
    obtain ⟨v, v1, v2, v3⟩ := sq w w2
    refine ⟨w, w1, ?_⟩
    rw [v1]
    congr 1
    refine ext_two v2 y1 fun a c k1 k2 => ?_
    obtain ⟨vs, h1, h2⟩ := hrow k1 k2
    obtain ⟨vs', u, h3, h4, h5⟩ := y2 [] [a, c] rfl (inBounds_two.2 ⟨_, _, rfl, k1, k2⟩)
    simp only [List.nil_append] at h3 h5
    rw [h1] at h3
    have : vs = vs' := List.map_injective_iff.2 (Option.some_injective _) h3
    subst this
    have h6 := (Tensor.build_ok w1).2 [a, 0, c] (inBounds_three.2 ⟨_, _, _, rfl, k1, Nat.one_pos, k2⟩)
    obtain ⟨u', u1, u2⟩ := h6
    simp only [nth, List.getD_cons_zero, List.getD_cons_succ] at u1 h2
    rw [h2] at u1
    simp only [Except.bind] at u1
    rw [h4] at u1
    cases u1
    rw [v3, u2, h5]

end

/-! ### Cases -/

section
attribute [local instance] asciiUnicode

example : (Tensor.concat [ramp [2, 2], ramp [2, 2], ramp [2, 2]] 1).map Tensor.data = .ok [0, 1, 0, 1, 0, 1, 2, 3, 2, 3, 2, 3] ∧
    ∀ so, Tensor.concat [ramp [2, 2], ramp [2, 2], ramp [2, 2]] 1 =
      rearrange (numpyBackend intOps true) so (.many [ramp [2, 2], ramp [2, 2], ramp [2, 2]]) "filter b c -> b (filter c)".toList [] :=
  ⟨by decide +kernel, fun so => C74_cat (B := 2) (C := 2) (Computes.numpy (o := []) true).modelled so (by simp) (by
    intro p hp
    simp only [List.mem_cons, List.not_mem_nil, or_false, or_self] at hp
    rw [hp]
    rfl)⟩

example (so : SetOrder) : Tensor.concat [ramp [2, 2, 3], ramp [2, 2, 3]] 1 =
    rearrange (numpyBackend intOps true) so (.many [ramp [2, 2, 3], ramp [2, 2, 3]]) "bank b c t -> b (bank c) t".toList
      [("c".toList, ⟨(2 : Nat), true⟩)] :=
  C74_banks (B := 2) (T := 3) (Computes.numpy (o := []) true).modelled so (by simp) (by
    intro p hp
    simp only [List.mem_cons, List.not_mem_nil, or_false, or_self] at hp
    rw [hp]
    rfl)

example : ((ramp [2, 4, 1]).chunk 2 1).map (List.map Tensor.data) = .ok [[0, 1, 4, 5], [2, 3, 6, 7]] ∧
    ∀ so, (ramp [2, 4, 1]).chunk 2 1 = (rearrange (numpyBackend intOps true) so (.one (ramp [2, 4, 1]))
      "b (split c) t -> split b c t".toList [("split".toList, ⟨(2 : Nat), true⟩)]).bind Tensor.unbind :=
  ⟨by decide +kernel, fun so => C74_gates (C := 2) (Computes.numpy (o := []) true).modelled so rfl (by decide)⟩

/-- three channels do not split in two: the old code goes on with pieces of different sizes -/
example : ((ramp [2, 3, 1]).chunk 2 1).map (List.map Tensor.shape) = .ok [[2, 2, 1], [2, 1, 1]] ∧
    (rearrange (numpyBackend intOps true) idOrder (.one (ramp [2, 3, 1])) "b (split c) t -> split b c t".toList
      [("split".toList, ⟨(2 : Nat), true⟩)]).map Tensor.shape = .error .einops := by
  constructor <;> decide +kernel

example : ((ramp [2, 3]).chunk 3 1).map (List.map Tensor.data) = .ok [[0, 3], [1, 4], [2, 5]] ∧
    ∀ so, (ramp [2, 3]).chunk 3 1 = (rearrange (numpyBackend intOps true) so (.one (ramp [2, 3]))
      "b t -> t b ()".toList []).bind Tensor.unbind :=
  ⟨by decide +kernel, fun so => C74_steps (Computes.numpy (o := []) true).modelled so rfl (by decide)⟩

example : (outputsOld [ramp [2, 1], ramp [2, 1], ramp [2, 1]]).map Tensor.data = .ok [0, 0, 0, 1, 1, 1] ∧
    ∀ so, outputsOld [ramp [2, 1], ramp [2, 1], ramp [2, 1]] =
      rearrange (numpyBackend intOps true) so (.many [ramp [2, 1], ramp [2, 1], ramp [2, 1]]) "t b () -> b t".toList [] :=
  ⟨by decide +kernel, fun so => C74_outputs (B := 2) (Computes.numpy (o := []) true).modelled so (by simp) (by
    intro p hp
    simp only [List.mem_cons, List.not_mem_nil, or_false, or_self] at hp
    rw [hp]
    rfl)⟩

example : (splitHeadsOld (ramp [2, 1, 4]) 2 2).map Tensor.data = .ok [0, 1, 4, 5, 2, 3, 6, 7] ∧
    ∀ so, splitHeadsOld (ramp [2, 1, 4]) 2 2 = (rearrange (numpyBackend intOps true) so (.one (ramp [2, 1, 4]))
      "b l (head k) -> head b l k".toList [("head".toList, ⟨(2 : Nat), true⟩)]).bind fun y => y.withShape [2 * 2, 1, 2] :=
  ⟨by decide +kernel, fun so => C74_heads (Computes.numpy (o := []) true).modelled so rfl (by decide) (by decide) (by decide)⟩

example : (joinHeadsOld (ramp [4, 1, 2]) 2 2 1 2).map Tensor.data = .ok [0, 1, 4, 5, 2, 3, 6, 7] ∧
    ∀ so, joinHeadsOld (ramp [4, 1, 2]) 2 2 1 2 = ((ramp [4, 1, 2]).withShape [2, 2, 1, 2]).bind fun y =>
      rearrange (numpyBackend intOps true) so (.one y) "head b l v -> b l (head v)".toList [] :=
  ⟨by decide +kernel, fun so => C74_join (Computes.numpy (o := []) true).modelled so rfl (by decide) (by decide)⟩

/-- three words, two texts -/
def texts : Tensor ℚ := ⟨[3, 2, 1], [0, 1, 2, 3, 4, 8], rfl⟩

example : (fastTextOld (ratOps.op "mean".toList) texts).map Tensor.data = .ok [2, 4] ∧
    ∀ so y, fastTextOld (ratOps.op "mean".toList) texts = .ok y →
      reduce (numpyBackend ratOps true) so (.one texts) "t b c -> b c".toList (.name "mean".toList) [] = .ok y :=
  ⟨by decide +kernel, fun so y h => (C74_fasttext (.numpy true) so rfl rfl (by decide) (by decide)).1 h⟩

end

end Einops
