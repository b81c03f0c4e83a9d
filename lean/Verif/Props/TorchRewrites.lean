import Verif.Proofs.TorchPatterns
import Verif.Proofs.TorchOps
import Verif.Props.Classical

/-!
# C74: the rewritten programs of the page "Writing better code with pytorch and einops"

scripts/pytorch_examples_source/Pytorch.ipynb: programs written with the operations of PyTorch (Verif/TorchPrograms.lean) and
the calls of einops that replace them have the same results, for all sizes.
-/

namespace Einops

universe u

section
variable {α : Type u} [PyUnicode] {E : ElemOps α} {b : Backend α} {x y : Tensor α}

open Torch

/-- **C74** Channel shuffle.  (For an empty tensor with `b * h * w = 0` the old code cannot find the number of channels.) -/
theorem C74_channel_shuffle (hb : Modelled E b) (so : SetOrder) {B C H W g : Nat} (hx : x.shape = [B, C, H, W]) (hg : 0 < g) :
    channelShuffleOld x g = .ok y ↔ 0 < B * H * W ∧
      rearrange b so (.one x) "b (c1 c2) h w -> b (c2 c1) h w".toList [("c1".toList, ⟨(g : Nat), true⟩)] = .ok y := by
  have key : ∀ {C' : Nat}, C = g * C' → rearrange b so (.one x) "b (c1 c2) h w -> b (c2 c1) h w".toList
      [("c1".toList, ⟨(g : Nat), true⟩)] = byHand x [B, g, C', H, W] [0, 2, 1, 3, 4] [B, C' * g, H, W] := by
    rintro C' rfl
    exact shuffle_by_hand hb hg hx so
  have hold : channelShuffleOld x g = .ok y ↔ ∃ t, x.withShape [B, g, C / g, H, W] = .ok t ∧ ∃ z,
      t.transpose [0, 2, 1, 3, 4] = .ok z ∧ 0 ∉ [B] ++ [H, W] ∧ ∃ n, z.withShape [B, n, H, W] = .ok y := by
    unfold channelShuffleOld
    rw [hx]
    simp only
    rw [if_neg hg.ne', bind_ok_iff]
    simp only [bind_ok_iff]
    have e1 := view_nat x [B, g, C / g, H, W]
    have e2 := fun z : Tensor α => view_infer (x := z) (y := y) [B] [H, W]
    simp only [List.map_cons, List.map_nil, Int.ofNat_eq_natCast, List.cons_append, List.nil_append] at e1 e2
    simp only [e1, e2, List.cons_append, List.nil_append]
  rw [hold]
  constructor
  · rintro ⟨t, h1, z, h2, h3, n, h4⟩
    have hp : 0 < B * H * W := by
      simp only [List.mem_append, List.mem_cons, List.not_mem_nil, or_false, not_or] at h3
      exact Nat.mul_pos (Nat.mul_pos (by omega) (by omega)) (by omega)
    refine ⟨hp, ?_⟩
    obtain ⟨t1, t2, t3⟩ := x.withShape_inv h1
    have hc : C = g * (C / g) := by
      rw [hx] at t3
      simp only [List.prod_cons, List.prod_nil, Nat.mul_one] at t3
      have : (B * H * W) * (g * (C / g)) = (B * H * W) * C := by nlinarith
      exact (Nat.eq_of_mul_eq_mul_left hp this).symm
    rw [key hc, byHand, h1]
    simp only [Except.bind]
    rw [h2]
    simp only
    obtain ⟨y1, y2, y3⟩ := z.withShape_inv h4
    have hz := transpose_shape h2
    rw [t1] at hz
    simp only [List.map_cons, List.map_nil, nth, List.getD_cons_zero, List.getD_cons_succ] at hz
    rw [hz] at y3
    simp only [List.prod_cons, List.prod_nil, Nat.mul_one] at y3
    have : (B * H * W) * n = (B * H * W) * (C / g * g) := by nlinarith
    rw [← Nat.eq_of_mul_eq_mul_left hp this]
    exact h4
  · rintro ⟨hp, h⟩
    have hc : C = g * (C / g) := by
      obtain ⟨val, h1, h2⟩ := named_lengths hb shuffle_pattern shuffle_names (intKw_one _ _) h
      rw [hx] at h1
      simp only [List.map_cons, List.map_nil, List.cons.injEq, and_true] at h1
      have h3 : (val ['c', '1'] : Int) = g := h2 _ (List.mem_singleton_self _)
      have h4 : val ['c', '1'] = g := by exact_mod_cast h3
      have h5 : C = val ['c', '1'] * val ['c', '2'] := h1.2.1
      rw [h5, h4, Nat.mul_div_cancel_left _ hg]
    rw [key hc, byHand] at h
    obtain ⟨t, h1, h⟩ := bind_ok h
    obtain ⟨z, h2, h⟩ := bind_ok h
    refine ⟨t, h1, z, h2, ?_, _, h⟩
    intro h0
    simp only [List.mem_append, List.mem_cons, List.not_mem_nil, or_false] at h0
    rcases h0 with rfl | rfl | rfl <;> simp at hp

omit [PyUnicode] in
theorem views_by_hand (x : Tensor α) (s p t : List Nat) :
    ((x.view (s.map Int.ofNat)).bind fun x => (x.transpose p).bind fun x => x.view (t.map Int.ofNat)) = byHand x s p t := by
  simp only [view_nat]
  rfl

/-- **C74** GLOW: `unsqueeze2d` -/
theorem C74_unsqueeze2d (hb : Modelled E b) (so : SetOrder) {B C H W f : Nat} (hx : x.shape = [B, C, H, W]) (hf : 1 ≤ f) :
    unsqueeze2dOld x f = .ok y ↔ rearrange b so (.one x) "b (c h2 w2) h w -> b c (h h2) (w w2)".toList
      [("h2".toList, ⟨(f : Nat), true⟩), ("w2".toList, ⟨(f : Nat), true⟩)] = .ok y := by
  have key : ∀ {C' : Nat}, C = C' * f * f → rearrange b so (.one x) "b (c h2 w2) h w -> b c (h h2) (w w2)".toList
      [("h2".toList, ⟨(f : Nat), true⟩), ("w2".toList, ⟨(f : Nat), true⟩)] =
        byHand x [B, C', f, f, H, W] [0, 1, 4, 2, 5, 3] [B, C', H * f, W * f] := by
    rintro C' rfl
    exact unsqueeze_by_hand hb hf hx so
  have hback : rearrange b so (.one x) "b (c h2 w2) h w -> b c (h h2) (w w2)".toList
      [("h2".toList, ⟨(f : Nat), true⟩), ("w2".toList, ⟨(f : Nat), true⟩)] = .ok y → ∃ C', C = C' * f * f := by
    intro h
    obtain ⟨val, h1, h2⟩ := named_lengths hb unsqueeze_pattern unsqueeze_names (intKw_two (by decide) _ _) h
    rw [hx] at h1
    simp only [List.map_cons, List.map_nil, List.cons.injEq, and_true] at h1
    have h3 : (val ['h', '2'] : Int) = f := h2 _ (List.mem_cons_self)
    have h4 : (val ['w', '2'] : Int) = f := h2 _ (List.mem_cons_of_mem _ List.mem_cons_self)
    have h5 : C = val ['c'] * val ['h', '2'] * val ['w', '2'] := h1.2.1
    refine ⟨val ['c'], ?_⟩
    rw [h5]
    congr 1
    · congr 1; exact_mod_cast h3
    · exact_mod_cast h4
  unfold unsqueeze2dOld
  rw [if_neg (by omega)]
  by_cases h1 : f = 1
  · subst h1
    obtain ⟨z, h1, h2, h3⟩ := unsqueeze_moves hb (B := B) (C := C) (H := H) (W := W) Nat.one_pos (hx.trans (by simp))
    rw [if_pos rfl, h1, show x = z from ext_four hx (by simpa using h2) fun a c h w k1 k2 k3 k4 => ?_]
    simpa using (h3 a c 0 0 h w k1 k2 Nat.one_pos Nat.one_pos k3 k4).symm
  · rw [if_neg h1, hx]
    simp only
    by_cases hc : C % f ^ 2 = 0
    · rw [if_neg (by simpa using hc)]
      have e := views_by_hand x [B, C / f ^ 2, f, f, H, W] [0, 1, 4, 2, 5, 3] [B, C / f ^ 2, H * f, W * f]
      simp only [List.map_cons, List.map_nil, Int.ofNat_eq_natCast] at e
      rw [e, key (C' := C / f ^ 2)]
      have := Nat.div_add_mod C (f ^ 2)
      rw [hc] at this
      rw [mul_assoc, ← pow_two, mul_comm]
      exact this.symm
    · rw [if_pos hc]
      refine ⟨fun h => (by cases h), fun h => ?_⟩
      obtain ⟨C', rfl⟩ := hback h
      exact absurd (by rw [mul_assoc, ← pow_two]; exact Nat.mul_mod_left _ _) hc

/-- **C74** GLOW: `squeeze2d` -/
theorem C74_squeeze2d (hb : Modelled E b) (so : SetOrder) {B C H W f : Nat} (hx : x.shape = [B, C, H, W]) (hf : 1 ≤ f) :
    squeeze2dOld x f = .ok y ↔ rearrange b so (.one x) "b c (h h2) (w w2) -> b (c h2 w2) h w".toList
      [("h2".toList, ⟨(f : Nat), true⟩), ("w2".toList, ⟨(f : Nat), true⟩)] = .ok y := by
  have key : ∀ {H' W' : Nat}, H = H' * f → W = W' * f → rearrange b so (.one x) "b c (h h2) (w w2) -> b (c h2 w2) h w".toList
      [("h2".toList, ⟨(f : Nat), true⟩), ("w2".toList, ⟨(f : Nat), true⟩)] =
        byHand x [B, C, H', f, W', f] [0, 1, 3, 5, 2, 4] [B, C * f * f, H', W'] := by
    rintro H' W' rfl rfl
    exact squeeze_by_hand hb hf hx so
  have hback : rearrange b so (.one x) "b c (h h2) (w w2) -> b (c h2 w2) h w".toList
      [("h2".toList, ⟨(f : Nat), true⟩), ("w2".toList, ⟨(f : Nat), true⟩)] = .ok y → (∃ H', H = H' * f) ∧ ∃ W', W = W' * f := by
    intro h
    obtain ⟨val, h1, h2⟩ := named_lengths hb squeeze_pattern squeeze_names (intKw_two (by decide) _ _) h
    rw [hx] at h1
    simp only [List.map_cons, List.map_nil, List.cons.injEq, and_true] at h1
    have h3 : (val ['h', '2'] : Int) = f := h2 _ (List.mem_cons_self)
    have h4 : (val ['w', '2'] : Int) = f := h2 _ (List.mem_cons_of_mem _ List.mem_cons_self)
    have h5 : H = val ['h'] * val ['h', '2'] := h1.2.2.1
    have h6 : W = val ['w'] * val ['w', '2'] := h1.2.2.2
    refine ⟨⟨val ['h'], ?_⟩, ⟨val ['w'], ?_⟩⟩
    · rw [h5]; congr 1; exact_mod_cast h3
    · rw [h6]; congr 1; exact_mod_cast h4
  unfold squeeze2dOld
  rw [if_neg (by omega)]
  by_cases h1 : f = 1
  · subst h1
    obtain ⟨z, h1, h2, h3⟩ := squeeze_moves hb (B := B) (C := C) (H := H) (W := W) Nat.one_pos (hx.trans (by simp))
    rw [if_pos rfl, h1, show x = z from ext_four hx (by simpa using h2) fun a c h w k1 k2 k3 k4 => ?_]
    simpa using (h3 a c h 0 w 0 k1 k2 k3 Nat.one_pos k4 Nat.one_pos).symm
  · rw [if_neg h1, hx]
    simp only
    by_cases hc : H % f = 0 ∧ W % f = 0
    · rw [if_neg (by simpa using hc)]
      have e := views_by_hand x [B, C, H / f, f, W / f, f] [0, 1, 3, 5, 2, 4] [B, C * f * f, H / f, W / f]
      simp only [List.map_cons, List.map_nil, Int.ofNat_eq_natCast] at e
      rw [e, key (H' := H / f) (W' := W / f) (Nat.div_mul_cancel (Nat.dvd_of_mod_eq_zero hc.1)).symm
        (Nat.div_mul_cancel (Nat.dvd_of_mod_eq_zero hc.2)).symm]
    · rw [if_pos (by tauto)]
      refine ⟨fun h => (by cases h), fun h => ?_⟩
      obtain ⟨⟨H', rfl⟩, ⟨W', rfl⟩⟩ := hback h
      exact absurd ⟨Nat.mul_mod_left _ _, Nat.mul_mod_left _ _⟩ hc

/-- **C74** The convolutional network: what `x.view(-1, n)` makes of a batch of images: as many rows of length `n` as there are. -/
theorem C74_view_rows {B C H W n : Nat} (hx : x.shape = [B, C, H, W]) :
    x.view [-1, (n : Nat)] = .ok y ↔ n ≠ 0 ∧ y.data = x.data ∧ ∃ r, y.shape = [r, n] ∧ r * n = B * (C * H * W) := by
  have e := view_infer (x := x) (y := y) [] [n]
  simp only [List.map_cons, List.map_nil, Int.ofNat_eq_natCast, List.nil_append] at e
  rw [e]
  simp only [List.mem_singleton, withShape_ok]
  constructor
  · rintro ⟨h0, r, h1, h2⟩
    refine ⟨fun h => h0 h.symm, h2, r, h1, ?_⟩
    have := y.wf
    rw [h2, x.wf, hx, h1] at this
    simp only [List.prod_cons, List.prod_nil, Nat.mul_one] at this
    rw [← this]
    simp [mul_assoc]
  · rintro ⟨h0, h1, r, h2, -⟩
    exact ⟨fun h => h0 h.symm, r, h2, h1⟩

/-- **C74** What `Rearrange('b c h w -> b (c h w)')` makes: always a row for each image. -/
theorem C74_flatten_rows (hb : Modelled E b) (so : SetOrder) {B C H W : Nat} (hx : x.shape = [B, C, H, W]) :
    rearrange b so (.one x) "b c h w -> b (c h w)".toList [] = .ok y ↔ y.data = x.data ∧ y.shape = [B, C * H * W] := by
  obtain ⟨z, h1, h2, h3⟩ := flat_moves hb hx
  have hd : z.data = x.data := by
    refine C59_reshape hb intKw_nil (isPattern_ascii flat_pattern) ?_ (h1 so)
    rw [toElem_sideWords, toElem_sideWords]
    rfl
  rw [h1]
  constructor
  · intro h
    cases h
    exact ⟨hd, h2⟩
  · rintro ⟨h4, h5⟩
    congr 1
    obtain ⟨s, d, w⟩ := y
    obtain ⟨s', d', w'⟩ := z
    simp only at h2 hd h4 h5
    subst h2 hd h5 h4
    rfl

/-- so the two agree if the images have `n` elements, and otherwise the old code does not keep the images apart: it fails or
(if the batch is not empty) its rows are not as many as the images -/
theorem C74_flatten (hb : Modelled E b) (so : SetOrder) {B C H W n : Nat} (hx : x.shape = [B, C, H, W]) (hn : 0 < n) :
    (C * H * W = n → x.view [-1, (n : Nat)] = rearrange b so (.one x) "b c h w -> b (c h w)".toList []) ∧
    (C * H * W ≠ n → 0 < B → ∀ y, x.view [-1, (n : Nat)] = .ok y → ∀ r, y.shape = [r, n] → r ≠ B) := by
  constructor
  · intro h
    obtain ⟨z, h1, h2, h3⟩ := flat_moves hb hx
    rw [h1]
    obtain ⟨h4, h5⟩ := (C74_flatten_rows hb so hx).1 (h1 so)
    exact (C74_view_rows hx).2 ⟨hn.ne', h4, B, by rw [h5, h], by rw [h]⟩
  · rintro h hB y hy r hr rfl
    obtain ⟨-, -, r', h1, h2⟩ := (C74_view_rows hx).1 hy
    rw [hr] at h1
    simp only [List.cons.injEq, and_true] at h1
    subst h1
    exact h (Nat.eq_of_mul_eq_mul_left hB h2).symm

/-- **C74** The localization network: `Rearrange('b c h w -> b (c h w)', h=h, w=w)` gives a row for each image if the images have
the given size, and fails otherwise, -/
theorem C74_localization (hb : Modelled E b) (so : SetOrder) {B C H W h w : Nat} (hx : x.shape = [B, C, H, W]) :
    rearrange b so (.one x) "b c h w -> b (c h w)".toList [("h".toList, ⟨(h : Nat), true⟩), ("w".toList, ⟨(w : Nat), true⟩)] = .ok y ↔
      H = h ∧ W = w ∧ y.data = x.data ∧ y.shape = [B, C * h * w] := by
  have hback : rearrange b so (.one x) "b c h w -> b (c h w)".toList
      [("h".toList, ⟨(h : Nat), true⟩), ("w".toList, ⟨(w : Nat), true⟩)] = .ok y → H = h ∧ W = w := by
    intro hy
    obtain ⟨val, h1, h2⟩ := named_lengths hb flat_pattern flat_names (intKw_two (by decide) _ _) hy
    rw [hx] at h1
    simp only [List.map_cons, List.map_nil, List.cons.injEq, and_true] at h1
    have h3 : (val ['h'] : Int) = h := h2 _ (List.mem_cons_self)
    have h4 : (val ['w'] : Int) = w := h2 _ (List.mem_cons_of_mem _ List.mem_cons_self)
    have h5 : H = val ['h'] := h1.2.2.1
    have h6 : W = val ['w'] := h1.2.2.2
    exact ⟨by rw [h5]; exact_mod_cast h3, by rw [h6]; exact_mod_cast h4⟩
  have hok : H = h → W = w → ∃ z, (∀ so, rearrange b so (.one x) "b c h w -> b (c h w)".toList
      [("h".toList, ⟨(h : Nat), true⟩), ("w".toList, ⟨(w : Nat), true⟩)] = .ok z) ∧ z.data = x.data ∧ z.shape = [B, C * h * w] := by
    rintro rfl rfl
    obtain ⟨z, h1, h2, h3⟩ := loc_moves hb hx
    refine ⟨z, h1, ?_, h2⟩
    refine C59_reshape hb (intKw_two (by decide) _ _) (isPattern_ascii flat_pattern) ?_ (h1 so)
    rw [toElem_sideWords, toElem_sideWords]
    rfl
  constructor
  · intro hy
    obtain ⟨e1, e2⟩ := hback hy
    obtain ⟨z, h1, h2, h3⟩ := hok e1 e2
    rw [h1] at hy
    cases hy
    exact ⟨e1, e2, h2, h3⟩
  · rintro ⟨e1, e2, h4, h5⟩
    obtain ⟨z, h1, h2, h3⟩ := hok e1 e2
    rw [h1]
    congr 1
    obtain ⟨s, d, w⟩ := y
    obtain ⟨s', d', w'⟩ := z
    simp only at h2 h3 h4 h5
    subst h2 h3 h5 h4
    rfl

/-- whereas `xs.view(-1, 10 * 3 * 3)` accepts images of any size if the size of the batch is divisible by 9. -/
theorem C74_localization_silent {B H W : Nat} (hx : x.shape = [9 * B, 10, H, W]) :
    ∃ y, x.view [-1, ((10 * 3 * 3 : Nat) : Int)] = .ok y ∧ y.data = x.data ∧ y.shape = [B * (H * W), 90] := by
  obtain ⟨y, h1, h2, h3⟩ := x.withShape_ok (s := [B * (H * W), 90]) (by rw [hx]; simp; ring)
  refine ⟨y, (C74_view_rows hx).2 ⟨by decide, h3, B * (H * W), h2, by ring⟩, h3, h2⟩

/-- **C74** `theta.view(-1, r, c)` -/
theorem C74_theta (hb : Modelled E b) (so : SetOrder) {B r c : Nat} (hx : x.shape = [B, r * c]) (hr : 0 < r) (hc : 0 < c) :
    x.view [-1, (r : Nat), (c : Nat)] = rearrange b so (.one x) "b (row col) -> b row col".toList
      [("row".toList, ⟨(r : Nat), true⟩), ("col".toList, ⟨(c : Nat), true⟩)] := by
  obtain ⟨z, h1, h2, h3⟩ := theta_moves hb hx
  have hd : z.data = x.data := by
    refine C59_reshape hb (intKw_two (by decide) _ _) (isPattern_ascii theta_pattern) ?_ (h1 so)
    rw [toElem_sideWords, toElem_sideWords]
    rfl
  rw [h1]
  have e := view_infer (x := x) (y := z) [] [r, c]
  simp only [List.map_cons, List.map_nil, Int.ofNat_eq_natCast, List.nil_append] at e
  rw [e]
  exact ⟨by simp; omega, B, withShape_ok.2 ⟨h2, hd⟩⟩

/-- **C74** Super-resolution: `nn.PixelShuffle(r)` on `r * r` channels is the new code, with a fake axis. -/
theorem C74_pixel_shuffle (hb : Modelled E b) (so : SetOrder) {B H W r : Nat} (hx : x.shape = [B, r * r, H, W]) (hr : 0 < r) :
    x.pixelShuffle r = (rearrange b so (.one x) "b (h2 w2) h w -> b (h h2) (w w2)".toList
      [("h2".toList, ⟨(r : Nat), true⟩), ("w2".toList, ⟨(r : Nat), true⟩)]).bind fun y => y.expandDims 1 := by
  obtain ⟨y, h1, h2, h3⟩ := pixel_moves hb hx
  rw [h1]
  simp only [Except.bind]
  obtain ⟨z, z1, z2, z3⟩ := expandDims_ok (t := y) (pre := [B]) (s := [H * r, W * r]) h2
  rw [show ([B] : List Nat).length = 1 from rfl] at z1
  rw [z1]
  unfold Tensor.pixelShuffle
  rw [hx]
  simp only
  rw [if_neg (by push Not; exact ⟨hr.ne', Nat.mod_self _⟩), Nat.div_self (Nat.mul_pos hr hr)]
  have hlt : ∀ {p q : Nat}, p < q * r → p / r < q ∧ p % r < r := fun h => ⟨(Nat.div_lt_iff_lt_mul hr).2 h, Nat.mod_lt _ hr⟩
  obtain ⟨w, w1, w2, w3⟩ := build_reads (x := x) (s := [B, 1, H * r, W * r])
    (g := fun i => [nth i 0, nth i 1 * (r * r) + nth i 2 % r * r + nth i 3 % r, nth i 2 / r, nth i 3 / r]) (by
      intro i hi
      obtain ⟨a, c, h, w, rfl, k1, k2, k3, k4⟩ := inBounds_four.1 hi
      rw [hx, inBounds_four]
      refine ⟨_, _, _, _, rfl, k1, ?_, (hlt k3).1, (hlt k4).1⟩
      have e1 := (hlt k3).2
      have e2 := (hlt k4).2
      obtain rfl : c = 0 := by omega
      simp only [nth, List.getD_cons_succ, List.getD_cons_zero, Nat.zero_mul, Nat.zero_add]
      calc h % r * r + w % r < h % r * r + r := by omega
        _ = (h % r + 1) * r := by ring
        _ ≤ r * r := Nat.mul_le_mul_right _ e1)
  rw [w1]
  congr 1
  refine ext_four w2 z2 fun a c h w k1 k2 k3 k4 => ?_
  obtain rfl : c = 0 := by omega
  rw [w3 _ (inBounds_four.2 ⟨a, 0, h, w, rfl, k1, k2, k3, k4⟩)]
  have hu := at_unit (pre := [B]) z2 h2 z3.symm (u := [a]) (v := [h, w]) rfl
  simp only [List.cons_append, List.nil_append] at hu
  rw [← hu]
  have := h3 a (h % r) (w % r) (h / r) (w / r) k1 (hlt k3).2 (hlt k4).2 (hlt k3).1 (hlt k4).1
  rw [Nat.div_add_mod', Nat.div_add_mod'] at this
  simpa [nth] using this.symm

/-- **C74** Language modelling: the decoder is applied to the same matrix, and its output is reshaped in the same way. -/
theorem C74_decoder (hb : Modelled E b) (so : SetOrder) {T B n k : Nat} {dec : Tensor α → Py (Tensor α)} (hx : x.shape = [T, B, n])
    (hd : ∀ z w : Tensor α, z.shape = [T * B, n] → dec z = .ok w → w.shape = [T * B, k]) :
    decodeOld dec x = .ok y ↔
      ((rearrange b so (.one x) "t b nhid -> (t b) nhid".toList []).bind fun z => (dec z).bind fun w =>
        rearrange b so (.one w) "(t b) token -> t b token".toList [("t".toList, ⟨(T : Nat), true⟩), ("b".toList, ⟨(B : Nat), true⟩)]) =
        .ok y := by
  obtain ⟨z, h1, h2, h3⟩ := encode_moves hb hx
  have hz : x.view [(T * B : Nat), (n : Nat)] = .ok z := by
    have e := view_nat x [T * B, n]
    simp only [List.map_cons, List.map_nil, Int.ofNat_eq_natCast] at e
    rw [e]
    refine withShape_ok.2 ⟨h2, C59_reshape hb intKw_nil (isPattern_ascii encode_pattern) ?_ (h1 so)⟩
    rw [toElem_sideWords, toElem_sideWords]
    rfl
  unfold decodeOld
  rw [hx, h1]
  simp only
  rw [hz]
  simp only [Except.bind]
  cases hw : dec z with
  | error e => simp
  | ok w =>
    have hs := hd z w h2 hw
    obtain ⟨y', h4, h5, h6⟩ := decode_moves hb hs
    simp only
    rw [h4, if_pos (by simp [Tensor.ndim, hs]), hs]
    simp only [nth, List.getD_cons_succ, List.getD_cons_zero]
    have e := view_nat w [T, B, k]
    simp only [List.map_cons, List.map_nil, Int.ofNat_eq_natCast] at e
    rw [e, withShape_ok.2 ⟨h5, C59_reshape hb (intKw_two (by decide) _ _) (isPattern_ascii decode_pattern) (by
      rw [toElem_sideWords, toElem_sideWords]; rfl) (h4 so)⟩]

/-- **C74** Text classification: the last two states are the last layer of the rearranged ones, for any number of layers. -/
theorem C74_hidden (hb : Modelled E b) (so : SetOrder) {n B C : Nat} (hx : x.shape = [n * 2, B, C]) :
    lastHiddenOld x = .ok y ↔ ((rearrange b so (.one x) "(layer dir) b c -> layer b (dir c)".toList
      [("dir".toList, ⟨((2 : Nat) : Int), true⟩)]).bind fun h => h.select 0 (-1)) = .ok y := by
  obtain ⟨z, h1, h2, h3⟩ := hidden_moves hb (d := 2) (by decide) hx
  rw [h1]
  simp only [Except.bind]
  unfold lastHiddenOld
  rcases Nat.eq_zero_or_pos n with rfl | hn
  · have e1 : x.select 0 (-2) = .error .index := by
      unfold Tensor.select
      rw [if_pos (by simp [Tensor.ndim, hx]), hx]
      simp [nth]
    have e2 : z.select 0 (-1) = .error .index := by
      unfold Tensor.select
      rw [if_pos (by simp [Tensor.ndim, h2]), h2]
      simp [nth]
    rw [e1, e2]
    simp [Except.bind]
  · obtain ⟨f, f1, f2, f3⟩ := select_ok (pre := []) hx (k := -2) (j := n * 2 - 2) (by rw [if_pos (by decide)]; omega) (by omega)
    obtain ⟨g, g1, g2, g3⟩ := select_ok (pre := []) hx (k := -1) (j := n * 2 - 1) (by rw [if_pos (by decide)]; omega) (by omega)
    obtain ⟨r, r1, r2, r3⟩ := select_ok (pre := []) h2 (k := -1) (j := n - 1) (by rw [if_pos (by decide)]; omega) (by omega)
    simp only [List.length_nil, List.nil_append] at f1 f2 g1 g2 r1 r2
    rw [f1, g1, r1]
    simp only [Except.bind]
    obtain ⟨w, w1, w2, w3⟩ := concat_ok (zs := [f, g]) (ns := [C, C]) (pre := [B]) (post := []) (by simp) rfl (by
      intro k z m hz hm
      match k, hz, hm with
      | 0, hz, hm => cases hz; cases hm; exact f2
      | 1, hz, hm => cases hz; cases hm; exact g2)
    rw [show ([B] : List Nat).length = 1 from rfl] at w1
    rw [w1]
    have hw : w = r := by
      refine ext_two (A := B) (B := 2 * C) (by rw [w2]; simp; omega) r2 fun a c k1 k2 => ?_
      have er := r3 [] [a, c] rfl
      simp only [List.nil_append] at er
      rw [er]
      by_cases hc : c < C
      · have e1 := w3 0 f C rfl rfl [a] c [] (by simp [inBounds, k1]) hc (by simp [inBounds])
        have e2 := f3 [] [a, c] rfl
        have e3 := h3 (n - 1) 0 a c (by omega) (by decide) k1 hc
        simp only [List.nil_append, List.cons_append, List.take_zero, List.sum_nil, Nat.zero_add, Nat.zero_mul] at e1 e2 e3
        rw [e1, e2, e3]
        congr 2
        omega
      · have e1 := w3 1 g C rfl rfl [a] (c - C) [] (by simp [inBounds, k1]) (by omega) (by simp [inBounds])
        have e2 := g3 [] [a, c - C] rfl
        have e3 := h3 (n - 1) 1 a (c - C) (by omega) (by decide) k1 (by omega)
        simp only [List.nil_append, List.cons_append, List.take_succ_cons, List.take_zero, List.sum_cons, List.sum_nil, Nat.add_zero,
          Nat.one_mul, show C + (c - C) = c by omega] at e1 e2 e3
        rw [e1, e2, e3]
        congr 2
        omega
    rw [hw]

/-- The old code then squeezes: it has the same result if there are several texts; for a single text it loses the axis. -/
theorem C74_hidden_squeeze (hb : Modelled E b) (so : SetOrder) {n B C : Nat} (hx : x.shape = [n * 2, B, C]) :
    (B ≠ 1 → (rnnHiddenOld x = .ok y ↔ ((rearrange b so (.one x) "(layer dir) b c -> layer b (dir c)".toList
      [("dir".toList, ⟨((2 : Nat) : Int), true⟩)]).bind fun h => h.select 0 (-1)) = .ok y)) ∧
    (B = 1 → 0 < n → ∃ y z, rnnHiddenOld x = .ok y ∧ ((rearrange b so (.one x) "(layer dir) b c -> layer b (dir c)".toList
      [("dir".toList, ⟨((2 : Nat) : Int), true⟩)]).bind fun h => h.select 0 (-1)) = .ok z ∧ y.shape = [2 * C] ∧ z.shape = [1, 2 * C] ∧
        y.data = z.data) := by
  have key := fun y => C74_hidden (y := y) hb so hx
  obtain ⟨z, h1, h2, h3⟩ := hidden_moves hb (d := 2) (by decide) hx
  have hs : ∀ y, lastHiddenOld x = .ok y → y.shape = [B, 2 * C] := by
    intro y hy
    have := (key y).1 hy
    rw [h1] at this
    simp only [Except.bind] at this
    rw [select_shape this, h2]
    rfl
  constructor
  · intro hB
    rw [← key]
    unfold rnnHiddenOld
    rw [bind_ok_iff]
    constructor
    · rintro ⟨w, w1, w2⟩
      have := squeeze_other (x := w) (pre := []) (post := [2 * C]) (n := B) (hs w w1) hB
      rw [show ([] : List Nat).length = 0 from rfl, w2] at this
      cases this
      exact w1
    · intro hy
      exact ⟨y, hy, squeeze_other (x := y) (pre := []) (post := [2 * C]) (n := B) (hs y hy) hB⟩
  · rintro rfl hn
    obtain ⟨r, r1, r2, r3⟩ := select_ok (pre := []) h2 (k := -1) (j := n - 1) (by rw [if_pos (by decide)]; omega) (by omega)
    have hr : lastHiddenOld x = .ok r := (key r).2 (by rw [h1]; exact r1)
    obtain ⟨y, y1, y2, y3, -⟩ := squeeze_ok (x := r) (pre := []) (post := [2 * C]) (hs r hr)
    refine ⟨y, r, ?_, by rw [h1]; exact r1, y2, hs r hr, y3⟩
    unfold rnnHiddenOld
    rw [hr]
    exact y1

end

/-! ### Cases -/

/-- the tensor of a shape with elements 0, 1, 2, … -/
def ramp (s : List Nat) : Tensor Int := ⟨s, (List.range s.prod).map Int.ofNat, by simp⟩

section
attribute [local instance] asciiUnicode

/-- 4 channels in 2 groups -/
example : (channelShuffleOld (ramp [1, 4, 1, 2]) 2).map Tensor.data = .ok [0, 1, 4, 5, 2, 3, 6, 7] ∧
    ∀ so y, channelShuffleOld (ramp [1, 4, 1, 2]) 2 = .ok y → rearrange (numpyBackend intOps true) so (.one (ramp [1, 4, 1, 2]))
      "b (c1 c2) h w -> b (c2 c1) h w".toList [("c1".toList, ⟨(2 : Nat), true⟩)] = .ok y :=
  ⟨by decide +kernel, fun so y h => ((C74_channel_shuffle (Computes.numpy (o := []) true).modelled so rfl (by decide)).1 h).2⟩

/-- 4 channels in 3 groups: both fail -/
example : channelShuffleOld (ramp [1, 4, 1, 2]) 3 = .error .backend ∧
    ∀ so y, rearrange (numpyBackend intOps true) so (.one (ramp [1, 4, 1, 2]))
      "b (c1 c2) h w -> b (c2 c1) h w".toList [("c1".toList, ⟨(3 : Nat), true⟩)] ≠ .ok y := by
  have e : channelShuffleOld (ramp [1, 4, 1, 2]) 3 = .error .backend := by decide +kernel
  refine ⟨e, fun so y h => ?_⟩
  have := (C74_channel_shuffle (x := ramp [1, 4, 1, 2]) (Computes.numpy (o := []) true).modelled so rfl (by decide)).2 ⟨by decide, h⟩
  rw [e] at this
  cases this

/-- an empty batch: the old code does not find the number of channels -/
example : channelShuffleOld (ramp [0, 4, 1, 2]) 2 = .error .backend ∧
    (rearrange (numpyBackend intOps true) idOrder (.one (ramp [0, 4, 1, 2])) "b (c1 c2) h w -> b (c2 c1) h w".toList
      [("c1".toList, ⟨(2 : Nat), true⟩)]).map Tensor.shape = .ok [0, 4, 1, 2] := by
  constructor <;> decide +kernel

example : ∃ y, unsqueeze2dOld (ramp [1, 4, 1, 2]) 2 = .ok y ∧ y.shape = [1, 1, 2, 4] ∧ y.data = [0, 2, 1, 3, 4, 6, 5, 7] ∧
    ∀ so, rearrange (numpyBackend intOps true) so (.one (ramp [1, 4, 1, 2])) "b (c h2 w2) h w -> b c (h h2) (w w2)".toList
      [("h2".toList, ⟨(2 : Nat), true⟩), ("w2".toList, ⟨(2 : Nat), true⟩)] = .ok y :=
  ⟨⟨[1, 1, 2, 4], [0, 2, 1, 3, 4, 6, 5, 7], rfl⟩, by decide +kernel, rfl, rfl, fun so =>
    (C74_unsqueeze2d (Computes.numpy (o := []) true).modelled so rfl (by decide)).1 (by decide +kernel)⟩

example : ∃ y, squeeze2dOld (ramp [1, 1, 2, 4]) 2 = .ok y ∧ y.shape = [1, 4, 1, 2] ∧ y.data = [0, 2, 1, 3, 4, 6, 5, 7] ∧
    ∀ so, rearrange (numpyBackend intOps true) so (.one (ramp [1, 1, 2, 4])) "b c (h h2) (w w2) -> b (c h2 w2) h w".toList
      [("h2".toList, ⟨(2 : Nat), true⟩), ("w2".toList, ⟨(2 : Nat), true⟩)] = .ok y :=
  ⟨⟨[1, 4, 1, 2], [0, 2, 1, 3, 4, 6, 5, 7], rfl⟩, by decide +kernel, rfl, rfl, fun so =>
    (C74_squeeze2d (Computes.numpy (o := []) true).modelled so rfl (by decide)).1 (by decide +kernel)⟩

/-- `view(-1, 3)` of 3 images of 2 pixels mixes the images -/
example : ((ramp [3, 1, 1, 2]).view [-1, 3]).map Tensor.shape = .ok [2, 3] ∧
    ∀ so y, rearrange (numpyBackend intOps true) so (.one (ramp [3, 1, 1, 2])) "b c h w -> b (c h w)".toList [] = .ok y →
      y.shape = [3, 2] :=
  ⟨by decide +kernel, fun so y h => ((C74_flatten_rows (Computes.numpy (o := []) true).modelled so rfl).1 h).2⟩

example (so : SetOrder) : (ramp [3, 1, 1, 2]).view [-1, 2] =
    rearrange (numpyBackend intOps true) so (.one (ramp [3, 1, 1, 2])) "b c h w -> b (c h w)".toList [] :=
  (C74_flatten (Computes.numpy (o := []) true).modelled so rfl (by decide)).1 rfl

/-- images of 1 × 2 when 2 × 1 are expected -/
example (so : SetOrder) (y : Tensor Int) : rearrange (numpyBackend intOps true) so (.one (ramp [3, 1, 1, 2])) "b c h w -> b (c h w)".toList
    [("h".toList, ⟨(2 : Nat), true⟩), ("w".toList, ⟨(1 : Nat), true⟩)] ≠ .ok y :=
  fun h => absurd ((C74_localization (Computes.numpy (o := []) true).modelled so rfl).1 h).1 (by decide)

example : ((ramp [9, 10, 1, 2]).view [-1, 90]).map Tensor.shape = .ok [2, 90] := by decide +kernel

example (so : SetOrder) : (ramp [2, 6]).view [-1, 2, 3] = rearrange (numpyBackend intOps true) so (.one (ramp [2, 6]))
    "b (row col) -> b row col".toList [("row".toList, ⟨(2 : Nat), true⟩), ("col".toList, ⟨(3 : Nat), true⟩)] :=
  C74_theta (Computes.numpy (o := []) true).modelled so rfl (by decide) (by decide)

example : ((ramp [1, 4, 1, 2]).pixelShuffle 2).map Tensor.data = .ok [0, 2, 1, 3, 4, 6, 5, 7] ∧
    ∀ so, (ramp [1, 4, 1, 2]).pixelShuffle 2 = (rearrange (numpyBackend intOps true) so (.one (ramp [1, 4, 1, 2]))
      "b (h2 w2) h w -> b (h h2) (w w2)".toList
      [("h2".toList, ⟨(2 : Nat), true⟩), ("w2".toList, ⟨(2 : Nat), true⟩)]).bind fun y => y.expandDims 1 :=
  ⟨by decide +kernel, fun so => C74_pixel_shuffle (Computes.numpy (o := []) true).modelled so rfl (by decide)⟩

/-- a decoder that keeps the first column -/
example : (decodeOld (fun z => z.slice 1 0 1) (ramp [2, 3, 2])).map Tensor.data = .ok [0, 2, 4, 6, 8, 10] := by decide +kernel

example (so : SetOrder) (y : Tensor Int) : decodeOld (fun z => z.slice 1 0 1) (ramp [2, 3, 2]) = .ok y ↔
    ((rearrange (numpyBackend intOps true) so (.one (ramp [2, 3, 2])) "t b nhid -> (t b) nhid".toList []).bind fun z =>
      (z.slice 1 0 1).bind fun w => rearrange (numpyBackend intOps true) so (.one w) "(t b) token -> t b token".toList
        [("t".toList, ⟨(2 : Nat), true⟩), ("b".toList, ⟨(3 : Nat), true⟩)]) = .ok y :=
  C74_decoder (k := 1) (Computes.numpy (o := []) true).modelled so rfl (fun z w hz hw => by
    obtain ⟨y, h1, h2, -⟩ := slice_ok (x := z) (pre := [6]) (N := 2) (post := []) hz 0 1
    rw [show ([6] : List Nat).length = 1 from rfl, hw] at h1
    cases h1
    exact h2)

/-- two layers, two directions -/
example : (lastHiddenOld (ramp [4, 2, 1])).map Tensor.data = .ok [4, 6, 5, 7] ∧
    ∀ so y, lastHiddenOld (ramp [4, 2, 1]) = .ok y → ((rearrange (numpyBackend intOps true) so (.one (ramp [4, 2, 1]))
      "(layer dir) b c -> layer b (dir c)".toList [("dir".toList, ⟨((2 : Nat) : Int), true⟩)]).bind fun h => h.select 0 (-1)) = .ok y :=
  ⟨by decide +kernel, fun so y h => (C74_hidden (n := 2) (Computes.numpy (o := []) true).modelled so rfl).1 h⟩

/-- the new code also handles one direction, where the old one fails or joins different layers -/
example : lastHiddenOld (ramp [1, 2, 1]) = .error .index ∧
    (lastHiddenOld (ramp [2, 2, 1])).map Tensor.shape = .ok [2, 2] ∧
    ((rearrange (numpyBackend intOps true) idOrder (.one (ramp [2, 2, 1])) "(layer dir) b c -> layer b (dir c)".toList
      [("dir".toList, ⟨((1 : Nat) : Int), true⟩)]).bind fun h => h.select 0 (-1)).map Tensor.data = .ok [2, 3] := by
  refine ⟨?_, ?_, ?_⟩ <;> decide +kernel

/-- a single text: the axis is lost -/
example : (rnnHiddenOld (ramp [4, 1, 2])).map Tensor.shape = .ok [4] ∧ (lastHiddenOld (ramp [4, 1, 2])).map Tensor.shape = .ok [1, 4] := by
  constructor <;> decide +kernel

end

end Einops
