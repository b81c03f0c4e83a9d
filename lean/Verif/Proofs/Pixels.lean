import Verif.PixelPrograms
import Verif.Proofs.Strided
import Verif.Props.EinsumDocumented

/-! Operations on pixels. -/

namespace Einops

universe u
variable {α : Type u} {x y z : Tensor α}

namespace Pixels

open Strided (ok_bind)

section
attribute [local instance] asciiUnicode

theorem rows_pattern : @IsPattern asciiUnicode "b c h w -> (b h w) c".toList
    ([[['b']], [['c']], [['h']], [['w']]].map toElem) ([[['b'], ['h'], ['w']], [['c']]].map toElem) :=
  ⟨"b c h w ".toList, " (b h w) c".toList, by decide,
    isSide_of (by decide) (by decide) (by decide) (by decide), isSide_of (by decide) (by decide) (by decide) (by decide)⟩

theorem rows_names : ∀ w ∈ [[['b']], [['c']], [['h']], [['w']]].flatten, @IsName asciiUnicode false w := by decide

theorem back_pattern : @IsPattern asciiUnicode "(b h w) c2 -> b c2 h w".toList
    ([[['b'], ['h'], ['w']], [['c', '2']]].map toElem) ([[['b']], [['c', '2']], [['h']], [['w']]].map toElem) :=
  ⟨"(b h w) c2 ".toList, " b c2 h w".toList, by decide,
    isSide_of (by decide) (by decide) (by decide) (by decide), isSide_of (by decide) (by decide) (by decide) (by decide)⟩

theorem back_names : ∀ w ∈ [[['b'], ['h'], ['w']], [['c', '2']]].flatten, @IsName asciiUnicode false w := by decide

theorem groups_pattern : @IsPattern asciiUnicode "b (c g) h w -> g b c h w".toList
    ([[['b']], [['c'], ['g']], [['h']], [['w']]].map toElem) ([[['g']], [['b']], [['c']], [['h']], [['w']]].map toElem) :=
  ⟨"b (c g) h w ".toList, " g b c h w".toList, by decide,
    isSide_of (by decide) (by decide) (by decide) (by decide), isSide_of (by decide) (by decide) (by decide) (by decide)⟩

theorem groups_names : ∀ w ∈ [[['b']], [['c'], ['g']], [['h']], [['w']]].flatten, @IsName asciiUnicode false w := by decide

theorem picture_names : ∀ w ∈ [['b'], ['h'], ['w']], @IsName asciiUnicode false w := by decide

theorem picture_side : @IsSide asciiUnicode true false "b _ h w".toList [.bare ['b'], .bare ['_'], .bare ['h'], .bare ['w']] :=
  isSide_of (by decide) (by decide) (by decide) (by decide)

end

theorem even_acts (C : Nat) : ActsOnItems (α := α) Tensor.evenColumns [C] [(C + 1) / 2] (fun item i => match i with
    | [c] => item [c * 2]
    | _ => none) := by
  intro N x hx
  have hin : ∀ i, inBounds i [N, (C + 1) / 2] = true → inBounds [nth i 0, nth i 1 * 2] x.shape = true := by
    intro i hi
    obtain ⟨n, c, rfl, hn, hc⟩ := inBounds_two.1 hi
    rw [hx]
    exact inBounds_two.2 ⟨_, _, rfl, hn, by simp only [nth, List.getD_cons_succ, List.getD_cons_zero]; omega⟩
  obtain ⟨y, h1, h2, h3⟩ := Tensor.build_total (shape := [N, (C + 1) / 2]) (f := fun i => x.getE [nth i 0, nth i 1 * 2]) (fun i hi => by
    obtain ⟨v, hv⟩ := x.at?_isSome (hin i hi)
    exact ⟨v, x.getE_eq_ok.2 hv⟩)
  refine ⟨y, by unfold Tensor.evenColumns; simp only [hx]; exact h1, h2, fun n i hn hi => ?_⟩
  match i, hi with
  | [c], hi =>
    have hi' : inBounds [n, c] [N, (C + 1) / 2] = true := inBounds_cons.2 ⟨hn, hi⟩
    obtain ⟨v, v1, v2⟩ := (Tensor.build_ok h1).2 [n, c] hi'
    rw [v2]
    exact (x.getE_eq_ok.1 v1).symm
  | c :: d :: k, hi => simp [inBounds] at hi

section
variable [PyUnicode] {E : ElemOps α} {b : Backend α}

theorem rows_moves (hb : Modelled E b) {B C H W : Nat} (h : x.shape = [B, C, H, W]) :
    ∃ y, (∀ so, rearrange b so (.one x) "b c h w -> (b h w) c".toList [] = .ok y) ∧ y.shape = [B * H * W, C] ∧
      ∀ n c i j, n < B → c < C → i < H → j < W → y.at? [(n * H + i) * W + j, c] = x.at? [n, c, i, j] := by
  have hn : Named "b c h w -> (b h w) c".toList [[['b']], [['c']], [['h']], [['w']]] [[['b'], ['h'], ['w']], [['c']]] []
      (look [['b'], ['c'], ['h'], ['w']] [B, C, H, W]) x.shape :=
    .of _ _ [] [] rows_pattern rows_names (by decide) (by decide)
      (by decide) (by decide) (by decide) (by decide) rfl (by rw [h]; simp [span, look]) (by simp)
  obtain ⟨z, h1, h2, h3⟩ := hn.moves hb
  refine ⟨z, h1, by rw [h2]; simp [span, look, mul_assoc], fun n c i j hn hc hi hj => ?_⟩
  have := h3 (look [['b'], ['c'], ['h'], ['w']] [n, c, i, j]) (by simp [look, hn, hc, hi, hj])
  simpa [place, look] using this

theorem back_moves (hb : Modelled E b) {B C H W : Nat} (h : x.shape = [B * H * W, C]) :
    ∃ y, (∀ so, rearrange b so (.one x) "(b h w) c2 -> b c2 h w".toList
        [(['b'], ⟨B, true⟩), (['h'], ⟨H, true⟩), (['w'], ⟨W, true⟩)] = .ok y) ∧ y.shape = [B, C, H, W] ∧
      ∀ n c i j, n < B → c < C → i < H → j < W → y.at? [n, c, i, j] = x.at? [(n * H + i) * W + j, c] := by
  have hn : Named "(b h w) c2 -> b c2 h w".toList [[['b'], ['h'], ['w']], [['c', '2']]] [[['b']], [['c', '2']], [['h']], [['w']]]
      [(['b'], ⟨B, true⟩), (['h'], ⟨H, true⟩), (['w'], ⟨W, true⟩)] (look [['b'], ['c', '2'], ['h'], ['w']] [B, C, H, W]) x.shape :=
    .of _ _ [['b'], ['h'], ['w']] [] back_pattern back_names (by decide) (by decide)
      (by decide) (by decide) (by decide) (by decide) rfl (by rw [h]; simp [span, look, mul_assoc]) (by simp)
  obtain ⟨z, h1, h2, h3⟩ := hn.moves hb
  refine ⟨z, h1, by rw [h2]; simp [span, look], fun n c i j hn hc hi hj => ?_⟩
  have := h3 (look [['b'], ['c', '2'], ['h'], ['w']] [n, c, i, j]) (by simp [look, hn, hc, hi, hj])
  simpa [place, look] using this

theorem groups_moves (hb : Modelled E b) {B C H W : Nat} (h : x.shape = [B, C * 2, H, W]) :
    ∃ y, (∀ so, rearrange b so (.one x) "b (c g) h w -> g b c h w".toList [("g".toList, ⟨2, true⟩)] = .ok y) ∧ y.shape = [2, B, C, H, W] ∧
      ∀ g n c i j, g < 2 → n < B → c < C → i < H → j < W → y.at? [g, n, c, i, j] = x.at? [n, c * 2 + g, i, j] := by
  have hn : Named "b (c g) h w -> g b c h w".toList [[['b']], [['c'], ['g']], [['h']], [['w']]] [[['g']], [['b']], [['c']], [['h']], [['w']]]
      [("g".toList, ⟨2, true⟩)] (look [['b'], ['c'], ['g'], ['h'], ['w']] [B, C, 2, H, W]) x.shape :=
    .of _ _ [['g']] [['g']] groups_pattern groups_names (by decide) (by decide)
      (by decide) (by decide) (by decide) (by decide) rfl (by rw [h]; simp [span, look]) (by simp [look])
  obtain ⟨z, h1, h2, h3⟩ := hn.moves hb
  refine ⟨z, h1, by rw [h2]; simp [span, look], fun g n c i j hg hn hc hi hj => ?_⟩
  have := h3 (look [['b'], ['c'], ['g'], ['h'], ['w']] [n, c, g, i, j]) (by simp [look, hg, hn, hc, hi, hj])
  simpa [place, look] using this

variable {op : Tensor α → Py (Tensor α)} {Φ : (List Nat → Option α) → List Nat → Option α}

theorem pixels (hb : Modelled E b) {B C C' H W : Nat} (hx : x.shape = [B, C, H, W]) (hop : ActsOnItems op [C] [C'] Φ) :
    ∃ y, (∀ so, pixelwise b so x op = .ok y) ∧ y.shape = [B, C', H, W] ∧
      ∀ n c i j, n < B → c < C' → i < H → j < W → y.at? [n, c, i, j] =
        Φ (fun k => match k with
          | [e] => x.at? [n, e, i, j]
          | _ => none) [c] := by
  obtain ⟨x1, e1, s1, p1⟩ := rows_moves hb hx
  obtain ⟨x2, e2, s2, p2⟩ := hop _ x1 s1
  obtain ⟨y, e3, s3, p3⟩ := back_moves hb s2
  have hd : parseShape x.shape "b _ h w".toList = .ok [(['b'], B), (['h'], H), (['w'], W)] := by
    rw [hx]
    exact C71_parse_shape (fun s hs => isName_ascii (picture_names s hs)) (isSide_ascii picture_side)
  refine ⟨y, fun so => ?_, s3, fun n c i j hn hc hi hj => ?_⟩
  · unfold pixelwise
    rw [e1, ok_bind, e2, ok_bind, hd]
    exact e3 so
  · have hq : (n * H + i) * W + j < B * H * W := Strided.batch_lt (Strided.batch_lt hn hi) hj
    rw [p3 n c i j hn hc hi hj, p2 _ [c] hq (by simp [inBounds, hc])]
    congr 1
    funext k
    by_cases hk : inBounds k [C] = true
    · obtain ⟨e, rfl, he⟩ : ∃ e, k = [e] ∧ e < C := by
        match k, hk with
        | [e], hk => exact ⟨e, rfl, by simpa [inBounds] using hk⟩
        | e :: f :: k, hk => simp [inBounds] at hk
      exact p1 n e i j hn he hi hj
    · have l : x1.at? (((n * H + i) * W + j) :: k) = none := by
        rw [Tensor.at?, if_neg]
        rw [s1, inBounds_cons]
        exact fun h => hk h.2
      rw [l]
      split
      · rename_i e
        symm
        rw [Tensor.at?, if_neg]
        rw [hx, inBounds_four]
        rintro ⟨a, d, f, g, h, -, hd, -⟩
        cases h
        exact hk (by simp [inBounds, hd])
      · rfl

theorem groups [CommSemiring α] (hb : Modelled E b) {B C H W : Nat} (hx : x.shape = [B, C * 2, H, W]) :
    ∃ y, (∀ so, twoGroups b so x = .ok y) ∧ y.shape = [B, C, H, W] ∧
      ∀ n c i j, n < B → c < C → i < H → j < W → y.at? [n, c, i, j] = some (entry x [n, c * 2, i, j] + entry x [n, c * 2 + 1, i, j]) := by
  obtain ⟨x1, e1, s1, p1⟩ := groups_moves hb hx
  obtain ⟨y1, e2, p2⟩ := (Yolo.Has.of 0 s1).select (axis := 0) (k := 0) (by simp) (by simp [nth])
  obtain ⟨y2, e3, p3⟩ := (Yolo.Has.of 0 s1).select (axis := 0) (k := 1) (by simp) (by simp [nth])
  obtain ⟨y, e4, s4, p4⟩ := p2.zipSame p3 (· + ·)
  refine ⟨y, fun so => ?_, s4, fun n c i j hn hc hi hj => ?_⟩
  · unfold twoGroups
    simp only [Nat.cast_zero, Nat.cast_one] at e2 e3
    rw [e1, ok_bind, if_pos (by rw [s1]; rfl), e2, ok_bind, e3, ok_bind, e4]
  · rw [p4 _ (inBounds_four.2 ⟨_, _, _, _, rfl, hn, hc, hi, hj⟩)]
    simp only [List.take_zero, List.drop_zero, List.nil_append]
    rw [p1 0 n c i j (by omega) hn hc hi hj, p1 1 n c i j (by omega) hn hc hi hj]
    rfl

end

end Pixels

end Einops
