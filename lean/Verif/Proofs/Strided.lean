import Verif.StridedPrograms
import Verif.Proofs.TorchOps
import Verif.Proofs.TorchRewrites
import Verif.Proofs.Yolo
import Mathlib.Tactic.Ring

/-! The strided convolutions. -/

namespace Einops

universe u
variable {α : Type u} {x y z : Tensor α}

namespace Strided

theorem ok_bind {β γ : Type u} (a : β) (f : β → Py γ) : (Except.ok a : Py β).bind f = f a := rfl

section
attribute [local instance] asciiUnicode

theorem flat_pattern : @IsPattern asciiUnicode "b c t1 t2 -> b c (t1 t2)".toList
    ([[['b']], [['c']], [['t', '1']], [['t', '2']]].map toElem) ([[['b']], [['c']], [['t', '1'], ['t', '2']]].map toElem) :=
  ⟨"b c t1 t2 ".toList, " b c (t1 t2)".toList, by decide,
    isSide_of (by decide) (by decide) (by decide) (by decide), isSide_of (by decide) (by decide) (by decide) (by decide)⟩

theorem flat_names : ∀ w ∈ [[['b']], [['c']], [['t', '1']], [['t', '2']]].flatten, @IsName asciiUnicode false w := by decide

theorem split_pattern : @IsPattern asciiUnicode "b c (t stride) -> (stride b) c t".toList
    ([[['b']], [['c']], [['t'], ['s', 't', 'r', 'i', 'd', 'e']]].map toElem)
    ([[['s', 't', 'r', 'i', 'd', 'e'], ['b']], [['c']], [['t']]].map toElem) :=
  ⟨"b c (t stride) ".toList, " (stride b) c t".toList, by decide,
    isSide_of (by decide) (by decide) (by decide) (by decide), isSide_of (by decide) (by decide) (by decide) (by decide)⟩

theorem split_names : ∀ w ∈ [[['b']], [['c']], [['t'], ['s', 't', 'r', 'i', 'd', 'e']]].flatten, @IsName asciiUnicode false w := by decide

theorem join_pattern : @IsPattern asciiUnicode "(stride b) c t -> b c (t stride)".toList
    ([[['s', 't', 'r', 'i', 'd', 'e'], ['b']], [['c']], [['t']]].map toElem)
    ([[['b']], [['c']], [['t'], ['s', 't', 'r', 'i', 'd', 'e']]].map toElem) :=
  ⟨"(stride b) c t ".toList, " b c (t stride)".toList, by decide,
    isSide_of (by decide) (by decide) (by decide) (by decide), isSide_of (by decide) (by decide) (by decide) (by decide)⟩

theorem join_names : ∀ w ∈ [[['s', 't', 'r', 'i', 'd', 'e'], ['b']], [['c']], [['t']]].flatten, @IsName asciiUnicode false w := by decide

theorem split2_pattern : @IsPattern asciiUnicode "b c (h hs) (w ws) -> (hs ws b) c h w".toList
    ([[['b']], [['c']], [['h'], ['h', 's']], [['w'], ['w', 's']]].map toElem)
    ([[['h', 's'], ['w', 's'], ['b']], [['c']], [['h']], [['w']]].map toElem) :=
  ⟨"b c (h hs) (w ws) ".toList, " (hs ws b) c h w".toList, by decide,
    isSide_of (by decide) (by decide) (by decide) (by decide), isSide_of (by decide) (by decide) (by decide) (by decide)⟩

theorem split2_names : ∀ w ∈ [[['b']], [['c']], [['h'], ['h', 's']], [['w'], ['w', 's']]].flatten, @IsName asciiUnicode false w := by decide

theorem join2_pattern : @IsPattern asciiUnicode "(hs ws b) c h w -> b c (h hs) (w ws)".toList
    ([[['h', 's'], ['w', 's'], ['b']], [['c']], [['h']], [['w']]].map toElem)
    ([[['b']], [['c']], [['h'], ['h', 's']], [['w'], ['w', 's']]].map toElem) :=
  ⟨"(hs ws b) c h w ".toList, " b c (h hs) (w ws)".toList, by decide,
    isSide_of (by decide) (by decide) (by decide) (by decide), isSide_of (by decide) (by decide) (by decide) (by decide)⟩

theorem join2_names : ∀ w ∈ [[['h', 's'], ['w', 's'], ['b']], [['c']], [['h']], [['w']]].flatten, @IsName asciiUnicode false w := by decide

theorem deep_pattern : @IsPattern asciiUnicode "b c (t dt) -> b (dt c) t".toList
    ([[['b']], [['c']], [['t'], ['d', 't']]].map toElem) ([[['b']], [['d', 't'], ['c']], [['t']]].map toElem) :=
  ⟨"b c (t dt) ".toList, " b (dt c) t".toList, by decide,
    isSide_of (by decide) (by decide) (by decide) (by decide), isSide_of (by decide) (by decide) (by decide) (by decide)⟩

theorem deep_names : ∀ w ∈ [[['b']], [['c']], [['t'], ['d', 't']]].flatten, @IsName asciiUnicode false w := by decide

theorem wide_pattern : @IsPattern asciiUnicode "b (dt c) t -> b c (t dt)".toList
    ([[['b']], [['d', 't'], ['c']], [['t']]].map toElem) ([[['b']], [['c']], [['t'], ['d', 't']]].map toElem) :=
  ⟨"b (dt c) t ".toList, " b c (t dt)".toList, by decide,
    isSide_of (by decide) (by decide) (by decide) (by decide), isSide_of (by decide) (by decide) (by decide) (by decide)⟩

theorem wide_names : ∀ w ∈ [[['b']], [['d', 't'], ['c']], [['t']]].flatten, @IsName asciiUnicode false w := by decide

theorem shuffle_pattern : @IsPattern asciiUnicode "b (c1 c2) h w-> b (c2 c1) h w".toList
    ([[['b']], [['c', '1'], ['c', '2']], [['h']], [['w']]].map toElem)
    ([[['b']], [['c', '2'], ['c', '1']], [['h']], [['w']]].map toElem) :=
  ⟨"b (c1 c2) h w".toList, " b (c2 c1) h w".toList, by decide,
    isSide_of (by decide) (by decide) (by decide) (by decide), isSide_of (by decide) (by decide) (by decide) (by decide)⟩

theorem shuffle_names : ∀ w ∈ [[['b']], [['c', '1'], ['c', '2']], [['h']], [['w']]].flatten, @IsName asciiUnicode false w := by decide

end

section
variable [PyUnicode] {E : ElemOps α} {b : Backend α}

theorem flat_moves (hb : Modelled E b) {B C T U : Nat} (h : x.shape = [B, C, T, U]) :
    ∃ y, (∀ so, rearrange b so (.one x) "b c t1 t2 -> b c (t1 t2)".toList [] = .ok y) ∧ y.shape = [B, C, T * U] ∧
      ∀ n c t u, n < B → c < C → t < T → u < U → y.at? [n, c, t * U + u] = x.at? [n, c, t, u] := by
  have hn : Named "b c t1 t2 -> b c (t1 t2)".toList [[['b']], [['c']], [['t', '1']], [['t', '2']]]
      [[['b']], [['c']], [['t', '1'], ['t', '2']]] [] (look [['b'], ['c'], ['t', '1'], ['t', '2']] [B, C, T, U]) x.shape :=
    .of _ _ [] [] flat_pattern flat_names (by decide) (by decide)
      (by decide) (by decide) (by decide) (by decide) rfl (by rw [h]; simp [span, look]) (by simp)
  obtain ⟨z, h1, h2, h3⟩ := hn.moves hb
  refine ⟨z, h1, by rw [h2]; simp [span, look], fun n c t u hn hc ht hu => ?_⟩
  have := h3 (look [['b'], ['c'], ['t', '1'], ['t', '2']] [n, c, t, u]) (by simp [look, hn, hc, ht, hu])
  simpa [place, look] using this

theorem split_moves (hb : Modelled E b) {B C T S : Nat} (hS : 0 < S) (h : x.shape = [B, C, T * S]) :
    ∃ y, (∀ so, rearrange b so (.one x) "b c (t stride) -> (stride b) c t".toList [("stride".toList, ⟨S, true⟩)] = .ok y) ∧
      y.shape = [S * B, C, T] ∧
      ∀ n c t s, n < B → c < C → t < T → s < S → y.at? [s * B + n, c, t] = x.at? [n, c, t * S + s] := by
  have hn : Named "b c (t stride) -> (stride b) c t".toList [[['b']], [['c']], [['t'], ['s', 't', 'r', 'i', 'd', 'e']]]
      [[['s', 't', 'r', 'i', 'd', 'e'], ['b']], [['c']], [['t']]] [("stride".toList, ⟨S, true⟩)]
      (look [['b'], ['c'], ['t'], ['s', 't', 'r', 'i', 'd', 'e']] [B, C, T, S]) x.shape :=
    .of _ _ [['s', 't', 'r', 'i', 'd', 'e']] [['s', 't', 'r', 'i', 'd', 'e']] split_pattern split_names (by decide) (by decide)
      (by decide) (by decide) (by decide) (by decide) rfl (by rw [h]; simp [span, look]) (by simp [look, hS.ne'])
  obtain ⟨z, h1, h2, h3⟩ := hn.moves hb
  refine ⟨z, h1, by rw [h2]; simp [span, look], fun n c t s hn hc ht hs => ?_⟩
  have := h3 (look [['b'], ['c'], ['t'], ['s', 't', 'r', 'i', 'd', 'e']] [n, c, t, s]) (by simp [look, hn, hc, ht, hs])
  simpa [place, look] using this

theorem join_moves (hb : Modelled E b) {B C T S : Nat} (hS : 0 < S) (h : x.shape = [S * B, C, T]) :
    ∃ y, (∀ so, rearrange b so (.one x) "(stride b) c t -> b c (t stride)".toList [("stride".toList, ⟨S, true⟩)] = .ok y) ∧
      y.shape = [B, C, T * S] ∧
      ∀ n c t s, n < B → c < C → t < T → s < S → y.at? [n, c, t * S + s] = x.at? [s * B + n, c, t] := by
  have hn : Named "(stride b) c t -> b c (t stride)".toList [[['s', 't', 'r', 'i', 'd', 'e'], ['b']], [['c']], [['t']]]
      [[['b']], [['c']], [['t'], ['s', 't', 'r', 'i', 'd', 'e']]] [("stride".toList, ⟨S, true⟩)]
      (look [['b'], ['c'], ['t'], ['s', 't', 'r', 'i', 'd', 'e']] [B, C, T, S]) x.shape :=
    .of _ _ [['s', 't', 'r', 'i', 'd', 'e']] [['s', 't', 'r', 'i', 'd', 'e']] join_pattern join_names (by decide) (by decide)
      (by decide) (by decide) (by decide) (by decide) rfl (by rw [h]; simp [span, look]) (by simp [look, hS.ne'])
  obtain ⟨z, h1, h2, h3⟩ := hn.moves hb
  refine ⟨z, h1, by rw [h2]; simp [span, look], fun n c t s hn hc ht hs => ?_⟩
  have := h3 (look [['b'], ['c'], ['t'], ['s', 't', 'r', 'i', 'd', 'e']] [n, c, t, s]) (by simp [look, hn, hc, ht, hs])
  simpa [place, look] using this

theorem split2_moves (hb : Modelled E b) {B C H W R S : Nat} (hR : 0 < R) (hS : 0 < S) (h : x.shape = [B, C, H * R, W * S]) :
    ∃ y, (∀ so, rearrange b so (.one x) "b c (h hs) (w ws) -> (hs ws b) c h w".toList
        [("hs".toList, ⟨R, true⟩), ("ws".toList, ⟨S, true⟩)] = .ok y) ∧ y.shape = [R * S * B, C, H, W] ∧
      ∀ n c i j r s, n < B → c < C → i < H → j < W → r < R → s < S →
        y.at? [(r * S + s) * B + n, c, i, j] = x.at? [n, c, i * R + r, j * S + s] := by
  have hn : Named "b c (h hs) (w ws) -> (hs ws b) c h w".toList [[['b']], [['c']], [['h'], ['h', 's']], [['w'], ['w', 's']]]
      [[['h', 's'], ['w', 's'], ['b']], [['c']], [['h']], [['w']]] [("hs".toList, ⟨R, true⟩), ("ws".toList, ⟨S, true⟩)]
      (look [['b'], ['c'], ['h'], ['h', 's'], ['w'], ['w', 's']] [B, C, H, R, W, S]) x.shape :=
    .of _ _ [['h', 's'], ['w', 's']] [['h', 's'], ['w', 's']] split2_pattern split2_names (by decide) (by decide)
      (by decide) (by decide) (by decide) (by decide) rfl (by rw [h]; simp [span, look]) (by simp [look, hS.ne', hR.ne'])
  obtain ⟨z, h1, h2, h3⟩ := hn.moves hb
  refine ⟨z, h1, by rw [h2]; simp [span, look, mul_assoc], fun n c i j r s hn hc hi hj hr hs => ?_⟩
  have := h3 (look [['b'], ['c'], ['h'], ['h', 's'], ['w'], ['w', 's']] [n, c, i, r, j, s]) (by simp [look, hn, hc, hi, hj, hr, hs])
  simp [place, look] at this
  rw [← this]

theorem join2_moves (hb : Modelled E b) {B C H W R S : Nat} (hR : 0 < R) (hS : 0 < S) (h : x.shape = [R * S * B, C, H, W]) :
    ∃ y, (∀ so, rearrange b so (.one x) "(hs ws b) c h w -> b c (h hs) (w ws)".toList
        [("hs".toList, ⟨R, true⟩), ("ws".toList, ⟨S, true⟩)] = .ok y) ∧ y.shape = [B, C, H * R, W * S] ∧
      ∀ n c i j r s, n < B → c < C → i < H → j < W → r < R → s < S →
        y.at? [n, c, i * R + r, j * S + s] = x.at? [(r * S + s) * B + n, c, i, j] := by
  have hn : Named "(hs ws b) c h w -> b c (h hs) (w ws)".toList [[['h', 's'], ['w', 's'], ['b']], [['c']], [['h']], [['w']]]
      [[['b']], [['c']], [['h'], ['h', 's']], [['w'], ['w', 's']]] [("hs".toList, ⟨R, true⟩), ("ws".toList, ⟨S, true⟩)]
      (look [['b'], ['c'], ['h'], ['h', 's'], ['w'], ['w', 's']] [B, C, H, R, W, S]) x.shape :=
    .of _ _ [['h', 's'], ['w', 's']] [['h', 's'], ['w', 's']] join2_pattern join2_names (by decide) (by decide)
      (by decide) (by decide) (by decide) (by decide) rfl (by rw [h]; simp [span, look, mul_assoc]) (by simp [look, hS.ne', hR.ne'])
  obtain ⟨z, h1, h2, h3⟩ := hn.moves hb
  refine ⟨z, h1, by rw [h2]; simp [span, look], fun n c i j r s hn hc hi hj hr hs => ?_⟩
  have := h3 (look [['b'], ['c'], ['h'], ['h', 's'], ['w'], ['w', 's']] [n, c, i, r, j, s]) (by simp [look, hn, hc, hi, hj, hr, hs])
  simp [place, look] at this
  rw [this]

theorem deep_moves (hb : Modelled E b) {B C T : Nat} (h : x.shape = [B, C, T * 2]) :
    ∃ y, (∀ so, rearrange b so (.one x) "b c (t dt) -> b (dt c) t".toList [("dt".toList, ⟨2, true⟩)] = .ok y) ∧ y.shape = [B, 2 * C, T] ∧
      ∀ n c t d, n < B → c < C → t < T → d < 2 → y.at? [n, d * C + c, t] = x.at? [n, c, t * 2 + d] := by
  have hn : Named "b c (t dt) -> b (dt c) t".toList [[['b']], [['c']], [['t'], ['d', 't']]] [[['b']], [['d', 't'], ['c']], [['t']]]
      [("dt".toList, ⟨2, true⟩)] (look [['b'], ['c'], ['t'], ['d', 't']] [B, C, T, 2]) x.shape :=
    .of _ _ [['d', 't']] [['d', 't']] deep_pattern deep_names (by decide) (by decide)
      (by decide) (by decide) (by decide) (by decide) rfl (by rw [h]; simp [span, look]) (by simp [look])
  obtain ⟨z, h1, h2, h3⟩ := hn.moves hb
  refine ⟨z, h1, by rw [h2]; simp [span, look], fun n c t d hn hc ht hd => ?_⟩
  have := h3 (look [['b'], ['c'], ['t'], ['d', 't']] [n, c, t, d]) (by simp [look, hn, hc, ht, hd])
  simpa [place, look] using this

theorem wide_moves (hb : Modelled E b) {B C T : Nat} (h : x.shape = [B, 2 * C, T]) :
    ∃ y, (∀ so, rearrange b so (.one x) "b (dt c) t -> b c (t dt)".toList [("dt".toList, ⟨2, true⟩)] = .ok y) ∧ y.shape = [B, C, T * 2] ∧
      ∀ n c t d, n < B → c < C → t < T → d < 2 → y.at? [n, c, t * 2 + d] = x.at? [n, d * C + c, t] := by
  have hn : Named "b (dt c) t -> b c (t dt)".toList [[['b']], [['d', 't'], ['c']], [['t']]] [[['b']], [['c']], [['t'], ['d', 't']]]
      [("dt".toList, ⟨2, true⟩)] (look [['b'], ['c'], ['t'], ['d', 't']] [B, C, T, 2]) x.shape :=
    .of _ _ [['d', 't']] [['d', 't']] wide_pattern wide_names (by decide) (by decide)
      (by decide) (by decide) (by decide) (by decide) rfl (by rw [h]; simp [span, look]) (by simp [look])
  obtain ⟨z, h1, h2, h3⟩ := hn.moves hb
  refine ⟨z, h1, by rw [h2]; simp [span, look], fun n c t d hn hc ht hd => ?_⟩
  have := h3 (look [['b'], ['c'], ['t'], ['d', 't']] [n, c, t, d]) (by simp [look, hn, hc, ht, hd])
  simpa [place, look] using this

theorem shuffle_moves (hb : Modelled E b) {B H W R S : Nat} (hR : 0 < R) (hS : 0 < S) (h : x.shape = [B, R * S, H, W]) :
    ∃ y, (∀ so, rearrange b so (.one x) "b (c1 c2) h w-> b (c2 c1) h w".toList
        [("c1".toList, ⟨R, true⟩), ("c2".toList, ⟨S, true⟩)] = .ok y) ∧ y.shape = [B, S * R, H, W] ∧
      ∀ n r s i j, n < B → r < R → s < S → i < H → j < W → y.at? [n, s * R + r, i, j] = x.at? [n, r * S + s, i, j] := by
  have hn : Named "b (c1 c2) h w-> b (c2 c1) h w".toList [[['b']], [['c', '1'], ['c', '2']], [['h']], [['w']]]
      [[['b']], [['c', '2'], ['c', '1']], [['h']], [['w']]] [("c1".toList, ⟨R, true⟩), ("c2".toList, ⟨S, true⟩)]
      (look [['b'], ['c', '1'], ['c', '2'], ['h'], ['w']] [B, R, S, H, W]) x.shape :=
    .of _ _ [['c', '1'], ['c', '2']] [['c', '1'], ['c', '2']] shuffle_pattern shuffle_names (by decide) (by decide)
      (by decide) (by decide) (by decide) (by decide) rfl (by rw [h]; simp [span, look]) (by simp [look, hS.ne', hR.ne'])
  obtain ⟨z, h1, h2, h3⟩ := hn.moves hb
  refine ⟨z, h1, by rw [h2]; simp [span, look], fun n r s i j hn hr hs hi hj => ?_⟩
  have := h3 (look [['b'], ['c', '1'], ['c', '2'], ['h'], ['w']] [n, r, s, i, j]) (by simp [look, hn, hr, hs, hi, hj])
  simpa [place, look] using this

end

section
variable [PyUnicode] {E : ElemOps α} {b : Backend α} {conv : Tensor α → Py (Tensor α)} {Φ : (List Nat → Option α) → List Nat → Option α}

theorem batch_lt {B S s n : Nat} (hs : s < S) (hn : n < B) : s * B + n < S * B := by nlinarith

theorem one_dim_flat (hb : Modelled E b) {B C N T C' R S : Nat} {x1 : Tensor α} (hS : 0 < S)
    (e1 : ∀ so, rearrange b so (.one x) "b c t1 t2 -> b c (t1 t2)".toList [] = .ok x1)
    (s1 : x1.shape = [B, C, N]) (hT : N = T * S) (hc : ActsOnItems conv [C, T] [C', R] Φ) :
    ∃ y, (∀ so, strided1d b so x S conv = .ok y) ∧ y.shape = [B, C', R * S] ∧
      ∀ n c t s, n < B → c < C' → t < R → s < S → y.at? [n, c, t * S + s] =
        Φ (fun i => match i with
          | [e, v] => x1.at? [n, e, v * S + s]
          | _ => none) [c, t] := by
  subst hT
  obtain ⟨x2, e2, s2, p2⟩ := split_moves hb hS s1
  obtain ⟨x3, e3, s3, p3⟩ := hc _ x2 s2
  obtain ⟨y, e4, s4, p4⟩ := join_moves hb hS s3
  refine ⟨y, fun so => ?_, s4, fun n c t s hn hc' ht hs => ?_⟩
  · unfold strided1d
    rw [e1, ok_bind, e2, ok_bind, e3, ok_bind, e4]
  · rw [p4 n c t s hn hc' ht hs, p3 (s * B + n) [c, t] (batch_lt hs hn) (inBounds_two.2 ⟨_, _, rfl, hc', ht⟩)]
    congr 1
    funext i
    by_cases hi : inBounds i [C, T] = true
    · obtain ⟨e, v, rfl, he, hv⟩ := inBounds_two.1 hi
      rw [p2 n e v s hn he hv hs]
    · have l : x2.at? ((s * B + n) :: i) = none := by
        rw [Tensor.at?, if_neg]
        rw [s2, inBounds_cons]
        exact fun h => hi h.2
      rw [l]
      split
      · rename_i e v
        symm
        rw [Tensor.at?, if_neg]
        rw [s1, inBounds_three]
        rintro ⟨a, d, f, h, -, hd, hf⟩
        cases h
        exact hi (inBounds_two.2 ⟨_, _, rfl, hd, by nlinarith⟩)
      · rfl

theorem one_dim (hb : Modelled E b) {B C T' U' T C' R S : Nat} (hS : 0 < S) (hx : x.shape = [B, C, T', U']) (hT : T' * U' = T * S)
    (hc : ActsOnItems conv [C, T] [C', R] Φ) :
    ∃ y, (∀ so, strided1d b so x S conv = .ok y) ∧ y.shape = [B, C', R * S] ∧
      ∀ n c t s, n < B → c < C' → t < R → s < S → y.at? [n, c, t * S + s] =
        Φ (fun i => match i with
          | [e, v] => x.at? [n, e, (v * S + s) / U', (v * S + s) % U']
          | _ => none) [c, t] := by
  obtain ⟨x1, e1, s1, p1⟩ := flat_moves hb hx
  obtain ⟨y, e2, s2, p2⟩ := one_dim_flat hb hS e1 s1 hT hc
  refine ⟨y, e2, s2, fun n c t s hn hc' ht hs => ?_⟩
  rw [p2 n c t s hn hc' ht hs]
  congr 1
  funext i
  split
  · rename_i e v
    by_cases h : e < C ∧ v * S + s < T' * U'
    · have hU : 0 < U' := Nat.pos_of_ne_zero fun h' => by simp [h'] at h
      have := p1 n e ((v * S + s) / U') ((v * S + s) % U') hn h.1 ((Nat.div_lt_iff_lt_mul hU).2 h.2) (Nat.mod_lt _ hU)
      rw [Nat.div_add_mod'] at this
      exact this
    · rw [Tensor.at?, Tensor.at?, if_neg, if_neg]
      · rw [hx, inBounds_four]
        rintro ⟨a, d, f, g, h', -, hd, hf, hg⟩
        cases h'
        exact h ⟨hd, (Nat.div_lt_iff_lt_mul (by omega)).1 hf⟩
      · rw [s1, inBounds_three]
        rintro ⟨a, d, f, h', -, hd, hf⟩
        cases h'
        exact h ⟨hd, hf⟩
  · rfl

theorem two_dim (hb : Modelled E b) {B C H W C' H' W' R S : Nat} (hR : 0 < R) (hS : 0 < S) (hx : x.shape = [B, C, H * R, W * S])
    (hc : ActsOnItems conv [C, H, W] [C', H', W'] Φ) :
    ∃ y, (∀ so, strided2d b so x R S conv = .ok y) ∧ y.shape = [B, C', H' * R, W' * S] ∧
      ∀ n c i j r s, n < B → c < C' → i < H' → j < W' → r < R → s < S → y.at? [n, c, i * R + r, j * S + s] =
        Φ (fun k => match k with
          | [e, u, v] => x.at? [n, e, u * R + r, v * S + s]
          | _ => none) [c, i, j] := by
  obtain ⟨x2, e2, s2, p2⟩ := split2_moves hb hR hS hx
  obtain ⟨x3, e3, s3, p3⟩ := hc _ x2 s2
  obtain ⟨y, e4, s4, p4⟩ := join2_moves hb hR hS s3
  refine ⟨y, fun so => ?_, s4, fun n c i j r s hn hc' hi hj hr hs => ?_⟩
  · unfold strided2d
    rw [e2, ok_bind, e3, ok_bind, e4]
  · rw [p4 n c i j r s hn hc' hi hj hr hs, p3 ((r * S + s) * B + n) [c, i, j] (batch_lt (batch_lt hr hs) hn)
      (inBounds_three.2 ⟨_, _, _, rfl, hc', hi, hj⟩)]
    congr 1
    funext k
    by_cases hk : inBounds k [C, H, W] = true
    · obtain ⟨e, u, v, rfl, he, hu, hv⟩ := inBounds_three.1 hk
      rw [p2 n e u v r s hn he hu hv hr hs]
    · have l : x2.at? (((r * S + s) * B + n) :: k) = none := by
        rw [Tensor.at?, if_neg]
        rw [s2, inBounds_cons]
        exact fun h => hk h.2
      rw [l]
      split
      · rename_i e u v
        symm
        rw [Tensor.at?, if_neg]
        rw [hx, inBounds_four]
        rintro ⟨a, d, f, g, h, -, hd, hf, hg⟩
        cases h
        exact hk (inBounds_three.2 ⟨_, _, _, rfl, hd, by nlinarith, by nlinarith⟩)
      · rfl

theorem unet [CommSemiring α] (hb : Modelled E b) {B C T' U' T : Nat} (hx : x.shape = [B, C, T', U']) (hT : T' * U' = T * 2)
    (hc : ActsOnItems conv [2 * C, T] [2 * C, T] Φ) :
    ∃ y, (∀ so, unetLike b so x conv = .ok y) ∧ y.shape = [B, C, T * 2] ∧
      ∀ n c t d, n < B → c < C → t < T → d < 2 → y.at? [n, c, t * 2 + d] =
        some (entry x [n, c, (t * 2 + d) / U', (t * 2 + d) % U'] + (Φ (fun i => match i with
          | [m, v] => if m < 2 * C ∧ v < T then x.at? [n, m % C, (v * 2 + m / C) / U', (v * 2 + m / C) % U'] else none
          | _ => none) [d * C + c, t]).getD 0) := by
  obtain ⟨x1, e1, s1, p1⟩ := flat_moves hb hx
  have q1 : ∀ n c q, n < B → c < C → q < T * 2 → x1.at? [n, c, q] = x.at? [n, c, q / U', q % U'] := by
    intro n c q hn hc hq
    rw [← hT] at hq
    have hU : 0 < U' := Nat.pos_of_ne_zero fun h => by simp [h] at hq
    have := p1 n c (q / U') (q % U') hn hc ((Nat.div_lt_iff_lt_mul hU).2 hq) (Nat.mod_lt _ hU)
    rwa [Nat.div_add_mod'] at this
  rw [hT] at s1
  obtain ⟨x2, e2, s2, p2⟩ := deep_moves hb s1
  obtain ⟨x3, e3, s3, p3⟩ := hc _ x2 s2
  obtain ⟨x4, e4, s4, p4⟩ := wide_moves hb s3
  obtain ⟨y, e5, s5, p5⟩ := (Yolo.Has.of 0 s1).zipSame (Yolo.Has.of 0 s4) (· + ·)
  refine ⟨y, fun so => ?_, s5, fun n c t d hn hc' ht hd => ?_⟩
  · unfold unetLike
    rw [e1, ok_bind, e2, ok_bind, e3, ok_bind, e4, ok_bind, e5]
  · have hm : d * C + c < 2 * C := batch_lt hd hc'
    rw [p5 _ (inBounds_three.2 ⟨_, _, _, rfl, hn, hc', by omega⟩)]
    beta_reduce
    rw [p4 n c t d hn hc' ht hd, q1 n c _ hn hc' (by omega),
      p3 n [d * C + c, t] hn (inBounds_two.2 ⟨_, _, rfl, hm, ht⟩)]
    unfold entry
    congr 4
    funext k
    by_cases hk : inBounds k [2 * C, T] = true
    · obtain ⟨m, v, rfl, hm, hv⟩ := inBounds_two.1 hk
      have hC : 0 < C := by omega
      have h1 : m % C < C := Nat.mod_lt _ hC
      have h2 : m / C < 2 := (Nat.div_lt_iff_lt_mul hC).2 hm
      have := p2 n (m % C) v (m / C) hn h1 hv h2
      rw [Nat.div_add_mod'] at this
      rw [this, q1 n _ _ hn h1 (by omega)]
      simp [hm, hv]
    · have l : x2.at? (n :: k) = none := by
        rw [Tensor.at?, if_neg]
        rw [s2, inBounds_cons]
        exact fun h => hk h.2
      rw [l]
      split
      · rw [if_neg]
        rintro ⟨h1, h2⟩
        exact hk (inBounds_two.2 ⟨_, _, rfl, h1, h2⟩)
      · rfl

theorem shuffled (hb : Modelled E b) {B R S H W : Nat} {s s' : List Nat} {Ψ : (List Nat → Option α) → List Nat → Option α}
    (hR : 0 < R) (hS : 0 < S) (hx : x.shape = B :: s) (hc : ActsOnItems conv s [R * S, H, W] Φ)
    (hc' : ActsOnItems conv [S * R, H, W] s' Ψ) :
    ∃ y, (∀ so, shufflenet b so x conv R S = .ok y) ∧ y.shape = B :: s' ∧
      ∀ n i, n < B → inBounds i s' = true → y.at? (n :: i) =
        Ψ (fun k => match k with
          | [q, u, v] => if q < S * R ∧ u < H ∧ v < W then Φ (fun j => x.at? (n :: j)) [q % R * S + q / R, u, v] else none
          | _ => none) i := by
  obtain ⟨x1, e1, s1, p1⟩ := hc _ x hx
  obtain ⟨x2, e2, s2, p2⟩ := shuffle_moves hb hR hS s1
  obtain ⟨y, e3, s3, p3⟩ := hc' _ x2 s2
  refine ⟨y, fun so => ?_, s3, fun n i hn hi => ?_⟩
  · unfold shufflenet
    rw [e1, ok_bind, e2, ok_bind, e3]
  · rw [p3 n i hn hi]
    congr 1
    funext k
    by_cases hk : inBounds k [S * R, H, W] = true
    · obtain ⟨q, u, v, rfl, hq, hu, hv⟩ := inBounds_three.1 hk
      have h1 : q % R < R := Nat.mod_lt _ hR
      have h2 : q / R < S := (Nat.div_lt_iff_lt_mul hR).2 hq
      have := p2 n (q % R) (q / R) u v hn h1 h2 hu hv
      rw [Nat.div_add_mod'] at this
      rw [this, p1 n _ hn (inBounds_three.2 ⟨_, _, _, rfl, batch_lt h1 h2, hu, hv⟩)]
      simp [hq, hu, hv]
    · have l : x2.at? (n :: k) = none := by
        rw [Tensor.at?, if_neg]
        rw [s2, inBounds_cons]
        exact fun h => hk h.2
      rw [l]
      split
      · rw [if_neg]
        rintro ⟨h1, h2, h3⟩
        exact hk (inBounds_three.2 ⟨_, _, _, rfl, h1, h2, h3⟩)
      · rfl

end

section
variable [CommSemiring α] {K : Tensor α} {pad : Nat}

theorem conv_ok {C C' k N T step : Nat} (hK : K.shape = [C', C, k]) (hx : x.shape = [N, C, T]) (hC : 0 < C) (hC' : 0 < C') (hk : 0 < k)
    (hT : 0 < T) (hs : 0 < step) (hl : (k - 1) * step < T + 2 * pad) :
    ∃ y, Tensor.conv1d K pad step x = .ok y ∧ y.shape = [N, C', T + 2 * pad - (k - 1) * step] ∧
      ∀ n c t, n < N → c < C' → t < T + 2 * pad - (k - 1) * step →
        y.at? [n, c, t] = some (convFormula K pad step (fun j => x.at? (n :: j)) c t) := by
  unfold Tensor.conv1d
  simp only [hK, hx]
  rw [if_pos ⟨trivial, hC, hC', hk, hT, hs, hl⟩]
  obtain ⟨y, h1, h2⟩ := Yolo.has_build (s := [N, C', T + 2 * pad - (k - 1) * step])
    (F := fun i => convFormula K pad step (fun j => x.at? (nth i 0 :: j)) (nth i 1) (nth i 2)) (fun i _ => rfl)
  refine ⟨y, h1, h2.1, fun n c t hn hc ht => ?_⟩
  rw [h2.2 _ (inBounds_three.2 ⟨_, _, _, rfl, hn, hc, ht⟩)]
  rfl

/-- a convolution acts on the items of the batch -/
theorem conv_acts {C C' k T : Nat} (hK : K.shape = [C', C, k]) (hC : 0 < C) (hC' : 0 < C') (hk : 0 < k) (hT : 0 < T)
    (hl : k - 1 < T + 2 * pad) :
    ActsOnItems (Tensor.conv1d K pad 1) [C, T] [C', T + 2 * pad - (k - 1)] (fun item i => match i with
      | [c, t] => some (convFormula K pad 1 item c t)
      | _ => none) := by
  intro N x hx
  obtain ⟨y, h1, h2, h3⟩ := conv_ok (pad := pad) (step := 1) hK hx hC hC' hk hT (by omega) (by omega)
  rw [Nat.mul_one] at h2 h3
  refine ⟨y, h1, h2, fun n i hn hi => ?_⟩
  obtain ⟨c, t, rfl, hc, ht⟩ := inBounds_two.1 hi
  exact h3 n c t hn hc ht

variable [PyUnicode] {E : ElemOps α} {b : Backend α}

theorem dilated (hb : Modelled E b) {B C C' k T' U' T S : Nat} (so : SetOrder) (hS : 0 < S) (hx : x.shape = [B, C, T', U']) (hT : T' * U' = T * S)
    (hK : K.shape = [C', C, k]) (hC : 0 < C) (hC' : 0 < C') (hk : 0 < k) (hT0 : 0 < T) (hl : k - 1 < T + 2 * pad) :
    ∃ y, strided1d b so x S (Tensor.conv1d K pad 1) = .ok y ∧
      (rearrange b so (.one x) "b c t1 t2 -> b c (t1 t2)".toList []).bind (Tensor.conv1d K (pad * S) S) = .ok y ∧
      y.shape = [B, C', (T + 2 * pad - (k - 1)) * S] := by
  obtain ⟨x1, e1, s1, -⟩ := flat_moves hb hx
  obtain ⟨y, e2, s2, p2⟩ := one_dim_flat hb hS e1 s1 hT (conv_acts hK hC hC' hk hT0 hl)
  rw [hT] at s1
  have hlen : T * S + 2 * (pad * S) - (k - 1) * S = (T + 2 * pad - (k - 1)) * S := by
    rw [Nat.sub_mul (T + 2 * pad), Nat.add_mul, Nat.mul_assoc]
  have hl' : (k - 1) * S < T * S + 2 * (pad * S) := by nlinarith
  obtain ⟨z, e3, s3, p3⟩ := conv_ok (pad := pad * S) (step := S) hK s1 hC hC' hk (Nat.mul_pos hT0 hS) hS hl'
  rw [hlen] at s3 p3
  refine ⟨y, e2 so, ?_, s2⟩
  rw [e1, ok_bind, e3]
  congr 1
  refine ext_three s3 s2 fun n c u hn hc hu => ?_
  obtain ⟨t, s, hs, ht, rfl⟩ : ∃ t s, s < S ∧ t < T + 2 * pad - (k - 1) ∧ u = t * S + s :=
    ⟨u / S, u % S, Nat.mod_lt _ hS, (Nat.div_lt_iff_lt_mul hS).2 hu, (Nat.div_add_mod' u S).symm⟩
  rw [p3 n c _ hn hc hu, p2 n c t s hn hc ht hs]
  simp only [convFormula]
  congr 1
  refine Finset.sum_congr rfl fun e _ => Finset.sum_congr rfl fun m _ => ?_
  congr 1
  by_cases h : pad ≤ t + m * 1
  · obtain ⟨d, hd⟩ := Nat.exists_eq_add_of_le h
    have h1 : t * S + s + m * S = d * S + s + pad * S := by
      have : (t + m * 1) * S = (pad + d) * S := by rw [hd]
      ring_nf at this ⊢
      omega
    rw [if_pos h, if_pos (by omega), hd, h1, Nat.add_sub_cancel, Nat.add_sub_cancel_left]
  · rw [if_neg h, if_neg]
    have : (t + m + 1) * S ≤ pad * S := Nat.mul_le_mul_right _ (by omega)
    ring_nf at this ⊢
    omega

omit [PyUnicode] in
theorem conv2_ok {C C' k l N H W ph pw sh sw : Nat} (hK : K.shape = [C', C, k, l]) (hx : x.shape = [N, C, H, W]) (hC : 0 < C) (hC' : 0 < C')
    (hk : 0 < k) (hl : 0 < l) (hH : 0 < H) (hW : 0 < W) (hsh : 0 < sh) (hsw : 0 < sw) (h1 : (k - 1) * sh < H + 2 * ph)
    (h2 : (l - 1) * sw < W + 2 * pw) :
    ∃ y, Tensor.conv2d K ph pw sh sw x = .ok y ∧ y.shape = [N, C', H + 2 * ph - (k - 1) * sh, W + 2 * pw - (l - 1) * sw] ∧
      ∀ n c i j, n < N → c < C' → i < H + 2 * ph - (k - 1) * sh → j < W + 2 * pw - (l - 1) * sw →
        y.at? [n, c, i, j] = some (convFormula2 K ph pw sh sw (fun j => x.at? (n :: j)) c i j) := by
  unfold Tensor.conv2d
  simp only [hK, hx]
  rw [if_pos ⟨trivial, hC, hC', hk, hl, hH, hW, hsh, hsw, h1, h2⟩]
  obtain ⟨y, e1, e2⟩ := Yolo.has_build (s := [N, C', H + 2 * ph - (k - 1) * sh, W + 2 * pw - (l - 1) * sw])
    (F := fun i => convFormula2 K ph pw sh sw (fun j => x.at? (nth i 0 :: j)) (nth i 1) (nth i 2) (nth i 3)) (fun i _ => rfl)
  refine ⟨y, e1, e2.1, fun n c i j hn hc hi hj => ?_⟩
  rw [e2.2 _ (inBounds_four.2 ⟨_, _, _, _, rfl, hn, hc, hi, hj⟩)]
  rfl

omit [PyUnicode] in
theorem conv2_acts {C C' k l H W ph pw : Nat} (hK : K.shape = [C', C, k, l]) (hC : 0 < C) (hC' : 0 < C') (hk : 0 < k) (hl : 0 < l)
    (hH : 0 < H) (hW : 0 < W) (h1 : k - 1 < H + 2 * ph) (h2 : l - 1 < W + 2 * pw) :
    ActsOnItems (Tensor.conv2d K ph pw 1 1) [C, H, W] [C', H + 2 * ph - (k - 1), W + 2 * pw - (l - 1)] (fun item i => match i with
      | [c, i, j] => some (convFormula2 K ph pw 1 1 item c i j)
      | _ => none) := by
  intro N x hx
  obtain ⟨y, e1, e2, e3⟩ := conv2_ok (ph := ph) (pw := pw) (sh := 1) (sw := 1) hK hx hC hC' hk hl hH hW (by omega) (by omega) (by omega) (by omega)
  rw [Nat.mul_one, Nat.mul_one] at e2 e3
  refine ⟨y, e1, e2, fun n i hn hi => ?_⟩
  obtain ⟨c, i, j, rfl, hc, hi, hj⟩ := inBounds_three.1 hi
  exact e3 n c i j hn hc hi hj

omit [CommSemiring α] [PyUnicode] in
/-- places of a dilated sum: inside or outside of the padding, and where -/
theorem dilated_place {pad t m S s : Nat} (hs : s < S) : (pad * S ≤ t * S + s + m * S ↔ pad ≤ t + m * 1) ∧
    (pad ≤ t + m * 1 → t * S + s + m * S - pad * S = (t + m * 1 - pad) * S + s) := by
  constructor
  · constructor
    · intro h
      by_contra h'
      have : (t + m + 1) * S ≤ pad * S := Nat.mul_le_mul_right _ (by omega)
      ring_nf at this h
      omega
    · intro h
      have : pad * S ≤ (t + m * 1) * S := Nat.mul_le_mul_right _ h
      ring_nf at this ⊢
      omega
  · intro h
    obtain ⟨d, hd⟩ := Nat.exists_eq_add_of_le h
    have h1 : t * S + s + m * S = d * S + s + pad * S := by
      have : (t + m * 1) * S = (pad + d) * S := by rw [hd]
      ring_nf at this ⊢
      omega
    rw [hd, h1, Nat.add_sub_cancel, Nat.add_sub_cancel_left]

theorem dilated2 (hb : Modelled E b) {B C C' k l H W R S ph pw : Nat} (so : SetOrder) (hR : 0 < R) (hS : 0 < S)
    (hx : x.shape = [B, C, H * R, W * S]) (hK : K.shape = [C', C, k, l]) (hC : 0 < C) (hC' : 0 < C') (hk : 0 < k) (hl : 0 < l)
    (hH : 0 < H) (hW : 0 < W) (h1 : k - 1 < H + 2 * ph) (h2 : l - 1 < W + 2 * pw) :
    ∃ y, strided2d b so x R S (Tensor.conv2d K ph pw 1 1) = .ok y ∧ Tensor.conv2d K (ph * R) (pw * S) R S x = .ok y ∧
      y.shape = [B, C', (H + 2 * ph - (k - 1)) * R, (W + 2 * pw - (l - 1)) * S] := by
  obtain ⟨y, e2, s2, p2⟩ := two_dim hb hR hS hx (conv2_acts hK hC hC' hk hl hH hW h1 h2)
  have l1 : H * R + 2 * (ph * R) - (k - 1) * R = (H + 2 * ph - (k - 1)) * R := by
    rw [Nat.sub_mul (H + 2 * ph), Nat.add_mul, Nat.mul_assoc]
  have l2 : W * S + 2 * (pw * S) - (l - 1) * S = (W + 2 * pw - (l - 1)) * S := by
    rw [Nat.sub_mul (W + 2 * pw), Nat.add_mul, Nat.mul_assoc]
  obtain ⟨z, e3, s3, p3⟩ := conv2_ok (ph := ph * R) (pw := pw * S) hK hx hC hC' hk hl (Nat.mul_pos hH hR) (Nat.mul_pos hW hS) hR hS
    (by nlinarith) (by nlinarith)
  rw [l1, l2] at s3 p3
  refine ⟨y, e2 so, ?_, s2⟩
  rw [e3]
  congr 1
  refine ext_four s3 s2 fun n c u v hn hc hu hv => ?_
  obtain ⟨i, r, hr, hi, rfl⟩ : ∃ i r, r < R ∧ i < H + 2 * ph - (k - 1) ∧ u = i * R + r :=
    ⟨u / R, u % R, Nat.mod_lt _ hR, (Nat.div_lt_iff_lt_mul hR).2 hu, (Nat.div_add_mod' u R).symm⟩
  obtain ⟨j, s, hs, hj, rfl⟩ : ∃ j s, s < S ∧ j < W + 2 * pw - (l - 1) ∧ v = j * S + s :=
    ⟨v / S, v % S, Nat.mod_lt _ hS, (Nat.div_lt_iff_lt_mul hS).2 hv, (Nat.div_add_mod' v S).symm⟩
  rw [p3 n c _ _ hn hc hu hv, p2 n c i j r s hn hc hi hj hr hs]
  simp only [convFormula2]
  congr 1
  refine Finset.sum_congr rfl fun e _ => Finset.sum_congr rfl fun m _ => Finset.sum_congr rfl fun q _ => ?_
  congr 1
  obtain ⟨a1, a2⟩ := dilated_place (pad := ph) (t := i) (m := m) hr
  obtain ⟨b1, b2⟩ := dilated_place (pad := pw) (t := j) (m := q) hs
  by_cases h : ph ≤ i + m * 1 ∧ pw ≤ j + q * 1
  · rw [if_pos h, if_pos ⟨a1.2 h.1, b1.2 h.2⟩, a2 h.1, b2 h.2]
  · rw [if_neg h, if_neg fun h' => h ⟨a1.1 h'.1, b1.1 h'.2⟩]

end

end Strided

end Einops
