import Verif.Proofs.TorchRewrites

/-!
# The patterns of the rewritten programs
-/

namespace Einops

namespace Torch

universe u

section
attribute [local instance] asciiUnicode

theorem shuffle_pattern : @IsPattern asciiUnicode "b (c1 c2) h w -> b (c2 c1) h w".toList
    ([[['b']], [['c', '1'], ['c', '2']], [['h']], [['w']]].map toElem)
    ([[['b']], [['c', '2'], ['c', '1']], [['h']], [['w']]].map toElem) :=
  ⟨"b (c1 c2) h w ".toList, " b (c2 c1) h w".toList, by decide, isSide_of (by decide) (by decide) (by decide) (by decide),
    isSide_of (by decide) (by decide) (by decide) (by decide)⟩
theorem shuffle_names : ∀ w ∈ [[['b']], [['c', '1'], ['c', '2']], [['h']], [['w']]].flatten, @IsName asciiUnicode false w := by decide
theorem unsqueeze_pattern : @IsPattern asciiUnicode "b (c h2 w2) h w -> b c (h h2) (w w2)".toList
    ([[['b']], [['c'], ['h', '2'], ['w', '2']], [['h']], [['w']]].map toElem)
    ([[['b']], [['c']], [['h'], ['h', '2']], [['w'], ['w', '2']]].map toElem) :=
  ⟨"b (c h2 w2) h w ".toList, " b c (h h2) (w w2)".toList, by decide, isSide_of (by decide) (by decide) (by decide) (by decide),
    isSide_of (by decide) (by decide) (by decide) (by decide)⟩
theorem unsqueeze_names : ∀ w ∈ [[['b']], [['c'], ['h', '2'], ['w', '2']], [['h']], [['w']]].flatten, @IsName asciiUnicode false w := by decide
theorem squeeze_pattern : @IsPattern asciiUnicode "b c (h h2) (w w2) -> b (c h2 w2) h w".toList
    ([[['b']], [['c']], [['h'], ['h', '2']], [['w'], ['w', '2']]].map toElem)
    ([[['b']], [['c'], ['h', '2'], ['w', '2']], [['h']], [['w']]].map toElem) :=
  ⟨"b c (h h2) (w w2) ".toList, " b (c h2 w2) h w".toList, by decide, isSide_of (by decide) (by decide) (by decide) (by decide),
    isSide_of (by decide) (by decide) (by decide) (by decide)⟩
theorem squeeze_names : ∀ w ∈ [[['b']], [['c']], [['h'], ['h', '2']], [['w'], ['w', '2']]].flatten, @IsName asciiUnicode false w := by decide
theorem flat_pattern : @IsPattern asciiUnicode "b c h w -> b (c h w)".toList
    ([[['b']], [['c']], [['h']], [['w']]].map toElem)
    ([[['b']], [['c'], ['h'], ['w']]].map toElem) :=
  ⟨"b c h w ".toList, " b (c h w)".toList, by decide, isSide_of (by decide) (by decide) (by decide) (by decide),
    isSide_of (by decide) (by decide) (by decide) (by decide)⟩
theorem flat_names : ∀ w ∈ [[['b']], [['c']], [['h']], [['w']]].flatten, @IsName asciiUnicode false w := by decide
theorem theta_pattern : @IsPattern asciiUnicode "b (row col) -> b row col".toList
    ([[['b']], [['r', 'o', 'w'], ['c', 'o', 'l']]].map toElem)
    ([[['b']], [['r', 'o', 'w']], [['c', 'o', 'l']]].map toElem) :=
  ⟨"b (row col) ".toList, " b row col".toList, by decide, isSide_of (by decide) (by decide) (by decide) (by decide),
    isSide_of (by decide) (by decide) (by decide) (by decide)⟩
theorem theta_names : ∀ w ∈ [[['b']], [['r', 'o', 'w'], ['c', 'o', 'l']]].flatten, @IsName asciiUnicode false w := by decide
theorem pixel_pattern : @IsPattern asciiUnicode "b (h2 w2) h w -> b (h h2) (w w2)".toList
    ([[['b']], [['h', '2'], ['w', '2']], [['h']], [['w']]].map toElem)
    ([[['b']], [['h'], ['h', '2']], [['w'], ['w', '2']]].map toElem) :=
  ⟨"b (h2 w2) h w ".toList, " b (h h2) (w w2)".toList, by decide, isSide_of (by decide) (by decide) (by decide) (by decide),
    isSide_of (by decide) (by decide) (by decide) (by decide)⟩
theorem pixel_names : ∀ w ∈ [[['b']], [['h', '2'], ['w', '2']], [['h']], [['w']]].flatten, @IsName asciiUnicode false w := by decide
theorem encode_pattern : @IsPattern asciiUnicode "t b nhid -> (t b) nhid".toList
    ([[['t']], [['b']], [['n', 'h', 'i', 'd']]].map toElem)
    ([[['t'], ['b']], [['n', 'h', 'i', 'd']]].map toElem) :=
  ⟨"t b nhid ".toList, " (t b) nhid".toList, by decide, isSide_of (by decide) (by decide) (by decide) (by decide),
    isSide_of (by decide) (by decide) (by decide) (by decide)⟩
theorem encode_names : ∀ w ∈ [[['t']], [['b']], [['n', 'h', 'i', 'd']]].flatten, @IsName asciiUnicode false w := by decide
theorem decode_pattern : @IsPattern asciiUnicode "(t b) token -> t b token".toList
    ([[['t'], ['b']], [['t', 'o', 'k', 'e', 'n']]].map toElem)
    ([[['t']], [['b']], [['t', 'o', 'k', 'e', 'n']]].map toElem) :=
  ⟨"(t b) token ".toList, " t b token".toList, by decide, isSide_of (by decide) (by decide) (by decide) (by decide),
    isSide_of (by decide) (by decide) (by decide) (by decide)⟩
theorem decode_names : ∀ w ∈ [[['t'], ['b']], [['t', 'o', 'k', 'e', 'n']]].flatten, @IsName asciiUnicode false w := by decide
theorem hidden_pattern : @IsPattern asciiUnicode "(layer dir) b c -> layer b (dir c)".toList
    ([[['l', 'a', 'y', 'e', 'r'], ['d', 'i', 'r']], [['b']], [['c']]].map toElem)
    ([[['l', 'a', 'y', 'e', 'r']], [['b']], [['d', 'i', 'r'], ['c']]].map toElem) :=
  ⟨"(layer dir) b c ".toList, " layer b (dir c)".toList, by decide, isSide_of (by decide) (by decide) (by decide) (by decide),
    isSide_of (by decide) (by decide) (by decide) (by decide)⟩
theorem hidden_names : ∀ w ∈ [[['l', 'a', 'y', 'e', 'r'], ['d', 'i', 'r']], [['b']], [['c']]].flatten, @IsName asciiUnicode false w := by decide
theorem filters_pattern : @IsPattern asciiUnicode "filter b c -> b (filter c)".toList
    ([[['f', 'i', 'l', 't', 'e', 'r']], [['b']], [['c']]].map toElem)
    ([[['b']], [['f', 'i', 'l', 't', 'e', 'r'], ['c']]].map toElem) :=
  ⟨"filter b c ".toList, " b (filter c)".toList, by decide, isSide_of (by decide) (by decide) (by decide) (by decide),
    isSide_of (by decide) (by decide) (by decide) (by decide)⟩
theorem filters_names : ∀ w ∈ [[['f', 'i', 'l', 't', 'e', 'r']], [['b']], [['c']]].flatten, @IsName asciiUnicode false w := by decide
theorem banks_pattern : @IsPattern asciiUnicode "bank b c t -> b (bank c) t".toList
    ([[['b', 'a', 'n', 'k']], [['b']], [['c']], [['t']]].map toElem)
    ([[['b']], [['b', 'a', 'n', 'k'], ['c']], [['t']]].map toElem) :=
  ⟨"bank b c t ".toList, " b (bank c) t".toList, by decide, isSide_of (by decide) (by decide) (by decide) (by decide),
    isSide_of (by decide) (by decide) (by decide) (by decide)⟩
theorem banks_names : ∀ w ∈ [[['b', 'a', 'n', 'k']], [['b']], [['c']], [['t']]].flatten, @IsName asciiUnicode false w := by decide
theorem gates_pattern : @IsPattern asciiUnicode "b (split c) t -> split b c t".toList
    ([[['b']], [['s', 'p', 'l', 'i', 't'], ['c']], [['t']]].map toElem)
    ([[['s', 'p', 'l', 'i', 't']], [['b']], [['c']], [['t']]].map toElem) :=
  ⟨"b (split c) t ".toList, " split b c t".toList, by decide, isSide_of (by decide) (by decide) (by decide) (by decide),
    isSide_of (by decide) (by decide) (by decide) (by decide)⟩
theorem gates_names : ∀ w ∈ [[['b']], [['s', 'p', 'l', 'i', 't'], ['c']], [['t']]].flatten, @IsName asciiUnicode false w := by decide
theorem steps_pattern : @IsPattern asciiUnicode "b t -> t b ()".toList
    ([[['b']], [['t']]].map toElem)
    ([[['t']], [['b']], []].map toElem) :=
  ⟨"b t ".toList, " t b ()".toList, by decide, isSide_of (by decide) (by decide) (by decide) (by decide),
    isSide_of (by decide) (by decide) (by decide) (by decide)⟩
theorem steps_names : ∀ w ∈ [[['b']], [['t']]].flatten, @IsName asciiUnicode false w := by decide
theorem series_pattern : @IsPattern asciiUnicode "t b () -> b t".toList
    ([[['t']], [['b']], []].map toElem)
    ([[['b']], [['t']]].map toElem) :=
  ⟨"t b () ".toList, " b t".toList, by decide, isSide_of (by decide) (by decide) (by decide) (by decide),
    isSide_of (by decide) (by decide) (by decide) (by decide)⟩
theorem series_names : ∀ w ∈ [[['t']], [['b']], []].flatten, @IsName asciiUnicode false w := by decide
theorem heads_pattern : @IsPattern asciiUnicode "b l (head k) -> head b l k".toList
    ([[['b']], [['l']], [['h', 'e', 'a', 'd'], ['k']]].map toElem)
    ([[['h', 'e', 'a', 'd']], [['b']], [['l']], [['k']]].map toElem) :=
  ⟨"b l (head k) ".toList, " head b l k".toList, by decide, isSide_of (by decide) (by decide) (by decide) (by decide),
    isSide_of (by decide) (by decide) (by decide) (by decide)⟩
theorem heads_names : ∀ w ∈ [[['b']], [['l']], [['h', 'e', 'a', 'd'], ['k']]].flatten, @IsName asciiUnicode false w := by decide
theorem keys_pattern : @IsPattern asciiUnicode "b t (head k) -> head b t k".toList
    ([[['b']], [['t']], [['h', 'e', 'a', 'd'], ['k']]].map toElem)
    ([[['h', 'e', 'a', 'd']], [['b']], [['t']], [['k']]].map toElem) :=
  ⟨"b t (head k) ".toList, " head b t k".toList, by decide, isSide_of (by decide) (by decide) (by decide) (by decide),
    isSide_of (by decide) (by decide) (by decide) (by decide)⟩
theorem keys_names : ∀ w ∈ [[['b']], [['t']], [['h', 'e', 'a', 'd'], ['k']]].flatten, @IsName asciiUnicode false w := by decide
theorem vals_pattern : @IsPattern asciiUnicode "b t (head v) -> head b t v".toList
    ([[['b']], [['t']], [['h', 'e', 'a', 'd'], ['v']]].map toElem)
    ([[['h', 'e', 'a', 'd']], [['b']], [['t']], [['v']]].map toElem) :=
  ⟨"b t (head v) ".toList, " head b t v".toList, by decide, isSide_of (by decide) (by decide) (by decide) (by decide),
    isSide_of (by decide) (by decide) (by decide) (by decide)⟩
theorem vals_names : ∀ w ∈ [[['b']], [['t']], [['h', 'e', 'a', 'd'], ['v']]].flatten, @IsName asciiUnicode false w := by decide
theorem pixels_pattern : @IsPattern asciiUnicode "b c h w -> b (h w) c".toList
    ([[['b']], [['c']], [['h']], [['w']]].map toElem)
    ([[['b']], [['h'], ['w']], [['c']]].map toElem) :=
  ⟨"b c h w ".toList, " b (h w) c".toList, by decide, isSide_of (by decide) (by decide) (by decide) (by decide),
    isSide_of (by decide) (by decide) (by decide) (by decide)⟩
theorem pixels_names : ∀ w ∈ [[['b']], [['c']], [['h']], [['w']]].flatten, @IsName asciiUnicode false w := by decide
theorem lines_pattern : @IsPattern asciiUnicode "b c h w -> b c (h w)".toList
    ([[['b']], [['c']], [['h']], [['w']]].map toElem)
    ([[['b']], [['c']], [['h'], ['w']]].map toElem) :=
  ⟨"b c h w ".toList, " b c (h w)".toList, by decide, isSide_of (by decide) (by decide) (by decide) (by decide),
    isSide_of (by decide) (by decide) (by decide) (by decide)⟩
theorem lines_names : ∀ w ∈ [[['b']], [['c']], [['h']], [['w']]].flatten, @IsName asciiUnicode false w := by decide
theorem unpixels_pattern : @IsPattern asciiUnicode "b (h w) c -> b c h w".toList
    ([[['b']], [['h'], ['w']], [['c']]].map toElem)
    ([[['b']], [['c']], [['h']], [['w']]].map toElem) :=
  ⟨"b (h w) c ".toList, " b c h w".toList, by decide, isSide_of (by decide) (by decide) (by decide) (by decide),
    isSide_of (by decide) (by decide) (by decide) (by decide)⟩
theorem unpixels_names : ∀ w ∈ [[['b']], [['h'], ['w']], [['c']]].flatten, @IsName asciiUnicode false w := by decide
theorem merge_pattern : @IsPattern asciiUnicode "head b l v -> b l (head v)".toList
    ([[['h', 'e', 'a', 'd']], [['b']], [['l']], [['v']]].map toElem)
    ([[['b']], [['l']], [['h', 'e', 'a', 'd'], ['v']]].map toElem) :=
  ⟨"head b l v ".toList, " b l (head v)".toList, by decide, isSide_of (by decide) (by decide) (by decide) (by decide),
    isSide_of (by decide) (by decide) (by decide) (by decide)⟩
theorem merge_names : ∀ w ∈ [[['h', 'e', 'a', 'd']], [['b']], [['l']], [['v']]].flatten, @IsName asciiUnicode false w := by decide

end

variable [PyUnicode]

theorem shuffle_named {B g C H W : Nat} (hg : 0 < g) : Named "b (c1 c2) h w -> b (c2 c1) h w".toList
    [[['b']], [['c', '1'], ['c', '2']], [['h']], [['w']]] [[['b']], [['c', '2'], ['c', '1']], [['h']], [['w']]]
    [("c1".toList, ⟨(g : Nat), true⟩)] (look [['b'], ['c', '1'], ['c', '2'], ['h'], ['w']] [B, g, C, H, W]) [B, g * C, H, W] :=
  .of _ _ [['c', '1']] [['c', '1']] shuffle_pattern shuffle_names (by decide) (by decide) (by decide) (by decide) (by decide) (by decide) rfl rfl
    (by simpa [look] using hg.ne')

theorem unsqueeze_named {B C f H W : Nat} (hf : 0 < f) : Named "b (c h2 w2) h w -> b c (h h2) (w w2)".toList
    [[['b']], [['c'], ['h', '2'], ['w', '2']], [['h']], [['w']]] [[['b']], [['c']], [['h'], ['h', '2']], [['w'], ['w', '2']]]
    [("h2".toList, ⟨(f : Nat), true⟩), ("w2".toList, ⟨(f : Nat), true⟩)] (look [['b'], ['c'], ['h', '2'], ['w', '2'], ['h'], ['w']] [B, C, f, f, H, W]) [B, C * f * f, H, W] :=
  .of _ _ [['h', '2'], ['w', '2']] [['h', '2'], ['w', '2']] unsqueeze_pattern unsqueeze_names (by decide) (by decide) (by decide) (by decide) (by decide) (by decide) rfl rfl
    (by simpa [look] using hf.ne')

theorem squeeze_named {B C H f W : Nat} (hf : 0 < f) : Named "b c (h h2) (w w2) -> b (c h2 w2) h w".toList
    [[['b']], [['c']], [['h'], ['h', '2']], [['w'], ['w', '2']]] [[['b']], [['c'], ['h', '2'], ['w', '2']], [['h']], [['w']]]
    [("h2".toList, ⟨(f : Nat), true⟩), ("w2".toList, ⟨(f : Nat), true⟩)] (look [['b'], ['c'], ['h'], ['h', '2'], ['w'], ['w', '2']] [B, C, H, f, W, f]) [B, C, H * f, W * f] :=
  .of _ _ [['h', '2'], ['w', '2']] [['h', '2'], ['w', '2']] squeeze_pattern squeeze_names (by decide) (by decide) (by decide) (by decide) (by decide) (by decide) rfl rfl
    (by simpa [look] using hf.ne')

theorem flat_named {B C H W : Nat}  : Named "b c h w -> b (c h w)".toList
    [[['b']], [['c']], [['h']], [['w']]] [[['b']], [['c'], ['h'], ['w']]]
    [] (look [['b'], ['c'], ['h'], ['w']] [B, C, H, W]) [B, C, H, W] :=
  .of _ _ [] [] flat_pattern flat_names (by decide) (by decide) (by decide) (by decide) (by decide) (by decide) rfl rfl
    (by simp)

theorem loc_named {B C H W : Nat}  : Named "b c h w -> b (c h w)".toList
    [[['b']], [['c']], [['h']], [['w']]] [[['b']], [['c'], ['h'], ['w']]]
    [("h".toList, ⟨(H : Nat), true⟩), ("w".toList, ⟨(W : Nat), true⟩)] (look [['b'], ['c'], ['h'], ['w']] [B, C, H, W]) [B, C, H, W] :=
  .of _ _ [['h'], ['w']] [] flat_pattern flat_names (by decide) (by decide) (by decide) (by decide) (by decide) (by decide) rfl rfl
    (by simp)

theorem theta_named {B r c : Nat}  : Named "b (row col) -> b row col".toList
    [[['b']], [['r', 'o', 'w'], ['c', 'o', 'l']]] [[['b']], [['r', 'o', 'w']], [['c', 'o', 'l']]]
    [("row".toList, ⟨(r : Nat), true⟩), ("col".toList, ⟨(c : Nat), true⟩)] (look [['b'], ['r', 'o', 'w'], ['c', 'o', 'l']] [B, r, c]) [B, r * c] :=
  .of _ _ [['r', 'o', 'w'], ['c', 'o', 'l']] [] theta_pattern theta_names (by decide) (by decide) (by decide) (by decide) (by decide) (by decide) rfl rfl
    (by simp)

theorem pixel_named {B r H W : Nat}  : Named "b (h2 w2) h w -> b (h h2) (w w2)".toList
    [[['b']], [['h', '2'], ['w', '2']], [['h']], [['w']]] [[['b']], [['h'], ['h', '2']], [['w'], ['w', '2']]]
    [("h2".toList, ⟨(r : Nat), true⟩), ("w2".toList, ⟨(r : Nat), true⟩)] (look [['b'], ['h', '2'], ['w', '2'], ['h'], ['w']] [B, r, r, H, W]) [B, r * r, H, W] :=
  .of _ _ [['h', '2'], ['w', '2']] [] pixel_pattern pixel_names (by decide) (by decide) (by decide) (by decide) (by decide) (by decide) rfl rfl
    (by simp)

theorem encode_named {T B n : Nat}  : Named "t b nhid -> (t b) nhid".toList
    [[['t']], [['b']], [['n', 'h', 'i', 'd']]] [[['t'], ['b']], [['n', 'h', 'i', 'd']]]
    [] (look [['t'], ['b'], ['n', 'h', 'i', 'd']] [T, B, n]) [T, B, n] :=
  .of _ _ [] [] encode_pattern encode_names (by decide) (by decide) (by decide) (by decide) (by decide) (by decide) rfl rfl
    (by simp)

theorem decode_named {T B n : Nat}  : Named "(t b) token -> t b token".toList
    [[['t'], ['b']], [['t', 'o', 'k', 'e', 'n']]] [[['t']], [['b']], [['t', 'o', 'k', 'e', 'n']]]
    [("t".toList, ⟨(T : Nat), true⟩), ("b".toList, ⟨(B : Nat), true⟩)] (look [['t'], ['b'], ['t', 'o', 'k', 'e', 'n']] [T, B, n]) [T * B, n] :=
  .of _ _ [['t'], ['b']] [] decode_pattern decode_names (by decide) (by decide) (by decide) (by decide) (by decide) (by decide) rfl rfl
    (by simp)

theorem hidden_named {n d B C : Nat} (hd : 0 < d) : Named "(layer dir) b c -> layer b (dir c)".toList
    [[['l', 'a', 'y', 'e', 'r'], ['d', 'i', 'r']], [['b']], [['c']]] [[['l', 'a', 'y', 'e', 'r']], [['b']], [['d', 'i', 'r'], ['c']]]
    [("dir".toList, ⟨(d : Nat), true⟩)] (look [['l', 'a', 'y', 'e', 'r'], ['d', 'i', 'r'], ['b'], ['c']] [n, d, B, C]) [n * d, B, C] :=
  .of _ _ [['d', 'i', 'r']] [['d', 'i', 'r']] hidden_pattern hidden_names (by decide) (by decide) (by decide) (by decide) (by decide) (by decide) rfl rfl
    (by simpa [look] using hd.ne')

theorem filters_named {n B C : Nat}  : Named "filter b c -> b (filter c)".toList
    [[['f', 'i', 'l', 't', 'e', 'r']], [['b']], [['c']]] [[['b']], [['f', 'i', 'l', 't', 'e', 'r'], ['c']]]
    [] (look [['f', 'i', 'l', 't', 'e', 'r'], ['b'], ['c']] [n, B, C]) [n, B, C] :=
  .of _ _ [] [] filters_pattern filters_names (by decide) (by decide) (by decide) (by decide) (by decide) (by decide) rfl rfl
    (by simp)

theorem banks_named {n B C T : Nat}  : Named "bank b c t -> b (bank c) t".toList
    [[['b', 'a', 'n', 'k']], [['b']], [['c']], [['t']]] [[['b']], [['b', 'a', 'n', 'k'], ['c']], [['t']]]
    [("c".toList, ⟨(C : Nat), true⟩)] (look [['b', 'a', 'n', 'k'], ['b'], ['c'], ['t']] [n, B, C, T]) [n, B, C, T] :=
  .of _ _ [['c']] [] banks_pattern banks_names (by decide) (by decide) (by decide) (by decide) (by decide) (by decide) rfl rfl
    (by simp)

theorem gates_named {B s C T : Nat} (hs : 0 < s) : Named "b (split c) t -> split b c t".toList
    [[['b']], [['s', 'p', 'l', 'i', 't'], ['c']], [['t']]] [[['s', 'p', 'l', 'i', 't']], [['b']], [['c']], [['t']]]
    [("split".toList, ⟨(s : Nat), true⟩)] (look [['b'], ['s', 'p', 'l', 'i', 't'], ['c'], ['t']] [B, s, C, T]) [B, s * C, T] :=
  .of _ _ [['s', 'p', 'l', 'i', 't']] [['s', 'p', 'l', 'i', 't']] gates_pattern gates_names (by decide) (by decide) (by decide) (by decide) (by decide) (by decide) rfl rfl
    (by simpa [look] using hs.ne')

theorem steps_named {B T : Nat}  : Named "b t -> t b ()".toList
    [[['b']], [['t']]] [[['t']], [['b']], []]
    [] (look [['b'], ['t']] [B, T]) [B, T] :=
  .of _ _ [] [] steps_pattern steps_names (by decide) (by decide) (by decide) (by decide) (by decide) (by decide) rfl rfl
    (by simp)

theorem series_named {T B : Nat}  : Named "t b () -> b t".toList
    [[['t']], [['b']], []] [[['b']], [['t']]]
    [] (look [['t'], ['b']] [T, B]) [T, B, 1] :=
  .of _ _ [] [] series_pattern series_names (by decide) (by decide) (by decide) (by decide) (by decide) (by decide) rfl rfl
    (by simp)

theorem heads_named {B L n k : Nat} (hn : 0 < n) : Named "b l (head k) -> head b l k".toList
    [[['b']], [['l']], [['h', 'e', 'a', 'd'], ['k']]] [[['h', 'e', 'a', 'd']], [['b']], [['l']], [['k']]]
    [("head".toList, ⟨(n : Nat), true⟩)] (look [['b'], ['l'], ['h', 'e', 'a', 'd'], ['k']] [B, L, n, k]) [B, L, n * k] :=
  .of _ _ [['h', 'e', 'a', 'd']] [['h', 'e', 'a', 'd']] heads_pattern heads_names (by decide) (by decide) (by decide) (by decide) (by decide) (by decide) rfl rfl
    (by simpa [look] using hn.ne')

theorem keys_named {B L n k : Nat} (hn : 0 < n) : Named "b t (head k) -> head b t k".toList
    [[['b']], [['t']], [['h', 'e', 'a', 'd'], ['k']]] [[['h', 'e', 'a', 'd']], [['b']], [['t']], [['k']]]
    [("head".toList, ⟨(n : Nat), true⟩)] (look [['b'], ['t'], ['h', 'e', 'a', 'd'], ['k']] [B, L, n, k]) [B, L, n * k] :=
  .of _ _ [['h', 'e', 'a', 'd']] [['h', 'e', 'a', 'd']] keys_pattern keys_names (by decide) (by decide) (by decide) (by decide) (by decide) (by decide) rfl rfl
    (by simpa [look] using hn.ne')

theorem vals_named {B L n k : Nat} (hn : 0 < n) : Named "b t (head v) -> head b t v".toList
    [[['b']], [['t']], [['h', 'e', 'a', 'd'], ['v']]] [[['h', 'e', 'a', 'd']], [['b']], [['t']], [['v']]]
    [("head".toList, ⟨(n : Nat), true⟩)] (look [['b'], ['t'], ['h', 'e', 'a', 'd'], ['v']] [B, L, n, k]) [B, L, n * k] :=
  .of _ _ [['h', 'e', 'a', 'd']] [['h', 'e', 'a', 'd']] vals_pattern vals_names (by decide) (by decide) (by decide) (by decide) (by decide) (by decide) rfl rfl
    (by simpa [look] using hn.ne')

theorem pixels_named {B C H W : Nat}  : Named "b c h w -> b (h w) c".toList
    [[['b']], [['c']], [['h']], [['w']]] [[['b']], [['h'], ['w']], [['c']]]
    [] (look [['b'], ['c'], ['h'], ['w']] [B, C, H, W]) [B, C, H, W] :=
  .of _ _ [] [] pixels_pattern pixels_names (by decide) (by decide) (by decide) (by decide) (by decide) (by decide) rfl rfl
    (by simp)

theorem lines_named {B C H W : Nat}  : Named "b c h w -> b c (h w)".toList
    [[['b']], [['c']], [['h']], [['w']]] [[['b']], [['c']], [['h'], ['w']]]
    [] (look [['b'], ['c'], ['h'], ['w']] [B, C, H, W]) [B, C, H, W] :=
  .of _ _ [] [] lines_pattern lines_names (by decide) (by decide) (by decide) (by decide) (by decide) (by decide) rfl rfl
    (by simp)

theorem unpixels_named {B H W C : Nat}  : Named "b (h w) c -> b c h w".toList
    [[['b']], [['h'], ['w']], [['c']]] [[['b']], [['c']], [['h']], [['w']]]
    [("b".toList, ⟨(B : Nat), true⟩), ("c".toList, ⟨(C : Nat), true⟩), ("h".toList, ⟨(H : Nat), true⟩), ("w".toList, ⟨(W : Nat), true⟩)] (look [['b'], ['h'], ['w'], ['c']] [B, H, W, C]) [B, H * W, C] :=
  .of _ _ [['b'], ['c'], ['h'], ['w']] [] unpixels_pattern unpixels_names (by decide) (by decide) (by decide) (by decide) (by decide) (by decide) rfl rfl
    (by simp)

theorem merge_named {n B L v : Nat}  : Named "head b l v -> b l (head v)".toList
    [[['h', 'e', 'a', 'd']], [['b']], [['l']], [['v']]] [[['b']], [['l']], [['h', 'e', 'a', 'd'], ['v']]]
    [] (look [['h', 'e', 'a', 'd'], ['b'], ['l'], ['v']] [n, B, L, v]) [n, B, L, v] :=
  .of _ _ [] [] merge_pattern merge_names (by decide) (by decide) (by decide) (by decide) (by decide) (by decide) rfl rfl
    (by simp)

variable {α : Type u} {E : ElemOps α} {b : Backend α} {x : Tensor α}

theorem shuffle_moves (hb : Modelled E b) {B g C H W : Nat} (hg : 0 < g) (hx : x.shape = [B, g * C, H, W]) :
    ∃ y, (∀ so, rearrange b so (.one x) "b (c1 c2) h w -> b (c2 c1) h w".toList [("c1".toList, ⟨(g : Nat), true⟩)] = .ok y) ∧
      y.shape = [B, C * g, H, W] ∧ ∀ ib ic1 ic2 ih iw, ib < B → ic1 < g → ic2 < C → ih < H → iw < W →
        y.at? [ib, ic2 * g + ic1, ih, iw] = x.at? [ib, ic1 * C + ic2, ih, iw] := by
  obtain ⟨y, h1, h2, h3⟩ := ((shuffle_named hg).on hx).moves hb
  refine ⟨y, h1, h2, fun ib ic1 ic2 ih iw kb kc1 kc2 kh kw => h3 (look [['b'], ['c', '1'], ['c', '2'], ['h'], ['w']] [ib, ic1, ic2, ih, iw]) ?_⟩
  simp [look, kb, kc1, kc2, kh, kw]

theorem shuffle_by_hand (hb : Modelled E b) {B g C H W : Nat} (hg : 0 < g) (hx : x.shape = [B, g * C, H, W]) (so : SetOrder) :
    rearrange b so (.one x) "b (c1 c2) h w -> b (c2 c1) h w".toList [("c1".toList, ⟨(g : Nat), true⟩)] =
      byHand x [B, g, C, H, W] [0, 2, 1, 3, 4] [B, C * g, H, W] :=
  ((shuffle_named hg).on hx).by_hand hb so

theorem unsqueeze_moves (hb : Modelled E b) {B C f H W : Nat} (hf : 0 < f) (hx : x.shape = [B, C * f * f, H, W]) :
    ∃ y, (∀ so, rearrange b so (.one x) "b (c h2 w2) h w -> b c (h h2) (w w2)".toList [("h2".toList, ⟨(f : Nat), true⟩), ("w2".toList, ⟨(f : Nat), true⟩)] = .ok y) ∧
      y.shape = [B, C, H * f, W * f] ∧ ∀ ib ic ih2 iw2 ih iw, ib < B → ic < C → ih2 < f → iw2 < f → ih < H → iw < W →
        y.at? [ib, ic, ih * f + ih2, iw * f + iw2] = x.at? [ib, (ic * f + ih2) * f + iw2, ih, iw] := by
  obtain ⟨y, h1, h2, h3⟩ := ((unsqueeze_named hf).on hx).moves hb
  refine ⟨y, h1, h2, fun ib ic ih2 iw2 ih iw kb kc kh2 kw2 kh kw => h3 (look [['b'], ['c'], ['h', '2'], ['w', '2'], ['h'], ['w']] [ib, ic, ih2, iw2, ih, iw]) ?_⟩
  simp [look, kb, kc, kh2, kw2, kh, kw]

theorem unsqueeze_by_hand (hb : Modelled E b) {B C f H W : Nat} (hf : 0 < f) (hx : x.shape = [B, C * f * f, H, W]) (so : SetOrder) :
    rearrange b so (.one x) "b (c h2 w2) h w -> b c (h h2) (w w2)".toList [("h2".toList, ⟨(f : Nat), true⟩), ("w2".toList, ⟨(f : Nat), true⟩)] =
      byHand x [B, C, f, f, H, W] [0, 1, 4, 2, 5, 3] [B, C, H * f, W * f] :=
  ((unsqueeze_named hf).on hx).by_hand hb so

theorem squeeze_moves (hb : Modelled E b) {B C H f W : Nat} (hf : 0 < f) (hx : x.shape = [B, C, H * f, W * f]) :
    ∃ y, (∀ so, rearrange b so (.one x) "b c (h h2) (w w2) -> b (c h2 w2) h w".toList [("h2".toList, ⟨(f : Nat), true⟩), ("w2".toList, ⟨(f : Nat), true⟩)] = .ok y) ∧
      y.shape = [B, C * f * f, H, W] ∧ ∀ ib ic ih ih2 iw iw2, ib < B → ic < C → ih < H → ih2 < f → iw < W → iw2 < f →
        y.at? [ib, (ic * f + ih2) * f + iw2, ih, iw] = x.at? [ib, ic, ih * f + ih2, iw * f + iw2] := by
  obtain ⟨y, h1, h2, h3⟩ := ((squeeze_named hf).on hx).moves hb
  refine ⟨y, h1, h2, fun ib ic ih ih2 iw iw2 kb kc kh kh2 kw kw2 => h3 (look [['b'], ['c'], ['h'], ['h', '2'], ['w'], ['w', '2']] [ib, ic, ih, ih2, iw, iw2]) ?_⟩
  simp [look, kb, kc, kh, kh2, kw, kw2]

theorem squeeze_by_hand (hb : Modelled E b) {B C H f W : Nat} (hf : 0 < f) (hx : x.shape = [B, C, H * f, W * f]) (so : SetOrder) :
    rearrange b so (.one x) "b c (h h2) (w w2) -> b (c h2 w2) h w".toList [("h2".toList, ⟨(f : Nat), true⟩), ("w2".toList, ⟨(f : Nat), true⟩)] =
      byHand x [B, C, H, f, W, f] [0, 1, 3, 5, 2, 4] [B, C * f * f, H, W] :=
  ((squeeze_named hf).on hx).by_hand hb so

theorem flat_moves (hb : Modelled E b) {B C H W : Nat}  (hx : x.shape = [B, C, H, W]) :
    ∃ y, (∀ so, rearrange b so (.one x) "b c h w -> b (c h w)".toList [] = .ok y) ∧
      y.shape = [B, C * H * W] ∧ ∀ ib ic ih iw, ib < B → ic < C → ih < H → iw < W →
        y.at? [ib, (ic * H + ih) * W + iw] = x.at? [ib, ic, ih, iw] := by
  obtain ⟨y, h1, h2, h3⟩ := ((flat_named ).on hx).moves hb
  refine ⟨y, h1, h2, fun ib ic ih iw kb kc kh kw => h3 (look [['b'], ['c'], ['h'], ['w']] [ib, ic, ih, iw]) ?_⟩
  simp [look, kb, kc, kh, kw]

theorem flat_by_hand (hb : Modelled E b) {B C H W : Nat}  (hx : x.shape = [B, C, H, W]) (so : SetOrder) :
    rearrange b so (.one x) "b c h w -> b (c h w)".toList [] =
      byHand x [B, C, H, W] [0, 1, 2, 3] [B, C * H * W] :=
  ((flat_named ).on hx).by_hand hb so

theorem loc_moves (hb : Modelled E b) {B C H W : Nat}  (hx : x.shape = [B, C, H, W]) :
    ∃ y, (∀ so, rearrange b so (.one x) "b c h w -> b (c h w)".toList [("h".toList, ⟨(H : Nat), true⟩), ("w".toList, ⟨(W : Nat), true⟩)] = .ok y) ∧
      y.shape = [B, C * H * W] ∧ ∀ ib ic ih iw, ib < B → ic < C → ih < H → iw < W →
        y.at? [ib, (ic * H + ih) * W + iw] = x.at? [ib, ic, ih, iw] := by
  obtain ⟨y, h1, h2, h3⟩ := ((loc_named ).on hx).moves hb
  refine ⟨y, h1, h2, fun ib ic ih iw kb kc kh kw => h3 (look [['b'], ['c'], ['h'], ['w']] [ib, ic, ih, iw]) ?_⟩
  simp [look, kb, kc, kh, kw]

theorem loc_by_hand (hb : Modelled E b) {B C H W : Nat}  (hx : x.shape = [B, C, H, W]) (so : SetOrder) :
    rearrange b so (.one x) "b c h w -> b (c h w)".toList [("h".toList, ⟨(H : Nat), true⟩), ("w".toList, ⟨(W : Nat), true⟩)] =
      byHand x [B, C, H, W] [0, 1, 2, 3] [B, C * H * W] :=
  ((loc_named ).on hx).by_hand hb so

theorem theta_moves (hb : Modelled E b) {B r c : Nat}  (hx : x.shape = [B, r * c]) :
    ∃ y, (∀ so, rearrange b so (.one x) "b (row col) -> b row col".toList [("row".toList, ⟨(r : Nat), true⟩), ("col".toList, ⟨(c : Nat), true⟩)] = .ok y) ∧
      y.shape = [B, r, c] ∧ ∀ ib irow icol, ib < B → irow < r → icol < c →
        y.at? [ib, irow, icol] = x.at? [ib, irow * c + icol] := by
  obtain ⟨y, h1, h2, h3⟩ := ((theta_named ).on hx).moves hb
  refine ⟨y, h1, h2, fun ib irow icol kb krow kcol => h3 (look [['b'], ['r', 'o', 'w'], ['c', 'o', 'l']] [ib, irow, icol]) ?_⟩
  simp [look, kb, krow, kcol]

theorem theta_by_hand (hb : Modelled E b) {B r c : Nat}  (hx : x.shape = [B, r * c]) (so : SetOrder) :
    rearrange b so (.one x) "b (row col) -> b row col".toList [("row".toList, ⟨(r : Nat), true⟩), ("col".toList, ⟨(c : Nat), true⟩)] =
      byHand x [B, r, c] [0, 1, 2] [B, r, c] :=
  ((theta_named ).on hx).by_hand hb so

theorem pixel_moves (hb : Modelled E b) {B r H W : Nat}  (hx : x.shape = [B, r * r, H, W]) :
    ∃ y, (∀ so, rearrange b so (.one x) "b (h2 w2) h w -> b (h h2) (w w2)".toList [("h2".toList, ⟨(r : Nat), true⟩), ("w2".toList, ⟨(r : Nat), true⟩)] = .ok y) ∧
      y.shape = [B, H * r, W * r] ∧ ∀ ib ih2 iw2 ih iw, ib < B → ih2 < r → iw2 < r → ih < H → iw < W →
        y.at? [ib, ih * r + ih2, iw * r + iw2] = x.at? [ib, ih2 * r + iw2, ih, iw] := by
  obtain ⟨y, h1, h2, h3⟩ := ((pixel_named ).on hx).moves hb
  refine ⟨y, h1, h2, fun ib ih2 iw2 ih iw kb kh2 kw2 kh kw => h3 (look [['b'], ['h', '2'], ['w', '2'], ['h'], ['w']] [ib, ih2, iw2, ih, iw]) ?_⟩
  simp [look, kb, kh2, kw2, kh, kw]

theorem pixel_by_hand (hb : Modelled E b) {B r H W : Nat}  (hx : x.shape = [B, r * r, H, W]) (so : SetOrder) :
    rearrange b so (.one x) "b (h2 w2) h w -> b (h h2) (w w2)".toList [("h2".toList, ⟨(r : Nat), true⟩), ("w2".toList, ⟨(r : Nat), true⟩)] =
      byHand x [B, r, r, H, W] [0, 3, 1, 4, 2] [B, H * r, W * r] :=
  ((pixel_named ).on hx).by_hand hb so

theorem encode_moves (hb : Modelled E b) {T B n : Nat}  (hx : x.shape = [T, B, n]) :
    ∃ y, (∀ so, rearrange b so (.one x) "t b nhid -> (t b) nhid".toList [] = .ok y) ∧
      y.shape = [T * B, n] ∧ ∀ it ib inhid, it < T → ib < B → inhid < n →
        y.at? [it * B + ib, inhid] = x.at? [it, ib, inhid] := by
  obtain ⟨y, h1, h2, h3⟩ := ((encode_named ).on hx).moves hb
  refine ⟨y, h1, h2, fun it ib inhid kt kb knhid => h3 (look [['t'], ['b'], ['n', 'h', 'i', 'd']] [it, ib, inhid]) ?_⟩
  simp [look, kt, kb, knhid]

theorem encode_by_hand (hb : Modelled E b) {T B n : Nat}  (hx : x.shape = [T, B, n]) (so : SetOrder) :
    rearrange b so (.one x) "t b nhid -> (t b) nhid".toList [] =
      byHand x [T, B, n] [0, 1, 2] [T * B, n] :=
  ((encode_named ).on hx).by_hand hb so

theorem decode_moves (hb : Modelled E b) {T B n : Nat}  (hx : x.shape = [T * B, n]) :
    ∃ y, (∀ so, rearrange b so (.one x) "(t b) token -> t b token".toList [("t".toList, ⟨(T : Nat), true⟩), ("b".toList, ⟨(B : Nat), true⟩)] = .ok y) ∧
      y.shape = [T, B, n] ∧ ∀ it ib itoken, it < T → ib < B → itoken < n →
        y.at? [it, ib, itoken] = x.at? [it * B + ib, itoken] := by
  obtain ⟨y, h1, h2, h3⟩ := ((decode_named ).on hx).moves hb
  refine ⟨y, h1, h2, fun it ib itoken kt kb ktoken => h3 (look [['t'], ['b'], ['t', 'o', 'k', 'e', 'n']] [it, ib, itoken]) ?_⟩
  simp [look, kt, kb, ktoken]

theorem decode_by_hand (hb : Modelled E b) {T B n : Nat}  (hx : x.shape = [T * B, n]) (so : SetOrder) :
    rearrange b so (.one x) "(t b) token -> t b token".toList [("t".toList, ⟨(T : Nat), true⟩), ("b".toList, ⟨(B : Nat), true⟩)] =
      byHand x [T, B, n] [0, 1, 2] [T, B, n] :=
  ((decode_named ).on hx).by_hand hb so

theorem hidden_moves (hb : Modelled E b) {n d B C : Nat} (hd : 0 < d) (hx : x.shape = [n * d, B, C]) :
    ∃ y, (∀ so, rearrange b so (.one x) "(layer dir) b c -> layer b (dir c)".toList [("dir".toList, ⟨(d : Nat), true⟩)] = .ok y) ∧
      y.shape = [n, B, d * C] ∧ ∀ ilayer idir ib ic, ilayer < n → idir < d → ib < B → ic < C →
        y.at? [ilayer, ib, idir * C + ic] = x.at? [ilayer * d + idir, ib, ic] := by
  obtain ⟨y, h1, h2, h3⟩ := ((hidden_named hd).on hx).moves hb
  refine ⟨y, h1, h2, fun ilayer idir ib ic klayer kdir kb kc => h3 (look [['l', 'a', 'y', 'e', 'r'], ['d', 'i', 'r'], ['b'], ['c']] [ilayer, idir, ib, ic]) ?_⟩
  simp [look, klayer, kdir, kb, kc]

theorem hidden_by_hand (hb : Modelled E b) {n d B C : Nat} (hd : 0 < d) (hx : x.shape = [n * d, B, C]) (so : SetOrder) :
    rearrange b so (.one x) "(layer dir) b c -> layer b (dir c)".toList [("dir".toList, ⟨(d : Nat), true⟩)] =
      byHand x [n, d, B, C] [0, 2, 1, 3] [n, B, d * C] :=
  ((hidden_named hd).on hx).by_hand hb so

theorem filters_moves (hb : Modelled E b) {n B C : Nat}  (hx : x.shape = [n, B, C]) :
    ∃ y, (∀ so, rearrange b so (.one x) "filter b c -> b (filter c)".toList [] = .ok y) ∧
      y.shape = [B, n * C] ∧ ∀ ifilter ib ic, ifilter < n → ib < B → ic < C →
        y.at? [ib, ifilter * C + ic] = x.at? [ifilter, ib, ic] := by
  obtain ⟨y, h1, h2, h3⟩ := ((filters_named ).on hx).moves hb
  refine ⟨y, h1, h2, fun ifilter ib ic kfilter kb kc => h3 (look [['f', 'i', 'l', 't', 'e', 'r'], ['b'], ['c']] [ifilter, ib, ic]) ?_⟩
  simp [look, kfilter, kb, kc]

theorem filters_by_hand (hb : Modelled E b) {n B C : Nat}  (hx : x.shape = [n, B, C]) (so : SetOrder) :
    rearrange b so (.one x) "filter b c -> b (filter c)".toList [] =
      byHand x [n, B, C] [1, 0, 2] [B, n * C] :=
  ((filters_named ).on hx).by_hand hb so

theorem banks_moves (hb : Modelled E b) {n B C T : Nat}  (hx : x.shape = [n, B, C, T]) :
    ∃ y, (∀ so, rearrange b so (.one x) "bank b c t -> b (bank c) t".toList [("c".toList, ⟨(C : Nat), true⟩)] = .ok y) ∧
      y.shape = [B, n * C, T] ∧ ∀ ibank ib ic it, ibank < n → ib < B → ic < C → it < T →
        y.at? [ib, ibank * C + ic, it] = x.at? [ibank, ib, ic, it] := by
  obtain ⟨y, h1, h2, h3⟩ := ((banks_named ).on hx).moves hb
  refine ⟨y, h1, h2, fun ibank ib ic it kbank kb kc kt => h3 (look [['b', 'a', 'n', 'k'], ['b'], ['c'], ['t']] [ibank, ib, ic, it]) ?_⟩
  simp [look, kbank, kb, kc, kt]

theorem banks_by_hand (hb : Modelled E b) {n B C T : Nat}  (hx : x.shape = [n, B, C, T]) (so : SetOrder) :
    rearrange b so (.one x) "bank b c t -> b (bank c) t".toList [("c".toList, ⟨(C : Nat), true⟩)] =
      byHand x [n, B, C, T] [1, 0, 2, 3] [B, n * C, T] :=
  ((banks_named ).on hx).by_hand hb so

theorem gates_moves (hb : Modelled E b) {B s C T : Nat} (hs : 0 < s) (hx : x.shape = [B, s * C, T]) :
    ∃ y, (∀ so, rearrange b so (.one x) "b (split c) t -> split b c t".toList [("split".toList, ⟨(s : Nat), true⟩)] = .ok y) ∧
      y.shape = [s, B, C, T] ∧ ∀ ib isplit ic it, ib < B → isplit < s → ic < C → it < T →
        y.at? [isplit, ib, ic, it] = x.at? [ib, isplit * C + ic, it] := by
  obtain ⟨y, h1, h2, h3⟩ := ((gates_named hs).on hx).moves hb
  refine ⟨y, h1, h2, fun ib isplit ic it kb ksplit kc kt => h3 (look [['b'], ['s', 'p', 'l', 'i', 't'], ['c'], ['t']] [ib, isplit, ic, it]) ?_⟩
  simp [look, kb, ksplit, kc, kt]

theorem gates_by_hand (hb : Modelled E b) {B s C T : Nat} (hs : 0 < s) (hx : x.shape = [B, s * C, T]) (so : SetOrder) :
    rearrange b so (.one x) "b (split c) t -> split b c t".toList [("split".toList, ⟨(s : Nat), true⟩)] =
      byHand x [B, s, C, T] [1, 0, 2, 3] [s, B, C, T] :=
  ((gates_named hs).on hx).by_hand hb so

theorem steps_moves (hb : Modelled E b) {B T : Nat}  (hx : x.shape = [B, T]) :
    ∃ y, (∀ so, rearrange b so (.one x) "b t -> t b ()".toList [] = .ok y) ∧
      y.shape = [T, B, 1] ∧ ∀ ib it, ib < B → it < T →
        y.at? [it, ib, 0] = x.at? [ib, it] := by
  obtain ⟨y, h1, h2, h3⟩ := ((steps_named ).on hx).moves hb
  refine ⟨y, h1, h2, fun ib it kb kt => h3 (look [['b'], ['t']] [ib, it]) ?_⟩
  simp [look, kb, kt]

theorem steps_by_hand (hb : Modelled E b) {B T : Nat}  (hx : x.shape = [B, T]) (so : SetOrder) :
    rearrange b so (.one x) "b t -> t b ()".toList [] =
      byHand x [B, T] [1, 0] [T, B, 1] :=
  ((steps_named ).on hx).by_hand hb so

theorem series_moves (hb : Modelled E b) {T B : Nat}  (hx : x.shape = [T, B, 1]) :
    ∃ y, (∀ so, rearrange b so (.one x) "t b () -> b t".toList [] = .ok y) ∧
      y.shape = [B, T] ∧ ∀ it ib, it < T → ib < B →
        y.at? [ib, it] = x.at? [it, ib, 0] := by
  obtain ⟨y, h1, h2, h3⟩ := ((series_named ).on hx).moves hb
  refine ⟨y, h1, h2, fun it ib kt kb => h3 (look [['t'], ['b']] [it, ib]) ?_⟩
  simp [look, kt, kb]

theorem series_by_hand (hb : Modelled E b) {T B : Nat}  (hx : x.shape = [T, B, 1]) (so : SetOrder) :
    rearrange b so (.one x) "t b () -> b t".toList [] =
      byHand x [T, B] [1, 0] [B, T] :=
  ((series_named ).on hx).by_hand hb so

theorem heads_moves (hb : Modelled E b) {B L n k : Nat} (hn : 0 < n) (hx : x.shape = [B, L, n * k]) :
    ∃ y, (∀ so, rearrange b so (.one x) "b l (head k) -> head b l k".toList [("head".toList, ⟨(n : Nat), true⟩)] = .ok y) ∧
      y.shape = [n, B, L, k] ∧ ∀ ib il ihead ik, ib < B → il < L → ihead < n → ik < k →
        y.at? [ihead, ib, il, ik] = x.at? [ib, il, ihead * k + ik] := by
  obtain ⟨y, h1, h2, h3⟩ := ((heads_named hn).on hx).moves hb
  refine ⟨y, h1, h2, fun ib il ihead ik kb kl khead kk => h3 (look [['b'], ['l'], ['h', 'e', 'a', 'd'], ['k']] [ib, il, ihead, ik]) ?_⟩
  simp [look, kb, kl, khead, kk]

theorem heads_by_hand (hb : Modelled E b) {B L n k : Nat} (hn : 0 < n) (hx : x.shape = [B, L, n * k]) (so : SetOrder) :
    rearrange b so (.one x) "b l (head k) -> head b l k".toList [("head".toList, ⟨(n : Nat), true⟩)] =
      byHand x [B, L, n, k] [2, 0, 1, 3] [n, B, L, k] :=
  ((heads_named hn).on hx).by_hand hb so

theorem keys_moves (hb : Modelled E b) {B L n k : Nat} (hn : 0 < n) (hx : x.shape = [B, L, n * k]) :
    ∃ y, (∀ so, rearrange b so (.one x) "b t (head k) -> head b t k".toList [("head".toList, ⟨(n : Nat), true⟩)] = .ok y) ∧
      y.shape = [n, B, L, k] ∧ ∀ ib it ihead ik, ib < B → it < L → ihead < n → ik < k →
        y.at? [ihead, ib, it, ik] = x.at? [ib, it, ihead * k + ik] := by
  obtain ⟨y, h1, h2, h3⟩ := ((keys_named hn).on hx).moves hb
  refine ⟨y, h1, h2, fun ib it ihead ik kb kt khead kk => h3 (look [['b'], ['t'], ['h', 'e', 'a', 'd'], ['k']] [ib, it, ihead, ik]) ?_⟩
  simp [look, kb, kt, khead, kk]

theorem keys_by_hand (hb : Modelled E b) {B L n k : Nat} (hn : 0 < n) (hx : x.shape = [B, L, n * k]) (so : SetOrder) :
    rearrange b so (.one x) "b t (head k) -> head b t k".toList [("head".toList, ⟨(n : Nat), true⟩)] =
      byHand x [B, L, n, k] [2, 0, 1, 3] [n, B, L, k] :=
  ((keys_named hn).on hx).by_hand hb so

theorem vals_moves (hb : Modelled E b) {B L n k : Nat} (hn : 0 < n) (hx : x.shape = [B, L, n * k]) :
    ∃ y, (∀ so, rearrange b so (.one x) "b t (head v) -> head b t v".toList [("head".toList, ⟨(n : Nat), true⟩)] = .ok y) ∧
      y.shape = [n, B, L, k] ∧ ∀ ib it ihead iv, ib < B → it < L → ihead < n → iv < k →
        y.at? [ihead, ib, it, iv] = x.at? [ib, it, ihead * k + iv] := by
  obtain ⟨y, h1, h2, h3⟩ := ((vals_named hn).on hx).moves hb
  refine ⟨y, h1, h2, fun ib it ihead iv kb kt khead kv => h3 (look [['b'], ['t'], ['h', 'e', 'a', 'd'], ['v']] [ib, it, ihead, iv]) ?_⟩
  simp [look, kb, kt, khead, kv]

theorem vals_by_hand (hb : Modelled E b) {B L n k : Nat} (hn : 0 < n) (hx : x.shape = [B, L, n * k]) (so : SetOrder) :
    rearrange b so (.one x) "b t (head v) -> head b t v".toList [("head".toList, ⟨(n : Nat), true⟩)] =
      byHand x [B, L, n, k] [2, 0, 1, 3] [n, B, L, k] :=
  ((vals_named hn).on hx).by_hand hb so

theorem pixels_moves (hb : Modelled E b) {B C H W : Nat}  (hx : x.shape = [B, C, H, W]) :
    ∃ y, (∀ so, rearrange b so (.one x) "b c h w -> b (h w) c".toList [] = .ok y) ∧
      y.shape = [B, H * W, C] ∧ ∀ ib ic ih iw, ib < B → ic < C → ih < H → iw < W →
        y.at? [ib, ih * W + iw, ic] = x.at? [ib, ic, ih, iw] := by
  obtain ⟨y, h1, h2, h3⟩ := ((pixels_named ).on hx).moves hb
  refine ⟨y, h1, h2, fun ib ic ih iw kb kc kh kw => h3 (look [['b'], ['c'], ['h'], ['w']] [ib, ic, ih, iw]) ?_⟩
  simp [look, kb, kc, kh, kw]

theorem pixels_by_hand (hb : Modelled E b) {B C H W : Nat}  (hx : x.shape = [B, C, H, W]) (so : SetOrder) :
    rearrange b so (.one x) "b c h w -> b (h w) c".toList [] =
      byHand x [B, C, H, W] [0, 2, 3, 1] [B, H * W, C] :=
  ((pixels_named ).on hx).by_hand hb so

theorem lines_moves (hb : Modelled E b) {B C H W : Nat}  (hx : x.shape = [B, C, H, W]) :
    ∃ y, (∀ so, rearrange b so (.one x) "b c h w -> b c (h w)".toList [] = .ok y) ∧
      y.shape = [B, C, H * W] ∧ ∀ ib ic ih iw, ib < B → ic < C → ih < H → iw < W →
        y.at? [ib, ic, ih * W + iw] = x.at? [ib, ic, ih, iw] := by
  obtain ⟨y, h1, h2, h3⟩ := ((lines_named ).on hx).moves hb
  refine ⟨y, h1, h2, fun ib ic ih iw kb kc kh kw => h3 (look [['b'], ['c'], ['h'], ['w']] [ib, ic, ih, iw]) ?_⟩
  simp [look, kb, kc, kh, kw]

theorem lines_by_hand (hb : Modelled E b) {B C H W : Nat}  (hx : x.shape = [B, C, H, W]) (so : SetOrder) :
    rearrange b so (.one x) "b c h w -> b c (h w)".toList [] =
      byHand x [B, C, H, W] [0, 1, 2, 3] [B, C, H * W] :=
  ((lines_named ).on hx).by_hand hb so

theorem unpixels_moves (hb : Modelled E b) {B H W C : Nat}  (hx : x.shape = [B, H * W, C]) :
    ∃ y, (∀ so, rearrange b so (.one x) "b (h w) c -> b c h w".toList [("b".toList, ⟨(B : Nat), true⟩), ("c".toList, ⟨(C : Nat), true⟩), ("h".toList, ⟨(H : Nat), true⟩), ("w".toList, ⟨(W : Nat), true⟩)] = .ok y) ∧
      y.shape = [B, C, H, W] ∧ ∀ ib ih iw ic, ib < B → ih < H → iw < W → ic < C →
        y.at? [ib, ic, ih, iw] = x.at? [ib, ih * W + iw, ic] := by
  obtain ⟨y, h1, h2, h3⟩ := ((unpixels_named ).on hx).moves hb
  refine ⟨y, h1, h2, fun ib ih iw ic kb kh kw kc => h3 (look [['b'], ['h'], ['w'], ['c']] [ib, ih, iw, ic]) ?_⟩
  simp [look, kb, kh, kw, kc]

theorem unpixels_by_hand (hb : Modelled E b) {B H W C : Nat}  (hx : x.shape = [B, H * W, C]) (so : SetOrder) :
    rearrange b so (.one x) "b (h w) c -> b c h w".toList [("b".toList, ⟨(B : Nat), true⟩), ("c".toList, ⟨(C : Nat), true⟩), ("h".toList, ⟨(H : Nat), true⟩), ("w".toList, ⟨(W : Nat), true⟩)] =
      byHand x [B, H, W, C] [0, 3, 1, 2] [B, C, H, W] :=
  ((unpixels_named ).on hx).by_hand hb so

theorem merge_moves (hb : Modelled E b) {n B L v : Nat}  (hx : x.shape = [n, B, L, v]) :
    ∃ y, (∀ so, rearrange b so (.one x) "head b l v -> b l (head v)".toList [] = .ok y) ∧
      y.shape = [B, L, n * v] ∧ ∀ ihead ib il iv, ihead < n → ib < B → il < L → iv < v →
        y.at? [ib, il, ihead * v + iv] = x.at? [ihead, ib, il, iv] := by
  obtain ⟨y, h1, h2, h3⟩ := ((merge_named ).on hx).moves hb
  refine ⟨y, h1, h2, fun ihead ib il iv khead kb kl kv => h3 (look [['h', 'e', 'a', 'd'], ['b'], ['l'], ['v']] [ihead, ib, il, iv]) ?_⟩
  simp [look, khead, kb, kl, kv]

theorem merge_by_hand (hb : Modelled E b) {n B L v : Nat}  (hx : x.shape = [n, B, L, v]) (so : SetOrder) :
    rearrange b so (.one x) "head b l v -> b l (head v)".toList [] =
      byHand x [n, B, L, v] [1, 2, 0, 3] [B, L, n * v] :=
  ((merge_named ).on hx).by_hand hb so

end Torch

end Einops
