import Verif.ListPrograms
import Verif.Proofs.Pixels
import Verif.Props.Operations

/-! Lists of items. -/

namespace Einops

universe u
variable {α : Type u} {x : Tensor α}

namespace Lists

section
attribute [local instance] asciiUnicode

theorem last_pattern : @IsPattern asciiUnicode "b c h w -> b h w c".toList
    ([[['b']], [['c']], [['h']], [['w']]].map toElem) ([[['b']], [['h']], [['w']], [['c']]].map toElem) :=
  ⟨"b c h w ".toList, " b h w c".toList, by decide,
    isSide_of (by decide) (by decide) (by decide) (by decide), isSide_of (by decide) (by decide) (by decide) (by decide)⟩

theorem wide_pattern : @IsPattern asciiUnicode "b c h w -> h (b w) c".toList
    ([[['b']], [['c']], [['h']], [['w']]].map toElem) ([[['h']], [['b'], ['w']], [['c']]].map toElem) :=
  ⟨"b c h w ".toList, " h (b w) c".toList, by decide,
    isSide_of (by decide) (by decide) (by decide) (by decide), isSide_of (by decide) (by decide) (by decide) (by decide)⟩

end

/-- the items of a tensor -/
theorem items_ok {n : Nat} {s : List Nat} (hx : x.shape = n :: s) :
    ∃ xs, x.items = .ok xs ∧ xs.length = n ∧ (∀ y ∈ xs, y.shape = s) ∧
      ∀ k i, k < n → (xs[k]?).bind (fun y => y.at? i) = x.at? (k :: i) := by
  have hsel : ∀ k : Nat, ∃ y : Tensor α, k < n → x.select 0 k = .ok y ∧ y.shape = s ∧ ∀ i, y.at? i = x.at? (k :: i) := by
    intro k
    by_cases hk : k < n
    · obtain ⟨y, h1, h2, h3⟩ := select_ok (pre := []) (post := s) hx (k := (k : Int)) (j := k) (by rw [if_neg (by omega)]) hk
      exact ⟨y, fun _ => ⟨h1, h2, fun i => h3 [] i rfl⟩⟩
    · exact ⟨x, fun h => absurd h hk⟩
  choose g hg using hsel
  refine ⟨(List.range n).map g, ?_, by simp, fun y hy => ?_, fun k i hk => ?_⟩
  · unfold Tensor.items
    rw [hx]
    simp only
    rw [mapE_eq_ok_iff, List.map_map]
    exact List.map_congr_left fun k hk => (hg k (List.mem_range.1 hk)).1
  · obtain ⟨k, hk, rfl⟩ := List.mem_map.1 hy
    exact (hg k (List.mem_range.1 hk)).2.1
  · rw [List.getElem?_map, List.getElem?_range hk]
    exact (hg k hk).2.2 i

section
variable [PyUnicode] {E : ElemOps α} {b : Backend α}

theorem list_same (hb : Modelled E b) {n : Nat} {s : List Nat} (hx : x.shape = n :: s) (hn : 0 < n) :
    ∃ xs, x.items = .ok xs ∧ xs.length = n ∧ ∀ so q red kw, reduce b so (.many xs) q red kw = reduce b so (.one x) q red kw := by
  obtain ⟨xs, h1, h2, h3, h4⟩ := items_ok hx
  have hne : xs ≠ [] := by
    rintro rfl
    simp at h2
    omega
  obtain ⟨z, z1, z2, z3⟩ := (C18_list_is_stack hb xs h3).1 hne
  have hs : z.shape = x.shape := by rw [z1, h2, hx]
  have : z = x := by
    refine Tensor.ext_at? hs fun i hi => ?_
    rw [z1, h2] at hi
    match i, hi with
    | k :: i, hi => rw [z2, h4 k i (inBounds_cons.1 hi).1]
    | [], hi => simp [inBounds] at hi
  exact ⟨xs, h1, h2, this ▸ z3⟩

theorem last_moves (hb : Modelled E b) {B C H W : Nat} (h : x.shape = [B, C, H, W]) :
    ∃ y, (∀ so, rearrange b so (.one x) "b c h w -> b h w c".toList [] = .ok y) ∧ y.shape = [B, H, W, C] ∧
      ∀ n c i j, n < B → c < C → i < H → j < W → y.at? [n, i, j, c] = x.at? [n, c, i, j] := by
  have hn : Named "b c h w -> b h w c".toList [[['b']], [['c']], [['h']], [['w']]] [[['b']], [['h']], [['w']], [['c']]] []
      (look [['b'], ['c'], ['h'], ['w']] [B, C, H, W]) x.shape :=
    .of _ _ [] [] last_pattern Pixels.rows_names (by decide) (by decide)
      (by decide) (by decide) (by decide) (by decide) rfl (by rw [h]; simp [span, look]) (by simp)
  obtain ⟨z, h1, h2, h3⟩ := hn.moves hb
  refine ⟨z, h1, by rw [h2]; simp [span, look], fun n c i j hn hc hi hj => ?_⟩
  have := h3 (look [['b'], ['c'], ['h'], ['w']] [n, c, i, j]) (by simp [look, hn, hc, hi, hj])
  simpa [place, look] using this

theorem wide_moves (hb : Modelled E b) {B C H W : Nat} (h : x.shape = [B, C, H, W]) :
    ∃ y, (∀ so, rearrange b so (.one x) "b c h w -> h (b w) c".toList [] = .ok y) ∧ y.shape = [H, B * W, C] ∧
      ∀ n c i j, n < B → c < C → i < H → j < W → y.at? [i, n * W + j, c] = x.at? [n, c, i, j] := by
  have hn : Named "b c h w -> h (b w) c".toList [[['b']], [['c']], [['h']], [['w']]] [[['h']], [['b'], ['w']], [['c']]] []
      (look [['b'], ['c'], ['h'], ['w']] [B, C, H, W]) x.shape :=
    .of _ _ [] [] wide_pattern Pixels.rows_names (by decide) (by decide)
      (by decide) (by decide) (by decide) (by decide) rfl (by rw [h]; simp [span, look]) (by simp)
  obtain ⟨z, h1, h2, h3⟩ := hn.moves hb
  refine ⟨z, h1, by rw [h2]; simp [span, look], fun n c i j hn hc hi hj => ?_⟩
  have := h3 (look [['b'], ['c'], ['h'], ['w']] [n, c, i, j]) (by simp [look, hn, hc, hi, hj])
  simpa [place, look] using this

end

end Lists

end Einops
