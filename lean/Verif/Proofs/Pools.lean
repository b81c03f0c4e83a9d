import Verif.PoolPrograms
import Verif.ApartSpec
import Verif.Proofs.Lists
import Verif.Props.Documented

/-! Pooling in the examples. -/

namespace Einops

universe u
variable {α : Type u} {x : Tensor α}

namespace Pools

section
attribute [local instance] asciiUnicode

theorem window_pattern : @IsPattern asciiUnicode "b c (h h1) (w w1) -> b c h w".toList
    ([[['b']], [['c']], [['h'], ['h', '1']], [['w'], ['w', '1']]].map toElem) ([[['b']], [['c']], [['h']], [['w']]].map toElem) :=
  ⟨"b c (h h1) (w w1) ".toList, " b c h w".toList, by decide,
    isSide_of (by decide) (by decide) (by decide) (by decide), isSide_of (by decide) (by decide) (by decide) (by decide)⟩

theorem window_names : ∀ w ∈ [['b'], ['c'], ['h'], ['h', '1'], ['w'], ['w', '1']], @IsName asciiUnicode false w := by decide

theorem all_pattern : @IsPattern asciiUnicode "b c h w -> b c () ()".toList
    ([[['b']], [['c']], [['h']], [['w']]].map toElem) ([[['b']], [['c']], [], []].map toElem) :=
  ⟨"b c h w ".toList, " b c () ()".toList, by decide,
    isSide_of (by decide) (by decide) (by decide) (by decide), isSide_of (by decide) (by decide) (by decide) (by decide)⟩

theorem all_names : ∀ w ∈ [['b'], ['c'], ['h'], ['w']], @IsName asciiUnicode false w := by decide

theorem squeeze_pattern : @IsPattern asciiUnicode "b c () () -> c b".toList
    ([[['b']], [['c']], [], []].map toElem) ([[['c']], [['b']]].map toElem) :=
  ⟨"b c () () ".toList, " c b".toList, by decide,
    isSide_of (by decide) (by decide) (by decide) (by decide), isSide_of (by decide) (by decide) (by decide) (by decide)⟩

theorem squeeze_names : ∀ w ∈ [[['b']], [['c']], [], []].flatten, @IsName asciiUnicode false w := by decide

end

/-- a tensor with given properties of its elements -/
theorem exists_tensor {s : List Nat} {P : List Nat → α → Prop} (h : ∀ i, inBounds i s = true → ∃ v, P i v) :
    ∃ z : Tensor α, z.shape = s ∧ ∀ i, inBounds i s = true → ∃ v, P i v ∧ z.at? i = some v := by
  classical
  obtain ⟨z, h1, h2, -⟩ := Tensor.build_total (shape := s)
    (f := fun i => if hi : inBounds i s = true then (.ok (h i hi).choose : Py α) else .error .index)
    (fun i hi => ⟨_, dif_pos hi⟩)
  refine ⟨z, h2, fun i hi => ?_⟩
  obtain ⟨v, v1, v2⟩ := (Tensor.build_ok h1).2 i hi
  simp only [dif_pos hi] at v1
  cases v1
  exact ⟨_, (h i hi).choose_spec, v2⟩

theorem all_some {l : List (Option α)} (h : ∀ o ∈ l, ∃ v, o = some v) : ∃ vs : List α, l = vs.map some := by
  induction l with
  | nil => exact ⟨[], rfl⟩
  | cons o l ih =>
    obtain ⟨v, rfl⟩ := h o (by simp)
    obtain ⟨vs, rfl⟩ := ih fun o ho => h o (by simp [ho])
    exact ⟨v :: vs, rfl⟩

/-- the elements `f i j` of a window and its largest -/
theorem window {op : List α → Py α} [LE α] (hl : Largest op) {f : Nat → Nat → Option α} {H W : Nat} {vs : List α} {v : α}
    (h : ((List.range H).flatMap fun p => (List.range W).map fun r => f p r) = vs.map some) (hv : op vs = .ok v) :
    (∃ p r, p < H ∧ r < W ∧ f p r = some v) ∧ ∀ p r, p < H → r < W → ∃ a, f p r = some a ∧ a ≤ v := by
  obtain ⟨h1, h2⟩ := hl vs v hv
  have hm : ∀ o, o ∈ vs.map some ↔ ∃ p r, p < H ∧ r < W ∧ f p r = o := by
    intro o
    rw [← h]
    simp only [List.mem_flatMap, List.mem_map, List.mem_range]
    constructor
    · rintro ⟨p, hp, r, hr, rfl⟩
      exact ⟨p, r, hp, hr, rfl⟩
    · rintro ⟨p, r, hp, hr, rfl⟩
      exact ⟨p, hp, r, hr, rfl⟩
  refine ⟨(hm _).1 (List.mem_map_of_mem h1), fun p r hp hr => ?_⟩
  obtain ⟨a, ha, e⟩ := List.mem_map.1 ((hm _).2 ⟨p, r, hp, hr, rfl⟩)
  exact ⟨a, e.symm, h2 a ha⟩

theorem window_exists {op : List α → Py α} (ht : ∀ vs, vs ≠ [] → ∃ v, op vs = .ok v) {f : Nat → Nat → Option α} {H W : Nat}
    (hH : 0 < H) (hW : 0 < W) (hf : ∀ p r, p < H → r < W → ∃ v, f p r = some v) :
    ∃ v vs, ((List.range H).flatMap fun p => (List.range W).map fun r => f p r) = vs.map some ∧ op vs = .ok v := by
  obtain ⟨vs, h⟩ := all_some (l := (List.range H).flatMap fun p => (List.range W).map fun r => f p r) (by
    intro o ho
    simp only [List.mem_flatMap, List.mem_map, List.mem_range] at ho
    obtain ⟨p, hp, r, hr, rfl⟩ := ho
    exact hf p r hp hr)
  obtain ⟨v, hv⟩ := ht vs (by
    rintro rfl
    have : f 0 0 ∈ ((List.range H).flatMap fun p => (List.range W).map fun r => f p r) := by
      simp only [List.mem_flatMap, List.mem_map, List.mem_range]
      exact ⟨0, hH, 0, hW, rfl⟩
    rw [h] at this
    simp at this)
  exact ⟨v, vs, h, hv⟩

theorem window_lt {p H i k : Nat} (hp : p < H) (hi : i < k) : p * k + i < H * k := by
  have := Nat.mul_le_mul_right k (Nat.succ_le_of_lt hp)
  rw [Nat.succ_mul] at this
  omega

section
variable [PyUnicode] {E : ElemOps α} {b : Backend α}

theorem squeeze_moves (hb : Modelled E b) {B C : Nat} (h : x.shape = [B, C, 1, 1]) :
    ∃ y, (∀ so, rearrange b so (.one x) "b c () () -> c b".toList [] = .ok y) ∧ y.shape = [C, B] ∧
      ∀ n c, n < B → c < C → y.at? [c, n] = x.at? [n, c, 0, 0] := by
  have hn : Named "b c () () -> c b".toList [[['b']], [['c']], [], []] [[['c']], [['b']]] []
      (look [['b'], ['c']] [B, C]) x.shape :=
    .of _ _ [] [] squeeze_pattern squeeze_names (by decide) (by decide)
      (by decide) (by decide) (by decide) (by decide) rfl (by rw [h]; simp [span, look]) (by simp)
  obtain ⟨z, h1, h2, h3⟩ := hn.moves hb
  refine ⟨z, h1, by rw [h2]; simp [span, look], fun n c hn hc => ?_⟩
  have := h3 (look [['b'], ['c']] [n, c]) (by simp [look, hn, hc])
  simpa [place, look] using this

theorem pool_max [LE α] (hb : Computes E "max".toList b) (hl : Largest (E.op "max".toList))
    (ht : ∀ vs, vs ≠ [] → ∃ v, E.op "max".toList vs = .ok v) {B C H W k l : Nat} (hk : 0 < k) (hl' : 0 < l)
    (hx : x.shape = [B, C, H * k, W * l]) :
    ∃ y, (∀ so, maxPool b so x k l = .ok y) ∧ y.shape = [B, C, H, W] ∧ ∀ n c p r, n < B → c < C → p < H → r < W →
      ∃ v, y.at? [n, c, p, r] = some v ∧ (∃ i j, i < k ∧ j < l ∧ x.at? [n, c, p * k + i, r * l + j] = some v) ∧
        ∀ i j, i < k → j < l → ∃ a, x.at? [n, c, p * k + i, r * l + j] = some a ∧ a ≤ v := by
  obtain ⟨y, y1, y2⟩ := exists_tensor (α := α) (s := [B, C, H, W]) (P := fun i v => ∃ vs,
      ((List.range k).flatMap fun u => (List.range l).map fun w => x.at? [nth i 0, nth i 1, nth i 2 * k + u, nth i 3 * l + w]) = vs.map some ∧
        E.op "max".toList vs = .ok v) (by
    intro i hi
    obtain ⟨n, c, p, r, rfl, hn, hc, hp, hr⟩ := inBounds_four.1 hi
    refine window_exists ht hk hl' fun u w hu hw => x.at?_isSome ?_
    rw [hx]
    exact inBounds_four.2 ⟨_, _, _, _, rfl, hn, hc, window_lt hp hu, window_lt hr hw⟩)
  have hy : ∀ n c p r, n < B → c < C → p < H → r < W → ∃ vs v,
      ((List.range k).flatMap fun u => (List.range l).map fun w => x.at? [n, c, p * k + u, r * l + w]) = vs.map some ∧
        E.op "max".toList vs = .ok v ∧ y.at? [n, c, p, r] = some v := by
    intro n c p r hn hc hp hr
    obtain ⟨v, ⟨vs, h1, h2⟩, h3⟩ := y2 [n, c, p, r] (inBounds_four.2 ⟨_, _, _, _, rfl, hn, hc, hp, hr⟩)
    exact ⟨vs, v, h1, h2, h3⟩
  refine ⟨y, fun so => ?_, y1, fun n c p r hn hc hp hr => ?_⟩
  · exact (C63_pool hb (by decide) (fun s hs => isName_ascii (window_names s hs)) (isPattern_ascii window_pattern) hk hl'
      (fun h => absurd h (by decide)) hx so y).2 ⟨y1, hy⟩
  · obtain ⟨vs, v, h1, h2, h3⟩ := hy n c p r hn hc hp hr
    exact ⟨v, h3, window hl h1 h2⟩

theorem global_max [LE α] (hb : Computes E "max".toList b) (hl : Largest (E.op "max".toList))
    (ht : ∀ vs, vs ≠ [] → ∃ v, E.op "max".toList vs = .ok v) {B C H W : Nat} (hH : 0 < H) (hW : 0 < W)
    (hx : x.shape = [B, C, H, W]) :
    ∃ y, (∀ so, globalMax b so x = .ok y) ∧ y.shape = [C, B] ∧ ∀ n c, n < B → c < C →
      ∃ v, y.at? [c, n] = some v ∧ (∃ i j, i < H ∧ j < W ∧ x.at? [n, c, i, j] = some v) ∧
        ∀ i j, i < H → j < W → ∃ a, x.at? [n, c, i, j] = some a ∧ a ≤ v := by
  obtain ⟨z, z1, z2⟩ := exists_tensor (α := α) (s := [B, C, 1, 1]) (P := fun i v => ∃ vs,
      ((List.range H).flatMap fun u => (List.range W).map fun w => x.at? [nth i 0, nth i 1, u, w]) = vs.map some ∧
        E.op "max".toList vs = .ok v) (by
    intro i hi
    obtain ⟨n, c, p, r, rfl, hn, hc, hp, hr⟩ := inBounds_four.1 hi
    refine window_exists ht hH hW fun u w hu hw => x.at?_isSome ?_
    rw [hx]
    exact inBounds_four.2 ⟨_, _, _, _, rfl, hn, hc, hu, hw⟩)
  have hz : ∀ n c, n < B → c < C → ∃ vs v,
      ((List.range H).flatMap fun u => (List.range W).map fun w => x.at? [n, c, u, w]) = vs.map some ∧
        E.op "max".toList vs = .ok v ∧ z.at? [n, c, 0, 0] = some v := by
    intro n c hn hc
    obtain ⟨v, ⟨vs, h1, h2⟩, h3⟩ := z2 [n, c, 0, 0] (inBounds_four.2 ⟨_, _, _, _, rfl, hn, hc, by omega, by omega⟩)
    exact ⟨vs, v, h1, h2, h3⟩
  obtain ⟨y, e, s, p⟩ := squeeze_moves hb.modelled z1
  refine ⟨y, fun so => ?_, s, fun n c hn hc => ?_⟩
  · unfold globalMax
    rw [(C63_per_image hb (by decide) (fun s hs => isName_ascii (all_names s hs)) (e1 := .paren []) (e2 := .paren [])
      (by simp [UnitElem]) (isPattern_ascii all_pattern) (fun h => absurd h (by decide)) hx so z).2 ⟨z1, hz⟩, Strided.ok_bind]
    exact e so
  · obtain ⟨vs, v, h1, h2, h3⟩ := hz n c hn hc
    exact ⟨v, by rw [p n c hn hc, h3], window hl h1 h2⟩

end

end Pools

end Einops
