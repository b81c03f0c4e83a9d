import Verif.Proofs.Yolo
import Verif.Props.Examples
import Mathlib.Algebra.Field.Rat

/-!
# C91: the detection layer

`test_pytorch_yolo_fragment` (einops/tests/test_examples.py:194-296) asserts that `old_way` and `new_way` have the same result; it
runs on pictures of one pixel and with one stride for both directions.  Here are both programs for all pictures, and what they
have in common.
-/

namespace Einops

universe u
variable {α : Type u} [Field α] [DecidableEq α]

section
variable [PyUnicode] {E : ElemOps α} {b : Backend α} {input : Tensor α} {B nc H W n : Nat} {anchors : List (α × α)} {sh sw : α}

/-- **C91** `new_way` for all pictures: the shape and every prediction. -/
theorem C91_new (hb : Modelled E b) (sig exp : α → α) (sh sw : α) (hA : anchors ≠ [])
    (hi : input.shape = [B, anchors.length * (5 + nc), H, W]) :
    ∃ y, (∀ so, yoloNew b so sig exp input anchors.length anchors sh sw = .ok y) ∧ y.shape = [B, anchors.length, H, W, 5 + nc] ∧
      ∀ k a i j p anchor, k < B → anchors[a]? = some anchor → i < H → j < W → p < 5 + nc →
        y.at? [k, a, i, j, p] = some (newPrediction sig exp anchor sh sw i j p (rawPrediction input (5 + nc) k a p i j)) := by
  obtain ⟨y, h1, h2, h3⟩ := Yolo.new_has hb sig exp sh sw hA hi
  refine ⟨y, h1, h2, fun k a i j p anchor hk ha hi' hj hp => ?_⟩
  have hl : a < anchors.length := (List.getElem?_eq_some_iff.1 ha).1
  rw [h3 _ (Yolo.inBounds_five.2 ⟨_, _, _, _, _, rfl, hk, hl, hi', hj, hp⟩)]
  simp [nth, ha]

omit [PyUnicode] in
/-- **C91** `old_way` for square pictures: the shape and every prediction.  The centre of a box is (column, row), while it is
(row, column) in the result of `new_way`. -/
theorem C91_old (sig exp : α → α) (hA : anchors ≠ []) (hB : 0 < B) (hnc : 0 < nc) (hh : sh ≠ 0) (hw : sw ≠ 0)
    (hi : input.shape = [B, anchors.length * (5 + nc), n, n]) :
    ∃ y, yoloOld sig exp input nc anchors.length anchors sh sw = .ok y ∧ y.shape = [B, anchors.length * n * n, 5 + nc] ∧
      ∀ k a i j p anchor, k < B → anchors[a]? = some anchor → i < n → j < n → p < 5 + nc →
        y.at? [k, (a * n + i) * n + j, p] =
          some (oldPrediction sig exp anchor sh sw i j p (rawPrediction input (5 + nc) k a p i j)) := by
  obtain ⟨y, h1, h2, h3⟩ := Yolo.old_has sig exp hA hB hnc hh hw hi
  refine ⟨y, h1, h2, fun k a i j p anchor hk ha hi' hj hp => ?_⟩
  have hl : a < anchors.length := (List.getElem?_eq_some_iff.1 ha).1
  obtain ⟨c1, c2, c3⟩ := Yolo.cell_of (a := a) hi' hj
  rw [h3 _ (inBounds_three.2 ⟨_, _, _, rfl, hk, Yolo.cell_lt hl hi' hj, hp⟩)]
  simp only [nth, List.getD_cons_zero, List.getD_cons_succ, c1, c2, c3]
  simp [ha]

omit [PyUnicode] in
/-- **C91** `old_way` is an error for pictures that are not square. -/
theorem C91_old_not_square (sig exp : α → α) (hA : anchors ≠ []) (hB : 0 < B) (hh : sh ≠ 0) (hw : sw ≠ 0) (hne : H ≠ W)
    (hi : input.shape = [B, anchors.length * (5 + nc), H, W]) :
    yoloOld sig exp input nc anchors.length anchors sh sw = .error .backend :=
  Yolo.old_error sig exp hA hB hh hw hne hi

/-- **C91** What the test samples: with pictures of one pixel and the same stride twice, `result1.reshape(result2.shape)` is
`result2`, exactly. -/
theorem C91_one_pixel (hb : Modelled E b) (so : SetOrder) (sig exp : α → α) (hA : anchors ≠ []) (hB : 0 < B) (hnc : 0 < nc) (hs : sh ≠ 0)
    (hi : input.shape = [B, anchors.length * (5 + nc), 1, 1]) :
    ∃ r1 r2, yoloOld sig exp input nc anchors.length anchors sh sh = .ok r1 ∧
      yoloNew b so sig exp input anchors.length anchors sh sh = .ok r2 ∧ r1.reshape (r2.shape.map Int.ofNat) = .ok r2 := by
  obtain ⟨r1, h1, h2, h3⟩ := C91_old (n := 1) sig exp hA hB hnc hs hs hi
  obtain ⟨r2, h4, h5, h6⟩ := C91_new hb sig exp sh sh hA hi
  obtain ⟨r, e1, e2, e3⟩ := Yolo.reshape_cells h2
  refine ⟨r1, r2, h1, h4 so, ?_⟩
  rw [h5, e1]
  congr 1
  refine Tensor.ext_at? (e2.trans h5.symm) fun i hi' => ?_
  rw [e2] at hi'
  obtain ⟨k, a, u, v, p, rfl, hk, ha, hu, hv, hp⟩ := Yolo.inBounds_five.1 hi'
  rw [e3 k a u v p hk ha hu hv hp, h3 k a u v p _ hk (List.getElem?_eq_getElem ha) hu hv hp,
    h6 k a u v p _ hk (List.getElem?_eq_getElem ha) hu hv hp]
  obtain rfl : u = 0 := by omega
  obtain rfl : v = 0 := by omega
  unfold oldPrediction newPrediction
  split <;> simp

/-- **C91** Pictures with more pixels: with the same stride twice, `result1.reshape(result2.shape)` is never `result2`, whatever the
input, because the two ways number the centres in different orders. -/
theorem C91_more_pixels (hb : Modelled E b) (so : SetOrder) (sig exp : α → α) (hA : anchors ≠ []) (hB : 0 < B) (hnc : 0 < nc) (hs : sh ≠ 0)
    (hn : 2 ≤ n) (hi : input.shape = [B, anchors.length * (5 + nc), n, n]) :
    ∃ r1 r r2, yoloOld sig exp input nc anchors.length anchors sh sh = .ok r1 ∧
      yoloNew b so sig exp input anchors.length anchors sh sh = .ok r2 ∧ r1.reshape (r2.shape.map Int.ofNat) = .ok r ∧ r ≠ r2 := by
  obtain ⟨r1, h1, h2, h3⟩ := C91_old (n := n) sig exp hA hB hnc hs hs hi
  obtain ⟨r2, h4, h5, h6⟩ := C91_new hb sig exp sh sh hA hi
  obtain ⟨r, e1, e2, e3⟩ := Yolo.reshape_cells h2
  refine ⟨r1, r, r2, h1, h4 so, by rw [h5, e1], fun e => ?_⟩
  have ha : 0 < anchors.length := List.length_pos_iff.2 hA
  have k1 := e3 0 0 0 1 0 hB ha (by omega) (by omega) (by omega)
  rw [h3 0 0 0 1 0 _ hB (List.getElem?_eq_getElem ha) (by omega) (by omega) (by omega), e,
    h6 0 0 0 1 0 _ hB (List.getElem?_eq_getElem ha) (by omega) (by omega) (by omega)] at k1
  simp only [newPrediction, oldPrediction, Option.some.injEq] at k1
  have := mul_right_cancel₀ hs k1
  simp at this

end

section
attribute [local instance] asciiUnicode

/-- a picture of one pixel: one anchor, one class -/
def yoloPixel : Tensor Rat := ⟨[1, 6, 1, 1], [1, 2, 3, 4, 5, 6], rfl⟩

/-- a picture of two times two pixels -/
def yoloFour : Tensor Rat := ⟨[1, 6, 2, 2], (List.range 24).map Nat.cast, by simp⟩

/-- the hypotheses of C91 can be met -/
example : ([((50 : Rat), (100 : Rat))] : List (Rat × Rat)) ≠ [] ∧ (4 : Rat) ≠ 0 ∧
    yoloPixel.shape = [1, [((50 : Rat), (100 : Rat))].length * (5 + 1), 1, 1] ∧
    yoloFour.shape = [1, [((50 : Rat), (100 : Rat))].length * (5 + 1), 2, 2] := by
  refine ⟨by simp, by norm_num, rfl, rfl⟩

example {E : ElemOps Rat} {b : Backend Rat} (hb : Modelled E b) : ∃ r1 r r2, yoloOld id id yoloFour 1 1 [(50, 100)] 4 4 = .ok r1 ∧
    yoloNew b idOrder id id yoloFour 1 [(50, 100)] 4 4 = .ok r2 ∧ r1.reshape (r2.shape.map Int.ofNat) = .ok r ∧ r ≠ r2 :=
  C91_more_pixels (anchors := [(50, 100)]) (nc := 1) (n := 2) (B := 1) hb idOrder id id (by simp) (by omega) (by omega) (by norm_num)
    (by omega) rfl

/-- prediction 0 of the cell in row 0 and column 1: the old way adds the column, the new way the row -/
example : oldPrediction (id : Rat → Rat) id (50, 100) 4 4 0 1 0 (rawPrediction yoloFour 6 0 0 0 0 1) = 8 ∧
    newPrediction (id : Rat → Rat) id (50, 100) 4 4 0 1 0 (rawPrediction yoloFour 6 0 0 0 0 1) = 4 := by
  have : rawPrediction yoloFour 6 0 0 0 0 1 = 1 := by
    rfl
  rw [this]
  simp only [oldPrediction, newPrediction]
  norm_num

end

end Einops
