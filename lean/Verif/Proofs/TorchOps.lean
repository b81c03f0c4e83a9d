import Verif.Proofs.TorchRewrites
import Verif.Proofs.Slices
import Verif.Proofs.Backends
import Verif.Proofs.UnpackExact

/-! Elements of the results of some operations of PyTorch. -/

namespace Einops

universe u
variable {α : Type u} {x y : Tensor α}

/-- a tensor whose elements are read in another one -/
theorem build_reads {s : List Nat} {g : List Nat → List Nat} (h : ∀ i, inBounds i s = true → inBounds (g i) x.shape = true) :
    ∃ y, Tensor.build s (fun i => x.getE (g i)) = .ok y ∧ y.shape = s ∧ ∀ i, inBounds i s = true → y.at? i = x.at? (g i) := by
  obtain ⟨y, h1, h2, h3⟩ := Tensor.build_total (shape := s) (f := fun i => x.getE (g i)) (fun i hi => by
    obtain ⟨a, ha, -⟩ := getE_ok (h i hi)
    exact ⟨a, ha⟩)
  refine ⟨y, h1, h2, fun i hi => ?_⟩
  obtain ⟨a, ha, ha'⟩ := getE_ok (h i hi)
  obtain ⟨c, hc⟩ := y.at?_isSome (h2 ▸ hi)
  have := h3 i hi
  rw [ha, hc] at this
  cases this
  rw [hc, ha']

theorem at_out {i : List Nat} (h : inBounds i x.shape ≠ true) : x.at? i = none := by
  unfold Tensor.at?
  rw [if_neg h]

/-- the elements of `x.select(axis, k)` -/
theorem select_ok {pre post : List Nat} {n : Nat} (hx : x.shape = pre ++ n :: post) {k : Int} {j : Nat}
    (hj : (if k < 0 then k + n else k) = j) (hn : j < n) :
    ∃ y, x.select pre.length k = .ok y ∧ y.shape = pre ++ post ∧
      ∀ u v, u.length = pre.length → y.at? (u ++ v) = x.at? (u ++ j :: v) := by
  have hm : nth x.shape pre.length = n := by rw [hx, nth_mid]
  have he : x.shape.eraseIdx pre.length = pre ++ post := by
    rw [hx, List.eraseIdx_append_of_length_le le_rfl, Nat.sub_self]
    rfl
  have hin : ∀ i, inBounds i (pre ++ post) = true →
      inBounds (i.take pre.length ++ j :: i.drop pre.length) x.shape = true := by
    intro i hi
    have hl := inBounds_length hi
    rw [hx, inBounds_insert (by simp at hl ⊢; omega) hn, List.take_append_drop]
    exact hi
  obtain ⟨y, h1, h2, h3⟩ := build_reads hin
  refine ⟨y, ?_, h2, fun u v hu => ?_⟩
  · unfold Tensor.select
    rw [if_pos (by simp [Tensor.ndim, hx])]
    simp only [hm]
    rw [hj, if_pos ⟨by omega, by omega⟩, he, Int.toNat_natCast]
    exact h1
  · by_cases hi : inBounds (u ++ v) (pre ++ post) = true
    · rw [h3 _ hi, List.take_left' hu, List.drop_left' hu]
    · rw [at_out (by rwa [h2]), at_out (by rwa [hx, inBounds_insert hu hn])]

theorem select_shape {axis : Nat} {k : Int} (h : x.select axis k = .ok y) : y.shape = x.shape.eraseIdx axis := by
  unfold Tensor.select at h
  split at h
  · simp only at h
    generalize (if k < 0 then k + ((nth x.shape axis : Nat) : Int) else k) = j at h
    split at h
    · exact (Tensor.build_ok h).1
    · cases h
  · cases h

theorem at_unit {pre post : List Nat} (hx : x.shape = pre ++ 1 :: post) (hy : y.shape = pre ++ post) (hd : y.data = x.data)
    {u v : List Nat} (hu : u.length = pre.length) : y.at? (u ++ v) = x.at? (u ++ 0 :: v) := by
  by_cases hi : inBounds (u ++ v) (pre ++ post) = true
  · rw [Tensor.at?_of_inBounds _ (by rwa [hy]), Tensor.at?_of_inBounds _ (by rwa [hx, inBounds_insert hu Nat.one_pos]), hx, hy, hd,
      ravel_append hu, ravel_append hu]
    simp [ravel]
  · rw [at_out (by rwa [hy]), at_out (by rwa [hx, inBounds_insert hu Nat.one_pos])]

/-- the elements of `x.squeeze(axis)` -/
theorem squeeze_ok {pre post : List Nat} (hx : x.shape = pre ++ 1 :: post) :
    ∃ y, x.squeeze pre.length = .ok y ∧ y.shape = pre ++ post ∧ y.data = x.data ∧
      ∀ u v, u.length = pre.length → y.at? (u ++ v) = x.at? (u ++ 0 :: v) := by
  have hm : nth x.shape pre.length = 1 := by rw [hx, nth_mid]
  have he : x.shape.eraseIdx pre.length = pre ++ post := by
    rw [hx, List.eraseIdx_append_of_length_le le_rfl, Nat.sub_self]
    rfl
  obtain ⟨y, h1, h2, h3⟩ := x.withShape_ok (s := pre ++ post) (by rw [hx]; simp)
  refine ⟨y, ?_, h2, h3, fun u v hu => at_unit hx h2 h3 hu⟩
  unfold Tensor.squeeze
  rw [if_pos (by simp [Tensor.ndim, hx]), hm, if_pos rfl, he]
  exact h1

theorem squeeze_other {pre post : List Nat} {n : Nat} (hx : x.shape = pre ++ n :: post) (hn : n ≠ 1) :
    x.squeeze pre.length = .ok x := by
  have hm : nth x.shape pre.length = n := by rw [hx, nth_mid]
  unfold Tensor.squeeze
  rw [if_pos (by simp [Tensor.ndim, hx]), hm, if_neg hn]

/-- the elements of `torch.stack(xs, axis)` -/
theorem stackAt_ok {pre post : List Nat} {xs : List (Tensor α)} (hne : xs ≠ []) (hs : ∀ x ∈ xs, x.shape = pre ++ post) :
    ∃ y, Tensor.stackAt xs pre.length = .ok y ∧ y.shape = pre ++ xs.length :: post ∧
      ∀ m x, xs[m]? = some x → ∀ u v, inBounds u pre = true → inBounds v post = true →
        y.at? (u ++ m :: v) = x.at? (u ++ v) := by
  obtain ⟨ys, hys⟩ := mapE_all_ok (f := fun x : Tensor α => x.expandDims pre.length) (l := xs) (fun x hx => by
    obtain ⟨t, h1, -⟩ := expandDims_ok (hs x hx)
    exact ⟨t, h1⟩)
  have hf := mapE_iff.1 hys
  have hlen : xs.length = ys.length := hf.length_eq
  have hys' : ∀ (m : Nat) (z : Tensor α), ys[m]? = some z → ∃ x, xs[m]? = some x ∧ z.shape = pre ++ 1 :: post ∧ z.data = x.data := by
    intro m z hz
    have hm : m < ys.length := (List.getElem?_eq_some_iff.1 hz).1
    have h1 := List.getElem?_eq_getElem (l := xs) (i := m) (hlen ▸ hm)
    have h2 := forall₂_get hf m h1 hz
    obtain ⟨t, h3, h4, h5⟩ := expandDims_ok (hs _ (List.getElem_mem (hlen ▸ hm)))
    rw [h3] at h2
    cases h2
    exact ⟨_, h1, h4, h5⟩
  obtain ⟨y, h1, h2, h3⟩ := concat_ok (zs := ys) (ns := ys.map fun _ => 1) (pre := pre) (post := post)
    (by intro h; rw [h] at hlen; exact hne (List.length_eq_zero_iff.1 hlen)) (by simp)
    (fun k z n hz hn => by
      obtain ⟨x, -, h, -⟩ := hys' k z hz
      rw [List.getElem?_map, hz] at hn
      cases hn
      exact h)
  refine ⟨y, ?_, ?_, fun m x hx u v hu hv => ?_⟩
  · unfold Tensor.stackAt
    rw [hys]
    exact h1
  · rw [h2, hlen]
    simp
  · have hm : m < ys.length := hlen ▸ (List.getElem?_eq_some_iff.1 hx).1
    have hz := List.getElem?_eq_getElem hm
    obtain ⟨x', hx', h4, h5⟩ := hys' m _ hz
    rw [hx] at hx'
    cases hx'
    have h6 := h3 m _ 1 hz (by rw [List.getElem?_map, hz]; rfl) u 0 v hu Nat.one_pos hv
    rw [show ((ys.map fun _ => 1).take m).sum + 0 = m from by simp; omega] at h6
    rw [h6]
    exact (at_unit h4 (hs _ (List.mem_of_getElem? hx)) h5.symm (inBounds_length hu)).symm

/-- `x.chunk(k, axis)` if `k` divides the length -/
theorem chunk_ok {pre post : List Nat} {k c : Nat} (hx : x.shape = pre ++ (k * c) :: post) (hk : 0 < k) :
    ∃ ys, x.chunk k pre.length = .ok ys ∧ ys.length = k ∧ ∀ m y, ys[m]? = some y → y.shape = pre ++ c :: post ∧
      ∀ u j v, inBounds u pre = true → j < c → inBounds v post = true → y.at? (u ++ j :: v) = x.at? (u ++ (m * c + j) :: v) := by
  have hm : nth x.shape pre.length = k * c := by rw [hx, nth_mid]
  have hc : (k * c + k - 1) / k = c := by
    rw [show k * c + k - 1 = (k - 1) + k * c by omega, Nat.add_mul_div_left _ _ hk, Nat.div_eq_of_lt (by omega), Nat.zero_add]
  have hp : (if c = 0 then k else (k * c + c - 1) / c) = k := by
    split
    · rfl
    · rename_i h
      rw [show k * c + c - 1 = (c - 1) + c * k by rw [Nat.mul_comm c k]; omega, Nat.add_mul_div_left _ _ (by omega),
        Nat.div_eq_of_lt (by omega), Nat.zero_add]
  obtain ⟨ys, hys⟩ := mapE_all_ok (f := fun j : Nat => x.slice pre.length (j * c : Nat) ((j + 1) * c : Nat)) (l := List.range k)
    (fun j _ => by
      obtain ⟨y, h, -⟩ := slice_ok hx (j * c : Nat) ((j + 1) * c : Nat)
      exact ⟨y, h⟩)
  have hf := mapE_iff.1 hys
  have hl : k = ys.length := by simpa using hf.length_eq
  refine ⟨ys, ?_, hl.symm, fun m y hy => ?_⟩
  · unfold Tensor.chunk
    rw [if_neg hk.ne', if_pos (by simp [Tensor.ndim, hx])]
    simp only [hm, hc]
    rw [hp]
    exact hys
  · have hmk : m < k := hl ▸ (List.getElem?_eq_some_iff.1 hy).1
    have h1 := forall₂_get hf m (List.getElem?_range hmk) hy
    obtain ⟨z, h2, h3, h4⟩ := slice_ok hx (m * c : Nat) ((m + 1) * c : Nat)
    rw [h2] at h1
    cases h1
    have e1 : clipSlice (k * c) ((m * c : Nat) : Int) = m * c := clipSlice_nat _ _ (Nat.mul_le_mul_right _ hmk.le)
    have e2 : clipSlice (k * c) (((m + 1) * c : Nat) : Int) = (m + 1) * c := clipSlice_nat _ _ (Nat.mul_le_mul_right _ hmk)
    rw [e1, e2, show (m + 1) * c - m * c = c by rw [Nat.succ_mul]; omega] at h3 h4
    exact ⟨h3, h4⟩

end Einops
