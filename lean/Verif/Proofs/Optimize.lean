import Verif.Optimize
import Verif.Proofs.Positions
import Verif.Proofs.Packing

/-!
# Merging neighbouring axes of a plan does not change what it computes
-/

namespace Einops

universe u

variable {α : Type u}

/-! ### Splitting axis `k` into `k` and `k + 1` -/

/-- axis numbers after splitting axis `k` in two -/
def splitAt1 (k j : Nat) : List Nat := if j < k then [j] else if j = k then [k, k + 1] else [j + 1]

/-- a list of axes after splitting axis `k` in two -/
def unjoin (k : Nat) (A : List Nat) : List Nat := A.flatMap (splitAt1 k)

/-- values of the axes after joining `k` and `k + 1` by `g` -/
def joinBy (g : Nat → Nat → Nat) (k : Nat) (f : Nat → Nat) (j : Nat) : Nat :=
  if j < k then f j else if j = k then g (f k) (f (k + 1)) else f (j + 1)

/-- coordinates after joining; `A` are the axes after joining -/
def squash (k b : Nat) : List Nat → List Nat → List Nat
  | [], _ => []
  | j :: A, i =>
    if j = k then (nth i 0 * b + nth i 1) :: squash k b A (i.drop 2) else nth i 0 :: squash k b A (i.drop 1)

theorem unjoin_cons (k j : Nat) (A : List Nat) : unjoin k (j :: A) = splitAt1 k j ++ unjoin k A := rfl

theorem splitAt1_self (k : Nat) : splitAt1 k k = [k, k + 1] := by simp [splitAt1]

theorem splitAt1_ne {k j : Nat} (h : j ≠ k) : ∃ a, splitAt1 k j = [a] ∧ ∀ g f, joinBy g k f j = f a := by
  unfold splitAt1 joinBy
  by_cases h1 : j < k
  · exact ⟨j, by simp [h1]⟩
  · exact ⟨j + 1, by simp [h1, h]⟩

theorem joinBy_self (g : Nat → Nat → Nat) (k : Nat) (f : Nat → Nat) : joinBy g k f k = g (f k) (f (k + 1)) := by
  simp [joinBy]

theorem range_mul_flatMap {β : Type u} (a b : Nat) (F : Nat → List β) :
    (List.range a).flatMap (fun i => (List.range b).flatMap (fun j => F (i * b + j))) = (List.range (a * b)).flatMap F := by
  induction a with
  | zero => simp
  | succ a ih =>
    rw [List.range_succ, List.flatMap_append, ih, Nat.succ_mul, List.range_add, List.flatMap_append]
    simp [List.flatMap_map]

theorem indices_unjoin (k : Nat) (L : Nat → Nat) (A : List Nat) :
    (indices ((unjoin k A).map L)).map (squash k (L (k + 1)) A) = indices (A.map (joinBy (· * ·) k L)) := by
  induction A with
  | nil => rfl
  | cons j A ih =>
    rw [unjoin_cons, List.map_append, List.map_cons]
    by_cases h : j = k
    · subst h
      rw [splitAt1_self, joinBy_self]
      simp only [List.map_cons, List.map_nil, List.cons_append, List.nil_append, indices]
      rw [← ih, ← range_mul_flatMap]
      simp only [List.map_flatMap, List.map_map]
      congr 1; funext i; congr 1; funext i'
      apply List.map_congr_left
      intro r _
      simp [squash, nth]
    · obtain ⟨a, ha, hj⟩ := splitAt1_ne h
      rw [ha, hj]
      simp only [List.map_cons, List.map_nil, List.cons_append, List.nil_append, indices]
      rw [← ih]
      simp only [List.map_flatMap, List.map_map]
      congr 1; funext i
      apply List.map_congr_left
      intro r _
      simp [squash, nth, h]

theorem prod_unjoin (k : Nat) (L : Nat → Nat) (A : List Nat) :
    ((unjoin k A).map L).prod = (A.map (joinBy (· * ·) k L)).prod := by
  rw [← indices_length, ← indices_length, ← indices_unjoin, List.length_map]

theorem ravel_unjoin (k : Nat) (L f : Nat → Nat) (A : List Nat) :
    ravel (A.map (joinBy (· * ·) k L)) (A.map (joinBy (fun x y => x * L (k + 1) + y) k f)) =
      ravel ((unjoin k A).map L) ((unjoin k A).map f) := by
  induction A with
  | nil => rfl
  | cons j A ih =>
    rw [unjoin_cons]
    by_cases h : j = k
    · subst h
      rw [splitAt1_self]
      simp only [List.map_cons, List.cons_append, List.nil_append, ravel, joinBy_self, ih, ← prod_unjoin,
        List.prod_cons]
      ring
    · obtain ⟨a, ha, hj⟩ := splitAt1_ne h
      rw [ha]
      simp only [List.map_cons, List.cons_append, List.nil_append, ravel, hj, ih, ← prod_unjoin]

theorem squash_map (k b : Nat) (f : Nat → Nat) (A : List Nat) :
    squash k b A ((unjoin k A).map f) = A.map (joinBy (fun x y => x * b + y) k f) := by
  induction A with
  | nil => rfl
  | cons j A ih =>
    rw [unjoin_cons]
    by_cases h : j = k
    · subst h
      rw [splitAt1_self]
      simp [squash, joinBy_self, nth, ih]
    · obtain ⟨a, ha, hj⟩ := splitAt1_ne h
      rw [ha]
      simp [squash, hj, nth, ih, h]

theorem inBounds_squash {k : Nat} {L f : Nat → Nat} {A : List Nat}
    (h : inBounds ((unjoin k A).map f) ((unjoin k A).map L) = true) :
    inBounds (A.map (joinBy (fun x y => x * L (k + 1) + y) k f)) (A.map (joinBy (· * ·) k L)) = true := by
  rw [← mem_indices, ← indices_unjoin, ← squash_map]
  exact List.mem_map_of_mem (mem_indices.2 h)

theorem shape_eq_map (y : Tensor α) : y.shape = (List.range y.ndim).map (nth y.shape) := by
  apply List.ext_getElem (by simp [Tensor.ndim])
  intro i h1 h2
  simp [nth, h1]

/-- Reading the joined tensor at the joined coordinates. -/
theorem getE_unjoin {k n : Nat} {y y' : Tensor α} (hn : unjoin k (List.range n) = List.range y.ndim)
    (hs : y'.shape = (List.range n).map (joinBy (· * ·) k (nth y.shape))) (hd : y'.data = y.data) {f : Nat → Nat}
    (hf : inBounds ((List.range y.ndim).map f) y.shape = true) :
    y'.getE ((List.range n).map (joinBy (fun a b => a * nth y.shape (k + 1) + b) k f)) =
      y.getE ((List.range y.ndim).map f) := by
  have hy : y.shape = (List.range y.ndim).map (nth y.shape) := shape_eq_map y
  have hb : inBounds ((unjoin k (List.range n)).map f) ((unjoin k (List.range n)).map (nth y.shape)) = true := by
    rw [hn, ← hy]; exact hf
  have h1 := inBounds_squash hb
  unfold Tensor.getE Tensor.at?
  rw [hs, h1, hf, ravel_unjoin, hn, ← hy, hd]

theorem nth_map_at {A : List Nat} {g : Nat → Nat} {j : Nat} (hj : j ∈ A) : nth (A.map g) (A.idxOf j) = g j := by
  have h : A.idxOf j < A.length := List.idxOf_lt_length_of_mem hj
  simp [nth, h]

theorem inBounds_map_iff {A : List Nat} {f L : Nat → Nat} :
    inBounds (A.map f) (A.map L) = true ↔ ∀ a ∈ A, f a < L a := by
  induction A with
  | nil => simp
  | cons a A ih => rw [List.map_cons, List.map_cons, inBounds_cons, ih]; simp

theorem squash_idx {k b : Nat} {A : List Nat} {f : Nat → Nat} {i : List Nat} (hi : (unjoin k A).map f = i) {j : Nat}
    (hj : j ∈ A) : nth (squash k b A i) (A.idxOf j) = joinBy (fun x y => x * b + y) k f j := by
  rw [← hi, squash_map, nth_map_at hj]

theorem map_readOff {A : List Nat} (hn : A.Nodup) {i : List Nat} (hl : i.length = A.length) :
    A.map (fun a => nth i (A.idxOf a)) = i := by
  apply List.ext_getElem (by simp [hl])
  intro k h1 h2
  simp only [List.length_map] at h1
  simp [hn.idxOf_getElem k h1, nth, h2]

theorem build_data {β : Type u} (s : List Nat) (f : List Nat → Py β) :
    (Tensor.build s f).map Tensor.data = mapE f (indices s) := by
  unfold Tensor.build
  split
  · rename_i d h; exact h.symm
  · rename_i e h; exact h.symm

theorem build_shape {β : Type u} {s : List Nat} {f : List Nat → Py β} {z : Tensor β} (h : Tensor.build s f = .ok z) :
    z.shape = s := by
  unfold Tensor.build at h
  split at h
  · cases h; rfl
  · cases h

/-- `y'` is `y` with axes `k` and `k + 1` merged -/
structure Joined (k : Nat) (y y' : Tensor α) : Prop where
  axes : unjoin k (List.range y'.ndim) = List.range y.ndim
  shape : y'.shape = (List.range y'.ndim).map (joinBy (· * ·) k (nth y.shape))
  data : y'.data = y.data

theorem Joined.nth_shape {k : Nat} {y y' : Tensor α} (h : Joined k y y') {j : Nat} (hj : j < y'.ndim) :
    nth y'.shape j = joinBy (· * ·) k (nth y.shape) j := by
  rw [h.shape]; simp [nth, hj]

theorem Joined.reduceAxes {op : List α → Py α} {k : Nat} {y y' : Tensor α} (h : Joined k y y') {axes axes' : List Nat}
    (hn : axes.Nodup) (hlt : ∀ a ∈ axes, a < y.ndim) (hn' : axes'.Nodup) (hlt' : ∀ a ∈ axes', a < y'.ndim)
    (hkeep : (List.range y.ndim).filter (fun a => a ∉ axes) =
      unjoin k ((List.range y'.ndim).filter (fun a => a ∉ axes')))
    (hred : (List.range y.ndim).filter (fun a => a ∈ axes) =
      unjoin k ((List.range y'.ndim).filter (fun a => a ∈ axes'))) :
    (y'.reduceAxes op axes').map Tensor.data = (y.reduceAxes op axes).map Tensor.data := by
  unfold Tensor.reduceAxes
  rw [if_pos ⟨hn', hlt'⟩, if_pos ⟨hn, hlt⟩]
  simp only []
  rw [build_data, build_data]
  have hK : ∀ a ∈ (List.range y'.ndim).filter (fun a => a ∉ axes'), a < y'.ndim := by
    intro a ha; simpa using (List.mem_filter.1 ha).1
  have hR : ∀ a ∈ (List.range y'.ndim).filter (fun a => a ∈ axes'), a < y'.ndim := by
    intro a ha; simpa using (List.mem_filter.1 ha).1
  have hnK : ((List.range y.ndim).filter (fun a => a ∉ axes)).Nodup := List.nodup_range.filter _
  have hnR : ((List.range y.ndim).filter (fun a => a ∈ axes)).Nodup := List.nodup_range.filter _
  rw [List.map_congr_left (fun a ha => h.nth_shape (hK a ha)),
    List.map_congr_left (fun a ha => h.nth_shape (hR a ha)), ← indices_unjoin, ← indices_unjoin, ← hkeep, ← hred,
    mapE_map]
  apply mapE_congr
  intro i hi
  congr 1
  rw [mapE_map]
  apply mapE_congr
  intro r hr
  have hi' := mem_indices.1 hi
  have hr' := mem_indices.1 hr
  have hil := inBounds_length hi'
  have hrl := inBounds_length hr'
  rw [List.length_map] at hil hrl
  generalize hKe : (List.range y.ndim).filter (fun a => a ∉ axes) = K at *
  generalize hRe : (List.range y.ndim).filter (fun a => a ∈ axes) = R at *
  generalize hKe' : (List.range y'.ndim).filter (fun a => a ∉ axes') = K' at *
  generalize hRe' : (List.range y'.ndim).filter (fun a => a ∈ axes') = R' at *
  let f : Nat → Nat := fun a => if a ∈ K then nth i (K.idxOf a) else nth r (R.idxOf a)
  have hfK : K.map f = i := by
    rw [← map_readOff hnK hil]
    apply List.map_congr_left
    intro a ha
    simp [f, ha]
  have hfR : R.map f = r := by
    rw [← map_readOff hnR hrl]
    apply List.map_congr_left
    intro a ha
    have : a ∉ K := by
      rw [← hRe] at ha; rw [← hKe]
      intro hk
      have h1 := (List.mem_filter.1 ha).2
      have h2 := (List.mem_filter.1 hk).2
      simp at h1 h2
      exact h2 h1
    simp [f, this]
  have hy : y.shape = (List.range y.ndim).map (nth y.shape) := shape_eq_map y
  have hm : mergeIdx y.ndim K R i r = (List.range y.ndim).map f := rfl
  have hm' : mergeIdx y'.ndim K' R' (squash k (nth y.shape (k + 1)) K' i) (squash k (nth y.shape (k + 1)) R' r) =
      (List.range y'.ndim).map (joinBy (fun a b => a * nth y.shape (k + 1) + b) k f) := by
    unfold mergeIdx
    apply List.map_congr_left
    intro j hj
    split
    · rename_i hjK
      exact squash_idx (by rw [← hkeep]; exact hfK) hjK
    · rename_i hjK
      have hjR : j ∈ R' := by
        rw [← hRe', List.mem_filter]
        refine ⟨hj, ?_⟩
        rw [← hKe', List.mem_filter] at hjK
        simp only [hj, true_and, decide_eq_true_eq, not_not] at hjK ⊢
        exact hjK
      exact squash_idx (by rw [← hred]; exact hfR) hjR
  rw [hm, hm']
  apply getE_unjoin h.axes h.shape h.data
  rw [hy, inBounds_map_iff]
  have hb1 := inBounds_map_iff.1 (hfK.symm ▸ hi')
  have hb2 := inBounds_map_iff.1 (hfR.symm ▸ hr')
  intro a ha
  by_cases hk : a ∈ K
  · exact hb1 a hk
  · refine hb2 a ?_
    rw [← hRe, List.mem_filter]
    refine ⟨ha, ?_⟩
    rw [← hKe, List.mem_filter] at hk
    simp only [ha, true_and, decide_eq_true_eq, not_not] at hk ⊢
    exact hk

theorem Joined.transpose {k : Nat} {z z' : Tensor α} (h : Joined k z z') {perm perm' : List Nat}
    (hp : perm = unjoin k perm') (hperm : perm.Perm (List.range z.ndim)) (hperm' : perm'.Perm (List.range z'.ndim)) :
    (z'.transpose perm').map Tensor.data = (z.transpose perm).map Tensor.data := by
  have hn : perm.Nodup := hperm.nodup_iff.2 List.nodup_range
  have hn' : perm'.Nodup := hperm'.nodup_iff.2 List.nodup_range
  have hlt : ∀ p ∈ perm, p < z.ndim := fun p hpm => List.mem_range.1 (hperm.mem_iff.1 hpm)
  have hlt' : ∀ p ∈ perm', p < z'.ndim := fun p hpm => List.mem_range.1 (hperm'.mem_iff.1 hpm)
  have hl : perm.length = z.ndim := by rw [hperm.length_eq, List.length_range]
  have hl' : perm'.length = z'.ndim := by rw [hperm'.length_eq, List.length_range]
  unfold Tensor.transpose
  rw [if_pos ⟨hl', hn', hlt'⟩, if_pos ⟨hl, hn, hlt⟩, build_data, build_data,
    List.map_congr_left (fun a ha => h.nth_shape (hlt' a ha)), ← indices_unjoin, ← hp, mapE_map]
  apply mapE_congr
  intro i hi
  have hi' := mem_indices.1 hi
  have hil := inBounds_length hi'
  rw [List.length_map] at hil
  have hf := map_readOff hn hil
  have h1 : (List.range z'.ndim).map (fun a => nth (squash k (nth z.shape (k + 1)) perm' i) (perm'.idxOf a)) =
      (List.range z'.ndim).map (joinBy (fun a b => a * nth z.shape (k + 1) + b) k (fun a => nth i (perm.idxOf a))) := by
    apply List.map_congr_left
    intro j hj
    exact squash_idx (by rw [← hp]; exact hf) (hperm'.mem_iff.2 hj)
  rw [h1]
  apply getE_unjoin h.axes h.shape h.data
  rw [shape_eq_map z, inBounds_map_iff]
  have hb := inBounds_map_iff.1 (hf.symm ▸ hi')
  intro a ha
  exact hb a (hperm.mem_iff.2 ha)

/-! ### One merge -/

theorem unjoin_append (k : Nat) (A B : List Nat) : unjoin k (A ++ B) = unjoin k A ++ unjoin k B := by
  simp [unjoin]

theorem unjoin_lt {k : Nat} {A : List Nat} (h : ∀ a ∈ A, a < k) : unjoin k A = A := by
  induction A with
  | nil => rfl
  | cons a A ih =>
    rw [unjoin_cons, ih (fun b hb => h b (by simp [hb]))]
    simp [splitAt1, h a (by simp)]

theorem unjoin_gt {k : Nat} {A : List Nat} (h : ∀ a ∈ A, k < a) : unjoin k A = A.map (· + 1) := by
  induction A with
  | nil => rfl
  | cons a A ih =>
    have := h a (by simp)
    rw [unjoin_cons, ih (fun b hb => h b (by simp [hb]))]
    simp [splitAt1, Nat.not_lt.2 this.le, this.ne']

theorem unjoin_range_le {k n : Nat} (h : n ≤ k) : unjoin k (List.range n) = List.range n :=
  unjoin_lt (fun a ha => by have := List.mem_range.1 ha; omega)

theorem unjoin_range {k n : Nat} (h : k < n) : unjoin k (List.range n) = List.range (n + 1) := by
  induction n with
  | zero => omega
  | succ n ih =>
    rw [List.range_succ, unjoin_append]
    by_cases hk : k = n
    · subst hk
      rw [unjoin_range_le le_rfl, List.range_succ, List.range_succ]
      simp [unjoin, splitAt1]
    · rw [ih (by omega), List.range_succ (n := n + 1)]
      simp [unjoin, splitAt1, show ¬ n < k by omega, Ne.symm hk]

theorem mem_unjoin {k a : Nat} {A : List Nat} : a ∈ unjoin k A ↔ ∃ j ∈ A, a ∈ splitAt1 k j := by
  simp [unjoin]

theorem filter_unjoin {k : Nat} {A : List Nat} {P P' : Nat → Bool} (h : ∀ j ∈ A, ∀ a ∈ splitAt1 k j, P a = P' j) :
    (unjoin k A).filter P = unjoin k (A.filter P') := by
  induction A with
  | nil => rfl
  | cons j A ih =>
    rw [unjoin_cons, List.filter_append, ih (fun b hb => h b (by simp [hb]))]
    have hj := h j (by simp)
    cases hp : P' j with
    | true =>
      rw [List.filter_cons_of_pos hp, unjoin_cons, List.filter_eq_self.2]
      intro a ha; rw [hj a ha, hp]
    | false =>
      rw [List.filter_cons_of_neg (by simp [hp]), List.filter_eq_nil_iff.2]
      · rfl
      · intro a ha; rw [hj a ha, hp]; simp

theorem joined_list (S T : List Nat) (a b : Nat) :
    S ++ (a * b) :: T = (List.range (S ++ (a * b) :: T).length).map (joinBy (· * ·) S.length (nth (S ++ a :: b :: T))) := by
  apply List.ext_getElem (by simp)
  intro i h1 h2
  simp only [List.getElem_map, List.getElem_range, joinBy, nth]
  by_cases hi : i < S.length
  · rw [if_pos hi, List.getElem_append_left hi]
    simp [List.getD, List.getElem?_append_left hi, hi]
  · rw [if_neg hi, List.getElem_append_right (by omega)]
    by_cases he : i = S.length
    · subst he
      simp
    · rw [if_neg he]
      obtain ⟨d, rfl⟩ : ∃ d, i = S.length + 1 + d := ⟨i - S.length - 1, by omega⟩
      have hd : d < T.length := by simp at h1; omega
      have : (S ++ a :: b :: T).getD (S.length + 1 + d + 1) 0 = T[d] := by
        rw [List.getD, List.getElem?_append_right (by omega),
          show S.length + 1 + d + 1 - S.length = d + 1 + 1 by omega]
        simp [hd]
      rw [this]
      simp only [show S.length + 1 + d - S.length = d + 1 by omega, List.getElem_cons_succ]

theorem joined_mk {S T : List Nat} {a b : Nat} {y y' : Tensor α} (h : y.shape = S ++ a :: b :: T)
    (h' : y'.shape = S ++ (a * b) :: T) (hd : y'.data = y.data) : Joined S.length y y' where
  axes := by
    unfold Tensor.ndim
    rw [h, h', unjoin_range (by simp)]
    congr 1; simp; omega
  shape := by
    unfold Tensor.ndim
    rw [h, h']; exact joined_list S T a b
  data := hd

/-- number of axes below `a` that are not reduced -/
def rankOf (red : List Nat) (a : Nat) : Nat := ((List.range a).filter (fun x => x ∉ red)).length

/-- The (reduced, sorted) plan makes sense for `n` axes. -/
structure WfPlan (n : Nat) (red order : List Nat) : Prop where
  sorted : red.Pairwise (· < ·)
  lt : ∀ a ∈ red, a < n
  order : order.Perm (List.range (rankOf red n))

/-- `p'` is `p` with axes `k` and `k + 1` merged. -/
structure Merges (k : Nat) (init red order init' red' order' : List Nat) : Prop where
  init : ∃ S a b T, S.length = k ∧ init = S ++ a :: b :: T ∧ init' = S ++ (a * b) :: T
  red : ∀ j < init'.length, ∀ a ∈ splitAt1 k j, (a ∈ red ↔ j ∈ red')
  order : (k ∈ red' ∧ order' = order) ∨ (k ∉ red' ∧ order = unjoin (rankOf red' k) order')

theorem py_tensor_ext {r r' : Py (Tensor α)} (hd : r'.map Tensor.data = r.map Tensor.data)
    (hs : ∀ z z', r = .ok z → r' = .ok z' → z'.shape = z.shape) : r' = r := by
  cases r with
  | error e => cases r' with
    | error e' => simp [Except.map] at hd; rw [hd]
    | ok z' => simp [Except.map] at hd
  | ok z => cases r' with
    | error e' => simp [Except.map] at hd
    | ok z' =>
      have h1 := hs z z' rfl rfl
      simp [Except.map] at hd
      cases z; cases z'; simp_all

theorem reduceAxes_shape' {op : List α → Py α} {x y : Tensor α} {axes : List Nat} (h : x.reduceAxes op axes = .ok y) :
    y.shape = ((List.range x.ndim).filter (fun k => k ∉ axes)).map (nth x.shape) := by
  unfold Tensor.reduceAxes at h
  split at h
  · exact build_shape h
  · cases h

theorem joined_shapes {k : Nat} {L : Nat → Nat} {A : List Nat} (hk : k ∉ A) :
    (unjoin k A).map L = A.map (joinBy (· * ·) k L) := by
  induction A with
  | nil => rfl
  | cons j A ih =>
    obtain ⟨a, ha, hj⟩ := splitAt1_ne (k := k) (j := j) (by rintro rfl; simp at hk)
    rw [unjoin_cons, ha, List.map_append, ih (by simp at hk; exact hk.2)]
    simp [hj]

theorem Merges.run {k : Nat} {init red order init' red' order' : List Nat}
    (h : Merges k init red order init' red' order') (w : WfPlan init.length red order)
    (w' : WfPlan init'.length red' order') (op : List α → Py α) (x : Tensor α) :
    (runMoves op init' red' order' x).map Tensor.data = (runMoves op init red order x).map Tensor.data := by
  obtain ⟨S, a, b, T, hS, hi, hi'⟩ := h.init
  have hprod : init'.prod = init.prod := by rw [hi, hi']; simp [mul_assoc]
  unfold runMoves
  by_cases hp : init.prod = x.shape.prod
  swap
  · simp [Tensor.withShape, hp, hprod]
  obtain ⟨y, hy, hys, hyd⟩ := Tensor.withShape_ok x hp
  obtain ⟨y', hy', hys', hyd'⟩ := Tensor.withShape_ok x (hprod.trans hp)
  rw [hy, hy']
  simp only []
  have hj : Joined k y y' := by
    rw [← hS]
    exact joined_mk (hys.trans hi) (hys'.trans hi') (hyd'.trans hyd.symm)
  have hnd : y.ndim = init.length := by rw [Tensor.ndim, hys]
  have hnd' : y'.ndim = init'.length := by rw [Tensor.ndim, hys']
  have hlen : init.length = init'.length + 1 := by rw [hi, hi']; simp; omega
  have hk : k < init'.length := by rw [hi', ← hS]; simp
  have hmem : ∀ j < y'.ndim, ∀ a ∈ splitAt1 k j, (a ∈ red ↔ j ∈ red') := by rw [hnd']; exact h.red
  have hkeep : (List.range y.ndim).filter (fun a => a ∉ red) =
      unjoin k ((List.range y'.ndim).filter (fun a => a ∉ red')) := by
    rw [← hj.axes]
    exact filter_unjoin (fun j hjm a ha => by simp [hmem j (List.mem_range.1 hjm) a ha])
  have hred : (List.range y.ndim).filter (fun a => a ∈ red) =
      unjoin k ((List.range y'.ndim).filter (fun a => a ∈ red')) := by
    rw [← hj.axes]
    exact filter_unjoin (fun j hjm a ha => by simp [hmem j (List.mem_range.1 hjm) a ha])
  have hlt : ∀ a ∈ red, a < y.ndim := by rw [hnd]; exact w.lt
  have hlt' : ∀ a ∈ red', a < y'.ndim := by rw [hnd']; exact w'.lt
  have hne : red = [] ↔ red' = [] := by
    rw [List.eq_nil_iff_forall_not_mem, List.eq_nil_iff_forall_not_mem]
    constructor
    · intro hr j hjm
      obtain ⟨a, ha⟩ : ∃ a, a ∈ splitAt1 k j := by
        unfold splitAt1; split
        · exact ⟨j, by simp⟩
        · split
          · exact ⟨k, by simp⟩
          · exact ⟨j + 1, by simp⟩
      exact hr a ((hmem j (hlt' j hjm) a ha).2 hjm)
    · intro hr a ham
      have : a ∈ unjoin k (List.range y'.ndim) := by rw [hj.axes]; exact List.mem_range.2 (hlt a ham)
      obtain ⟨j, hj1, hj2⟩ := mem_unjoin.1 this
      exact hr j ((hmem j (List.mem_range.1 hj1) a hj2).1 ham)
  -- the reduction
  have hdata : ((if red' = [] then .ok y' else y'.reduceAxes op red' : Py (Tensor α))).map Tensor.data =
      ((if red = [] then .ok y else y.reduceAxes op red : Py (Tensor α))).map Tensor.data := by
    by_cases hr : red = []
    · rw [if_pos hr, if_pos (hne.1 hr)]
      simp [Except.map, hj.data]
    · rw [if_neg hr, if_neg (fun h => hr (hne.2 h))]
      exact hj.reduceAxes (w.sorted.imp (fun h => Nat.ne_of_lt h)) hlt (w'.sorted.imp (fun h => Nat.ne_of_lt h)) hlt' hkeep hred
  have hsh : ∀ z, (if red = [] then .ok y else y.reduceAxes op red : Py (Tensor α)) = .ok z →
      z.shape = ((List.range y.ndim).filter (fun a => a ∉ red)).map (nth y.shape) := by
    intro z hz
    by_cases hr : red = []
    · rw [if_pos hr] at hz
      cases hz
      subst hr
      simpa using shape_eq_map y
    · rw [if_neg hr] at hz
      exact reduceAxes_shape' hz
  have hsh' : ∀ z, (if red' = [] then .ok y' else y'.reduceAxes op red' : Py (Tensor α)) = .ok z →
      z.shape = ((List.range y'.ndim).filter (fun a => a ∉ red')).map (joinBy (· * ·) k (nth y.shape)) := by
    intro z hz
    have e : ∀ A : List Nat, (∀ a ∈ A, a < y'.ndim) → A.map (nth y'.shape) = A.map (joinBy (· * ·) k (nth y.shape)) :=
      fun A hA => List.map_congr_left (fun a ha => hj.nth_shape (hA a ha))
    by_cases hr : red' = []
    · rw [if_pos hr] at hz
      cases hz
      subst hr
      simpa using hj.shape
    · rw [if_neg hr] at hz
      rw [reduceAxes_shape' hz]
      exact e _ (fun a ha => List.mem_range.1 (List.mem_filter.1 ha).1)
  generalize (if red' = [] then .ok y' else y'.reduceAxes op red' : Py (Tensor α)) = r' at *
  generalize (if red = [] then .ok y else y.reduceAxes op red : Py (Tensor α)) = r at *
  rcases h.order with ⟨hkr, ho⟩ | ⟨hkr, ho⟩
  · -- reduced axes were merged
    have : r' = r := by
      apply py_tensor_ext hdata
      intro z z' hz hz'
      rw [hsh z hz, hsh' z' hz', hkeep, joined_shapes]
      simp [hkr]
    rw [this, ho]
  · cases r with
    | error e => cases r' with
      | error e' => simp [Except.map] at hdata; rw [hdata]
      | ok z' => simp [Except.map] at hdata
    | ok z => cases r' with
      | error e' => simp [Except.map] at hdata
      | ok z' =>
        simp only []
        have hz := hsh z rfl
        have hz' := hsh' z' rfl
        have hd : z'.data = z.data := by simpa [Except.map] using hdata
        -- kept axes, split at `k`
        have hsplit : (List.range y'.ndim).filter (fun a => a ∉ red') =
            (List.range k).filter (fun a => a ∉ red') ++ k ::
              ((List.range (y'.ndim - k - 1)).map (fun i => k + 1 + i)).filter (fun a => a ∉ red') := by
          have : y'.ndim = k + (1 + (y'.ndim - k - 1)) := by omega
          conv_lhs => rw [this, List.range_add, List.range_add, List.filter_append, List.map_append, List.filter_append]
          have e1 : ((List.range 1).map (fun x => k + x)).filter (fun a => a ∉ red') = [k] := by
            simp [List.range_succ, hkr]
          rw [e1]
          simp [List.map_map, Function.comp_def, Nat.add_assoc]
        generalize hA : (List.range k).filter (fun a => a ∉ red') = A at hsplit
        generalize hB : ((List.range (y'.ndim - k - 1)).map (fun i => k + 1 + i)).filter (fun a => a ∉ red') = B at hsplit
        have hAk : ∀ a ∈ A, a < k := by
          intro a ha; rw [← hA] at ha; exact List.mem_range.1 (List.mem_filter.1 ha).1
        have hBk : ∀ a ∈ B, k < a := by
          intro a ha; rw [← hB] at ha
          obtain ⟨i, _, rfl⟩ := List.mem_map.1 (List.mem_filter.1 ha).1
          omega
        have hu : unjoin k (A ++ k :: B) = A ++ k :: (k + 1) :: unjoin k B := by
          rw [unjoin_append, unjoin_lt hAk, unjoin_cons, splitAt1_self]; rfl
        have hzs : z.shape = (A.map (nth y.shape)) ++ nth y.shape k :: nth y.shape (k + 1) ::
            (unjoin k B).map (nth y.shape) := by
          rw [hz, hkeep, hsplit, hu]; simp
        have hzs' : z'.shape = (A.map (nth y.shape)) ++ (nth y.shape k * nth y.shape (k + 1)) ::
            (unjoin k B).map (nth y.shape) := by
          rw [hz', hsplit, List.map_append, List.map_cons, joinBy_self, ← joined_shapes, unjoin_lt hAk, ← joined_shapes]
          · intro hb; exact absurd (hBk k hb) (by omega)
          · intro ha; exact absurd (hAk k ha) (by omega)
        have hJ := joined_mk hzs hzs' hd
        have hm : (A.map (nth y.shape)).length = rankOf red' k := by
          rw [List.length_map, ← hA]; rfl
        rw [hm] at hJ
        refine hJ.transpose ho ?_ ?_
        · have : z.ndim = rankOf red init.length := by
            rw [Tensor.ndim, hz, List.length_map, hnd]; rfl
          rw [this]; exact w.order
        · have : z'.ndim = rankOf red' init'.length := by
            rw [Tensor.ndim, hz', List.length_map, hnd']; rfl
          rw [this]; exact w'.order

/-! ### The loops -/

theorem loopE_down {σ : Type} {f : σ → Nat → Py σ} (Inv : Nat → σ → Prop)
    (step : ∀ t s, Inv (t + 1) s → ∃ s', f s t = .ok s' ∧ Inv t s') :
    ∀ (n : Nat) (s : σ), Inv n s → ∃ s', loopE f s (List.range n).reverse = .ok s' ∧ Inv 0 s' := by
  intro n
  induction n with
  | zero => intro s h; exact ⟨s, rfl, h⟩
  | succ n ih =>
    intro s h
    obtain ⟨s', h1, h2⟩ := step n s h
    obtain ⟨s'', h3, h4⟩ := ih s' h2
    refine ⟨s'', ?_, h4⟩
    rw [List.range_succ, List.reverse_append]
    simp only [List.reverse_cons, List.reverse_nil, List.nil_append, List.cons_append, loopE, h1]
    exact h3

theorem absorbAxis_eq (S T : List Nat) (a b : Nat) :
    absorbAxis (S ++ a :: b :: T) (S.length + 1) = .ok (S ++ (a * b) :: T) := by
  have h1 : getE (S ++ a :: b :: T) (S.length + 1) = .ok b := by simp [getE]
  have h2 : (S ++ a :: b :: T).take (S.length + 1) ++ (S ++ a :: b :: T).drop (S.length + 1 + 1) = S ++ a :: T := by
    rw [List.take_append, List.drop_append]
    simp [List.take_of_length_le, show S.length + 1 + 1 - S.length = 2 by omega]; omega
  unfold absorbAxis
  rw [h1]
  simp only [h2, Nat.add_sub_cancel]
  have h3 : getE (S ++ a :: T) S.length = .ok a := by simp [getE]
  rw [h3]
  simp [setE]

/-- Sequences of merges. -/
inductive Joins : List Nat → List Nat → List Nat → List Nat → List Nat → List Nat → Prop
  | refl {init red order} (w : WfPlan init.length red order) : Joins init red order init red order
  | step {init red order init' red' order' init'' red'' order'' k} (j : Joins init red order init' red' order')
      (m : Merges k init' red' order' init'' red'' order'') (w : WfPlan init''.length red'' order'') :
      Joins init red order init'' red'' order''

theorem Joins.wf {i r o i' r' o' : List Nat} (h : Joins i r o i' r' o') : WfPlan i'.length r' o' := by
  cases h with
  | refl w => exact w
  | step _ _ w => exact w

theorem Joins.run {i r o i' r' o' : List Nat} (h : Joins i r o i' r' o') (op : List α → Py α) (x : Tensor α) :
    (runMoves op i' r' o' x).map Tensor.data = (runMoves op i r o x).map Tensor.data := by
  induction h with
  | refl => rfl
  | step j m w ih => rw [m.run j.wf w op x, ih]

theorem length_unjoin {k : Nat} {A : List Nat} (h : A.Nodup) :
    (unjoin k A).length = A.length + if k ∈ A then 1 else 0 := by
  induction A with
  | nil => rfl
  | cons j A ih =>
    obtain ⟨h1, h2⟩ := List.nodup_cons.1 h
    rw [unjoin_cons, List.length_append, ih h2]
    by_cases hj : j = k
    · subst hj; simp [splitAt1, h1]; omega
    · obtain ⟨a, ha, _⟩ := splitAt1_ne hj
      rw [ha]; simp [Ne.symm hj]; split <;> omega

section Rank

variable {k n : Nat} {red red' : List Nat}

theorem rank_low (h : ∀ j < n, ∀ a ∈ splitAt1 k j, (a ∈ red ↔ j ∈ red')) {c : Nat} (hc : c ≤ k) (hn : c ≤ n) :
    rankOf red c = rankOf red' c := by
  unfold rankOf
  conv_lhs => rw [← unjoin_range_le hc]
  rw [filter_unjoin (P' := fun x => x ∉ red'), unjoin_lt]
  · intro a ha
    have := List.mem_range.1 (List.mem_filter.1 ha).1
    omega
  · intro j hj a ha
    have := List.mem_range.1 hj
    simp [h j (by omega) a ha]

theorem rank_high (h : ∀ j < n, ∀ a ∈ splitAt1 k j, (a ∈ red ↔ j ∈ red')) {c : Nat} (hc : k < c) (hn : c ≤ n) :
    rankOf red (c + 1) = rankOf red' c + if k ∈ red' then 0 else 1 := by
  unfold rankOf
  rw [← unjoin_range hc, filter_unjoin (P' := fun x => x ∉ red'), length_unjoin (List.nodup_range.filter _)]
  · by_cases hk : k ∈ red' <;> simp [hk, hc]
  · intro j hj a ha
    have := List.mem_range.1 hj
    simp [h j (by omega) a ha]

end Rank

theorem rankOf_succ (red : List Nat) (a : Nat) : rankOf red (a + 1) = rankOf red a + if a ∈ red then 0 else 1 := by
  unfold rankOf
  rw [List.range_succ, List.filter_append, List.length_append]
  by_cases h : a ∈ red <;> simp [h]

theorem rankOf_mono (red : List Nat) {a b : Nat} (h : a ≤ b) : rankOf red a ≤ rankOf red b := by
  induction b with
  | zero => simp_all
  | succ b ih =>
    rcases Nat.lt_or_eq_of_le h with h1 | h1
    · rw [rankOf_succ]; have := ih (by omega); omega
    · rw [h1]

theorem rankOf_lt {red : List Nat} {a n : Nat} (h : a < n) (ha : a ∉ red) : rankOf red a < rankOf red n := by
  have h1 := rankOf_succ red a
  rw [if_neg ha] at h1
  have h2 := rankOf_mono red (show a + 1 ≤ n by omega)
  omega

/-! ### First loop: neighbouring reduced axes -/

theorem sorted_split {R1 R2 : List Nat} {a b : Nat} (h : (R1 ++ a :: b :: R2).Pairwise (· < ·)) :
    (∀ c ∈ R1, c < a) ∧ a < b ∧ (∀ c ∈ R2, b < c) ∧ R1.Pairwise (· < ·) ∧ R2.Pairwise (· < ·) := by
  rw [List.pairwise_append] at h
  obtain ⟨h1, h2, h3⟩ := h
  rw [List.pairwise_cons, List.pairwise_cons] at h2
  exact ⟨fun c hc => h3 c hc a (by simp), h2.1 b (by simp), h2.2.1, h1, h2.2.2⟩

theorem merge_reduced {init R1 R2 order : List Nat} {a : Nat} (w : WfPlan init.length (R1 ++ a :: (a + 1) :: R2) order) :
    ∃ init', absorbAxis init (a + 1) = .ok init' ∧
      Merges a init (R1 ++ a :: (a + 1) :: R2) order init' (R1 ++ a :: R2.map (· - 1)) order ∧
      WfPlan init'.length (R1 ++ a :: R2.map (· - 1)) order := by
  obtain ⟨s1, s2, s3, s4, s5⟩ := sorted_split w.sorted
  have hlt := w.lt (a + 1) (by simp)
  obtain ⟨S, x, y, T, hS, hi⟩ : ∃ S x y T, S.length = a ∧ init = S ++ x :: y :: T := by
    refine ⟨init.take a, init[a], init[a + 1], init.drop (a + 2), by simp; omega, ?_⟩
    rw [← List.drop_eq_getElem_cons, ← List.drop_eq_getElem_cons, List.take_append_drop]
  have hlen : init.length = (S ++ (x * y) :: T).length + 1 := by rw [hi]; simp; omega
  have hmem : ∀ j < (S ++ (x * y) :: T).length, ∀ c ∈ splitAt1 a j,
      (c ∈ R1 ++ a :: (a + 1) :: R2 ↔ j ∈ R1 ++ a :: R2.map (· - 1)) := by
    intro j _ c hc
    simp only [List.mem_append, List.mem_cons, List.mem_map]
    unfold splitAt1 at hc
    split at hc
    · simp at hc; subst hc
      have : ∀ b ∈ R2, c ≠ b ∧ b - 1 ≠ c := fun b hb => by have := s3 b hb; omega
      constructor
      · rintro (h | h | h | h)
        · exact .inl h
        · omega
        · omega
        · exact absurd rfl (this _ h).1
      · rintro (h | h | ⟨b, hb, h⟩)
        · exact .inl h
        · omega
        · exact absurd h (this b hb).2
    · split at hc
      · rename_i h1 h2
        simp at hc
        rcases hc with rfl | rfl <;> simp [h2]
      · rename_i h1 h2
        simp at hc; subst hc
        constructor
        · rintro (h | h | h | h)
          · have := s1 _ h; omega
          · omega
          · omega
          · exact .inr (.inr ⟨_, h, rfl⟩)
        · rintro (h | h | ⟨b, hb, h⟩)
          · have := s1 _ h; omega
          · omega
          · have := s3 b hb
            refine .inr (.inr (.inr ?_))
            rw [← h, Nat.sub_add_cancel (by omega)]; exact hb
  refine ⟨S ++ (x * y) :: T, ?_, ⟨⟨S, x, y, T, hS, hi, rfl⟩, hmem, .inl ⟨by simp, rfl⟩⟩, ?_, ?_, ?_⟩
  · rw [hi, ← hS]; exact absorbAxis_eq S T x y
  · rw [List.pairwise_append, List.pairwise_cons]
    refine ⟨s4, ⟨?_, ?_⟩, ?_⟩
    · intro b hb
      obtain ⟨c, hc, rfl⟩ := List.mem_map.1 hb
      have := s3 c hc; omega
    · rw [List.pairwise_map]
      refine List.Pairwise.imp_of_mem ?_ s5
      intro b c hb hc hbc
      have := s3 b hb; omega
    · intro b hb c hc
      have := s1 b hb
      rcases List.mem_cons.1 hc with rfl | hc
      · exact this
      · obtain ⟨d, hd, rfl⟩ := List.mem_map.1 hc
        have := s3 d hd; omega
  · intro c hc
    rw [List.mem_append, List.mem_cons, List.mem_map] at hc
    rcases hc with h | rfl | ⟨d, hd, rfl⟩
    · have := s1 c h; omega
    · omega
    · have := w.lt d (by simp [hd]); have := s3 d hd; omega
  · have ho := w.order
    rw [hlen, rank_high hmem (by rw [← hS]; simp) le_rfl, if_pos (by simp), Nat.add_zero] at ho
    exact ho

/-- State of the first loop before the round for `t - 1`. -/
structure FirstInv (init0 red0 order : List Nat) (t : Nat) (st : List Nat × List Nat) : Prop where
  joins : Joins init0 red0 order st.1 st.2 order
  room : t ≠ 0 → t < st.2.length
  apart : ∀ i ≥ t, ∀ a b, st.2[i]? = some a → st.2[i + 1]? = some b → a + 1 ≠ b

theorem first_step {init0 red0 order : List Nat} (t : Nat) (st : List Nat × List Nat)
    (h : FirstInv init0 red0 order (t + 1) st) :
    ∃ st', joinReduced st t = .ok st' ∧ FirstInv init0 red0 order t st' := by
  obtain ⟨init, red⟩ := st
  have hr : t + 1 < red.length := h.room (by omega)
  have hw := h.joins.wf
  simp only at hw
  have hg1 : getE red t = .ok red[t] := by simp [getE, show t < red.length by omega]
  have hg2 : getE red (t + 1) = .ok red[t + 1] := by simp [getE, hr]
  unfold joinReduced
  simp only [hg1, hg2]
  by_cases hab : red[t] + 1 = red[t + 1]
  · rw [if_pos hab]
    have hsplit : red = red.take t ++ red[t] :: (red[t] + 1) :: red.drop (t + 2) := by
      rw [hab, ← List.drop_eq_getElem_cons, ← List.drop_eq_getElem_cons, List.take_append_drop]
    generalize hR1 : red.take t = R1 at hsplit
    generalize hR2 : red.drop (t + 2) = R2 at hsplit
    generalize ha : red[t] = a at *
    have hl1 : R1.length = t := by rw [← hR1]; simp; omega
    rw [hsplit] at hw
    obtain ⟨init', h1, h2, h3⟩ := merge_reduced hw
    rw [← hab, h1]
    refine ⟨_, rfl, ?_⟩
    have hnew : red.take (t + 1) ++ R2.map (· - 1) = R1 ++ a :: R2.map (· - 1) := by
      rw [List.take_succ_eq_append_getElem (by omega), ha, hR1]; simp
    simp only [hnew]
    refine ⟨.step h.joins (hsplit ▸ h2) h3, ?_, ?_⟩
    · intro ht; simp [hl1]
    · intro i hi b c hb hc
      simp only at hb hc
      have hold := h.apart
      simp only at hold
      rw [List.getElem?_append_right (by omega)] at hb hc
      rw [show i + 1 - R1.length = (i - t) + 1 by omega] at hc
      rw [hl1] at hb
      rw [List.getElem?_cons_succ, List.getElem?_map] at hc
      obtain ⟨c', hc', rfl⟩ := Option.map_eq_some_iff.1 hc
      have hcR : c' ∈ R2 := List.mem_of_getElem? hc'
      obtain ⟨s1, s2, s3, s4, s5⟩ := sorted_split hw.sorted
      have hc3 := s3 c' hcR
      have hc1 : red[i + 1 + 1]? = some c' := by
        rw [hsplit, List.getElem?_append_right (by omega), hl1,
          show i + 1 + 1 - t = (i - t) + 1 + 1 by omega, List.getElem?_cons_succ, List.getElem?_cons_succ]
        exact hc'
      by_cases hit : i = t
      · subst hit
        simp at hb; subst hb
        have := hold (i + 1) (by omega) (a + 1) c' (by rw [List.getElem?_eq_getElem hr, hab]) hc1
        omega
      · obtain ⟨d, hd⟩ : ∃ d, i - t = d + 1 := ⟨i - t - 1, by omega⟩
        rw [hd, List.getElem?_cons_succ, List.getElem?_map] at hb
        obtain ⟨b', hb', rfl⟩ := Option.map_eq_some_iff.1 hb
        have hb3 := s3 b' (List.mem_of_getElem? hb')
        have hb1 : red[i + 1]? = some b' := by
          rw [hsplit, List.getElem?_append_right (by omega), hl1,
            show i + 1 - t = d + 1 + 1 by omega, List.getElem?_cons_succ, List.getElem?_cons_succ]
          exact hb'
        have := hold (i + 1) (by omega) b' c' hb1 hc1
        omega
  · rw [if_neg hab]
    refine ⟨_, rfl, h.joins, fun _ => by simp only; omega, ?_⟩
    intro i hi b c hb hc
    by_cases hit : i = t
    · subst hit
      simp only at hb hc
      rw [List.getElem?_eq_getElem (by omega)] at hb
      rw [List.getElem?_eq_getElem hr] at hc
      cases hb; cases hc
      exact hab
    · exact h.apart i (by omega) b c hb hc

theorem first_loop {init red order : List Nat} (w : WfPlan init.length red order) :
    ∃ st, loopE joinReduced (init, red) (List.range (red.length - 1)).reverse = .ok st ∧
      Joins init red order st.1 st.2 order ∧ ∀ a, a ∈ st.2 → a + 1 ∉ st.2 := by
  obtain ⟨st, h1, h2⟩ := loopE_down (FirstInv init red order) first_step (red.length - 1) (init, red)
    ⟨.refl w, fun h => by simp only; omega, fun i hi a b _ hb => by
      have := (List.getElem?_eq_some_iff.1 hb).1
      simp only at this; omega⟩
  refine ⟨st, h1, h2.joins, ?_⟩
  intro a ha hb
  obtain ⟨i, hi, hia⟩ := List.getElem_of_mem ha
  obtain ⟨j, hj, hjb⟩ := List.getElem_of_mem hb
  have hs := h2.joins.wf.sorted
  rw [List.pairwise_iff_getElem] at hs
  have hij : i < j := by
    rcases Nat.lt_trichotomy i j with h | h | h
    · exact h
    · subst h; omega
    · have := hs j i hj hi h; omega
  rcases Nat.lt_or_eq_of_le (show i + 1 ≤ j from hij) with h | h
  · have e1 := hs i (i + 1) hi (by omega) (by omega)
    have e2 := hs (i + 1) j (by omega) hj h
    omega
  · subst h
    exact h2.apart i (by omega) a (a + 1) (by rw [List.getElem?_eq_getElem hi, hia])
      (by rw [List.getElem?_eq_getElem hj, hjb]) rfl

/-! ### Second loop: kept axes that stay neighbours -/

/-- the entry of `build_mapping` for an axis -/
def mapEntry (red order : List Nat) (a : Nat) : Option Nat :=
  if a ∈ red then none else some (order.idxOf (rankOf red a))

theorem dictSet_fresh {κ ν : Type} [DecidableEq κ] {d : List (κ × ν)} {k : κ} {v : ν} (h : ∀ p ∈ d, p.1 ≠ k) :
    dictSet d k v = d ++ [(k, v)] := by
  induction d with
  | nil => rfl
  | cons p d ih =>
    obtain ⟨k', v'⟩ := p
    have h1 : ¬ k' = k := h (k', v') (by simp)
    simp only [dictSet, List.cons_append]
    rw [if_neg h1, ih (fun p hp => h p (by simp [hp]))]

theorem loopE_append {σ ι : Type} (f : σ → ι → Py σ) (s : σ) (l l' : List ι) :
    loopE f s (l ++ l') = (loopE f s l).bind (fun s' => loopE f s' l') := by
  induction l generalizing s with
  | nil => rfl
  | cons i l ih =>
    simp only [List.cons_append, loopE]
    cases f s i with
    | error e => rfl
    | ok s' => exact ih s'

theorem buildMapping_eq {init red order : List Nat} (h : ∀ q < rankOf red init.length, q ∈ order) :
    buildMapping init red order = .ok ((List.range init.length).map (fun a => (a, mapEntry red order a))) := by
  unfold buildMapping
  generalize hn : init.length = n at h
  clear hn
  induction n with
  | zero => rfl
  | succ n ih =>
    rw [List.range_succ, loopE_append, ih (fun q hq => h q (by rw [rankOf_succ]; omega))]
    have hfresh : ∀ p ∈ (List.range n).map (fun a => (a, mapEntry red order a)), p.1 ≠ n := by
      intro p hp
      obtain ⟨a, ha, rfl⟩ := List.mem_map.1 hp
      have := List.mem_range.1 ha
      simp only; omega
    simp only [Except.bind, loopE, mapAxis]
    by_cases hr : n ∈ red
    · rw [if_pos hr, dictSet_fresh hfresh]
      simp [mapEntry, hr]
    · rw [if_neg hr]
      have hc : (((List.range n).map (fun a => (a, mapEntry red order a))).filter (fun p => p.2.isSome)).length =
          rankOf red n := by
        rw [List.filter_map, List.length_map]
        unfold rankOf
        congr 1
        apply List.filter_congr
        intro a _
        by_cases ha : a ∈ red <;> simp [mapEntry, ha]
      rw [hc]
      unfold indexE
      rw [if_pos (h _ (by rw [rankOf_succ, if_neg hr]; omega))]
      simp only [dictSet_fresh hfresh]
      simp [mapEntry, hr]

theorem dictGetE_range {ν : Type} (g : Nat → ν) {n a : Nat} (h : a < n) :
    dictGetE ((List.range n).map (fun a => (a, g a))) a = .ok (g a) := by
  have key : ∀ (l : List Nat), a ∈ l → dictGet (l.map (fun a => (a, g a))) a = some (g a) := by
    intro l hl
    induction l with
    | nil => simp at hl
    | cons b l ih =>
      simp only [List.map_cons, dictGet]
      by_cases hb : b = a
      · subst hb; simp
      · have : a ∈ l := by
          rcases List.mem_cons.1 hl with h | h
          · exact absurd h.symm hb
          · exact h
        rw [if_neg hb, ih this]
  unfold dictGetE
  rw [key _ (List.mem_range.2 h)]

/-- `m + 1` follows `m` in the order -/
def Follows (order : List Nat) (m : Nat) : Prop := ∃ P Q, order = P ++ m :: (m + 1) :: Q

theorem follows_iff {order : List Nat} (hn : order.Nodup) {m : Nat} (h1 : m ∈ order) (h2 : m + 1 ∈ order) :
    Follows order m ↔ order.idxOf m + 1 = order.idxOf (m + 1) := by
  constructor
  · rintro ⟨P, Q, rfl⟩
    have hP : m ∉ P := by
      intro h
      rw [List.nodup_append] at hn
      exact hn.2.2 m h m (by simp) rfl
    have hP' : m + 1 ∉ P := by
      intro h
      rw [List.nodup_append] at hn
      exact hn.2.2 (m + 1) h (m + 1) (by simp) rfl
    rw [List.idxOf_append_of_notMem hP, List.idxOf_append_of_notMem hP']
    have : List.idxOf (m + 1) (m :: (m + 1) :: Q) = 1 := by
      rw [List.idxOf_cons_ne _ (by omega)]; simp
    simp [this]
  · intro h
    have l1 := List.idxOf_lt_length_of_mem h1
    have l2 := List.idxOf_lt_length_of_mem h2
    refine ⟨order.take (order.idxOf m), order.drop (order.idxOf m + 2), ?_⟩
    have e1 : order[order.idxOf m] = m := List.getElem_idxOf l1
    have e2 : order[order.idxOf m + 1]'(by omega) = m + 1 := by
      have : order[order.idxOf (m + 1)] = m + 1 := List.getElem_idxOf l2
      simp only [h, this]
    conv_lhs => rw [← List.take_append_drop (order.idxOf m) order, List.drop_eq_getElem_cons l1, e1,
      List.drop_eq_getElem_cons (by omega), e2]

theorem dropFromOrder_unjoin (m : Nat) (A : List Nat) : dropFromOrder (unjoin m A) (m + 1) = A := by
  induction A with
  | nil => rfl
  | cons j A ih =>
    rw [unjoin_cons]
    unfold dropFromOrder at *
    rw [List.flatMap_append, ih]
    unfold splitAt1
    split
    · simp [show j ≠ m + 1 by omega, show j < m + 1 by omega]
    · split
      · rename_i h; simp [h]
      · simp [show j ≠ m by omega, show ¬ j < m by omega]

theorem unjoin_dropFromOrder {order : List Nat} {m : Nat} (hn : order.Nodup) (h : Follows order m) :
    unjoin m (dropFromOrder order (m + 1)) = order := by
  obtain ⟨P, Q, rfl⟩ := h
  have key : ∀ l : List Nat, m ∉ l → m + 1 ∉ l → unjoin m (dropFromOrder l (m + 1)) = l := by
    intro l
    induction l with
    | nil => intros; rfl
    | cons a l ih =>
      intro h1 h2
      simp only [List.mem_cons, not_or] at h1 h2
      have hd : dropFromOrder (a :: l) (m + 1) =
          (if a < m + 1 then [a] else [a - 1]) ++ dropFromOrder l (m + 1) := by
        simp [dropFromOrder, Ne.symm h2.1]
      rw [hd, unjoin_append, ih h1.2 h2.2]
      by_cases ha : a < m + 1
      · simp [ha, unjoin, splitAt1, show a < m by omega]
      · simp [ha, unjoin, splitAt1, show ¬ a - 1 < m by omega, show a - 1 ≠ m by omega]; omega
  rw [List.nodup_append, List.nodup_cons, List.nodup_cons] at hn
  obtain ⟨_, ⟨h3, h4, _⟩, h5⟩ := hn
  have hd : dropFromOrder (P ++ m :: (m + 1) :: Q) (m + 1) = dropFromOrder P (m + 1) ++ m :: dropFromOrder Q (m + 1) := by
    simp [dropFromOrder]
  rw [hd, unjoin_append, unjoin_cons, splitAt1_self, key P, key Q]
  · rfl
  · intro h; exact h3 (by simp [h])
  · exact h4
  · intro h; exact h5 m h m (by simp) rfl
  · intro h; exact h5 (m + 1) h (m + 1) (by simp) rfl

theorem merge_kept {init red order : List Nat} {t : Nat} (w : WfPlan init.length red order) (ht : t + 1 < init.length)
    (h1 : t ∉ red) (h2 : t + 1 ∉ red) (hf : Follows order (rankOf red t)) :
    ∃ init', absorbAxis init (t + 1) = .ok init' ∧ init.length = init'.length + 1 ∧
      Merges t init red order init' (red.map (fun a => if a < t + 1 then a else a - 1))
        (dropFromOrder order (rankOf red t + 1)) ∧
      WfPlan init'.length (red.map (fun a => if a < t + 1 then a else a - 1))
        (dropFromOrder order (rankOf red t + 1)) := by
  obtain ⟨S, x, y, T, hS, hi⟩ : ∃ S x y T, S.length = t ∧ init = S ++ x :: y :: T := by
    refine ⟨init.take t, init[t], init[t + 1], init.drop (t + 2), by simp; omega, ?_⟩
    rw [← List.drop_eq_getElem_cons, ← List.drop_eq_getElem_cons, List.take_append_drop]
  have hlen : init.length = (S ++ (x * y) :: T).length + 1 := by rw [hi]; simp; omega
  have hne : ∀ a ∈ red, a ≠ t ∧ a ≠ t + 1 := fun a ha => ⟨fun h => h1 (h ▸ ha), fun h => h2 (h ▸ ha)⟩
  have htr : t ∉ red.map (fun a => if a < t + 1 then a else a - 1) := by
    intro h
    obtain ⟨a, ha, hat⟩ := List.mem_map.1 h
    have := hne a ha
    split at hat <;> omega
  have hmem : ∀ j < (S ++ (x * y) :: T).length, ∀ c ∈ splitAt1 t j,
      (c ∈ red ↔ j ∈ red.map (fun a => if a < t + 1 then a else a - 1)) := by
    intro j _ c hc
    unfold splitAt1 at hc
    split at hc
    · rename_i hjt
      simp at hc; subst hc
      constructor
      · intro h; exact List.mem_map.2 ⟨c, h, by rw [if_pos (by omega)]⟩
      · intro h
        obtain ⟨a, ha, hat⟩ := List.mem_map.1 h
        have := hne a ha
        split at hat
        · subst hat; exact ha
        · omega
    · split at hc
      · rename_i hj1 hj2
        subst hj2
        simp at hc
        constructor
        · intro h; rcases hc with rfl | rfl
          · exact absurd h h1
          · exact absurd h h2
        · intro h; exact absurd h htr
      · simp at hc; subst hc
        constructor
        · intro h
          have := hne _ h
          exact List.mem_map.2 ⟨j + 1, h, by rw [if_neg (by omega)]; omega⟩
        · intro h
          obtain ⟨a, ha, hat⟩ := List.mem_map.1 h
          have := hne a ha
          split at hat
          · omega
          · have : a = j + 1 := by omega
            subst this; exact ha
  have hr : rankOf (red.map (fun a => if a < t + 1 then a else a - 1)) t = rankOf red t :=
    (rank_low hmem le_rfl (by rw [← hS]; simp)).symm
  have hnd : order.Nodup := w.order.nodup_iff.2 List.nodup_range
  have hu := unjoin_dropFromOrder hnd hf
  refine ⟨S ++ (x * y) :: T, ?_, hlen, ⟨⟨S, x, y, T, hS, hi, rfl⟩, hmem, .inr ⟨htr, ?_⟩⟩, ?_, ?_, ?_⟩
  · rw [hi, ← hS]; exact absorbAxis_eq S T x y
  · rw [hr, hu]
  · rw [List.pairwise_map]
    refine List.Pairwise.imp_of_mem ?_ w.sorted
    intro a b ha hb hab
    have := hne a ha
    have := hne b hb
    split <;> split <;> omega
  · intro a ha
    obtain ⟨b, hb, rfl⟩ := List.mem_map.1 ha
    have := w.lt b hb
    have := hne b hb
    split <;> omega
  · have ho := w.order
    have hN := rank_high hmem (c := (S ++ (x * y) :: T).length) (by rw [← hS]; simp) le_rfl
    rw [if_neg htr, ← hlen] at hN
    rw [hN] at ho
    have hlow : rankOf red t < rankOf (red.map (fun a => if a < t + 1 then a else a - 1)) (S ++ (x * y) :: T).length := by
      rw [← hr]; exact rankOf_lt (by rw [← hS]; simp) htr
    have := ho.flatMap_right (fun a => if a = rankOf red t + 1 then [] else if a < rankOf red t + 1 then [a] else [a - 1])
    rw [← unjoin_range hlow] at this
    have h3 := dropFromOrder_unjoin (rankOf red t)
      (List.range (rankOf (red.map (fun a => if a < t + 1 then a else a - 1)) (S ++ (x * y) :: T).length))
    unfold dropFromOrder at h3 ⊢
    rwa [h3] at this

/-- State of the second loop before the round for `t - 1`. -/
structure SecondInv (init0 red0 order0 : List Nat) (t : Nat) (st : JoinState) : Prop where
  joins : Joins init0 red0 order0 st.init st.red st.order
  mapping : st.mapping = (List.range st.init.length).map (fun a => (a, mapEntry st.red st.order a))
  lonely : ∀ a, a ∈ st.red → a + 1 ∉ st.red
  room : t ≠ 0 → t < st.init.length
  apart : ∀ a ≥ t, a + 1 < st.init.length → a ∉ st.red → a + 1 ∉ st.red → ¬ Follows st.order (rankOf st.red a)

theorem WfPlan.mem {n : Nat} {red order : List Nat} (w : WfPlan n red order) {a : Nat} (h : a < n) (ha : a ∉ red) :
    rankOf red a ∈ order := w.order.mem_iff.2 (List.mem_range.2 (rankOf_lt h ha))

theorem unjoin_follows {m q : Nat} {order : List Nat} (h : Follows order q) (hq : m ≤ q) :
    Follows (unjoin m order) (q + 1) := by
  obtain ⟨P, Q, rfl⟩ := h
  rcases Nat.lt_or_eq_of_le hq with h | rfl
  · refine ⟨unjoin m P, unjoin m Q, ?_⟩
    rw [unjoin_append, unjoin_cons, unjoin_cons]
    simp [splitAt1, show ¬ q < m by omega, show q ≠ m by omega, show ¬ q + 1 < m by omega, show q + 1 ≠ m by omega]
  · refine ⟨unjoin m P ++ [m], unjoin m Q, ?_⟩
    rw [unjoin_append, unjoin_cons, unjoin_cons]
    simp [splitAt1]

theorem second_step {init0 red0 order0 : List Nat} (t : Nat) (st : JoinState)
    (h : SecondInv init0 red0 order0 (t + 1) st) :
    ∃ st', joinKept st t = .ok st' ∧ SecondInv init0 red0 order0 t st' := by
  obtain ⟨init, red, order, mp⟩ := st
  have hr : t + 1 < init.length := h.room (by omega)
  have hw : WfPlan init.length red order := h.joins.wf
  have hmp : mp = (List.range init.length).map (fun a => (a, mapEntry red order a)) := h.mapping
  have g1 : dictGetE mp t = .ok (mapEntry red order t) := by rw [hmp]; exact dictGetE_range _ (by omega)
  have g2 : dictGetE mp (t + 1) = .ok (mapEntry red order (t + 1)) := by rw [hmp]; exact dictGetE_range _ hr
  have stay : (t ∉ red → t + 1 ∉ red → ¬ Follows order (rankOf red t)) →
      SecondInv init0 red0 order0 t ⟨init, red, order, mp⟩ := by
    intro hno
    refine ⟨h.joins, h.mapping, h.lonely, fun _ => by simp only; omega, ?_⟩
    intro a ha
    by_cases hat : a = t
    · subst hat; intro _; exact hno
    · exact h.apart a (by omega)
  unfold joinKept
  simp only [g1, g2]
  by_cases h1 : t ∈ red
  · simp only [mapEntry, if_pos h1]
    exact ⟨_, rfl, stay (fun h => absurd h1 h)⟩
  by_cases h2 : t + 1 ∈ red
  · simp only [mapEntry, if_pos h2, if_neg h1]
    exact ⟨_, rfl, stay (fun _ h => absurd h2 h)⟩
  simp only [mapEntry, if_neg h1, if_neg h2]
  have hrank : rankOf red (t + 1) = rankOf red t + 1 := by rw [rankOf_succ, if_neg h1]
  have hm1 := hw.mem (show t < init.length by omega) h1
  have hm2 := hw.mem hr h2
  have hnd : order.Nodup := hw.order.nodup_iff.2 List.nodup_range
  rw [hrank] at hm2 ⊢
  by_cases hf : Follows order (rankOf red t)
  swap
  · have : ¬ (order.idxOf (rankOf red t) + 1 = order.idxOf (rankOf red t + 1)) :=
      fun he => hf ((follows_iff hnd hm1 hm2).2 he)
    rw [if_neg this]
    exact ⟨_, rfl, stay (fun _ _ => hf)⟩
  have he := (follows_iff hnd hm1 hm2).1 hf
  rw [if_pos he]
  obtain ⟨init', ha, hl, hm, hw'⟩ := merge_kept hw hr h1 h2 hf
  have hafter : ((List.range (t + 1)).filter (fun x => x ∉ red)).length = rankOf red t + 1 := hrank
  rw [ha]
  simp only [hafter]
  rw [buildMapping_eq (fun q hq => hw'.order.mem_iff.2 (List.mem_range.2 hq))]
  refine ⟨_, rfl, .step h.joins hm hw', rfl, ?_, fun _ => by simp only; omega, ?_⟩
  · simp only
    intro a haa hab
    have hne : ∀ a ∈ red, a ≠ t ∧ a ≠ t + 1 := fun a ha => ⟨fun h => h1 (h ▸ ha), fun h => h2 (h ▸ ha)⟩
    obtain ⟨b, hb, rfl⟩ := List.mem_map.1 haa
    obtain ⟨c, hc, hbc⟩ := List.mem_map.1 hab
    have n1 := hne b hb
    have n2 := hne c hc
    have hlon := h.lonely b hb
    simp only at hlon
    have : c = b + 1 := by
      split at hbc <;> split at hbc <;> omega
    exact hlon (this ▸ hc)
  · simp only
    intro a hat hal ha1 ha2 hfo
    have ho : order = unjoin (rankOf (red.map (fun a => if a < t + 1 then a else a - 1)) t)
        (dropFromOrder order (rankOf red t + 1)) := by
      rcases hm.order with ⟨hk, _⟩ | ⟨_, ho⟩
      · exfalso
        obtain ⟨b, hb, hbt⟩ := List.mem_map.1 hk
        split at hbt
        · exact h1 (hbt ▸ hb)
        · exact h2 (by rw [show t + 1 = b by omega]; exact hb)
      · exact ho
    have htn : t ∉ red.map (fun a => if a < t + 1 then a else a - 1) := by
      intro hk
      obtain ⟨b, hb, hbt⟩ := List.mem_map.1 hk
      split at hbt
      · exact h1 (hbt ▸ hb)
      · exact h2 (by rw [show t + 1 = b by omega]; exact hb)
    have hfo' := unjoin_follows hfo (rankOf_mono _ hat)
    rw [← ho] at hfo'
    have hra : rankOf red (a + 1) = rankOf (red.map (fun a => if a < t + 1 then a else a - 1)) a + 1 := by
      rcases Nat.lt_or_eq_of_le hat with hlt | rfl
      · rw [rank_high hm.red hlt (by omega), if_neg htn]
      · rw [rankOf_succ, if_neg h1, rank_low hm.red le_rfl (by omega)]
    rw [← hra] at hfo'
    have hin : ∀ j, t < j → j < init'.length → j ∉ red.map (fun a => if a < t + 1 then a else a - 1) → j + 1 ∉ red := by
      intro j hj hjl hjn hc
      exact hjn ((hm.red j hjl (j + 1) (by simp [splitAt1, show ¬ j < t by omega, show j ≠ t by omega])).1 hc)
    refine h.apart (a + 1) (by omega) (by simp only; omega) ?_ ?_ hfo'
    · simp only
      rcases Nat.lt_or_eq_of_le hat with hlt | rfl
      · exact hin a hlt (by omega) ha1
      · exact h2
    · exact hin (a + 1) (by omega) hal ha2

/-- Nothing is left to merge. -/
structure Settled (n : Nat) (red order : List Nat) : Prop where
  lonely : ∀ a, a ∈ red → a + 1 ∉ red
  apart : ∀ a, a + 1 < n → a ∉ red → a + 1 ∉ red → ¬ Follows order (rankOf red a)

theorem sorted_lt {l : List Nat} (h : l.Nodup) : (l.insertionSort (· ≤ ·)).Pairwise (· < ·) := by
  have h1 := List.pairwise_insertionSort (· ≤ ·) l
  have h2 : (l.insertionSort (· ≤ ·)).Nodup := (List.perm_insertionSort (· ≤ ·) l).nodup_iff.2 h
  exact List.Pairwise.imp₂ (fun a b h1 h2 => Nat.lt_of_le_of_ne h1 h2) h1 h2

theorem rank_length {red : List Nat} (hn : red.Nodup) {n : Nat} (h : ∀ a ∈ red, a < n) :
    rankOf red n = n - red.length := by
  unfold rankOf
  have h1 : ((List.range n).filter (fun x => x ∈ red)).Perm red := by
    rw [List.perm_ext_iff_of_nodup (List.nodup_range.filter _) hn]
    intro a; simp only [List.mem_filter, List.mem_range, decide_eq_true_eq]
    exact ⟨fun h => h.2, fun ha => ⟨h a ha, ha⟩⟩
  have h2 := List.length_eq_length_filter_add (l := List.range n) (fun x => decide (x ∈ red))
  rw [h1.length_eq, List.length_range] at h2
  have h3 : (List.range n).filter (fun x => x ∉ red) = (List.range n).filter (fun x => ! decide (x ∈ red)) := by
    apply List.filter_congr; intro a _; simp
  rw [h3]
  omega

theorem MovePlan.Valid.wf {p : MovePlan} (h : p.Valid) :
    WfPlan p.initShapes.length (p.reducedAxes.insertionSort (· ≤ ·)) p.axesReordering where
  sorted := sorted_lt h.nodup
  lt := fun a ha => h.lt a ((List.perm_insertionSort (· ≤ ·) _).mem_iff.1 ha)
  order := by
    have hp := List.perm_insertionSort (· ≤ ·) p.reducedAxes
    rw [rank_length (hp.nodup_iff.2 h.nodup) (fun a ha => h.lt a (hp.mem_iff.1 ha)), hp.length_eq]
    exact h.order

theorem WfPlan.valid {p : MovePlan} (w : WfPlan p.initShapes.length p.reducedAxes p.axesReordering) : p.Valid where
  nodup := w.sorted.imp (fun h => Nat.ne_of_lt h)
  lt := w.lt
  order := by
    rw [← rank_length (w.sorted.imp (fun h => Nat.ne_of_lt h)) w.lt]; exact w.order

theorem nodup_length_le {l : List Nat} (h : l.Nodup) {n : Nat} (hlt : ∀ a ∈ l, a < n) : l.length ≤ n := by
  have : l ⊆ List.range n := fun a ha => List.mem_range.2 (hlt a ha)
  simpa using (List.subperm_of_subset h this).length_le

theorem MovePlan.Valid.total {p : MovePlan} (h : p.Valid) :
    p.axesReordering.length + p.reducedAxes.length = p.initShapes.length := by
  have h1 := h.order.length_eq
  have h2 := nodup_length_le h.nodup h.lt
  rw [List.length_range] at h1
  omega

theorem optimize_spec {p : MovePlan} (h : p.Valid) :
    ∃ q, optimizeTransformation p = .ok q ∧ q.finalShapes = p.finalShapes ∧
      Joins p.initShapes (p.reducedAxes.insertionSort (· ≤ ·)) p.axesReordering
        q.initShapes q.reducedAxes q.axesReordering ∧
      Settled q.initShapes.length q.reducedAxes q.axesReordering := by
  unfold optimizeTransformation
  rw [if_neg (by simpa using h.total)]
  obtain ⟨⟨init, red⟩, h1, h2, h3⟩ := first_loop h.wf
  simp only at h2 h3 ⊢
  rw [h1]
  simp only
  have hw := h2.wf
  rw [buildMapping_eq (fun q hq => hw.order.mem_iff.2 (List.mem_range.2 hq))]
  simp only
  obtain ⟨st, h4, h5⟩ := loopE_down (SecondInv p.initShapes (p.reducedAxes.insertionSort (· ≤ ·)) p.axesReordering)
    second_step (init.length - 1)
    ⟨init, red, p.axesReordering, (List.range init.length).map (fun a => (a, mapEntry red p.axesReordering a))⟩
    ⟨h2, rfl, h3, fun h => by simp only; omega, fun a ha hl => by simp only at hl; omega⟩
  rw [h4]
  exact ⟨_, rfl, rfl, h5.joins, h5.lonely, fun a => h5.apart a (by omega)⟩

theorem loopE_const {σ ι : Type} {f : σ → ι → Py σ} {s : σ} {l : List ι} (h : ∀ i ∈ l, f s i = .ok s) :
    loopE f s l = .ok s := by
  induction l with
  | nil => rfl
  | cons i l ih =>
    simp only [loopE, h i (by simp)]
    exact ih (fun j hj => h j (by simp [hj]))

theorem optimize_settled {q : MovePlan} (w : WfPlan q.initShapes.length q.reducedAxes q.axesReordering)
    (h : Settled q.initShapes.length q.reducedAxes q.axesReordering) : optimizeTransformation q = .ok q := by
  unfold optimizeTransformation
  rw [if_neg (by simpa using w.valid.total)]
  have hs : q.reducedAxes.insertionSort (· ≤ ·) = q.reducedAxes :=
    List.Pairwise.insertionSort_eq (w.sorted.imp (fun h => Nat.le_of_lt h))
  simp only [hs]
  rw [loopE_const]
  · simp only
    rw [buildMapping_eq (fun a ha => w.order.mem_iff.2 (List.mem_range.2 ha))]
    simp only
    rw [loopE_const]
    intro t ht
    rw [List.mem_reverse, List.mem_range] at ht
    have hr : t + 1 < q.initShapes.length := by omega
    unfold joinKept
    simp only [dictGetE_range (mapEntry q.reducedAxes q.axesReordering) (show t < q.initShapes.length by omega),
      dictGetE_range (mapEntry q.reducedAxes q.axesReordering) hr]
    by_cases h1 : t ∈ q.reducedAxes
    · simp [mapEntry, h1]
    by_cases h2 : t + 1 ∈ q.reducedAxes
    · simp [mapEntry, h1, h2]
    simp only [mapEntry, if_neg h1, if_neg h2]
    have hm1 := w.mem (show t < q.initShapes.length by omega) h1
    have hm2 := w.mem hr h2
    rw [rankOf_succ, if_neg h1] at hm2
    rw [rankOf_succ, if_neg h1, if_neg]
    intro he
    exact h.apart t hr h1 h2 ((follows_iff (w.order.nodup_iff.2 List.nodup_range) hm1 hm2).2 he)
  · intro t ht
    rw [List.mem_reverse, List.mem_range] at ht
    have hr : t + 1 < q.reducedAxes.length := by omega
    unfold joinReduced
    simp only [getE, List.getElem?_eq_getElem hr, List.getElem?_eq_getElem (show t < q.reducedAxes.length by omega)]
    rw [if_neg]
    intro he
    exact h.lonely _ (List.getElem_mem (show t < q.reducedAxes.length by omega)) (he ▸ List.getElem_mem hr)

theorem reduceAxes_perm (op : List α → Py α) (y : Tensor α) {r r' : List Nat} (h : r'.Perm r) :
    y.reduceAxes op r' = y.reduceAxes op r := by
  unfold Tensor.reduceAxes
  have e : (r'.Nodup ∧ ∀ a ∈ r', a < y.ndim) ↔ (r.Nodup ∧ ∀ a ∈ r, a < y.ndim) := by
    rw [h.nodup_iff]; simp [h.mem_iff]
  by_cases hc : r.Nodup ∧ ∀ a ∈ r, a < y.ndim
  · rw [if_pos hc, if_pos (e.2 hc)]
    simp [h.mem_iff]
  · rw [if_neg hc, if_neg (fun h => hc (e.1 h))]

theorem runMoves_perm (op : List α → Py α) (init order : List Nat) (x : Tensor α) {r r' : List Nat} (h : r'.Perm r) :
    runMoves op init r' order x = runMoves op init r order x := by
  unfold runMoves
  cases x.withShape init with
  | error e => rfl
  | ok y =>
    have : (r' = []) ↔ (r = []) := by
      constructor
      · rintro rfl; exact h.symm.eq_nil
      · rintro rfl; exact h.eq_nil
    simp only
    by_cases hr : r = []
    · rw [if_pos hr, if_pos (this.2 hr)]
    · rw [if_neg hr, if_neg (fun h => hr (this.1 h)), reduceAxes_perm op y h]

theorem reshape_congr {y y' : Tensor α} (h : y'.data = y.data) (s : List Int) : y'.reshape s = y.reshape s := by
  have hp : y'.shape.prod = y.shape.prod := by rw [← y.wf, ← y'.wf, h]
  unfold Tensor.reshape
  rw [hp]
  cases resolveShape y.shape.prod s with
  | error e => rfl
  | ok t =>
    simp only [Tensor.withShape, hp, h]

end Einops
