import Verif.Recipe

/-!
# Framework tensors

The framework (numpy, torch, ...) is outside /repo; its primitives are modelled by reference functions on tensors stored
as shape plus flat data in C (row-major) order.  Everything here belongs to the trusted base.
-/

namespace Einops

universe u v

/-- An n-dimensional array: shape and elements in C order. -/
structure Tensor (α : Type u) where
  shape : List Nat
  data : List α
  wf : data.length = shape.prod
  deriving DecidableEq

/-- every coordinate is smaller than the dimension and the number of coordinates is right -/
def inBounds : List Nat → List Nat → Bool
  | [], [] => true
  | i :: is, d :: ds => decide (i < d) && inBounds is ds
  | _, _ => false

/-- C-order position of an index -/
def ravel : List Nat → List Nat → Nat
  | _ :: ds, i :: is => i * ds.prod + ravel ds is
  | _, _ => 0

/-- all indices of a shape, in C order -/
def indices : List Nat → List (List Nat)
  | [] => [[]]
  | d :: ds => (List.range d).flatMap (fun i => (indices ds).map (i :: ·))

/-- `x[i]`; `none` when out of bounds -/
def Tensor.at? {α : Type u} (x : Tensor α) (i : List Nat) : Option α :=
  if inBounds i x.shape then x.data[ravel x.shape i]? else none

/-- number of dimensions -/
def Tensor.ndim {α : Type u} (x : Tensor α) : Nat := x.shape.length

/-- `x[i]` raising IndexError -/
def Tensor.getE {α : Type u} (x : Tensor α) (i : List Nat) : Py α :=
  match x.at? i with
  | some a => .ok a
  | none => .error .index

theorem mapE_length {ε : Type} {α : Type u} {β : Type v} {f : α → Except ε β} {l : List α} {r : List β}
    (h : mapE f l = .ok r) : r.length = l.length := by
  induction l generalizing r with
  | nil => simp [mapE] at h; simp [← h]
  | cons a as ih =>
    simp only [mapE] at h
    split at h <;> try contradiction
    split at h <;> try contradiction
    rename_i bs hbs
    cases h
    simp [ih hbs]

theorem mapE_ok {ε : Type} {α : Type u} {β : Type v} {f : α → Except ε β} {l : List α} {r : List β}
    (h : mapE f l = .ok r) (k : Nat) (hk : k < l.length) : ∃ b, f l[k] = .ok b ∧ r[k]? = some b := by
  induction l generalizing r k with
  | nil => simp at hk
  | cons a as ih =>
    simp only [mapE] at h
    split at h <;> try contradiction
    rename_i b hb
    split at h <;> try contradiction
    rename_i bs hbs
    cases h
    cases k with
    | zero => exact ⟨b, hb, by simp⟩
    | succ k => simpa using ih hbs k (by simpa using hk)

theorem mapE_eq_ok_map {ε : Type} {α : Type u} {β : Type v} {f : α → Except ε β} {g : α → β} {l : List α}
    (h : ∀ a ∈ l, f a = .ok (g a)) : mapE f l = .ok (l.map g) := by
  induction l with
  | nil => rfl
  | cons a as ih =>
    simp only [mapE, h a (by simp), ih (fun a ha => h a (by simp [ha])), List.map_cons]

theorem mapE_congr {ε : Type} {α : Type u} {β : Type v} {f g : α → Except ε β} {l : List α}
    (h : ∀ a ∈ l, f a = g a) : mapE f l = mapE g l := by
  induction l with
  | nil => rfl
  | cons a as ih =>
    simp only [mapE, h a (by simp), ih (fun a ha => h a (by simp [ha]))]

theorem mapE_map {ε : Type} {α : Type u} {β : Type v} {γ : Type*} {f : α → Except ε β} {g : γ → α} {l : List γ} :
    mapE f (l.map g) = mapE (fun c => f (g c)) l := by
  induction l with
  | nil => rfl
  | cons a as ih => simp only [List.map_cons, mapE, ih]

theorem indices_length (s : List Nat) : (indices s).length = s.prod := by
  induction s with
  | nil => rfl
  | cons d ds ih => simp [indices, List.length_flatMap, ih]

/-- Build a tensor from the value of each entry. -/
def Tensor.build {α : Type u} (shape : List Nat) (f : List Nat → Py α) : Py (Tensor α) :=
  match h : mapE f (indices shape) with
  | .ok d => .ok ⟨shape, d, by rw [mapE_length h, indices_length]⟩
  | .error e => .error e

/-- Same data, new (concrete) shape. -/
def Tensor.withShape {α : Type u} (x : Tensor α) (s : List Nat) : Py (Tensor α) :=
  if h : s.prod = x.shape.prod then .ok ⟨s, x.data, by rw [x.wf, h]⟩ else .error .backend

/-- Shape inference of numpy's `reshape` (`_fix_unknown_dimension` in numpy/core/src/multiarray/shape.c): a negative
entry is "unknown"; at most one is allowed and it is inferred from a non-zero product of the others. -/
def resolveShape (total : Nat) (s : List Int) : Py (List Nat) :=
  let known := ((s.filter (fun d => decide (0 ≤ d))).map Int.toNat).prod
  match (s.filter (fun d => decide (d < 0))).length with
  | 0 => .ok (s.map Int.toNat)
  | 1 =>
    if known = 0 ∨ total % known ≠ 0 then .error .backend
    else .ok (s.map (fun d => if d < 0 then total / known else d.toNat))
  | _ => .error .backend

/-- `x.reshape(s)` -/
def Tensor.reshape {α : Type u} (x : Tensor α) (s : List Int) : Py (Tensor α) :=
  match resolveShape x.shape.prod s with
  | .error e => .error e
  | .ok t => x.withShape t

/-- lookup in a list of coordinates/dimensions; 0 when absent (only used with positions known to be present) -/
def nth (l : List Nat) (k : Nat) : Nat := l.getD k 0

/-- `x.transpose(perm)` / `permute`: output axis k is input axis perm[k]. -/
def Tensor.transpose {α : Type u} (x : Tensor α) (perm : List Nat) : Py (Tensor α) :=
  if perm.length = x.ndim ∧ perm.Nodup ∧ ∀ p ∈ perm, p < x.ndim then
    Tensor.build (perm.map (nth x.shape)) (fun i => x.getE ((List.range x.ndim).map (fun k => nth i (perm.idxOf k))))
  else .error .backend

/-- The index of the full tensor whose `keep` coordinates are `i` and whose `red` coordinates are `r`. -/
def mergeIdx (n : Nat) (keep red i r : List Nat) : List Nat :=
  (List.range n).map (fun k => if k ∈ keep then nth i (keep.idxOf k) else nth r (red.idxOf k))

/-- Reduction over the axes `axes` with the element-list operation `op`: every output entry is `op` of the list of the
entries it summarises, in C order. -/
def Tensor.reduceAxes {α β : Type u} (op : List α → Py β) (x : Tensor α) (axes : List Nat) :
    Py (Tensor β) :=
  if axes.Nodup ∧ ∀ a ∈ axes, a < x.ndim then
    let keep := (List.range x.ndim).filter (fun k => k ∉ axes)
    let red := (List.range x.ndim).filter (fun k => k ∈ axes)
    Tensor.build (keep.map (nth x.shape)) (fun i =>
      (mapE (fun r => x.getE (mergeIdx x.ndim keep red i r)) (indices (red.map (nth x.shape)))).bind op)
  else .error .backend

/-- `expand_dims(x, pos)` / `unsqueeze` -/
def Tensor.expandDims {α : Type u} (x : Tensor α) (pos : Nat) : Py (Tensor α) :=
  if pos ≤ x.ndim then x.withShape (x.shape.take pos ++ 1 :: x.shape.drop pos) else .error .backend

/-- `tile(x, reps)` with as many repetitions as dimensions.  (numpy's `tile` calls `ndarray.repeat`, which refuses
negative repetitions; for empty arrays it calls `reshape` on a shape with a zero and a negative entry, which fails too.) -/
def Tensor.tile {α : Type u} (x : Tensor α) (reps : List Int) : Py (Tensor α) :=
  if reps.length = x.ndim ∧ ∀ r ∈ reps, 0 ≤ r then
    Tensor.build (List.zipWith (fun d r => d * r.toNat) x.shape reps)
      (fun i => x.getE (List.zipWith (fun j d => j % d) i x.shape))
  else .error .backend

/-- `x.expand(reps)` (torch): -1 keeps the dimension, otherwise a dimension of length 1 may be broadcast. -/
def Tensor.expand {α : Type u} (x : Tensor α) (reps : List Int) : Py (Tensor α) :=
  if reps.length = x.ndim ∧
      ∀ p ∈ x.shape.zip reps, p.2 = -1 ∨ (0 ≤ p.2 ∧ (p.1 = 1 ∨ p.2 = (p.1 : Int))) then
    Tensor.build (List.zipWith (fun d r => if r = -1 then d else r.toNat) x.shape reps)
      (fun i => x.getE (List.zipWith (fun j d => if d = 1 then 0 else j) i x.shape))
  else .error .backend

/-- `broadcast_to(x, shape)` for a target of the same rank (array API). -/
def Tensor.broadcastTo {α : Type u} (x : Tensor α) (s : List Int) : Py (Tensor α) :=
  if s.length = x.ndim ∧ ∀ p ∈ x.shape.zip s, 0 ≤ p.2 ∧ (p.1 = 1 ∨ p.2 = (p.1 : Int)) then
    Tensor.build (s.map Int.toNat) (fun i => x.getE (List.zipWith (fun j d => if d = 1 then 0 else j) i x.shape))
  else .error .backend

/-- `stack(xs)` on a new zeroth dimension; all shapes must agree. -/
def Tensor.stack {α : Type u} (xs : List (Tensor α)) : Py (Tensor α) :=
  match xs with
  | [] => .error .backend
  | x :: rest =>
    if h : ∀ y ∈ rest, y.shape = x.shape then
      .ok ⟨(rest.length + 1) :: x.shape, ((x :: rest).map Tensor.data).flatten, by
        rw [List.length_flatten, List.map_map, List.prod_cons]
        have : ((x :: rest).map (List.length ∘ Tensor.data)) = List.replicate (rest.length + 1) x.shape.prod := by
          rw [List.eq_replicate_iff]
          refine ⟨by simp, ?_⟩
          intro b hb
          simp only [List.map_cons, List.mem_cons, List.mem_map, Function.comp] at hb
          rcases hb with rfl | ⟨y, hy, rfl⟩
          · exact x.wf
          · rw [y.wf, h y hy]
        rw [this]; simp⟩
    else .error .backend

/-- `x[:, ..., :, lo:hi]` along `axis` with Python slice clipping (lo, hi ≥ 0 as used by einops; negative values count
from the end). -/
def clipSlice (n : Nat) (k : Int) : Nat :=
  if k < 0 then (k + n).toNat else min k.toNat n

/-- `x[(slice(None),)*axis + (slice(lo, hi),)]` -/
def Tensor.slice {α : Type u} (x : Tensor α) (axis : Nat) (lo hi : Int) : Py (Tensor α) :=
  if axis < x.ndim then
    let n := nth x.shape axis
    let a := clipSlice n lo
    let b := clipSlice n hi
    Tensor.build (x.shape.set axis (b - a)) (fun i => x.getE (i.set axis (nth i axis + a)))
  else .error .index

/-- Which piece a coordinate of the concatenated axis falls into, and where in that piece. -/
def locate : List Nat → Nat → Nat × Nat
  | [], j => (0, j)
  | n :: ns, j => if j < n then (0, j) else let p := locate ns (j - n); (p.1 + 1, p.2)

/-- `concatenate(xs, axis)`; all other dimensions must agree. -/
def Tensor.concat {α : Type u} (xs : List (Tensor α)) (axis : Nat) : Py (Tensor α) :=
  match xs with
  | [] => .error .backend
  | x :: rest =>
    if axis < x.ndim ∧ ∀ y ∈ rest, y.ndim = x.ndim ∧ y.shape.set axis 0 = x.shape.set axis 0 then
      let lens := (x :: rest).map (fun y => nth y.shape axis)
      Tensor.build (x.shape.set axis lens.sum) (fun i =>
        let p := locate lens (nth i axis)
        match (x :: rest)[p.1]? with
        | some y => y.getE (i.set axis p.2)
        | none => .error .index)
    else .error .backend

/-! ### Basic facts -/

theorem inBounds_length {i s : List Nat} (h : inBounds i s = true) : i.length = s.length := by
  induction i generalizing s with
  | nil => cases s <;> simp_all [inBounds]
  | cons a as ih => cases s with
    | nil => simp [inBounds] at h
    | cons d ds => simp only [inBounds, Bool.and_eq_true] at h; simp [ih h.2]

@[simp] theorem inBounds_nil : inBounds [] [] = true := rfl
@[simp] theorem inBounds_cons {i d : Nat} {is ds : List Nat} :
    inBounds (i :: is) (d :: ds) = true ↔ i < d ∧ inBounds is ds = true := by
  simp [inBounds]
theorem inBounds_nil_left {s : List Nat} : inBounds [] s = true ↔ s = [] := by cases s <;> simp [inBounds]
theorem inBounds_nil_right {i : List Nat} : inBounds i [] = true ↔ i = [] := by cases i <;> simp [inBounds]

theorem inBounds_iff {i s : List Nat} :
    inBounds i s = true ↔ i.length = s.length ∧ ∀ k, k < s.length → nth i k < nth s k := by
  induction i generalizing s with
  | nil => cases s with
    | nil => simp
    | cons d ds => simp [inBounds]
  | cons a as ih => cases s with
    | nil => simp [inBounds]
    | cons d ds =>
      rw [inBounds_cons, ih]
      constructor
      · rintro ⟨h1, h2, h3⟩
        refine ⟨by simp [h2], ?_⟩
        rintro (_ | k) hk
        · simpa [nth] using h1
        · simpa [nth] using h3 k (by simpa using hk)
      · rintro ⟨h1, h2⟩
        refine ⟨by simpa [nth] using h2 0 (by simp), by simpa using h1, ?_⟩
        intro k hk
        simpa [nth] using h2 (k + 1) (by simpa using hk)

theorem ravel_lt {i s : List Nat} (h : inBounds i s = true) : ravel s i < s.prod := by
  induction i generalizing s with
  | nil => cases s <;> simp_all [inBounds, ravel]
  | cons a as ih => cases s with
    | nil => simp [inBounds] at h
    | cons d ds =>
      rw [inBounds_cons] at h
      have := ih h.2
      simp only [ravel, List.prod_cons]
      calc a * ds.prod + ravel ds as < a * ds.prod + ds.prod := by omega
        _ = (a + 1) * ds.prod := by ring
        _ ≤ d * ds.prod := Nat.mul_le_mul_right _ h.1

theorem mem_indices {i s : List Nat} : i ∈ indices s ↔ inBounds i s = true := by
  induction s generalizing i with
  | nil => cases i <;> simp [indices, inBounds]
  | cons d ds ih =>
    simp only [indices, List.mem_flatMap, List.mem_range, List.mem_map]
    constructor
    · rintro ⟨a, ha, j, hj, rfl⟩
      rw [inBounds_cons]; exact ⟨ha, ih.1 hj⟩
    · cases i with
      | nil => simp [inBounds]
      | cons a as =>
        rw [inBounds_cons]
        rintro ⟨h1, h2⟩
        exact ⟨a, h1, as, ih.2 h2, rfl⟩

theorem flatMap_getElem? {β : Type v} (d n : Nat) (f : Nat → List β) (hf : ∀ i, (f i).length = n) (i j : Nat)
    (hi : i < d) (hj : j < n) : ((List.range d).flatMap f)[i * n + j]? = (f i)[j]? := by
  induction d with
  | zero => omega
  | succ d ih =>
    rw [List.range_succ, List.flatMap_append]
    have hlen : ((List.range d).flatMap f).length = d * n := by
      rw [List.length_flatMap]; simp [hf]
    by_cases h : i < d
    · rw [List.getElem?_append_left]
      · exact ih h
      · rw [hlen]
        calc i * n + j < i * n + n := by omega
          _ = (i + 1) * n := by ring
          _ ≤ d * n := Nat.mul_le_mul_right _ h
    · have : i = d := by omega
      subst this
      rw [List.getElem?_append_right (by rw [hlen]; omega), hlen]
      simp

theorem indices_ravel {i s : List Nat} (h : inBounds i s = true) : (indices s)[ravel s i]? = some i := by
  induction i generalizing s with
  | nil => cases s <;> simp_all [inBounds, ravel, indices]
  | cons a as ih => cases s with
    | nil => simp [inBounds] at h
    | cons d ds =>
      rw [inBounds_cons] at h
      simp only [ravel, indices]
      rw [flatMap_getElem? d ds.prod _ (fun i => by simp [indices_length]) _ _ h.1 (ravel_lt h.2)]
      simp [ih h.2]

theorem indices_nodup (s : List Nat) : (indices s).Nodup := by
  induction s with
  | nil => simp [indices]
  | cons d ds ih =>
    simp only [indices]
    rw [List.nodup_flatMap]
    refine ⟨fun i _ => ih.map (fun a b h => by simpa using h), ?_⟩
    refine List.Nodup.pairwise_of_forall_ne List.nodup_range ?_
    intro i _ j _ hij
    simp only [Function.onFun, List.disjoint_left, List.mem_map]
    rintro _ ⟨a, _, rfl⟩ ⟨b, _, hb⟩
    simp at hb
    exact hij hb.1.symm

theorem ravel_inj {i j s : List Nat} (hi : inBounds i s = true) (hj : inBounds j s = true)
    (h : ravel s i = ravel s j) : i = j := by
  have h1 := indices_ravel hi
  have h2 := indices_ravel hj
  rw [h] at h1
  rw [h1] at h2
  simpa using h2

theorem ravel_surj {s : List Nat} {k : Nat} (hk : k < s.prod) : ∃ i, inBounds i s = true ∧ ravel s i = k := by
  have hlt : k < (indices s).length := by rw [indices_length]; exact hk
  refine ⟨(indices s)[k], mem_indices.1 (List.getElem_mem _), ?_⟩
  have hb := mem_indices.1 (List.getElem_mem hlt)
  have h1 := indices_ravel hb
  have h2 : ravel s (indices s)[k] < (indices s).length := by rw [indices_length]; exact ravel_lt hb
  rw [List.getElem?_eq_getElem h2] at h1
  exact (List.Nodup.getElem_inj_iff (indices_nodup s)).1 (by simpa using h1)

theorem Tensor.at?_of_inBounds {α : Type u} (x : Tensor α) {i : List Nat} (h : inBounds i x.shape = true) :
    x.at? i = x.data[ravel x.shape i]? := by simp [Tensor.at?, h]

theorem Tensor.at?_isSome {α : Type u} (x : Tensor α) {i : List Nat} (h : inBounds i x.shape = true) :
    ∃ a, x.at? i = some a := by
  have : ravel x.shape i < x.data.length := by rw [x.wf]; exact ravel_lt h
  exact ⟨x.data[ravel x.shape i], by simp [Tensor.at?, h, this]⟩

theorem Tensor.at?_some_inBounds {α : Type u} (x : Tensor α) {i : List Nat} {a : α} (h : x.at? i = some a) :
    inBounds i x.shape = true := by
  by_contra hc
  simp [Tensor.at?, hc] at h

theorem Tensor.getE_eq_ok {α : Type u} (x : Tensor α) {i : List Nat} {a : α} :
    x.getE i = .ok a ↔ x.at? i = some a := by
  unfold Tensor.getE
  split <;> simp_all

/-- Two tensors with the same shape and the same entries are equal. -/
theorem Tensor.ext_at? {α : Type u} {x y : Tensor α} (hs : x.shape = y.shape)
    (h : ∀ i, inBounds i x.shape = true → x.at? i = y.at? i) : x = y := by
  obtain ⟨xs, xd, xw⟩ := x
  obtain ⟨ys, yd, yw⟩ := y
  simp only at hs
  subst hs
  congr 1
  apply List.ext_getElem? 
  intro k
  by_cases hk : k < xs.prod
  · obtain ⟨i, hi, rfl⟩ := ravel_surj hk
    have := h i hi
    simpa [Tensor.at?, hi] using this
  · rw [List.getElem?_eq_none (by omega), List.getElem?_eq_none (by omega)]

theorem Tensor.build_ok {α : Type u} {shape : List Nat} {f : List Nat → Py α} {y : Tensor α}
    (h : Tensor.build shape f = .ok y) :
    y.shape = shape ∧ ∀ i, inBounds i shape = true → ∃ a, f i = .ok a ∧ y.at? i = some a := by
  unfold Tensor.build at h
  split at h <;> try contradiction
  rename_i d hd
  cases h
  refine ⟨rfl, fun i hi => ?_⟩
  have hlt : ravel shape i < (indices shape).length := by rw [indices_length]; exact ravel_lt hi
  obtain ⟨b, hb, hd'⟩ := mapE_ok hd (ravel shape i) hlt
  have h1 := indices_ravel hi
  rw [List.getElem?_eq_getElem hlt] at h1
  refine ⟨b, ?_, ?_⟩
  · rw [← hb]; congr 1; simpa using h1.symm
  · simp [Tensor.at?, hi, hd']

theorem Tensor.build_eq_ok {α : Type u} {shape : List Nat} {f : List Nat → Py α} (g : List Nat → α)
    (h : ∀ i, inBounds i shape = true → f i = .ok (g i)) :
    ∃ y, Tensor.build shape f = .ok y ∧ y.shape = shape ∧ ∀ i, inBounds i shape = true → y.at? i = some (g i) := by
  have h1 : mapE f (indices shape) = .ok ((indices shape).map g) :=
    mapE_eq_ok_map (fun i hi => h i (mem_indices.1 hi))
  refine ⟨⟨shape, (indices shape).map g, by simp [indices_length]⟩, ?_, rfl, ?_⟩
  · unfold Tensor.build
    split
    · rename_i d hd
      rw [h1] at hd
      cases hd
      rfl
    · rename_i e he
      rw [h1] at he
      cases he
  · intro i hi
    simp [Tensor.at?, hi, indices_ravel hi]

theorem Tensor.build_congr {α : Type u} {shape : List Nat} {f g : List Nat → Py α}
    (h : ∀ i, inBounds i shape = true → f i = g i) : Tensor.build shape f = Tensor.build shape g := by
  have h1 : mapE f (indices shape) = mapE g (indices shape) := mapE_congr (fun i hi => h i (mem_indices.1 hi))
  unfold Tensor.build
  split <;> split <;> simp_all

end Einops
