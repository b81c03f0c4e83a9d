import Verif.Proofs.Positions
import Verif.Apply

/-! The stages of a recipe acting on tensors indexed by lists of axes. -/

namespace Einops

universe u
variable {α : Type u}

theorem nth_map_idxOf {A : List Axis} {f : AxisMap} {a : Axis} (h : a ∈ A) : nth (A.map f) (A.idxOf a) = f a := by
  unfold nth
  rw [List.getD_eq_getElem?_getD]
  have hlt := List.idxOf_lt_length_of_mem h
  rw [List.getElem?_map, List.getElem?_eq_getElem hlt]
  simp

theorem nth_map {A : List Axis} {f : AxisMap} {k : Nat} (h : k < A.length) : nth (A.map f) k = f A[k] := by
  unfold nth
  rw [List.getD_eq_getElem?_getD]
  simp [h]

/-- Transposition: the axes come in a new order. -/
theorem transpose_axes {len : AxisMap} {A B : List Axis} (hA : A.Nodup) (hB : B.Nodup) (hAB : ∀ a, a ∈ B ↔ a ∈ A)
    {t : Tensor α} (ht : t.shape = A.map len) :
    ∃ z, t.transpose (B.map A.idxOf) = .ok z ∧ z.shape = B.map len ∧
      ∀ env, InRange len A env → z.at? (B.map env) = t.at? (A.map env) := by
  have hperm : B.Perm A := (List.perm_ext_iff_of_nodup hB hA).2 hAB
  have hlen : B.length = A.length := hperm.length_eq
  have hnd : t.ndim = A.length := by simp [Tensor.ndim, ht]
  have hinj : (B.map A.idxOf).Nodup := by
    apply List.Nodup.map_on _ hB
    intro a ha b hb hab
    exact (List.idxOf_inj ((hAB a).1 ha)).1 hab
  unfold Tensor.transpose
  rw [if_pos ⟨by simp [hnd, hlen], hinj, by
    intro p hp
    obtain ⟨a, ha, rfl⟩ := List.mem_map.1 hp
    rw [hnd]
    exact List.idxOf_lt_length_of_mem ((hAB a).1 ha)⟩]
  have hshape : (B.map A.idxOf).map (nth t.shape) = B.map len := by
    rw [List.map_map]
    apply List.map_congr_left
    intro a ha
    simp only [Function.comp, ht]
    exact nth_map_idxOf ((hAB a).1 ha)
  rw [hshape]
  have hidx : ∀ env : AxisMap, (List.range t.ndim).map (fun k => nth (B.map env) ((B.map A.idxOf).idxOf k)) = A.map env := by
    intro env
    rw [hnd]
    apply List.ext_getElem (by simp)
    intro k h1 h2
    simp only [List.length_map] at h2
    have hmem : A[k] ∈ B := (hAB _).2 (List.getElem_mem _)
    have hk : (B.map A.idxOf).idxOf k = B.idxOf A[k] := by
      have hb : B.idxOf A[k] < B.length := List.idxOf_lt_length_of_mem hmem
      have h3 : (B.map A.idxOf)[B.idxOf A[k]]'(by simpa using hb) = k := by
        simp [hA.idxOf_getElem k h2]
      conv_lhs => rw [← h3]
      exact hinj.idxOf_getElem _ _
    simp only [List.getElem_map, List.getElem_range, hk]
    exact nth_map_idxOf hmem
  obtain ⟨z, hz, hzs, hzv⟩ := Tensor.build_total (shape := B.map len)
      (f := fun i => t.getE ((List.range t.ndim).map (fun k => nth i ((B.map A.idxOf).idxOf k)))) (by
    intro i hi
    obtain ⟨env, henv, rfl⟩ := exists_env_axes hB hi
    rw [hidx]
    have : inBounds (A.map env) t.shape = true := by
      rw [ht, inBounds_map]; exact fun a ha => henv a ((hAB a).2 ha)
    obtain ⟨v, hv⟩ := t.at?_isSome this
    exact ⟨v, t.getE_eq_ok.2 hv⟩)
  refine ⟨z, hz, hzs, ?_⟩
  intro env henv
  have hb : inBounds (B.map env) (B.map len) = true := inBounds_map.2 (fun a ha => henv a ((hAB a).1 ha))
  have := hzv _ hb
  rw [hidx] at this
  have hbA : inBounds (A.map env) t.shape = true := by rw [ht, inBounds_map]; exact henv
  obtain ⟨v, hv⟩ := t.at?_isSome hbA
  rw [t.getE_eq_ok.2 hv] at this
  rw [hv]
  have hbz : inBounds (B.map env) z.shape = true := by rw [hzs]; exact hb
  obtain ⟨w, hw⟩ := z.at?_isSome hbz
  rw [hw] at this ⊢
  simp only [Option.elim] at this
  cases this; rfl

/-! ### reduction of trailing axes -/

theorem mergeIdx_trailing {k m : Nat} {i r : List Nat} (hi : i.length = k) (hr : r.length = m) :
    mergeIdx (k + m) (List.range k) ((List.range (k + m)).drop k) i r = i ++ r := by
  unfold mergeIdx
  apply List.ext_getElem (by simp [hi, hr])
  intro n h1 h2
  simp only [List.length_map, List.length_range] at h1
  simp only [List.getElem_map, List.getElem_range, List.mem_range]
  by_cases h : n < k
  · have : (List.range k).idxOf n = n := by
      have := (List.nodup_range (n := k)).idxOf_getElem n (by simpa using h)
      simpa using this
    rw [if_pos h, this, List.getElem_append_left (by omega)]
    simp [nth, hi, h]
  · have hn : n - k < ((List.range (k + m)).drop k).length := by simp; omega
    have : ((List.range (k + m)).drop k).idxOf n = n - k := by
      have hnd : ((List.range (k + m)).drop k).Nodup := List.nodup_range.sublist (List.drop_sublist _ _)
      have := hnd.idxOf_getElem (n - k) hn
      rw [List.getElem_drop, List.getElem_range] at this
      rwa [show k + (n - k) = n by omega] at this
    rw [if_neg h, this, List.getElem_append_right (by omega)]
    unfold nth
    have : n - k < r.length := by omega
    simp [hi, this]

theorem keep_trailing (k m : Nat) :
    (List.range (k + m)).filter (fun j => decide (j ∉ (List.range (k + m)).drop k)) = List.range k := by
  have hd : ∀ j, j ∈ (List.range (k + m)).drop k ↔ k ≤ j ∧ j < k + m := by
    intro j
    rw [List.mem_drop_iff_getElem]
    simp only [List.length_range, List.getElem_range]
    constructor
    · rintro ⟨i, hi, rfl⟩; omega
    · rintro ⟨h1, h2⟩; exact ⟨j - k, by omega, by omega⟩
  have : List.range (k + m) = List.range k ++ (List.range m).map (k + ·) := List.range_add
  rw [List.filter_congr (q := fun j => decide (j < k)) (by
    intro j hj
    rw [List.mem_range] at hj
    simp only [hd, decide_eq_decide]; omega)]
  rw [this, List.filter_append]
  rw [List.filter_eq_self.2 (by intro a ha; simpa using ha), List.filter_eq_nil_iff.2 (by
    intro a ha
    obtain ⟨b, _, rfl⟩ := List.mem_map.1 ha
    simp)]
  simp

theorem red_trailing (k m : Nat) :
    (List.range (k + m)).filter (fun j => decide (j ∈ (List.range (k + m)).drop k)) = (List.range (k + m)).drop k := by
  have hd : ∀ j, j ∈ (List.range (k + m)).drop k ↔ k ≤ j ∧ j < k + m := by
    intro j
    rw [List.mem_drop_iff_getElem]
    simp only [List.length_range, List.getElem_range]
    constructor
    · rintro ⟨i, hi, rfl⟩; omega
    · rintro ⟨h1, h2⟩; exact ⟨j - k, by omega, by omega⟩
  have : List.range (k + m) = List.range k ++ (List.range m).map (k + ·) := List.range_add
  rw [List.filter_congr (q := fun j => decide (k ≤ j)) (by
    intro j hj
    rw [List.mem_range] at hj
    simp only [hd, decide_eq_decide]; omega)]
  rw [this, List.filter_append]
  rw [List.filter_eq_nil_iff.2 (by intro a ha; simpa using ha), List.filter_eq_self.2 (by
    intro a ha
    obtain ⟨b, _, rfl⟩ := List.mem_map.1 ha
    simp)]
  rw [List.drop_left' (by simp)]
  simp

theorem map_nth_range {s : List Nat} {k : Nat} (h : k ≤ s.length) : (List.range k).map (nth s) = s.take k := by
  apply List.ext_getElem (by simp [h])
  intro n h1 h2
  have : n < s.length := by simp at h1; omega
  simp [nth, this]

theorem map_nth_drop {s : List Nat} {k : Nat} : ((List.range s.length).drop k).map (nth s) = s.drop k := by
  apply List.ext_getElem (by simp)
  intro n h1 h2
  have : k + n < s.length := by simp at h1; omega
  simp [nth, this]

theorem mapE_eq_ok_iff {ε : Type} {β γ : Type*} {f : β → Except ε γ} {l : List β} {r : List γ} :
    mapE f l = .ok r ↔ l.map f = r.map .ok := by
  induction l generalizing r with
  | nil => cases r <;> simp [mapE]
  | cons a l ih =>
    simp only [mapE]
    cases hf : f a with
    | error e => cases r <;> simp [hf]
    | ok b =>
      simp only
      cases hm : mapE f l with
      | error e =>
        cases r with
        | nil => simp
        | cons c r =>
          simp only [List.map_cons, hf, List.cons.injEq, reduceCtorEq, false_iff, not_and]
          intro _ h
          rw [← ih, hm] at h
          cases h
      | ok bs =>
        cases r with
        | nil => simp
        | cons c r =>
          have := ih (r := r)
          rw [hm] at this
          simp only [Except.ok.injEq, List.cons.injEq, List.map_cons, hf, ← this]

theorem map_getE_eq {t : Tensor α} {l : List (List Nat)} {vs : List α} :
    l.map t.getE = vs.map .ok ↔ l.map t.at? = vs.map some := by
  induction l generalizing vs with
  | nil => cases vs <;> simp
  | cons i l ih =>
    cases vs with
    | nil => simp
    | cons v vs => simp only [List.map_cons, List.cons.injEq, ih, t.getE_eq_ok]

/-- The values one output entry of a reduction over trailing axes is computed from. -/
theorem reduce_values {len : AxisMap} {K D : List Axis} (hn : (K ++ D).Nodup) {t : Tensor α}
    (ht : t.shape = (K ++ D).map len) {env : AxisMap} (henv : InRange len K env) :
    ∃ vs : List α, (loops len D env).map (fun e => t.at? ((K ++ D).map e)) = vs.map some ∧
      mapE (fun r => t.getE (mergeIdx t.ndim (List.range K.length) ((List.range (K.length + D.length)).drop K.length)
        (K.map env) r)) (indices (D.map len)) = .ok vs := by
  rw [List.nodup_append] at hn
  obtain ⟨hK, hD, hKD⟩ := hn
  have hndim : t.ndim = K.length + D.length := by simp [Tensor.ndim, ht]
  have hval : ∀ e ∈ loops len D env, inBounds ((K ++ D).map e) t.shape = true := by
    intro e he
    rw [ht, inBounds_map]
    obtain ⟨h1, h2⟩ := mem_loops he
    intro a ha
    rcases List.mem_append.1 ha with ha | ha
    · rw [h1 a (fun h => hKD a ha a h rfl)]; exact henv a ha
    · exact h2 hD a ha
  have hex : ∃ vs : List α, (loops len D env).map (fun e => t.at? ((K ++ D).map e)) = vs.map some := by
    generalize loops len D env = es at hval
    induction es with
    | nil => exact ⟨[], rfl⟩
    | cons e es ih =>
      obtain ⟨vs, hvs⟩ := ih (fun e he => hval e (by simp [he]))
      obtain ⟨v, hv⟩ := t.at?_isSome (hval e (by simp))
      exact ⟨v :: vs, by rw [List.map_cons, List.map_cons, hvs, hv]⟩
  obtain ⟨vs, hvs⟩ := hex
  refine ⟨vs, hvs, ?_⟩
  rw [mapE_eq_ok_iff]
  rw [← loops_indices hD env, List.map_map]
  have : (loops len D env).map ((fun r => t.getE (mergeIdx t.ndim (List.range K.length)
      ((List.range (K.length + D.length)).drop K.length) (K.map env) r)) ∘ fun e => D.map e) =
      ((loops len D env).map (fun e => (K ++ D).map e)).map t.getE := by
    rw [List.map_map]
    apply List.map_congr_left
    intro e he
    simp only [Function.comp]
    rw [hndim, mergeIdx_trailing (by simp) (by simp)]
    congr 1
    rw [List.map_append]
    congr 1
    apply List.map_congr_left
    intro a ha
    exact ((mem_loops he).1 a (fun h => hKD a ha a h rfl)).symm
  rw [this, map_getE_eq, List.map_map]
  exact hvs

/-- Reduction over trailing axes. -/
theorem reduce_axes {len : AxisMap} {K D : List Axis} (hn : (K ++ D).Nodup) {t : Tensor α}
    (ht : t.shape = (K ++ D).map len) (op : List α → Py α) {z : Tensor α} :
    (t.reduceAxes op ((List.range (K.length + D.length)).drop K.length) = .ok z ↔
      z.shape = K.map len ∧ ∀ env, InRange len K env → ∃ vs v,
        (loops len D env).map (fun e => t.at? ((K ++ D).map e)) = vs.map some ∧ op vs = .ok v ∧
        z.at? (K.map env) = some v) := by
  have hndim : t.ndim = K.length + D.length := by simp [Tensor.ndim, ht]
  have hKn : K.Nodup := (List.nodup_append.1 hn).1
  unfold Tensor.reduceAxes
  rw [if_pos ⟨List.nodup_range.sublist (List.drop_sublist _ _), by
    intro a ha
    rw [hndim]
    simpa using List.mem_of_mem_drop ha⟩]
  simp only
  rw [hndim, keep_trailing, red_trailing]
  have hs1 : (List.range K.length).map (nth t.shape) = K.map len := by
    rw [map_nth_range (by rw [ht]; simp), ht, List.map_append, List.take_left' (by simp)]
  have hs2 : ((List.range (K.length + D.length)).drop K.length).map (nth t.shape) = D.map len := by
    have h : K.length + D.length = t.shape.length := by rw [ht]; simp
    rw [h, map_nth_drop, ht, List.map_append, List.drop_left' (by simp)]
  rw [hs1, hs2]
  set f : List Nat → Py α := fun i =>
      (mapE (fun r => t.getE (mergeIdx (K.length + D.length) (List.range K.length)
        ((List.range (K.length + D.length)).drop K.length) i r)) (indices (D.map len))).bind op with hf
  have hfv : ∀ env, InRange len K env → ∃ vs, (loops len D env).map (fun e => t.at? ((K ++ D).map e)) = vs.map some ∧
      f (K.map env) = op vs := by
    intro env henv
    obtain ⟨vs, h1, h2⟩ := reduce_values hn ht henv
    rw [hndim] at h2
    refine ⟨vs, h1, ?_⟩
    rw [hf]
    simp only [h2, Except.bind]
  constructor
  · intro h
    obtain ⟨h1, h2⟩ := Tensor.build_ok h
    refine ⟨h1, fun env henv => ?_⟩
    obtain ⟨vs, h3, h4⟩ := hfv env henv
    obtain ⟨v, h5, h6⟩ := h2 (K.map env) (inBounds_map.2 henv)
    exact ⟨vs, v, h3, by rw [← h4, h5], h6⟩
  · rintro ⟨h1, h2⟩
    have hall : ∀ i, inBounds i (K.map len) = true → ∃ v, f i = .ok v ∧ z.at? i = some v := by
      intro i hi
      obtain ⟨env, henv, rfl⟩ := exists_env_axes hKn hi
      obtain ⟨vs, v, h3, h4, h5⟩ := h2 env henv
      obtain ⟨vs', h3', h4'⟩ := hfv env henv
      have : vs = vs' := by
        rw [h3] at h3'
        exact List.map_injective_iff.2 (Option.some_injective _) h3'
      subst this
      exact ⟨v, by rw [h4', h4], h5⟩
    obtain ⟨y, hy, hys, hyv⟩ := Tensor.build_total (f := f) (shape := K.map len)
      (fun i hi => let ⟨v, hv, _⟩ := hall i hi; ⟨v, hv⟩)
    rw [hy]
    congr 1
    apply Tensor.ext_at? (by rw [hys, h1])
    intro i hi
    rw [hys] at hi
    obtain ⟨v, hv, hzv⟩ := hall i hi
    obtain ⟨hb1, hb2⟩ := Tensor.build_ok hy
    obtain ⟨w, hw1, hw2⟩ := hb2 i hi
    rw [hv] at hw1
    cases hw1
    rw [hw2, hzv]

/-! ### inserting axes -/

/-- dimensions after inserting axes: `some l` is a new axis, `none` an old one -/
def fillDims : List (Option Nat) → List Nat → List Nat
  | [], _ => []
  | some l :: ms, s => l :: fillDims ms s
  | none :: ms, d :: s => d :: fillDims ms s
  | none :: _, [] => []

/-- coordinates of the old axes -/
def keepCoords : List (Option Nat) → List Nat → List Nat
  | none :: ms, i :: is => i :: keepCoords ms is
  | some _ :: ms, _ :: is => keepCoords ms is
  | _, _ => []

/-- the `added_axes` dictionary, positions from `k` -/
def addedOf : Nat → List (Option Nat) → List (Nat × Int)
  | _, [] => []
  | k, some l :: ms => (k, (l : Int)) :: addedOf (k + 1) ms
  | k, none :: ms => addedOf (k + 1) ms

/-- Reference for `add_axes`. -/
def Tensor.insertAxes (x : Tensor α) (ms : List (Option Nat)) : Py (Tensor α) :=
  Tensor.build (fillDims ms x.shape) (fun i => x.getE (keepCoords ms i))

/-- the mask of new axes -/
def newMask (len : AxisMap) (isNew : Axis → Bool) (A : List Axis) : List (Option Nat) :=
  A.map (fun a => if isNew a then some (len a) else none)

theorem fillDims_mask (len : AxisMap) (isNew : Axis → Bool) (A : List Axis) :
    fillDims (newMask len isNew A) ((A.filter (fun a => !isNew a)).map len) = A.map len := by
  induction A with
  | nil => rfl
  | cons a A ih =>
    unfold newMask at *
    cases h : isNew a <;> simp [h, fillDims, ih]

theorem keepCoords_mask (len env : AxisMap) (isNew : Axis → Bool) (A : List Axis) :
    keepCoords (newMask len isNew A) (A.map env) = (A.filter (fun a => !isNew a)).map env := by
  induction A with
  | nil => rfl
  | cons a A ih =>
    unfold newMask at *
    cases h : isNew a <;> simp [h, keepCoords, ih]

theorem count_mask (len : AxisMap) (isNew : Axis → Bool) (A : List Axis) :
    (newMask len isNew A).count none = (A.filter (fun a => !isNew a)).length := by
  induction A with
  | nil => rfl
  | cons a A ih =>
    unfold newMask at *
    cases h : isNew a <;> simp [h, ih]

/-- Insertion of axes by name. -/
theorem insert_axes {len : AxisMap} {A : List Axis} (hA : A.Nodup) (isNew : Axis → Bool) {z : Tensor α}
    (hz : z.shape = (A.filter (fun a => !isNew a)).map len) :
    ∃ w, z.insertAxes (newMask len isNew A) = .ok w ∧ w.shape = A.map len ∧
      ∀ env, InRange len A env → w.at? (A.map env) = z.at? ((A.filter (fun a => !isNew a)).map env) := by
  unfold Tensor.insertAxes
  rw [hz, fillDims_mask]
  have hb : ∀ env, InRange len A env → ∃ v, z.at? ((A.filter (fun a => !isNew a)).map env) = some v := by
    intro env henv
    apply z.at?_isSome
    rw [hz, inBounds_map]
    exact fun a ha => henv a (List.mem_of_mem_filter ha)
  obtain ⟨w, hw, hws, hwv⟩ := Tensor.build_total (shape := A.map len)
      (f := fun i => z.getE (keepCoords (newMask len isNew A) i)) (by
    intro i hi
    obtain ⟨env, henv, rfl⟩ := exists_env_axes hA hi
    obtain ⟨v, hv⟩ := hb env henv
    exact ⟨v, by rw [keepCoords_mask, z.getE_eq_ok, hv]⟩)
  refine ⟨w, hw, hws, fun env henv => ?_⟩
  obtain ⟨v, hv⟩ := hb env henv
  obtain ⟨h1, h2⟩ := Tensor.build_ok hw
  obtain ⟨v', h3, h4⟩ := h2 (A.map env) (inBounds_map.2 henv)
  rw [keepCoords_mask, z.getE_eq_ok, hv] at h3
  cases h3
  rw [h4, hv]

end Einops
