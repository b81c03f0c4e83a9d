import Verif.LawSpec

/-! Elementwise functions pass through all primitives of the frameworks. -/

namespace Einops

universe u
variable {α β : Type u}

theorem bind_map {γ δ : Type*} {a : Py γ} {a' : Py δ} {f : γ → δ} (h : a' = a.map f) {γ' δ' : Type*} {k : γ → Py γ'}
    {k' : δ → Py δ'} {g : γ' → δ'} (hk : ∀ x, k' (f x) = (k x).map g) : a'.bind k' = (a.bind k).map g := by
  subst h
  cases a with
  | error e => rfl
  | ok x => exact hk x

theorem mapE_post {ε : Type} {γ δ δ' : Type*} {F : γ → Except ε δ} {F' : γ → Except ε δ'} {g : δ → δ'} {l : List γ}
    (h : ∀ i ∈ l, F' i = (F i).map g) : mapE F' l = (mapE F l).map (List.map g) := by
  induction l with
  | nil => rfl
  | cons a l ih =>
    have h1 := h a (by simp)
    have h2 := ih (fun i hi => h i (by simp [hi]))
    simp only [mapE, h1, h2]
    cases F a with
    | error e => rfl
    | ok v =>
      cases mapE F l <;> rfl

theorem Tensor.eq_of {x y : Tensor α} (h1 : x.shape = y.shape) (h2 : x.data = y.data) : x = y := by
  cases x; cases y; simp only [Tensor.mk.injEq]; exact ⟨h1, h2⟩

theorem Tensor.at?_map (f : α → β) (x : Tensor α) (i : List Nat) : (x.map f).at? i = (x.at? i).map f := by
  unfold Tensor.at? Tensor.map
  simp only
  split <;> simp

theorem Tensor.getE_map (f : α → β) (x : Tensor α) (i : List Nat) : (x.map f).getE i = (x.getE i).map f := by
  unfold Tensor.getE
  rw [Tensor.at?_map]
  cases x.at? i <;> rfl

theorem Tensor.build_map {s : List Nat} {F : List Nat → Py α} {F' : List Nat → Py β} {f : α → β}
    (h : ∀ i, F' i = (F i).map f) : Tensor.build s F' = (Tensor.build s F).map (Tensor.map f) := by
  have h1 := mapE_post (l := indices s) (fun i _ => h i)
  unfold Tensor.build
  split
  · rename_i d' hd'
    split
    · rename_i d hd
      rw [hd, hd'] at h1
      simp only [Except.map, Except.ok.injEq] at h1 ⊢
      exact Tensor.eq_of rfl h1
    · rename_i e hd
      rw [hd, hd'] at h1
      cases h1
  · rename_i e' hd'
    split
    · rename_i d hd
      rw [hd, hd'] at h1
      cases h1
    · rename_i e hd
      rw [hd, hd'] at h1
      simp only [Except.map, Except.error.injEq] at h1 ⊢
      exact h1

theorem withShape_elem (f : α → β) (x : Tensor α) (s : List Nat) :
    (x.map f).withShape s = (x.withShape s).map (Tensor.map f) := by
  unfold Tensor.withShape
  by_cases h : s.prod = x.shape.prod
  · rw [dif_pos h, dif_pos (show s.prod = (x.map f).shape.prod from h)]
    rfl
  · rw [dif_neg h, dif_neg (show ¬ s.prod = (x.map f).shape.prod from h)]
    rfl

theorem reshape_elem (f : α → β) (x : Tensor α) (s : List Int) :
    (x.map f).reshape s = (x.reshape s).map (Tensor.map f) := by
  unfold Tensor.reshape
  rw [show (x.map f).shape = x.shape from rfl]
  cases resolveShape x.shape.prod s with
  | error e => rfl
  | ok t => exact withShape_elem f x t

theorem reshapeStrict_elem (f : α → β) (x : Tensor α) (s : List Int) :
    (x.map f).reshapeStrict s = (x.reshapeStrict s).map (Tensor.map f) := by
  unfold Tensor.reshapeStrict
  split
  · rfl
  · exact reshape_elem f x s

theorem transpose_elem (f : α → β) (x : Tensor α) (p : List Nat) :
    (x.map f).transpose p = (x.transpose p).map (Tensor.map f) := by
  unfold Tensor.transpose
  rw [show (x.map f).ndim = x.ndim from rfl, show (x.map f).shape = x.shape from rfl]
  split
  · exact Tensor.build_map (fun i => Tensor.getE_map f x _)
  · rfl

theorem reduceAxes_elem (f : α → β) {op : List α → Py α} {op' : List β → Py β}
    (h : ∀ vs, op' (vs.map f) = (op vs).map f) (x : Tensor α) (axes : List Nat) :
    (x.map f).reduceAxes op' axes = (x.reduceAxes op axes).map (Tensor.map f) := by
  unfold Tensor.reduceAxes
  rw [show (x.map f).ndim = x.ndim from rfl, show (x.map f).shape = x.shape from rfl]
  split
  · exact Tensor.build_map (fun i => bind_map (mapE_post (fun r _ => Tensor.getE_map f x _)) h)
  · rfl

theorem reduceIter_elem (f : α → β) {op : List α → Py α} {op' : List β → Py β}
    (h : ∀ vs, op' (vs.map f) = (op vs).map f) (x : Tensor α) (axes : List Nat) :
    reduceIter op' (x.map f) axes = (reduceIter op x axes).map (Tensor.map f) := by
  induction axes generalizing x with
  | nil => rfl
  | cons a as ih =>
    unfold reduceIter
    rw [reduceAxes_elem f h]
    cases x.reduceAxes op [a] with
    | error e => rfl
    | ok y => exact ih y

theorem expandDims_elem (f : α → β) (x : Tensor α) (k : Nat) :
    (x.map f).expandDims k = (x.expandDims k).map (Tensor.map f) := by
  unfold Tensor.expandDims
  rw [show (x.map f).ndim = x.ndim from rfl, show (x.map f).shape = x.shape from rfl]
  split
  · exact withShape_elem f x _
  · rfl

theorem tile_elem (f : α → β) (x : Tensor α) (s : List Int) : (x.map f).tile s = (x.tile s).map (Tensor.map f) := by
  unfold Tensor.tile
  rw [show (x.map f).ndim = x.ndim from rfl, show (x.map f).shape = x.shape from rfl]
  split
  · exact Tensor.build_map (fun i => Tensor.getE_map f x _)
  · rfl

theorem expand_elem (f : α → β) (x : Tensor α) (s : List Int) : (x.map f).expand s = (x.expand s).map (Tensor.map f) := by
  unfold Tensor.expand
  rw [show (x.map f).ndim = x.ndim from rfl, show (x.map f).shape = x.shape from rfl]
  split
  · exact Tensor.build_map (fun i => Tensor.getE_map f x _)
  · rfl

theorem broadcastTo_elem (f : α → β) (x : Tensor α) (s : List Int) :
    (x.map f).broadcastTo s = (x.broadcastTo s).map (Tensor.map f) := by
  unfold Tensor.broadcastTo
  rw [show (x.map f).ndim = x.ndim from rfl, show (x.map f).shape = x.shape from rfl]
  split
  · exact Tensor.build_map (fun i => Tensor.getE_map f x _)
  · rfl

theorem stack_elem (f : α → β) (xs : List (Tensor α)) :
    Tensor.stack (xs.map (Tensor.map f)) = (Tensor.stack xs).map (Tensor.map f) := by
  cases xs with
  | nil => rfl
  | cons x rest =>
    rw [List.map_cons]
    unfold Tensor.stack
    simp only
    by_cases h : ∀ y ∈ rest, y.shape = x.shape
    · rw [dif_pos h, dif_pos (by
        intro y hy
        obtain ⟨z, hz, rfl⟩ := List.mem_map.1 hy
        exact h z hz)]
      simp only [Except.map, Except.ok.injEq]
      refine Tensor.eq_of ?_ ?_
      · simp [Tensor.map]
      · simp [Tensor.map, List.map_flatten, Function.comp_def]
    · rw [dif_neg h, dif_neg (by
        intro h'
        exact h (fun z hz => h' (z.map f) (List.mem_map.2 ⟨z, hz, rfl⟩)))]
      rfl

theorem addAxesLoop_elem (f : α → β) (x : Tensor α) (reps : List Int) (p : List (Nat × Int)) :
    addAxesLoop Tensor.expandDims (x.map f) reps p =
      (addAxesLoop Tensor.expandDims x reps p).map (fun q => (q.1.map f, q.2)) := by
  induction p generalizing x reps with
  | nil => rfl
  | cons a p ih =>
    obtain ⟨pos, len⟩ := a
    unfold addAxesLoop
    rw [expandDims_elem]
    cases x.expandDims pos with
    | error e => rfl
    | ok y =>
      simp only [Except.map]
      cases setE reps pos len with
      | error e => rfl
      | ok r => exact ih y r

theorem addAxesTile_elem (f : α → β) (x : Tensor α) (n : Nat) (p : List (Nat × Int)) :
    addAxesTile (x.map f) n p = (addAxesTile x n p).map (Tensor.map f) := by
  unfold addAxesTile
  rw [addAxesLoop_elem]
  cases addAxesLoop Tensor.expandDims x (List.replicate n 1) p with
  | error e => rfl
  | ok q => exact tile_elem f q.1 q.2

theorem addAxesExpand_elem (f : α → β) (x : Tensor α) (n : Nat) (p : List (Nat × Int)) :
    addAxesExpand (x.map f) n p = (addAxesExpand x n p).map (Tensor.map f) := by
  unfold addAxesExpand
  rw [addAxesLoop_elem]
  cases addAxesLoop Tensor.expandDims x (List.replicate n (-1)) p with
  | error e => rfl
  | ok q => exact expand_elem f q.1 q.2

theorem expandAll_elem (f : α → β) (x : Tensor α) (p : List (Nat × Int)) :
    expandAll (x.map f) p = (expandAll x p).map (Tensor.map f) := by
  induction p generalizing x with
  | nil => rfl
  | cons a p ih =>
    obtain ⟨pos, len⟩ := a
    unfold expandAll
    rw [expandDims_elem]
    cases x.expandDims pos with
    | error e => rfl
    | ok y => exact ih y

theorem broadcastAxes_elem (f : α → β) (x : Tensor α) (n : Nat) (p : List (Nat × Int)) :
    broadcastAxes (x.map f) n p = (broadcastAxes x n p).map (Tensor.map f) := by
  unfold broadcastAxes
  refine bind_map (expandAll_elem f x p) (fun y => ?_)
  rw [show (y.map f).shape = y.shape from rfl]
  cases setAll (y.shape.map Int.ofNat) p with
  | error e => rfl
  | ok s => exact broadcastTo_elem f y s

theorem paddleReduce_elem (f : α → β) {op : List α → Py α} {op' : List β → Py β}
    (h : ∀ vs, op' (vs.map f) = (op vs).map f) (x : Tensor α) (axes : List Nat) :
    paddleReduce op' (x.map f) axes = (paddleReduce op x axes).map (Tensor.map f) := by
  unfold paddleReduce
  rw [reduceAxes_elem f h]
  cases x.reduceAxes op axes with
  | error e => rfl
  | ok y =>
    simp only [Except.map]
    rw [show (y.map f).shape = y.shape from rfl]
    split
    · exact withShape_elem f y _
    · rfl

theorem squeeze0_elem (f : α → β) (x : Tensor α) : (x.map f).squeeze0 = x.squeeze0.map (Tensor.map f) := by
  unfold Tensor.squeeze0
  rw [show (x.map f).shape = x.shape from rfl]
  split
  · exact withShape_elem f x _
  · rfl
  · rfl

/-- the methods of the two records correspond -/
structure BackendMap (f : α → β) (b : Backend α) (b' : Backend β) : Prop where
  isFloat : ∀ x, b'.isFloat (x.map f) = b.isFloat x
  reshape : ∀ x s, b'.reshape (x.map f) s = (b.reshape x s).map (Tensor.map f)
  transpose : ∀ x p, b'.transpose (x.map f) p = (b.transpose x p).map (Tensor.map f)
  addAxes : ∀ x n p, b'.addAxes (x.map f) n p = (b.addAxes x n p).map (Tensor.map f)
  stack : ∀ xs, b'.stack (xs.map (Tensor.map f)) = (b.stack xs).map (Tensor.map f)

theorem SameBackend.backendMap {E : ElemOps α} {E' : ElemOps β} {b : Backend α} {b' : Backend β} (h : SameBackend E E' b b')
    (f : α → β) : BackendMap f b b' := by
  cases h with
  | numpy fl => exact ⟨fun _ => rfl, reshape_elem f, transpose_elem f, addAxesTile_elem f, stack_elem f⟩
  | torch fl => exact ⟨fun _ => rfl, reshapeStrict_elem f, transpose_elem f, addAxesExpand_elem f, stack_elem f⟩
  | oneflow fl => exact ⟨fun _ => rfl, reshapeStrict_elem f, transpose_elem f, addAxesExpand_elem f, stack_elem f⟩
  | paddle fl => exact ⟨fun _ => rfl, reshapeStrict_elem f, transpose_elem f, addAxesExpand_elem f, stack_elem f⟩
  | tinygrad fl => exact ⟨fun _ => rfl, reshapeStrict_elem f, transpose_elem f, addAxesTile_elem f, stack_elem f⟩
  | arrayApi => exact ⟨fun _ => rfl, reshapeStrict_elem f, transpose_elem f, broadcastAxes_elem f, stack_elem f⟩

theorem SameBackend.reduceMap {E : ElemOps α} {E' : ElemOps β} {b : Backend α} {b' : Backend β} (h : SameBackend E E' b b')
    (f : α → β) {o : Str} (ho : ∀ vs, E'.op o (vs.map f) = (E.op o vs).map f) (x : Tensor α) (axes : List Nat) :
    b'.reduce o (x.map f) axes = (b.reduce o x axes).map (Tensor.map f) := by
  cases h with
  | numpy fl => exact reduceAxes_elem f ho x axes
  | torch fl =>
    simp only [torchBackend]
    split
    · exact reduceAxes_elem f ho x axes
    · split
      · exact reduceIter_elem f ho x _
      · rfl
  | oneflow fl =>
    simp only [oneflowBackend]
    split
    · exact reduceIter_elem f ho x _
    · rfl
  | paddle fl =>
    simp only [paddleBackend]
    rw [show (x.map f).ndim = x.ndim from rfl, paddleReduce_elem f ho]
    split
    · cases paddleReduce (E.op o) x axes with
      | error e => rfl
      | ok y => exact squeeze0_elem f y
    · rfl
  | tinygrad fl => exact reduceIter_elem f ho x _
  | arrayApi => exact reduceAxes_elem f ho x axes

theorem reduceAxesE_elem {f : α → β} {E : ElemOps α} {E' : ElemOps β} {b : Backend α} {b' : Backend β}
    (h : SameBackend E E' b b') {red : Reduction α} {red' : Reduction β} (hr : Commutes f E E' red red') (x : Tensor α)
    (axes : List Nat) : reduceAxesE b' (x.map f) red' axes = (reduceAxesE b x red axes).map (Tensor.map f) := by
  cases hr with
  | move o ho =>
    simp only [reduceAxesE]
    rw [if_pos (show o ∉ reductionNames from ho), if_pos (show o ∉ reductionNames from ho)]
    rfl
  | name o ho =>
    simp only [reduceAxesE]
    rw [(h.backendMap f).isFloat]
    split
    · rfl
    · split
      · rfl
      · exact h.reduceMap f ho x axes
  | callable g g' hg => exact hg x axes

theorem applyCooked_elem {f : α → β} {E : ElemOps α} {E' : ElemOps β} {b : Backend α} {b' : Backend β}
    (h : SameBackend E E' b b') {red : Reduction α} {red' : Reduction β} (hr : Commutes f E E' red red') (c : CookedRecipe)
    (x : Tensor α) : applyCooked b' c (x.map f) red' = (applyCooked b c x red).map (Tensor.map f) := by
  have hb := h.backendMap f
  have h1 : ∀ s x, optReshape b'.reshape s (x.map f) = (optReshape b.reshape s x).map (Tensor.map f) := by
    intro s x
    cases s with
    | none => rfl
    | some s => exact hb.reshape x _
  unfold applyCooked applyStages
  refine bind_map (h1 _ x) (fun x => bind_map (f := Tensor.map f) ?_ (fun x => bind_map (f := Tensor.map f) ?_
    (fun x => bind_map (f := Tensor.map f) ?_ (fun x => h1 _ x))))
  · cases c.axesReordering with
    | none => rfl
    | some p => exact hb.transpose x p
  · unfold optReduce
    split
    · exact reduceAxesE_elem h hr x _
    · rfl
  · unfold optAddAxes
    split
    · exact hb.addAxes x _ _
    · rfl

theorem Commutes.kind_eq {f : α → β} {E : ElemOps α} {E' : ElemOps β} {red : Reduction α} {red' : Reduction β}
    (hr : Commutes f E E' red red') : red'.kind = red.kind := by
  cases hr <;> rfl

theorem reduce_elem [PyUnicode] {f : α → β} {E : ElemOps α} {E' : ElemOps β} {b : Backend α} {b' : Backend β}
    (h : SameBackend E E' b b') {red : Reduction α} {red' : Reduction β} (hr : Commutes f E E' red red') (so : SetOrder)
    (t : Input α) (pattern : Str) (kw : List (Str × Size)) :
    reduce b' so (t.map f) pattern red' kw = (reduce b so t pattern red kw).map (Tensor.map f) := by
  have hin : resolveInput b' (t.map f) = (resolveInput b t).map (Tensor.map f) := by
    cases t with
    | one x => rfl
    | many xs =>
      cases xs with
      | nil => rfl
      | cons x xs => exact (h.backendMap f).stack (x :: xs)
  unfold reduce
  rw [hin]
  cases resolveInput b t with
  | error e => rfl
  | ok x =>
    simp only [Except.map]
    rw [hr.kind_eq, show (x.map f).ndim = x.ndim from rfl]
    cases prepareRecipe so pattern red.kind (kw.map Prod.fst) x.ndim with
    | error e => rfl
    | ok r =>
      simp only [applyRecipe]
      rw [show (x.map f).shape = x.shape from rfl]
      cases reconstruct r (x.shape.map Size.ofNat) kw with
      | error e => rfl
      | ok c => exact applyCooked_elem h hr c x

end Einops
