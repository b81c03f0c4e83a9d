import Verif.Apply

/-! Sizes that are symbols instead of Python ints. -/

namespace Einops

universe u

/-- Same value, and possibly a symbol (whose comparisons are postponed) where the other one is an int. -/
def Size.Hides (a b : Size) : Prop := a.val = b.val ∧ (b.isInt = true → a.isInt = true)

/-- same values in all places -/
structure CookedRecipe.SameValues (c c' : CookedRecipe) : Prop where
  init : c.initShapes.map (List.map Size.val) = c'.initShapes.map (List.map Size.val)
  perm : c.axesReordering = c'.axesReordering
  reduced : c.reducedAxes = c'.reducedAxes
  added : c.addedAxes.map (fun p => (p.1, p.2.val)) = c'.addedAxes.map (fun p => (p.1, p.2.val))
  final : c.finalShapes.map (List.map Size.val) = c'.finalShapes.map (List.map Size.val)
  naxes : c.nAxesWithAdded = c'.nAxesWithAdded

theorem Size.Hides.refl (a : Size) : a.Hides a := ⟨rfl, id⟩

theorem sizeProd_hides {l l' : List Size} (h : List.Forall₂ Size.Hides l l') : (sizeProd l).Hides (sizeProd l') := by
  unfold sizeProd
  have : ∀ a a' : Size, a.Hides a' → (l.foldl Size.mul a).Hides (l'.foldl Size.mul a') := by
    induction h with
    | nil => exact fun a a' h => h
    | cons hd _ ih =>
      intro a a' ha
      apply ih
      refine ⟨by simp only [Size.mul, ha.1, hd.1], fun h => ?_⟩
      simp only [Size.mul, Bool.and_eq_true] at h ⊢
      exact ⟨ha.2 h.1, hd.2 h.2⟩
  exact this _ _ (Size.Hides.refl _)

theorem fdiv_hides {a a' b b' : Size} (h : a.Hides a') (h2 : b.Hides b') : (a.fdiv b).Hides (a'.fdiv b') := by
  refine ⟨by simp only [Size.fdiv, h.1, h2.1], fun e => ?_⟩
  simp only [Size.fdiv, Bool.and_eq_true] at e ⊢
  exact ⟨h.2 e.1, h2.2 e.2⟩

theorem getE_hides {l l' : List Size} (h : List.Forall₂ Size.Hides l l') {k : Nat} {v : Size} (hv : getE l k = .ok v) :
    ∃ v', getE l' k = .ok v' ∧ v.Hides v' := by
  induction h generalizing k with
  | nil => simp [getE] at hv
  | cons hd tl ih =>
    cases k with
    | zero => simp only [getE, List.getElem?_cons_zero, Except.ok.injEq] at hv; subst hv; exact ⟨_, rfl, hd⟩
    | succ k =>
      simp only [getE, List.getElem?_cons_succ] at hv ⊢
      exact ih hv

theorem set_hides {l l' : List Size} (h : List.Forall₂ Size.Hides l l') {v v' : Size} (hv : v.Hides v') (k : Nat) :
    List.Forall₂ Size.Hides (l.set k v) (l'.set k v') := by
  induction h generalizing k with
  | nil => simp
  | cons hd tl ih =>
    cases k with
    | zero => exact .cons hv tl
    | succ k => exact .cons hd (ih k)

theorem setE_hides {l l' m : List Size} (h : List.Forall₂ Size.Hides l l') {v v' : Size} (hv : v.Hides v') {k : Nat}
    (hm : setE l k v = .ok m) : ∃ m', setE l' k v' = .ok m' ∧ List.Forall₂ Size.Hides m m' := by
  unfold setE at hm ⊢
  rw [← h.length_eq]
  split at hm
  · rename_i hk; cases hm; rw [if_pos hk]; exact ⟨_, rfl, set_hides h hv k⟩
  · cases hm

theorem mapE_hides {β γ γ' : Type} {R : γ → γ' → Prop} {f : β → Py γ} {f' : β → Py γ'}
    (hf : ∀ a v, f a = .ok v → ∃ v', f' a = .ok v' ∧ R v v') {l : List β} {m : List γ} (h : mapE f l = .ok m) :
    ∃ m', mapE f' l = .ok m' ∧ List.Forall₂ R m m' := by
  induction l generalizing m with
  | nil => cases h; exact ⟨[], rfl, .nil⟩
  | cons a l ih =>
    simp only [mapE] at h
    cases ha : f a with
    | error e => rw [ha] at h; cases h
    | ok v =>
      rw [ha] at h
      cases hl : mapE f l with
      | error e => rw [hl] at h; cases h
      | ok vs =>
        rw [hl] at h
        cases h
        obtain ⟨v', h1, h2⟩ := hf a v ha
        obtain ⟨vs', h3, h4⟩ := ih hl
        exact ⟨v' :: vs', by simp only [mapE, h1, h3], .cons h2 h4⟩

theorem setDims_hides {m : List (Str × Nat)} {ds ds' : List (Str × Size)}
    (hd : List.Forall₂ (fun p q => p.1 = q.1 ∧ Size.Hides p.2 q.2) ds ds') {l l' ls : List Size}
    (h : List.Forall₂ Size.Hides l l') (hs : setDims m l ds = .ok ls) :
    ∃ ls', setDims m l' ds' = .ok ls' ∧ List.Forall₂ Size.Hides ls ls' := by
  induction hd generalizing l l' with
  | nil => cases hs; exact ⟨l', rfl, h⟩
  | @cons p q ps qs hpq _ ih =>
    obtain ⟨n, s⟩ := p
    obtain ⟨n', s'⟩ := q
    obtain ⟨rfl, hpq⟩ : n = n' ∧ s.Hides s' := hpq
    simp only [setDims] at hs ⊢
    cases hk : dictGetE m n with
    | error e => rw [hk] at hs; cases hs
    | ok k =>
      rw [hk] at hs
      simp only at hs ⊢
      cases hset : setE l k s with
      | error e => rw [hset] at hs; cases hs
      | ok l2 =>
        rw [hset] at hs
        obtain ⟨l2', h1, h2⟩ := setE_hides h hpq hset
        rw [h1]
        exact ih h2 hs

theorem inferAxis_hides {l l' : List Size} (h : List.Forall₂ Size.Hides l l') {need : Bool} {n n' : Size} (hn : n.Hides n')
    {ku : List Nat × List Nat} {st : List Size × Bool} (hs : inferAxis (l, need) n ku = .ok st) :
    ∃ l2, inferAxis (l', need) n' ku = .ok (l2, st.2) ∧ List.Forall₂ Size.Hides st.1 l2 := by
  obtain ⟨known, unknown⟩ := ku
  have general : ∀ st, (match mapE (getE l) known with
      | .error e => .error e
      | .ok vs =>
        let knownProduct := sizeProd vs
        match unknown with
        | [] =>
          if n.isInt && knownProduct.isInt && decide (n.val ≠ knownProduct.val) then .error .einops
          else .ok (l, need || decide (known.length + unknown.length ≠ 1))
        | u :: _ =>
          if n.isInt && knownProduct.isInt && decide (knownProduct.val = 0) then .error .zeroDivision
          else if n.isInt && knownProduct.isInt && decide (Int.fmod n.val knownProduct.val ≠ 0) then
            .error .einops
          else
            match setE l u (n.fdiv knownProduct) with
            | .error e => .error e
            | .ok ls => .ok (ls, need || decide (known.length + unknown.length ≠ 1)) : Py (List Size × Bool)) = .ok st →
      ∃ l2, (match mapE (getE l') known with
      | .error e => .error e
      | .ok vs =>
        let knownProduct := sizeProd vs
        match unknown with
        | [] =>
          if n'.isInt && knownProduct.isInt && decide (n'.val ≠ knownProduct.val) then .error .einops
          else .ok (l', need || decide (known.length + unknown.length ≠ 1))
        | u :: _ =>
          if n'.isInt && knownProduct.isInt && decide (knownProduct.val = 0) then .error .zeroDivision
          else if n'.isInt && knownProduct.isInt && decide (Int.fmod n'.val knownProduct.val ≠ 0) then
            .error .einops
          else
            match setE l' u (n'.fdiv knownProduct) with
            | .error e => .error e
            | .ok ls => .ok (ls, need || decide (known.length + unknown.length ≠ 1)) : Py (List Size × Bool)) = .ok (l2, st.2) ∧
        List.Forall₂ Size.Hides st.1 l2 := by
    intro st hs
    cases hm : mapE (getE l) known with
    | error e => rw [hm] at hs; cases hs
    | ok vs =>
      rw [hm] at hs
      obtain ⟨vs', hm', hvs⟩ := mapE_hides (fun a v hv => getE_hides h hv) hm
      have hp := sizeProd_hides hvs
      rw [hm']
      have hint : n'.isInt = true ∧ (sizeProd vs').isInt = true → n.isInt = true ∧ (sizeProd vs).isInt = true := by
        exact fun e => ⟨hn.2 e.1, hp.2 e.2⟩
      cases unknown with
      | nil =>
        simp only [Bool.and_eq_true, decide_eq_true_eq, hn.1, hp.1] at hs hint ⊢
        split at hs
        · cases hs
        · rename_i hc
          cases hs
          rw [if_neg (fun e => hc ⟨hint e.1, e.2⟩)]
          exact ⟨_, rfl, h⟩
      | cons u us =>
        simp only [Bool.and_eq_true, decide_eq_true_eq, hn.1, hp.1] at hs hint ⊢
        split at hs
        · cases hs
        · rename_i hc
          split at hs
          · cases hs
          · rename_i hc2
            rw [if_neg (fun e => hc ⟨hint e.1, e.2⟩), if_neg (fun e => hc2 ⟨hint e.1, e.2⟩)]
            cases hset : setE l u (n.fdiv (sizeProd vs)) with
            | error e => rw [hset] at hs; cases hs
            | ok l2 =>
              rw [hset] at hs
              cases hs
              obtain ⟨l2', h1, h2⟩ := setE_hides h (fdiv_hides hn hp) hset
              rw [h1]
              exact ⟨_, rfl, h2⟩
  cases known with
  | cons k ks => exact general st hs
  | nil =>
    cases unknown with
    | nil => exact general st hs
    | cons u us =>
      cases us with
      | cons u' us => exact general st hs
      | nil =>
        simp only [inferAxis] at hs ⊢
        cases hset : setE l u n with
        | error e => rw [hset] at hs; cases hs
        | ok l2 =>
          rw [hset] at hs
          cases hs
          obtain ⟨l2', h1, h2⟩ := setE_hides h hn hset
          rw [h1]
          exact ⟨_, rfl, h2⟩

theorem inferAll_hides {shape shape' : List Size} (hsh : List.Forall₂ Size.Hides shape shape')
    {rest : List ((List Nat × List Nat) × Nat)} {l l' : List Size} (h : List.Forall₂ Size.Hides l l') {need : Bool}
    {st : List Size × Bool} (hs : inferAll shape (l, need) rest = .ok st) :
    ∃ l2, inferAll shape' (l', need) rest = .ok (l2, st.2) ∧ List.Forall₂ Size.Hides st.1 l2 := by
  induction rest generalizing l l' need with
  | nil => cases hs; exact ⟨l', rfl, h⟩
  | cons a rest ih =>
    obtain ⟨ku, i⟩ := a
    simp only [inferAll] at hs ⊢
    cases hg : getE shape i with
    | error e => rw [hg] at hs; cases hs
    | ok n =>
      rw [hg] at hs
      obtain ⟨n', h1, h2⟩ := getE_hides hsh hg
      rw [h1]
      simp only at hs ⊢
      cases hi : inferAxis (l, need) n ku with
      | error e => rw [hi] at hs; cases hs
      | ok st1 =>
        rw [hi] at hs
        obtain ⟨l2, h3, h4⟩ := inferAxis_hides h h2 hi
        rw [h3]
        exact ih h4 hs

theorem map_val_eq {l l' : List Size} (h : List.Forall₂ Size.Hides l l') : l.map Size.val = l'.map Size.val := by
  induction h with
  | nil => rfl
  | cons hd _ ih => simp [hd.1, ih]

theorem take_hides {l l' : List Size} (h : List.Forall₂ Size.Hides l l') (n : Nat) :
    List.Forall₂ Size.Hides (l.take n) (l'.take n) := by
  induction h generalizing n with
  | nil => simp
  | cons hd tl ih => cases n with
    | zero => exact .nil
    | succ n => exact .cons hd (ih n)

theorem reconstruct_hides {r : TransformRecipe} {shape shape' : List Size} {kw kw' : List (Str × Size)} {c : CookedRecipe}
    (hs : List.Forall₂ Size.Hides shape shape') (hk : List.Forall₂ (fun p q => p.1 = q.1 ∧ Size.Hides p.2 q.2) kw kw')
    (h : reconstruct r shape kw = .ok c) : ∃ c', reconstruct r shape' kw' = .ok c' ∧ c.SameValues c' := by
  unfold reconstruct at h ⊢
  cases h0 : setDims r.axisName2elementary (r.elementaryAxesLengths.map Size.ofInt) kw with
  | error e => rw [h0] at h; cases h
  | ok ls0 =>
    rw [h0] at h
    obtain ⟨ls0', e0, r0⟩ := setDims_hides hk
      (l' := r.elementaryAxesLengths.map Size.ofInt) (List.forall₂_same.2 fun a _ => Size.Hides.refl a) h0
    rw [e0]
    simp only at h ⊢
    cases h1 : inferAll shape (ls0, false) r.inputComposition.zipIdx with
    | error e => rw [h1] at h; cases h
    | ok st =>
      obtain ⟨ls, need⟩ := st
      rw [h1] at h
      obtain ⟨ls', e1, r1⟩ := inferAll_hides hs r0 h1
      simp only at e1 r1
      rw [e1]
      simp only at h ⊢
      cases h2 : mapE (fun g => mapE (getE ls) g) r.outputCompositeAxes with
      | error e => rw [h2] at h; cases h
      | ok groups =>
        rw [h2] at h
        obtain ⟨groups', e2, r2⟩ := mapE_hides (R := List.Forall₂ Size.Hides) (f' := fun g => mapE (getE ls') g)
          (fun a v hv => mapE_hides (fun a v hv => getE_hides r1 hv) hv) h2
        rw [e2]
        simp only at h ⊢
        cases h3 : mapE (addedSize ls) r.addedAxes with
        | error e => rw [h3] at h; cases h
        | ok added =>
          rw [h3] at h
          obtain ⟨added', e3, r3⟩ := mapE_hides (R := fun p q : Nat × Size => p.1 = q.1 ∧ p.2.Hides q.2)
            (f' := addedSize ls') (fun a v hv => by
              unfold addedSize at hv ⊢
              cases hg : getE ls a.2 with
              | error e => rw [hg] at hv; cases hv
              | ok s =>
                rw [hg] at hv
                cases hv
                obtain ⟨s', h4, h5⟩ := getE_hides r1 hg
                rw [h4]
                exact ⟨_, rfl, rfl, h5⟩) h3
          rw [e3]
          simp only [Except.ok.injEq] at h
          subst h
          refine ⟨_, rfl, ?_, rfl, rfl, ?_, ?_, ?_⟩
          · simp only
            split
            · simp only [Option.map_some, map_val_eq (take_hides r1 _)]
            · rfl
          · simp only
            clear e3 h3
            induction r3 with
            | nil => rfl
            | cons hd _ ih => simp only [List.map_cons, hd.1, hd.2.1, ih]
          · have hany : groups.any (fun g => g.length ≠ 1) = groups'.any (fun g => g.length ≠ 1) := by
              clear e2 h2
              induction r2 with
              | nil => rfl
              | cons hd _ ih => simp only [List.any_cons, hd.length_eq, ih]
            simp only [hany]
            split
            · rename_i hx
              clear hx
              simp only [Option.map_some, Option.some.injEq]
              clear e2 h2 hany
              induction r2 with
              | nil => rfl
              | cons hd _ ih =>
                simp only [List.map_cons, (sizeProd_hides hd).1]
                rw [ih]
            · rfl
          · simp only [r3.length_eq]

theorem applyStages_values {α : Type u} {reshape : Tensor α → List Int → Py (Tensor α)}
    {transpose : Tensor α → List Nat → Py (Tensor α)} {red : Tensor α → List Nat → Py (Tensor α)}
    {add : Tensor α → Nat → List (Nat × Int) → Py (Tensor α)} {c c' : CookedRecipe} (h : c.SameValues c') (x : Tensor α) :
    applyStages reshape transpose red add c x = applyStages reshape transpose red add c' x := by
  have hr : ∀ {s s' : Option (List Size)}, s.map (List.map Size.val) = s'.map (List.map Size.val) →
      optReshape reshape s = optReshape reshape s' := by
    intro s s' h
    funext x
    cases s <;> cases s' <;> simp only [Option.map_some, Option.map_none, Option.some.injEq, reduceCtorEq] at h
    · rfl
    · simp only [optReshape, h]
  have hl : c.addedAxes.length = c'.addedAxes.length := by simpa using congrArg List.length h.added
  unfold applyStages
  rw [hr h.init, hr h.final, h.perm, h.reduced]
  simp only [optAddAxes, hl, h.added, h.naxes]

end Einops
