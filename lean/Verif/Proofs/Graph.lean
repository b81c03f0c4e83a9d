import Verif.Graph
import Verif.Proofs.Symbolic

/-! Sizes that are symbols or unknown represent the sizes of a tensor. -/

namespace Einops

universe u

/-- `g` stands for the size `s` when the symbols have the values `σ`; an `UnknownSize` only if `u` -/
def GSize.Rep (u : Prop) (σ : Nat → Int) (s : Size) : GSize → Prop
  | .int n => s = ⟨n, true⟩
  | .sym e => s.val = e.eval σ
  | .unknown => u

/-- the result stands for `v`, or dividing by an `UnknownSize` raised TypeError -/
def StandsFor {β γ : Type} (u : Prop) (R : β → γ → Prop) (v : β) (o : Py γ) : Prop :=
  (u ∧ o = .error .type) ∨ ∃ w, o = .ok w ∧ R v w

section
variable {w : Prop} {σ : Nat → Int}

theorem mul_rep {s s' : Size} {g g' : GSize} (h : g.Rep w σ s) (h' : g'.Rep w σ s') : (g.mul g').Rep w σ (s.mul s') := by
  cases g <;> cases g' <;> simp only [GSize.Rep, GSize.mul, SymExpr.eval] at h h' ⊢ <;>
    first | exact h | exact h' | simp_all [Size.mul]

theorem prod_rep {l : List Size} {l' : List GSize} (h : List.Forall₂ (GSize.Rep w σ) l l') :
    (gsizeProd l').Rep w σ (sizeProd l) := by
  have : ∀ (s : Size) (g : GSize), g.Rep w σ s → (l'.foldl GSize.mul g).Rep w σ (l.foldl Size.mul s) := by
    induction h with
    | nil => exact fun s g h => h
    | cons hd _ ih => exact fun s g h => ih _ _ (mul_rep h hd)
  exact this _ _ rfl

theorem fdiv_rep {s s' : Size} {g g' : GSize} (h : g.Rep w σ s) (h' : g'.Rep w σ s') :
    StandsFor w (fun s g => g.Rep w σ s) (s.fdiv s') (g.fdiv g') := by
  have key : ∀ k : GSize, k.Rep w σ (s.fdiv s') → StandsFor w (fun s g => g.Rep w σ s) (s.fdiv s') (.ok k) :=
    fun k hk => .inr ⟨k, rfl, hk⟩
  cases g <;> cases g'
  case int.unknown => exact .inl ⟨h', rfl⟩
  case sym.unknown => exact .inl ⟨h', rfl⟩
  case unknown.int => exact key _ h
  case unknown.sym => exact key _ h
  case unknown.unknown => exact key _ h
  all_goals
    refine key _ ?_
    simp only [GSize.Rep] at h h' ⊢
    simp_all [Size.fdiv, SymExpr.eval]

theorem getE_rep {β γ : Type} {R : β → γ → Prop} {l : List β} {l' : List γ} (h : List.Forall₂ R l l') {k : Nat} {v : β}
    (hv : getE l k = .ok v) : ∃ v', getE l' k = .ok v' ∧ R v v' := by
  induction h generalizing k with
  | nil => simp [getE] at hv
  | cons hd tl ih =>
    cases k with
    | zero => simp only [getE, List.getElem?_cons_zero, Except.ok.injEq] at hv; subst hv; exact ⟨_, rfl, hd⟩
    | succ k =>
      simp only [getE, List.getElem?_cons_succ] at hv ⊢
      exact ih hv

theorem set_rep {β γ : Type} {R : β → γ → Prop} {l : List β} {l' : List γ} (h : List.Forall₂ R l l') {v : β} {v' : γ}
    (hv : R v v') (k : Nat) : List.Forall₂ R (l.set k v) (l'.set k v') := by
  induction h generalizing k with
  | nil => simp
  | cons hd tl ih =>
    cases k with
    | zero => exact .cons hv tl
    | succ k => exact .cons hd (ih k)

theorem setE_rep {β γ : Type} {R : β → γ → Prop} {l m : List β} {l' : List γ} (h : List.Forall₂ R l l') {v : β} {v' : γ}
    (hv : R v v') {k : Nat} (hm : setE l k v = .ok m) : ∃ m', setE l' k v' = .ok m' ∧ List.Forall₂ R m m' := by
  unfold setE at hm ⊢
  rw [← h.length_eq]
  split at hm
  · rename_i hk; cases hm; rw [if_pos hk]; exact ⟨_, rfl, set_rep h hv k⟩
  · cases hm

theorem setDims_rep {m : List (Str × Nat)} {ds : List (Str × Size)} {ds' : List (Str × GSize)}
    (hd : List.Forall₂ (fun p q => p.1 = q.1 ∧ GSize.Rep w σ p.2 q.2) ds ds') {l ls : List Size} {l' : List GSize}
    (h : List.Forall₂ (GSize.Rep w σ) l l') (hs : setDims m l ds = .ok ls) :
    ∃ ls', setDimsG m l' ds' = .ok ls' ∧ List.Forall₂ (GSize.Rep w σ) ls ls' := by
  induction hd generalizing l l' with
  | nil => cases hs; exact ⟨l', rfl, h⟩
  | @cons p q ps qs hpq _ ih =>
    obtain ⟨n, s⟩ := p
    obtain ⟨n', s'⟩ := q
    obtain ⟨rfl, hpq⟩ : n = n' ∧ s'.Rep w σ s := hpq
    simp only [setDims, setDimsG] at hs ⊢
    cases hk : dictGetE m n with
    | error e => rw [hk] at hs; cases hs
    | ok k =>
      rw [hk] at hs
      simp only at hs ⊢
      cases hset : setE l k s with
      | error e => rw [hset] at hs; cases hs
      | ok l2 =>
        rw [hset] at hs
        obtain ⟨l2', h1, h2⟩ := setE_rep h hpq hset
        rw [h1]
        exact ih h2 hs

/-- the tests of sizes that pass for numbers pass for what stands for them -/
theorem mismatch_rep {s p : Size} {g q : GSize} (h : g.Rep w σ s) (h' : q.Rep w σ p)
    (hc : ¬ (s.isInt && p.isInt && decide (s.val ≠ p.val)) = true) : mismatchG g q = false := by
  cases g <;> cases q <;> simp_all [mismatchG, GSize.asInt, GSize.Rep]

theorem divide_rep {s p : Size} {g q : GSize} (h : g.Rep w σ s) (h' : q.Rep w σ p)
    (hc : ¬ (s.isInt && p.isInt && decide (p.val = 0)) = true)
    (hc2 : ¬ (s.isInt && p.isInt && decide (Int.fmod s.val p.val ≠ 0)) = true) :
    StandsFor w (fun s g => g.Rep w σ s) (s.fdiv p) (divideG g q) := by
  have hd := fdiv_rep h h'
  have : divideG g q = g.fdiv q := by
    cases g <;> cases q <;> simp only [divideG, GSize.asInt]
    rename_i a b
    obtain rfl : s = ⟨a, true⟩ := h
    obtain rfl : p = ⟨b, true⟩ := h'
    simp only [Bool.and_true, Bool.true_and, decide_eq_true_eq, not_not] at hc hc2
    rw [if_neg hc, if_neg (not_not.2 hc2)]
  rw [this]
  exact hd

theorem inferAxis_rep {l : List Size} {l' : List GSize} (h : List.Forall₂ (GSize.Rep w σ) l l') {need : Bool} {n : Size}
    {n' : GSize} (hn : n'.Rep w σ n) {ku : List Nat × List Nat} {st : List Size × Bool}
    (hs : inferAxis (l, need) n ku = .ok st) :
    StandsFor w (fun (st : List Size × Bool) st' => st.2 = st'.2 ∧ List.Forall₂ (GSize.Rep w σ) st.1 st'.1) st
      (inferAxisG (l', need) n' ku) := by
  obtain ⟨known, unknown⟩ := ku
  revert hs
  have general : ∀ st, (match mapE (getE l) known with
      | .error e => .error e
      | .ok vs =>
        let knownProduct := sizeProd vs
        match unknown with
        | [] =>
          if n.isInt && knownProduct.isInt && decide (n.val ≠ knownProduct.val) then .error .einops
          else .ok (l, need || decide (known.length + unknown.length ≠ 1))
        | u :: _ =>
          if n.isInt && knownProduct.isInt && decide (knownProduct.val = 0) then .error .zeroDivision
          else if n.isInt && knownProduct.isInt && decide (Int.fmod n.val knownProduct.val ≠ 0) then
            .error .einops
          else
            match setE l u (n.fdiv knownProduct) with
            | .error e => .error e
            | .ok ls => .ok (ls, need || decide (known.length + unknown.length ≠ 1)) : Py (List Size × Bool)) = .ok st →
      StandsFor w (fun (st : List Size × Bool) st' => st.2 = st'.2 ∧ List.Forall₂ (GSize.Rep w σ) st.1 st'.1) st
      (match mapE (getE l') known with
        | .error e => .error e
        | .ok vs =>
          match unknown with
          | [] =>
            if mismatchG n' (gsizeProd vs) then .error .einops
            else .ok (l', need || decide (known.length + unknown.length ≠ 1))
          | u :: _ =>
            match divideG n' (gsizeProd vs) with
            | .error e => .error e
            | .ok v =>
              match setE l' u v with
              | .error e => .error e
              | .ok ls => .ok (ls, need || decide (known.length + unknown.length ≠ 1)) : Py (List GSize × Bool)) := by
    clear st
    intro st hs
    cases hm : mapE (getE l) known with
    | error e => rw [hm] at hs; cases hs
    | ok vs =>
      rw [hm] at hs
      obtain ⟨vs', hm', hvs⟩ := mapE_hides (fun a v hv => getE_rep h hv) hm
      have hp := prod_rep hvs
      rw [hm']
      cases unknown with
      | nil =>
        simp only at hs ⊢
        split at hs
        · cases hs
        · rename_i hc
          cases hs
          rw [mismatch_rep hn hp hc, if_neg Bool.false_ne_true]
          exact .inr ⟨_, rfl, rfl, h⟩
      | cons u us =>
        simp only at hs ⊢
        split at hs
        · cases hs
        · rename_i hc
          split at hs
          · cases hs
          · rename_i hc2
            cases hset : setE l u (n.fdiv (sizeProd vs)) with
            | error e => rw [hset] at hs; cases hs
            | ok l2 =>
              rw [hset] at hs
              cases hs
              rcases divide_rep hn hp hc hc2 with ⟨h1, h2⟩ | ⟨v, h1, h2⟩
              · rw [h2]; exact .inl ⟨h1, rfl⟩
              · rw [h1]
                obtain ⟨l2', h3, h4⟩ := setE_rep h h2 hset
                simp only [h3]
                exact .inr ⟨_, rfl, rfl, h4⟩
  intro hs
  cases known with
  | cons k ks => exact general st hs
  | nil =>
    cases unknown with
    | nil => exact general st hs
    | cons u us =>
      cases us with
      | cons u' us => exact general st hs
      | nil =>
        simp only [inferAxis, inferAxisG] at hs ⊢
        cases hset : setE l u n with
        | error e => rw [hset] at hs; cases hs
        | ok l2 =>
          rw [hset] at hs
          cases hs
          obtain ⟨l2', h1, h2⟩ := setE_rep h hn hset
          rw [h1]
          exact .inr ⟨_, rfl, rfl, h2⟩

theorem inferAll_rep {shape : List Size} {shape' : List GSize} (hsh : List.Forall₂ (GSize.Rep w σ) shape shape')
    {rest : List ((List Nat × List Nat) × Nat)} {l : List Size} {l' : List GSize}
    (h : List.Forall₂ (GSize.Rep w σ) l l') {need : Bool} {st : List Size × Bool}
    (hs : inferAll shape (l, need) rest = .ok st) :
    StandsFor w (fun (st : List Size × Bool) st' => st.2 = st'.2 ∧ List.Forall₂ (GSize.Rep w σ) st.1 st'.1) st
      (inferAllG shape' (l', need) rest) := by
  induction rest generalizing l l' need with
  | nil => cases hs; exact .inr ⟨_, rfl, rfl, h⟩
  | cons a rest ih =>
    obtain ⟨ku, i⟩ := a
    simp only [inferAll, inferAllG] at hs ⊢
    cases hg : getE shape i with
    | error e => rw [hg] at hs; cases hs
    | ok n =>
      rw [hg] at hs
      obtain ⟨n', h1, h2⟩ := getE_rep hsh hg
      rw [h1]
      simp only at hs ⊢
      cases hi : inferAxis (l, need) n ku with
      | error e => rw [hi] at hs; cases hs
      | ok st1 =>
        rw [hi] at hs
        rcases inferAxis_rep h h2 hi with ⟨h3, h4⟩ | ⟨⟨l2, need2⟩, h3, h4, h5⟩
        · rw [h4]; exact .inl ⟨h3, rfl⟩
        · rw [h3]
          obtain ⟨l1, need1⟩ := st1
          obtain rfl : need1 = need2 := h4
          exact ih h5 hs

/-- the cooked recipe with symbols stands for the one with numbers -/
structure CookedG.Rep (u : Prop) (σ : Nat → Int) (c : CookedRecipe) (g : CookedG) : Prop where
  init : Option.Rel (List.Forall₂ (GSize.Rep u σ)) c.initShapes g.initShapes
  perm : c.axesReordering = g.axesReordering
  reduced : c.reducedAxes = g.reducedAxes
  added : List.Forall₂ (fun p q => p.1 = q.1 ∧ GSize.Rep u σ p.2 q.2) c.addedAxes g.addedAxes
  final : Option.Rel (List.Forall₂ (GSize.Rep u σ)) c.finalShapes g.finalShapes
  naxes : c.nAxesWithAdded = g.nAxesWithAdded

theorem take_rep {β γ : Type} {R : β → γ → Prop} {l : List β} {l' : List γ} (h : List.Forall₂ R l l') (n : Nat) :
    List.Forall₂ R (l.take n) (l'.take n) := by
  induction h generalizing n with
  | nil => simp
  | cons hd tl ih => cases n with
    | zero => exact .nil
    | succ n => exact .cons hd (ih n)

theorem reconstruct_rep {r : TransformRecipe} {shape : List Size} {shape' : List GSize} {kw : List (Str × Size)}
    {kw' : List (Str × GSize)} {c : CookedRecipe} (hs : List.Forall₂ (GSize.Rep w σ) shape shape')
    (hk : List.Forall₂ (fun p q => p.1 = q.1 ∧ GSize.Rep w σ p.2 q.2) kw kw') (h : reconstruct r shape kw = .ok c) :
    StandsFor w (CookedG.Rep w σ) c (reconstructG r shape' kw') := by
  unfold reconstruct at h
  unfold reconstructG
  cases h0 : setDims r.axisName2elementary (r.elementaryAxesLengths.map Size.ofInt) kw with
  | error e => rw [h0] at h; cases h
  | ok ls0 =>
    rw [h0] at h
    obtain ⟨ls0', e0, r0⟩ := setDims_rep hk (l' := r.elementaryAxesLengths.map GSize.int)
      (by
        rw [List.forall₂_map_left_iff, List.forall₂_map_right_iff]
        exact List.forall₂_same.2 fun a _ => rfl) h0
    rw [e0]
    simp only at h ⊢
    cases h1 : inferAll shape (ls0, false) r.inputComposition.zipIdx with
    | error e => rw [h1] at h; cases h
    | ok st =>
      obtain ⟨ls, need⟩ := st
      rw [h1] at h
      rcases inferAll_rep hs r0 h1 with ⟨e1, r1⟩ | ⟨⟨ls', need'⟩, e1, rfl, r1⟩
      · rw [r1]; exact .inl ⟨e1, rfl⟩
      simp only at e1 r1
      rw [e1]
      simp only at h ⊢
      cases h2 : mapE (fun g => mapE (getE ls) g) r.outputCompositeAxes with
      | error e => rw [h2] at h; cases h
      | ok groups =>
        rw [h2] at h
        obtain ⟨groups', e2, r2⟩ := mapE_hides (R := List.Forall₂ (GSize.Rep w σ)) (f' := fun g => mapE (getE ls') g)
          (fun a v hv => mapE_hides (fun a v hv => getE_rep r1 hv) hv) h2
        rw [e2]
        simp only at h ⊢
        cases h3 : mapE (addedSize ls) r.addedAxes with
        | error e => rw [h3] at h; cases h
        | ok added =>
          rw [h3] at h
          obtain ⟨added', e3, r3⟩ := mapE_hides (R := fun (p : Nat × Size) (q : Nat × GSize) => p.1 = q.1 ∧ q.2.Rep w σ p.2)
            (f' := addedSizeG ls') (fun a v hv => by
              unfold addedSize at hv
              unfold addedSizeG
              cases hg : getE ls a.2 with
              | error e => rw [hg] at hv; cases hv
              | ok s =>
                rw [hg] at hv
                cases hv
                obtain ⟨s', h4, h5⟩ := getE_rep r1 hg
                rw [h4]
                exact ⟨_, rfl, rfl, h5⟩) h3
          rw [e3]
          simp only [Except.ok.injEq] at h
          subst h
          refine .inr ⟨_, rfl, ?_, rfl, rfl, r3, ?_, ?_⟩
          · simp only
            split
            · exact .some (take_rep r1 _)
            · exact .none
          · have hany : groups.any (fun g => g.length ≠ 1) = groups'.any (fun g => g.length ≠ 1) := by
              clear e2 h2
              induction r2 with
              | nil => rfl
              | cons hd _ ih => simp only [List.any_cons, hd.length_eq, ih]
            simp only [hany]
            split
            · refine .some ?_
              rw [List.forall₂_map_left_iff, List.forall₂_map_right_iff]
              exact r2.imp fun _ _ h => prod_rep h
            · exact .none
          · simp only [r3.length_eq]

/-- what a framework receives: the number, or it refuses an `UnknownSize` -/
theorem value_rep {s : Size} {g : GSize} (h : g.Rep w σ s) :
    (w ∧ g.value σ = .error .backend) ∨ g.value σ = .ok s.val := by
  cases g with
  | int n => obtain rfl : s = ⟨n, true⟩ := h; exact .inr rfl
  | sym e => exact .inr (by rw [GSize.value, show s.val = e.eval σ from h])
  | unknown => exact .inl ⟨h, rfl⟩

theorem values_rep {l : List Size} {l' : List GSize} (h : List.Forall₂ (GSize.Rep w σ) l l') :
    (w ∧ mapE (GSize.value σ) l' = .error .backend) ∨ mapE (GSize.value σ) l' = .ok (l.map Size.val) := by
  induction h with
  | nil => exact .inr rfl
  | cons hd _ ih =>
    rcases value_rep hd with ⟨h1, h2⟩ | h2
    · exact .inl ⟨h1, by rw [mapE, h2]⟩
    · rcases ih with ⟨h3, h4⟩ | h4
      · exact .inl ⟨h3, by simp only [mapE, h2, h4]⟩
      · exact .inr (by simp only [mapE, h2, h4, List.map_cons])

theorem addeds_rep {l : List (Nat × Size)} {l' : List (Nat × GSize)}
    (h : List.Forall₂ (fun p q => p.1 = q.1 ∧ GSize.Rep w σ p.2 q.2) l l') :
    (w ∧ mapE (addedValue σ) l' = .error .backend) ∨
      mapE (addedValue σ) l' = .ok (l.map fun p => (p.1, p.2.val)) := by
  induction h with
  | nil => exact .inr rfl
  | @cons p q ps qs hd _ ih =>
    rcases value_rep hd.2 with ⟨h1, h2⟩ | h2
    · exact .inl ⟨h1, by simp only [mapE, addedValue, h2]⟩
    · rcases ih with ⟨h3, h4⟩ | h4
      · exact .inl ⟨h3, by simp only [mapE, addedValue, h2, h4]⟩
      · exact .inr (by simp only [mapE, addedValue, h2, h4, List.map_cons, hd.1])

end

section
variable {α : Type u} {w : Prop} {σ : Nat → Int}

theorem optReshape_rep {reshape : Tensor α → List Int → Py (Tensor α)} {s : Option (List Size)} {g : Option (List GSize)}
    (h : Option.Rel (List.Forall₂ (GSize.Rep w σ)) s g) (x : Tensor α) :
    (w ∧ optReshapeG reshape σ g x = .error .backend) ∨ optReshapeG reshape σ g x = optReshape reshape s x := by
  cases h with
  | none => exact .inr rfl
  | some h =>
    rcases values_rep h with ⟨h1, h2⟩ | h2
    · exact .inl ⟨h1, by simp only [optReshapeG, h2]⟩
    · exact .inr (by simp only [optReshapeG, h2, optReshape])

theorem optAddAxes_rep {add : Tensor α → Nat → List (Nat × Int) → Py (Tensor α)} {n : Nat} {s : List (Nat × Size)}
    {g : List (Nat × GSize)} (h : List.Forall₂ (fun p q => p.1 = q.1 ∧ GSize.Rep w σ p.2 q.2) s g) (x : Tensor α) :
    (w ∧ optAddAxesG add n σ g x = .error .backend) ∨ optAddAxesG add n σ g x = optAddAxes add n s x := by
  unfold optAddAxesG optAddAxes
  rw [h.length_eq]
  split
  · rcases addeds_rep h with ⟨h1, h2⟩ | h2
    · exact .inl ⟨h1, by simp only [h2]⟩
    · exact .inr (by simp only [h2])
  · exact .inr rfl

/-- running the graph gives what the call gives, or the framework refuses an `UnknownSize` -/
theorem runGraph_rep {b : Backend α} {c : CookedRecipe} {g : CookedG} (h : g.Rep w σ c) (red : Reduction α) {x y : Tensor α}
    (hy : applyCooked b c x red = .ok y) : (w ∧ runGraph b g red σ x = .error .backend) ∨ runGraph b g red σ x = .ok y := by
  unfold applyCooked applyStages at hy
  unfold runGraph
  rw [← h.perm, ← h.reduced, ← h.naxes]
  rcases optReshape_rep (reshape := b.reshape) h.init x with ⟨h1, h2⟩ | h2
  · rw [h2]; exact .inl ⟨h1, rfl⟩
  rw [h2]
  cases e1 : optReshape b.reshape c.initShapes x with
  | error e => rw [e1] at hy; cases hy
  | ok x1 =>
    rw [e1] at hy
    simp only [Except.bind] at hy ⊢
    cases e2 : optTranspose b.transpose c.axesReordering x1 with
    | error e => rw [e2] at hy; cases hy
    | ok x2 =>
      rw [e2] at hy
      simp only at hy ⊢
      cases e3 : optReduce (fun x axes => reduceAxesE b x red axes) c.reducedAxes x2 with
      | error e => rw [e3] at hy; cases hy
      | ok x3 =>
        rw [e3] at hy
        simp only at hy ⊢
        rcases optAddAxes_rep (add := b.addAxes) (n := c.nAxesWithAdded) h.added x3 with ⟨h3, h4⟩ | h4
        · rw [h4]; exact .inl ⟨h3, rfl⟩
        rw [h4]
        cases e4 : optAddAxes b.addAxes c.nAxesWithAdded c.addedAxes x3 with
        | error e => rw [e4] at hy; cases hy
        | ok x4 =>
          rw [e4] at hy
          simp only at hy ⊢
          rcases optReshape_rep (reshape := b.reshape) h.final x4 with ⟨h5, h6⟩ | h6
          · exact .inl ⟨h5, h6⟩
          · exact .inr (h6.trans hy)

end

/-! ### The exact relation, without `UnknownSize` -/

/-- `g` is an int and `s` the same int, or `g` is a symbol with the value of `s` and `s` is not a Python int -/
def GSize.Exact (σ : Nat → Int) (s : Size) : GSize → Prop
  | .int n => s = ⟨n, true⟩
  | .sym e => s = ⟨e.eval σ, false⟩
  | .unknown => False

/-- both raise the same exception, or both return related values -/
inductive Both {β γ : Type} (R : β → γ → Prop) : Py β → Py γ → Prop
  | error (e : PyErr) : Both R (.error e) (.error e)
  | ok {v : β} {w : γ} : R v w → Both R (.ok v) (.ok w)

section
variable {σ : Nat → Int}

theorem mul_exact {s s' : Size} {g g' : GSize} (h : g.Exact σ s) (h' : g'.Exact σ s') :
    (g.mul g').Exact σ (s.mul s') := by
  cases g <;> cases g' <;> simp only [GSize.Exact, GSize.mul, SymExpr.eval] at h h' ⊢ <;> simp [h, h', Size.mul]

theorem prod_exact {l : List Size} {l' : List GSize} (h : List.Forall₂ (GSize.Exact σ) l l') :
    (gsizeProd l').Exact σ (sizeProd l) := by
  have : ∀ (s : Size) (g : GSize), g.Exact σ s → (l'.foldl GSize.mul g).Exact σ (l.foldl Size.mul s) := by
    induction h with
    | nil => exact fun s g h => h
    | cons hd _ ih => exact fun s g h => ih _ _ (mul_exact h hd)
  exact this _ _ rfl

theorem getE_both {β γ : Type} {R : β → γ → Prop} {l : List β} {l' : List γ} (h : List.Forall₂ R l l') (k : Nat) :
    Both R (getE l k) (getE l' k) := by
  induction h generalizing k with
  | nil => simp only [getE, List.getElem?_nil]; exact .error _
  | cons hd tl ih =>
    cases k with
    | zero => simp only [getE, List.getElem?_cons_zero]; exact .ok hd
    | succ k =>
      have := ih k
      simp only [getE, List.getElem?_cons_succ] at this ⊢
      exact this

theorem setE_both {β γ : Type} {R : β → γ → Prop} {l : List β} {l' : List γ} (h : List.Forall₂ R l l') {v : β} {v' : γ}
    (hv : R v v') (k : Nat) : Both (List.Forall₂ R) (setE l k v) (setE l' k v') := by
  unfold setE
  rw [← h.length_eq]
  split
  · exact .ok (set_rep h hv k)
  · exact .error _

theorem mapE_both {β γ γ' : Type} {R : γ → γ' → Prop} {f : β → Py γ} {f' : β → Py γ'} (hf : ∀ a, Both R (f a) (f' a))
    (l : List β) : Both (List.Forall₂ R) (mapE f l) (mapE f' l) := by
  induction l with
  | nil => exact .ok .nil
  | cons a l ih =>
    simp only [mapE]
    have ha := hf a
    revert ha ih
    generalize f a = o
    generalize f' a = o'
    generalize mapE f l = o1
    generalize mapE f' l = o1'
    rintro ih (e | h)
    · exact .error e
    · rcases ih with e | h'
      · exact .error e
      · exact .ok (.cons h h')

theorem setDims_both {m : List (Str × Nat)} {ds : List (Str × Size)} {ds' : List (Str × GSize)}
    (hd : List.Forall₂ (fun p q => p.1 = q.1 ∧ GSize.Exact σ p.2 q.2) ds ds') {l : List Size} {l' : List GSize}
    (h : List.Forall₂ (GSize.Exact σ) l l') :
    Both (List.Forall₂ (GSize.Exact σ)) (setDims m l ds) (setDimsG m l' ds') := by
  induction hd generalizing l l' with
  | nil => exact .ok h
  | @cons p q ps qs hpq _ ih =>
    obtain ⟨n, s⟩ := p
    obtain ⟨n', s'⟩ := q
    obtain ⟨rfl, hpq⟩ : n = n' ∧ s'.Exact σ s := hpq
    simp only [setDims, setDimsG]
    cases dictGetE m n with
    | error e => exact .error e
    | ok k =>
      simp only
      have := setE_both h hpq k
      revert this
      generalize setE l k s = o
      generalize setE l' k s' = o'
      rintro (e | h)
      · exact .error e
      · exact ih h

theorem mismatch_exact {s p : Size} {g q : GSize} (h : g.Exact σ s) (h' : q.Exact σ p) :
    (s.isInt && p.isInt && decide (s.val ≠ p.val)) = mismatchG g q := by
  cases g <;> cases q <;> simp only [GSize.Exact] at h h' <;> simp [mismatchG, GSize.asInt, h, h']

theorem divide_exact {s p : Size} {g q : GSize} (h : g.Exact σ s) (h' : q.Exact σ p) :
    Both (GSize.Exact σ) (if s.isInt && p.isInt && decide (p.val = 0) then .error .zeroDivision
      else if s.isInt && p.isInt && decide (Int.fmod s.val p.val ≠ 0) then .error .einops
      else .ok (s.fdiv p)) (divideG g q) := by
  cases g with
  | unknown => exact h.elim
  | int a =>
    obtain rfl : s = ⟨a, true⟩ := h
    cases q with
    | unknown => exact h'.elim
    | int b =>
      obtain rfl : p = ⟨b, true⟩ := h'
      simp only [Bool.and_true, Bool.true_and, decide_eq_true_eq, divideG, GSize.asInt]
      split
      · exact .error _
      · split
        · exact .error _
        · exact .ok rfl
    | sym b =>
      obtain rfl : p = ⟨b.eval σ, false⟩ := h'
      simp only [Bool.and_false, Bool.false_and, divideG, GSize.asInt]
      exact .ok rfl
  | sym a =>
    obtain rfl : s = ⟨a.eval σ, false⟩ := h
    simp only [Bool.false_and, divideG, GSize.asInt]
    cases q with
    | unknown => exact h'.elim
    | int b =>
      obtain rfl : p = ⟨b, true⟩ := h'
      exact .ok rfl
    | sym b =>
      obtain rfl : p = ⟨b.eval σ, false⟩ := h'
      exact .ok rfl

theorem inferAxis_both {l : List Size} {l' : List GSize} (h : List.Forall₂ (GSize.Exact σ) l l') (need : Bool) {n : Size}
    {n' : GSize} (hn : n'.Exact σ n) (ku : List Nat × List Nat) :
    Both (fun (st : List Size × Bool) st' => st.2 = st'.2 ∧ List.Forall₂ (GSize.Exact σ) st.1 st'.1)
      (inferAxis (l, need) n ku) (inferAxisG (l', need) n' ku) := by
  obtain ⟨known, unknown⟩ := ku
  have general : Both (fun (st : List Size × Bool) st' => st.2 = st'.2 ∧ List.Forall₂ (GSize.Exact σ) st.1 st'.1)
      (match mapE (getE l) known with
      | .error e => .error e
      | .ok vs =>
        let knownProduct := sizeProd vs
        match unknown with
        | [] =>
          if n.isInt && knownProduct.isInt && decide (n.val ≠ knownProduct.val) then .error .einops
          else .ok (l, need || decide (known.length + unknown.length ≠ 1))
        | u :: _ =>
          if n.isInt && knownProduct.isInt && decide (knownProduct.val = 0) then .error .zeroDivision
          else if n.isInt && knownProduct.isInt && decide (Int.fmod n.val knownProduct.val ≠ 0) then
            .error .einops
          else
            match setE l u (n.fdiv knownProduct) with
            | .error e => .error e
            | .ok ls => .ok (ls, need || decide (known.length + unknown.length ≠ 1)) : Py (List Size × Bool))
      (match mapE (getE l') known with
        | .error e => .error e
        | .ok vs =>
          match unknown with
          | [] =>
            if mismatchG n' (gsizeProd vs) then .error .einops
            else .ok (l', need || decide (known.length + unknown.length ≠ 1))
          | u :: _ =>
            match divideG n' (gsizeProd vs) with
            | .error e => .error e
            | .ok v =>
              match setE l' u v with
              | .error e => .error e
              | .ok ls => .ok (ls, need || decide (known.length + unknown.length ≠ 1)) : Py (List GSize × Bool)) := by
    have hm := mapE_both (fun k => getE_both h k) known
    revert hm
    generalize mapE (getE l) known = o
    generalize mapE (getE l') known = o'
    rintro (e | hvs)
    · exact .error e
    · rename_i vs vs'
      have hp := prod_exact hvs
      cases unknown with
      | nil =>
        simp only
        rw [mismatch_exact hn hp]
        split
        · exact .error _
        · exact .ok ⟨rfl, h⟩
      | cons u us =>
        simp only
        have hd := divide_exact hn hp
        split
        · rename_i hc
          rw [if_pos hc] at hd
          revert hd
          generalize divideG n' (gsizeProd vs') = o
          rintro (e | _)
          exact .error _
        · rename_i hc
          rw [if_neg hc] at hd
          split
          · rename_i hc2
            rw [if_pos hc2] at hd
            revert hd
            generalize divideG n' (gsizeProd vs') = o
            rintro (e | _)
            exact .error _
          · rename_i hc2
            rw [if_neg hc2] at hd
            revert hd
            generalize divideG n' (gsizeProd vs') = o
            rintro (_ | hq)
            simp only
            have := setE_both h hq u
            revert this
            generalize setE l u (n.fdiv (sizeProd vs)) = o
            rename_i w
            generalize setE l' u w = o'
            rintro (e | hl)
            · exact .error e
            · exact .ok ⟨rfl, hl⟩
  cases known with
  | cons k ks => exact general
  | nil =>
    cases unknown with
    | nil => exact general
    | cons u us =>
      cases us with
      | cons u' us => exact general
      | nil =>
        simp only [inferAxis, inferAxisG]
        have := setE_both h hn u
        revert this
        generalize setE l u n = o
        generalize setE l' u n' = o'
        rintro (e | hl)
        · exact .error e
        · exact .ok ⟨rfl, hl⟩

theorem inferAll_both {shape : List Size} {shape' : List GSize} (hsh : List.Forall₂ (GSize.Exact σ) shape shape')
    (rest : List ((List Nat × List Nat) × Nat)) {l : List Size} {l' : List GSize}
    (h : List.Forall₂ (GSize.Exact σ) l l') (need : Bool) :
    Both (fun (st : List Size × Bool) st' => st.2 = st'.2 ∧ List.Forall₂ (GSize.Exact σ) st.1 st'.1)
      (inferAll shape (l, need) rest) (inferAllG shape' (l', need) rest) := by
  induction rest generalizing l l' need with
  | nil => exact .ok ⟨rfl, h⟩
  | cons a rest ih =>
    obtain ⟨ku, i⟩ := a
    simp only [inferAll, inferAllG]
    have := getE_both hsh i
    revert this
    generalize getE shape i = o
    generalize getE shape' i = o'
    rintro (e | hn)
    · exact .error e
    · rename_i n n'
      simp only
      have := inferAxis_both h need hn ku
      revert this
      generalize inferAxis (l, need) n ku = o
      generalize inferAxisG (l', need) n' ku = o'
      rintro (e | hst)
      · exact .error e
      · rename_i st st'
        obtain ⟨l1, need1⟩ := st
        obtain ⟨l1', need1'⟩ := st'
        obtain ⟨rfl, hst⟩ : need1 = need1' ∧ _ := hst
        exact ih hst need1

/-- the cooked recipe with symbols is the one with numbers, exactly -/
structure CookedG.Exact (σ : Nat → Int) (c : CookedRecipe) (g : CookedG) : Prop where
  init : Option.Rel (List.Forall₂ (GSize.Exact σ)) c.initShapes g.initShapes
  perm : c.axesReordering = g.axesReordering
  reduced : c.reducedAxes = g.reducedAxes
  added : List.Forall₂ (fun p q => p.1 = q.1 ∧ GSize.Exact σ p.2 q.2) c.addedAxes g.addedAxes
  final : Option.Rel (List.Forall₂ (GSize.Exact σ)) c.finalShapes g.finalShapes
  naxes : c.nAxesWithAdded = g.nAxesWithAdded

theorem reconstruct_both (r : TransformRecipe) {shape : List Size} {shape' : List GSize} {kw : List (Str × Size)}
    {kw' : List (Str × GSize)} (hs : List.Forall₂ (GSize.Exact σ) shape shape')
    (hk : List.Forall₂ (fun p q => p.1 = q.1 ∧ GSize.Exact σ p.2 q.2) kw kw') :
    Both (CookedG.Exact σ) (reconstruct r shape kw) (reconstructG r shape' kw') := by
  unfold reconstruct reconstructG
  have h0 : List.Forall₂ (GSize.Exact σ) (r.elementaryAxesLengths.map Size.ofInt) (r.elementaryAxesLengths.map GSize.int) := by
    rw [List.forall₂_map_left_iff, List.forall₂_map_right_iff]
    exact List.forall₂_same.2 fun a _ => rfl
  have h1 := setDims_both (m := r.axisName2elementary) hk h0
  revert h1
  generalize setDims r.axisName2elementary (r.elementaryAxesLengths.map Size.ofInt) kw = o
  generalize setDimsG r.axisName2elementary (r.elementaryAxesLengths.map GSize.int) kw' = o'
  rintro (e | h1)
  · exact .error e
  rename_i ls0 ls0'
  simp only
  have h2 := inferAll_both hs r.inputComposition.zipIdx h1 false
  revert h2
  generalize inferAll shape (ls0, false) r.inputComposition.zipIdx = o
  generalize inferAllG shape' (ls0', false) r.inputComposition.zipIdx = o'
  rintro (e | h2)
  · exact .error e
  rename_i st st'
  obtain ⟨ls, need⟩ := st
  obtain ⟨ls', need'⟩ := st'
  obtain ⟨rfl, h2⟩ : need = need' ∧ List.Forall₂ (GSize.Exact σ) ls ls' := h2
  simp only
  have h3 := mapE_both (R := List.Forall₂ (GSize.Exact σ)) (f := fun g => mapE (getE ls) g)
    (f' := fun g => mapE (getE ls') g) (fun g => mapE_both (fun k => getE_both h2 k) g) r.outputCompositeAxes
  revert h3
  generalize mapE (fun g => mapE (getE ls) g) r.outputCompositeAxes = o
  generalize mapE (fun g => mapE (getE ls') g) r.outputCompositeAxes = o'
  rintro (e | h3)
  · exact .error e
  rename_i groups groups'
  simp only
  have h4 := mapE_both (R := fun (p : Nat × Size) (q : Nat × GSize) => p.1 = q.1 ∧ q.2.Exact σ p.2)
    (f := addedSize ls) (f' := addedSizeG ls') (fun a => by
      unfold addedSize addedSizeG
      have := getE_both h2 a.2
      revert this
      generalize getE ls a.2 = o
      generalize getE ls' a.2 = o'
      rintro (e | h)
      · exact .error e
      · exact .ok ⟨rfl, h⟩) r.addedAxes
  revert h4
  generalize mapE (addedSize ls) r.addedAxes = o
  generalize mapE (addedSizeG ls') r.addedAxes = o'
  rintro (e | h4)
  · exact .error e
  rename_i added added'
  refine .ok ⟨?_, rfl, rfl, h4, ?_, ?_⟩
  · simp only
    split
    · exact .some (take_rep h2 _)
    · exact .none
  · have hany : groups.any (fun g => g.length ≠ 1) = groups'.any (fun g => g.length ≠ 1) := by
      induction h3 with
      | nil => rfl
      | cons hd _ ih => simp only [List.any_cons, hd.length_eq, ih]
    simp only [hany]
    split
    · refine .some ?_
      rw [List.forall₂_map_left_iff, List.forall₂_map_right_iff]
      exact h3.imp fun _ _ h => prod_exact h
    · exact .none
  · simp only [h4.length_eq]

theorem GSize.Exact.rep {s : Size} {g : GSize} (h : g.Exact σ s) : g.Rep False σ s := by
  cases g with
  | int n => exact h
  | sym e => exact (show s = ⟨e.eval σ, false⟩ from h) ▸ rfl
  | unknown => exact h.elim

end

/-- running the graph is running the cooked recipe -/
theorem runGraph_exact {α : Type u} {σ : Nat → Int} (b : Backend α) {c : CookedRecipe} {g : CookedG} (h : g.Exact σ c)
    (red : Reduction α) (x : Tensor α) : runGraph b g red σ x = applyCooked b c x red := by
  have hr : ∀ {s : Option (List Size)} {g : Option (List GSize)}, Option.Rel (List.Forall₂ (GSize.Exact σ)) s g →
      Option.Rel (List.Forall₂ (GSize.Rep False σ)) s g := by
    intro s g h
    cases h with
    | none => exact .none
    | some h => exact .some (h.imp fun _ _ h => h.rep)
  have h1 : ∀ {s : Option (List Size)} {g : Option (List GSize)}, Option.Rel (List.Forall₂ (GSize.Exact σ)) s g →
      ∀ x, optReshapeG b.reshape σ g x = optReshape b.reshape s x :=
    fun h x => (optReshape_rep (reshape := b.reshape) (hr h) x).resolve_left fun h => h.1
  have h2 : ∀ x, optAddAxesG b.addAxes c.nAxesWithAdded σ g.addedAxes x =
      optAddAxes b.addAxes c.nAxesWithAdded c.addedAxes x :=
    fun x => (optAddAxes_rep (add := b.addAxes) (w := False) (h.added.imp fun _ _ h => ⟨h.1, h.2.rep⟩) x).resolve_left
      fun h => h.1
  unfold runGraph applyCooked applyStages
  simp only [← h.perm, ← h.reduced, ← h.naxes, h1 h.init, h1 h.final, h2]

end Einops
