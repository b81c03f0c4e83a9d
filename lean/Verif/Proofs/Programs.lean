import Mathlib.Algebra.BigOperators.Group.Multiset.Basic
import Mathlib.Algebra.MvPolynomial.Eval
import Mathlib.Data.Finset.Lattice.Fold
import Mathlib.Data.Nat.ModEq
import Verif.EinsumRef
import Verif.ProgramSpec
import Verif.Proofs.Elementwise
import Verif.Proofs.PackLaws

/-! Programs commute with functions of the elements; free structures decide. -/

namespace Einops

universe u
variable {α β γ : Type u}

theorem varOf_map (f : α → β) (env : List (Tensor α)) (i : Nat) :
    varOf (env.map (Tensor.map f)) i = (varOf env i).map (Tensor.map f) := by
  unfold varOf
  rw [List.getElem?_map]
  cases env[i]? <;> rfl

theorem argOf_map (f : α → β) (env : List (Tensor α)) (a : Arg) :
    argOf (env.map (Tensor.map f)) a = (argOf env a).map (Input.map f) := by
  cases a with
  | one i =>
    simp only [argOf, varOf_map]
    cases varOf env i <;> rfl
  | many is =>
    simp only [argOf]
    rw [mapE_post (fun i _ => varOf_map f env i)]
    cases mapE (varOf env) is <;> rfl

theorem samePack (s : Setup) : SamePack (s.pack (α := α)) (s.pack (α := β)) := by
  unfold Setup.pack
  split <;> constructor

theorem einsumTensors_all (xs : List (Tensor α)) : einsumTensors (xs.map .tensor) = .ok xs := by
  induction xs with
  | nil => rfl
  | cons x xs ih => simp only [List.map_cons, einsumTensors, ih]

section
variable [PyUnicode]

theorem einsum_elem {f : α → β} {ein : Str → List (Tensor α) → Py (Tensor α)} {ein' : Str → List (Tensor β) → Py (Tensor β)}
    (h : ∀ p xs, ein' p (xs.map (Tensor.map f)) = (ein p xs).map (Tensor.map f)) (xs : List (Tensor α)) (pattern : Str) :
    einsum ein' ((xs.map (Tensor.map f)).map .tensor ++ [.str pattern]) =
      (einsum ein (xs.map .tensor ++ [.str pattern])).map (Tensor.map f) := by
  unfold einsum
  simp only [List.length_append, List.length_map, List.length_cons, List.length_nil, List.getLast?_append,
    List.getLast?_singleton, Option.some_or, List.dropLast_concat]
  split
  · rfl
  · cases compactify pattern with
    | error e => rfl
    | ok q =>
      cases xs with
      | nil => simp only [List.map_nil, einsumTensors]; exact h q []
      | cons x xs =>
        have h1 := einsumTensors_all (x :: xs)
        have h2 := einsumTensors_all ((x :: xs).map (Tensor.map f))
        simp only [List.map_cons] at h1 h2 ⊢
        simp only [h1, h2]
        exact h q (x :: xs)

variable {S : List Str} {e : Prop} {f : α → β} {E : ElemOps α} {E' : ElemOps β}
  {ein : Str → List (Tensor α) → Py (Tensor α)} {ein' : Str → List (Tensor β) → Py (Tensor β)}

theorem cmd_run_map (h : SameElems S e f E E' ein ein') (s : Setup) {c : Cmd} (hc : c.Uses S e) (env : List (Tensor α)) :
    c.run s E' ein' (env.map (Tensor.map f)) = (c.run s E ein env).map (List.map (Tensor.map f)) := by
  have hb : SameBackend E E' (s.fw.backend E s.floating) (s.fw.backend E' s.floating) := by
    cases s.fw <;> constructor
  cases c with
  | rearrange t pattern kw =>
    refine bind_map (argOf_map f env t) (fun x => ?_)
    have := reduce_elem (f := f) hb (.move "rearrange".toList (by decide)) s.so x pattern kw
    unfold rearrange
    rw [this]
    cases reduce (s.fw.backend E s.floating) s.so x pattern (.name "rearrange".toList) kw <;> rfl
  | repeat_ t pattern kw =>
    refine bind_map (argOf_map f env t) (fun x => ?_)
    have := reduce_elem (f := f) hb (.move "repeat".toList (by decide)) s.so x pattern kw
    unfold repeat_
    rw [this]
    cases reduce (s.fw.backend E s.floating) s.so x pattern (.name "repeat".toList) kw <;> rfl
  | reduce t pattern o kw =>
    refine bind_map (argOf_map f env t) (fun x => ?_)
    rw [reduce_elem (f := f) hb (.name o (h.op o hc)) s.so x pattern kw]
    cases reduce (s.fw.backend E s.floating) s.so x pattern (.name o) kw <;> rfl
  | pack is pattern =>
    refine bind_map (mapE_post (fun i _ => varOf_map f env i)) (fun xs => ?_)
    rw [pack_elem (samePack s) f xs pattern]
    cases pack s.pack xs pattern <;> rfl
  | unpack i ps pattern =>
    exact bind_map (varOf_map f env i) (fun x => unpack_elem (samePack s) f x ps pattern)
  | einsum is pattern =>
    refine bind_map (mapE_post (fun i _ => varOf_map f env i)) (fun xs => ?_)
    rw [einsum_elem (h.ein hc) xs pattern]
    cases einsum ein (xs.map .tensor ++ [.str pattern]) <;> rfl

theorem map_shape (f : α → β) (xs : List (Tensor α)) : (xs.map (Tensor.map f)).map Tensor.shape = xs.map Tensor.shape := by
  rw [List.map_map]; rfl

theorem prog_run_map (h : SameElems S e f E E' ein ein') (s : Setup) {P : Prog} (hP : P.Uses S e) (env : List (Tensor α)) :
    P.run s E' ein' (env.map (Tensor.map f)) = (P.run s E ein env).map (List.map (Tensor.map f)) := by
  induction hP generalizing env with
  | ret is => exact mapE_post (fun i _ => varOf_map f env i)
  | fail err => rfl
  | @call c next hc _ ih =>
    simp only [Prog.run]
    refine bind_map (cmd_run_map h s hc env) (fun ys => ?_)
    rw [← List.map_append, map_shape]
    exact ih _ _

theorem runFunction_map (h : SameElems S e f E E' ein ein') (s : Setup) {P : TensorFunction} (hP : FunctionUses S e P)
    (xs : List (Tensor α)) :
    runFunction s E' ein' P (xs.map (Tensor.map f)) = (runFunction s E ein P xs).map (List.map (Tensor.map f)) := by
  unfold runFunction
  rw [map_shape]
  exact prog_run_map h s (hP _) xs

end

/-- tensors with different elements can be sent to any tensors of the same shapes -/
theorem exists_map [Nonempty α] {g : List (Tensor γ)} (hg : AllDifferent g) {xs : List (Tensor α)}
    (hs : xs.map Tensor.shape = g.map Tensor.shape) : ∃ f : γ → α, g.map (Tensor.map f) = xs := by
  classical
  have hlist : ∀ {l : List γ} {m : List α}, l.Nodup → l.length = m.length → ∃ f : γ → α, l.map f = m := by
    intro l
    induction l with
    | nil => intro m _ hm; exact ⟨fun _ => Classical.arbitrary α, by cases m <;> simp_all⟩
    | cons a l ih =>
      intro m hn hm
      cases m with
      | nil => cases hm
      | cons b m =>
        obtain ⟨h1, h2⟩ := List.nodup_cons.1 hn
        obtain ⟨f, hf⟩ := ih h2 (by simpa using hm)
        refine ⟨fun c => if c = a then b else f c, ?_⟩
        simp only [List.map_cons, if_true, List.cons.injEq, true_and]
        rw [← hf]
        exact List.map_congr_left (fun c hc => if_neg (fun (e : c = a) => h1 (e ▸ hc)))
  have hlen : ∀ {g : List (Tensor γ)} {xs : List (Tensor α)}, xs.map Tensor.shape = g.map Tensor.shape →
      (g.flatMap Tensor.data).length = (xs.flatMap Tensor.data).length := by
    intro g
    induction g with
    | nil => intro xs h; cases xs <;> simp_all
    | cons t g ih =>
      intro xs h
      cases xs with
      | nil => cases h
      | cons x xs =>
        simp only [List.map_cons, List.cons.injEq] at h
        simp only [List.flatMap_cons, List.length_append, ih h.2, t.wf, x.wf, h.1]
  obtain ⟨f, hf⟩ := hlist hg (hlen hs)
  refine ⟨f, ?_⟩
  clear hg hlen hlist
  induction g generalizing xs with
  | nil => cases xs <;> simp_all
  | cons t g ih =>
    cases xs with
    | nil => cases hs
    | cons x xs =>
      simp only [List.map_cons, List.cons.injEq] at hs ⊢
      simp only [List.flatMap_cons, List.map_append] at hf
      have hl : (t.data.map f).length = x.data.length := by rw [List.length_map, t.wf, x.wf, hs.1]
      obtain ⟨h1, h2⟩ := List.append_inj hf hl
      exact ⟨Tensor.eq_of hs.1.symm h1, ih hs.2 h2⟩

theorem map_inj_on {f : α → β} {A : α → Prop} (hf : ∀ a b, A a → A b → f a = f b → a = b) {x y : Tensor α}
    (hx : ∀ a ∈ x.data, A a) (hy : ∀ a ∈ y.data, A a) (h : x.map f = y.map f) : x = y := by
  have h1 : (x.map f).shape = (y.map f).shape := congrArg Tensor.shape h
  have h2 : (x.map f).data = (y.map f).data := congrArg Tensor.data h
  change x.shape = y.shape at h1
  change x.data.map f = y.data.map f at h2
  refine Tensor.eq_of h1 ?_
  clear h h1
  revert hx hy h2
  generalize x.data = l
  generalize y.data = m
  intro hx hy h2
  induction l generalizing m with
  | nil => cases m <;> simp_all
  | cons a l ih =>
    cases m with
    | nil => cases h2
    | cons b m =>
      simp only [List.map_cons, List.cons.injEq] at h2
      simp only [List.mem_cons, forall_eq_or_imp] at hx hy
      rw [hf a b hx.1 hy.1 h2.1, ih m hx.2 hy.2 h2.2]

/-- a digit of a sum of powers -/
theorem powers_inj {B : ℕ} {s t : Multiset ℕ} (hs : s.card < B) (ht : t.card < B)
    (h : (s.map (B ^ ·)).sum = (t.map (B ^ ·)).sum) : s = t := by
  suffices H : ∀ N, ∀ s t : Multiset ℕ, (∀ i ∈ s, i < N) → (∀ i ∈ t, i < N) → s.card < B → t.card < B →
      (s.map (B ^ ·)).sum = (t.map (B ^ ·)).sum → s = t by
    refine H ((s + t).sum + 1) s t (fun i hi => ?_) (fun i hi => ?_) hs ht h
    · exact Nat.lt_succ_of_le (Multiset.single_le_sum (fun _ _ => Nat.zero_le _) _ (Multiset.mem_add.2 (.inl hi)))
    · exact Nat.lt_succ_of_le (Multiset.single_le_sum (fun _ _ => Nat.zero_le _) _ (Multiset.mem_add.2 (.inr hi)))
  clear h hs ht s t
  have key : ∀ s : Multiset ℕ, (s.map (B ^ ·)).sum = s.count 0 + B * (((s.filter (· ≠ 0)).map Nat.pred).map (B ^ ·)).sum := by
    intro s
    induction s using Multiset.induction_on with
    | empty => simp
    | cons a s ih =>
      rw [Multiset.map_cons, Multiset.sum_cons, ih]
      cases a with
      | zero => simp; omega
      | succ a =>
        have h0 : Multiset.count 0 ((a + 1) ::ₘ s) = Multiset.count 0 s := Multiset.count_cons_of_ne (by omega) s
        rw [h0, Multiset.filter_cons_of_pos (p := (· ≠ 0)) s (by omega : a + 1 ≠ 0), Multiset.map_cons, Multiset.map_cons, Multiset.sum_cons,
          Nat.mul_add, Nat.pred_succ, pow_succ]
        ring
  have back : ∀ s : Multiset ℕ, s = Multiset.replicate (s.count 0) 0 + ((s.filter (· ≠ 0)).map Nat.pred).map Nat.succ := by
    intro s
    rw [Multiset.map_map]
    have h1 : (s.filter (· ≠ 0)).map (Nat.succ ∘ Nat.pred) = s.filter (· ≠ 0) := by
      conv_rhs => rw [← Multiset.map_id (s.filter (· ≠ 0))]
      refine Multiset.map_congr rfl (fun i hi => ?_)
      have := (Multiset.mem_filter.1 hi).2
      simp only [Function.comp, id]
      exact Nat.succ_pred this
    rw [h1, ← Multiset.filter_eq' s 0]
    exact (Multiset.filter_add_not (· = 0) s).symm
  intro N
  induction N with
  | zero =>
    intro s t hs ht _ _ _
    rw [Multiset.eq_zero_of_forall_notMem (fun i hi => absurd (hs i hi) (by omega)),
      Multiset.eq_zero_of_forall_notMem (fun i hi => absurd (ht i hi) (by omega))]
  | succ N ih =>
    intro s t hs ht hsB htB h
    rw [key s, key t] at h
    have hB : 0 < B := by omega
    have h1 : s.count 0 < B := lt_of_le_of_lt (Multiset.count_le_card 0 s) hsB
    have h2 : t.count 0 < B := lt_of_le_of_lt (Multiset.count_le_card 0 t) htB
    have h3 : s.count 0 = t.count 0 := by
      have := congrArg (· % B) h
      simpa [Nat.add_mul_mod_self_left, Nat.mod_eq_of_lt h1, Nat.mod_eq_of_lt h2] using this
    have h4 := Nat.eq_of_mul_eq_mul_left hB (by omega :
      B * (((s.filter (· ≠ 0)).map Nat.pred).map (B ^ ·)).sum = B * (((t.filter (· ≠ 0)).map Nat.pred).map (B ^ ·)).sum)
    have hle : ∀ u : Multiset ℕ, ((u.filter (· ≠ 0)).map Nat.pred).card ≤ u.card := by
      intro u
      rw [Multiset.card_map]
      exact Multiset.card_le_card (Multiset.filter_le _ u)
    have hlt : ∀ u : Multiset ℕ, (∀ i ∈ u, i < N + 1) → ∀ i ∈ (u.filter (· ≠ 0)).map Nat.pred, i < N := by
      intro u hu i hi
      obtain ⟨j, hj, rfl⟩ := Multiset.mem_map.1 hi
      obtain ⟨hj1, hj2⟩ := Multiset.mem_filter.1 hj
      have := hu j hj1
      simp only [Nat.pred_eq_sub_one]
      omega
    have h5 := ih _ _ (hlt s hs) (hlt t ht) (lt_of_le_of_lt (hle s) hsB) (lt_of_le_of_lt (hle t) htB) h4
    rw [back s, back t, h3, h5]

theorem entry_map {α β : Type u} [CommSemiring α] [CommSemiring β] (φ : α →+* β) (x : Tensor α) (i : List Nat) :
    entry (x.map φ) i = φ (entry x i) := by
  unfold entry
  rw [Tensor.at?_map]
  cases x.at? i <;> simp

theorem termProd_map {α β : Type u} [CommSemiring α] [CommSemiring β] (φ : α →+* β) (As : List (List Axis)) (xs : List (Tensor α))
    (e : AxisMap) : termProd As (xs.map (Tensor.map φ)) e = φ (termProd As xs e) := by
  unfold termProd
  induction As generalizing xs with
  | nil => simp
  | cons A As ih =>
    cases xs with
    | nil => simp
    | cons x xs => simp only [List.map_cons, List.zipWith_cons_cons, List.prod_cons, map_mul, ih, entry_map]

theorem ellRank_map {α β : Type u} [CommSemiring α] [CommSemiring β] (f : α → β) (ts : List (List ESym)) (xs : List (Tensor α)) :
    ellRank ts (xs.map (Tensor.map f)) = ellRank ts xs := by
  induction ts generalizing xs with
  | nil => cases xs <;> rfl
  | cons t ts ih =>
    cases xs with
    | nil => rfl
    | cons x xs => simp only [List.map_cons, ellRank, ih]; rfl

theorem axisLen_map {α β : Type u} (f : α → β) (As : List (List Axis)) (xs : List (Tensor α)) :
    axisLen As (xs.map (Tensor.map f)) = axisLen As xs := by
  funext a
  induction As generalizing xs with
  | nil => cases xs <;> rfl
  | cons t ts ih =>
    cases xs with
    | nil => rfl
    | cons x xs => simp only [List.map_cons, axisLen, ih]; rfl

/-- the reference `einsum` commutes with homomorphisms -/
theorem refEinsum_map {α β : Type u} [CommSemiring α] [CommSemiring β] (φ : α →+* β) (p : Str) (xs : List (Tensor α)) :
    refEinsum p (xs.map (Tensor.map φ)) = (refEinsum p xs).map (Tensor.map φ) := by
  unfold refEinsum
  cases splitArrow p with
  | error e => rfl
  | ok lr =>
    simp only
    split
    · rename_i terms out h1 h2
      simp only [ellRank_map, axisLen_map, List.length_map]
      have hc : (∀ q ∈ (terms.map (symAxes (ellRank terms xs))).zip (xs.map (Tensor.map φ)),
            q.2.shape = q.1.map (axisLen (terms.map (symAxes (ellRank terms xs))) xs)) ↔
          (∀ q ∈ (terms.map (symAxes (ellRank terms xs))).zip xs,
            q.2.shape = q.1.map (axisLen (terms.map (symAxes (ellRank terms xs))) xs)) := by
        rw [List.zip_map_right]
        simp only [List.mem_map, forall_exists_index, and_imp, forall_apply_eq_imp_iff₂, Prod.map_fst, Prod.map_snd, id]
        rfl
      simp only [hc]
      split
      · refine Tensor.build_map (fun i => ?_)
        simp only [Except.map, Except.ok.injEq, map_list_sum, List.map_map]
        congr 1
        exact List.map_congr_left (fun e _ => termProd_map φ _ xs e)
      · rfl
    · rfl

theorem decides [PyUnicode] {S : List Str} {e : Prop} {f : α → β} {E : ElemOps α} {E' : ElemOps β}
    {ein : Str → List (Tensor α) → Py (Tensor α)} {ein' : Str → List (Tensor β) → Py (Tensor β)}
    (h : SameElems S e f E E' ein ein') (s : Setup) {P Q : TensorFunction} (hP : FunctionUses S e P)
    (hQ : FunctionUses S e Q) {g : List (Tensor α)} (hg : runFunction s E ein P g = runFunction s E ein Q g) :
    runFunction s E' ein' P (g.map (Tensor.map f)) = runFunction s E' ein' Q (g.map (Tensor.map f)) := by
  rw [runFunction_map h s hP, runFunction_map h s hQ, hg]

/-- equality of results may be tested on the images under functions that tell the elements apart -/
theorem ok_map_inj {f : α → β} {A : α → Prop} (hf : ∀ a b, A a → A b → f a = f b → a = b) {x y : Py (List (Tensor α))}
    (hx : ∀ ys, x = .ok ys → ∀ y ∈ ys, ∀ a ∈ y.data, A a) (hy : ∀ ys, y = .ok ys → ∀ y ∈ ys, ∀ a ∈ y.data, A a)
    (h : x.map (List.map (Tensor.map f)) = y.map (List.map (Tensor.map f))) : x = y := by
  cases x with
  | error e =>
    cases y with
    | error e' => simpa [Except.map] using h
    | ok ys => cases h
  | ok xs =>
    cases y with
    | error e' => cases h
    | ok ys =>
      simp only [Except.map, Except.ok.injEq] at h ⊢
      have hx := hx xs rfl
      have hy := hy ys rfl
      induction xs generalizing ys with
      | nil => cases ys <;> simp_all
      | cons x xs ih =>
        cases ys with
        | nil => cases h
        | cons y ys =>
          simp only [List.map_cons, List.cons.injEq] at h
          simp only [List.mem_cons, forall_eq_or_imp] at hx hy
          rw [map_inj_on hf hx.1 hy.1 h.1, ih (fun _ e => by cases e; exact hx.2) ys (fun _ e => by cases e; exact hy.2) h.2 hx.2 hy.2]

theorem map_comp (f : α → β) (g : γ → α) (xs : List (Tensor γ)) :
    (xs.map (Tensor.map g)).map (Tensor.map f) = xs.map (Tensor.map (f ∘ g)) := by
  rw [List.map_map]
  refine List.map_congr_left (fun x _ => ?_)
  simp [Tensor.map]

/-! ### Polynomials are told apart by one number -/

/-- sums of the images of the elements -/
def sumOf (h : ℕ → ℕ) : Multiset ℕ →+ ℕ where
  toFun s := (s.map h).sum
  map_zero' := by simp
  map_add' := by simp

theorem sumOf_single (h : ℕ → ℕ) (i : ℕ) : sumOf h {i} = h i := Multiset.sum_singleton (h i)

/-- the exponent a monomial gets -/
noncomputable def monomialCode (D : ℕ) (m : ℕ →₀ ℕ) : ℕ := ∑ i ∈ m.support, m i * D ^ i

theorem monomialCode_eq (D : ℕ) (m : ℕ →₀ ℕ) : monomialCode D m = (m.toMultiset.map (D ^ ·)).sum := by
  change _ = sumOf (D ^ ·) m.toMultiset
  rw [Finsupp.toMultiset_apply, Finsupp.sum, map_sum]
  refine Finset.sum_congr rfl (fun i _ => ?_)
  rw [map_nsmul, smul_eq_mul, sumOf_single]

theorem prod_powers (B D : ℕ) (m : ℕ →₀ ℕ) : ∏ i ∈ m.support, (B ^ D ^ i) ^ m i = B ^ monomialCode D m := by
  unfold monomialCode
  rw [← Finset.prod_pow_eq_pow_sum]
  refine Finset.prod_congr rfl (fun i _ => ?_)
  rw [← pow_mul, Nat.mul_comm]

theorem monomialCode_inj {D : ℕ} {m m' : ℕ →₀ ℕ} (h : m.toMultiset.card < D) (h' : m'.toMultiset.card < D)
    (e : monomialCode D m = monomialCode D m') : m = m' := by
  rw [monomialCode_eq, monomialCode_eq] at e
  have := powers_inj h h' e
  ext i
  rw [← Finsupp.count_toMultiset m i, this, Finsupp.count_toMultiset]

/-- the exponents of the monomials -/
noncomputable def codes (D : ℕ) (p : MvPolynomial ℕ ℕ) : Multiset ℕ := ∑ m ∈ p.support, p.coeff m • {monomialCode D m}

theorem codes_eval (B D : ℕ) (p : MvPolynomial ℕ ℕ) :
    ((codes D p).map (B ^ ·)).sum = MvPolynomial.eval (fun i => B ^ D ^ i) p := by
  change sumOf (B ^ ·) (codes D p) = _
  rw [codes, map_sum, MvPolynomial.eval_eq]
  refine Finset.sum_congr rfl (fun m _ => ?_)
  rw [map_nsmul, smul_eq_mul, prod_powers, sumOf_single]

theorem codes_card (D : ℕ) (p : MvPolynomial ℕ ℕ) : (codes D p).card = MvPolynomial.eval (fun _ => 1) p := by
  rw [codes, Multiset.card_sum, MvPolynomial.eval_eq]
  refine Finset.sum_congr rfl (fun m _ => ?_)
  simp

theorem codes_count {D : ℕ} {p : MvPolynomial ℕ ℕ} {m : ℕ →₀ ℕ} (hp : ∀ m' ∈ p.support, m'.toMultiset.card < D)
    (hm : m.toMultiset.card < D) : (codes D p).count (monomialCode D m) = p.coeff m := by
  rw [codes, Multiset.count_sum']
  have : ∀ m' ∈ p.support, (p.coeff m' • ({monomialCode D m'} : Multiset ℕ)).count (monomialCode D m) =
      if m = m' then p.coeff m' else 0 := by
    intro m' hm'
    rw [Multiset.count_nsmul, Multiset.count_singleton]
    by_cases e : m = m'
    · simp [e]
    · rw [if_neg (fun h => e (monomialCode_inj hm (hp m' hm') h)), if_neg e, Nat.mul_zero]
  rw [Finset.sum_congr rfl this, Finset.sum_ite_eq]
  split
  · rfl
  · rename_i h
    exact (MvPolynomial.notMem_support_iff.1 h).symm

theorem degree_lt {D : ℕ} {p : MvPolynomial ℕ ℕ} (h : MvPolynomial.eval (fun _ => 2) p < 2 ^ D) :
    ∀ m ∈ p.support, m.toMultiset.card < D := by
  intro m hm
  by_contra hc
  have h1 : p.coeff m * ∏ i ∈ m.support, 2 ^ m i ≤ MvPolynomial.eval (fun _ => 2) p := by
    rw [MvPolynomial.eval_eq]
    exact Finset.single_le_sum (f := fun m => p.coeff m * ∏ i ∈ m.support, 2 ^ m i) (fun _ _ => Nat.zero_le _) hm
  rw [Finset.prod_pow_eq_pow_sum] at h1
  have h2 : m.toMultiset.card = ∑ i ∈ m.support, m i := by rw [Finsupp.card_toMultiset]; rfl
  rw [← h2] at h1
  have h3 : 0 < p.coeff m := Nat.pos_of_ne_zero (MvPolynomial.mem_support_iff.1 hm)
  have h4 : 2 ^ D ≤ 2 ^ m.toMultiset.card := Nat.pow_le_pow_right (by omega) (by omega)
  have h5 : 2 ^ m.toMultiset.card ≤ p.coeff m * 2 ^ m.toMultiset.card := Nat.le_mul_of_pos_left _ h3
  omega

/-- polynomials with few terms of small degree are told apart by one number -/
theorem polynomials_inj {B D : ℕ} {p q : MvPolynomial ℕ ℕ} (hp : MvPolynomial.eval (fun _ => 1) p < B)
    (hq : MvPolynomial.eval (fun _ => 1) q < B) (hp' : MvPolynomial.eval (fun _ => 2) p < 2 ^ D)
    (hq' : MvPolynomial.eval (fun _ => 2) q < 2 ^ D)
    (h : MvPolynomial.eval (fun i => B ^ D ^ i) p = MvPolynomial.eval (fun i => B ^ D ^ i) q) : p = q := by
  rw [← codes_eval, ← codes_eval] at h
  have hc := powers_inj (by rwa [codes_card]) (by rwa [codes_card]) h
  have h1 := degree_lt hp'
  have h2 := degree_lt hq'
  ext m
  by_cases hm : m.toMultiset.card < D
  · rw [← codes_count h1 hm, hc, codes_count h2 hm]
  · rw [MvPolynomial.notMem_support_iff.1 (fun h => hm (h1 m h)), MvPolynomial.notMem_support_iff.1 (fun h => hm (h2 m h))]

end Einops
