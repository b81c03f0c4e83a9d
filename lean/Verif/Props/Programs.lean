import Verif.Proofs.Programs
import Verif.Props.PackLaws
import Verif.Props.ReductionLaws

/-!
# How many tests decide what a program does
-/

namespace Einops

universe u

section
variable [PyUnicode] {P Q : TensorFunction}

/-! ### C80 -/

/-- **C80** A function that calls the operations may be applied before or after a function of the elements with which its
reductions (and `einsum`) commute; also the exceptions are the same. -/
theorem C80_elementwise {α β : Type u} {S : List Str} {e : Prop} {f : α → β} {E : ElemOps α} {E' : ElemOps β}
    {ein : Str → List (Tensor α) → Py (Tensor α)} {ein' : Str → List (Tensor β) → Py (Tensor β)}
    (h : SameElems S e f E E' ein ein') (s : Setup) (hP : FunctionUses S e P) (xs : List (Tensor α)) :
    runFunction s E' ein' P (xs.map (Tensor.map f)) = (runFunction s E ein P xs).map (List.map (Tensor.map f)) :=
  runFunction_map h s hP xs

/-- If two functions that only move elements agree on one list of tensors, all elements of which are different, they agree
on all tensors of the same shapes, whatever the elements are. -/
theorem C80_moves {γ α : Type u} [Nonempty α] (s : Setup) (hP : FunctionUses [] False P) (hQ : FunctionUses [] False Q)
    {E : ElemOps γ} {E' : ElemOps α} {ein : Str → List (Tensor γ) → Py (Tensor γ)}
    {ein' : Str → List (Tensor α) → Py (Tensor α)} {g : List (Tensor γ)} (hg : AllDifferent g)
    (h : runFunction s E ein P g = runFunction s E ein Q g) {xs : List (Tensor α)}
    (hs : xs.map Tensor.shape = g.map Tensor.shape) : runFunction s E' ein' P xs = runFunction s E' ein' Q xs := by
  obtain ⟨f, rfl⟩ := exists_map hg hs
  exact decides (S := []) (e := False) ⟨by simp, fun h => h.elim⟩ s hP hQ h

/-- Functions that move elements and add them: it is enough that they agree on tensors of symbols, where a sum is the
multiset of what is added. -/
theorem C80_sums {γ α : Type u} [AddCommMonoid α] (s : Setup) (hP : FunctionUses ["sum".toList] False P)
    (hQ : FunctionUses ["sum".toList] False Q) {E : ElemOps (Multiset γ)} (hE : ∀ vs, E.op "sum".toList vs = .ok vs.sum)
    {E' : ElemOps α} (hE' : ∀ vs, E'.op "sum".toList vs = .ok vs.sum)
    {ein : Str → List (Tensor (Multiset γ)) → Py (Tensor (Multiset γ))} {ein' : Str → List (Tensor α) → Py (Tensor α)}
    {g : List (Tensor γ)} (hg : AllDifferent g)
    (h : runFunction s E ein P (g.map (Tensor.map fun k => {k})) = runFunction s E ein Q (g.map (Tensor.map fun k => {k})))
    {xs : List (Tensor α)} (hs : xs.map Tensor.shape = g.map Tensor.shape) :
    runFunction s E' ein' P xs = runFunction s E' ein' Q xs := by
  obtain ⟨f, rfl⟩ := exists_map hg hs
  have hf : SameElems ["sum".toList] False (fun m : Multiset γ => (m.map f).sum) E E' ein ein' := by
    refine ⟨fun o ho vs => ?_, fun h => h.elim⟩
    obtain rfl := List.mem_singleton.1 ho
    rw [hE, hE']
    simp only [Except.map, Except.ok.injEq]
    induction vs with
    | nil => simp
    | cons v vs ih => simp [ih]
  have := decides hf s hP hQ h
  rw [map_comp] at this
  simpa [Function.comp_def] using this

/-- Two tests with integers are enough for them: with ones no result is `B` or more, and with different powers of `B` the
results are the same. -/
theorem C80_sums_test {α : Type} [AddCommMonoid α] (s : Setup) (hP : FunctionUses ["sum".toList] False P)
    (hQ : FunctionUses ["sum".toList] False Q) {E : ElemOps ℤ} (hE : ∀ vs, E.op "sum".toList vs = .ok vs.sum)
    {E' : ElemOps α} (hE' : ∀ vs, E'.op "sum".toList vs = .ok vs.sum)
    {ein : Str → List (Tensor ℤ) → Py (Tensor ℤ)} {ein' : Str → List (Tensor α) → Py (Tensor α)}
    {g : List (Tensor ℕ)} (hg : AllDifferent g) {B : ℕ}
    (h1 : ∀ R ∈ [P, Q], ∀ ys, runFunction s E ein R (g.map (Tensor.map fun _ => 1)) = .ok ys → ∀ y ∈ ys, ∀ v ∈ y.data, v < B)
    (h : runFunction s E ein P (g.map (Tensor.map fun k => (B : ℤ) ^ k)) =
      runFunction s E ein Q (g.map (Tensor.map fun k => (B : ℤ) ^ k)))
    {xs : List (Tensor α)} (hs : xs.map Tensor.shape = g.map Tensor.shape) :
    runFunction s E' ein' P xs = runFunction s E' ein' Q xs := by
  let F : ElemOps (Multiset ℕ) := ⟨fun _ vs => .ok vs.sum⟩
  let ein0 : Str → List (Tensor (Multiset ℕ)) → Py (Tensor (Multiset ℕ)) := fun _ _ => .error .backend
  have hom : ∀ w : ℕ → ℤ, SameElems ["sum".toList] False (fun m : Multiset ℕ => (m.map w).sum) F E ein0 ein := by
    intro w
    refine ⟨fun o ho vs => ?_, fun h => h.elim⟩
    obtain rfl := List.mem_singleton.1 ho
    rw [hE]
    simp only [F, Except.map, Except.ok.injEq]
    induction vs with
    | nil => simp
    | cons v vs ih => simp [ih]
  have run : ∀ w : ℕ → ℤ, ∀ R, FunctionUses ["sum".toList] False R →
      runFunction s E ein R (g.map (Tensor.map w)) = (runFunction s F ein0 R (g.map (Tensor.map fun k => {k}))).map
        (List.map (Tensor.map fun m : Multiset ℕ => (m.map w).sum)) := by
    intro w R hR
    rw [← runFunction_map (hom w) s hR, map_comp]
    simp [Function.comp_def]
  refine C80_sums s hP hQ (E := F) (fun _ => rfl) hE' (ein := ein0) hg ?_ hs
  rw [run _ P hP, run _ Q hQ] at h
  have small : ∀ R ∈ [P, Q], FunctionUses ["sum".toList] False R → ∀ ys,
      runFunction s F ein0 R (g.map (Tensor.map fun k => {k})) = .ok ys → ∀ y ∈ ys, ∀ m ∈ y.data, m.card < B := by
    intro R hR hu ys hys y hy m hm
    have := h1 R hR (ys.map (Tensor.map fun m : Multiset ℕ => (m.map fun _ => (1 : ℤ)).sum)) (by rw [run _ R hu, hys]; rfl)
      _ (List.mem_map_of_mem hy) _ (List.mem_map_of_mem hm)
    simpa using this
  refine ok_map_inj (A := fun m : Multiset ℕ => m.card < B) ?_ (small P (by simp) hP) (small Q (by simp) hQ) h
  intro a b ha hb hab
  refine powers_inj ha hb ?_
  have cast : ∀ m : Multiset ℕ, (m.map fun k => (B : ℤ) ^ k).sum = (((m.map (B ^ ·)).sum : ℕ) : ℤ) := by
    intro m
    induction m using Multiset.induction_on with
    | empty => simp
    | cons a m ih => rw [Multiset.map_cons, Multiset.sum_cons, ih, Multiset.map_cons, Multiset.sum_cons, Nat.cast_add, Nat.cast_pow]
  rw [cast, cast] at hab
  exact_mod_cast hab

/-- Functions that move elements, add and multiply them: it is enough that they agree on tensors of variables, as
polynomials. -/
theorem C80_products {γ α : Type u} [CommSemiring α] (s : Setup) {S : List Str} (hS : S = ["sum".toList, "prod".toList])
    (hP : FunctionUses S True P) (hQ : FunctionUses S True Q) {E : ElemOps (MvPolynomial γ ℕ)}
    (hE : ∀ vs, E.op "sum".toList vs = .ok vs.sum ∧ E.op "prod".toList vs = .ok vs.prod)
    {E' : ElemOps α} (hE' : ∀ vs, E'.op "sum".toList vs = .ok vs.sum ∧ E'.op "prod".toList vs = .ok vs.prod)
    {g : List (Tensor γ)} (hg : AllDifferent g)
    (h : runFunction s E refEinsum P (g.map (Tensor.map MvPolynomial.X)) =
      runFunction s E refEinsum Q (g.map (Tensor.map MvPolynomial.X)))
    {xs : List (Tensor α)} (hs : xs.map Tensor.shape = g.map Tensor.shape) :
    runFunction s E' refEinsum P xs = runFunction s E' refEinsum Q xs := by
  obtain ⟨f, rfl⟩ := exists_map hg hs
  have hf : SameElems S True (MvPolynomial.eval₂Hom (Nat.castRingHom α) f) E E' refEinsum refEinsum := by
    subst hS
    refine ⟨fun o ho vs => ?_, fun _ p xs => refEinsum_map _ p xs⟩
    rcases List.mem_cons.1 ho with rfl | ho
    · rw [(hE vs).1, (hE' _).1]
      simp only [Except.map, Except.ok.injEq, map_list_sum]
    · obtain rfl := List.mem_singleton.1 ho
      rw [(hE vs).2, (hE' _).2]
      simp only [Except.map, Except.ok.injEq, map_list_prod]
  have := decides hf s hP hQ h
  rw [map_comp] at this
  simpa [Function.comp_def] using this

/-- Three tests with integers are enough for them: with ones no result is `B` or more, with twos no result is `2 ^ D` or
more, and with `B ^ D ^ k` for different `k` the results are the same. -/
theorem C80_products_test {α : Type} [CommSemiring α] (s : Setup) {S : List Str} (hS : S = ["sum".toList, "prod".toList])
    (hP : FunctionUses S True P) (hQ : FunctionUses S True Q) {E : ElemOps ℤ}
    (hE : ∀ vs, E.op "sum".toList vs = .ok vs.sum ∧ E.op "prod".toList vs = .ok vs.prod)
    {E' : ElemOps α} (hE' : ∀ vs, E'.op "sum".toList vs = .ok vs.sum ∧ E'.op "prod".toList vs = .ok vs.prod)
    {g : List (Tensor ℕ)} (hg : AllDifferent g) {B D : ℕ}
    (h1 : ∀ R ∈ [P, Q], ∀ ys, runFunction s E refEinsum R (g.map (Tensor.map fun _ => 1)) = .ok ys →
      ∀ y ∈ ys, ∀ v ∈ y.data, v < B)
    (h2 : ∀ R ∈ [P, Q], ∀ ys, runFunction s E refEinsum R (g.map (Tensor.map fun _ => 2)) = .ok ys →
      ∀ y ∈ ys, ∀ v ∈ y.data, v < 2 ^ D)
    (h : runFunction s E refEinsum P (g.map (Tensor.map fun k => (B : ℤ) ^ D ^ k)) =
      runFunction s E refEinsum Q (g.map (Tensor.map fun k => (B : ℤ) ^ D ^ k)))
    {xs : List (Tensor α)} (hs : xs.map Tensor.shape = g.map Tensor.shape) :
    runFunction s E' refEinsum P xs = runFunction s E' refEinsum Q xs := by
  let F : ElemOps (MvPolynomial ℕ ℕ) := ⟨fun o vs => if o = "sum".toList then .ok vs.sum else .ok vs.prod⟩
  have hF : ∀ vs, F.op "sum".toList vs = .ok vs.sum ∧ F.op "prod".toList vs = .ok vs.prod :=
    fun vs => ⟨rfl, rfl⟩
  let φ : (ℕ → ℕ) → MvPolynomial ℕ ℕ →+* ℤ := fun w => (Nat.castRingHom ℤ).comp (MvPolynomial.eval w)
  have hom : ∀ w : ℕ → ℕ, SameElems S True (φ w) F E refEinsum refEinsum := by
    intro w
    subst hS
    refine ⟨fun o ho vs => ?_, fun _ p xs => refEinsum_map _ p xs⟩
    rcases List.mem_cons.1 ho with rfl | ho
    · rw [(hF vs).1, (hE _).1]
      simp only [Except.map, Except.ok.injEq, map_list_sum]
    · obtain rfl := List.mem_singleton.1 ho
      rw [(hF vs).2, (hE _).2]
      simp only [Except.map, Except.ok.injEq, map_list_prod]
  have run : ∀ w : ℕ → ℕ, ∀ R, FunctionUses S True R →
      runFunction s E refEinsum R (g.map (Tensor.map fun k => (w k : ℤ))) =
        (runFunction s F refEinsum R (g.map (Tensor.map MvPolynomial.X))).map (List.map (Tensor.map (φ w))) := by
    intro w R hR
    rw [← runFunction_map (hom w) s hR, map_comp]
    simp [Function.comp_def, φ]
  refine C80_products s hS hP hQ hF hE' hg ?_ hs
  have small : ∀ (c : ℕ) (b : ℕ), (∀ R ∈ [P, Q], ∀ ys, runFunction s E refEinsum R (g.map (Tensor.map fun _ => (c : ℤ))) = .ok ys →
      ∀ y ∈ ys, ∀ v ∈ y.data, v < (b : ℤ)) → ∀ R ∈ [P, Q], FunctionUses S True R → ∀ ys,
      runFunction s F refEinsum R (g.map (Tensor.map MvPolynomial.X)) = .ok ys → ∀ y ∈ ys, ∀ p ∈ y.data,
      MvPolynomial.eval (fun _ => c) p < b := by
    intro c b hc R hR hu ys hys y hy p hp
    have := hc R hR (ys.map (Tensor.map (φ fun _ => c))) (by rw [run (fun _ => c) R hu, hys]; rfl)
      _ (List.mem_map_of_mem hy) _ (List.mem_map_of_mem hp)
    simpa [φ] using this
  have g1 := small 1 B (by simpa using h1)
  have g2 := small 2 (2 ^ D) (by simpa using h2)
  have h' : runFunction s E refEinsum P (g.map (Tensor.map fun k => ((B ^ D ^ k : ℕ) : ℤ))) =
      runFunction s E refEinsum Q (g.map (Tensor.map fun k => ((B ^ D ^ k : ℕ) : ℤ))) := by simpa using h
  rw [run (fun k => B ^ D ^ k) P hP, run (fun k => B ^ D ^ k) Q hQ] at h'
  refine ok_map_inj (A := fun p : MvPolynomial ℕ ℕ => MvPolynomial.eval (fun _ => 1) p < B ∧
      MvPolynomial.eval (fun _ => 2) p < 2 ^ D) ?_
    (fun ys e y hy p hp => ⟨g1 P (by simp) hP ys e y hy p hp, g2 P (by simp) hP ys e y hy p hp⟩)
    (fun ys e y hy p hp => ⟨g1 Q (by simp) hQ ys e y hy p hp, g2 Q (by simp) hQ ys e y hy p hp⟩) h'
  intro p q hp hq hpq
  refine polynomials_inj hp.1 hq.1 hp.2 hq.2 ?_
  simpa [φ] using hpq

/-- Functions that move elements and take maxima (of at least one element): it is enough that they agree on the tensors
that have `hi` at one place and `lo` elsewhere, for all places, and on the one that has `lo` everywhere. -/
theorem C80_maxima {γ β α : Type u} [LinearOrder β] [SemilatticeSup α] [Nonempty α] [DecidableEq γ] (s : Setup) {o : Str}
    (hP : FunctionUses [o] False P) (hQ : FunctionUses [o] False Q) {e : PyErr}
    {E : ElemOps β} (hE0 : E.op o [] = .error e) (hE : ∀ v vs, E.op o (v :: vs) = .ok (vs.foldl max v))
    {E' : ElemOps α} (hE0' : E'.op o [] = .error e) (hE' : ∀ v vs, E'.op o (v :: vs) = .ok (vs.foldl (· ⊔ ·) v))
    {ein : Str → List (Tensor β) → Py (Tensor β)} {ein' : Str → List (Tensor α) → Py (Tensor α)}
    {g : List (Tensor γ)} (hg : AllDifferent g) {lo hi : β} (hlt : lo < hi)
    (h : ∀ k, runFunction s E ein P (g.map (Tensor.map fun i => if i = k then hi else lo)) =
      runFunction s E ein Q (g.map (Tensor.map fun i => if i = k then hi else lo)))
    (h0 : runFunction s E ein P (g.map (Tensor.map fun _ => lo)) = runFunction s E ein Q (g.map (Tensor.map fun _ => lo)))
    {xs : List (Tensor α)} (hs : xs.map Tensor.shape = g.map Tensor.shape) :
    runFunction s E' ein' P xs = runFunction s E' ein' Q xs := by
  let F : ElemOps {m : Finset γ // m.Nonempty} := ⟨fun _ vs => match vs with
    | [] => .error e
    | v :: vs => .ok (vs.foldl (fun a b => ⟨a.1 ∪ b.1, a.2.mono Finset.subset_union_left⟩) v)⟩
  let ein0 : Str → List (Tensor {m : Finset γ // m.Nonempty}) → Py (Tensor {m : Finset γ // m.Nonempty}) :=
    fun _ _ => .error .backend
  have hom : ∀ {δ : Type u} [SemilatticeSup δ] (G : ElemOps δ) (ein₁ : Str → List (Tensor δ) → Py (Tensor δ)),
      G.op o [] = .error e → (∀ v vs, G.op o (v :: vs) = .ok (vs.foldl (· ⊔ ·) v)) → ∀ w : γ → δ,
      SameElems [o] False (fun m : {m : Finset γ // m.Nonempty} => m.1.sup' m.2 w) F G ein0 ein₁ := by
    intro δ _ G ein₁ h0 h1 w
    refine ⟨fun o' ho vs => ?_, fun h => h.elim⟩
    obtain rfl := List.mem_singleton.1 ho
    cases vs with
    | nil => simp [h0, F, Except.map]
    | cons v vs =>
      rw [List.map_cons, h1]
      simp only [F, Except.map, Except.ok.injEq]
      induction vs generalizing v with
      | nil => rfl
      | cons a vs ih =>
        simp only [List.map_cons, List.foldl_cons]
        rw [← ih]
        congr 1
        exact (Finset.sup'_union v.2 a.2 w).symm
  have run : ∀ {δ : Type u} [SemilatticeSup δ] (G : ElemOps δ) (ein₁ : Str → List (Tensor δ) → Py (Tensor δ)),
      G.op o [] = .error e → (∀ v vs, G.op o (v :: vs) = .ok (vs.foldl (· ⊔ ·) v)) → ∀ w : γ → δ,
      ∀ R, FunctionUses [o] False R → runFunction s G ein₁ R (g.map (Tensor.map w)) =
        (runFunction s F ein0 R (g.map (Tensor.map fun k => ⟨{k}, Finset.singleton_nonempty k⟩))).map
        (List.map (Tensor.map fun m : {m : Finset γ // m.Nonempty} => m.1.sup' m.2 w)) := by
    intro δ _ G ein₁ h0 h1 w R hR
    rw [← runFunction_map (hom G ein₁ h0 h1 w) s hR, map_comp]
    simp [Function.comp_def]
  obtain ⟨f, rfl⟩ := exists_map hg hs
  rw [run E' ein' hE0' hE' f P hP, run E' ein' hE0' hE' f Q hQ]
  congr 1
  rw [run E ein hE0 hE _ P hP, run E ein hE0 hE _ Q hQ] at h0
  have h := fun k => by
    have := h k
    rwa [run E ein hE0 hE _ P hP, run E ein hE0 hE _ Q hQ] at this
  have key : ∀ (m : {m : Finset γ // m.Nonempty}) (k : γ),
      m.1.sup' m.2 (fun i => if i = k then hi else lo) = hi ↔ k ∈ m.1 := by
    intro m k
    constructor
    · intro hm
      by_contra hk
      have : m.1.sup' m.2 (fun i => if i = k then hi else lo) = lo := by
        rw [Finset.sup'_congr m.2 rfl (g := fun _ => lo) (fun i hi => if_neg (fun (e : i = k) => hk (e ▸ hi)))]
        exact Finset.sup'_const m.2 lo
      rw [this] at hm
      exact absurd hm (ne_of_lt hlt)
    · intro hk
      apply le_antisymm
      · exact Finset.sup'_le _ _ (fun i _ => by split <;> [exact le_refl _; exact hlt.le])
      · have := Finset.le_sup' (fun i => if i = k then hi else lo) hk
        rwa [if_pos rfl] at this
  generalize runFunction s F ein0 P (g.map (Tensor.map fun k => ⟨{k}, Finset.singleton_nonempty k⟩)) = x at h h0
  generalize runFunction s F ein0 Q (g.map (Tensor.map fun k => ⟨{k}, Finset.singleton_nonempty k⟩)) = y at h h0
  cases x with
  | error e =>
    cases y with
    | error e' => simpa [Except.map] using h0
    | ok ys => cases h0
  | ok xs =>
    cases y with
    | error e' => cases h0
    | ok ys =>
      simp only [Except.map, Except.ok.injEq] at h h0 ⊢
      induction xs generalizing ys with
      | nil => cases ys <;> simp_all
      | cons x xs ih =>
        cases ys with
        | nil => cases h0
        | cons y ys =>
          simp only [List.map_cons, List.cons.injEq, forall_and] at h h0
          rw [ih ys h.2 h0.2]
          congr 1
          have e1 : (x.map fun m : {m : Finset γ // m.Nonempty} => m.1.sup' m.2 fun _ => lo).shape = _ :=
            congrArg Tensor.shape h0.1
          refine Tensor.eq_of e1 ?_
          have e2 : ∀ k, x.data.map (fun m : {m : Finset γ // m.Nonempty} => m.1.sup' m.2 fun i => if i = k then hi else lo) =
              y.data.map (fun m : {m : Finset γ // m.Nonempty} => m.1.sup' m.2 fun i => if i = k then hi else lo) :=
            fun k => congrArg Tensor.data (h.1 k)
          have e3 : x.data.length = y.data.length := by rw [x.wf, y.wf]; exact congrArg List.prod e1
          clear e1 h h0 ih
          revert e2 e3
          generalize x.data = l
          generalize y.data = l'
          intro e2 e3
          induction l generalizing l' with
          | nil => cases l' <;> simp_all
          | cons a l ih =>
            cases l' with
            | nil => cases e3
            | cons b l' =>
              simp only [List.map_cons, List.cons.injEq, forall_and] at e2
              rw [ih l' e2.2 (by simpa using e3)]
              congr 1
              refine Subtype.ext (Finset.ext fun k => ?_)
              rw [← key a k, ← key b k, e2.1 k]

/-- The same for minima. -/
theorem C80_minima {γ β α : Type u} [LinearOrder β] [SemilatticeInf α] [Nonempty α] [DecidableEq γ] (s : Setup) {o : Str}
    (hP : FunctionUses [o] False P) (hQ : FunctionUses [o] False Q) {e : PyErr}
    {E : ElemOps β} (hE0 : E.op o [] = .error e) (hE : ∀ v vs, E.op o (v :: vs) = .ok (vs.foldl min v))
    {E' : ElemOps α} (hE0' : E'.op o [] = .error e) (hE' : ∀ v vs, E'.op o (v :: vs) = .ok (vs.foldl (· ⊓ ·) v))
    {ein : Str → List (Tensor β) → Py (Tensor β)} {ein' : Str → List (Tensor α) → Py (Tensor α)}
    {g : List (Tensor γ)} (hg : AllDifferent g) {lo hi : β} (hlt : lo < hi)
    (h : ∀ k, runFunction s E ein P (g.map (Tensor.map fun i => if i = k then lo else hi)) =
      runFunction s E ein Q (g.map (Tensor.map fun i => if i = k then lo else hi)))
    (h0 : runFunction s E ein P (g.map (Tensor.map fun _ => hi)) = runFunction s E ein Q (g.map (Tensor.map fun _ => hi)))
    {xs : List (Tensor α)} (hs : xs.map Tensor.shape = g.map Tensor.shape) :
    runFunction s E' ein' P xs = runFunction s E' ein' Q xs :=
  C80_maxima (β := βᵒᵈ) (α := αᵒᵈ) s hP hQ (E := E) hE0 hE (E' := E') hE0' hE' (ein := ein) (ein' := ein') hg
    (lo := OrderDual.toDual hi) (hi := OrderDual.toDual lo) hlt h h0 hs

end

section
attribute [local instance] asciiUnicode

def numpySetup : Setup := ⟨.numpy, true, true, idOrder⟩
def torchSetup : Setup := ⟨.torch, true, false, revOrder⟩
def noEinsum {α : Type} : Str → List (Tensor α) → Py (Tensor α) := fun _ _ => .error .backend

/-- `def f(x): y = rearrange(x, 'a b -> b a'); return rearrange(y, 'b a -> (a b)')` -/
def twoMoves : TensorFunction := fun _ =>
  .call (.rearrange (.one 0) "a b -> b a".toList []) fun _ =>
    .call (.rearrange (.one 1) "b a -> (a b)".toList []) fun _ => .ret [2]
/-- `def f(x): return rearrange(x, 'a b -> (a b)')` -/
def oneMove : TensorFunction := fun _ => .call (.rearrange (.one 0) "a b -> (a b)".toList []) fun _ => .ret [1]
/-- `def f(x): return rearrange(x, 'a b -> (b a)')` -/
def otherMove : TensorFunction := fun _ => .call (.rearrange (.one 0) "a b -> (b a)".toList []) fun _ => .ret [1]

theorem twoMoves_uses (S : List Str) (e : Prop) : FunctionUses S e twoMoves :=
  fun _ => .call trivial fun _ => .call trivial fun _ => .ret _
theorem oneMove_uses (S : List Str) (e : Prop) : FunctionUses S e oneMove := fun _ => .call trivial fun _ => .ret _

-- one test is enough for all tensors of this shape
example (xs : List (Tensor ℚ)) (hs : xs.map Tensor.shape = [[2, 3]]) :
    runFunction numpySetup ratOps noEinsum twoMoves xs = runFunction numpySetup ratOps noEinsum oneMove xs :=
  C80_moves (g := [t23]) (E := intOps) (ein := noEinsum) numpySetup (twoMoves_uses _ _) (oneMove_uses _ _)
    (by unfold AllDifferent; decide) (by rfl) hs
example : runFunction numpySetup intOps noEinsum twoMoves [t23] = .ok [⟨[6], [0, 1, 2, 3, 4, 5], rfl⟩] := by rfl
-- it tells other functions apart
example : runFunction numpySetup intOps noEinsum otherMove [t23] = .ok [⟨[6], [0, 3, 1, 4, 2, 5], rfl⟩] := by rfl
-- but not if elements of the tensor are equal
example : runFunction numpySetup intOps noEinsum otherMove [⟨[2, 3], [0, 0, 0, 0, 0, 1], rfl⟩] =
    .ok [⟨[6], [0, 0, 0, 0, 0, 1], rfl⟩] := by rfl
example : runFunction numpySetup intOps noEinsum oneMove [⟨[2, 3], [0, 0, 0, 0, 0, 1], rfl⟩] =
    .ok [⟨[6], [0, 0, 0, 0, 0, 1], rfl⟩] := by rfl
-- an exception is a result too: here both raise EinopsError
example : runFunction numpySetup intOps noEinsum twoMoves [⟨[3], [0, 1, 2], rfl⟩] = .error .einops := by rfl

/-- `def f(x, y): z, ps = pack([x, y], 'i *'); return unpack(z, ps, 'i *')`, the shapes `ps` being known -/
def packUnpack : TensorFunction := fun shapes =>
  .call (.pack [0, 1] "i *".toList) fun _ =>
    .call (.unpack 2 (shapes.map fun r => r.tail.map Int.ofNat) "i *".toList) fun _ => .ret [3, 4]
/-- `def f(x, y): return x, y` -/
def bothArgs : TensorFunction := fun _ => .ret [0, 1]

theorem packUnpack_uses (S : List Str) (e : Prop) : FunctionUses S e packUnpack :=
  fun _ => .call trivial fun _ => .call trivial fun _ => .ret _

example (xs : List (Tensor ℚ)) (hs : xs.map Tensor.shape = [[2, 3], [2]]) :
    runFunction torchSetup ratOps noEinsum packUnpack xs = runFunction torchSetup ratOps noEinsum bothArgs xs :=
  C80_moves (g := [t23, ⟨[2], [6, 7], rfl⟩]) (E := intOps) (ein := noEinsum) torchSetup
    (packUnpack_uses _ _) (fun _ => .ret _) (by unfold AllDifferent; decide) (by rfl) hs

/-- `def f(x): y = reduce(x, 'a b -> b', 'sum'); return reduce(y, 'b ->', 'sum')` -/
def twoSums : TensorFunction := fun _ =>
  .call (.reduce (.one 0) "a b -> b".toList "sum".toList []) fun _ =>
    .call (.reduce (.one 1) "b -> ".toList "sum".toList []) fun _ => .ret [2]
/-- `def f(x): return reduce(x, 'a b -> ', 'sum')` -/
def oneSum : TensorFunction := fun _ => .call (.reduce (.one 0) "a b -> ".toList "sum".toList []) fun _ => .ret [1]

theorem twoSums_uses {S : List Str} (h : "sum".toList ∈ S) (e : Prop) : FunctionUses S e twoSums :=
  fun _ => .call h fun _ => .call h fun _ => .ret _
theorem oneSum_uses {S : List Str} (h : "sum".toList ∈ S) (e : Prop) : FunctionUses S e oneSum :=
  fun _ => .call h fun _ => .ret _

def n23 : Tensor ℕ := ⟨[2, 3], [0, 1, 2, 3, 4, 5], rfl⟩

-- two tests are enough: ones (the sums are 6) and powers of 7
example (xs : List (Tensor ℚ)) (hs : xs.map Tensor.shape = [[2, 3]]) :
    runFunction numpySetup ratOps noEinsum twoSums xs = runFunction numpySetup ratOps noEinsum oneSum xs :=
  C80_sums_test (g := [n23]) (B := 7) (E := intOps) (ein := noEinsum) numpySetup
    (twoSums_uses (by simp) _) (oneSum_uses (by simp) _) (fun _ => rfl) (fun _ => rfl) (by unfold AllDifferent; decide)
    (by
      intro R hR ys h
      have : ys = [⟨[], [6], rfl⟩] := by
        rcases List.mem_cons.1 hR with rfl | hR
        · exact (Except.ok.inj h).symm
        · obtain rfl := List.mem_singleton.1 hR
          exact (Except.ok.inj h).symm
      subst this
      decide) (by rfl) hs

/-- `def f(x): a, b, c, d = unpack(x, [[], [], [], []], '*'); return reduce([a, d], 'n ->', 'sum')` -/
def outerSum : TensorFunction := fun _ =>
  .call (.unpack 0 [[], [], [], []] "*".toList) fun _ =>
    .call (.reduce (.many [1, 4]) "n -> ".toList "sum".toList []) fun _ => .ret [5]
/-- `def f(x): a, b, c, d = unpack(x, [[], [], [], []], '*'); return reduce([b, c], 'n ->', 'sum')` -/
def innerSum : TensorFunction := fun _ =>
  .call (.unpack 0 [[], [], [], []] "*".toList) fun _ =>
    .call (.reduce (.many [2, 3]) "n -> ".toList "sum".toList []) fun _ => .ret [5]

-- `arange` does not tell sums apart, different powers do
example : runFunction numpySetup intOps noEinsum outerSum [vec 4] = runFunction numpySetup intOps noEinsum innerSum [vec 4] := by
  rfl
example : runFunction numpySetup intOps noEinsum outerSum [⟨[4], [1, 3, 9, 27], rfl⟩] = .ok [⟨[], [28], rfl⟩] := by rfl
example : runFunction numpySetup intOps noEinsum innerSum [⟨[4], [1, 3, 9, 27], rfl⟩] = .ok [⟨[], [12], rfl⟩] := by rfl

/-- `def f(x): return reduce(x, 'a b -> b', 'max')` -/
def columnMax : TensorFunction := fun _ => .call (.reduce (.one 0) "a b -> b".toList "max".toList []) fun _ => .ret [1]
/-- `def f(x): y, z = unpack(x, [[], []], '* b'); return z` -/
def lastRow : TensorFunction := fun _ => .call (.unpack 0 [[], []] "* b".toList) fun _ => .ret [2]

-- `arange` does not tell the maximum from the last element; ones at single places do
example : runFunction numpySetup intOps noEinsum columnMax [t23] = runFunction numpySetup intOps noEinsum lastRow [t23] := by rfl
example : runFunction numpySetup intOps noEinsum columnMax [n23.map fun i => if i = 0 then 1 else 0] =
    .ok [⟨[3], [1, 0, 0], rfl⟩] := by rfl
example : runFunction numpySetup intOps noEinsum lastRow [n23.map fun i => if i = 0 then 1 else 0] =
    .ok [⟨[3], [0, 0, 0], rfl⟩] := by rfl

/-- `def f(x): y = reduce(x, 'a b -> b', 'max'); return reduce(y, 'b ->', 'max')` -/
def twoMaxima : TensorFunction := fun _ =>
  .call (.reduce (.one 0) "a b -> b".toList "max".toList []) fun _ =>
    .call (.reduce (.one 1) "b -> ".toList "max".toList []) fun _ => .ret [2]
/-- `def f(x): return reduce(x, 'a b -> ', 'max')` -/
def oneMaximum : TensorFunction := fun _ => .call (.reduce (.one 0) "a b -> ".toList "max".toList []) fun _ => .ret [1]

theorem twoMaxima_uses : FunctionUses ["max".toList] False twoMaxima :=
  fun _ => .call (List.mem_singleton.2 rfl) fun _ => .call (List.mem_singleton.2 rfl) fun _ => .ret _
theorem oneMaximum_uses : FunctionUses ["max".toList] False oneMaximum :=
  fun _ => .call (List.mem_singleton.2 rfl) fun _ => .ret _

-- seven tests
example (xs : List (Tensor ℤ)) (hs : xs.map Tensor.shape = [[2, 3]]) :
    runFunction numpySetup intOps noEinsum twoMaxima xs = runFunction numpySetup intOps noEinsum oneMaximum xs :=
  C80_maxima (γ := Fin 6) (g := [⟨[2, 3], [0, 1, 2, 3, 4, 5], rfl⟩]) (E := intOps) (ein := noEinsum) (lo := 0) (hi := 1) numpySetup
    (o := "max".toList) twoMaxima_uses oneMaximum_uses rfl (fun _ _ => rfl) rfl (fun _ _ => rfl)
    (by unfold AllDifferent; decide) (by decide) (by intro k; fin_cases k <;> rfl) (by rfl) hs

/-- `def f(x, y): return einsum(x, y, 'i j, j k -> i k')` -/
def product : TensorFunction := fun _ => .call (.einsum [0, 1] "i j, j k -> i k".toList) fun _ => .ret [2]
/-- `def f(x, y): z = einsum(x, y, 'i j, j k -> i k j'); return reduce(z, 'i k j -> i k', 'sum')` -/
def productSum : TensorFunction := fun _ =>
  .call (.einsum [0, 1] "i j, j k -> i k j".toList) fun _ =>
    .call (.reduce (.one 2) "i k j -> i k".toList "sum".toList []) fun _ => .ret [3]

theorem product_uses (S : List Str) : FunctionUses S True product := fun _ => .call trivial fun _ => .ret _
theorem productSum_uses {S : List Str} (h : "sum".toList ∈ S) : FunctionUses S True productSum :=
  fun _ => .call trivial fun _ => .call h fun _ => .ret _

def n12 : Tensor ℕ := ⟨[1, 2], [0, 1], rfl⟩
def n22 : Tensor ℕ := ⟨[2, 2], [2, 3, 4, 5], rfl⟩

example : runFunction numpySetup intOps refEinsum product [n12.map fun _ => 2, n22.map fun _ => 2] =
    .ok [⟨[1, 2], [8, 8], rfl⟩] := by rfl

-- three tests: ones (2 is less than 3), twos (8 is less than 16) and the numbers 3 ^ 4 ^ k
example (xs : List (Tensor ℚ)) (hs : xs.map Tensor.shape = [[1, 2], [2, 2]]) :
    runFunction numpySetup ratOps refEinsum product xs = runFunction numpySetup ratOps refEinsum productSum xs :=
  C80_products_test (g := [n12, n22]) (B := 3) (D := 4) (E := intOps) numpySetup rfl
    (product_uses _) (productSum_uses (by simp)) (fun _ => ⟨rfl, rfl⟩) (fun _ => ⟨rfl, rfl⟩) (by unfold AllDifferent; decide)
    (by
      intro R hR ys h
      have : ys = [⟨[1, 2], [2, 2], rfl⟩] := by
        rcases List.mem_cons.1 hR with rfl | hR
        · exact (Except.ok.inj h).symm
        · obtain rfl := List.mem_singleton.1 hR
          exact (Except.ok.inj h).symm
      subst this
      decide)
    (by
      intro R hR ys h
      have : ys = [⟨[1, 2], [8, 8], rfl⟩] := by
        rcases List.mem_cons.1 hR with rfl | hR
        · exact (Except.ok.inj h).symm
        · obtain rfl := List.mem_singleton.1 hR
          exact (Except.ok.inj h).symm
      subst this
      decide) (by decide +kernel) hs

end

end Einops
