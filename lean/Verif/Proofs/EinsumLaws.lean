import Verif.EinsumRef
import Verif.LawSpec
import Verif.Proofs.EinMixForward
import Mathlib.Algebra.BigOperators.Ring.List
import Mathlib.Data.List.Nodup

/-!
# Laws of contractions
-/

namespace Einops

universe u
variable {α : Type u} [CommSemiring α]

/-- the summed axes can be listed -/
theorem summed_exists (As : List (List Axis)) (B : List Axis) :
    ∃ S : List Axis, S.Nodup ∧ ∀ a, a ∈ S ↔ (∃ A ∈ As, a ∈ A) ∧ a ∉ B :=
  ⟨(As.flatten.dedup).filter (fun a => a ∉ B), (List.nodup_dedup _).filter _, fun a => by
    rw [List.mem_filter, List.mem_dedup, List.mem_flatten]; simp⟩

theorem Contracts.unique {len : AxisMap} {As : List (List Axis)} {B : List Axis} {xs : List (Tensor α)} {y y' : Tensor α}
    (hB : B.Nodup) (h : Contracts len As B xs y) (h' : Contracts len As B xs y') : y = y' := by
  apply Tensor.ext_at? (h.1.trans h'.1.symm)
  intro i hi
  rw [h.1] at hi
  obtain ⟨env, henv, rfl⟩ := exists_env_axes hB hi
  obtain ⟨S, hS, hm⟩ := summed_exists As B
  rw [h.2 S hS hm env henv, h'.2 S hS hm env henv]

theorem termProd_zip (As : List (List Axis)) (xs : List (Tensor α)) (e : AxisMap) :
    termProd As xs e = ((As.zip xs).map (fun p => entry p.2 (p.1.map e))).prod := by
  unfold termProd
  rw [List.zip, List.map_zipWith]

theorem mem_zip_left {β γ : Type*} {As : List β} {xs : List γ} (h : As.length = xs.length) {A : β} :
    A ∈ As ↔ ∃ x, (A, x) ∈ As.zip xs := by
  constructor
  · intro hA
    obtain ⟨i, hi, rfl⟩ := List.getElem_of_mem hA
    exact ⟨xs[i]'(h ▸ hi), List.mem_iff_getElem.2 ⟨i, by simpa using ⟨hi, h ▸ hi⟩, by simp⟩⟩
  · rintro ⟨x, hx⟩
    exact (List.of_mem_zip hx).1

/-- The order of the factors does not matter. -/
theorem Contracts.perm {len : AxisMap} {As As' : List (List Axis)} {B : List Axis} {xs xs' : List (Tensor α)} {y : Tensor α}
    (hl : As.length = xs.length) (hl' : As'.length = xs'.length) (hp : (As.zip xs).Perm (As'.zip xs'))
    (h : Contracts len As B xs y) : Contracts len As' B xs' y := by
  refine ⟨h.1, fun S hS hm env henv => ?_⟩
  rw [h.2 S hS (fun a => ?_) env henv]
  · congr 3
    funext e
    rw [termProd_zip, termProd_zip]
    exact (hp.map _).prod_eq
  · rw [hm]
    have : ∀ A, A ∈ As' ↔ A ∈ As := fun A => by
      rw [mem_zip_left hl, mem_zip_left hl']
      exact exists_congr (fun x => (hp.mem_iff).symm)
    simp only [this]

/-- The axes of the result in another order. -/
theorem Contracts.reorder {len : AxisMap} {As : List (List Axis)} {B B' : List Axis} {xs : List (Tensor α)} {y z : Tensor α}
    (h : Contracts len As B xs y) (hBB : ∀ a, a ∈ B ↔ a ∈ B')
    (hm : Moves len (B.map (fun a => [a])) (B'.map (fun a => [a])) y z) : Contracts len As B' xs z := by
  refine ⟨by rw [hm.1, singles_size], fun S hS hS' env henv => ?_⟩
  have h1 := h.2 S hS (fun a => by rw [hS', hBB]) env (fun a ha => henv a ((hBB a).1 ha))
  obtain ⟨v, e1, e2⟩ := hm.2 env (by
    rw [singles_flatten, singles_flatten]
    intro a ha
    rcases List.mem_append.1 ha with ha | ha
    · exact henv a ((hBB a).1 ha)
    · exact henv a ha)
  rw [singles_at] at e1 e2
  rw [e2, ← e1, h1]

/-! ### one factor -/

/-- A contraction of one tensor is a sum over the axes that are left out. -/
theorem Reduces.contracts {op : List α → Py α} (hop : ∀ vs, op vs = .ok vs.sum) {len : AxisMap} {A B : List Axis}
    {x y : Tensor α} (hA : A.Nodup) (h : Reduces op len (A.map (fun a => [a])) (B.map (fun a => [a])) x y) :
    Contracts len [A] B [x] y := by
  refine ⟨by rw [h.1, singles_size], fun S hS hm env henv => ?_⟩
  obtain ⟨vs, v, h1, h2, h3⟩ := h.2 env (by rw [singles_flatten]; exact henv)
  rw [singles_at] at h3
  rw [hop] at h2
  cases h2
  rw [h3]
  congr 1
  simp only [singles_flatten] at h1
  have hp : (A.filter (fun a => decide (a ∉ B))).Perm S := by
    rw [List.perm_ext_iff_of_nodup (hA.filter _) hS]
    intro a
    rw [hm, List.mem_filter]
    simp
  have h4 : vs = ((loops len (A.filter (fun a => decide (a ∉ B))) env).map (termProd [A] [x])) := by
    apply List.map_injective_iff.2 (Option.some_injective _)
    rw [← h1, List.map_map]
    apply List.map_congr_left
    intro e he
    have hv : ∃ v, x.atAxes (A.map (fun a => [a])) len e = some v := by
      have : x.atAxes (A.map (fun a => [a])) len e ∈ vs.map some := by
        rw [← h1]; exact List.mem_map_of_mem he
      obtain ⟨v, -, hv⟩ := List.mem_map.1 this
      exact ⟨v, hv.symm⟩
    obtain ⟨v, hv⟩ := hv
    simp only [Function.comp, termProd, List.zipWith_cons_cons, List.zipWith_nil_right, List.prod_cons, List.prod_nil,
      mul_one, entry]
    rw [hv, ← singles_at x len e A, hv]
    rfl
  rw [h4]
  exact ((loops_perm len hp (hA.filter _) env).map _).sum_eq

/-- Without summed axes it is a change of the order. -/
theorem Moves.contracts {len : AxisMap} {A B : List Axis} {x y : Tensor α} (hAB : ∀ a ∈ A, a ∈ B)
    (h : Moves len (A.map (fun a => [a])) (B.map (fun a => [a])) x y) : Contracts len [A] B [x] y := by
  refine ⟨by rw [h.1, singles_size], fun S hS hm env henv => ?_⟩
  have hS : S = [] := by
    rw [List.eq_nil_iff_forall_not_mem]
    intro a ha
    obtain ⟨⟨A', hA', ha'⟩, hn⟩ := (hm a).1 ha
    simp only [List.mem_singleton] at hA'
    subst hA'
    exact hn (hAB a ha')
  subst hS
  obtain ⟨v, e1, e2⟩ := h.2 env (by
    rw [singles_flatten, singles_flatten]
    intro a ha
    rcases List.mem_append.1 ha with ha | ha
    · exact henv a (hAB a ha)
    · exact henv a ha)
  rw [singles_at] at e1 e2
  rw [e2]
  simp [loops, termProd, entry, e1]

/-! ### linearity -/

theorem entry_zip_add {x x' : Tensor α} (h : x'.shape = x.shape) (i : List Nat) :
    entry (x.zipWith (· + ·) x' h) i = entry x i + entry x' i := by
  unfold entry Tensor.at? Tensor.zipWith
  simp only [h]
  by_cases hb : inBounds i x.shape = true
  · simp only [hb, if_true]
    have h1 : ravel x.shape i < x.data.length := by rw [x.wf]; exact ravel_lt hb
    have h2 : ravel x.shape i < x'.data.length := by rw [x'.wf, h]; exact ravel_lt hb
    rw [List.getElem?_zipWith, List.getElem?_eq_getElem h1, List.getElem?_eq_getElem h2]
    simp
  · simp [hb]

theorem entry_map_mul (c : α) (x : Tensor α) (i : List Nat) : entry (x.map (c * ·)) i = c * entry x i := by
  unfold entry Tensor.at? Tensor.map
  simp only
  split
  · rw [List.getElem?_map]
    cases x.data[ravel x.shape i]? <;> simp
  · simp

theorem termProd_split {As As' : List (List Axis)} {A : List Axis} {xs xs' : List (Tensor α)} {x : Tensor α}
    (h : As.length = xs.length) (e : AxisMap) :
    termProd (As ++ A :: As') (xs ++ x :: xs') e = entry x (A.map e) * (termProd As xs e * termProd As' xs' e) := by
  unfold termProd
  rw [List.zipWith_append h, List.zipWith_cons_cons, List.prod_append, List.prod_cons]
  ring

theorem termProd_append {As As' : List (List Axis)} {xs xs' : List (Tensor α)} (h : As.length = xs.length) (e : AxisMap) :
    termProd (As ++ As') (xs ++ xs') e = termProd As xs e * termProd As' xs' e := by
  unfold termProd
  rw [List.zipWith_append h, List.prod_append]

theorem at_of_shape {y : Tensor α} {len : AxisMap} {B : List Axis} (hs : y.shape = B.map len) {env : AxisMap}
    (h : InRange len B env) : y.at? (B.map env) = some (entry y (B.map env)) := by
  obtain ⟨v, hv⟩ := y.at?_isSome (i := B.map env) (by rw [hs]; exact inBounds_map.2 h)
  rw [entry, hv]; rfl

/-- the formula in terms of entries -/
theorem contracts_iff {len : AxisMap} {As : List (List Axis)} {B : List Axis} {xs : List (Tensor α)} {y : Tensor α} :
    Contracts len As B xs y ↔ y.shape = B.map len ∧
      ∀ S : List Axis, S.Nodup → (∀ a, a ∈ S ↔ (∃ A ∈ As, a ∈ A) ∧ a ∉ B) →
        ∀ env, InRange len B env → entry y (B.map env) = ((loops len S env).map (termProd As xs)).sum := by
  constructor
  · rintro ⟨h1, h2⟩
    refine ⟨h1, fun S hS hm env henv => ?_⟩
    have := h2 S hS hm env henv
    rw [at_of_shape h1 henv] at this
    exact Option.some.inj this
  · rintro ⟨h1, h2⟩
    refine ⟨h1, fun S hS hm env henv => ?_⟩
    rw [at_of_shape h1 henv, h2 S hS hm env henv]

/-- Contractions are additive in every factor. -/
theorem Contracts.add {len : AxisMap} {As As' : List (List Axis)} {A B : List Axis} {xs xs' : List (Tensor α)}
    {x x' y y' : Tensor α} (hl : As.length = xs.length) (hx : x'.shape = x.shape) (hy : y'.shape = y.shape)
    (h : Contracts len (As ++ A :: As') B (xs ++ x :: xs') y)
    (h' : Contracts len (As ++ A :: As') B (xs ++ x' :: xs') y') :
    Contracts len (As ++ A :: As') B (xs ++ x.zipWith (· + ·) x' hx :: xs') (y.zipWith (· + ·) y' hy) := by
  rw [contracts_iff] at h h' ⊢
  refine ⟨h.1, fun S hS hm env henv => ?_⟩
  rw [entry_zip_add, h.2 S hS hm env henv, h'.2 S hS hm env henv, ← List.sum_map_add]
  congr 2
  funext e
  rw [termProd_split hl, termProd_split hl, termProd_split hl, entry_zip_add, add_mul]

/-- Contractions are homogeneous in every factor. -/
theorem Contracts.smul {len : AxisMap} {As As' : List (List Axis)} {A B : List Axis} {xs xs' : List (Tensor α)}
    {x y : Tensor α} (c : α) (hl : As.length = xs.length)
    (h : Contracts len (As ++ A :: As') B (xs ++ x :: xs') y) :
    Contracts len (As ++ A :: As') B (xs ++ x.map (c * ·) :: xs') (y.map (c * ·)) := by
  rw [contracts_iff] at h ⊢
  refine ⟨h.1, fun S hS hm env henv => ?_⟩
  rw [entry_map_mul, h.2 S hS hm env henv, ← List.sum_map_mul_left]
  congr 2
  funext e
  rw [termProd_split hl, termProd_split hl, entry_map_mul, mul_assoc]

/-! ### contraction in stages -/

/-- Contracting some of the factors first, if the axes summed there occur nowhere else. -/
theorem Contracts.stages {len : AxisMap} {As As' : List (List Axis)} {B C : List Axis} {xs xs' : List (Tensor α)}
    {y z : Tensor α} (hl : As.length = xs.length) (hB : ∀ b ∈ B, b ∈ As.flatten)
    (hsep : ∀ a ∈ As.flatten, a ∉ B → a ∉ As'.flatten ∧ a ∉ C)
    (h : Contracts len As B xs y) (h' : Contracts len (B :: As') C (y :: xs') z) :
    Contracts len (As ++ As') C (xs ++ xs') z := by
  rw [contracts_iff] at h h' ⊢
  refine ⟨h'.1, fun S hS hm env henv => ?_⟩
  obtain ⟨S1, hS1, hm1⟩ := summed_exists As B
  obtain ⟨S2, hS2, hm2⟩ := summed_exists (B :: As') C
  rw [h'.2 S2 hS2 hm2 env henv]
  have hd : ∀ a ∈ S1, a ∉ S2 := by
    intro a h1 h2
    obtain ⟨⟨A, hA, ha⟩, hn⟩ := (hm1 a).1 h1
    have := hsep a (List.mem_flatten.2 ⟨A, hA, ha⟩) hn
    obtain ⟨⟨A', hA', ha'⟩, -⟩ := (hm2 a).1 h2
    rcases List.mem_cons.1 hA' with rfl | hA'
    · exact hn ha'
    · exact this.1 (List.mem_flatten.2 ⟨A', hA', ha'⟩)
  have hn : (S2 ++ S1).Nodup := List.nodup_append.2 ⟨hS2, hS1, fun a ha b hb e => hd b hb (e ▸ ha)⟩
  have hp : S.Perm (S2 ++ S1) := by
    rw [List.perm_ext_iff_of_nodup hS hn]
    intro a
    rw [hm, List.mem_append, hm1, hm2]
    constructor
    · rintro ⟨⟨A, hA, ha⟩, hc⟩
      rcases List.mem_append.1 hA with hA | hA
      · by_cases hb : a ∈ B
        · exact .inl ⟨⟨B, by simp, hb⟩, hc⟩
        · exact .inr ⟨⟨A, hA, ha⟩, hb⟩
      · exact .inl ⟨⟨A, by simp [hA], ha⟩, hc⟩
    · rintro (⟨⟨A, hA, ha⟩, hc⟩ | ⟨⟨A, hA, ha⟩, hb⟩)
      · rcases List.mem_cons.1 hA with rfl | hA
        · obtain ⟨A', hA', ha'⟩ := List.mem_flatten.1 (hB a ha)
          exact ⟨⟨A', List.mem_append_left _ hA', ha'⟩, hc⟩
        · exact ⟨⟨A, List.mem_append_right _ hA, ha⟩, hc⟩
      · exact ⟨⟨A, List.mem_append_left _ hA, ha⟩, (hsep a (List.mem_flatten.2 ⟨A, hA, ha⟩) hb).2⟩
  rw [((loops_perm len hp hS env).map _).sum_eq, loops_append, List.map_flatMap, List.flatMap, List.sum_flatten, List.map_map]
  congr 1
  apply List.map_congr_left
  intro e he
  have hm := mem_loops he
  have hr : InRange len B e := by
    intro b hb
    by_cases hc : b ∈ C
    · rw [hm.1 b (fun h => ((hm2 b).1 h).2 hc)]; exact henv b hc
    · exact hm.2 hS2 b ((hm2 b).2 ⟨⟨B, by simp, hb⟩, hc⟩)
  have h1 : termProd (B :: As') (y :: xs') e = entry y (B.map e) * termProd As' xs' e := by
    simp [termProd]
  rw [h1, h.2 S1 hS1 hm1 e hr, Function.comp, ← List.sum_map_mul_right]
  congr 1
  apply List.map_congr_left
  intro e' he'
  rw [termProd_append hl]
  congr 1
  apply termProd_base
  intro a ha
  refine ((mem_loops he').1 a (fun h => ?_)).symm
  obtain ⟨⟨A, hA, ha'⟩, hnB⟩ := (hm1 a).1 h
  exact (hsep a (List.mem_flatten.2 ⟨A, hA, ha'⟩) hnB).1 ha

/-! ### patterns read both by `einsum` and by the other operations -/

section
variable [PyUnicode]

omit [CommSemiring α] in
theorem spread_syms {side n : Nat} {G : List Elem} {t : List ESym} (h : G.map readElem = t.map some)
    (hd : ellipsisStr ∉ symNames t) :
    spread (ellAxes n) (denote side 0 G) = (symAxes n t).map (fun a => [a]) := by
  rw [readElem_denote h]
  clear h
  induction t with
  | nil => rfl
  | cons a t ih =>
    cases a with
    | ell =>
      simp only [List.map_cons, symComp, spread, symAxes, List.map_append]
      rw [ih hd]
    | name w =>
      simp only [symNames, List.mem_cons, not_or] at hd
      simp only [List.map_cons, symComp, spread, symAxes]
      rw [ih hd.2]
      have : Axis.str w ≠ .str ellipsisStr := fun h => hd.1 (by cases h; rfl)
      simp [this]

omit [PyUnicode] in
theorem name_mem_symNames {w : Str} {t : List ESym} : w ∈ symNames t ↔ ESym.name w ∈ t := by
  induction t with
  | nil => simp [symNames]
  | cons a t ih => cases a <;> simp [symNames, ih]

theorem read_mem {G : List Elem} {t : List ESym} (h : G.map readElem = t.map some) {a : ESym} :
    a ∈ t ↔ ∃ e ∈ G, readElem e = some a := by
  have : some a ∈ t.map some ↔ a ∈ t := by simp
  rw [← this, ← h, List.mem_map]

theorem readElem_word {e : Elem} {a : ESym} (h : readElem e = some a) {w : Str} (hw : w ∈ e.words) :
    (IsNumber w ∧ decimalValue w = 1) ∨ (w = dots ∧ (a = .ell ∨ a = .name ellipsisStr)) ∨ (w ≠ dots ∧ ¬ IsNumber w ∧ a = .name w) := by
  have hrw : ∀ d, readWord w d = some a → (w = dots ∧ a = d) ∨ (w ≠ dots ∧ ¬ IsNumber w ∧ a = .name w) := by
    intro d hr
    unfold readWord at hr
    split at hr
    · cases hr; exact .inl ⟨‹_›, rfl⟩
    · split at hr
      · cases hr
      · cases hr; exact .inr ⟨‹_›, ‹_›, rfl⟩
  cases e with
  | bare v =>
    simp only [Elem.words, List.mem_singleton] at hw
    subst hw
    rcases hrw _ h with h1 | h1
    · exact .inr (.inl ⟨h1.1, .inl h1.2⟩)
    · exact .inr (.inr h1)
  | paren ws =>
    simp only [Elem.words] at hw
    by_cases hu : IsNumber w ∧ decimalValue w = 1
    · exact .inl hu
    · have hm : w ∈ ws.filter (fun w => decide (¬ (IsNumber w ∧ decimalValue w = 1))) :=
        List.mem_filter.2 ⟨hw, decide_eq_true hu⟩
      simp only [readElem] at h
      split at h
      · rename_i v hv
        rw [hv, List.mem_singleton] at hm
        subst hm
        rcases hrw _ h with h1 | h1
        · exact .inr (.inl ⟨h1.1, .inr h1.2⟩)
        · exact .inr (.inr h1)
      · cases h

theorem readElem_words {e : Elem} {a : ESym} (h : readElem e = some a) :
    (a = .ell → e = .bare dots) ∧ ∀ w, a = .name w → w ≠ ellipsisStr → w ∈ e.words := by
  have hrw : ∀ v d, readWord v d = some a → (v = dots ∧ a = d) ∨ a = .name v := by
    intro v d hr
    unfold readWord at hr
    split at hr
    · cases hr; exact .inl ⟨‹_›, rfl⟩
    · split at hr
      · cases hr
      · cases hr; exact .inr rfl
  cases e with
  | bare v =>
    rcases hrw _ _ h with ⟨rfl, rfl⟩ | rfl
    · exact ⟨fun _ => rfl, fun w hw => by cases hw⟩
    · refine ⟨fun hh => (by cases hh), fun w hw _ => ?_⟩
      cases hw; simp [Elem.words]
  | paren ws =>
    simp only [readElem] at h
    split at h
    · rename_i v hv
      have hm : v ∈ ws := by
        have : v ∈ ws.filter (fun w => decide (¬ (IsNumber w ∧ decimalValue w = 1))) := by rw [hv]; simp
        exact (List.mem_filter.1 this).1
      rcases hrw _ _ h with ⟨rfl, rfl⟩ | rfl
      · refine ⟨fun hh => (by cases hh), fun w hw hne => ?_⟩
        cases hw; exact absurd rfl hne
      · refine ⟨fun hh => (by cases hh), fun w hw _ => ?_⟩
        cases hw; exact hm
    · cases h

theorem read_words {G : List Elem} {t : List ESym} (h : G.map readElem = t.map some) (hd : ellipsisStr ∉ symNames t) {w : Str}
    (hw : ¬ IsNumber w) : w ∈ sideWords G ↔ (w = dots ∧ .ell ∈ t) ∨ (w ≠ dots ∧ w ≠ ellipsisStr ∧ w ∈ symNames t) := by
  rw [name_mem_symNames] at hd ⊢
  unfold sideWords
  rw [List.mem_flatMap]
  constructor
  · rintro ⟨e, he, hwe⟩
    obtain ⟨a, ha⟩ : ∃ a, readElem e = some a := by
      have : readElem e ∈ t.map some := h ▸ List.mem_map_of_mem he
      obtain ⟨a, -, ha⟩ := List.mem_map.1 this
      exact ⟨a, ha.symm⟩
    have hat := (read_mem h).2 ⟨e, he, ha⟩
    rcases readElem_word ha hwe with h1 | ⟨h1, rfl | rfl⟩ | ⟨h1, -, rfl⟩
    · exact absurd h1.1 hw
    · exact .inl ⟨h1, hat⟩
    · exact absurd hat hd
    · exact .inr ⟨h1, fun hh => hd (hh ▸ hat), hat⟩
  · rintro (⟨rfl, h1⟩ | ⟨h1, h2, h3⟩)
    · obtain ⟨e, he, ha⟩ := (read_mem h).1 h1
      refine ⟨e, he, ?_⟩
      rw [(readElem_words ha).1 rfl]
      simp [Elem.words]
    · obtain ⟨e, he, ha⟩ := (read_mem h).1 h3
      exact ⟨e, he, (readElem_words ha).2 w rfl h2⟩

theorem read_units {G : List Elem} {t : List ESym} (h : G.map readElem = t.map some) : OnlyUnits G := by
  intro w hw hn
  unfold sideWords at hw
  rw [List.mem_flatMap] at hw
  obtain ⟨e, he, hwe⟩ := hw
  obtain ⟨a, ha⟩ : ∃ a, readElem e = some a := by
    have : readElem e ∈ t.map some := h ▸ List.mem_map_of_mem he
    obtain ⟨a, -, ha⟩ := List.mem_map.1 this
    exact ⟨a, ha.symm⟩
  rcases readElem_word ha hwe with h1 | ⟨h1, -⟩ | ⟨-, h1, -⟩
  · exact h1.2
  · exact absurd hn (h1 ▸ fun h => number_ne_dots h rfl)
  · exact absurd hn h1

theorem read_paren {G : List Elem} {t : List ESym} (h : G.map readElem = t.map some) (hd : ellipsisStr ∉ symNames t)
    {ws : List Str} (hw : Elem.paren ws ∈ G) : dots ∉ ws := by
  intro hdw
  rw [name_mem_symNames] at hd
  obtain ⟨a, ha⟩ : ∃ a, readElem (.paren ws) = some a := by
    have : readElem (.paren ws) ∈ t.map some := h ▸ List.mem_map_of_mem hw
    obtain ⟨a, -, ha⟩ := List.mem_map.1 this
    exact ⟨a, ha.symm⟩
  rcases readElem_word ha (w := dots) hdw with h1 | ⟨-, rfl | rfl⟩ | ⟨h1, -⟩
  · exact number_ne_dots h1.1 rfl
  · exact absurd ((readElem_words ha).1 rfl) (by simp)
  · exact hd ((read_mem h).2 ⟨_, hw, ha⟩)
  · exact h1 rfl

omit [PyUnicode] in
theorem symAxes_no_ell {n m : Nat} {t : List ESym} (h : ESym.ell ∉ t) : symAxes n t = symAxes m t := by
  induction t with
  | nil => rfl
  | cons a t ih =>
    cases a with
    | ell => simp at h
    | name w => rw [symAxes, symAxes, ih (fun h' => h (by simp [h']))]

omit [CommSemiring α] in
/-- a change of the order of axes is a legal `rearrange` -/
theorem accepted_of_read {p : Str} {GL GR : List Elem} {t t' : List ESym} (hp : IsPattern p GL GR)
    (hl : GL.map readElem = t.map some) (hr : GR.map readElem = t'.map some) (hd : ellipsisStr ∉ symNames t)
    (hset : ∀ a, a ∈ t ↔ a ∈ t') {len : AxisMap} {n : Nat} {x : Tensor α} (hx : x.shape = (symAxes n t).map len) :
    ∃ m, symAxes m t = symAxes n t ∧ symAxes m t' = symAxes n t' ∧
    Accepted (.name "rearrange".toList) p [] x.shape GL GR ((symAxes m t).map (fun a => [a]))
      ((symAxes m t').map (fun a => [a])) len := by
  have hd' : ellipsisStr ∉ symNames t' := by
    rw [name_mem_symNames, ← hset, ← name_mem_symNames]; exact hd
  have hdots : ∀ {G : List Elem} {t : List ESym}, G.map readElem = t.map some → ellipsisStr ∉ symNames t →
      (dots ∈ sideWords G ↔ .ell ∈ t) := by
    intro G t h1 h2
    rw [read_words h1 h2 dots_not_number]
    simp
  have hin : ∀ {G G' : List Elem} {t t' : List ESym}, G.map readElem = t.map some → G'.map readElem = t'.map some →
      ellipsisStr ∉ symNames t → ellipsisStr ∉ symNames t' → (∀ a, a ∈ t → a ∈ t') → NamesWithin G G' := by
    intro G G' t t' h1 h2 h3 h4 h5 w hw hn
    rw [read_words h2 h4 hn]
    rcases (read_words h1 h3 hn).1 hw with ⟨h6, h7⟩ | ⟨h6, h7, h8⟩
    · exact .inl ⟨h6, h5 _ h7⟩
    · exact .inr ⟨h6, h7, name_mem_symNames.2 (h5 _ (name_mem_symNames.1 h8))⟩
  have hm : ∃ m, (.ell ∉ t → m = 0) ∧ symAxes m t = symAxes n t ∧ symAxes m t' = symAxes n t' := by
    by_cases he : ESym.ell ∈ t
    · exact ⟨n, fun h => absurd he h, rfl, rfl⟩
    · exact ⟨0, fun _ => rfl, symAxes_no_ell he, symAxes_no_ell (fun h => he ((hset _).2 h))⟩
  obtain ⟨m, hm0, hm1, hm2⟩ := hm
  refine ⟨m, hm1, hm2, hp, ⟨?_, fun n hn => by simp at hn, ⟨m, fun h => hm0 (fun h' => h ((hdots hl hd).2 h')), (spread_syms hl hd).symm,
    (spread_syms hr hd').symm, ?_⟩, ?_⟩, ⟨?_, fun n s h => by simp at h, ?_⟩, ?_⟩
  · rw [SidesOK, if_pos rfl]
    refine ⟨⟨fun h => (hdots hl hd).2 ((hset _).2 ((hdots hr hd').1 h)), fun ws hw => read_paren hl hd hw⟩, read_units hl,
      read_units hr, hin hl hr hd hd' (fun a => (hset a).1), hin hr hl hd' hd (fun a => (hset a).2)⟩
  · rw [hx, List.length_map, List.length_map, hm1]
  · intro g hg
    obtain ⟨a, ha, rfl⟩ := List.mem_map.1 hg
    exact (List.length_filter_le _ _).trans (by simp)
  · rw [hx, singles_size, hm1]
  · intro sd i v h
    rw [singles_flatten, singles_flatten, List.mem_append, mem_symAxes, mem_symAxes] at h
    simp [ellAxes] at h
  · intro g hg hu
    obtain ⟨a, ha, rfl⟩ := List.mem_map.1 hg
    obtain ⟨a', ha', hu⟩ := hu
    rw [List.mem_singleton] at ha'
    subst ha'
    rw [List.filter_cons_of_neg (by rw [List.map_nil] at hu; simp [hu])]
    simp [groupSize]

theorem read_no_marker {G : List Elem} {t : List ESym} (h : G.map readElem = t.map some)
    (hp : ∀ ws, Elem.paren ws ∈ G → dots ∉ ws) (hG : ∀ w ∈ sideWords G, w ≠ ellipsisStr) : ellipsisStr ∉ symNames t := by
  intro hmem
  obtain ⟨e, he, hre⟩ := (read_mem h).1 (name_mem_symNames.1 hmem)
  have hw : ∀ w ∈ e.words, w ≠ ellipsisStr := fun w hw => hG w (List.mem_flatMap.2 ⟨e, he, hw⟩)
  cases e with
  | bare v =>
    simp only [readElem, readWord] at hre
    split at hre
    · cases hre
    · split at hre
      · cases hre
      · cases hre; exact hw _ (by simp [Elem.words]) rfl
  | paren ws =>
    simp only [readElem] at hre
    split at hre
    · rename_i v hv
      have hm : v ∈ ws := by
        have : v ∈ ws.filter (fun w => decide (¬ (IsNumber w ∧ decimalValue w = 1))) := by rw [hv]; simp
        exact (List.mem_filter.1 this).1
      unfold readWord at hre
      split at hre
      · rename_i hd
        exact hp ws he (hd ▸ hm)
      · split at hre
        · cases hre
        · cases hre; exact hw _ hm rfl
    · cases hre

theorem read_dots {G : List Elem} {t : List ESym} (h : G.map readElem = t.map some) (hd : ellipsisStr ∉ symNames t) :
    dots ∈ sideWords G ↔ .ell ∈ t := by
  rw [read_words h hd dots_not_number]
  simp

theorem einsum_split {p : Str} {t out : List ESym} (h : IsEinsum p [t] out) {GL GR : List Elem} (hp : IsPattern p GL GR) :
    GL.map readElem = t.map some ∧ GR.map readElem = out.map some := by
  obtain ⟨Gs, G, ⟨parts, r, hne, hpe, hparts, hright⟩, hl1, hr1⟩ := h
  cases hl1 with
  | cons hlr hnil =>
  cases hnil
  cases hparts with
  | cons hleft hnil =>
  cases hnil
  rename_i G0 l
  rw [show List.intercalate [','] [l] = l by simp [List.intercalate]] at hpe
  obtain ⟨-, l', r', hs', hL, hR⟩ := isPattern_split hp
  rw [hpe, show ['-', '>'] = arrow from rfl, splitArrow_iff.2 ⟨rfl, isSide_no_arrow hleft, isSide_no_arrow hright⟩] at hs'
  cases hs'
  obtain rfl := hleft.unique hL
  obtain rfl := hright.unique hR
  exact ⟨hlr, hr1⟩

/-- a legal call of another operation, read as a contraction of one tensor -/
theorem einsum_reads {op : OpKind} {p : Str} {kw : List (Str × Size)} {t out : List ESym} {x : Tensor α} {GL GR : List Elem}
    {L R : List (List Axis)} {len : AxisMap} (h : IsEinsum p [t] out) (ha : Accepted op p kw x.shape GL GR L R len)
    (hd : ellipsisStr ∉ symNames out) (hell : ESym.ell ∈ t → ESym.ell ∈ out) (hok : EllipsisOK GL GR)
    (hsub : ∀ a ∈ R.flatten, a ∈ L.flatten) :
    ∃ n, L = (symAxes n t).map (fun a => [a]) ∧ R = (symAxes n out).map (fun a => [a]) ∧ EinsumFits len n [t] out [x] := by
  obtain ⟨hlr, hr1⟩ := einsum_split h ha.pattern
  obtain ⟨-, l, r, -, hL, hR⟩ := isPattern_split ha.pattern
  have hdt : ellipsisStr ∉ symNames t := read_no_marker hlr hok.2 (fun w hw => ne_ell hL hw)
  have hnd := ha.nodup
  have hshape := ha.fits.shape_eq
  obtain ⟨n, -, rfl, rfl, -⟩ := ha.prepared.groups
  rw [spread_syms hlr hdt, spread_syms hr1 hd] at hnd hsub
  rw [spread_syms hlr hdt, singles_size] at hshape
  simp only [singles_flatten] at hsub hnd
  refine ⟨n, spread_syms hlr hdt, spread_syms hr1 hd, by simp, .cons hshape .nil, hnd.2, ?_, ?_⟩
  · intro w hw
    rcases mem_symAxes.1 (hsub _ (mem_symAxes.2 (.inr ⟨w, hw, rfl⟩))) with ⟨-, hmem⟩ | ⟨v, hv, e⟩
    · obtain ⟨i, -, e⟩ := List.mem_map.1 hmem
      simp only [Axis.str.injEq] at e
      have hne : natStr i ≠ [] := Nat.toDigits_ne_nil
      obtain ⟨c, l, hcl⟩ := List.exists_cons_of_ne_nil hne
      exact absurd (by rw [← e, hcl]; rfl) (h.names out (by simp) w hw c l)
    · cases e
      exact ⟨t, by simp, hv⟩
  · have h1 := hok.1
    rw [read_dots hlr hdt, read_dots hr1 hd] at h1
    simpa using ⟨h1, hell⟩

/-! ### consistent renaming -/

omit [PyUnicode] in
theorem grow_map {ρ : Str → Str} {K ws : List Str} (h : ∀ v ∈ K ++ ws, ∀ w ∈ K ++ ws, ρ v = ρ w → v = w) :
    grow (K.map ρ) (ws.map ρ) = (grow K ws).map ρ := by
  induction ws generalizing K with
  | nil => rfl
  | cons w ws ih =>
    rw [List.map_cons, grow_cons, grow_cons]
    have hiff : ρ w ∈ K.map ρ ↔ w ∈ K := by
      constructor
      · intro hw
        obtain ⟨v, hv, e⟩ := List.mem_map.1 hw
        rw [← h v (by simp [hv]) w (by simp) e]; exact hv
      · exact fun hw => List.mem_map_of_mem hw
    by_cases hw : w ∈ K
    · rw [if_pos hw, if_pos (hiff.2 hw)]
      exact ih (fun v hv w' hw' => h v (by simp at hv ⊢; tauto) w' (by simp at hw' ⊢; tauto))
    · rw [if_neg hw, if_neg (fun hh => hw (hiff.1 hh))]
      have : K.map ρ ++ [ρ w] = (K ++ [w]).map ρ := by simp
      rw [this]
      exact ih (fun v hv w' hw' => h v (by simp at hv ⊢; tauto) w' (by simp at hw' ⊢; tauto))

omit [PyUnicode] in
theorem idxOf_map {ρ : Str → Str} {K : List Str} {w : Str} (h : ∀ v ∈ K, ρ v = ρ w → v = w) :
    (K.map ρ).idxOf (ρ w) = K.idxOf w := by
  induction K with
  | nil => rfl
  | cons v K ih =>
    rw [List.map_cons, List.idxOf_cons, List.idxOf_cons, ih (fun v hv => h v (by simp [hv]))]
    by_cases hv : v = w
    · simp [hv]
    · have : ρ v ≠ ρ w := fun e => hv (h v (by simp) e)
      rw [beq_eq_false_iff_ne.2 this, beq_eq_false_iff_ne.2 hv]

omit [PyUnicode] in
theorem writeSyms_renamed {ρ : Str → Str} {f g : Str → Char} {t : List ESym} (h : ∀ w ∈ symNames t, g (ρ w) = f w) :
    writeSyms g (t.map (renameSym ρ)) = writeSyms f t := by
  induction t with
  | nil => rfl
  | cons a t ih =>
    cases a with
    | ell => simp only [List.map_cons, renameSym, writeSyms]; rw [ih h]
    | name w =>
      simp only [symNames, List.mem_cons, forall_eq_or_imp] at h
      simp only [List.map_cons, renameSym, writeSyms]
      rw [ih h.2, h.1]

/-- The framework sees the same pattern. -/
theorem compactify_rename {p p' : Str} {terms : List (List ESym)} {out : List ESym} {ρ : Str → Str}
    (h : IsEinsum p terms out) (h' : IsEinsum p' (terms.map (List.map (renameSym ρ))) (out.map (renameSym ρ)))
    (hρ : ∀ t ∈ out :: terms, ∀ t' ∈ out :: terms, ∀ v ∈ symNames t, ∀ w ∈ symNames t', ρ v = ρ w → v = w) :
    compactify p' = compactify p := by
  have hinj : ∀ v ∈ terms.flatMap symNames, ∀ w ∈ terms.flatMap symNames, ρ v = ρ w → v = w := by
    intro v hv w hw e
    obtain ⟨t, ht, hv⟩ := List.mem_flatMap.1 hv
    obtain ⟨t', ht', hw⟩ := List.mem_flatMap.1 hw
    exact hρ t (by simp [ht]) t' (by simp [ht']) v hv w hw e
  have hflat : (terms.map (List.map (renameSym ρ))).flatMap symNames = (terms.flatMap symNames).map ρ := by
    rw [List.flatMap_map, List.map_flatMap]
    congr 1
    funext t
    exact symNames_rename ρ t
  have hgrow : grow [] ((terms.flatMap symNames).map ρ) = (grow [] (terms.flatMap symNames)).map ρ :=
    grow_map (K := []) (by simpa using hinj)
  have hlen : distinct ((terms.flatMap symNames).map ρ) = distinct (terms.flatMap symNames) := by
    rw [← grow_length, ← grow_length, hgrow, List.length_map]
  have hout : (∀ w ∈ symNames (out.map (renameSym ρ)), ∃ t ∈ terms.map (List.map (renameSym ρ)), w ∈ symNames t) ↔
      ∀ w ∈ symNames out, ∃ t ∈ terms, w ∈ symNames t := by
    rw [symNames_rename]
    constructor
    · intro hh w hw
      obtain ⟨t', ht', hw'⟩ := hh (ρ w) (List.mem_map_of_mem hw)
      obtain ⟨t, ht, rfl⟩ := List.mem_map.1 ht'
      rw [symNames_rename] at hw'
      obtain ⟨v, hv, e⟩ := List.mem_map.1 hw'
      exact ⟨t, ht, hρ t (by simp [ht]) out (by simp) v hv w hw e ▸ hv⟩
    · intro hh w' hw'
      obtain ⟨w, hw, rfl⟩ := List.mem_map.1 hw'
      obtain ⟨t, ht, hwt⟩ := hh w hw
      exact ⟨_, List.mem_map_of_mem ht, by rw [symNames_rename]; exact List.mem_map_of_mem hwt⟩
  rw [compactify_syms h, compactify_syms h', hflat, hlen]
  by_cases h1 : distinct (terms.flatMap symNames) ≤ 52
  · rw [if_pos h1, if_pos h1]
    by_cases h2 : ∀ w ∈ symNames out, ∃ t ∈ terms, w ∈ symNames t
    · rw [if_pos h2, if_pos (hout.2 h2), hgrow]
      have hletter : ∀ t ∈ out :: terms, ∀ w ∈ symNames t, letterOf ((grow [] (terms.flatMap symNames)).map ρ) (ρ w) =
          letterOf (grow [] (terms.flatMap symNames)) w := by
        intro t ht w hw
        unfold letterOf
        rw [idxOf_map]
        intro v hv e
        rw [mem_grow] at hv
        rcases hv with hv | hv
        · simp at hv
        · obtain ⟨t', ht', hv⟩ := List.mem_flatMap.1 hv
          exact hρ t' (by simp [ht']) t ht v hv w hw e
      congr 1
      unfold writeEinsum
      rw [writeSyms_renamed (hletter out (by simp)), List.map_map]
      congr 3
      apply List.map_congr_left
      intro t ht
      exact writeSyms_renamed (hletter t (by simp [ht]))
    · rw [if_neg h2, if_neg (fun hh => h2 (hout.1 hh))]
  · rw [if_neg h1, if_neg h1]

end

end Einops
