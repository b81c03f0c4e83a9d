import Verif.Proofs.Adjoint
import Verif.Props.EinsumLaws

/-!
# Gradients of the operations

All three operations are linear maps.  Their transposes — what back-propagation through them computes — are operations
with the sides of the pattern exchanged.  `x.dot y` is the sum of the products of corresponding elements.
-/

namespace Einops

universe u

section
variable {α : Type u} [CommSemiring α] [PyUnicode] {E : ElemOps α} {b : Backend α} {so : SetOrder} {x y : Tensor α}
  {l r pattern : Str} {GL GR : List Elem} {kw : List (Str × Size)}

/-- an accepted sum returns the sums -/
theorem Accepted.sums (hb : Computes E "sum".toList b) (hsum : ∀ vs, E.op "sum".toList vs = .ok vs.sum) (hkw : IntKw kw)
    {L R : List (List Axis)} {len : AxisMap}
    (ha : Accepted (.name "sum".toList) pattern kw x.shape GL GR L R len) (so : SetOrder) :
    ∃ y, reduce b so (.one x) pattern (.name "sum".toList) kw = .ok y ∧ Reduces (E.op "sum".toList) len L R x y := by
  have ho : "sum".toList ∈ builtins := by decide
  have hr := red_names_isRed ho
  by_cases hd : Drops L R
  · rcases hres : reduce b so (.one x) pattern (.name "sum".toList) kw with e | y
    · obtain ⟨_, _, vs, _, _, h⟩ := C43_no_failure_reduce hb ho hkw ha (fun h => absurd h (by decide)) hres
      rw [hsum] at h
      cases h
    · refine ⟨y, rfl, (ha.reduces (red := .name "sum".toList) hb.modelled.lawful so hkw hr hd (fun t k hk => ?_) y).1 hres⟩
      simp only [reduceAxesE]
      rw [if_neg (not_not_intro (show _ ∈ reductionNames from ho)), if_neg, hb.reduce ho t k hk]
      rintro ⟨h9, -⟩
      revert h9
      decide
  · obtain ⟨y, h1, h2⟩ := ha.moves (red := .name "sum".toList) hb.modelled.lawful hkw
      (fun a hal => by_contra fun hc => hd ⟨a, hal, hc⟩)
    exact ⟨y, h1 so, h2.sums hsum hd⟩

/-! ### C55 -/

/-- **C55** The gradient of `repeat(x, 'l -> r')` is `reduce(g, 'r -> l', 'sum')`: for every `g` of the shape of the
result `y`, this call (given the lengths) returns a `z` of the shape of `x` with `⟨y, g⟩ = ⟨x, z⟩`. -/
theorem C55_repeat (hl : IsSide false false l GL) (hr : IsSide false false r GR)
    (hpar : ∀ ws, Elem.paren ws ∈ GR → dots ∉ ws) (hb : Modelled E b) (hkw : IntKw kw)
    (hneg : RefusesNegative E b ∨ ∀ p ∈ kw, 0 ≤ p.2.val)
    (h : repeat_ b so (.one x) (l ++ ['-', '>'] ++ r) kw = .ok y) :
    ∃ L R len, Accepted (.name "repeat".toList) (l ++ ['-', '>'] ++ r) kw x.shape GL GR L R len ∧
      (∃ kw', GivesLengths GR GL len kw') ∧
      ∀ {E' : ElemOps α} {b' : Backend α} (so' : SetOrder), Computes E' "sum".toList b' →
        (∀ vs, E'.op "sum".toList vs = .ok vs.sum) → ∀ kw', GivesLengths GR GL len kw' →
        ∀ g : Tensor α, g.shape = y.shape → ∃ z : Tensor α, z.shape = x.shape ∧
          reduce b' so' (.one g) (r ++ ['-', '>'] ++ l) (.name "sum".toList) kw' = .ok z ∧ y.dot g = x.dot z := by
  have hell : '…' ∉ l ++ ['-', '>'] ++ r := (isPattern_split ⟨l, r, rfl, hl, hr⟩).1
  obtain ⟨_, _, L, R, len, ha, hm⟩ := (move_iff hb.lawful so hell hkw (.inr rfl)
    (fun _ => hneg.imp RefusesNegative.strict id) y).1 h
  obtain ⟨u1, u2⟩ := IsPattern.unique hl hr ha.pattern
  replace u1 := u1.symm
  replace u2 := u2.symm
  subst u1 u2
  refine ⟨L, R, len, ha, exists_lengths _ _ _, fun {E' b'} so' hc hsum kw' hk g hg => ?_⟩
  have hs := ha.prepared.sides
  rw [SidesOK, if_neg repeat_ne, if_pos rfl] at hs
  have ho : "sum".toList ∈ builtins := by decide
  have hir := red_names_isRed ho
  have hd : dots ∈ sideWords GL → dots ∈ sideWords GR := fun h => hs.left_in_right _ h dots_not_number
  have hback := accepted_back (op' := .name "sum".toList) hl hr ha hd (by
    rw [SidesOK, if_neg hir.1, if_neg hir.2]
    exact ⟨fun s hs => by cases hs; exact ho, ⟨⟨hd, hpar⟩, hs.units_left, hs.left_in_right⟩⟩) hk
  rw [← hm.1, ← hg] at hback
  obtain ⟨hinj, hlen⟩ := swap_ok ha
  obtain ⟨z, h1, h2⟩ := hback.sums hc hsum hk.int so'
  rw [Reduces.relabel_iff hinj hlen] at h2
  refine ⟨z, by rw [h2.1, ha.fits.shape_eq], h1, ?_⟩
  exact dot_adjoint ha.nodup.1 ha.nodup.2 (ha.move_sub (.inr rfl)) ha.fits.shape_eq hm (hg.trans hm.1) hsum h2

/-- **C55** The gradient of `rearrange(x, 'l -> r')` is `rearrange(g, 'r -> l')`. -/
theorem C55_rearrange (hl : IsSide false false l GL) (hr : IsSide false false r GR)
    (hpar : ∀ ws, Elem.paren ws ∈ GR → dots ∉ ws) (hb : Modelled E b) (hkw : IntKw kw)
    (h : rearrange b so (.one x) (l ++ ['-', '>'] ++ r) kw = .ok y) :
    ∃ L R len, Accepted (.name "rearrange".toList) (l ++ ['-', '>'] ++ r) kw x.shape GL GR L R len ∧
      (∃ kw', GivesLengths GR GL len kw') ∧
      ∀ {E' : ElemOps α} {b' : Backend α} (so' : SetOrder), Modelled E' b' → ∀ kw', GivesLengths GR GL len kw' →
        ∀ g : Tensor α, g.shape = y.shape → ∃ z : Tensor α, z.shape = x.shape ∧
          rearrange b' so' (.one g) (r ++ ['-', '>'] ++ l) kw' = .ok z ∧ y.dot g = x.dot z := by
  have hell : '…' ∉ l ++ ['-', '>'] ++ r := (isPattern_split ⟨l, r, rfl, hl, hr⟩).1
  obtain ⟨_, _, L, R, len, ha, hm⟩ := (move_iff hb.lawful so hell hkw (.inl rfl) (fun h => by cases h) y).1 h
  obtain ⟨u1, u2⟩ := IsPattern.unique hl hr ha.pattern
  replace u1 := u1.symm
  replace u2 := u2.symm
  subst u1 u2
  refine ⟨L, R, len, ha, exists_lengths _ _ _, fun {E' b'} so' hc kw' hk g hg => ?_⟩
  have hs := ha.prepared.sides
  rw [SidesOK, if_pos rfl] at hs
  have hd : dots ∈ sideWords GL → dots ∈ sideWords GR := fun h => hs.left_in_right _ h dots_not_number
  have hback := accepted_back (op' := .name "rearrange".toList) hl hr ha hd (by
    rw [SidesOK, if_pos rfl]
    exact ⟨⟨hd, hpar⟩, hs.units_right, hs.units_left, hs.right_in_left, hs.left_in_right⟩) hk
  rw [← hm.1, ← hg] at hback
  obtain ⟨hinj, hlen⟩ := swap_ok ha
  obtain ⟨z, h1, h2⟩ := hback.moves (red := .name "rearrange".toList) hc.lawful hk.int (hback.move_sub (.inl rfl))
  have hnd : ¬ Drops R L := by
    rw [← drops_relabel hinj]
    rintro ⟨a, h3, h4⟩
    exact h4 (hback.move_sub (.inl rfl) a h3)
  rw [Moves.relabel_iff hinj hlen] at h2
  refine ⟨z, by rw [h2.1, ha.fits.shape_eq], h1 so', ?_⟩
  exact dot_adjoint (op := fun vs => .ok vs.sum) ha.nodup.1 ha.nodup.2 (ha.move_sub (.inl rfl)) ha.fits.shape_eq hm
    (hg.trans hm.1) (fun _ => rfl) (h2.sums (fun _ => rfl) hnd)

/-- **C55** The gradient of `reduce(x, 'l -> r', 'sum')` is `repeat(g, 'r -> l')`, unless the ellipsis is summed over
(there is no pattern for its gradient then) or stands in parentheses on the right. -/
theorem C55_reduce (hl : IsSide false false l GL) (hr : IsSide false false r GR)
    (hpar : ∀ ws, Elem.paren ws ∈ GR → dots ∉ ws) (hdots : dots ∈ sideWords GL → dots ∈ sideWords GR)
    (hb : Computes E "sum".toList b) (hsum : ∀ vs, E.op "sum".toList vs = .ok vs.sum) (hkw : IntKw kw)
    (h : reduce b so (.one x) (l ++ ['-', '>'] ++ r) (.name "sum".toList) kw = .ok y) :
    ∃ L R len, Accepted (.name "sum".toList) (l ++ ['-', '>'] ++ r) kw x.shape GL GR L R len ∧
      (∃ kw', GivesLengths GR GL len kw') ∧
      ∀ {E' : ElemOps α} {b' : Backend α} (so' : SetOrder), Modelled E' b' → ∀ kw', GivesLengths GR GL len kw' →
        ∀ g : Tensor α, g.shape = y.shape → ∃ z : Tensor α, z.shape = x.shape ∧
          repeat_ b' so' (.one g) (r ++ ['-', '>'] ++ l) kw' = .ok z ∧ y.dot g = x.dot z := by
  have hell : '…' ∉ l ++ ['-', '>'] ++ r := (isPattern_split ⟨l, r, rfl, hl, hr⟩).1
  have ho : "sum".toList ∈ builtins := by decide
  have hir := red_names_isRed ho
  obtain ⟨_, _, L, R, len, ha, hm⟩ := (reduce_iff hb.modelled.lawful so hell hkw hir (hb.reduce ho) y).1 h
  have hm : Reduces (E.op "sum".toList) len L R x y := by
    rcases hm with ⟨h1, h2⟩ | ⟨_, _, h3⟩
    · exact h2.sums hsum h1
    · exact h3
  obtain ⟨u1, u2⟩ := IsPattern.unique hl hr ha.pattern
  replace u1 := u1.symm
  replace u2 := u2.symm
  subst u1 u2
  refine ⟨L, R, len, ha, exists_lengths _ _ _, fun {E' b'} so' hc kw' hk g hg => ?_⟩
  have hs := ha.prepared.sides
  rw [SidesOK, if_neg hir.1, if_neg hir.2] at hs
  have hs := hs.2
  have hback := accepted_back (op' := .name "repeat".toList) hl hr ha hdots (by
    rw [SidesOK, if_neg repeat_ne, if_pos rfl]
    refine ⟨⟨hdots, hpar⟩, hs.units_right, hs.right_in_left, fun w hw hnum => ?_⟩
    by_cases hwd : w = dots
    · subst hwd; exact .inl (hdots hw)
    · exact .inr ((hk.names w).2 ⟨name_of_word (hl.words_ok w hw) hwd hnum, List.mem_append_right _ hw⟩)) hk
  rw [← hm.1, ← hg] at hback
  obtain ⟨hinj, hlen⟩ := swap_ok ha
  obtain ⟨z, h1, h2⟩ := hback.moves (red := .name "repeat".toList) hc.lawful hk.int (hback.move_sub (.inr rfl))
  have hnd : ¬ Drops R L := by
    rw [← drops_relabel hinj]
    rintro ⟨a, h3, h4⟩
    exact h4 (hback.move_sub (.inr rfl) a h3)
  rw [Moves.relabel_iff hinj hlen] at h2
  refine ⟨z, by rw [h2.1, ha.fits.shape_eq], h1 so', ?_⟩
  rw [Tensor.dot_comm y, Tensor.dot_comm x]
  exact (dot_adjoint ha.nodup.2 ha.nodup.1 (fun a h => by_contra fun hc => hnd ⟨a, h, hc⟩) (hg.trans hm.1) h2
    ha.fits.shape_eq hsum hm).symm

/-- **C55** The gradient of `einsum(..., x, ..., '..., t, ... -> out')` with respect to `x` is
`einsum(..., g, ..., '..., out, ... -> t')`, whenever this is a legal call. -/
theorem C55_einsum {f : Str → List (Tensor α) → Py (Tensor α)} {terms terms' : List (List ESym)} {t out : List ESym}
    {len : AxisMap} {n : Nat} {xs xs' : List (Tensor α)} {p p' : Str} {g : Tensor α} (hf : EinsumLawful f)
    (h : IsEinsum p (terms ++ t :: terms') out) (h' : IsEinsum p' (terms ++ out :: terms') t)
    (h52 : distinct ((terms ++ t :: terms').flatMap symNames) ≤ 52) (hl : terms.length = xs.length)
    (hx : EinsumFits len n (terms ++ t :: terms') out (xs ++ x :: xs'))
    (hg : EinsumFits len n (terms ++ out :: terms') t (xs ++ g :: xs')) :
    ∃ y z, y.shape = g.shape ∧ z.shape = x.shape ∧ einsum f ((xs ++ x :: xs').map .tensor ++ [.str p]) = .ok y ∧
      einsum f ((xs ++ g :: xs').map .tensor ++ [.str p']) = .ok z ∧ y.dot g = x.dot z := by
  have h52' : distinct ((terms ++ out :: terms').flatMap symNames) ≤ 52 := by
    refine le_trans (List.subperm_of_subset (List.nodup_dedup _) fun w hw => ?_).length_le h52
    rw [List.mem_dedup, List.mem_flatMap] at hw ⊢
    obtain ⟨t', h1, h2⟩ := hw
    simp only [List.mem_append, List.mem_cons] at h1 ⊢
    rcases h1 with h1 | rfl | h1
    · exact ⟨t', .inl h1, h2⟩
    · obtain ⟨t'', h3, h4⟩ := hx.within w h2
      simp only [List.mem_append, List.mem_cons] at h3
      exact ⟨t'', h3, h4⟩
    · exact ⟨t', .inr (.inr h1), h2⟩
  obtain ⟨y, e1, c1⟩ := einsum_contracts hf h h52 hx
  obtain ⟨z, e2, c2⟩ := einsum_contracts hf h' h52' hg
  have hshape : ∀ {s : List ESym} {v : Tensor α} {us us' : List (Tensor α)} {ts ts' : List (List ESym)},
      ts.length = us.length →
      List.Forall₂ (fun t (x : Tensor α) => x.shape = (symAxes n t).map len) (ts ++ s :: ts') (us ++ v :: us') →
      v.shape = (symAxes n s).map len := by
    intro s v us us' ts ts' hl hF
    induction ts generalizing us with
    | nil =>
      cases us with
      | nil => cases hF; assumption
      | cons _ _ => simp at hl
    | cons t₁ ts ih =>
      cases us with
      | nil => simp at hl
      | cons x₁ us =>
        cases hF with
        | cons a b => exact ih (by simpa using hl) b
  have s1 := hshape hl hx.shapes
  have s2 := hshape hl hg.shapes
  rw [List.map_append, List.map_cons] at c1 c2
  exact ⟨y, z, c1.1.trans s2.symm, c2.1.trans s1.symm, e1, e2,
    c1.adjoint (by simpa using hl) hg.nodup hx.nodup s1 s2 c2⟩

end

section
attribute [local instance] asciiUnicode

def g322 : Tensor ℤ := ⟨[3, 2, 2], [1, 0, 2, -1, 3, 1, 1, 5, 0, 2, -2, 4], rfl⟩
def g32 : Tensor ℤ := ⟨[3, 2], [1, 4, -2, 0, 7, 3], rfl⟩
def g3 : Tensor ℤ := ⟨[3], [2, -1, 5], rfl⟩

-- every repeated element is summed over its copies
example : ∃ y z : Tensor ℤ, repeat_ (numpyBackend intOps true) idOrder (.one t23) "a b -> b a 2".toList [] = .ok y ∧
    reduce (numpyBackend intOps true) idOrder (.one g322) "b a 2 -> a b".toList (.name "sum".toList)
      [kwInt "a" 2, kwInt "b" 3] = .ok z ∧ y.dot g322 = t23.dot z ∧ y.dot g322 = 45 :=
  ⟨_, _, rfl, rfl, by decide, by decide⟩
example : ∃ y z : Tensor ℤ, rearrange (torchBackend intOps true) idOrder (.one t23) "a b -> b a".toList [] = .ok y ∧
    rearrange (numpyBackend intOps true) idOrder (.one g32) "b a -> a b".toList [kwInt "a" 2, kwInt "b" 3] = .ok z ∧
    y.dot g32 = t23.dot z ∧ y.dot g32 = 39 := ⟨_, _, rfl, rfl, by decide, by decide⟩
example : ∃ y z : Tensor ℤ, reduce (numpyBackend intOps true) idOrder (.one t23) "a b -> b".toList (.name "sum".toList) [] = .ok y ∧
    repeat_ (torchBackend intOps true) idOrder (.one g3) "b -> a b".toList [kwInt "a" 2, kwInt "b" 3] = .ok z ∧
    y.dot g3 = t23.dot z ∧ y.dot g3 = 36 := ⟨_, _, rfl, rfl, by decide, by decide⟩
-- other reductions are not linear
example : ∃ y z : Tensor ℤ, reduce (numpyBackend intOps true) idOrder (.one t23) "a b -> b".toList (.name "max".toList) [] = .ok y ∧
    repeat_ (torchBackend intOps true) idOrder (.one g3) "b -> a b".toList [kwInt "a" 2, kwInt "b" 3] = .ok z ∧
    y.dot g3 ≠ t23.dot z := ⟨_, _, rfl, rfl, by decide⟩
-- summing over the ellipsis: exchanging the sides gives no legal pattern
example : ∃ y : Tensor ℤ, reduce (numpyBackend intOps true) idOrder (.one t23) "... b -> b".toList (.name "sum".toList) [] = .ok y ∧
    repeat_ (numpyBackend intOps true) idOrder (.one g3) "b -> ... b".toList [kwInt "b" 3] = .error .einops := ⟨_, rfl, rfl⟩

/-- the theorem for summing, on the middle call -/
example : ∃ L R len, Accepted (.name "sum".toList) "a b -> b".toList [] t23.shape [.bare "a".toList, .bare "b".toList]
      [.bare "b".toList] L R len ∧
    (∃ kw', GivesLengths [.bare "b".toList] [.bare "a".toList, .bare "b".toList] len kw') :=
  have h := C55_reduce (l := "a b ".toList) (r := " b".toList) (GL := [.bare "a".toList, .bare "b".toList])
    (GR := [.bare "b".toList]) (E := intOps) (b := numpyBackend intOps true) (so := idOrder) (x := t23) (kw := [])
    (y := ⟨[3], [3, 5, 7], rfl⟩) (by decide) (by decide) (fun ws h => by simp at h) (by decide) (.numpy true) (fun _ => rfl)
    ⟨by decide, by decide⟩ rfl
  have ⟨L, R, len, h1, h2, _⟩ := h
  ⟨L, R, len, h1, h2⟩

theorem read_back : IsEinsum "i k, j k -> i j".toList [[sy "i", sy "k"], [sy "j", sy "k"]] [sy "i", sy "j"] :=
  ⟨[[.bare "i".toList, .bare "k".toList], [.bare "j".toList, .bare "k".toList]], [.bare "i".toList, .bare "j".toList],
    ⟨["i k".toList, " j k ".toList], " i j".toList, by decide, rfl, .cons (by decide) (.cons (by decide) .nil), by decide⟩,
    .cons (by decide) (.cons (by decide) .nil), by decide⟩

/-- gradient of a matrix product with respect to its first factor -/
example : ∃ y z : Tensor ℤ, y.shape = mC.shape ∧ z.shape = mA.shape ∧
    einsum refEinsum [.tensor mA, .tensor mB, .str "i j, j k -> i k".toList] = .ok y ∧
    einsum refEinsum [.tensor mC, .tensor mB, .str "i k, j k -> i j".toList] = .ok z ∧ y.dot mC = mA.dot z := by
  obtain ⟨y, z, h1, h2, h3, h4, h5⟩ := C55_einsum (xs := []) (xs' := [mB]) (x := mA) (g := mC) (terms := [])
    (terms' := [[sy "j", sy "k"]]) (t := [sy "i", sy "j"]) (out := [sy "i", sy "k"]) refEinsum_lawful read_ab read_back
    (by decide) rfl fits_ab ⟨by simp, .cons (by decide) (.cons (by decide) .nil), by decide, by decide, by decide⟩
  exact ⟨y, z, h1, h2, h3, h4, h5⟩
end

end Einops
