import Verif.Props.Exceptions
import Verif.Proofs.SizeLaws

/-!
# Which exception `reduce` raises (C58)
-/

namespace Einops

universe u

section
variable {α : Type u} [PyUnicode] {E : ElemOps α} {b : Backend α} {so : SetOrder} {x y : Tensor α} {pattern : Str}
  {kw : List (Str × Size)} {o : Str}

/-- what happens to a legal call -/
theorem legal_reduce (hb : Computes E o b) (ho : o ∈ builtins) (hell : '…' ∉ pattern) (hkw : IntKw kw) (so : SetOrder)
    (hE : ∀ vs e, E.op o vs = .error e → e = .backend)
    {GL GR : List Elem} {L R : List (List Axis)} {len : AxisMap}
    (ha : Accepted (.name o) pattern kw x.shape GL GR L R len) :
    let r := reduce b so (.one x) pattern (.name o) kw
    let M := o = "mean".toList ∧ b.isFloat x = false
    (Drops L R ∧ M ∧ r = .error .notImplemented) ∨
    (Drops L R ∧ ¬ M ∧ Undefined (E.op o) x L R len ∧ r = .error .backend) ∨
    ((Drops L R → ¬ M ∧ ¬ Undefined (E.op o) x L R len) ∧ ∃ y, r = .ok y) := by
  intro r M
  have hr := red_names_isRed ho
  by_cases hd : Drops L R
  · by_cases hM : M
    · refine .inl ⟨hd, hM, ?_⟩
      obtain ⟨rfl, hf⟩ := hM
      exact ha.mean_error hb.modelled.lawful so hkw hd hf
    · have hred : ∀ (t : Tensor α) k, k < t.ndim → reduceAxesE b t (.name o) ((List.range t.ndim).drop k) =
          t.reduceAxes (E.op o) ((List.range t.ndim).drop k) := by
        intro t k hk
        simp only [reduceAxesE]
        rw [if_neg (not_not_intro (show _ ∈ reductionNames from ho)), if_neg, hb.reduce ho t k hk]
        rintro ⟨h9, h10⟩
        exact hM ⟨h9, hb.modelled.lawful.isFloat t x ▸ h10⟩
      rcases hres : reduce b so (.one x) pattern (.name o) kw with e | y
      · obtain ⟨env, vs, henv, hl, hvs⟩ := ha.error (red := .name o) hb.modelled.lawful hkw hr hd hred so hres
        obtain rfl := hE _ _ hvs
        exact .inr (.inl ⟨hd, hM, ⟨env, vs, _, henv, hl, hvs⟩, hres⟩)
      · refine .inr (.inr ⟨fun _ => ⟨hM, ?_⟩, y, hres⟩)
        rintro ⟨env, vs, e, henv, hl, hvs⟩
        obtain ⟨GL', GR', L', R', len', ha', hm⟩ := (reduce_iff hb.modelled.lawful so hell hkw hr (hb.reduce ho) y).1 hres
        obtain ⟨rfl, rfl, hlen⟩ := ha.len_unique hkw ha' (fun _ h => h)
        rcases hm with hm | hm
        · exact hm.1 hd
        · obtain ⟨vs', v, h3, h4, -⟩ := (hm.2.2.congr hlen).2 env henv
          rw [hl] at h3
          rw [List.map_injective_iff.2 (Option.some_injective α) h3, h4] at hvs
          cases hvs
  · obtain ⟨y', h9, _⟩ := ha.moves (red := .name o) hb.modelled.lawful hkw (fun a hal => by
      by_contra hc
      exact hd ⟨a, hal, hc⟩)
    exact .inr (.inr ⟨fun h => absurd h hd, y', h9 so⟩)

/-- `NotImplementedError` counted as an error of the framework -/
def foldErr (r : Py (Tensor α)) : Py (Tensor α) :=
  match r with
  | .error .notImplemented => .error .backend
  | r => r

/-- **C58** The exception of a `reduce` call with a built-in reduction, exactly: the same as for `rearrange` as far as the pattern
and the sizes are concerned; then, if an axis is dropped, `NotImplementedError` for a 'mean' of non-floating elements,
and the error of the framework if the reduction is not defined on the elements it is given. -/
theorem C58_reduce (hb : Computes E o b) (ho : o ∈ builtins) (hell : '…' ∉ pattern) (hkw : IntKw kw)
    (hE : ∀ vs e, E.op o vs = .error e → e = .backend) :
    let op := OpKind.name o
    let r := reduce b so (.one x) pattern (.name o) kw
    (r = .error .value ↔ ¬ OneArrow pattern) ∧
    (r = .error .zeroDivision ↔ OneArrow pattern ∧
      ∃ L g, Parses op pattern kw x.ndim L ∧ FirstBad kw L x.shape g ∧ DividesByZero kw g) ∧
    (r = .error .einops ↔ OneArrow pattern ∧ ((¬ ∃ L, Parses op pattern kw x.ndim L) ∨
      ∃ L g, Parses op pattern kw x.ndim L ∧ FirstBad kw L x.shape g ∧ ¬ DividesByZero kw g)) ∧
    (r = .error .notImplemented ↔ o = "mean".toList ∧ b.isFloat x = false ∧
      ∃ GL GR L R len, Accepted op pattern kw x.shape GL GR L R len ∧ Drops L R) ∧
    (r = .error .backend ↔
      (OneArrow pattern ∧ (∃ L, Parses op pattern kw x.ndim L ∧ AllAgree kw L x.shape) ∧ ∃ p ∈ kw, p.2.val < 0) ∨
      (¬ (o = "mean".toList ∧ b.isFloat x = false) ∧
        ∃ GL GR L R len, Accepted op pattern kw x.shape GL GR L R len ∧ Drops L R ∧ Undefined (E.op o) x L R len)) ∧
    (∀ e, r = .error e → e = .value ∨ e = .zeroDivision ∨ e = .einops ∨ e = .notImplemented ∨ e = .backend) := by
  intro op r
  have hr := red_names_isRed ho
  have hneg : ∀ L, Parses op pattern kw x.ndim L → AllAgree kw L x.shape → (∃ p ∈ kw, p.2.val < 0) → r = .error .backend := by
    rintro L hL ha ⟨⟨n, s⟩, hm, hs⟩
    refine C58_negative hb.modelled hell so (.name _) hkw hL ha hm ?_ hs
    obtain ⟨GL, GR, R, h1, h2⟩ := hL
    rcases prepare_cases h1 op (kw.map Prod.fst) x.ndim with ⟨ex, wf, h3, hn, _⟩ | ⟨hno, _⟩
    · obtain ⟨rfl, rfl⟩ := Prepared.unique h1 h3 h1 h2
      rcases (hn n (List.mem_map.2 ⟨_, hm, rfl⟩)).2 with h4 | h4
      · exact h4
      · exact reduce_axes_sub h1 hr h3 _ ((wf.rghtIds_iff _).1 h4)
    · exact absurd ⟨_, _, h2⟩ hno
  obtain ⟨h1, h2, h3, h4, h5⟩ := outcome_iff (P := ¬ ∃ y, r = .ok y) (op := op) (r := foldErr r) (x := x) hkw
    (fun h => by rw [show r = _ from C58_arrow hell b so (.name _) hkw h]; rfl)
    (fun h h' => by rw [show r = _ from C58_pattern hell b so (.name _) hkw h h']; rfl)
    (fun L g hL hg => by
      obtain ⟨h1, h2⟩ := C58_sizes hell b so (.name _) hkw hL hg
      exact ⟨fun h => by rw [show r = _ from h1 h]; rfl, fun h => by rw [show r = _ from h2 h]; rfl⟩)
    (fun L hL ha hP => by
      by_cases hn : ∃ p ∈ kw, p.2.val < 0
      · rw [hneg L hL ha hn]; rfl
      · push Not at hn
        obtain ⟨GL, GR, R, len, hacc⟩ := C58_legal hkw hn hL ha
        rcases legal_reduce hb ho hell hkw so hE hacc with ⟨_, _, h⟩ | ⟨_, _, _, h⟩ | ⟨_, h⟩
        · rw [show r = _ from h]; rfl
        · rw [show r = _ from h]; rfl
        · exact absurd h hP)
    (fun L hL ha hP => by
      push Not at hP
      obtain ⟨y, hy⟩ := hP
      exact ⟨y, by rw [hy]; rfl⟩)
  have hfold : ∀ e, e ≠ .backend → e ≠ .notImplemented → (foldErr r = .error e ↔ r = .error e) := by
    intro e he he'
    rcases r with e' | y
    · cases e' <;> cases e <;> simp [foldErr] at he he' ⊢
    · simp [foldErr]
  refine ⟨by rw [← h1, hfold _ (by simp) (by simp)], by rw [← h2, hfold _ (by simp) (by simp)],
    by rw [← h3, hfold _ (by simp) (by simp)], ?_, ?_, ?_⟩
  · constructor
    · intro h
      have : foldErr r = .error .backend := by rw [h]; rfl
      obtain ⟨_, ⟨L, hL, ha⟩, _⟩ := h4.1 this
      by_cases hn : ∃ p ∈ kw, p.2.val < 0
      · rw [hneg L hL ha hn] at h; cases h
      · push Not at hn
        obtain ⟨GL, GR, R, len, hacc⟩ := C58_legal hkw hn hL ha
        rcases legal_reduce hb ho hell hkw so hE hacc with ⟨hd, hM, _⟩ | ⟨_, _, _, h'⟩ | ⟨_, y, h'⟩
        · exact ⟨hM.1, hM.2, _, _, _, _, _, hacc, hd⟩
        · rw [show r = _ from h'] at h; cases h
        · rw [show r = _ from h'] at h; cases h
    · rintro ⟨hM1, hM2, GL, GR, L, R, len, hacc, hd⟩
      rcases legal_reduce hb ho hell hkw so hE hacc with ⟨_, _, h'⟩ | ⟨_, hM, _⟩ | ⟨h, _⟩
      · exact h'
      · exact absurd ⟨hM1, hM2⟩ hM
      · exact absurd ⟨hM1, hM2⟩ (h hd).1
  · constructor
    · intro h
      have : foldErr r = .error .backend := by rw [h]; rfl
      obtain ⟨hA, ⟨L, hL, ha⟩, _⟩ := h4.1 this
      by_cases hn : ∃ p ∈ kw, p.2.val < 0
      · exact .inl ⟨hA, ⟨L, hL, ha⟩, hn⟩
      · push Not at hn
        obtain ⟨GL, GR, R, len, hacc⟩ := C58_legal hkw hn hL ha
        rcases legal_reduce hb ho hell hkw so hE hacc with ⟨_, _, h'⟩ | ⟨hd, hM, hu, _⟩ | ⟨_, y, h'⟩
        · rw [show r = _ from h'] at h; cases h
        · exact .inr ⟨hM, _, _, _, _, _, hacc, hd, hu⟩
        · rw [show r = _ from h'] at h; cases h
    · rintro (⟨_, ⟨L, hL, ha⟩, hn⟩ | ⟨hM, GL, GR, L, R, len, hacc, hd, hu⟩)
      · exact hneg L hL ha hn
      · rcases legal_reduce hb ho hell hkw so hE hacc with ⟨_, hM', _⟩ | ⟨_, _, _, h'⟩ | ⟨h, _⟩
        · exact absurd hM' hM
        · exact h'
        · exact absurd hu (h hd).2
  · intro e he
    by_cases h6 : e = .backend
    · simp [h6]
    by_cases h7 : e = .notImplemented
    · simp [h7]
    rcases h5 e ((hfold e h6 h7).2 he) with h | h | h | h
    · exact .inl h
    · exact .inr (.inl h)
    · exact .inr (.inr (.inl h))
    · exact absurd h h6

end

section
attribute [local instance] asciiUnicode

/-- a `reduce` call on integers -/
def reduceErr (fl : Bool) (x : Tensor Int) (pattern op : String) (kw : List (Str × Size)) : Option PyErr :=
  match reduce (numpyBackend intOps fl) idOrder (.one x) pattern.toList (.name op.toList) kw with
  | .ok _ => none
  | .error e => some e

example : reduceErr true t23 "a b" "sum" [] = some .value := by decide +kernel
example : reduceErr true t23 "a b -> a c" "sum" [kwInt "c" 2] = some .einops := by decide +kernel
example : reduceErr true t23 "a b -> a" "median" [] = some .einops := by decide +kernel
example : reduceErr true t23 "(a c) b -> a" "sum" [kwInt "c" 0] = some .zeroDivision := by decide +kernel
example : reduceErr true t23 "(a c) b -> a" "sum" [kwInt "c" (-2)] = some .backend := by decide +kernel
example : reduceErr false t23 "a b -> a" "mean" [] = some .notImplemented := by decide +kernel
-- nothing is dropped, so nothing is averaged
example : reduceErr false t23 "a b -> b a" "mean" [] = none := by decide +kernel
-- maxima of no elements, and no maxima of no elements
example : reduceErr true ⟨[2, 0], [], rfl⟩ "a b -> a" "max" [] = some .backend := by decide +kernel
example : reduceErr true ⟨[2, 0], [], rfl⟩ "a b -> b" "max" [] = none := by decide +kernel
example : reduceErr true ⟨[2, 0], [], rfl⟩ "a b -> a" "sum" [] = none := by decide +kernel
-- the hypothesis on the reductions
example : ∀ vs e, intOps.op "max".toList vs = .error e → e = .backend := by
  intro vs e h
  have : intOps.op "max".toList vs = foldNonempty max vs := rfl
  rw [this] at h
  cases vs <;> simp [foldNonempty] at h
  exact h.symm
end

end Einops
