import Verif.OtherMessageSpec
import Verif.Proofs.CallMessages
import Verif.Props.OtherExceptions

/-!
# Lemmas on the messages of `pack`, `unpack`, `parse_shape` and `einsum`
-/

namespace Einops

universe u

/-! ### forgetting the messages -/

section
variable {M : Type} {α : Type u} {k : M → PyErr}

@[simp] theorem untold_said (m : M) : untold k (.error (.said m) : Except (Told M) α) = .error (k m) := rfl
@[simp] theorem untold_other (e : PyErr) : untold k (.error (.other e) : Except (Told M) α) = .error e := rfl
@[simp] theorem untold_ok (a : α) : untold k (.ok a : Except (Told M) α) = .ok a := rfl

@[simp] theorem untold_telling (x : Py α) : untold k (telling x) = x := by cases x <;> rfl

theorem untold_tellingSide {f : SideMessage → M} (hf : ∀ m, k (f m) = .einops) (x : PySide α) :
    untold k (tellingSide f x) = eraseSide x := by
  cases x with
  | error m => simp [tellingSide, hf]
  | ok a => rfl

theorem untold_mapE {β : Type} {γ : Type} {f : β → Except (Told M) γ} {g : β → Py γ} (h : ∀ b, untold k (f b) = g b) (l : List β) :
    untold k (mapE f l) = mapE g l := by
  induction l with
  | nil => rfl
  | cons b l ih =>
    simp only [mapE, ← h b]
    rcases f b with e | v
    · rfl
    · simp only [untold_ok, ← ih]
      rcases mapE f l with e | vs <;> rfl

theorem ok_of_untold {x : Except (Told M) α} {a : α} (h : untold k x = .ok a) : x = .ok a := by
  cases x with
  | error e => cases h
  | ok b => cases h; rfl

theorem ok_iff_untold {x : Except (Told M) α} {y : Py α} (h : untold k x = y) (a : α) : x = .ok a ↔ y = .ok a := by
  subst h
  cases x <;> simp [untold]

end

section
variable [PyUnicode] {α : Type u}

theorem untold_analyzePatternO (pattern : Str) : untold PackMessage.kind (analyzePatternO pattern) = analyzePattern pattern := by
  unfold analyzePatternO analyzePattern
  simp only
  split
  · rfl
  · split
    · rfl
    · have hp : (fun a : Str => decide (a ≠ ['*']) && (nameReason false a).isSome) =
          (fun a => decide (a ≠ ['*']) && !checkAxisName false a) := by
        funext a
        rw [← nameReason_iff]
        cases nameReason false a <;> rfl
      rw [hp]
      cases hf : (splitWs pattern).find? (fun a => decide (a ≠ ['*']) && !checkAxisName false a) with
      | some a =>
        simp only
        rw [if_pos]
        · rfl
        · rw [List.any_eq_true]
          exact ⟨a, List.mem_of_find?_eq_some hf, by simpa using List.find?_some hf⟩
      | none =>
        simp only
        rw [if_neg]
        · rfl
        · rw [List.any_eq_true]
          rintro ⟨a, ha, h⟩
          exact List.find?_eq_none.1 hf a ha h

omit [PyUnicode] in
theorem untold_packLoopO (ops : PackOps α) (b a n i : Nat) (xs : List (Tensor α)) :
    untold PackMessage.kind (packLoopO ops b a n i xs) = packLoop ops b a n xs := by
  induction xs generalizing i with
  | nil => rfl
  | cons x xs ih =>
    simp only [packLoopO, packLoop]
    split
    · rfl
    · simp only [← ih (i + 1)]
      rcases ops.reshape x _ with e | y
      · rfl
      · simp only
        rcases packLoopO ops b a n (i + 1) xs with e | ⟨ys, ps⟩ <;> rfl

theorem untold_packO (ops : PackOps α) (xs : List (Tensor α)) (pattern : Str) :
    untold PackMessage.kind (packO ops xs pattern) = pack ops xs pattern := by
  unfold packO pack
  rw [← untold_analyzePatternO]
  rcases analyzePatternO pattern with e | ⟨b, a, n⟩
  · rfl
  · simp only [untold_ok]
    cases xs with
    | nil => rfl
    | cons x xs =>
      simp only [← untold_packLoopO ops b a n 0]
      rcases packLoopO ops b a n 0 (x :: xs) with e | ⟨ys, ps⟩
      · rfl
      · simp only [untold_ok]
        rcases ops.concat ys b with e | y <;> rfl

theorem untold_unpackO (ops : PackOps α) (x : Tensor α) (ps : List (List Int)) (pattern : Str) :
    untold PackMessage.kind (unpackO ops x ps pattern) = unpack ops x ps pattern := by
  unfold unpackO unpack
  rw [← untold_analyzePatternO]
  rcases analyzePatternO pattern with e | ⟨b, a, n⟩
  · rfl
  · simp only [untold_ok]
    split
    · rfl
    · split
      · rfl
      · rcases mapE (fun p : List Int × Nat => unpackPiece ops x b (splitPositions (nth x.shape b) (composedLengths ps)) p.1 p.2)
          ps.zipIdx with e | ys <;> rfl

omit [PyUnicode] in
theorem untold_shapeStepO (acc : List (Str × Nat)) (c : CompAxis) (n : Nat) :
    untold ShapeMessage.kind (shapeStepO acc c n) = shapeStep acc c n := by
  unfold shapeStepO shapeStep
  rcases c.axes with _ | ⟨_ | _, _ | _⟩ <;> simp only [] <;> (try split) <;> rfl

omit [PyUnicode] in
theorem untold_shapeLoopO (acc : List (Str × Nat)) (c : List CompAxis) (s : List Nat) :
    untold ShapeMessage.kind (shapeLoopO acc c s) = shapeLoop acc c s := by
  induction c generalizing acc s with
  | nil => cases s <;> rfl
  | cons a c ih =>
    cases s with
    | nil => rfl
    | cons n s =>
      simp only [shapeLoopO, shapeLoop, ← untold_shapeStepO acc a n]
      rcases shapeStepO acc a n with e | r
      · rfl
      · exact ih r s

omit [PyUnicode] in
theorem shapeRankO_none (e : ParsedExpression) (n : Nat) : (shapeRankO e n).isNone = shapeRankOK e n := by
  unfold shapeRankO shapeRankOK
  split
  · split
    · split <;> simp_all
    · rfl
  · rfl

omit [PyUnicode] in
theorem shapeRankO_kind {e : ParsedExpression} {n : Nat} {m : ShapeMessage} (h : shapeRankO e n = some m) : m.kind = .runtime := by
  unfold shapeRankO at h
  repeat' split at h
  all_goals cases h
  all_goals rfl

theorem untold_parseShapeO (shape : List Nat) (pattern : Str) :
    untold ShapeMessage.kind (parseShapeO shape pattern) = parseShape shape pattern := by
  unfold parseShapeO parseShape
  rw [← erase_parseExpressionM]
  cases parseExpressionM 0 true false pattern with
  | error m => rfl
  | ok e =>
    simp only [tellingSide, eraseSide]
    split
    · rfl
    · have hr := shapeRankO_none e shape.length
      cases hs : shapeRankO e shape.length with
      | some m =>
        rw [hs] at hr
        rw [← hr]
        simp [shapeRankO_kind hs]
      | none =>
        rw [hs] at hr
        rw [← hr]
        simp only [Option.isNone_none, Bool.not_true, Bool.false_eq_true, if_false]
        rcases shapeComposition e shape.length with er | c
        · rfl
        · exact untold_shapeLoopO [] c shape

omit [PyUnicode] in
theorem untold_einsumAxisNameO (g : List Axis) : untold EinsumMessage.kind (einsumAxisNameO g) = einsumAxisName g := by
  unfold einsumAxisNameO einsumAxisName
  rcases g with _ | ⟨_ | _, _ | _⟩ <;> simp only [] <;> (try split) <;> rfl

omit [PyUnicode] in
theorem untold_einsumLeftStepO (m : List (Str × Char)) (i : Nat) (c : CompAxis) :
    untold EinsumMessage.kind (einsumLeftStepO m i c) = einsumLeftStep m i c := by
  unfold einsumLeftStepO einsumLeftStep
  cases c with
  | ell => rfl
  | group g =>
    simp only [← untold_einsumAxisNameO g]
    rcases einsumAxisNameO g with e | w
    · rfl
    · simp only [untold_ok]
      cases dictGet m w with
      | some l => rfl
      | none => cases asciiLetters[i]? <;> rfl

omit [PyUnicode] in
theorem untold_einsumLeftO (m : List (Str × Char)) (i : Nat) (cs : List CompAxis) :
    untold EinsumMessage.kind (einsumLeftO m i cs) = einsumLeft m i cs := by
  induction cs generalizing m i with
  | nil => rfl
  | cons c cs ih =>
    simp only [einsumLeftO, einsumLeft, ← untold_einsumLeftStepO m i c]
    rcases einsumLeftStepO m i c with e | ⟨s, m, i⟩
    · rfl
    · simp only [untold_ok, ← ih m i]
      rcases einsumLeftO m i cs with e | ⟨t, m, i⟩ <;> rfl

omit [PyUnicode] in
theorem untold_einsumLeftsO (m : List (Str × Char)) (i : Nat) (ps : List ParsedExpression) :
    untold EinsumMessage.kind (einsumLeftsO m i ps) = einsumLefts m i ps := by
  induction ps generalizing m i with
  | nil => rfl
  | cons p ps ih =>
    simp only [einsumLeftsO, einsumLefts, ← untold_einsumLeftO m i p.composition]
    rcases einsumLeftO m i p.composition with e | ⟨s, m, i⟩
    · rfl
    · simp only [untold_ok, ← ih m i]
      rcases einsumLeftsO m i ps with e | ⟨t, m⟩ <;> rfl

omit [PyUnicode] in
theorem untold_einsumRightO (m : List (Str × Char)) (cs : List CompAxis) :
    untold EinsumMessage.kind (einsumRightO m cs) = einsumRight m cs := by
  induction cs with
  | nil => rfl
  | cons c cs ih =>
    cases c with
    | ell =>
      simp only [einsumRightO, einsumRight, ← ih]
      rcases einsumRightO m cs with e | t <;> rfl
    | group g =>
      simp only [einsumRightO, einsumRight, ← untold_einsumAxisNameO g, ← ih]
      rcases einsumAxisNameO g with e | w
      · rfl
      · simp only [untold_ok]
        cases dictGet m w with
        | none => rfl
        | some l => rcases einsumRightO m cs with e | t <;> rfl

theorem untold_compactifyO (pattern : Str) : untold EinsumMessage.kind (compactifyO pattern) = compactify pattern := by
  unfold compactifyO compactify
  split
  · rfl
  · rcases splitArrow pattern with e | ⟨l, r⟩
    · rfl
    · simp only
      rw [← untold_mapE (k := EinsumMessage.kind) (f := fun s => tellingSide .side (parseExpressionM 0 true true s))
        (fun s => by rw [untold_tellingSide (fun _ => rfl), erase_parseExpressionM])]
      rcases mapE (fun s => tellingSide EinsumMessage.side (parseExpressionM 0 true true s)) (splitOn [','] l) with e | lefts
      · rfl
      · simp only [untold_ok]
        rw [← erase_parseExpressionM]
        cases parseExpressionM 1 true false r with
        | error m => rfl
        | ok right =>
          simp only [tellingSide, eraseSide, ← untold_einsumLeftsO]
          rcases einsumLeftsO [] 0 lefts with e | ⟨ss, m⟩
          · rfl
          · simp only [untold_ok, ← untold_einsumRightO]
            rcases einsumRightO m right.composition with e | t <;> rfl

theorem untold_einsumO (f : Str → List (Tensor α) → Py (Tensor α)) (args : List (EinsumArg α)) :
    untold EinsumMessage.kind (einsumO f args) = einsum f args := by
  unfold einsumO einsum
  split
  · rfl
  · cases args.getLast? with
    | none => rfl
    | some a =>
      cases a with
      | tensor x => rfl
      | str pattern =>
        simp only [← untold_compactifyO]
        rcases compactifyO pattern with e | s
        · rfl
        · simp only [untold_ok]
          have key : ∀ ts : List (EinsumArg α), untold EinsumMessage.kind
              (match telling (einsumTensors ts) with
              | .error e => .error e
              | .ok xs => telling (f s xs)) =
              match einsumTensors ts with
              | .error e => .error e
              | .ok xs => f s xs := by
            intro ts
            rcases einsumTensors ts with e | xs
            · rfl
            · exact untold_telling _
          rcases args.dropLast with _ | ⟨x | _, ts⟩
          · exact key []
          · exact key (.tensor x :: ts)
          · rfl

end

section
variable [PyUnicode] {α : Type u}

theorem others_core (e : Elem) : e.others = e.core := by
  unfold Elem.others Elem.core
  congr 1
  funext w
  rw [Bool.eq_iff_iff]
  simp [isUnit]

/-! ### `pack` and `unpack` -/

omit [PyUnicode] in
theorem exists_twice {β : Type} {l : List β} (h : ¬ l.Nodup) : ∃ A w B C, l = A ++ w :: B ++ w :: C := by
  induction l with
  | nil => simp at h
  | cons x l ih =>
    by_cases hx : x ∈ l
    · obtain ⟨B, C, rfl⟩ := List.append_of_mem hx
      exact ⟨[], x, B, C, rfl⟩
    · obtain ⟨A, w, B, C, rfl⟩ := ih (fun hn => h (List.nodup_cons.2 ⟨hx, hn⟩))
      exact ⟨x :: A, w, B, C, rfl⟩

theorem analyzePatternO_error {pattern : Str} {f : Told PackMessage} (h : analyzePatternO pattern = .error f) :
    ∃ m ws, f = .said m ∧ Words pattern ws ∧ m.SaysPattern ws := by
  have hdd : ∀ l : List Str, l.length ≠ l.dedup.length ↔ ¬ l.Nodup := by
    intro l
    constructor
    · intro h hn
      rw [hn.dedup] at h
      exact h rfl
    · intro h he
      apply h
      rw [← (List.dedup_sublist _).eq_of_length he.symm]
      exact List.nodup_dedup _
  unfold analyzePatternO at h
  simp only at h
  rw [if_congr (hdd _) rfl rfl] at h
  split at h
  · rename_i h1
    cases h
    exact ⟨.duplicates, _, rfl, words_iff.2 rfl, exists_twice h1⟩
  · rename_i h1
    rw [not_not] at h1
    split at h
    · rename_i h2
      cases h
      exact ⟨.noStar, _, rfl, words_iff.2 rfl, h1, h2⟩
    · rename_i h2
      rw [not_not] at h2
      cases hf : (splitWs pattern).find? (fun a => decide (a ≠ ['*']) && (nameReason false a).isSome) with
      | none => rw [hf] at h; cases h
      | some a =>
        rw [hf] at h
        cases h
        have hbad : ∀ w, (nameReason false w).isSome = true ↔ ¬ IsPackName w := by
          intro w
          rw [← checkAxisName_pack, ← nameReason_iff]
          cases nameReason false w <;> simp
        obtain ⟨ha, A, B, hAB, hbefore⟩ := List.find?_eq_some_iff_append.1 hf
        rw [Bool.and_eq_true, decide_eq_true_eq, hbad] at ha
        refine ⟨.invalid a, _, rfl, words_iff.2 rfl, h1, h2, A, B, hAB, ha.1, ha.2, ?_⟩
        intro w hw
        have := hbefore w hw
        rw [Bool.not_eq_true', ← Bool.not_eq_true, Bool.and_eq_true, decide_eq_true_eq, hbad] at this
        by_cases hs : w = ['*']
        · exact .inl hs
        · exact .inr (by by_contra hc; exact this ⟨hs, hc⟩)

omit [PyUnicode] in
theorem packLoopO_said {ops : PackOps α} {b a n i : Nat} {xs : List (Tensor α)} {m : PackMessage}
    (h : packLoopO ops b a n i xs = .error (.said m)) :
    ∃ j s, m = .tooFewAxes (i + j) s n ∧ (xs.map Tensor.shape)[j]? = some s ∧ s.length < n ∧
      ∀ j' < j, ∀ s', (xs.map Tensor.shape)[j']? = some s' → n ≤ s'.length := by
  induction xs generalizing i with
  | nil => cases h
  | cons x xs ih =>
    simp only [packLoopO] at h
    split at h
    · rename_i hl
      cases h
      exact ⟨0, x.shape, rfl, rfl, hl, fun j' hj => absurd hj (by omega)⟩
    · rename_i hl
      split at h
      · cases h
      · split at h
        · rename_i hr
          cases h
          obtain ⟨j, s, rfl, h1, h2, h3⟩ := ih hr
          refine ⟨j + 1, s, by rw [Nat.add_assoc, Nat.add_comm 1], by simpa using h1, h2, ?_⟩
          intro j' hj s' hs
          cases j' with
          | zero => cases hs; omega
          | succ j' => exact h3 j' (by omega) s' (by simpa using hs)
        · cases h

theorem packO_said {ops : PackOps α} {xs : List (Tensor α)} {pattern : Str} {m : PackMessage}
    (h : packO ops xs pattern = .error (.said m)) : m.SaysPack pattern (xs.map Tensor.shape) := by
  unfold packO at h
  cases ha : analyzePatternO pattern with
  | error f =>
    rw [ha] at h
    cases h
    obtain ⟨m', ws, hm, hw, hs⟩ := analyzePatternO_error ha
    cases hm
    cases m <;> first | exact ⟨ws, hw, hs⟩ | exact hs.elim
  | ok r =>
    obtain ⟨b, a, n⟩ := r
    rw [ha] at h
    obtain ⟨hp, rfl⟩ := analyzePattern_iff.1 ((ok_iff_untold (untold_analyzePatternO pattern) _).1 ha)
    cases xs with
    | nil => cases h
    | cons x xs =>
      simp only at h
      cases hl : packLoopO ops b a (b + a) 0 (x :: xs) with
      | error f =>
        rw [hl] at h
        cases h
        obtain ⟨j, s, rfl, h1, h2, h3⟩ := packLoopO_said hl
        rw [Nat.zero_add]
        exact ⟨b, a, hp, rfl, h1, h2, h3⟩
      | ok r =>
        obtain ⟨ys, ps⟩ := r
        rw [hl] at h
        simp only at h
        split at h <;> cases h

omit [PyUnicode] in
theorem splitPositions_length (n : Nat) (l : List Int) : (splitPositions n l).length = l.length + 1 := by
  have hf : ∀ {β : Type} (f : List Int → β → List Int), (∀ sp b, (f sp b).length = sp.length) → ∀ (bs : List β) sp,
      (bs.foldl f sp).length = sp.length := by
    intro β f hf bs
    induction bs with
    | nil => intro sp; rfl
    | cons b bs ih => intro sp; rw [List.foldl_cons, ih, hf]
  unfold splitPositions
  simp only
  split
  · rw [hf _ (fun sp b => List.length_set)]
    simp
  · rw [hf _ (fun sp b => List.length_set), hf _ (fun sp b => List.length_set)]
    simp

omit [PyUnicode] in
/-- the length that is printed is the length of the axis -/
theorem splitPositions_last (n : Nat) (l : List Int) : (splitPositions n l).getLastD 0 = n := by
  have hlast : (splitPositions n l).getLastD 0 = (splitPositions n l).getD l.length 0 := by
    rw [List.getLastD_eq_getLast?, List.getLast?_eq_getElem?, splitPositions_length, Nat.add_sub_cancel,
      List.getD_eq_getElem?_getD]
  rw [hlast]
  by_cases h : -1 ∈ l
  · obtain ⟨A, B, rfl, hA⟩ := List.eq_append_cons_of_mem h
    rw [(splitPositions_unknown n A B hA).2 _ (by simp) le_rfl]
    simp
  · exact (splitPositions_known n l h).2

omit [PyUnicode] in
theorem two_of_filter {β : Type} {p : β → Bool} {l : List β} (h : 1 < (l.filter p).length) :
    ∃ A s B t C, l = A ++ s :: B ++ t :: C ∧ p s = true ∧ p t = true := by
  induction l with
  | nil => simp at h
  | cons x l ih =>
    by_cases hx : p x = true
    · rw [List.filter_cons_of_pos hx, List.length_cons] at h
      have : l.filter p ≠ [] := by rintro h0; rw [h0] at h; simp at h
      obtain ⟨t, ht⟩ := List.exists_mem_of_ne_nil _ this
      obtain ⟨htl, htp⟩ := List.mem_filter.1 ht
      obtain ⟨B, C, rfl⟩ := List.append_of_mem htl
      exact ⟨[], x, B, t, C, rfl, hx, htp⟩
    · rw [List.filter_cons_of_neg hx] at h
      obtain ⟨A, s, B, t, C, rfl, h1, h2⟩ := ih h
      exact ⟨x :: A, s, B, t, C, rfl, h1, h2⟩

theorem unpackO_said {ops : PackOps α} (ho : PackModelled ops) {x : Tensor α} {ps : List (List Int)} {pattern : Str}
    {m : PackMessage} (h : unpackO ops x ps pattern = .error (.said m))
    (h0 : ∀ (pre post : List Nat) N, IsPackPattern pattern pre.length post.length → x.shape = pre ++ N :: post →
      -1 ∈ ps.flatten → 0 ∉ pre ++ post) : m.SaysUnpack pattern x.shape ps := by
  have herr : unpack ops x ps pattern = .error m.kind := by rw [← untold_unpackO, h]; rfl
  unfold unpackO at h
  cases ha : analyzePatternO pattern with
  | error f =>
    rw [ha] at h
    cases h
    obtain ⟨m', ws, hm, hw, hs⟩ := analyzePatternO_error ha
    cases hm
    cases m <;> first | exact ⟨ws, hw, hs⟩ | exact hs.elim
  | ok r =>
    obtain ⟨b, a, n⟩ := r
    rw [ha] at h
    obtain ⟨hp, rfl⟩ := analyzePattern_iff.1 ((ok_iff_untold (untold_analyzePatternO pattern) _).1 ha)
    simp only at h
    split at h
    · rename_i hl
      cases h
      exact ⟨rfl, b, a, hp, hl⟩
    · rename_i hl
      rw [not_not] at hl
      split at h
      · rename_i hc
        cases h
        rw [gt_iff_lt, composedLengths_unknown] at hc
        obtain ⟨A, s, B, t, C, h1, h2, h3⟩ := two_of_filter hc
        exact ⟨rfl, ⟨b, a, hp, hl⟩, A, s, B, t, C, h1, by simpa using h2, by simpa using h3⟩
      · split at h
        · cases h
          have hlt : b < x.shape.length := by omega
          have hsh : x.shape = x.shape.take b ++ nth x.shape b :: x.shape.drop (b + 1) := by
            conv_lhs => rw [← List.take_append_drop b x.shape, List.drop_eq_getElem_cons hlt]
            rw [nth, List.getD_eq_getElem?_getD, List.getElem?_eq_getElem hlt]
            rfl
          have h1 : (x.shape.take b).length = b := by simp; omega
          have h2 : (x.shape.drop (b + 1)).length = a := by simp; omega
          have hp' : IsPackPattern pattern (x.shape.take b).length (x.shape.drop (b + 1)).length := by rw [h1, h2]; exact hp
          refine ⟨rfl, x.shape.take b, x.shape.drop (b + 1), nth x.shape b, hp', hsh, splitPositions_last _ _, ?_⟩
          rintro ⟨rs, hr⟩
          obtain ⟨ys, hy, -⟩ := unpack_exists ho hp' hsh hr (fun hm => by
            have := h0 _ _ _ hp' hsh hm
            rw [List.mem_append, not_or] at this
            exact this)
          rw [hy] at herr
          cases herr
        · cases h

/-! ### `parse_shape` -/

theorem shapeStepO_core {side k : Nat} {e : Elem} (acc : List (Str × Nat)) (n : Nat) (hd : dots ∉ e.words) :
    (e.others = [] → shapeStepO acc (elemAxes side k e) n = if n ≠ 1 then .error (.said .notOne) else .ok acc) ∧
    (∀ w, e.others = [w] → shapeStepO acc (elemAxes side k e) n =
      if IsNumber w then (if decimalValue w ≠ n then .error (.said .anonymous) else .ok acc)
      else if w ≠ ['_'] then .ok (dictSet acc w n) else .ok acc) := by
  obtain ⟨ks, h1, h2⟩ := wordsAxes_core (side := side) (k := k) (ws := e.words)
  rw [others_core]
  constructor
  · intro hc
    unfold Elem.core at hc
    rw [hc] at h2
    unfold shapeStepO
    rw [elemAxes_axes, h2]
    rfl
  · intro w hc
    unfold Elem.core at hc
    have hw : w ≠ dots := by
      rintro rfl
      have : dots ∈ e.words.filter (fun w => !isUnit w) := by rw [hc]; simp
      exact hd (List.mem_filter.1 this).1
    rw [hc] at h1 h2
    obtain ⟨i, rfl⟩ := List.length_eq_one_iff.1 h1
    unfold shapeStepO
    rw [elemAxes_axes, h2]
    simp only [List.zipWith_cons_cons, List.zipWith_nil_left, if_neg hw]
    by_cases hn : IsNumber w
    · simp only [if_pos hn]
    · simp only [if_neg hn]

theorem Matches.append {A B : List Elem} {s t : List Nat} (h : Matches A s) (h' : Matches B t) : Matches (A ++ B) (s ++ t) := by
  induction h with
  | nil => exact h'
  | word h1 h2 h3 _ ih => exact .word h1 h2 h3 ih
  | unit h1 _ ih => exact .unit h1 ih
  | number h1 h2 _ ih => exact .number h1 h2 ih
  | ellipsis _ ih => rw [List.append_assoc]; exact .ellipsis ih

/-- the message about one element -/
def ElemSays (e : Elem) (n : Nat) (m : ShapeMessage) : Prop :=
  (m = .notOne ∧ e.others = [] ∧ n ≠ 1) ∨ (m = .anonymous ∧ ∃ w, e.others = [w] ∧ IsNumber w ∧ decimalValue w ≠ n)

theorem shapeLoopO_elems {G : List Elem} (hd : dots ∉ sideWords G) (hc : ∀ e ∈ G, e.others.length ≤ 1) {k : Nat}
    {C : List CompAxis} {s : List Nat} (hs : G.length ≤ s.length) {acc : List (Str × Nat)} {m : ShapeMessage}
    (h : shapeLoopO acc (denote 0 k G ++ C) s = .error (.said m)) :
    (∃ A e B s₁ n s₂, G = A ++ e :: B ∧ s = s₁ ++ n :: s₂ ∧ Matches A s₁ ∧ A.length = s₁.length ∧ ElemSays e n m) ∨
    ∃ acc', Matches G (s.take G.length) ∧ shapeLoopO acc' C (s.drop G.length) = .error (.said m) := by
  induction G generalizing k s acc with
  | nil => exact .inr ⟨acc, by simpa using Matches.nil, by simpa [denote] using h⟩
  | cons e G ih =>
    cases s with
    | nil => simp at hs
    | cons n s =>
      have hsw : sideWords (e :: G) = e.words ++ sideWords G := by simp [sideWords]
      rw [hsw] at hd
      have hd1 : dots ∉ e.words := fun h => hd (by simp [h])
      obtain ⟨step0, step1⟩ := shapeStepO_core (side := 0) (k := k) acc n hd1
      rw [denote_cons] at h
      simp only [List.cons_append, shapeLoopO] at h
      have go : ∀ acc', shapeLoopO acc' (denote 0 (k + e.words.length) G ++ C) s = .error (.said m) →
          (∀ {G' s'}, Matches G' s' → Matches (e :: G') (n :: s')) →
          (∃ A e' B s₁ n' s₂, e :: G = A ++ e' :: B ∧ n :: s = s₁ ++ n' :: s₂ ∧ Matches A s₁ ∧ A.length = s₁.length ∧ ElemSays e' n' m) ∨
          ∃ acc', Matches (e :: G) ((n :: s).take (e :: G).length) ∧
            shapeLoopO acc' C ((n :: s).drop (e :: G).length) = .error (.said m) := by
        intro acc' h' hm
        rcases ih (fun h => hd (by simp [h])) (fun e he => hc e (by simp [he])) (by simpa using hs) h' with
          ⟨A, e', B, s₁, n', s₂, rfl, rfl, h1, h2, h3⟩ | ⟨acc'', h1, h2⟩
        · exact .inl ⟨e :: A, e', B, n :: s₁, n', s₂, rfl, rfl, hm h1, by simp [h2], h3⟩
        · exact .inr ⟨acc'', by simpa using hm h1, by simpa using h2⟩
      have hcase : e.others = [] ∨ ∃ w, e.others = [w] := by
        have hcl := hc e (by simp)
        rcases h : e.others with _ | ⟨w, _ | ⟨v, t⟩⟩
        · exact .inl rfl
        · exact .inr ⟨w, rfl⟩
        · rw [h] at hcl; simp at hcl
      rcases hcase with h0 | ⟨w, hw⟩
      · rw [step0 h0] at h
        by_cases h1 : n = 1
        · subst h1
          simp only [ne_eq, not_true_eq_false, if_false] at h
          exact go acc h (fun hm => .unit h0 hm)
        · rw [if_pos h1] at h
          cases h
          exact .inl ⟨[], e, G, [], n, s, rfl, rfl, .nil, rfl, .inl ⟨rfl, h0, h1⟩⟩
      · rw [step1 w hw] at h
        have hwd : w ≠ dots := by
          rintro rfl
          have : dots ∈ e.others := by rw [hw]; simp
          exact hd1 (List.mem_filter.1 this).1
        by_cases hnum : IsNumber w
        · rw [if_pos hnum] at h
          by_cases h1 : decimalValue w = n
          · subst h1
            simp only [ne_eq, not_true_eq_false, if_false] at h
            exact go acc h (fun hm => .number hw hnum hm)
          · rw [if_pos h1] at h
            cases h
            exact .inl ⟨[], e, G, [], n, s, rfl, rfl, .nil, rfl, .inr ⟨rfl, w, hw, hnum, h1⟩⟩
        · rw [if_neg hnum] at h
          split at h
          · rename_i hh
            split at hh <;> cases hh
          · exact go _ h (fun hm => .word hw hwd hnum hm)

omit [PyUnicode] in
theorem shapeLoopO_skip (r : Nat) (acc : List (Str × Nat)) (C : List CompAxis) (s : List Nat) (h : r ≤ s.length) :
    shapeLoopO acc (List.replicate r (.group [.str ['_']]) ++ C) s = shapeLoopO acc C (s.drop r) := by
  induction r generalizing s with
  | zero => simp
  | succ r ih =>
    cases s with
    | nil => simp at h
    | cons n s =>
      rw [List.replicate_succ, List.cons_append, List.drop_succ_cons, ← ih s (by simpa using h)]
      rfl

theorem parseShapeO_said {shape : List Nat} {pattern : Str} (hell : '…' ∉ pattern) {m : ShapeMessage}
    (h : parseShapeO shape pattern = .error (.said m)) : m.Says pattern shape := by
  unfold parseShapeO at h
  cases hp : parseExpressionM 0 true false pattern with
  | error sm =>
    rw [hp] at h
    cases h
    exact parseExpressionM_says hp
  | ok pe =>
    rw [hp] at h
    simp only [tellingSide] at h
    have he := erase_parseExpressionM 0 true false pattern
    rw [hp] at he
    obtain ⟨G, hG, rfl⟩ := (parseExpression_iff 0 true false pattern hell pe).1 he.symm
    suffices hs : m.SaysOf shape G by
      cases m with
      | side => exact hs.elim
      | _ => exact ⟨G, hG, hs⟩
    have hcomp : (describe 0 G).hasComposedAxes = true ↔ ∃ e ∈ G, 1 < e.core.length := composed_iff 0 0 G
    have hlen : (describe 0 G).composition.length = G.length := denote_length 0 0 G
    have hns : (describe 0 G).hasEllipsis = decide (dots ∈ sideWords G) := rfl
    split at h
    · rename_i hc
      cases h
      obtain ⟨e, h1, h2⟩ := hcomp.1 hc
      exact ⟨e, h1, by rw [others_core]; exact h2⟩
    · rename_i hc
      rw [hcomp] at hc
      have hcore : ∀ e ∈ G, e.others.length ≤ 1 := fun e he => by
        by_contra hcc
        exact hc ⟨e, he, by rw [← others_core]; omega⟩
      unfold shapeRankO at h
      rw [hlen, hns] at h
      by_cases hd : dots ∈ sideWords G
      · rw [decide_eq_true hd] at h
        simp only [if_true] at h
        have hrank : (if shape.length ≠ G.length then
            (if (shape.length : Int) < G.length - 1 then some ShapeMessage.thisNumber else none) else none) =
            if shape.length + 1 < G.length then some ShapeMessage.thisNumber else none := by
          by_cases h1 : shape.length + 1 < G.length
          · rw [if_pos h1, if_pos (by omega), if_pos (by omega)]
          · rw [if_neg h1]
            split
            · rw [if_neg (by omega)]
            · rfl
        rw [hrank] at h
        by_cases h1 : shape.length + 1 < G.length
        · rw [if_pos h1] at h
          cases h
          exact ⟨hd, h1⟩
        · rw [if_neg h1] at h
          simp only at h
          unfold shapeComposition at h
          rw [hns, decide_eq_true hd, if_pos rfl] at h
          by_cases hb : Elem.bare dots ∈ G
          · obtain ⟨A, B, rfl⟩ := List.append_of_mem hb
            have hone := hG.one_ellipsis
            rw [List.flatMap_append, List.flatMap_cons, List.count_append, List.count_append] at hone
            simp only [Elem.words, List.count_singleton_self] at hone
            have hA : dots ∉ sideWords A := by
              intro hm
              have : 0 < (A.flatMap Elem.words).count dots := List.count_pos_iff.2 hm
              omega
            have hB : dots ∉ sideWords B := by
              intro hm
              have : 0 < (B.flatMap Elem.words).count dots := List.count_pos_iff.2 hm
              omega
            have hbA : Elem.bare dots ∉ A := fun hm => hA (List.mem_flatMap.2 ⟨_, hm, by simp [Elem.words]⟩)
            obtain ⟨j, hj⟩ : ∃ j, (describe 0 (A ++ Elem.bare dots :: B)).composition = denote 0 0 A ++ .ell :: denote 0 j B := by
              show ∃ j, denote 0 0 (A ++ Elem.bare dots :: B) = _
              have : ∀ k, ∃ j, denote 0 k (A ++ Elem.bare dots :: B) = denote 0 k A ++ .ell :: denote 0 j B := by
                clear hG hcomp hlen hns hc hcore hd hrank h1 h hb hone hA hbA hp he
                induction A with
                | nil => intro k; exact ⟨_, by rw [List.nil_append, denote_cons]; rfl⟩
                | cons e A ih =>
                  intro k
                  obtain ⟨j, hj⟩ := ih (k + e.words.length)
                  exact ⟨j, by rw [List.cons_append, denote_cons, denote_cons, hj]; rfl⟩
              exact this 0
            have hnA : CompAxis.ell ∉ denote 0 0 A := fun hm => hbA (denote_ell.1 hm)
            have hidx : indexE (denote 0 0 A ++ .ell :: denote 0 j B) .ell = .ok A.length := by
              unfold indexE
              rw [if_pos (by simp), List.idxOf_append_of_notMem hnA]
              simp [denote_length]
            rw [hj, hidx] at h
            have hlA : (denote 0 0 A).length = A.length := denote_length 0 0 A
            have hlG : (denote 0 0 A ++ CompAxis.ell :: denote 0 j B).length = A.length + 1 + B.length := by
              simp [denote_length]; omega
            have htake : (denote 0 0 A ++ CompAxis.ell :: denote 0 j B).take A.length = denote 0 0 A := by
              rw [← hlA, List.take_left]
            have hdrop : (denote 0 0 A ++ CompAxis.ell :: denote 0 j B).drop (A.length + 1) = denote 0 j B := by
              rw [← hlA, List.drop_append]
              simp
            have hAB : A.length + B.length ≤ shape.length := by
              simp only [List.length_append, List.length_cons] at h1
              omega
            have hr : (((shape.length : Int) - ((A.length + 1 + B.length : Nat) : Int) + 1).toNat) = shape.length - (A.length + B.length) := by
              omega
            simp only [hlG, htake, hdrop, hr, telling, List.append_assoc] at h
            rcases shapeLoopO_elems hA (fun e he => hcore e (by simp [he])) (by omega) h with
              ⟨A₁, e, A₂, s₁, n, s₂, rfl, hs, hm1, hm2, hm3⟩ | ⟨acc', hm, h'⟩
            · have hst : StandsAt ((A₁ ++ e :: A₂) ++ Elem.bare dots :: B) shape e n := by
                refine ⟨A₁, A₂ ++ Elem.bare dots :: B, s₁, s₂, by simp, hs, hm1, ?_⟩
                have hin : dots ∈ sideWords (A₂ ++ Elem.bare dots :: B) :=
                  List.mem_flatMap.2 ⟨.bare dots, by simp, by simp [Elem.words]⟩
                rw [if_pos hin]
                rw [hs] at hAB
                simp only [List.length_append, List.length_cons] at hAB ⊢
                omega
              rcases hm3 with ⟨rfl, h3, h4⟩ | ⟨rfl, w, h3, h4, h5⟩
              · exact ⟨e, n, hst, h3, h4⟩
              · exact ⟨e, n, w, hst, h3, h4, h5⟩
            · rw [shapeLoopO_skip _ _ _ _ (by rw [List.length_drop]; omega), List.drop_drop] at h'
              have hnil : denote 0 j B = denote 0 j B ++ [] := by simp
              rw [hnil] at h'
              have hsplit : shape = shape.take A.length ++
                  ((shape.drop A.length).take (shape.length - (A.length + B.length)) ++
                    shape.drop (A.length + (shape.length - (A.length + B.length)))) := by
                rw [← List.drop_drop, List.take_append_drop, List.take_append_drop]
              rcases shapeLoopO_elems hB (fun e he => hcore e (by simp [he])) (by rw [List.length_drop]; omega) h' with
                ⟨B₁, e, B₂, s₁, n, s₂, rfl, hs, hm1, hm2, hm3⟩ | ⟨acc'', hm', h''⟩
              · have hst : StandsAt (A ++ Elem.bare dots :: (B₁ ++ e :: B₂)) shape e n := by
                  refine ⟨A ++ Elem.bare dots :: B₁, B₂, shape.take A.length ++
                    ((shape.drop A.length).take (shape.length - (A.length + (B₁ ++ e :: B₂).length)) ++ s₁), s₂, by simp, ?_,
                    hm.append (.ellipsis hm1), ?_⟩
                  · conv_lhs => rw [hsplit, hs]
                    simp
                  · have hnot : dots ∉ sideWords B₂ := fun hh => hB (by
                      obtain ⟨e', h1, h2⟩ := List.mem_flatMap.1 hh
                      exact List.mem_flatMap.2 ⟨e', by simp [h1], h2⟩)
                    rw [if_neg hnot]
                    have := congrArg List.length hs
                    simp only [List.length_drop, List.length_append, List.length_cons] at this hAB
                    omega
                rcases hm3 with ⟨rfl, h3, h4⟩ | ⟨rfl, w, h3, h4, h5⟩
                · exact ⟨e, n, hst, h3, h4⟩
                · exact ⟨e, n, w, hst, h3, h4, h5⟩
              · cases h''
          · have hidx : indexE (describe 0 G).composition .ell = .error .value := by
              unfold indexE
              rw [if_neg]
              exact fun hm => hb (denote_ell.1 hm)
            rw [hidx] at h
            cases h
      · rw [decide_eq_false hd] at h
        simp only [Bool.false_eq_true, if_false] at h
        by_cases h1 : shape.length = G.length
        · rw [if_neg (by omega)] at h
          simp only at h
          unfold shapeComposition at h
          rw [hns, decide_eq_false hd] at h
          simp only [Bool.false_eq_true, if_false, telling] at h
          have h2 : shapeLoopO [] (denote 0 0 G ++ []) shape = .error (.said m) := by
            rw [List.append_nil]
            exact h
          rcases shapeLoopO_elems hd hcore (by omega) h2 with
            ⟨A, e, B, s₁, n, s₂, rfl, rfl, hm1, hm2, hm3⟩ | ⟨acc', -, h'⟩
          · have hst : StandsAt (A ++ e :: B) (s₁ ++ n :: s₂) e n := by
              refine ⟨A, B, s₁, s₂, rfl, rfl, hm1, ?_⟩
              have hnot : dots ∉ sideWords B := fun hh => hd (by
                obtain ⟨e', h1, h2⟩ := List.mem_flatMap.1 hh
                exact List.mem_flatMap.2 ⟨e', by simp [h1], h2⟩)
              rw [if_neg hnot]
              simp only [List.length_append, List.length_cons] at h1
              omega
            rcases hm3 with ⟨rfl, h3, h4⟩ | ⟨rfl, w, h3, h4, h5⟩
            · exact ⟨e, n, hst, h3, h4⟩
            · exact ⟨e, n, w, hst, h3, h4, h5⟩
          · cases h'
        · rw [if_pos h1] at h
          cases h
          exact ⟨hd, h1⟩

/-! ### `einsum` -/

theorem elemMessage_or (e : Elem) : (∃ t, readElem e = some t) ∨ ∃ m, ElemMessage e m := by
  cases e with
  | bare w =>
    simp only [readElem, readWord]
    by_cases hd : w = dots
    · rw [if_pos hd]
      exact .inl ⟨_, rfl⟩
    · rw [if_neg hd]
      by_cases hn : IsNumber w
      · right
        by_cases h1 : decimalValue w = 1
        · exact ⟨_, .singleton (by simp [Elem.others, Elem.words, hn, h1])⟩
        · exact ⟨_, .anonymous w (by simp [Elem.others, Elem.words, h1]) hn⟩
      · rw [if_neg hn]
        exact .inl ⟨_, rfl⟩
  | paren ws =>
    simp only [readElem]
    rcases hw : ws.filter (fun w => decide (¬ (IsNumber w ∧ decimalValue w = 1))) with _ | ⟨w, _ | ⟨w', rest⟩⟩
    · exact .inr ⟨_, .singleton hw⟩
    · simp only [hw, readWord]
      by_cases hd : w = dots
      · rw [if_pos hd]
        exact .inl ⟨_, rfl⟩
      · rw [if_neg hd]
        by_cases hn : IsNumber w
        · exact .inr ⟨_, .anonymous w hw hn⟩
        · rw [if_neg hn]
          exact .inl ⟨_, rfl⟩
    · exact .inr ⟨_, .rearrangement (show 2 ≤ (ws.filter _).length by rw [hw]; simp)⟩

/-- what the code sees of an element -/
def SeenO (e : Elem) (c : CompAxis) : Prop :=
  Seen e c ∧ ∀ m, ElemMessage e m → ∃ g, c = .group g ∧ einsumAxisNameO g = .error (.said m)

theorem seenO_elem (side k : Nat) (e : Elem) {m : EinsumMessage} (h : ElemMessage e m) :
    ∃ g, elemAxes side k e = .group g ∧ einsumAxisNameO g = .error (.said m) := by
  have hnd : e ≠ .bare dots := by
    rintro rfl
    have ho : (Elem.bare dots).others = [dots] := by
      simp only [Elem.others, Elem.words]
      rw [List.filter_cons_of_pos (by simp [dots_not_number])]
      rfl
    cases h with
    | singleton h => rw [ho] at h; cases h
    | rearrangement h => rw [ho] at h; simp at h
    | anonymous w h h' => rw [ho] at h; cases h; exact dots_not_number h'
  obtain ⟨g, hg⟩ : ∃ g, elemAxes side k e = .group g := by
    cases e with
    | bare w => exact ⟨_, if_neg (fun hd => hnd (by rw [hd]))⟩
    | paren ws => exact ⟨_, rfl⟩
  refine ⟨g, hg, ?_⟩
  have hax := elemAxes_axes side k e
  rw [hg] at hax
  obtain ⟨ks, h1, h2⟩ := wordsAxes_core (side := side) (k := k) (ws := e.words)
  have hc : e.words.filter (fun w => !isUnit w) = e.others := (others_core e).symm
  rw [hc] at h1 h2
  rw [show (CompAxis.group g).axes = g from rfl] at hax
  rw [hax, h2]
  cases h with
  | singleton h => rw [h]; rfl
  | rearrangement h =>
    rcases ho : e.others with _ | ⟨w, _ | ⟨w', rest⟩⟩
    · rw [ho] at h; simp at h
    · rw [ho] at h; simp at h
    · rw [ho] at h1
      rcases ks with _ | ⟨i, _ | ⟨j, ks⟩⟩
      · simp at h1
      · simp at h1
      · have : ∀ (a b : Axis) (l : List Axis), einsumAxisNameO (a :: b :: l) = .error (.said .rearrangement) := by
          intro a b l
          cases a <;> rfl
        simp only [List.zipWith_cons_cons, this]
  | anonymous w h h' =>
    rw [h] at h1 ⊢
    obtain ⟨i, rfl⟩ := List.length_eq_one_iff.1 h1
    simp only [List.zipWith_cons_cons, List.zipWith_nil_left]
    rw [if_neg (by rintro rfl; exact dots_not_number h'), if_pos h']
    rfl

theorem seenO_denote (side k : Nat) (G : List Elem) : List.Forall₂ SeenO G (denote side k G) := by
  have h1 := seen_denote side k G
  induction G generalizing k with
  | nil => exact .nil
  | cons e G ih =>
    rw [denote_cons] at h1 ⊢
    cases h1 with
    | cons h1 h2 => exact .cons ⟨h1, fun m hm => seenO_elem side k e hm⟩ (ih _ h2)

theorem seenO_flat (Gs : List (List Elem)) : List.Forall₂ SeenO Gs.flatten (Gs.flatMap (denote 0 0)) := by
  induction Gs with
  | nil => exact .nil
  | cons G Gs ih => exact List.rel_append (seenO_denote 0 0 G) ih

omit [PyUnicode] in
theorem einsumLeftO_append (m : List (Str × Char)) (i : Nat) (a b : List CompAxis) :
    einsumLeftO m i (a ++ b) =
      match einsumLeftO m i a with
      | .error e => .error e
      | .ok (s, m, i) =>
        match einsumLeftO m i b with
        | .error e => .error e
        | .ok (t, m, i) => .ok (s ++ t, m, i) := by
  induction a generalizing m i with
  | nil =>
    simp only [List.nil_append, einsumLeftO]
    rcases einsumLeftO m i b with e | ⟨t, m, i⟩ <;> rfl
  | cons c a ih =>
    simp only [List.cons_append, einsumLeftO]
    rcases einsumLeftStepO m i c with e | ⟨s, m, i⟩
    · rfl
    · simp only [ih]
      rcases einsumLeftO m i a with e | ⟨s, m, i⟩
      · rfl
      · simp only
        rcases einsumLeftO m i b with e | ⟨t, m, i⟩
        · rfl
        · simp

omit [PyUnicode] in
theorem einsumLeftsO_flat (m : List (Str × Char)) (i : Nat) (ps : List ParsedExpression) (e : Told EinsumMessage)
    (h : einsumLeftO m i (ps.flatMap ParsedExpression.composition) = .error e) : einsumLeftsO m i ps = .error e := by
  induction ps generalizing m i with
  | nil => cases h
  | cons p ps ih =>
    rw [List.flatMap_cons, einsumLeftO_append] at h
    simp only [einsumLeftsO]
    revert h
    rcases einsumLeftO m i p.composition with e' | ⟨s, m, i⟩
    · exact fun h => by cases h; rfl
    · intro h
      simp only at h ⊢
      rcases hb : einsumLeftO m i (ps.flatMap ParsedExpression.composition) with e' | ⟨t, m', i'⟩
      · rw [hb] at h
        cases h
        rw [ih m i hb]
      · rw [hb] at h
        cases h

omit [PyUnicode] in
/-- names alone lead to no other message than about their number -/
theorem einsumLeftO_syms {m : List (Str × Char)} {i : Nat} {t : List ESym} (ht : ∀ w ∈ symNames t, w ≠ []) {e : Told EinsumMessage}
    (h : einsumLeftO m i (t.map symComp) = .error e) : e = .said .tooMany := by
  induction t generalizing m i with
  | nil => cases h
  | cons a t ih =>
    simp only [List.map_cons, einsumLeftO] at h
    have ht' : ∀ w ∈ symNames t, w ≠ [] := by
      intro w hw
      apply ht
      cases a <;> simp [symNames, hw]
    cases hs : einsumLeftStepO m i (symComp a) with
    | error e' =>
      rw [hs] at h
      cases h
      cases a with
      | ell => cases hs
      | name w =>
        simp only [symComp, einsumLeftStepO, einsumAxisNameO, if_neg (ht w (by simp [symNames]))] at hs
        split at hs
        · cases hs
        · split at hs
          · cases hs; rfl
          · cases hs
    | ok r =>
      obtain ⟨s, m', i'⟩ := r
      rw [hs] at h
      simp only at h
      cases hr : einsumLeftO m' i' (t.map symComp) with
      | error e' => rw [hr] at h; cases h; exact ih ht' hr
      | ok r => rw [hr] at h; cases h

/-- every trouble is reported by its message -/
theorem einsumTold_error {A B : List Elem} {C D : List CompAxis} {ps : List ParsedExpression}
    (hps : ps.flatMap ParsedExpression.composition = C) (hA : List.Forall₂ SeenO A C) (hB : List.Forall₂ SeenO B D)
    (wA : ∀ w ∈ elemNames A, w ≠ []) (wB : ∀ w ∈ elemNames B, w ≠ []) {m : EinsumMessage} (h : EinsumTold A B m) :
    (match einsumLeftsO [] 0 ps with
      | .error e => (.error e : PyEinsum Str)
      | .ok (ss, m) =>
        match einsumRightO m D with
        | .error e => .error e
        | .ok t => .ok (List.intercalate [','] ss ++ ['-', '>'] ++ t)) = .error (.said m) := by
  subst hps
  have nil52 : ([] : List Str).length ≤ 52 := by simp
  have seen : ∀ {A : List Elem} {C : List CompAxis}, List.Forall₂ SeenO A C → List.Forall₂ Seen A C :=
    fun h => h.imp (fun _ _ h => h.1)
  -- the inputs are fine
  have fine : ∀ {t : List ESym}, A.map readElem = t.map some → distinct (symNames t) ≤ 52 →
      ∃ ss, einsumLeftsO [] 0 ps = .ok (ss, letterDict (grow [] (symNames t))) := by
    intro t h1 h2
    have hl := einsumLeft_syms nil52 (t := t) (fun w hw => wA w (by rw [elemNames_read h1]; exact hw)) []
    rw [List.append_nil, ← seen_syms (seen hA) h1, grow_length, if_pos h2] at hl
    simp only [einsumLeft] at hl
    obtain ⟨ss, hss⟩ := (einsumLefts_flat _ _ ps).2 _ _ _ hl
    rw [show letterDict [] = [] from rfl, List.length_nil] at hss
    exact ⟨ss, (ok_iff_untold (untold_einsumLeftsO _ _ _) _).2 hss⟩
  cases h with
  | input A₁ e A₂ t _ hA' h1 h2 h3 =>
    subst hA'
    obtain ⟨C₁, C₂, hC, f1, f2⟩ := forall₂_split hA
    cases f2 with
    | @cons _ _ _ C₃ g1 g2 =>
      obtain ⟨g, rfl, hg⟩ := g1.2 m h3
      have hl := einsumLeft_syms nil52 (t := t) (fun w hw => wA w (by
        rw [elemNames_append, elemNames_read h1]; simp [hw])) []
      rw [List.append_nil, ← seen_syms (seen f1) h1, grow_length, if_pos h2, show letterDict [] = [] from rfl, List.length_nil] at hl
      simp only [einsumLeft] at hl
      have hlO := (ok_iff_untold (untold_einsumLeftO _ _ _) _).2 hl
      rw [einsumLeftsO_flat [] 0 ps (.said m)]
      rw [hC, einsumLeftO_append, hlO]
      simp only [einsumLeftO, einsumLeftStepO, hg]
  | letters A₁ A₂ t hA' h1 h2 =>
    subst hA'
    obtain ⟨C₁, C₂, hC, f1, f2⟩ := forall₂_split hA
    have wt : ∀ w ∈ symNames t, w ≠ [] := fun w hw => wA w (by
      rw [elemNames_append, elemNames_read h1]; simp [hw])
    have hl := einsumLeft_syms nil52 (t := t) wt []
    rw [List.append_nil, grow_length, if_neg (by omega), show letterDict [] = [] from rfl, List.length_nil] at hl
    have hO : einsumLeftO [] 0 C₁ = .error (.said .tooMany) := by
      rw [seen_syms (seen f1) h1]
      rw [← untold_einsumLeftO] at hl
      cases hO : einsumLeftO [] 0 (t.map symComp) with
      | ok r => rw [hO] at hl; cases hl
      | error e => rw [einsumLeftO_syms wt hO]
    rw [einsumLeftsO_flat [] 0 ps (.said .tooMany)]
    rw [hC, einsumLeftO_append, hO]
  | output t u B₁ e B₂ _ h1 h2 hB' h3 h4 h5 =>
    subst hB'
    obtain ⟨ss, hss⟩ := fine h1 h2
    rw [hss]
    obtain ⟨D₁, D₂, rfl, f1, f2⟩ := forall₂_split hB
    cases f2 with
    | cons g1 g2 =>
      obtain ⟨g, rfl, hg⟩ := g1.2 m h5
      rw [seen_syms (seen f1) h3]
      have : ∀ u : List ESym, (∀ w ∈ symNames u, w ∈ symNames t) → (∀ w ∈ symNames u, w ≠ []) → ∀ D,
          einsumRightO (letterDict (grow [] (symNames t))) (u.map symComp ++ .group g :: D) = .error (.said m) := by
        intro u hu hn D
        induction u with
        | nil => simp only [List.map_nil, List.nil_append, einsumRightO, hg]
        | cons a u ih =>
          cases a with
          | ell => simp only [List.map_cons, List.cons_append, symComp, einsumRightO]; rw [ih hu hn]
          | name w =>
            simp only [List.map_cons, List.cons_append, symComp, einsumRightO, einsumAxisNameO,
              if_neg (hn w (by simp [symNames])), dictGet_letter (K := grow [] (symNames t)) (by rw [grow_length]; exact h2),
              if_pos (mem_grow.2 (.inr (hu w (by simp [symNames]))))]
            rw [ih (fun v hv => hu v (by simp [symNames, hv])) (fun v hv => hn v (by simp [symNames, hv]))]
      simp only [this u h4 (fun w hw => wB w (by rw [elemNames_append, elemNames_read h3]; simp [hw]))]
  | unknown t u B₁ e B₂ v h1 h2 hB' h3 h4 h5 h6 =>
    subst hB'
    obtain ⟨ss, hss⟩ := fine h1 h2
    rw [hss]
    obtain ⟨D₁, D₂, rfl, f1, f2⟩ := forall₂_split hB
    cases f2 with
    | cons g1 g2 =>
      obtain rfl := g1.1.1 _ h5
      have hv : v ≠ [] := wB v (by
        rw [elemNames_append, show e :: B₂ = [e] ++ B₂ from rfl, elemNames_append,
          elemNames_read (G := [e]) (t := [.name v]) (by simp [h5])]
        simp [symNames])
      rw [seen_syms (seen f1) h3]
      have : ∀ u : List ESym, (∀ w ∈ symNames u, w ∈ symNames t) → (∀ w ∈ symNames u, w ≠ []) → ∀ D,
          einsumRightO (letterDict (grow [] (symNames t))) (u.map symComp ++ symComp (.name v) :: D) =
            .error (.said (.unknownAxis v)) := by
        intro u hu hn D
        induction u with
        | nil =>
          simp only [List.map_nil, List.nil_append, symComp, einsumRightO, einsumAxisNameO, if_neg hv,
            dictGet_letter (K := grow [] (symNames t)) (by rw [grow_length]; exact h2)]
          rw [if_neg (by rw [mem_grow]; simpa using h6)]
        | cons a u ih =>
          cases a with
          | ell => simp only [List.map_cons, List.cons_append, symComp, einsumRightO] at ih ⊢; rw [ih hu hn]
          | name w =>
            have := ih (fun v hv => hu v (by simp [symNames, hv])) (fun v hv => hn v (by simp [symNames, hv]))
            simp only [List.map_cons, List.cons_append, symComp, einsumRightO, einsumAxisNameO,
              if_neg (hn w (by simp [symNames])), dictGet_letter (K := grow [] (symNames t)) (by rw [grow_length]; exact h2),
              if_pos (mem_grow.2 (.inr (hu w (by simp [symNames]))))] at this ⊢
            rw [this]
      simp only [this u h4 (fun w hw => wB w (by rw [elemNames_append, elemNames_read h3]; simp [hw]))]

/-- every trouble has a message -/
theorem told_of_trouble {A B : List Elem} {e : PyErr} (h : EinsumTrouble A B e) : ∃ m, EinsumTold A B m := by
  have none_msg : ∀ {e : Elem}, readElem e = none → ∃ m, ElemMessage e m := by
    intro e he
    rcases elemMessage_or e with ⟨t, ht⟩ | h
    · rw [he] at ht; cases ht
    · exact h
  cases h with
  | input A₁ e A₂ t h1 h2 h3 h4 =>
    obtain ⟨m, hm⟩ := none_msg h4
    exact ⟨m, .input A₁ e A₂ t m h1 h2 h3 hm⟩
  | letters A₁ A₂ t h1 h2 h3 => exact ⟨_, .letters A₁ A₂ t h1 h2 h3⟩
  | output t u B₁ e B₂ h1 h2 h3 h4 h5 h6 =>
    obtain ⟨m, hm⟩ := none_msg h6
    exact ⟨m, .output t u B₁ e B₂ m h1 h2 h3 h4 h5 hm⟩
  | unknown t u B₁ e B₂ w h1 h2 h3 h4 h5 h6 h7 => exact ⟨_, .unknown t u B₁ e B₂ w h1 h2 h3 h4 h5 h6 h7⟩

/-- the messages for a well formed pattern -/
theorem compactifyO_told {pattern : Str} {Gs : List (List Elem)} {G : List Elem}
    (h : EinsumSides pattern Gs G) (f : Told EinsumMessage) :
    compactifyO pattern = .error f ↔ ∃ m, f = .said m ∧ EinsumTold Gs.flatten G m := by
  obtain ⟨parts, r, hne, hpat, hl, hr⟩ := h.written
  have hw : ∀ w ∈ elemNames Gs.flatten, w ≠ [] := by
    intro w hw
    rw [elemNames_flatten] at hw
    obtain ⟨G, hG, hw⟩ := List.mem_flatMap.1 hw
    obtain ⟨i, hi, rfl⟩ := List.getElem_of_mem hG
    exact read_ne_nil (hl.get (by rw [hl.length_eq]; exact hi) hi) hw
  have hsp : ∀ p ∈ parts, ∀ c ∈ [',', '-', '>', '*', '…'], c ∉ p := by
    intro p hp c hc
    obtain ⟨i, hi, rfl⟩ := List.getElem_of_mem hp
    exact isSide_no_special (hl.get hi (by rw [← hl.length_eq]; exact hi)) hc
  have hrell : '…' ∉ r := isSide_no_special hr (by simp)
  have key : ∀ {m}, EinsumTold Gs.flatten G m → compactifyO pattern = .error (.said m) := by
    intro m hm
    have hsplit : splitArrow pattern = .ok (List.intercalate [','] parts, r) := by
      rw [splitArrow_iff]
      refine ⟨hpat, ?_, isSide_no_arrow hr⟩
      intro hi
      rcases mem_intercalate (hi.subset (show '-' ∈ ['-', '>'] by simp)) with h | ⟨p, hp, h⟩
      · cases h
      · exact hsp p hp '-' (by simp) h
    have hcont : containsSub ['-', '>'] pattern = true := containsSub_iff.2 ⟨_, _, hpat.symm⟩
    have hparts : splitOn [','] (List.intercalate [','] parts) = parts := splitOn_comma_join hne (fun p hp => hsp p hp ',' (by simp))
    have hmap : mapE (fun s => tellingSide EinsumMessage.side (parseExpressionM 0 true true s)) parts = .ok (Gs.map (describe 0)) := by
      clear hpat hparts hsplit hm hw hne h
      induction hl with
      | nil => rfl
      | @cons p G' parts Gs' h1 h2 ih =>
        have h3 := (parseExpression_iff 0 true true p (hsp p (by simp) '…' (by simp)) _).2 ⟨G', h1, rfl⟩
        rw [← erase_parseExpressionM] at h3
        simp only [mapE, ih (fun p hp => hsp p (by simp [hp]))]
        cases hp : parseExpressionM 0 true true p with
        | error e => rw [hp] at h3; cases h3
        | ok pe => rw [hp] at h3; cases h3; rfl
    have hright : tellingSide EinsumMessage.side (parseExpressionM 1 true false r) = .ok (describe 1 G) := by
      have h3 := (parseExpression_iff 1 true false r hrell _).2 ⟨G, hr, rfl⟩
      rw [← erase_parseExpressionM] at h3
      cases hp : parseExpressionM 1 true false r with
      | error e => rw [hp] at h3; cases h3
      | ok pe => rw [hp] at h3; cases h3; rfl
    unfold compactifyO
    simp only [hcont, Bool.not_true, Bool.false_eq_true, if_false, hsplit, hparts, hmap, hright]
    have hfl : (Gs.map (describe 0)).flatMap ParsedExpression.composition = Gs.flatMap (denote 0 0) := by
      rw [List.flatMap_map]
      rfl
    exact einsumTold_error hfl (seenO_flat Gs) (seenO_denote 1 0 G) hw (fun w hw => read_ne_nil hr hw) hm
  constructor
  · intro hf
    have he : compactify pattern = .error (f.kind EinsumMessage.kind) := by rw [← untold_compactifyO, hf]; rfl
    obtain ⟨m, hm⟩ := told_of_trouble ((compactify_trouble h _).1 he)
    rw [key hm] at hf
    cases hf
    exact ⟨m, rfl, hm⟩
  · rintro ⟨m, rfl, hm⟩
    exact key hm

omit [PyUnicode] in
theorem mapE_ok_each {ε β γ : Type} {f : β → Except ε γ} {l : List β} {r : List γ} (h : mapE f l = .ok r) :
    ∀ b ∈ l, ∃ v, f b = .ok v := by
  induction l generalizing r with
  | nil => simp
  | cons a l ih =>
    simp only [mapE] at h
    cases ha : f a with
    | error e => rw [ha] at h; cases h
    | ok v =>
      rw [ha] at h
      simp only at h
      cases hl : mapE f l with
      | error e => rw [hl] at h; cases h
      | ok vs =>
        intro b hb
        rcases List.mem_cons.1 hb with rfl | hb
        · exact ⟨v, ha⟩
        · exact ih hl b hb

omit [PyUnicode] in
theorem mem_of_mem_intercalate {c : Char} {p : Str} {parts : List Str} (hp : p ∈ parts) (hc : c ∈ p) :
    c ∈ List.intercalate [','] parts := by
  induction parts with
  | nil => simp at hp
  | cons q qs ih =>
    cases qs with
    | nil => simp at hp; subst hp; simpa [List.intercalate] using hc
    | cons q' qs =>
      rw [show List.intercalate [','] (q :: q' :: qs) = q ++ ',' :: List.intercalate [','] (q' :: qs) by
        simp [List.intercalate]]
      rcases List.mem_cons.1 hp with rfl | hp
      · simp [hc]
      · simp [ih hp]

theorem compactifyO_said {pattern : Str} (hell : '…' ∉ pattern) {m : EinsumMessage}
    (h : compactifyO pattern = .error (.said m)) : m.Says pattern := by
  by_cases hs : ∃ Gs G, EinsumSides pattern Gs G
  · obtain ⟨Gs, G, hs⟩ := hs
    obtain ⟨m', hm, ht⟩ := (compactifyO_told hs _).1 h
    cases hm
    have : ∀ e : Elem, ∀ {m}, ElemMessage e m → m = .singleton ∨ m = .rearrangement ∨ m = .anonymous := by
      intro e m h
      cases h <;> simp
    have hm : m = .singleton ∨ m = .rearrangement ∨ m = .anonymous ∨ m = .tooMany ∨ ∃ w, m = .unknownAxis w := by
      cases ht with
      | input A₁ e A₂ t _ _ _ _ h => rcases this e h with h | h | h <;> simp [h]
      | letters => simp
      | output t u B₁ e B₂ _ _ _ _ _ _ h => rcases this e h with h | h | h <;> simp [h]
      | unknown => simp
    rcases hm with rfl | rfl | rfl | rfl | ⟨w, rfl⟩ <;> exact ⟨Gs, G, hs, ht⟩
  · unfold compactifyO at h
    split at h
    · rename_i hc
      cases h
      intro hi
      have := containsSub_iff.2 hi
      rw [this] at hc
      cases hc
    · cases hsp : splitArrow pattern with
      | error e => rw [hsp] at h; cases h
      | ok lr =>
        obtain ⟨l, r⟩ := lr
        rw [hsp] at h
        simp only at h
        obtain ⟨hpat, hl, hr⟩ := splitArrow_iff.1 hsp
        obtain ⟨hj, hne, hcomma⟩ := splitOn_comma l
        have hell' : ∀ p ∈ splitOn [','] l, '…' ∉ p := by
          intro p hp hc
          apply hell
          rw [hpat, ← hj, List.append_assoc, List.mem_append]
          exact .inl (mem_of_mem_intercalate hp hc)
        have hrell : '…' ∉ r := fun hc => hell (by rw [hpat]; simp [hc])
        have sides : ∀ P : List Str, (∀ p ∈ P, '…' ∉ p) →
            (∀ p ∈ P, ∃ pe, tellingSide EinsumMessage.side (parseExpressionM 0 true true p) = .ok pe) →
            ∃ Gs, List.Forall₂ (IsSide true true) P Gs := by
          intro P
          induction P with
          | nil => exact fun _ _ => ⟨[], .nil⟩
          | cons p P ih =>
            intro h1 h2
            obtain ⟨Gs, hGs⟩ := ih (fun p hp => h1 p (by simp [hp])) (fun p hp => h2 p (by simp [hp]))
            obtain ⟨pe, hpe⟩ := h2 p (by simp)
            have h3 : parseExpression 0 true true p = .ok pe := by
              rw [← erase_parseExpressionM]
              cases hp : parseExpressionM 0 true true p with
              | error e => rw [hp] at hpe; cases hpe
              | ok pe' => rw [hp] at hpe; cases hpe; rfl
            obtain ⟨G, hG, -⟩ := (parseExpression_iff 0 true true p (h1 p (by simp)) pe).1 h3
            exact ⟨G :: Gs, .cons hG hGs⟩
        cases hm : mapE (fun s => tellingSide EinsumMessage.side (parseExpressionM 0 true true s)) (splitOn [','] l) with
        | error e =>
          rw [hm] at h
          cases h
          obtain ⟨P, p, Q, hPQ, hp, hP⟩ := mapE_error_first hm
          cases hpe : parseExpressionM 0 true true p with
          | ok pe => rw [hpe] at hp; cases hp
          | error sm =>
            rw [hpe] at hp
            cases hp
            obtain ⟨Gs, hGs⟩ := sides P (fun q hq => hell' q (by rw [hPQ]; simp [hq])) hP
            refine ⟨splitOn [','] l, r, by rw [hj]; exact hpat, hcomma, by rw [hj]; exact hl, hr, .inl ⟨P, p, Q, Gs, hPQ, hGs, parseExpressionM_says hpe⟩⟩
        | ok lefts =>
          rw [hm] at h
          simp only at h
          obtain ⟨Gs, hGs⟩ := sides _ hell' (fun p hp => mapE_ok_each hm p hp)
          cases hpe : parseExpressionM 1 true false r with
          | error sm =>
            rw [hpe] at h
            cases h
            exact ⟨splitOn [','] l, r, by rw [hj]; exact hpat, hcomma, by rw [hj]; exact hl, hr, .inr ⟨Gs, hGs, parseExpressionM_says hpe⟩⟩
          | ok pe =>
            exfalso
            have h3 : parseExpression 1 true false r = .ok pe := by
              rw [← erase_parseExpressionM, hpe]
              rfl
            obtain ⟨G, hG, -⟩ := (parseExpression_iff 1 true false r hrell pe).1 h3
            exact hs ⟨Gs, G, ⟨splitOn [','] l, r, hne, by rw [hj]; exact hpat, hGs, hG⟩⟩

end

end Einops
