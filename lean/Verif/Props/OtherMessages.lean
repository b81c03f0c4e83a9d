import Verif.Proofs.OtherMessages
import Verif.Props.Messages

/-!
# The messages of `pack`, `unpack`, `parse_shape` and `einsum` say what is wrong (C83)
-/

namespace Einops

universe u

section
variable {α : Type u} [PyUnicode] {pattern : Str}

/-! ### the functions with messages are the functions -/

/-- **C83** Forgetting the messages gives the functions of the model. -/
theorem C83_erase (ops : PackOps α) (xs : List (Tensor α)) (x : Tensor α) (ps : List (List Int)) (shape : List Nat)
    (f : Str → List (Tensor α) → Py (Tensor α)) (args : List (EinsumArg α)) :
    untold PackMessage.kind (packO ops xs pattern) = pack ops xs pattern ∧
    untold PackMessage.kind (unpackO ops x ps pattern) = unpack ops x ps pattern ∧
    untold ShapeMessage.kind (parseShapeO shape pattern) = parseShape shape pattern ∧
    untold EinsumMessage.kind (einsumO f args) = einsum f args :=
  ⟨untold_packO _ _ _, untold_unpackO _ _ _ _, untold_parseShapeO _ _, untold_einsumO _ _⟩

/-! ### `pack` -/

/-- **C83** What a message of `pack` says about the pattern and the shapes is so. -/
theorem C83_pack {ops : PackOps α} {xs : List (Tensor α)} {m : PackMessage} (h : packO ops xs pattern = .error (.said m)) :
    m.SaysPack pattern (xs.map Tensor.shape) := packO_said h

theorem mapE_error_of {ε β : Type} {γ : Type u} {f : β → Except ε γ} {l : List β} {e : ε} (h : mapE f l = .error e) :
    ∃ a ∈ l, f a = .error e := by
  induction l with
  | nil => cases h
  | cons a l ih =>
    simp only [mapE] at h
    split at h
    · rename_i hf
      cases h
      exact ⟨a, by simp, hf⟩
    · split at h
      · rename_i hl
        cases h
        obtain ⟨b, hb, he⟩ := ih hl
        exact ⟨b, by simp [hb], he⟩
      · cases h

theorem concat_not_einops {ys : List (Tensor α)} {b : Nat} : Tensor.concat ys b ≠ .error .einops := by
  intro h
  unfold Tensor.concat at h
  split at h
  · cases h
  · split at h
    · simp only at h
      unfold Tensor.build at h
      split at h
      · cases h
      · rename_i hm
        cases h
        obtain ⟨i, -, hi⟩ := mapE_error_of hm
        split at hi
        · unfold Tensor.getE at hi
          split at hi <;> cases hi
        · cases hi
    · cases h

/-- Every `EinopsError` of `pack` has a message, and nothing else has. -/
theorem C83_pack_message {ops : PackOps α} (ho : PackModelled ops) (xs : List (Tensor α)) :
    pack ops xs pattern = .error .einops ↔ ∃ m, packO ops xs pattern = .error (.said m) := by
  rw [← untold_packO]
  constructor
  · intro h
    cases hp : packO ops xs pattern with
    | ok r => rw [hp] at h; cases h
    | error f =>
      cases f with
      | said m => exact ⟨m, rfl⟩
      | other e =>
        rw [hp] at h
        cases h
        exfalso
        unfold packO at hp
        cases ha : analyzePatternO pattern with
        | error f =>
          obtain ⟨m, ws, rfl, -⟩ := analyzePatternO_error ha
          rw [ha] at hp
          cases hp
        | ok r =>
          obtain ⟨b, a, n⟩ := r
          rw [ha] at hp
          have hloop : ∀ (i : Nat) (xs : List (Tensor α)), packLoopO ops b a n i xs ≠ .error (.other .einops) := by
            intro i xs
            induction xs generalizing i with
            | nil => intro h; cases h
            | cons x xs ih =>
              intro h
              simp only [packLoopO] at h
              split at h
              · cases h
              · split at h
                · rename_i hr
                  cases h
                  cases ho with
                  | numpy => cases reshape_err hr
                  | strict =>
                    have hr' : x.reshapeStrict _ = .error .einops := hr
                    unfold Tensor.reshapeStrict at hr'
                    split at hr'
                    · cases hr'
                    · cases reshape_err hr'
                · split at h
                  · rename_i hr
                    cases h
                    exact ih _ hr
                  · cases h
          cases xs with
          | nil => cases hp
          | cons x xs =>
            simp only at hp
            cases hl : packLoopO ops b a n 0 (x :: xs) with
            | error f => rw [hl] at hp; cases hp; exact hloop _ _ hl
            | ok r =>
              obtain ⟨ys, qs⟩ := r
              rw [hl] at hp
              simp only at hp
              split at hp
              · rename_i hc
                cases hp
                have hc' : Tensor.concat ys b = .error .einops := by
                  cases ho <;> exact hc
                exact concat_not_einops hc'
              · cases hp
  · rintro ⟨m, hm⟩
    rw [hm]
    have := packO_said hm
    cases m with
    | couldNotSplit n qs =>
      obtain ⟨ws, -, h⟩ := this
      exact h.elim
    | _ => rfl

/-! ### `unpack` -/

/-- **C83** What a message of `unpack` says is so — that an axis cannot be split as requested, unless -1 is requested and a
dimension besides the axis is 0. -/
theorem C83_unpack {ops : PackOps α} (ho : PackModelled ops) {x : Tensor α} {ps : List (List Int)} {m : PackMessage}
    (h : unpackO ops x ps pattern = .error (.said m))
    (h0 : ∀ (pre post : List Nat) N, IsPackPattern pattern pre.length post.length → x.shape = pre ++ N :: post →
      -1 ∈ ps.flatten → 0 ∉ pre ++ post) : m.SaysUnpack pattern x.shape ps := unpackO_said ho h h0

/-- Every exception of `unpack` has a message. -/
theorem C83_unpack_message (ops : PackOps α) (x : Tensor α) (ps : List (List Int)) :
    (∃ e, unpack ops x ps pattern = .error e) ↔ ∃ m, unpackO ops x ps pattern = .error (.said m) := by
  rw [← untold_unpackO]
  constructor
  · rintro ⟨e, h⟩
    cases hp : unpackO ops x ps pattern with
    | ok r => rw [hp] at h; cases h
    | error f =>
      cases f with
      | said m => exact ⟨m, rfl⟩
      | other e =>
        exfalso
        unfold unpackO at hp
        cases ha : analyzePatternO pattern with
        | error f =>
          obtain ⟨m, ws, rfl, -⟩ := analyzePatternO_error ha
          rw [ha] at hp
          cases hp
        | ok r =>
          obtain ⟨b, a, n⟩ := r
          rw [ha] at hp
          simp only at hp
          repeat' split at hp
          all_goals cases hp
  · rintro ⟨m, hm⟩
    exact ⟨_, by rw [hm]; rfl⟩

/-! ### `parse_shape` -/

/-- **C83** What a message of `parse_shape` says about the pattern and the shape is so. -/
theorem C83_parse_shape (hell : '…' ∉ pattern) {shape : List Nat} {m : ShapeMessage}
    (h : parseShapeO shape pattern = .error (.said m)) : m.Says pattern shape := parseShapeO_said hell h

/-- Every exception of `parse_shape` has a message, but for an ellipsis in parentheses. -/
theorem C83_parse_shape_message (hell : '…' ∉ pattern) (shape : List Nat) :
    (∃ e, parseShape shape pattern = .error e) ↔ (∃ m, parseShapeO shape pattern = .error (.said m)) ∨
      ∃ G, IsSide true false pattern G ∧ ParenDots G shape.length := by
  have key : ∀ (c : List CompAxis) (s : List Nat) acc e, shapeLoopO acc c s = .error (.other e) → e = .value := by
    intro c
    induction c with
    | nil => intro s acc e h; cases s <;> cases h
    | cons a c ih =>
      intro s acc e h
      cases s with
      | nil => cases h
      | cons n s =>
        simp only [shapeLoopO] at h
        split at h
        · rename_i hs
          cases h
          unfold shapeStepO at hs
          repeat' split at hs
          all_goals cases hs
          rfl
        · exact ih _ _ _ h
  constructor
  · rintro ⟨e, h⟩
    cases hp : parseShapeO shape pattern with
    | ok r => rw [← untold_parseShapeO, hp] at h; cases h
    | error f =>
      cases f with
      | said m => exact .inl ⟨m, rfl⟩
      | other e' =>
        right
        have he : e' = .value := by
          unfold parseShapeO at hp
          cases hs : parseExpressionM 0 true false pattern with
          | error m => rw [hs] at hp; cases hp
          | ok pe =>
            rw [hs] at hp
            simp only [tellingSide] at hp
            split at hp
            · cases hp
            · split at hp
              · cases hp
              · cases hc : shapeComposition pe shape.length with
                | ok c => rw [hc] at hp; exact key _ _ _ _ hp
                | error er =>
                  rw [hc] at hp
                  cases hp
                  unfold shapeComposition at hc
                  split at hc
                  · split at hc
                    · rename_i hi
                      cases hc
                      unfold indexE at hi
                      split at hi
                      · cases hi
                      · cases hi; rfl
                    · cases hc
                  · cases hc
        subst he
        have hv : parseShape shape pattern = .error .value := by rw [← untold_parseShapeO, hp]; rfl
        rcases (C72_parse_shape hell _).1 hv with ⟨h, -⟩ | ⟨G, hG, ⟨-, h⟩ | ⟨h, -⟩⟩
        · cases h
        · exact ⟨G, hG, h⟩
        · cases h
  · rintro (⟨m, hm⟩ | ⟨G, hG, h⟩)
    · exact ⟨_, by rw [← untold_parseShapeO, hm]; rfl⟩
    · exact ⟨_, (C72_parse_shape hell _).2 (.inr ⟨G, hG, .inl ⟨rfl, h⟩⟩)⟩

/-! ### `einsum` -/

/-- **C83** What a message of `einsum` says is so: about the arguments, or about the pattern. -/
theorem C83_einsum (f : Str → List (Tensor α) → Py (Tensor α)) (args : List (EinsumArg α)) {m : EinsumMessage}
    (h : einsumO f args = .error (.said m)) (hell : ∀ p, args.getLast? = some (.str p) → '…' ∉ p) :
    (m = .atLeastTwo ∧ args.length < 2) ∨ (m = .lastString ∧ ∃ x, args.getLast? = some (.tensor x)) ∨
      ∃ p, args.getLast? = some (.str p) ∧ m.Says p := by
  unfold einsumO at h
  split at h
  · rename_i hl
    cases h
    exact .inl ⟨rfl, by omega⟩
  · cases ha : args.getLast? with
    | none =>
      rw [List.getLast?_eq_none_iff] at ha
      subst ha
      rename_i hl
      simp at hl
    | some a =>
      rw [ha] at h
      cases a with
      | tensor x => cases h; exact .inr (.inl ⟨rfl, x, rfl⟩)
      | str p =>
        refine .inr (.inr ⟨p, rfl, ?_⟩)
        simp only at h
        cases hc : compactifyO p with
        | error f' => rw [hc] at h; cases h; exact compactifyO_said (hell p ha) hc
        | ok s =>
          rw [hc] at h
          simp only at h
          have htell : ∀ {β : Type u} (y : Py β), (telling y : PyEinsum β) ≠ .error (.said m) := by
            intro β y
            cases y <;> simp [telling]
          split at h
          · cases h
          · split at h
            · rename_i hh
              cases h
              exact absurd hh (htell _)
            · exact absurd h (htell _)

/-- For a well formed pattern of `einsum` the message is the one of the first trouble in reading order, and there is one
exactly if there is trouble. -/
theorem C83_einsum_first {Gs : List (List Elem)} {G : List Elem} (h : EinsumSides pattern Gs G) (f : Told EinsumMessage) :
    compactifyO pattern = .error f ↔ ∃ m, f = .said m ∧ EinsumTold Gs.flatten G m := compactifyO_told h f

/-- Every exception of a pattern of `einsum` has a message, but for a second arrow. -/
theorem C83_einsum_message (hell : '…' ∉ pattern) (f : Told EinsumMessage) (h : compactifyO pattern = .error f) :
    (∃ m, f = .said m) ∨ (f = .other .value ∧ ['-', '>'] <:+: pattern ∧ ¬ OneArrow pattern) := by
  by_cases hs : ∃ Gs G, EinsumSides pattern Gs G
  · obtain ⟨Gs, G, hs⟩ := hs
    obtain ⟨m, rfl, -⟩ := (compactifyO_told hs f).1 h
    exact .inl ⟨m, rfl⟩
  · cases f with
    | said m => exact .inl ⟨m, rfl⟩
    | other e =>
      right
      by_cases ho : OneArrow pattern
      · exfalso
        obtain ⟨l, r, hpat, hl, hr⟩ := ho
        have hsplit := splitArrow_iff.2 ⟨hpat, hl, hr⟩
        obtain ⟨hj, hne, -⟩ := splitOn_comma l
        unfold compactifyO at h
        split at h
        · cases h
        · rw [hsplit] at h
          simp only at h
          cases hm : mapE (fun s => tellingSide EinsumMessage.side (parseExpressionM 0 true true s)) (splitOn [','] l) with
          | error f' =>
            rw [hm] at h
            cases h
            obtain ⟨P, p, Q, -, hp, -⟩ := mapE_error_first hm
            cases hpe : parseExpressionM 0 true true p with
            | ok pe => rw [hpe] at hp; cases hp
            | error sm => rw [hpe] at hp; cases hp
          | ok lefts =>
            rw [hm] at h
            simp only at h
            cases hpe : parseExpressionM 1 true false r with
            | error sm => rw [hpe] at h; cases h
            | ok pe =>
              have hr' : '…' ∉ r := fun hc => hell (by rw [hpat]; simp [hc])
              have h3 : parseExpression 1 true false r = .ok pe := by rw [← erase_parseExpressionM, hpe]; rfl
              obtain ⟨G, hG, -⟩ := (parseExpression_iff 1 true false r hr' pe).1 h3
              have : ∀ parts : List Str, (∀ p ∈ parts, '…' ∉ p) →
                  (∀ p ∈ parts, ∃ pe, tellingSide EinsumMessage.side (parseExpressionM 0 true true p) = .ok pe) →
                  ∃ Gs, List.Forall₂ (IsSide true true) parts Gs := by
                intro parts
                induction parts with
                | nil => exact fun _ _ => ⟨[], .nil⟩
                | cons p parts ih =>
                  intro h1 h2
                  obtain ⟨Gs, hGs⟩ := ih (fun p hp => h1 p (by simp [hp])) (fun p hp => h2 p (by simp [hp]))
                  obtain ⟨pe, hpe⟩ := h2 p (by simp)
                  have h3 : parseExpression 0 true true p = .ok pe := by
                    rw [← erase_parseExpressionM]
                    cases hp : parseExpressionM 0 true true p with
                    | error e => rw [hp] at hpe; cases hpe
                    | ok pe' => rw [hp] at hpe; cases hpe; rfl
                  obtain ⟨G, hG, -⟩ := (parseExpression_iff 0 true true p (h1 p (by simp)) pe).1 h3
                  exact ⟨G :: Gs, .cons hG hGs⟩
              obtain ⟨Gs, hGs⟩ := this (splitOn [','] l) (fun p hp hc => hell (by
                rw [hpat, ← hj, List.append_assoc, List.mem_append]
                exact .inl (mem_of_mem_intercalate hp hc))) (mapE_ok_each hm)
              exact hs ⟨Gs, G, ⟨splitOn [','] l, r, hne, by rw [hj]; exact hpat, hGs, hG⟩⟩
      · unfold compactifyO at h
        split at h
        · cases h
        · rename_i hc
          refine ⟨?_, ?_, ho⟩
          · have hv := (compactify_not_sides hell hs).2 ho
            rw [← untold_compactifyO] at hv
            unfold compactifyO at hv
            rw [if_neg hc, h] at hv
            cases hv
            rfl
          · rw [← containsSub_iff]
            simpa using hc

end

/-! ### the texts -/

/-- **C83** The texts about `pack` and `unpack` show the pattern; those about `parse_shape` show the pattern and then the shape,
unless the pattern itself could not be read. -/
theorem C83_text (F : Format) (op pattern : Str) (shape : List Nat) :
    (∀ m : PackMessage, ∃ a b, m.text F op pattern = a ++ pattern ++ b) ∧
    ∀ m : ShapeMessage, (∀ sm, m ≠ .side sm) → ∃ a, m.text F pattern shape = a ++ pattern ++ [' '] ++ F.shape shape := by
  have k2 : ∀ a p b c : Str, ∃ x y, a ++ p ++ b ++ c = x ++ p ++ y := fun a p b c => ⟨a, b ++ c, by simp only [List.append_assoc]⟩
  have k3 : ∀ a p b c d : Str, ∃ x y, a ++ p ++ b ++ c ++ d = x ++ p ++ y := fun a p b c d =>
    ⟨a, b ++ c ++ d, by simp only [List.append_assoc]⟩
  have k4 : ∀ a p b c d e : Str, ∃ x y, a ++ p ++ b ++ c ++ d ++ e = x ++ p ++ y := fun a p b c d e =>
    ⟨a, b ++ c ++ d ++ e, by simp only [List.append_assoc]⟩
  constructor
  · intro m
    cases m with
    | duplicates => exact ⟨_, _, rfl⟩
    | noStar => exact ⟨_, _, rfl⟩
    | invalid a => exact ⟨_, _, rfl⟩
    | tooFewAxes i sh n => exact k3 _ _ _ _ _
    | wrongDim sh => exact k2 _ _ _ _
    | moreThanOne ps => exact k3 _ _ _ _ _
    | couldNotSplit n ps => exact k4 _ _ _ _ _ _
  · intro m hm
    cases m with
    | side sm => exact absurd rfl (hm sm)
    | _ => exact ⟨_, rfl⟩

/-! ### a message that is not true -/

section
attribute [local instance] asciiUnicode

/-- The message of `unpack` can be false: an axis of length 3 is split into one part of unknown length and one of length 1
without any trouble, but when another dimension is 0 the framework cannot tell the unknown length, and `unpack` says that it
could not split the axis. -/
theorem C83_unpack_false :
    unpackO (α := Nat) numpyPack ⟨[0, 3], [], rfl⟩ [[-1], [1]] "a *".toList =
      .error (.said (.couldNotSplit 3 [[-1], [1]])) ∧
    unpackO (α := Nat) strictPack ⟨[0, 3], [], rfl⟩ [[-1], [1]] "a *".toList =
      .error (.said (.couldNotSplit 3 [[-1], [1]])) ∧
    Resolves [[-1], [1]] 3 [[2], [1]] := by
  refine ⟨by rfl, by rfl, ⟨?_, by decide, by decide, by decide⟩⟩
  exact .cons (.cons (.inr rfl) .nil) (.cons (.cons (.inl rfl) .nil) .nil)

/-! ### Examples -/

example : packO numpyPack [vec 3] "a a *".toList = .error (.said .duplicates) := by rfl
example : packO numpyPack [vec 3] "a b".toList = .error (.said .noStar) := by rfl
example : packO numpyPack [vec 3] "a _b * 2c".toList = .error (.said (.invalid "_b".toList)) := by rfl
example : packO numpyPack [⟨[1, 1], [5], rfl⟩, vec 3] "a b *".toList = .error (.said (.tooFewAxes 1 [3] 2)) := by rfl
example : packO (α := Nat) numpyPack [] "*".toList = .error (.other .index) := by rfl
example : (PackMessage.tooFewAxes 1 [3] 2).SaysPack "a b *".toList [[1, 1], [3]] :=
  ⟨2, 0, ⟨["a".toList, "b".toList], [], words_iff.2 (by decide), rfl, rfl, by decide, by
    intro w hw
    rw [← checkAxisName_pack]
    revert w
    decide⟩, rfl, rfl, by decide, by decide⟩
example : (PackMessage.tooFewAxes 1 [3] 2).text asciiFormat "pack".toList "a b *".toList =
    "packed tensor #1 (enumeration starts with 0) has shape (3,), while pattern a b * assumes at least 2 axes".toList := by
  decide +kernel
example : (PackMessage.invalid "_b".toList).text asciiFormat "pack".toList "a _b *".toList =
    "Invalid axis name _b in pack(..., \"a _b *\")".toList := by decide +kernel
example : PackMessage.noStar.text asciiFormat "unpack".toList "a b".toList = "No *-axis in unpack(..., \"a b\")".toList := by
  decide +kernel
example : PackMessage.duplicates.text asciiFormat "pack".toList "a a *".toList =
    "Duplicates in axes names in pack(..., \"a a *\")".toList := by decide +kernel
example : (PackMessage.wrongDim [7]).text asciiFormat "unpack".toList "* a".toList =
    "unpack(..., * a) received input of wrong dim with shape (7,)".toList := by decide +kernel
example : (PackMessage.moreThanOne [[-1], [2, -1]]).text asciiFormat "unpack".toList "*".toList =
    "unpack(..., *) received more than one -1 in [[-1], [2, -1]] and can't infer dimensions".toList := by decide +kernel

example : unpackO numpyPack (vec 7) [[2], [5]] "* a".toList = .error (.said (.wrongDim [7])) := by rfl
example : unpackO numpyPack (vec 7) [[-1], [2, -1]] "*".toList = .error (.said (.moreThanOne [[-1], [2, -1]])) := by rfl
example : unpackO strictPack (vec 5) [[2, -1]] "*".toList = .error (.said (.couldNotSplit 5 [[2, -1]])) := by rfl
example : (PackMessage.couldNotSplit 5 [[2, -1], [3]]).text asciiFormat "unpack".toList "*".toList =
    "Error during unpack(..., \"*\"): could not split axis of size 5 into requested [[2, -1], [3]]".toList := by decide +kernel
/-- `C83_unpack`: five elements are no pairs -/
example : (PackMessage.couldNotSplit 5 [[2, -1]]).SaysUnpack "*".toList [5] [[2, -1]] :=
  C83_unpack .strict (x := vec 5) (by rfl) (by
    intro pre post N hp hx _
    have hx' : [5] = pre ++ N :: post := hx
    have h1 := congrArg List.length hx'
    simp only [List.length_cons, List.length_nil, List.length_append] at h1
    have hp0 : pre = [] := List.length_eq_zero_iff.1 (by omega)
    have hq0 : post = [] := List.length_eq_zero_iff.1 (by omega)
    simp [hp0, hq0])

example : parseShapeO [2, 3] "(a b) c".toList = .error (.said .composite) := by rfl
example : parseShapeO [2] "a ... c".toList = .error (.said .thisNumber) := by rfl
example : parseShapeO [2, 3] "a".toList = .error (.said .differentNumber) := by rfl
example : parseShapeO [2, 3, 4] "a ... 1".toList = .error (.said .notOne) := by rfl
example : parseShapeO [2, 3, 4] "a 3 5".toList = .error (.said .anonymous) := by rfl
example : parseShapeO [2, 3, 4] "a a b".toList = .error (.said (.side (.duplicate "a".toList))) := by rfl
example : parseShapeO [2, 3] "a (...)".toList = .error (.other .value) := by rfl
/-- the last element of `a ... 1` stands for the last dimension -/
example : ShapeMessage.SaysOf [2, 3, 4] [.bare "a".toList, .bare dots, .bare "1".toList] .notOne :=
  ⟨.bare "1".toList, 4, ⟨[.bare "a".toList, .bare dots], [], [2, 3], [], rfl, rfl,
    .word (w := "a".toList) (by decide) (by decide) (by decide) (.ellipsis (ds := [3]) .nil), by decide⟩, by decide, by decide⟩
example : ShapeMessage.thisNumber.text asciiFormat "a ... c".toList [2] =
    "Can't parse shape with this number of dimensions: a ... c (2,)".toList := by decide +kernel
example : ShapeMessage.composite.text asciiFormat "(a b)".toList [2] =
    "Can't parse shape with composite axes: (a b) (2,)".toList := by decide +kernel
example : ShapeMessage.differentNumber.text asciiFormat "a".toList [2, 3] =
    "Can't parse shape with different number of dimensions: a (2, 3)".toList := by decide +kernel
example : ShapeMessage.notOne.text asciiFormat "1".toList [2] = "Length of axis is not 1: 1 (2,)".toList := by decide +kernel
example : ShapeMessage.anonymous.text asciiFormat "3".toList [2] =
    "Length of anonymous axis does not match: 3 (2,)".toList := by decide +kernel

example : compactifyO "i j, j k".toList = .error (.said .noArrow) := by rfl
example : compactifyO "i 1 j, j k -> i".toList = .error (.said .singleton) := by rfl
example : compactifyO "i j, (j k) -> i ()".toList = .error (.said .rearrangement) := by rfl
example : compactifyO "i j, j k -> i 2".toList = .error (.said .anonymous) := by rfl
example : compactifyO "i j, j k -> i l".toList = .error (.said (.unknownAxis "l".toList)) := by rfl
example : compactifyO "i j, j -k -> i l".toList = .error (.said (.side (.unknownChar '-'))) := by rfl
example : compactifyO "i j -> j -> i".toList = .error (.other .value) := by rfl
example : einsumO (fun _ _ => .error .backend) [.tensor (vec 3), .tensor (vec 3)] = .error (.said .lastString) := by rfl
example : einsumO (α := Nat) (fun _ _ => .error .backend) [.str "a ->".toList] = .error (.said .atLeastTwo) := by rfl
/-- two troubles at once: the message is about the first one -/
example : EinsumTold [.bare "i".toList, .paren ["2".toList, "1".toList]] [.bare "k".toList, .paren []] .anonymous :=
  .input [.bare "i".toList] (.paren ["2".toList, "1".toList]) [] [.name "i".toList] _ rfl rfl (by decide)
    (.anonymous "2".toList (by decide) (by decide))
example : (EinsumMessage.unknownAxis "l".toList).text "i j, j k -> i l".toList =
    "Unknown axis l on right side of einsum i j, j k -> i l.".toList := by decide +kernel

end

end Einops
