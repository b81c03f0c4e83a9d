import Verif.Proofs.CallMessages
import Verif.Props.Exceptions

/-!
# Error messages say what is wrong (C79)
-/

namespace Einops

universe u

section
variable {α : Type u} [PyUnicode] {pattern : Str} {kw : List (Str × Size)}

/-- where a message comes from -/
theorem reduceM_message {b : Backend α} {so : SetOrder} {t : Input α} {red : Reduction α} {m : Message}
    (h : reduceM b so t pattern red kw = .error (.einops m)) : ∃ x, resolveInput b t = .ok x ∧
      (prepareRecipeM so pattern red.kind (kw.map Prod.fst) x.shape.length = .error (.einops m) ∨
        ∃ r, prepareRecipeM so pattern red.kind (kw.map Prod.fst) x.shape.length = .ok r ∧
          reconstructM r (x.shape.map Size.ofNat) kw = .error (.einops m)) := by
  unfold reduceM at h
  cases hx : resolveInput b t with
  | error e => rw [hx] at h; cases h
  | ok x =>
    refine ⟨x, rfl, ?_⟩
    rw [hx] at h
    simp only at h
    rw [show x.ndim = x.shape.length from rfl] at h
    cases hp : prepareRecipeM so pattern red.kind (kw.map Prod.fst) x.shape.length with
    | error e =>
      rw [hp] at h
      cases h
      exact .inl rfl
    | ok r =>
      refine .inr ⟨r, rfl, ?_⟩
      rw [hp] at h
      simp only at h
      cases hr : reconstructM r (x.shape.map Size.ofNat) kw with
      | error e => rw [hr] at h; cases h; rfl
      | ok c =>
        rw [hr] at h
        simp only at h
        cases ha : applyCooked b c x red with
        | error e => rw [ha] at h; cases h
        | ok y => rw [ha] at h; cases h

theorem message_of_prepare {b : Backend α} {so : SetOrder} {t : Input α} {x : Tensor α} {red : Reduction α} {m : Message}
    (hx : resolveInput b t = .ok x)
    (h : prepareRecipeM so pattern red.kind (kw.map Prod.fst) x.shape.length = .error (.einops m)) :
    reduceM b so t pattern red kw = .error (.einops m) := by
  unfold reduceM
  rw [hx]
  simp only
  rw [show x.ndim = x.shape.length from rfl, h]

theorem message_of_reconstruct {b : Backend α} {so : SetOrder} {t : Input α} {x : Tensor α} {red : Reduction α} {m : Message}
    {r : TransformRecipe} (hx : resolveInput b t = .ok x)
    (h : prepareRecipeM so pattern red.kind (kw.map Prod.fst) x.shape.length = .ok r)
    (h2 : reconstructM r (x.shape.map Size.ofNat) kw = .error (.einops m)) :
    reduceM b so t pattern red kw = .error (.einops m) := by
  unfold reduceM
  rw [hx]
  simp only
  rw [show x.ndim = x.shape.length from rfl, h]
  simp only
  rw [h2]

theorem erase_eq_ok {β : Type u} {x : PyM β} {a : β} (h : erase x = .ok a) : x = .ok a := by
  cases x with
  | ok b => cases h; rfl
  | error f => cases h

theorem prepareM_ok {so : SetOrder} {op : OpKind} {names : List Str} {ndim : Nat} {r : TransformRecipe}
    (h : prepareRecipe so pattern op names ndim = .ok r) : prepareRecipeM so pattern op names ndim = .ok r := by
  rw [← erase_prepareRecipeM] at h
  exact erase_eq_ok h

/-- the recipe behind a message about sizes -/
theorem prepareM_recipe {so : SetOrder} {op : OpKind} (hell : '…' ∉ pattern) {names : List Str} {ndim : Nat} {r : TransformRecipe}
    (h : prepareRecipeM so pattern op names ndim = .ok r) :
    ∃ GL GR ex, IsPattern pattern GL GR ∧ ExpandedWF ex ∧ Prepared op GL GR names ndim ex.left ex.rght ∧ namesOK ex names ∧
      r = recipeOf so ex names ∧ ∀ so', prepareRecipeM so' pattern op names ndim = .ok (recipeOf so' ex names) := by
  have he := erase_prepareRecipeM so pattern op names ndim
  rw [h] at he
  by_cases hp : ∃ GL GR, IsPattern pattern GL GR
  · obtain ⟨GL, GR, hp⟩ := hp
    rcases prepare_cases hp op names ndim with ⟨ex, wf, h1, h2, h3⟩ | ⟨_, h3⟩
    · rw [h3 so] at he
      cases he
      exact ⟨GL, GR, ex, hp, wf, h1, h2, rfl, fun so' => prepareM_ok (h3 so')⟩
    · rw [h3 so] at he
      cases he
  · rcases prepare_bad hell hp op names ndim with ⟨_, h3⟩ | ⟨_, h3⟩ <;> rw [h3 so] at he <;> cases he

/-! ### messages are true -/

/-- **C79** The message of an `EinopsError` is true: what it says about the pattern, the keywords and the shape is so. -/
theorem C79_true (hell : '…' ∉ pattern) (hkw : IntKw kw) {b : Backend α} {so : SetOrder} {t : Input α} {red : Reduction α}
    {m : Message} (h : reduceM b so t pattern red kw = .error (.einops m)) :
    ∃ x, resolveInput b t = .ok x ∧ m.Says red.kind pattern kw x.shape := by
  obtain ⟨x, hx, h1 | ⟨r, h1, h2⟩⟩ := reduceM_message h
  · exact ⟨x, hx, prepareRecipeM_says hell h1⟩
  · refine ⟨x, hx, ?_⟩
    obtain ⟨GL, GR, ex, hp, wf, hpr, hn, rfl, _⟩ := prepareM_recipe hell h1
    obtain ⟨g, l, p, hb, ⟨h3, rfl, h4⟩ | ⟨h3, rfl, h4⟩⟩ := reconstructM_says wf.plan hkw hn hpr.unknowns h2
    · exact ⟨GL, GR, hp, ex.left, ex.rght, g, hpr, hb, h3, h4⟩
    · exact ⟨GL, GR, hp, ex.left, ex.rght, g, hpr, hb, h3, h4⟩

/-- for one tensor -/
theorem C79_true_one (hell : '…' ∉ pattern) (hkw : IntKw kw) {b : Backend α} {so : SetOrder} {x : Tensor α} {red : Reduction α}
    {m : Message} (h : reduceM b so (.one x) pattern red kw = .error (.einops m)) : m.Says red.kind pattern kw x.shape := by
  obtain ⟨x', h1, h2⟩ := C79_true hell hkw h
  cases h1
  exact h2

/-- Messages of the parser are true, also when `_` or duplicates are allowed, and of any text. -/
theorem C79_side {side : Nat} {u d : Bool} {s : Str} {m : SideMessage} (h : parseExpressionM side u d s = .error m) :
    m.Says u d s := parseExpressionM_says h

/-- The parser has a message exactly for a text that is not a side. -/
theorem C79_side_iff (side : Nat) (u d : Bool) {s : Str} (hell : '…' ∉ s) :
    (∃ m, parseExpressionM side u d s = .error m) ↔ ¬ ∃ G, IsSide u d s G := by
  have he := erase_parseExpressionM side u d s
  constructor
  · rintro ⟨m, h⟩ ⟨G, hG⟩
    rw [h, (parseExpression_iff side u d s hell _).2 ⟨G, hG, rfl⟩] at he
    cases he
  · intro h
    cases hp : parseExpressionM side u d s with
    | error m => exact ⟨m, rfl⟩
    | ok p =>
      rw [hp] at he
      obtain ⟨G, hG, _⟩ := (parseExpression_iff side u d s hell _).1 he.symm
      exact absurd ⟨G, hG⟩ h

/-! ### when there is a message -/

/-- Without messages this is `reduce`. -/
theorem C79_erase (b : Backend α) (so : SetOrder) (t : Input α) (red : Reduction α) :
    erase (reduceM b so t pattern red kw) = reduce b so t pattern red kw := erase_reduceM b so t pattern red kw

/-- There is a message exactly if the pattern has one arrow and either breaks a rule (for the operation, the keywords and the
number of dimensions) or its sizes do not agree with the shape, unless they would lead to a division by 0. -/
theorem C79_message (hell : '…' ∉ pattern) (hkw : IntKw kw) (b : Backend α) (so : SetOrder) (x : Tensor α) (red : Reduction α) :
    (∃ m, reduceM b so (.one x) pattern red kw = .error (.einops m)) ↔
      OneArrow pattern ∧ ((¬ ∃ L, Parses red.kind pattern kw x.ndim L) ∨
        ∃ L g, Parses red.kind pattern kw x.ndim L ∧ FirstBad kw L x.shape g ∧ ¬ DividesByZero kw g) := by
  have hrec : ∀ {GL GR ex}, IsPattern pattern GL GR → ExpandedWF ex →
      Prepared red.kind GL GR (kw.map Prod.fst) x.ndim ex.left ex.rght → namesOK ex (kw.map Prod.fst) → ∀ so,
      erase (reconstructM (recipeOf so ex (kw.map Prod.fst)) (x.shape.map Size.ofNat) kw) =
        match firstErr kw ex.left (x.shape.map Size.ofNat) with
        | some e => .error e
        | none => .ok (cookedOf ex kw (x.shape.map Size.ofNat)) := by
    intro GL GR ex hp wf hpr hn so
    rw [erase_reconstructM]
    apply reconstruct_recipeOf so ex wf kw _ hkw.nodup hn hpr.unknowns
    rw [List.length_map]
    obtain ⟨_, _, _, _, hlen⟩ := hpr.groups
    exact hlen.symm
  have harr : ∀ {GL GR}, IsPattern pattern GL GR → OneArrow pattern := by
    rintro GL GR ⟨l, r, h2, h3, h4⟩
    exact ⟨l, r, h2, isSide_no_arrow h3, isSide_no_arrow h4⟩
  constructor
  · rintro ⟨m, h⟩
    obtain ⟨x', hx, h1 | ⟨r, h1, h2⟩⟩ := reduceM_message h <;> cases hx
    · have he := erase_prepareRecipeM so pattern red.kind (kw.map Prod.fst) x.shape.length
      rw [h1] at he
      by_cases hp : ∃ GL GR, IsPattern pattern GL GR
      · obtain ⟨GL, GR, hp⟩ := hp
        refine ⟨harr hp, .inl ?_⟩
        rcases prepare_cases hp red.kind (kw.map Prod.fst) x.shape.length with ⟨ex, _, _, _, h3⟩ | ⟨h3, _⟩
        · rw [h3 so] at he
          cases he
        · rintro ⟨L, GL', GR', R, hp', hpr⟩
          obtain ⟨rfl, rfl⟩ := isPattern_unique hp hp'
          exact h3 ⟨L, R, hpr⟩
      · rcases prepare_bad hell hp red.kind (kw.map Prod.fst) x.shape.length with ⟨h3, _⟩ | ⟨_, h3⟩
        · exact ⟨h3, .inl fun ⟨L, GL, GR, R, h4, _⟩ => hp ⟨GL, GR, h4⟩⟩
        · rw [h3 so] at he
          cases he
    · obtain ⟨GL, GR, ex, hp, wf, hpr, hn, rfl, _⟩ := prepareM_recipe hell h1
      refine ⟨harr hp, .inr ?_⟩
      have he := hrec hp wf hpr hn so
      rw [h2] at he
      cases hf : firstErr kw ex.left (x.shape.map Size.ofNat) with
      | none => rw [hf] at he; cases he
      | some e =>
        rw [hf] at he
        cases he
        obtain ⟨g, hg, ⟨h3, _⟩ | ⟨_, h3⟩⟩ := firstErr_firstBad hkw hf
        · cases h3
        · exact ⟨ex.left, g, ⟨GL, GR, ex.rght, hp, hpr⟩, hg, h3⟩
  · rintro ⟨ha, h | ⟨L, g, ⟨GL, GR, R, hp, hpr⟩, hg, hz⟩⟩
    · have key : prepareRecipe so pattern red.kind (kw.map Prod.fst) x.shape.length = .error .einops := by
        by_cases hp : ∃ GL GR, IsPattern pattern GL GR
        · obtain ⟨GL, GR, hp⟩ := hp
          rcases prepare_cases hp red.kind (kw.map Prod.fst) x.shape.length with ⟨ex, _, h3, _⟩ | ⟨_, h3⟩
          · exact absurd ⟨ex.left, GL, GR, ex.rght, hp, h3⟩ h
          · exact h3 so
        · rcases prepare_bad hell hp red.kind (kw.map Prod.fst) x.shape.length with ⟨_, h3⟩ | ⟨h3, _⟩
          · exact h3 so
          · exact absurd ha h3
      rw [← erase_prepareRecipeM] at key
      obtain ⟨m, hm⟩ := (noBare_prepareRecipeM so pattern red.kind (kw.map Prod.fst) x.shape.length).message key
      exact ⟨m, message_of_prepare rfl hm⟩
    · rcases prepare_cases hp red.kind (kw.map Prod.fst) x.shape.length with ⟨ex, wf, h3, hn, h4⟩ | ⟨h3, _⟩
      swap
      · exact absurd ⟨L, R, hpr⟩ h3
      obtain ⟨rfl, -⟩ := Prepared.unique hp h3 hp hpr
      have he := hrec hp wf h3 hn so
      cases hf : firstErr kw ex.left (x.shape.map Size.ofNat) with
      | none => exact absurd ((firstErr_allAgree hkw).1 hf) hg.not_allAgree
      | some e =>
        rw [hf] at he
        obtain ⟨g', hg', h5⟩ := firstErr_firstBad hkw hf
        obtain rfl := hg.unique hg'
        rcases h5 with ⟨_, h5⟩ | ⟨rfl, _⟩
        · exact absurd h5 hz
        · obtain ⟨m, hm⟩ := (noBare_reconstructM _ _ _).message he
          exact ⟨m, message_of_reconstruct rfl (prepareM_ok (h4 so)) hm⟩

/-- The message is about the writing of a side exactly if the pattern has one arrow but is not a pattern. -/
theorem C79_syntax (hell : '…' ∉ pattern) (hkw : IntKw kw) (b : Backend α) (so : SetOrder) (x : Tensor α) (red : Reduction α) :
    (∃ m, reduceM b so (.one x) pattern red kw = .error (.einops (.side m))) ↔
      OneArrow pattern ∧ ¬ ∃ GL GR, IsPattern pattern GL GR := by
  constructor
  · rintro ⟨m, h⟩
    obtain ⟨x', hx, h1 | ⟨r, h1, h2⟩⟩ := reduceM_message h <;> cases hx
    · refine ⟨?_, ?_⟩
      · obtain ⟨l, r, h2, h3, h4, _⟩ := prepareRecipeM_says hell h1
        exact ⟨l, r, h2, h3, h4⟩
      · rintro ⟨GL, GR, hp⟩
        obtain ⟨_, l, r, hs, hL, hR⟩ := isPattern_split hp
        exact prepareRecipeM_saysOf hs hell hL hR h1
    · exfalso
      obtain ⟨GL, GR, ex, hp, wf, hpr, hn, rfl, _⟩ := prepareM_recipe hell h1
      obtain ⟨g, l, p, _, ⟨_, h3, _⟩ | ⟨_, h3, _⟩⟩ := reconstructM_says wf.plan hkw hn hpr.unknowns h2 <;> cases h3
  · rintro ⟨⟨l, r, rfl, h1, h2⟩, hno⟩
    have hsp : splitArrow (l ++ ['-', '>'] ++ r) = .ok (l, r) := splitArrow_iff.2 ⟨rfl, h1, h2⟩
    have hell' := hell
    simp only [List.mem_append, not_or] at hell'
    have key : ∃ m, prepareRecipeM so (l ++ ['-', '>'] ++ r) red.kind (kw.map Prod.fst) x.shape.length =
        .error (.einops (.side m)) := by
      unfold prepareRecipeM
      rw [hsp]
      simp only
      by_cases hL : ∃ G, IsSide false false l G
      · obtain ⟨GL, hL⟩ := hL
        have hl := erase_parseExpressionM 0 false false l
        rw [(parseExpression_iff 0 false false l hell'.1.1 _).2 ⟨GL, hL, rfl⟩] at hl
        cases hpl : parseExpressionM 0 false false l with
        | error e => rw [hpl] at hl; cases hl
        | ok pl =>
          have hR : ¬ ∃ G, IsSide false false r G := by
            rintro ⟨GR, hR⟩
            exact hno ⟨GL, GR, l, r, rfl, hL, hR⟩
          obtain ⟨m, hm⟩ := (C79_side_iff 1 false false hell'.2).2 hR
          rw [hm]
          exact ⟨m, rfl⟩
      · obtain ⟨m, hm⟩ := (C79_side_iff 0 false false hell'.1.1).2 hL
        rw [hm]
        exact ⟨m, rfl⟩
    obtain ⟨m, hm⟩ := key
    exact ⟨m, message_of_prepare rfl hm⟩

/-! ### the order of sets -/

/-- Sets have no order in Python.  Whether there is a message does not depend on it, nor does the message, but for the order in
which axes are listed. -/
theorem C79_order (hell : '…' ∉ pattern) (hkw : IntKw kw) {b : Backend α} {so : SetOrder} (so' : SetOrder) {t : Input α}
    {red : Reduction α} {m : Message} (h : reduceM b so t pattern red kw = .error (.einops m)) :
    ∃ m', reduceM b so' t pattern red kw = .error (.einops m') ∧ m.Same m' := by
  obtain ⟨x, hx, h1 | ⟨r, h1, h2⟩⟩ := reduceM_message h
  · have he := erase_prepareRecipeM so pattern red.kind (kw.map Prod.fst) x.shape.length
    rw [h1] at he
    have key : prepareRecipe so' pattern red.kind (kw.map Prod.fst) x.shape.length = .error .einops := by
      by_cases hp : ∃ GL GR, IsPattern pattern GL GR
      · obtain ⟨GL, GR, hp⟩ := hp
        rcases prepare_cases hp red.kind (kw.map Prod.fst) x.shape.length with ⟨ex, _, _, _, h3⟩ | ⟨_, h3⟩
        · rw [h3 so] at he
          cases he
        · exact h3 so'
      · rcases prepare_bad hell hp red.kind (kw.map Prod.fst) x.shape.length with ⟨_, h3⟩ | ⟨_, h3⟩
        · exact h3 so'
        · rw [h3 so] at he
          cases he
    rw [← erase_prepareRecipeM] at key
    obtain ⟨m', hm'⟩ := (noBare_prepareRecipeM so' pattern red.kind (kw.map Prod.fst) x.shape.length).message key
    exact ⟨m', message_of_prepare hx hm', prepareRecipeM_same hell h1 hm'⟩
  · obtain ⟨GL, GR, ex, hp, wf, hpr, hn, rfl, hall⟩ := prepareM_recipe hell h1
    have hlen : (x.shape.map Size.ofNat).length = ex.left.length := by
      rw [List.length_map]
      obtain ⟨_, _, _, _, hlen⟩ := hpr.groups
      exact hlen.symm
    have e1 := erase_reconstructM (recipeOf so ex (kw.map Prod.fst)) (x.shape.map Size.ofNat) kw
    have e2 := erase_reconstructM (recipeOf so' ex (kw.map Prod.fst)) (x.shape.map Size.ofNat) kw
    rw [reconstruct_recipeOf so ex wf kw _ hkw.nodup hn hpr.unknowns hlen, h2] at e1
    rw [reconstruct_recipeOf so' ex wf kw _ hkw.nodup hn hpr.unknowns hlen] at e2
    cases hf : firstErr kw ex.left (x.shape.map Size.ofNat) with
    | none => rw [hf] at e1; cases e1
    | some e =>
      rw [hf] at e1 e2
      cases e1
      obtain ⟨m', hm'⟩ := (noBare_reconstructM _ _ _).message e2
      obtain rfl := reconstructM_same wf.plan hkw hn hpr.unknowns h2 hm'
      exact ⟨m, message_of_reconstruct hx (hall so') hm', .refl _⟩

/-! ### the text -/

omit [PyUnicode] in
theorem regroup (a b c d e f g h i j k l m : Str) :
    a ++ b ++ c ++ d ++ e ++ f ++ g ++ h ++ i ++ j ++ k ++ l ++ m =
      (a ++ b ++ c) ++ d ++ (e ++ f) ++ g ++ (h ++ i) ++ j ++ (k ++ l) ++ m := by
  simp only [List.append_assoc]

omit [PyUnicode] in
/-- The text of the exception shows the pattern, then the shape of the input, then the sizes given, and ends with the message. -/
theorem C79_text (F : Format) (op : OpKind) (shape : List Nat) (m : Message) :
    ∃ a b c d, callText F op pattern shape kw m = a ++ pattern ++ b ++ F.shape shape ++ c ++ sizesText F kw ++ d ++ m.text F :=
  ⟨_, _, _, _, regroup _ _ _ _ _ _ _ _ _ _ _ _ _⟩

end

/-! ### examples -/

section
attribute [local instance] asciiUnicode

/-- printable ASCII, numpy's way to show a shape -/
def asciiFormat : Format where
  printable := fun c => decide (' '.toNat ≤ c.toNat ∧ c.toNat ≤ '~'.toNat)
  callable := "<function>".toList
  shape := fun s => ['('] ++ List.intercalate ", ".toList (s.map natStr) ++ (if s.length = 1 then [',', ')'] else [')'])
  size := fun s => intStr s.val

/-- what is said about a call with a tensor of shape (4, 3) -/
def said (so : SetOrder) (op p : String) (kw : List (Str × Size)) : String :=
  match reduceM (numpyBackend intOps true) so (.one t43) p.toList (.name op.toList) kw with
  | .ok _ => "a result"
  | .error (.other _) => "another exception"
  | .error (.einops m) => String.ofList (m.text asciiFormat)

-- sides
example : said idOrder "rearrange" "a..b -> a b" [] = "Expression may contain dots only inside ellipsis (...)" := by
  decide +kernel
example : said idOrder "rearrange" "... a ... -> a" [] =
    "Expression may contain dots only inside ellipsis (...); only one ellipsis for tensor " := by decide +kernel
example : said idOrder "rearrange" "a a -> a" [] = "Indexing expression contains duplicate dimension \"a\"" := by decide +kernel
example : said idOrder "rearrange" "a 1b -> a" [] = "Invalid axis identifier: 1b\nnot a valid python identifier" := by
  decide +kernel
example : said idOrder "rearrange" "a b_ -> a" [] =
    "Invalid axis identifier: b_\naxis name should should not start or end with underscore" := by decide +kernel
example : said idOrder "rearrange" "a 0 -> a" [] = "Anonymous axis should have positive length, not 0" := by decide +kernel
example : said idOrder "rearrange" "(a (b)) -> a" [] =
    "Axis composition is one-level (brackets inside brackets not allowed)" := by decide +kernel
example : said idOrder "rearrange" "a) -> a" [] = "Brackets are not balanced" := by decide +kernel
example : said idOrder "rearrange" "a, b -> a" [] = "Unknown character ','" := by decide +kernel
example : said idOrder "rearrange" "a b -> (... a" [] = "Imbalanced parentheses in expression: \" (… a\"" := by decide +kernel
-- rules of the operations
example : said idOrder "rearrange" "a b -> ..." [] =
    "Ellipsis found in right side, but not left side of a pattern a b -> ..." := by decide +kernel
example : said idOrder "rearrange" "(... a) -> a" [] =
    "Ellipsis inside parenthesis in the left side is not allowed: (... a) -> a" := by decide +kernel
example : said idOrder "rearrange" "a b -> a b 2" [] =
    "Non-unitary anonymous axes are not supported in rearrange (exception is length 1)" := by decide +kernel
example : said idOrder "rearrange" "a b -> a c" [] =
    "Identifiers only on one side of expression (should be on both): {'b', 'c'}" := by decide +kernel
example : said revOrder "rearrange" "a b -> a c" [] =
    "Identifiers only on one side of expression (should be on both): {'c', 'b'}" := by decide +kernel
example : said idOrder "repeat" "a b -> a" [] = "Unexpected identifiers on the left side of repeat: {'b'}" := by decide +kernel
example : said idOrder "repeat" "a 3 -> a" [] = "Unexpected identifiers on the left side of repeat: {3-axis}" := by decide +kernel
example : said idOrder "repeat" "a b -> a b c 2 d" [kwInt "d" 2] = "Specify sizes for new axes in repeat: {'c'}" := by decide +kernel
example : said idOrder "max" "a b -> a c" [] = "Unexpected identifiers on the right side of reduce max: {'c'}" := by decide +kernel
example : said idOrder "median" "a b -> a" [] =
    "Unknown reduction median. Expect one of ('min', 'max', 'sum', 'mean', 'prod', 'any', 'all')." := by decide +kernel
-- dimensions and keywords
example : said idOrder "max" "a b c ... -> a" [] = "Wrong shape: expected >=3 dims. Received 2-dim tensor." := by decide +kernel
example : said idOrder "max" "a b c -> a" [] = "Wrong shape: expected 3 dims. Received 2-dim tensor." := by decide +kernel
example : said idOrder "max" "a b -> a" [kwInt "_a" 2] = "('Invalid name for an axis', '_a')" := by decide +kernel
example : said idOrder "max" "a b -> a" [kwInt "a" 4, kwInt "c" 2, kwInt "_d" 2] = "Axis c is not used in transform" := by
  decide +kernel
example : said idOrder "max" "(a c) (b 1 d) -> a" [kwInt "c" 2] = "Could not infer sizes for {'b', 'd'}" := by decide +kernel
-- sizes
example : said idOrder "max" "a (b 2) -> a" [kwInt "b" 2] = "Shape mismatch, 3 != 4" := by decide +kernel
example : said idOrder "max" "a (b 2) -> a" [] = "Shape mismatch, can't divide axis of length 3 in chunks of 2" := by
  decide +kernel
example : said idOrder "max" "(a c) b -> a" [kwInt "c" 0] = "another exception" := by decide +kernel
example : said idOrder "max" "(a c) b -> a" [kwInt "c" 2] = "a result" := by decide +kernel

-- the whole text
example : String.ofList (callText asciiFormat (.name "rearrange".toList) "(a c) b -> a b c".toList [4, 3] [kwInt "c" 3]
    (.notDivisible 4 3)) =
      " Error while processing rearrange-reduction pattern \"(a c) b -> a b c\".\n Input tensor shape: (4, 3). " ++
      "Additional info: {'c': 3}.\n Shape mismatch, can't divide axis of length 4 in chunks of 3" := by decide +kernel

-- the hypotheses can be met
example : (Message.mismatch 3 4).Says (.name "max".toList) "a (b 2) -> a".toList [kwInt "b" 2] [4, 3] :=
  C79_true_one (b := numpyBackend intOps true) (so := idOrder) (x := t43) (red := .name "max".toList) (by decide)
    ⟨by decide, by decide⟩ rfl
example : ∃ m', reduceM (numpyBackend intOps true) revOrder (.one t43) "a b -> a c".toList (.name "rearrange".toList) [] =
    .error (.einops m') ∧ (Message.oneSide [.str ['b'], .str ['c']]).Same m' :=
  C79_order (so := idOrder) (by decide) ⟨by decide, by decide⟩ revOrder rfl
-- not every true statement about a call is its message
example : ¬ (Message.mismatch 4 4).Says (.name "max".toList) "a (b 2) -> a".toList [kwInt "b" 2] [4, 3] := by
  rintro ⟨_, _, _, _, _, _, _, _, _, h⟩
  exact h rfl
-- the character that stands for an ellipsis inside the parser is taken for a letter (C79_side covers this too)
example : said idOrder "rearrange" "a… b -> a b" [] = "Invalid axis identifier: a…\nnot a valid python identifier" := by
  decide +kernel
end

end Einops
